import Verif.TableInv
/-
  getOrInsert, del, match on table tries; order, number and height of the entries.
-/
namespace Addrs
open GoWord LawfulGoWord

section
variable {α D : Type} [LawfulGoWord α]

theorem Sub.irrefl_side {p q k : Prefix α} {b c : Bool} (h : Sub p q b) (h' : Sub p k c) (hbc : b ≠ c) :
    ¬ SubEq q k := by
  intro e
  exact hbc ((h.trans_subEq e).side.symm.trans h'.side)

theorem SubEq.sameKey {p q : Prefix α} (h : SubEq p q) (hl : q.len ≤ p.len) : SameKey p q :=
  ⟨Nat.le_antisymm h.1 hl, h.2⟩

theorem SameKey.subEq {p q : Prefix α} (h : SameKey p q) : SubEq p q := ⟨Nat.le_of_eq h.1, h.2⟩

namespace Trie

theorem mem_node {p : Prefix α} {d : Option D} {n h act} {l r : Trie α D} {x} :
    x ∈ (Trie.node p d n h act l r).entries ↔
      (act = true ∧ x = (p, d)) ∨ x ∈ l.entries ∨ x ∈ r.entries := by
  simp only [entries, List.mem_append]
  cases act <;> simp

/-! ### getOrInsert -/

theorem getOrInsert_spec (k : Prefix α) (hk : k.WF) (d : Option D) (t : Trie α D) (hi : TInv t) :
    (∀ x, x ∈ t.entries → SameKey x.1 k → getOrInsert k d t = (t, x.2)) ∧
    ((∀ x, x ∈ t.entries → ¬ SameKey x.1 k) →
      ∃ t', insert ⟨true, false, fun _ _ => false⟩ k d t = some t' ∧ getOrInsert k d t = (t', d)) := by
  induction t with
  | nil =>
    refine ⟨fun x hx => (by cases hx), fun _ => ⟨mk k d true nil nil, ?_, ?_⟩⟩
    · rw [insert]; rfl
    · rw [getOrInsert]
  | node p e n h act l r ihl ihr =>
    have hspec := insert_spec ⟨true, false, fun _ _ => false⟩ k hk d _ hi
    have hsub := fun x => hi.subEq rfl (x := x)
    obtain ⟨wf, il, ir, hl, hr, two, eme⟩ := hi.inv
    obtain ⟨ihl1, ihl2⟩ := ihl hl
    obtain ⟨ihr1, ihr2⟩ := ihr hr
    by_cases hlen : k.len < p.len
    · have habs : ∀ x, x ∈ (Trie.node p e n h act l r).entries → ¬ SameKey x.1 k :=
        fun x hx => not_sameKey_of_shorter hlen (hsub x hx)
      refine ⟨fun x hx hxk => absurd hxk (habs x hx), fun _ => ?_⟩
      obtain ⟨t', ht', _⟩ := (hspec.absent habs).2 rfl
      refine ⟨t', ht', ?_⟩
      rw [getOrInsert]
      simp only [hlen, if_true, ht', Option.getD_some]
    · rcases containsP_spec (s := p) (l := k) wf with ⟨h1, h2⟩ | ⟨m, hm, h1, h3, h2⟩
      · by_cases hex : p.len = k.len
        · -- same key
          have hs : SameKey p k := ⟨hex, h1⟩
          have hnl : ∀ x, x ∈ l.entries → ¬ SameKey x.1 k := fun x hx e =>
            (hl.side il hx).not_sameKey (hs.trans e.symm)
          have hnr : ∀ x, x ∈ r.entries → ¬ SameKey x.1 k := fun x hx e =>
            (hr.side ir hx).not_sameKey (hs.trans e.symm)
          refine ⟨fun x hx hxk => ?_, fun habs => ?_⟩
          · rcases mem_node.mp hx with ⟨ha, rfl⟩ | hx | hx
            · subst ha
              rw [getOrInsert]
              simp [hlen, h2, hex]
            · exact absurd hxk (hnl x hx)
            · exact absurd hxk (hnr x hx)
          · obtain ⟨t', ht', _⟩ := (hspec.absent habs).2 rfl
            refine ⟨t', ht', ?_⟩
            have ha : act = false := by
              cases act with
              | false => rfl
              | true => exact absurd hs (habs _ (mem_node.mpr (Or.inl ⟨rfl, rfl⟩)))
            subst ha
            rw [getOrInsert]
            simp [h2, hex, ht']
        · -- below
          have hs : Sub p k (bit k.addr p.len) := ⟨by omega, h1, rfl⟩
          have hcmp : compareP p k = (.contains, false, p.len, bit k.addr p.len) := by
            simp [compareP, hlen, h2, hex]
          have hnp : ¬ SameKey p k := hs.not_sameKey
          cases hb : bit k.addr p.len with
          | true =>
            rw [hb] at hs hcmp
            have hnl : ∀ x, x ∈ l.entries → ¬ SameKey x.1 k := fun x hx =>
              (hl.side il hx).ne_of_side hs (by simp)
            have hg : getOrInsert k d (.node p e n h act l r) =
                (mk p e act l (getOrInsert k d r).1, (getOrInsert k d r).2) := by
              rw [getOrInsert]; simp [hlen, h2, hex, hb]
            refine ⟨fun x hx hxk => ?_, fun habs => ?_⟩
            · rcases mem_node.mp hx with ⟨_, rfl⟩ | hx | hx
              · exact absurd hxk hnp
              · exact absurd hxk (hnl x hx)
              · rw [hg, ihr1 x hx hxk, eme]
            · obtain ⟨r', g1, g2⟩ := ihr2 fun x hx => habs x (mem_node.mpr (Or.inr (Or.inr hx)))
              refine ⟨mk p e act l r', ?_, by rw [hg, g2]⟩
              rw [insert, hcmp]; simp only [if_true, g1]
          | false =>
            rw [hb] at hs hcmp
            have hnr : ∀ x, x ∈ r.entries → ¬ SameKey x.1 k := fun x hx =>
              (hr.side ir hx).ne_of_side hs (by simp)
            have hg : getOrInsert k d (.node p e n h act l r) =
                (mk p e act (getOrInsert k d l).1 r, (getOrInsert k d l).2) := by
              rw [getOrInsert]; simp [hlen, h2, hex, hb]
            refine ⟨fun x hx hxk => ?_, fun habs => ?_⟩
            · rcases mem_node.mp hx with ⟨_, rfl⟩ | hx | hx
              · exact absurd hxk hnp
              · rw [hg, ihl1 x hx hxk, eme]
              · exact absurd hxk (hnr x hx)
            · obtain ⟨l', g1, g2⟩ := ihl2 fun x hx => habs x (mem_node.mpr (Or.inr (Or.inl hx)))
              refine ⟨mk p e act l' r, ?_, by rw [hg, g2]⟩
              rw [insert, hcmp]; simp only [Bool.false_eq_true, if_false, g1]
      · have habs : ∀ x, x ∈ (Trie.node p e n h act l r).entries → ¬ SameKey x.1 k :=
          fun x hx => not_sameKey_of_disjoint hm h3 (by omega) (hsub x hx)
        refine ⟨fun x hx hxk => absurd hxk (habs x hx), fun _ => ?_⟩
        obtain ⟨t', ht', _⟩ := (hspec.absent habs).2 rfl
        refine ⟨t', ht', ?_⟩
        rw [getOrInsert]
        simp [h2, ht']

/-! ### del -/

/-- What `del` does, in terms of entries. -/
structure DelSpec (k : Prefix α) (t : Trie α D) (res : Option (Trie α D)) : Prop where
  found : ∀ x, x ∈ t.entries → SameKey x.1 k →
    ∃ t', res = some t' ∧ ∀ y, y ∈ t'.entries ↔ y ∈ t.entries ∧ ¬ SameKey y.1 k
  /-- a key that is not an entry: nothing changes, but success is reported if there are entries in
      both halves of the key -/
  absent : (∀ x, x ∈ t.entries → ¬ SameKey x.1 k) →
    (res = none ∧ ¬ ∃ x y, x ∈ t.entries ∧ y ∈ t.entries ∧ Sub k x.1 false ∧ Sub k y.1 true) ∨
    (∃ t', res = some t' ∧ (∀ y, y ∈ t'.entries ↔ y ∈ t.entries) ∧
      ∃ x y, x ∈ t.entries ∧ y ∈ t.entries ∧ Sub k x.1 false ∧ Sub k y.1 true)
  inv : ∀ t', res = some t' → TInv t' ∧ ∀ p b, Inside p b t → Inside p b t'

theorem inside_trans {p q : Prefix α} {b c : Bool} {t : Trie α D} (h : Sub p q b) (ht : Inside q c t) :
    Inside p b t := by
  cases t with
  | nil => trivial
  | node q' _ _ _ _ _ _ => exact Sub.trans h ht

theorem ne_nil_of_mem {t : Trie α D} {x} (h : x ∈ t.entries) : t ≠ nil := by
  rintro rfl; cases h

/-- removing below: one child replaced -/
theorem del_child {p k : Prefix α} {e : Option D} {act : Bool} {c : Trie α D} {other : Trie α D}
    {b : Bool} {n h : Nat} (hs : Sub p k b) (hi : TInv (.node p e n h act (if b then other else c) (if b then c else other)))
    (ih : DelSpec k c (del k c)) :
    DelSpec k (.node p e n h act (if b then other else c) (if b then c else other))
      (match del k c with
        | none => none
        | some c' => if c'.isNil && !act then some other else
            some (mk p e act (if b then other else c') (if b then c' else other))) := by
  obtain ⟨wf, il, ir, hl, hr, two, eme⟩ := hi.inv
  have hc : TInv c := by cases b <;> assumption
  have ho : TInv other := by cases b <;> assumption
  have ic : Inside p b c := by cases b <;> assumption
  have io : Inside p (!b) other := by cases b <;> assumption
  have hmem : ∀ {x}, x ∈ (Trie.node p e n h act (if b then other else c) (if b then c else other)).entries ↔
      (act = true ∧ x = (p, e)) ∨ x ∈ c.entries ∨ x ∈ other.entries := by
    intro x; rw [mem_node]
    cases b <;> simp [or_comm, or_left_comm]
  have hno : ∀ x, x ∈ other.entries → ¬ SameKey x.1 k := fun x hx =>
    (ho.side io hx).ne_of_side hs (by simp)
  have hnp : ¬ SameKey p k := hs.not_sameKey
  have hmemk : ∀ c' {x}, x ∈ (mk p e act (if b then other else c') (if b then c' else other)).entries ↔
      (act = true ∧ x = (p, e)) ∨ x ∈ c'.entries ∨ x ∈ other.entries := by
    intro c' x; rw [mem_mk]
    cases b <;> simp [or_comm, or_left_comm]
  have hinv : ∀ c', TInv c' → Inside p b c' → (act = false → c' ≠ nil) →
      TInv (mk p e act (if b then other else c') (if b then c' else other)) := by
    intro c' h1 h2 h3
    cases b with
    | true => exact .mk _ _ _ _ _ wf io h2 ho h1 (fun h => ⟨(two h).1, h3 h⟩)
    | false => exact .mk _ _ _ _ _ wf h2 io h1 ho (fun h => ⟨h3 h, (two h).2⟩)
  -- entries in both halves of `k` all lie in `c`
  have hboth : (∃ x y, x ∈ (Trie.node p e n h act (if b then other else c) (if b then c else other)).entries ∧
      y ∈ (Trie.node p e n h act (if b then other else c) (if b then c else other)).entries ∧
      Sub k x.1 false ∧ Sub k y.1 true) ↔
      ∃ x y, x ∈ c.entries ∧ y ∈ c.entries ∧ Sub k x.1 false ∧ Sub k y.1 true := by
    have key : ∀ x, x ∈ (Trie.node p e n h act (if b then other else c) (if b then c else other)).entries →
        ∀ s, Sub k x.1 s → x ∈ c.entries := by
      intro x hx s hks
      rcases hmem.mp hx with ⟨_, rfl⟩ | hx | hx
      · have := hs.lt; have := hks.lt; simp only at this; omega
      · exact hx
      · have h1 := ho.side io hx
        have h2 := hs.trans hks
        have := h1.side.symm.trans h2.side
        cases b <;> simp at this
    constructor
    · rintro ⟨x, y, hx, hy, h1, h2⟩; exact ⟨x, y, key x hx _ h1, key y hy _ h2, h1, h2⟩
    · rintro ⟨x, y, hx, hy, h1, h2⟩
      exact ⟨x, y, hmem.mpr (Or.inr (Or.inl hx)), hmem.mpr (Or.inr (Or.inl hy)), h1, h2⟩
  -- the result in one form
  have hres : ∀ c', del k c = some c' → ∃ t', (match del k c with
        | none => none
        | some c' => if c'.isNil && !act then some other else
            some (mk p e act (if b then other else c') (if b then c' else other))) = some t' ∧
      (∀ y, y ∈ t'.entries ↔ (act = true ∧ y = (p, e)) ∨ y ∈ c'.entries ∨ y ∈ other.entries) ∧
      TInv t' ∧ ∀ q s, Sub q p s → Inside q s t' := by
    intro c' hc'
    rw [hc']
    obtain ⟨i1, i2⟩ := ih.inv c' hc'
    cases c' with
    | nil =>
      cases act with
      | false =>
        refine ⟨other, rfl, fun y => by simp [entries], ho, fun q s hq => inside_trans hq io⟩
      | true =>
        exact ⟨_, rfl, fun y => by rw [hmemk], hinv _ .empty trivial (by simp), fun q s hq => hq⟩
    | node q' _ _ _ _ _ _ =>
      exact ⟨_, rfl, fun y => by rw [hmemk], hinv _ i1 (i2 _ _ ic) (by simp), fun q s hq => hq⟩
  refine ⟨fun x hx hxk => ?_, fun habs => ?_, fun t' ht' => ?_⟩
  · rcases hmem.mp hx with ⟨_, rfl⟩ | hx | hx
    · exact absurd hxk hnp
    · obtain ⟨c', g1, g2⟩ := ih.found x hx hxk
      obtain ⟨t', g3, g4, _⟩ := hres c' g1
      refine ⟨t', g3, fun y => ?_⟩
      rw [g4, g2, hmem]
      constructor
      · rintro (⟨h, rfl⟩ | h | h)
        · exact ⟨Or.inl ⟨h, rfl⟩, hnp⟩
        · exact ⟨Or.inr (Or.inl h.1), h.2⟩
        · exact ⟨Or.inr (Or.inr h), hno y h⟩
      · rintro ⟨h | h | h, h'⟩
        · exact Or.inl h
        · exact Or.inr (Or.inl ⟨h, h'⟩)
        · exact Or.inr (Or.inr h)
    · exact absurd hxk (hno x hx)
  · rw [hboth]
    rcases ih.absent (fun x hx => habs x (hmem.mpr (Or.inr (Or.inl hx)))) with ⟨g1, g2⟩ | ⟨c', g1, g2, g3⟩
    · left
      refine ⟨by rw [g1], g2⟩
    · right
      obtain ⟨t', g5, g4, _⟩ := hres c' g1
      refine ⟨t', g5, fun y => ?_, g3⟩
      rw [g4, g2, hmem]
  · cases hd : del k c with
    | none => rw [hd] at ht'; cases ht'
    | some c' =>
      obtain ⟨t'', g1, _, g2, g3⟩ := hres c' hd
      rw [g1] at ht'; injection ht' with ht'; subst ht'
      exact ⟨g2, fun q s hq => g3 q s hq⟩

theorem del_spec (k : Prefix α) (hk : k.WF) (t : Trie α D) (hi : TInv t) : DelSpec k t (del k t) := by
  induction t with
  | nil =>
    refine ⟨fun x hx => (by cases hx), fun _ => Or.inl ⟨by rw [del], ?_⟩, fun t' h => ?_⟩
    · rintro ⟨x, _, hx, _⟩; cases hx
    · rw [del] at h; cases h
  | node p e n h act l r ihl ihr =>
    have hsub := fun x => hi.subEq rfl (x := x)
    have hiv := hi.inv
    obtain ⟨wf, il, ir, hl, hr, two, eme⟩ := hiv
    have ihl := ihl hl
    have ihr := ihr hr
    rcases compareP_cases wf hk with ⟨hs, hc⟩ | ⟨c, hs, hc⟩ | ⟨c, hs, hc⟩ | ⟨m, rev, c, h1, h2, h3, h4, h5, h6, hc⟩
    · have hnl : ∀ x, x ∈ l.entries → ¬ SameKey x.1 k := fun x hx e =>
        (hl.side il hx).not_sameKey (hs.trans e.symm)
      have hnr : ∀ x, x ∈ r.entries → ¬ SameKey x.1 k := fun x hx e =>
        (hr.side ir hx).not_sameKey (hs.trans e.symm)
      have hres : ∃ t', del k (.node p e n h act l r) = some t' ∧
          (∀ y, y ∈ t'.entries ↔ y ∈ l.entries ∨ y ∈ r.entries) ∧ TInv t' ∧
          ∀ q s, Sub q p s → Inside q s t' := by
        rw [del, hc]
        cases l with
        | nil => exact ⟨r, rfl, fun y => by simp [entries], hr, fun q s hq => inside_trans hq ir⟩
        | node lp _ _ _ _ _ _ =>
          cases r with
          | nil => exact ⟨_, rfl, fun y => by simp [entries], hl, fun q s hq => inside_trans hq il⟩
          | node rp _ _ _ _ _ _ =>
            refine ⟨_, rfl, fun y => ?_, .mk _ _ _ _ _ wf il ir hl hr (by simp), fun q s hq => hq⟩
            rw [mem_mk]; simp
      obtain ⟨t', g1, g2, g3, g4⟩ := hres
      rw [g1]
      refine ⟨fun x hx hxk => ⟨t', rfl, fun y => ?_⟩, fun habs => Or.inr ⟨t', rfl, fun y => ?_, ?_⟩,
        fun t'' h'' => ?_⟩
      · rw [g2, mem_node]
        constructor
        · rintro (h | h)
          · exact ⟨Or.inr (Or.inl h), hnl y h⟩
          · exact ⟨Or.inr (Or.inr h), hnr y h⟩
        · rintro ⟨⟨_, rfl⟩ | h | h, h'⟩
          · exact absurd hs h'
          · exact Or.inl h
          · exact Or.inr h
      · have ha : act = false := by
          cases act with
          | false => rfl
          | true => exact absurd hs (habs _ (mem_node.mpr (Or.inl ⟨rfl, rfl⟩)))
        rw [g2, mem_node]; simp [ha]
      · have ha : act = false := by
          cases act with
          | false => rfl
          | true => exact absurd hs (habs _ (mem_node.mpr (Or.inl ⟨rfl, rfl⟩)))
        obtain ⟨x, hx⟩ := hl.exists_entry (two ha).1
        obtain ⟨y, hy⟩ := hr.exists_entry (two ha).2
        exact ⟨x, y, mem_node.mpr (Or.inr (Or.inl hx)), mem_node.mpr (Or.inr (Or.inr hy)),
          (hl.side il hx).congr_left hs, (hr.side ir hy).congr_left hs⟩
      · injection h'' with h''; subst h''
        exact ⟨g3, fun q s hq => g4 q s hq⟩
    · cases c with
      | true =>
        have := del_child (b := true) (c := r) (other := l) (n := n) (h := h) (e := e) (act := act) hs hi ihr
        simp only [if_true] at this
        rw [del, hc]
        exact this
      | false =>
        have := del_child (b := false) (c := l) (other := r) (n := n) (h := h) (e := e) (act := act) hs hi ihl
        simp only [Bool.false_eq_true, if_false] at this
        rw [del, hc]
        exact this
    · have habs : ∀ x, x ∈ (Trie.node p e n h act l r).entries → ¬ SameKey x.1 k :=
        fun x hx => not_sameKey_of_shorter hs.lt (hsub x hx)
      have hd : del k (.node p e n h act l r) = none := by rw [del, hc]
      rw [hd]
      refine ⟨fun x hx hxk => absurd hxk (habs x hx), fun _ => Or.inl ⟨rfl, ?_⟩, fun t' h' => by cases h'⟩
      rintro ⟨x, y, hx, hy, g1, g2⟩
      have a1 := (hs.trans_subEq (hsub x hx)).side
      have a2 := (hs.trans_subEq (hsub y hy)).side
      have := (g1.side.symm.trans a1).trans (a2.symm.trans g2.side)
      cases this
    · have habs : ∀ x, x ∈ (Trie.node p e n h act l r).entries → ¬ SameKey x.1 k :=
        fun x hx => not_sameKey_of_disjoint h1 h4 h2 (hsub x hx)
      have hd : del k (.node p e n h act l r) = none := by rw [del, hc]
      rw [hd]
      refine ⟨fun x hx hxk => absurd hxk (habs x hx), fun _ => Or.inl ⟨rfl, ?_⟩, fun t' h' => by cases h'⟩
      rintro ⟨x, y, hx, hy, g1, g2⟩
      exact h4 (((hsub x hx).2 m h1).trans (g1.agree m h2).symm)

/-! ### match -/

theorem match_spec (k : Prefix α) (t : Trie α D) (hi : TInv t) :
    (∀ x, t.match k = some x → x ∈ t.entries ∧ SubEq x.1 k ∧
      ∀ y, y ∈ t.entries → SubEq y.1 k → SubEq y.1 x.1) ∧
    (t.match k = none → ∀ y, y ∈ t.entries → ¬ SubEq y.1 k) := by
  induction t with
  | nil => exact ⟨fun x h => (by cases h), fun _ y hy => by cases hy⟩
  | node p e n h act l r ihl ihr =>
    have hsub := fun x => hi.subEq rfl (x := x)
    obtain ⟨wf, il, ir, hl, hr, two, eme⟩ := hi.inv
    obtain ⟨ihl1, ihl2⟩ := ihl hl
    obtain ⟨ihr1, ihr2⟩ := ihr hr
    by_cases hlen : k.len < p.len
    · have hm : (Trie.node p e n h act l r).match k = none := by rw [«match»]; simp [hlen]
      rw [hm]
      refine ⟨fun x h => (by cases h), fun _ y hy hk => ?_⟩
      have := (hsub y hy).1; have := hk.1; omega
    · rcases containsP_spec (s := p) (l := k) wf with ⟨h1, h2⟩ | ⟨m, hm, h1, h3, h2⟩
      · by_cases hex : p.len = k.len
        · have hs : SameKey p k := ⟨hex, h1⟩
          have hnl : ∀ x, x ∈ l.entries → ¬ SubEq x.1 k := fun x hx e => by
            have := (hl.side il hx).lt; have := e.1; omega
          have hnr : ∀ x, x ∈ r.entries → ¬ SubEq x.1 k := fun x hx e => by
            have := (hr.side ir hx).lt; have := e.1; omega
          have hm : (Trie.node p e n h act l r).match k = if act then some (p, e) else none := by
            rw [«match»]; simp [hlen, h2, hex]
          rw [hm]
          cases act with
          | true =>
            refine ⟨fun x h => ?_, fun h => by cases h⟩
            simp only [if_true, Option.some.injEq] at h; subst h
            refine ⟨mem_node.mpr (Or.inl ⟨rfl, rfl⟩), hs.subEq, fun y hy hk => ?_⟩
            rcases mem_node.mp hy with ⟨_, rfl⟩ | hy | hy
            · exact SubEq.refl _
            · exact absurd hk (hnl y hy)
            · exact absurd hk (hnr y hy)
          | false =>
            refine ⟨fun x h => (by simp at h), fun _ y hy hk => ?_⟩
            rcases mem_node.mp hy with ⟨h, _⟩ | hy | hy
            · cases h
            · exact hnl y hy hk
            · exact hnr y hy hk
        · have hs : Sub p k (bit k.addr p.len) := ⟨by omega, h1, rfl⟩
          have hm : (Trie.node p e n h act l r).match k =
              match (if bit k.addr p.len then r.match k else l.match k) with
              | some x => some x
              | none => if act then some (p, e) else none := by
            rw [«match»]; simp [hlen, h2, hex]; rfl
          have key : ∀ (c other : Trie α D) (b : Bool), Sub p k b → Inside p b c → Inside p (!b) other →
              TInv c → TInv other →
              (∀ x, x ∈ (Trie.node p e n h act l r).entries ↔
                (act = true ∧ x = (p, e)) ∨ x ∈ c.entries ∨ x ∈ other.entries) →
              (∀ x, c.match k = some x → x ∈ c.entries ∧ SubEq x.1 k ∧
                ∀ y, y ∈ c.entries → SubEq y.1 k → SubEq y.1 x.1) →
              (c.match k = none → ∀ y, y ∈ c.entries → ¬ SubEq y.1 k) →
              ∀ res, res = (match c.match k with
                | some x => some x
                | none => if act then some (p, e) else none) →
              (∀ x, res = some x → x ∈ (Trie.node p e n h act l r).entries ∧ SubEq x.1 k ∧
                ∀ y, y ∈ (Trie.node p e n h act l r).entries → SubEq y.1 k → SubEq y.1 x.1) ∧
              (res = none → ∀ y, y ∈ (Trie.node p e n h act l r).entries → ¬ SubEq y.1 k) := by
            intro c other b hs ic io hc ho hmem ih1 ih2 res hres
            have hno : ∀ y, y ∈ other.entries → ¬ SubEq y.1 k := fun y hy =>
              (ho.side io hy).irrefl_side hs (by simp)
            cases hcm : c.match k with
            | some z =>
              rw [hcm] at hres
              obtain ⟨z1, z2, z3⟩ := ih1 z hcm
              refine ⟨fun x hx => ?_, fun hx => by rw [hres] at hx; cases hx⟩
              rw [hres] at hx; injection hx with hx; subst hx
              refine ⟨(hmem _).mpr (Or.inr (Or.inl z1)), z2, fun y hy hk => ?_⟩
              rcases (hmem y).mp hy with ⟨_, rfl⟩ | hy | hy
              · exact (hc.side ic z1).subEq
              · exact z3 y hy hk
              · exact absurd hk (hno y hy)
            | none =>
              rw [hcm] at hres
              have hnc := ih2 hcm
              cases ha : act with
              | true =>
                rw [ha] at hres hmem
                simp only [if_true] at hres
                refine ⟨fun x hx => ?_, fun hx => by rw [hres] at hx; cases hx⟩
                rw [hres] at hx; injection hx with hx; subst hx
                refine ⟨(hmem _).mpr (Or.inl ⟨rfl, rfl⟩), hs.subEq, fun y hy hk => ?_⟩
                rcases (hmem y).mp hy with ⟨_, rfl⟩ | hy | hy
                · exact SubEq.refl _
                · exact absurd hk (hnc y hy)
                · exact absurd hk (hno y hy)
              | false =>
                rw [ha] at hres hmem
                simp only [Bool.false_eq_true, if_false] at hres
                refine ⟨fun x hx => (by rw [hres] at hx; cases hx), fun _ y hy hk => ?_⟩
                rcases (hmem y).mp hy with ⟨h, _⟩ | hy | hy
                · cases h
                · exact hnc y hy hk
                · exact hno y hy hk
          rw [hm]
          cases hb : bit k.addr p.len with
          | true =>
            rw [hb] at hs
            exact key r l true hs ir il hr hl (fun x => by rw [mem_node, or_comm (a := x ∈ l.entries)]) ihr1 ihr2 _ rfl
          | false =>
            rw [hb] at hs
            exact key l r false hs il ir hl hr (fun x => mem_node) ihl1 ihl2 _ rfl
      · have hm' : (Trie.node p e n h act l r).match k = none := by rw [«match»]; simp [h2]
        rw [hm']
        refine ⟨fun x h => (by cases h), fun _ y hy hk => ?_⟩
        have g := hsub y hy
        have hlt : m < y.1.len := Nat.lt_of_lt_of_le hm g.1
        exact h3 ((g.2 m hm).trans (hk.2 m hlt))

/-! ### order, number, height -/

/-- lexicographic order of prefixes, on bits: `q` lies strictly inside `p`, or they first differ in a
    bit that is 0 in `p` -/
def Before (p q : Prefix α) : Prop :=
  (∃ b, Sub p q b) ∨
  (∃ n, n < p.len ∧ n < q.len ∧ Agree n p.addr q.addr ∧ bit p.addr n = false ∧ bit q.addr n = true)

theorem before_of_sides {p x y : Prefix α} (h1 : Sub p x false) (h2 : Sub p y true) : Before x y :=
  Or.inr ⟨p.len, h1.lt, h2.lt, h1.agree.symm.trans h2.agree, h1.side, h2.side⟩

theorem TInv.sorted {t : Trie α D} (hi : TInv t) : t.entries.Pairwise (fun x y => Before x.1 y.1) := by
  induction hi with
  | empty => exact List.Pairwise.nil
  | mk p d act l r wf il ir hl hr two ihl ihr =>
    have hlr : (l.entries ++ r.entries).Pairwise (fun x y => Before x.1 y.1) := by
      rw [List.pairwise_append]
      exact ⟨ihl, ihr, fun x hx y hy => before_of_sides (hl.side il hx) (hr.side ir hy)⟩
    simp only [Trie.mk, entries]
    cases act with
    | false => simpa using hlr
    | true =>
      simp only [if_true, List.singleton_append, List.pairwise_cons]
      refine ⟨fun y hy => ?_, hlr⟩
      rcases List.mem_append.mp hy with hy | hy
      · exact Or.inl ⟨_, hl.side il hy⟩
      · exact Or.inl ⟨_, hr.side ir hy⟩

/-- `Before` in numbers -/
theorem Before.lex {p q : Prefix α} (hp : p.WF) (hq : q.WF) (h : Before p q) :
    toNat p.network.addr < toNat q.network.addr ∨
      (toNat p.network.addr = toNat q.network.addr ∧ p.len < q.len) := by
  rcases h with ⟨b, hs⟩ | ⟨n, h1, h2, h3, h4, h5⟩
  · have : Covers p q.network.addr :=
      (hs.covers (a := q.network.addr) ((agree_network hq).symm)).1
    have := ((covers_iff_range hp).mp this).1
    have := hs.lt
    omega
  · left
    have hw : n < width α := Nat.lt_of_lt_of_le h1 hp
    refine toNat_lt_of_bit hw ?_ ?_ ?_
    · exact ((agree_network hp).mono (Nat.le_of_lt h1)).trans
        (h3.trans ((agree_network hq).mono (Nat.le_of_lt h2)).symm)
    · rw [bit_network hp, h4]; simp
    · rw [bit_network hq, h5]; simp [h2]

theorem TInv.size {t : Trie α D} (hi : TInv t) : t.numNodes = t.entries.length % 2 ^ 32 := by
  induction hi with
  | empty => rfl
  | mk p d act l r wf il ir hl hr two ihl ihr =>
    have e : (Trie.mk p d act l r).numNodes = if act then ((l.numNodes + r.numNodes) % 2 ^ 32 + 1) % 2 ^ 32
        else (l.numNodes + r.numNodes) % 2 ^ 32 := rfl
    rw [e, ihl, ihr]
    simp only [Trie.mk, entries, List.length_append]
    cases act <;> simp <;> omega

/-- the real height -/
def deep : Trie α D → Nat
  | nil => 0
  | node _ _ _ _ _ l r => 1 + max l.deep r.deep

theorem TInv.deep_le {t : Trie α D} (hi : TInv t) : ∀ {p d n h a l r}, t = .node p d n h a l r →
    t.deep + p.len ≤ width α + 1 := by
  induction hi with
  | empty => intro _ _ _ _ _ _ _ e; cases e
  | mk p d act l r wf il ir hl hr two ihl ihr =>
    intro _ _ _ _ _ _ _ e
    simp only [Trie.mk] at e
    injection e with e1
    subst e1
    have hp : p.len ≤ width α := wf
    have a1 : l.deep + p.len ≤ width α := by
      cases l with
      | nil => simp only [deep]; omega
      | node q _ _ _ _ _ _ =>
        have := ihl rfl
        have := Sub.lt il
        omega
    have a2 : r.deep + p.len ≤ width α := by
      cases r with
      | nil => simp only [deep]; omega
      | node q _ _ _ _ _ _ =>
        have := ihr rfl
        have := Sub.lt ir
        omega
    simp only [Trie.mk, deep]
    omega

theorem TInv.deep_le' {t : Trie α D} (hi : TInv t) : t.deep ≤ width α + 1 := by
  cases t with
  | nil => exact Nat.zero_le _
  | node p _ _ _ _ _ _ => have := hi.deep_le rfl; omega

theorem TInv.height_eq {t : Trie α D} (hi : TInv t) (hw : width α + 1 < 2 ^ 16) : t.height = t.deep := by
  induction hi with
  | empty => rfl
  | mk p d act l r wf il ir hl hr two ihl ihr =>
    have := (TInv.mk p d act l r wf il ir hl hr two).deep_le'
    have e : (Trie.mk p d act l r).height = (1 + max l.height r.height) % 2 ^ 16 := rfl
    have e' : (Trie.mk p d act l r).deep = 1 + max l.deep r.deep := rfl
    rw [e'] at this
    rw [e, e', ihl, ihr]
    exact Nat.mod_eq_of_lt (by omega)

end Trie
end
end Addrs

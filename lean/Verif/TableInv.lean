import Verif.Table
import Verif.SetCanon
/-
  The invariant of table tries and the correctness of insert, del, getOrInsert, match.
-/
namespace Addrs
open GoWord LawfulGoWord

section
variable {α D : Type} [LawfulGoWord α]

/-- `q` lies in `p` or is the same key -/
def SubEq (p q : Prefix α) : Prop := p.len ≤ q.len ∧ Agree p.len p.addr q.addr

theorem Sub.subEq {p q : Prefix α} {b : Bool} (h : Sub p q b) : SubEq p q := ⟨Nat.le_of_lt h.lt, h.agree⟩
theorem SubEq.refl (p : Prefix α) : SubEq p p := ⟨Nat.le_refl _, Agree.refl _ _⟩
theorem SubEq.trans {p q r : Prefix α} (h : SubEq p q) (h' : SubEq q r) : SubEq p r :=
  ⟨Nat.le_trans h.1 h'.1, h.2.trans (h'.2.mono h.1)⟩
theorem Sub.trans_subEq {p q r : Prefix α} {b : Bool} (h : Sub p q b) (h' : SubEq q r) : Sub p r b := by
  refine ⟨Nat.lt_of_lt_of_le h.lt h'.1, h.agree.trans (h'.2.mono (Nat.le_of_lt h.lt)), ?_⟩
  rw [← h'.2 p.len h.lt]; exact h.side

theorem Sub.not_sameKey {p q : Prefix α} {b : Bool} (h : Sub p q b) : ¬ SameKey p q :=
  fun e => absurd h.lt (by rw [e.1]; exact Nat.lt_irrefl _)
theorem Sub.not_sameKey' {p q : Prefix α} {b : Bool} (h : Sub p q b) : ¬ SameKey q p :=
  fun e => h.not_sameKey e.symm

/-- keys on different sides of a prefix differ -/
theorem Sub.ne_of_side {p q k : Prefix α} {b c : Bool} (h : Sub p q b) (h' : Sub p k c) (hbc : b ≠ c) :
    ¬ SameKey q k := by
  intro e
  have h2 : Sub p k b := h.congr_right e
  exact hbc (h2.side.symm.trans h'.side)

/-- if `k` is disjoint from `p` then it is not the key of anything inside `p` -/
theorem not_sameKey_of_disjoint {p q k : Prefix α} {n : Nat} (hn : n < p.len)
    (hd : bit p.addr n ≠ bit k.addr n) (hnk : n < k.len) (h : SubEq p q) : ¬ SameKey q k := by
  intro e
  have h1 := h.2 n hn
  have h2 := e.2 n (by rw [e.1]; exact hnk)
  exact hd (h1.trans h2)

theorem not_sameKey_of_shorter {p q k : Prefix α} (hlt : k.len < p.len) (h : SubEq p q) :
    ¬ SameKey q k := fun e => by have := h.1; have := e.1; omega

namespace Trie

/-- `t` is nil or its root prefix lies strictly inside `p`, on side `b` -/
def Inside (p : Prefix α) (b : Bool) : Trie α D → Prop
  | nil => True
  | node q _ _ _ _ _ _ => Sub p q b

/-- The shape of every table trie: children strictly inside their own side of the parent, inactive
    nodes have two children, and `size` and `h` are what `mutate` computes. -/
inductive TInv : Trie α D → Prop
  | empty : TInv nil
  | mk (p : Prefix α) (d : Option D) (act : Bool) (l r : Trie α D) (wf : p.WF)
      (il : Inside p false l) (ir : Inside p true r) (hl : TInv l) (hr : TInv r)
      (two : act = false → l ≠ nil ∧ r ≠ nil) : TInv (Trie.mk p d act l r)

theorem mem_mk {p : Prefix α} {d : Option D} {act : Bool} {l r : Trie α D} {x} :
    x ∈ (mk p d act l r).entries ↔
      (act = true ∧ x = (p, d)) ∨ x ∈ l.entries ∨ x ∈ r.entries := by
  simp only [Trie.mk, entries, List.mem_append]
  cases act <;> simp

theorem TInv.inv {p : Prefix α} {d : Option D} {n h act} {l r : Trie α D}
    (hi : TInv (.node p d n h act l r)) :
    p.WF ∧ Inside p false l ∧ Inside p true r ∧ TInv l ∧ TInv r ∧ (act = false → l ≠ nil ∧ r ≠ nil) ∧
      Trie.node p d n h act l r = Trie.mk p d act l r := by
  generalize ht : Trie.node p d n h act l r = t at hi
  cases hi with
  | empty => cases ht
  | mk p' d' act' l' r' wf il ir hl hr two =>
    simp only [Trie.mk] at ht
    injection ht with e1 e2 e3 e4 e5 e6 e7
    subst e1 e2 e5 e6 e7
    exact ⟨wf, il, ir, hl, hr, two, by simp only [Trie.mk, e3, e4]⟩

/-- every entry lies in the root prefix -/
theorem TInv.subEq {t : Trie α D} (hi : TInv t) : ∀ {p d n h a l r}, t = .node p d n h a l r →
    ∀ {x}, x ∈ t.entries → SubEq p x.1 := by
  induction hi with
  | empty => intro _ _ _ _ _ _ _ e; cases e
  | mk p d act l r wf il ir hl hr two ihl ihr =>
    intro _ _ _ _ _ _ _ e x hx
    simp only [Trie.mk] at e
    injection e with e1
    subst e1
    rcases mem_mk.mp hx with ⟨_, rfl⟩ | hx | hx
    · exact SubEq.refl _
    · cases l with
      | nil => cases hx
      | node q _ _ _ _ _ _ => exact (Sub.subEq il).trans (ihl rfl hx)
    · cases r with
      | nil => cases hx
      | node q _ _ _ _ _ _ => exact (Sub.subEq ir).trans (ihr rfl hx)

/-- every entry of a child lies on the child's side -/
theorem TInv.side {t : Trie α D} (hi : TInv t) {p : Prefix α} {b : Bool} (hw : Inside p b t)
    {x} (hx : x ∈ t.entries) : Sub p x.1 b := by
  cases t with
  | nil => cases hx
  | node q _ _ _ _ _ _ => exact Sub.trans_subEq hw (hi.subEq rfl hx)

theorem TInv.entries_wf {t : Trie α D} (hi : TInv t) : ∀ {x}, x ∈ t.entries → x.1.WF := by
  induction hi with
  | empty => intro x hx; cases hx
  | mk p d act l r wf il ir hl hr two ihl ihr =>
    intro x hx
    rcases mem_mk.mp hx with ⟨_, rfl⟩ | hx | hx
    · exact wf
    · exact ihl hx
    · exact ihr hx

theorem TInv.exists_entry {t : Trie α D} (hi : TInv t) (hn : t ≠ nil) : ∃ x, x ∈ t.entries := by
  revert hn
  induction hi with
  | empty => intro hn; exact absurd rfl hn
  | mk p d act l r wf il ir hl hr two ihl ihr =>
    intro _
    cases act with
    | true => exact ⟨(p, d), mem_mk.mpr (Or.inl ⟨rfl, rfl⟩)⟩
    | false =>
      obtain ⟨x, hx⟩ := ihl (two rfl).1
      exact ⟨x, mem_mk.mpr (Or.inr (Or.inl hx))⟩

/-- two entries with the same key are the same entry -/
theorem TInv.unique {t : Trie α D} (hi : TInv t) : ∀ {x y}, x ∈ t.entries → y ∈ t.entries →
    SameKey x.1 y.1 → x = y := by
  induction hi with
  | empty => intro x y hx; cases hx
  | mk p d act l r wf il ir hl hr two ihl ihr =>
    intro x y hx hy e
    rcases mem_mk.mp hx with ⟨_, rfl⟩ | hx | hx <;> rcases mem_mk.mp hy with ⟨_, rfl⟩ | hy | hy
    · rfl
    · exact absurd e (hl.side il hy).not_sameKey
    · exact absurd e (hr.side ir hy).not_sameKey
    · exact absurd e (hl.side il hx).not_sameKey'
    · exact ihl hx hy e
    · exact absurd e ((hl.side il hx).ne_of_side (hr.side ir hy) (by simp))
    · exact absurd e (hr.side ir hx).not_sameKey'
    · exact absurd e ((hr.side ir hx).ne_of_side (hl.side il hy) (by simp))
    · exact ihr hx hy e

/-! ### insert -/

theorem Inside.mono {p : Prefix α} {b : Bool} {q : Prefix α} {d n h a l r} {t : Trie α D}
    (hw : Inside p b (.node q d n h a l r : Trie α D)) (ht : t = .nil ∨ ∃ c, Inside q c t) : Inside p b t := by
  rcases ht with rfl | ⟨c, ht⟩
  · trivial
  · cases t with
    | nil => trivial
    | node q' _ _ _ _ _ _ => exact Sub.trans hw ht

/-- What `insert` does, in terms of entries. -/
structure InsertSpec (o : InsertOpts D) (k : Prefix α) (d : Option D) (t : Trie α D)
    (res : Option (Trie α D)) : Prop where
  /-- if the key is present -/
  found : ∀ x, x ∈ t.entries → SameKey x.1 k →
    (o.upd = false → res = none) ∧
    (o.upd = true → ∃ t', res = some t' ∧
      ∀ y, y ∈ t'.entries ↔ (y ∈ t.entries ∧ ¬ SameKey y.1 k) ∨ y = (k, if o.eq x.2 d then x.2 else d))
  /-- if it is absent -/
  absent : (∀ x, x ∈ t.entries → ¬ SameKey x.1 k) →
    (o.ins = false → res = none) ∧
    (o.ins = true → ∃ t', res = some t' ∧
      ∀ y, y ∈ t'.entries ↔ y ∈ t.entries ∨ y = (k, d))
  inv : ∀ t', res = some t' → TInv t' ∧ t' ≠ nil ∧
    ∀ p b, Inside p b t → Sub p k b → Inside p b t'

theorem inside_mk {p q : Prefix α} {b : Bool} {d act l r} :
    Inside p b (mk q d act l r : Trie α D) ↔ Sub p q b := Iff.rfl

theorem joinPrefix_sub {p k : Prefix α} {n : Nat} (hp : p.WF) (h1 : n < p.len)
    (h3 : Agree n p.addr k.addr) (h2 : n < k.len) :
    Sub (joinPrefix p n) p (bit p.addr n) ∧ Sub (joinPrefix p n) k (bit k.addr n) := by
  have hw : n ≤ width α := Nat.le_of_lt (Nat.lt_of_lt_of_le h1 hp)
  exact ⟨⟨h1, agree_zeroed _ hw, rfl⟩, ⟨h2, (agree_zeroed _ hw).trans h3, rfl⟩⟩

theorem insert_spec (o : InsertOpts D) (k : Prefix α) (hk : k.WF) (d : Option D) (t : Trie α D)
    (hi : TInv t) : InsertSpec o k d t (insert o k d t) := by
  induction t with
  | nil =>
    refine ⟨fun x hx => (by cases hx), fun _ => ?_, ?_⟩
    · rw [insert]
      refine ⟨fun h => by simp [h], fun h => ⟨mk k d true nil nil, by simp [h], fun y => ?_⟩⟩
      rw [mem_mk]; simp [entries]
    · intro t' h
      rw [insert] at h
      split at h
      · cases h
      · injection h with h; subst h
        refine ⟨.mk _ _ _ _ _ hk trivial trivial .empty .empty (by simp), by simp [Trie.mk], ?_⟩
        intro p b _ h; exact h
  | node p e n h act l r ihl ihr =>
    obtain ⟨wf, il, ir, hl, hr, two, eme⟩ := hi.inv
    have ihl := ihl hl
    have ihr := ihr hr
    have hmem : ∀ x, x ∈ (Trie.node p e n h act l r).entries ↔
        (act = true ∧ x = (p, e)) ∨ x ∈ l.entries ∨ x ∈ r.entries := by
      intro x; rw [eme, mem_mk]
    rcases compareP_cases wf hk with ⟨hs, hc⟩ | ⟨c, hs, hc⟩ | ⟨c, hs, hc⟩ | ⟨m, rev, c, h1, h2, h3, h4, h5, h6, hc⟩
    · -- same key
      have hnl : ∀ x, x ∈ l.entries → ¬ SameKey x.1 k := fun x hx e =>
        (hl.side il hx).not_sameKey (hs.trans e.symm)
      have hnr : ∀ x, x ∈ r.entries → ¬ SameKey x.1 k := fun x hx e =>
        (hr.side ir hx).not_sameKey (hs.trans e.symm)
      have hins : insert o k d (.node p e n h act l r) =
          if act && !o.upd then none else if !act && !o.ins then none
          else some (mk k (if act && o.eq e d then e else d) true l r) := by
        rw [insert, hc]
      have il' : Inside k false l := by
        cases l with
        | nil => trivial
        | node q _ _ _ _ _ _ => exact Sub.congr_left il hs
      have ir' : Inside k true r := by
        cases r with
        | nil => trivial
        | node q _ _ _ _ _ _ => exact Sub.congr_left ir hs
      refine ⟨fun x hx hxk => ?_, fun hab => ?_, fun t' ht' => ?_⟩
      · rcases (hmem x).mp hx with ⟨ha, rfl⟩ | hx | hx
        · subst ha
          refine ⟨fun h => by rw [hins]; simp [h], fun h => ⟨_, by rw [hins]; simp [h]; rfl, fun y => ?_⟩⟩
          rw [mem_mk, hmem]
          simp only [true_and]
          constructor
          · rintro (h | h | h)
            · exact Or.inr h
            · exact Or.inl ⟨Or.inr (Or.inl h), hnl y h⟩
            · exact Or.inl ⟨Or.inr (Or.inr h), hnr y h⟩
          · rintro (⟨rfl | h | h, h'⟩ | h)
            · exact absurd hs h'
            · exact Or.inr (Or.inl h)
            · exact Or.inr (Or.inr h)
            · exact Or.inl h
        · exact absurd hxk (hnl x hx)
        · exact absurd hxk (hnr x hx)
      · have ha : act = false := by
          cases act with
          | false => rfl
          | true => exact absurd hs (hab _ ((hmem (p, e)).mpr (Or.inl ⟨rfl, rfl⟩)))
        subst ha
        refine ⟨fun h => by rw [hins]; simp [h], fun h => ⟨_, by rw [hins]; simp [h]; rfl, fun y => ?_⟩⟩
        rw [mem_mk, hmem]
        simp only [true_and, Bool.false_eq_true, false_and, false_or]
        constructor
        · rintro (h | h)
          · exact Or.inr h
          · exact Or.inl h
        · rintro (h | h)
          · exact Or.inr h
          · exact Or.inl h
      · rw [hins] at ht'
        split at ht'
        · cases ht'
        · split at ht'
          · cases ht'
          · injection ht' with ht'; subst ht'
            exact ⟨.mk _ _ _ _ _ hk il' ir' hl hr (by simp), by simp [Trie.mk], fun q b _ h => h⟩
    · -- the key belongs below
      cases c with
      | true =>
        have hins : insert o k d (.node p e n h act l r) =
            match insert o k d r with
            | none => none
            | some r' => some (mk p e act l r') := by
          rw [insert, hc]; rfl
        have hnp : ¬ SameKey p k := hs.not_sameKey
        have hnl : ∀ x, x ∈ l.entries → ¬ SameKey x.1 k := fun x hx =>
          (hl.side il hx).ne_of_side hs (by simp)
        rw [hins]
        refine ⟨fun x hx hxk => ?_, fun hab => ?_, fun t' ht' => ?_⟩
        · rcases (hmem x).mp hx with ⟨ha, rfl⟩ | hx | hx
          · exact absurd hxk hnp
          · exact absurd hxk (hnl x hx)
          · obtain ⟨g1, g2⟩ := ihr.found x hx hxk
            refine ⟨fun h => by rw [g1 h], fun h => ?_⟩
            obtain ⟨t', g3, g4⟩ := g2 h
            rw [g3]
            refine ⟨_, rfl, fun y => ?_⟩
            rw [mem_mk, hmem, g4]
            constructor
            · rintro (⟨h, rfl⟩ | h | h | h)
              · exact Or.inl ⟨Or.inl ⟨h, rfl⟩, hnp⟩
              · exact Or.inl ⟨Or.inr (Or.inl h), hnl y h⟩
              · exact Or.inl ⟨Or.inr (Or.inr h.1), h.2⟩
              · exact Or.inr h
            · rintro (⟨h | h | h, h'⟩ | h)
              · exact Or.inl h
              · exact Or.inr (Or.inl h)
              · exact Or.inr (Or.inr (Or.inl ⟨h, h'⟩))
              · exact Or.inr (Or.inr (Or.inr h))
        · obtain ⟨g1, g2⟩ := ihr.absent fun x hx => hab x ((hmem x).mpr (Or.inr (Or.inr hx)))
          refine ⟨fun h => by rw [g1 h], fun h => ?_⟩
          obtain ⟨t', g3, g4⟩ := g2 h
          rw [g3]
          refine ⟨_, rfl, fun y => ?_⟩
          rw [mem_mk, hmem, g4, or_assoc, or_assoc]
        · cases hrr : insert o k d r with
          | none => rw [hrr] at ht'; cases ht'
          | some r' =>
            rw [hrr] at ht'; injection ht' with ht'; subst ht'
            obtain ⟨g1, g2, g3⟩ := ihr.inv r' hrr
            exact ⟨.mk _ _ _ _ _ wf il (g3 _ _ ir hs) hl g1 (fun h => ⟨(two h).1, g2⟩),
              by simp [Trie.mk], fun q b hq _ => hq⟩
      | false =>
        have hins : insert o k d (.node p e n h act l r) =
            match insert o k d l with
            | none => none
            | some l' => some (mk p e act l' r) := by
          rw [insert, hc]; rfl
        have hnp : ¬ SameKey p k := hs.not_sameKey
        have hnr : ∀ x, x ∈ r.entries → ¬ SameKey x.1 k := fun x hx =>
          (hr.side ir hx).ne_of_side hs (by simp)
        rw [hins]
        refine ⟨fun x hx hxk => ?_, fun hab => ?_, fun t' ht' => ?_⟩
        · rcases (hmem x).mp hx with ⟨ha, rfl⟩ | hx | hx
          · exact absurd hxk hnp
          · obtain ⟨g1, g2⟩ := ihl.found x hx hxk
            refine ⟨fun h => by rw [g1 h], fun h => ?_⟩
            obtain ⟨t', g3, g4⟩ := g2 h
            rw [g3]
            refine ⟨_, rfl, fun y => ?_⟩
            rw [mem_mk, hmem, g4]
            constructor
            · rintro (⟨h, rfl⟩ | (h | h) | h)
              · exact Or.inl ⟨Or.inl ⟨h, rfl⟩, hnp⟩
              · exact Or.inl ⟨Or.inr (Or.inl h.1), h.2⟩
              · exact Or.inr h
              · exact Or.inl ⟨Or.inr (Or.inr h), hnr y h⟩
            · rintro (⟨h | h | h, h'⟩ | h)
              · exact Or.inl h
              · exact Or.inr (Or.inl (Or.inl ⟨h, h'⟩))
              · exact Or.inr (Or.inr h)
              · exact Or.inr (Or.inl (Or.inr h))
          · exact absurd hxk (hnr x hx)
        · obtain ⟨g1, g2⟩ := ihl.absent fun x hx => hab x ((hmem x).mpr (Or.inr (Or.inl hx)))
          refine ⟨fun h => by rw [g1 h], fun h => ?_⟩
          obtain ⟨t', g3, g4⟩ := g2 h
          rw [g3]
          refine ⟨_, rfl, fun y => ?_⟩
          rw [mem_mk, hmem, g4]
          constructor
          · rintro (h | (h | h) | h)
            · exact Or.inl (Or.inl h)
            · exact Or.inl (Or.inr (Or.inl h))
            · exact Or.inr h
            · exact Or.inl (Or.inr (Or.inr h))
          · rintro ((h | h | h) | h)
            · exact Or.inl h
            · exact Or.inr (Or.inl (Or.inl h))
            · exact Or.inr (Or.inr h)
            · exact Or.inr (Or.inl (Or.inr h))
        · cases hrr : insert o k d l with
          | none => rw [hrr] at ht'; cases ht'
          | some l' =>
            rw [hrr] at ht'; injection ht' with ht'; subst ht'
            obtain ⟨g1, g2, g3⟩ := ihl.inv l' hrr
            exact ⟨.mk _ _ _ _ _ wf (g3 _ _ il hs) ir g1 hr (fun h => ⟨g2, (two h).2⟩),
              by simp [Trie.mk], fun q b hq _ => hq⟩
    · -- the new key is above
      have habs : ∀ x, x ∈ (Trie.node p e n h act l r).entries → ¬ SameKey x.1 k := fun x hx =>
        not_sameKey_of_shorter hs.lt (hi.subEq rfl hx)
      have hins : insert o k d (.node p e n h act l r) =
          if !o.ins then none
          else if c then some (mk k d true nil (.node p e n h act l r))
          else some (mk k d true (.node p e n h act l r) nil) := by
        rw [insert, hc]
      rw [hins]
      refine ⟨fun x hx hxk => absurd hxk (habs x hx), fun _ => ⟨fun h => by simp [h], fun h => ?_⟩, fun t' ht' => ?_⟩
      · cases c with
        | true =>
          refine ⟨_, by simp [h]; rfl, fun y => ?_⟩
          rw [mem_mk]; simp [entries, or_comm]
        | false =>
          refine ⟨_, by simp [h]; rfl, fun y => ?_⟩
          rw [mem_mk]; simp [entries, or_comm]
      · split at ht'
        · cases ht'
        · cases c with
          | true =>
            simp only [if_true] at ht'; injection ht' with ht'; subst ht'
            exact ⟨.mk _ _ _ _ _ hk trivial hs .empty hi (by simp), by simp [Trie.mk], fun q b _ h => h⟩
          | false =>
            simp only [Bool.false_eq_true, if_false] at ht'; injection ht' with ht'; subst ht'
            exact ⟨.mk _ _ _ _ _ hk hs trivial hi .empty (by simp), by simp [Trie.mk], fun q b _ h => h⟩
    · -- disjoint
      have habs : ∀ x, x ∈ (Trie.node p e n h act l r).entries → ¬ SameKey x.1 k := fun x hx =>
        not_sameKey_of_disjoint h1 h4 h2 (hi.subEq rfl hx)
      have hins : insert o k d (.node p e n h act l r) =
          if !o.ins then none
          else if c != rev then
            some (mk (joinPrefix p m) none false (.node p e n h act l r) (mk k d true nil nil))
          else some (mk (joinPrefix p m) none false (mk k d true nil nil) (.node p e n h act l r)) := by
        rw [insert, hc]
      obtain ⟨j1, j2⟩ := joinPrefix_sub wf h1 h3 h2
      have jw : (joinPrefix p m).WF := Nat.le_of_lt (Nat.lt_of_lt_of_le h1 wf)
      have hleaf : TInv (mk k d true nil nil : Trie α D) :=
        .mk _ _ _ _ _ hk trivial trivial .empty .empty (by simp)
      have hup : ∀ q b, Sub q p b → Sub q k b → Sub q (joinPrefix p m) b := by
        intro q b hq hq'
        -- q is above both, hence above their join
        have hqm : q.len ≤ m := by
          apply Nat.le_of_not_lt
          intro hlt
          have a1 := hq.agree m hlt
          have a2 := hq'.agree m hlt
          exact h4 (a1.symm.trans a2)
        have hqm' : q.len ≠ m := by
          intro he
          have a1 := hq.side
          have a2 := hq'.side
          rw [he] at a1 a2
          exact h4 (a1.trans a2.symm)
        have hlt : q.len < m := by omega
        refine ⟨hlt, hq.agree.trans (Agree.mono (agree_zeroed p.addr (by exact jw)).symm hqm), ?_⟩
        have := agree_zeroed p.addr (n := m) jw q.len hlt
        show bit (and p.addr (compl (shr ones m))) q.len = b
        rw [this]; exact hq.side
      rw [hins]
      refine ⟨fun x hx hxk => absurd hxk (habs x hx), fun _ => ⟨fun h => by simp [h], fun h => ?_⟩, fun t' ht' => ?_⟩
      · cases hcr : (c != rev) with
        | true =>
          refine ⟨_, by simp [h]; rfl, fun y => ?_⟩
          rw [mem_mk, mem_mk]; simp [entries]
        | false =>
          refine ⟨_, by simp [h]; rfl, fun y => ?_⟩
          rw [mem_mk, mem_mk]; simp [entries, or_comm]
      · split at ht'
        · cases ht'
        · cases hcr : (c != rev) with
          | true =>
            rw [hcr] at ht' h5
            simp only [if_true] at ht'; injection ht' with ht'; subst ht'
            have e1 : bit p.addr m = false := by
              cases hb : bit p.addr m with
              | false => rfl
              | true => exact absurd (hb.trans h5.symm) h4
            rw [e1] at j1
            rw [h5] at j2
            exact ⟨.mk _ _ _ _ _ jw j1 j2 hi hleaf (fun _ => ⟨by simp, by simp [Trie.mk]⟩),
              by simp [Trie.mk], hup⟩
          | false =>
            rw [hcr] at ht' h5
            simp only [Bool.false_eq_true, if_false] at ht'; injection ht' with ht'; subst ht'
            have e1 : bit p.addr m = true := by
              cases hb : bit p.addr m with
              | true => rfl
              | false => exact absurd (hb.trans h5.symm) h4
            rw [e1] at j1
            rw [h5] at j2
            exact ⟨.mk _ _ _ _ _ jw j2 j1 hleaf hi (fun _ => ⟨by simp [Trie.mk], by simp⟩),
              by simp [Trie.mk], hup⟩

end Trie
end
end Addrs

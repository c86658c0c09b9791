import Verif.UncompLoud
/-
  Values that `==` cannot compare: when `insert`, `GetOrInsert` and `del` panic, in terms of the entries.
-/
set_option linter.unusedSectionVars false
namespace Addrs
open GoWord LawfulGoWord

namespace Trie
variable {α D : Type} [LawfulGoWord α] {A : GoType D}

/-- an entry strictly contains `k` -/
def Above (k : Prefix α) (t : Trie α D) : Prop := ∃ x, x ∈ t.entries ∧ Over x.1 k

theorem above_nil {k : Prefix α} : ¬ Above k (nil : Trie α D) := fun ⟨x, h, _⟩ => by cases h

theorem above_deep {k p : Prefix α} {e : Option D} {n h act} {l r : Trie α D} (hi : TInv (node p e n h act l r)) (hk : k.len ≤ p.len) :
    ¬ Above k (node p e n h act l r) := by
  rintro ⟨x, hx, ho⟩
  have := (hi.subEq rfl hx).1
  have := ho.1
  omega

theorem above_off {k p : Prefix α} {e : Option D} {n h act} {l r : Trie α D} (hi : TInv (node p e n h act l r)) {m : Nat} (h1 : m < p.len)
    (h2 : bit p.addr m ≠ bit k.addr m) : ¬ Above k (node p e n h act l r) := by
  rintro ⟨x, hx, ho⟩
  have hs := hi.subEq rfl hx
  have := ho.2 m (by have := hs.1; omega)
  exact h2 ((hs.2 m h1).trans this)

theorem above_sub {k p : Prefix α} {e : Option D} {n h act} {l r : Trie α D} (hi : TInv (node p e n h act l r)) {c : Bool} (hs : Sub p k c) :
    Above k (node p e n h act l r) ↔ act = true ∨ Above k (if c then r else l) := by
  obtain ⟨wf, il, ir, hl, hr, two, eme⟩ := hi.inv
  have cross : ∀ {x : Prefix α × Option D}, Sub p x.1 (!c) → ¬ Over x.1 k := fun hx => no_cross hx hs
  constructor
  · rintro ⟨x, hx, ho⟩
    rcases mem_node.mp hx with ⟨ha, rfl⟩ | hx | hx
    · exact Or.inl ha
    · cases c with
      | false => exact Or.inr ⟨x, hx, ho⟩
      | true => exact absurd ho (cross (hl.side il hx))
    · cases c with
      | true => exact Or.inr ⟨x, hx, ho⟩
      | false => exact absurd ho (cross (hr.side ir hx))
  · rintro (ha | ⟨x, hx, ho⟩)
    · exact ⟨(p, e), mem_node.mpr (Or.inl ⟨ha, rfl⟩), hs.lt, hs.agree⟩
    · refine ⟨x, mem_node.mpr ?_, ho⟩
      cases c
      · exact Or.inr (Or.inl hx)
      · exact Or.inr (Or.inr hx)

theorem unc_iff (hA : ∀ a b, A.eqq a b = none) {e : Option D} : Unc A e ↔ e.isSome = true := by
  cases e with
  | none => exact ⟨fun h => (by cases h), fun h => (by cases h)⟩
  | some a => exact ⟨fun _ => rfl, fun _ => hA a a⟩

/-- `insert` panics if it succeeds below an entry, or where it compares the old value with the new one. -/
theorem insCrash_iff (hA : ∀ a b, A.eqq a b = none) {c : Comparator D} {o : InsertOpts D} {k : Prefix α} (hk : k.WF) {d : Option D}
    {t : Trie α D} (hi : TInv t) (tidy : t.Tidy) : InsCrash A c o k d t ↔
    ((insert o k d t).isSome = true ∧ Above k t) ∨ (o.upd = true ∧ ∃ x, x ∈ t.entries ∧ SameKey x.1 k ∧ c x.2 d = none) := by
  induction t with
  | nil =>
    refine ⟨fun h => h.elim, ?_⟩
    rintro (⟨_, h⟩ | ⟨_, x, h, _⟩)
    · exact above_nil h
    · cases h
  | node p e n h act l r ihl ihr =>
    have hi' := hi
    obtain ⟨wf, il, ir, hl, hr, two, eme⟩ := hi.inv
    have ihl := ihl hl tidy.2.1
    have ihr := ihr hr tidy.2.2
    have hunc : Unc A e ↔ act = true := (unc_iff hA).trans (by rw [tidy.1])
    have off : ∀ {m}, m < p.len → bit p.addr m ≠ bit k.addr m → m < k.len → ∀ x, x ∈ (node p e n h act l r).entries → ¬ SameKey x.1 k := by
      intro m h1 h2 h3 x hx hs
      have hs' := hi.subEq rfl hx
      exact h2 ((hs'.2 m h1).trans (hs.2 m (by have := hs'.1; omega)))
    rcases compareP_cases wf hk with ⟨hs, hc⟩ | ⟨b, hs, hc⟩ | ⟨b, hs, hc⟩ | ⟨m, rev, b, h1, h2, h3, h4, h5, h6, hc⟩
    · rw [InsCrash, hc]
      simp only
      constructor
      · rintro ⟨ha, hu, hcm⟩
        exact Or.inr ⟨hu, (p, e), mem_node.mpr (Or.inl ⟨ha, rfl⟩), hs, hcm⟩
      · rintro (⟨_, hab⟩ | ⟨hu, x, hx, hxk, hcm⟩)
        · exact absurd hab (above_deep hi (by rw [hs.1]; exact Nat.le_refl _))
        · rcases mem_node.mp hx with ⟨ha, rfl⟩ | hx | hx
          · exact ⟨ha, hu, hcm⟩
          · exact absurd (hs.trans hxk.symm) (hl.side il hx).not_sameKey
          · exact absurd (hs.trans hxk.symm) (hr.side ir hx).not_sameKey
    · have hsame : (∃ x, x ∈ (node p e n h act l r).entries ∧ SameKey x.1 k ∧ c x.2 d = none) ↔
          ∃ x, x ∈ (if b then r else l).entries ∧ SameKey x.1 k ∧ c x.2 d = none := by
        constructor
        · rintro ⟨x, hx, hxk, hcm⟩
          rcases mem_node.mp hx with ⟨_, rfl⟩ | hx | hx
          · exact absurd hxk hs.not_sameKey
          · cases b with
            | false => exact ⟨x, hx, hxk, hcm⟩
            | true => exact absurd hxk ((hl.side il hx).ne_of_side hs (by simp))
          · cases b with
            | true => exact ⟨x, hx, hxk, hcm⟩
            | false => exact absurd hxk ((hr.side ir hx).ne_of_side hs (by simp))
        · rintro ⟨x, hx, hxk, hcm⟩
          refine ⟨x, mem_node.mpr ?_, hxk, hcm⟩
          cases b
          · exact Or.inr (Or.inl hx)
          · exact Or.inr (Or.inr hx)
      rw [above_sub hi hs, hsame, InsCrash, insert, hc]
      cases b with
      | true =>
        simp only [if_true]
        rw [ihr, hunc]
        cases hin : insert o k d r with
        | none => simp
        | some t' => simp only [Option.isSome_some, true_and]; rw [Or.comm, ← or_assoc]
      | false =>
        simp only [Bool.false_eq_true, if_false]
        rw [ihl, hunc]
        cases hin : insert o k d l with
        | none => simp
        | some t' => simp only [Option.isSome_some, true_and]; rw [Or.comm, ← or_assoc]
    · rw [InsCrash, hc]
      refine ⟨fun h => h.elim, ?_⟩
      rintro (⟨_, hab⟩ | ⟨_, x, hx, hxk, _⟩)
      · exact above_deep hi (Nat.le_of_lt hs.lt) hab
      · have := (hi.subEq rfl hx).1
        have := hxk.1
        have := hs.lt
        omega
    · rw [InsCrash, hc]
      refine ⟨fun h => h.elim, ?_⟩
      rintro (⟨_, hab⟩ | ⟨_, x, hx, hxk, _⟩)
      · exact above_off hi h1 h4 hab
      · exact off h1 h4 h2 x hx hxk

/-- `insert` of `GetOrInsert`, where the key is no entry -/
theorem insCrash_absent (hA : ∀ a b, A.eqq a b = none) {c : Comparator D} {f : Eq' D} {k : Prefix α} (hk : k.WF) {d : Option D}
    {t : Trie α D} (hi : TInv t) (tidy : t.Tidy) (hn : ∀ x, x ∈ t.entries → ¬ SameKey x.1 k) :
    InsCrash A c ⟨true, false, f⟩ k d t ↔ Above k t := by
  rw [insCrash_iff hA hk hi tidy]
  obtain ⟨t', ht', _⟩ := ((insert_spec ⟨true, false, f⟩ k hk d t hi).absent hn).2 rfl
  rw [ht']
  simp

/-- `GetOrInsert` panics if an entry strictly contains the key. -/
theorem getCrash_iff (hA : ∀ a b, A.eqq a b = none) {k : Prefix α} (hk : k.WF) {d : Option D}
    {t : Trie α D} (hi : TInv t) (tidy : t.Tidy) : GetCrash A k d t ↔ Above k t := by
  induction t with
  | nil => exact ⟨fun h => h.elim, fun h => above_nil h⟩
  | node p e n h act l r ihl ihr =>
    have hsub := fun x => hi.subEq rfl (x := x)
    obtain ⟨wf, il, ir, hl, hr, two, eme⟩ := hi.inv
    have ihl := ihl hl tidy.2.1
    have ihr := ihr hr tidy.2.2
    have hunc : Unc A e ↔ act = true := (unc_iff hA).trans (by rw [tidy.1])
    rw [GetCrash]
    simp only
    by_cases hlen : k.len < p.len
    · rw [if_pos hlen]
      exact insCrash_absent hA hk hi tidy fun x hx => not_sameKey_of_shorter hlen (hsub x hx)
    · rw [if_neg hlen]
      rcases containsP_spec (s := p) (l := k) wf with ⟨h1, h2⟩ | ⟨m, hm, h1, h3, h2⟩
      · by_cases hex : p.len = k.len
        · have hs : SameKey p k := ⟨hex, h1⟩
          simp only [h2, hex, decide_true, Bool.not_true, Bool.false_eq_true, if_false]
          cases act with
          | true =>
            simp only [Bool.not_true, Bool.false_eq_true, if_false]
            exact ⟨fun h => h.elim, above_deep hi (by omega)⟩
          | false =>
            simp only [Bool.not_false, if_true]
            refine insCrash_absent hA hk hi tidy fun x hx hxk => ?_
            rcases mem_node.mp hx with ⟨ha, _⟩ | hx | hx
            · cases ha
            · exact (hl.side il hx).not_sameKey (hs.trans hxk.symm)
            · exact (hr.side ir hx).not_sameKey (hs.trans hxk.symm)
        · have hs : Sub p k (bit k.addr p.len) := ⟨by omega, h1, rfl⟩
          simp only [h2, hex, decide_false, Bool.not_false, Bool.not_true, Bool.false_eq_true, if_false, if_true]
          rw [above_sub hi hs, hunc, Or.comm]
          refine or_congr_right ?_
          cases bit k.addr p.len
          · exact ihl
          · exact ihr
      · simp only [h2, Bool.not_false, if_true]
        exact insCrash_absent hA hk hi tidy fun x hx => not_sameKey_of_disjoint hm h3 (by omega) (hsub x hx)

/-- `del` panics if it succeeds below an entry. -/
theorem delCrash_iff (hA : ∀ a b, A.eqq a b = none) {k : Prefix α} (hk : k.WF) {t : Trie α D} (hi : TInv t) (tidy : t.Tidy) :
    DelCrash A k t ↔ (del k t).isSome = true ∧ Above k t := by
  induction t with
  | nil => exact ⟨fun h => h.elim, fun h => above_nil h.2⟩
  | node p e n h act l r ihl ihr =>
    obtain ⟨wf, il, ir, hl, hr, two, eme⟩ := hi.inv
    have ihl := ihl hl tidy.2.1
    have ihr := ihr hr tidy.2.2
    have hunc : Unc A e ↔ act = true := (unc_iff hA).trans (by rw [tidy.1])
    rcases compareP_cases wf hk with ⟨hs, hc⟩ | ⟨b, hs, hc⟩ | ⟨b, hs, hc⟩ | ⟨m, rev, b, h1, h2, h3, h4, h5, h6, hc⟩
    · rw [DelCrash, hc]
      simp only
      refine ⟨?_, fun h => absurd h.2 (above_deep hi (by rw [hs.1]; exact Nat.le_refl _))⟩
      rintro ⟨_, _, h⟩
      cases e <;> cases h
    · have core : ∀ {t : Trie α D}, (DelCrash A k t ↔ (del k t).isSome = true ∧ Above k t) →
          ((DelCrash A k t ∨ ∃ t', del k t = some t' ∧ (t'.isNil && !act) = false ∧ Unc A e) ↔ (del k t).isSome = true ∧ (act = true ∨ Above k t)) := by
        intro t ih
        rw [ih]
        constructor
        · rintro (⟨h1, h2⟩ | ⟨t', h1, _, h2⟩)
          · exact ⟨h1, Or.inr h2⟩
          · exact ⟨by rw [h1]; rfl, Or.inl (hunc.mp h2)⟩
        · rintro ⟨h1, h2 | h2⟩
          · obtain ⟨t', ht'⟩ := Option.isSome_iff_exists.mp h1
            exact Or.inr ⟨t', ht', by rw [h2]; simp, hunc.mpr h2⟩
          · exact Or.inl ⟨h1, h2⟩
      rw [above_sub hi hs, DelCrash, del, hc]
      cases b with
      | true =>
        simp only [if_true]
        rw [core ihr]
        cases del k r with
        | none => simp
        | some t' => simp only; split <;> simp
      | false =>
        simp only [Bool.false_eq_true, if_false]
        rw [core ihl]
        cases del k l with
        | none => simp
        | some t' => simp only; split <;> simp
    · rw [DelCrash, hc]
      exact ⟨fun h => h.elim, fun h => above_deep hi (Nat.le_of_lt hs.lt) h.2⟩
    · rw [DelCrash, hc]
      exact ⟨fun h => h.elim, fun h => above_off hi h1 h4 h.2⟩

end Trie
end Addrs

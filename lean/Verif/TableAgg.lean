import Verif.TableOps
/-
  Aggregate of table tries.
-/
namespace Addrs
open GoWord LawfulGoWord

namespace Trie

/-- A comparator that is symmetric and transitive, and that `==` refines.  It need not be reflexive (floating
    point numbers). -/
structure EqPer {D : Type} (eq geq : Eq' D) : Prop where
  symm : ∀ {x y}, eq x y = true → eq y x = true
  trans : ∀ {x y z}, eq x y = true → eq y z = true → eq x z = true
  geq : ∀ {x y}, geq x y = true → eq x y = true

/-- a comparator that is an equivalence relation, and that `==` refines -/
structure EqOk {D : Type} (eq geq : Eq' D) : Prop extends EqPer eq geq where
  refl : ∀ x, eq x x = true

/-- the same value, or values that compare equal -/
def Close {D : Type} (eq : Eq' D) (x y : Option D) : Prop := x = y ∨ eq x y = true

section
variable {D : Type} {eq geq : Eq' D}
theorem Close.rfl {x : Option D} : Close eq x x := .inl (Eq.refl x)
theorem Close.symm (he : EqPer eq geq) {x y : Option D} : Close eq x y → Close eq y x
  | .inl h => .inl h.symm
  | .inr h => .inr (he.symm h)
theorem Close.left (he : EqPer eq geq) {x y z : Option D} (h : Close eq x y) (h' : eq y z = true) : eq x z = true := by
  rcases h with h | h
  · rw [h]; exact h'
  · exact he.trans h h'
theorem Close.right (he : EqPer eq geq) {x y z : Option D} (h : eq x y = true) (h' : Close eq y z) : eq x z = true := by
  rcases h' with h' | h'
  · rw [← h']; exact h
  · exact he.trans h h'
theorem Close.trans (he : EqPer eq geq) {x y z : Option D} (h : Close eq x y) (h' : Close eq y z) : Close eq x z := by
  rcases h with h | h
  · rw [h]; exact h'
  · exact .inr (h'.right he h)
/-- the same if every value is equal to itself -/
theorem Close.same (he : EqOk eq geq) {x y : Option D} : Close eq x y → eq x y = true
  | .inl h => by rw [h]; exact he.refl y
  | .inr h => h
end

section
variable {α D : Type} [LawfulGoWord α]
variable {eq geq : Eq' D}

/-- the value found for address `a`, with a default from above -/
noncomputable def lk (a : α) : Option (Option D) → Trie α D → Option (Option D)
  | u, nil => u
  | u, node p d _ _ act l r =>
    open Classical in
    if Covers p a then
      let u' := if act then some d else u
      if bit a p.len then lk a u' r else lk a u' l
    else u

/-- both nothing, or two values that are the same or compare equal -/
def ORel (eq : Eq' D) : Option (Option D) → Option (Option D) → Prop
  | none, none => True
  | some x, some y => Close eq x y
  | _, _ => False

theorem ORel.refl (_he : EqPer eq geq) (x) : ORel eq x x := by
  cases x
  · trivial
  · exact .rfl
theorem ORel.symm (he : EqPer eq geq) {x y} (h : ORel eq x y) : ORel eq y x := by
  cases x <;> cases y <;> simp only [ORel] at *
  exact h.symm he
theorem ORel.trans (he : EqPer eq geq) {x y z} (h : ORel eq x y) (h' : ORel eq y z) : ORel eq x z := by
  cases x <;> cases y <;> cases z <;> simp only [ORel] at *
  exact h.trans he h'
theorem ORel.isSome {x y} (h : ORel eq x y) : x.isSome = y.isSome := by
  cases x <;> cases y <;> simp_all [ORel]

theorem lk_congr (_he : EqPer eq geq) (a : α) (t : Trie α D) : ∀ {u v}, ORel eq u v →
    ORel eq (lk a u t) (lk a v t) := by
  induction t with
  | nil => intro u v h; exact h
  | node p d n h act l r ihl ihr =>
    intro u v h
    simp only [lk]
    by_cases hc : Covers p a
    · rw [if_pos hc, if_pos hc]
      have : ORel eq (if act then some d else u) (if act then some d else v) := by
        cases act
        · exact h
        · exact .rfl
      split
      · exact ihr this
      · exact ihl this
    · rw [if_neg hc, if_neg hc]; exact h

theorem lk_mk (a : α) (u) (p : Prefix α) (d : Option D) (act : Bool) (l r : Trie α D) :
    lk a u (mk p d act l r) = 
    open Classical in
    (if Covers p a then
      (if bit a p.len then lk a (if act then some d else u) r else lk a (if act then some d else u) l)
    else u) := by
  simp only [Trie.mk, lk]

theorem lk_leaf {a : α} {u} {q : Prefix α} {e : Option D} {n h : Nat} (hc : Covers q a) :
    lk a u (node q e n h true nil nil) = some e := by
  rw [lk, if_pos hc]
  simp [lk]

theorem lk_active {a : α} {q : Prefix α} {e : Option D} {n h : Nat} {l r} (hc : Covers q a) (u) :
    lk a u (node q e n h true l r) = lk a (some e) (if bit a q.len then r else l) := by
  rw [lk, if_pos hc]
  simp only [if_true]
  split <;> rfl

theorem lk_some (a : α) (t : Trie α D) : ∀ v, (lk a (some v) t).isSome = true := by
  induction t with
  | nil => intro v; rfl
  | node p d n h act l r ihl ihr =>
    intro v
    rw [lk]
    split
    · have : ∃ w, (if act then some d else some v) = some w := by cases act <;> exact ⟨_, rfl⟩
      obtain ⟨w, hw⟩ := this
      rw [hw]
      split
      · exact ihr _
      · exact ihl _
    · rfl

/-- what `createReturnValue` returns -/
theorem createReturnValue_spec (he : EqPer eq geq) {p : Prefix α} {d : Option D} {act : Bool} {l0 r0 : Trie α D}
    {isActive : Bool} {dt : Option D} {l r : Trie α D} {cc : Bool}
    (hcc : cc = false → l = l0 ∧ r = r0) :
    (∃ d', (createReturnValue eq geq (mk p d act l0 r0) isActive dt l r cc).1 = mk p d' isActive l r ∧
      (isActive = true → Close eq d' dt)) ∧
    ((createReturnValue eq geq (mk p d act l0 r0) isActive dt l r cc).2 = false →
      (createReturnValue eq geq (mk p d act l0 r0) isActive dt l r cc).1 = mk p d act l0 r0) := by
  have hme : ∀ (X : Trie α D × Bool), X = (createReturnValue eq geq (mk p d act l0 r0) isActive dt l r cc) →
     X = (if isActive == act && !cc && eq dt d then (mk p d act l0 r0, false)
    else
      let d' := if isActive then (if d.isNone || !eq d dt then dt else d) else none
      if geq d' d && isActive == act && !cc then (mk p d act l0 r0, false)
      else (mk p d' isActive l r, true)) := fun X h => h
  generalize hX : createReturnValue eq geq (mk p d act l0 r0) isActive dt l r cc = X
  have h := hme X hX.symm
  clear hme hX
  simp only at h
  by_cases h1 : (isActive == act && !cc && eq dt d) = true
  · rw [if_pos h1] at h
    subst h
    simp only [Bool.and_eq_true, Bool.not_eq_true', beq_iff_eq] at h1
    obtain ⟨⟨rfl, h2⟩, h3⟩ := h1
    obtain ⟨rfl, rfl⟩ := hcc h2
    exact ⟨⟨d, rfl, fun _ => .inr (he.symm h3)⟩, fun _ => rfl⟩
  · rw [if_neg h1] at h
    have hd : ∀ d', d' = (if isActive then (if d.isNone || !eq d dt then dt else d) else none) →
        isActive = true → Close eq d' dt := by
      intro d' hd' ha
      subst ha
      simp only [if_true] at hd'
      subst hd'
      split
      · exact .rfl
      · rename_i h
        simp only [Bool.or_eq_true, not_or, Bool.not_eq_true', Bool.not_eq_false] at h
        exact .inr h.2
    generalize hd'' : (if isActive then (if d.isNone || !eq d dt then dt else d) else none) = d' at h
    have hd := hd d' hd''.symm
    by_cases h2 : (geq d' d && isActive == act && !cc) = true
    · rw [if_pos h2] at h
      subst h
      simp only [Bool.and_eq_true, Bool.not_eq_true', beq_iff_eq] at h2
      obtain ⟨⟨h2, rfl⟩, h3⟩ := h2
      obtain ⟨rfl, rfl⟩ := hcc h3
      exact ⟨⟨d, rfl, fun ha => .inr ((hd ha).right he (he.symm (he.geq h2)))⟩, fun _ => rfl⟩
    · rw [if_neg h2] at h
      subst h
      exact ⟨⟨d', rfl, hd⟩, fun h => by cases h⟩

/-- an entry that repeats the value of its umbrella -/
def redun (eq : Eq' D) (u : Option (Option D)) (d : Option D) (act : Bool) : Bool :=
  act && (match u with
      | some v => eq v d
      | none => false)

/-- the umbrella below an entry -/
def umb (eq : Eq' D) (u : Option (Option D)) (d : Option D) (act : Bool) : Bool × Option (Option D) :=
  (act && !redun eq u d act, if act && !redun eq u d act then some d else u)

/-- the three possible results of `aggregate` at a node -/
inductive AggCase (eq : Eq' D) (u : Option (Option D)) (p : Prefix α) (d : Option D) (act : Bool)
    (l' r' : Trie α D) : Trie α D → Prop
  | merge (d' : Option D) (ql el nl hl ll lr qr er nr hr rl rr)
      (el' : l' = node ql el nl hl true ll lr) (er' : r' = node qr er nr hr true rl rr)
      (h1 : ql.len = p.len + 1) (h2 : qr.len = p.len + 1) (h3 : eq el er = true) (h4 : eq d' el = true) :
      AggCase eq u p d act l' r' (mk p d' true nil nil)
  | keep (d' : Option D) (h : (umb eq u d act).1 = true) (h1 : Close eq d' d)
      (hn : childrenAggregate eq p l' r' = false) : AggCase eq u p d act l' r' (mk p d' true l' r')
  | left (h : (umb eq u d act).1 = false) (h1 : r' = nil) : AggCase eq u p d act l' r' l'
  | right (h : (umb eq u d act).1 = false) (h1 : l' = nil) : AggCase eq u p d act l' r' r'
  | inner (d' : Option D) (h : (umb eq u d act).1 = false) (h1 : l' ≠ nil) (h2 : r' ≠ nil)
      (hn : childrenAggregate eq p l' r' = false) : AggCase eq u p d act l' r' (mk p d' false l' r')

theorem aggregate_cases (he : EqPer eq geq) (p : Prefix α) (d : Option D) (act : Bool) (l r : Trie α D)
    (u : Option (Option D))
    (hl : (aggregate eq geq (umb eq u d act).2 l).2 = false → (aggregate eq geq (umb eq u d act).2 l).1 = l)
    (hr : (aggregate eq geq (umb eq u d act).2 r).2 = false → (aggregate eq geq (umb eq u d act).2 r).1 = r) :
    AggCase eq u p d act (aggregate eq geq (umb eq u d act).2 l).1 (aggregate eq geq (umb eq u d act).2 r).1
      (aggregate eq geq u (mk p d act l r)).1 ∧
    ((aggregate eq geq u (mk p d act l r)).2 = false → (aggregate eq geq u (mk p d act l r)).1 = mk p d act l r) := by
  generalize hL : aggregate eq geq (umb eq u d act).2 l = L at hl ⊢
  generalize hR : aggregate eq geq (umb eq u d act).2 r = R at hr ⊢
  have hdef : aggregate eq geq u (mk p d act l r) =
    if childrenAggregate eq p L.1 R.1 then
      createReturnValue eq geq (mk p d act l r) true L.1.data nil nil true
    else if (umb eq u d act).1 then
      createReturnValue eq geq (mk p d act l r) (umb eq u d act).1
        (if redun eq u d act then none else d) L.1 R.1 (L.2 || R.2)
    else if L.1.isNil then (R.1, true)
    else if R.1.isNil then (L.1, true)
    else createReturnValue eq geq (mk p d act l r) (umb eq u d act).1 (if redun eq u d act then none else d) L.1 R.1 (L.2 || R.2) := by
    rw [← hL, ← hR]
    rfl
  rw [hdef]
  have hcc : (L.2 || R.2) = false → L.1 = l ∧ R.1 = r := by
    intro h
    simp only [Bool.or_eq_false_iff] at h
    exact ⟨hl h.1, hr h.2⟩
  by_cases h1 : childrenAggregate eq p L.1 R.1 = true
  · rw [if_pos h1]
    obtain ⟨⟨d', e, h2⟩, h3⟩ := createReturnValue_spec he (p := p) (d := d) (act := act) (l0 := l) (r0 := r)
      (isActive := true) (dt := L.1.data) (l := nil) (r := nil) (cc := true) (fun h => by cases h)
    refine ⟨?_, h3⟩
    rw [e]
    cases hl' : L.1 with
    | nil => rw [hl'] at h1; simp [childrenAggregate, isActive] at h1
    | node ql el nl hl0 al ll lr =>
    cases hr' : R.1 with
    | nil => rw [hr'] at h1; simp [childrenAggregate, isActive] at h1
    | node qr er nr hr0 ar rl rr =>
    rw [hl', hr'] at h1
    simp only [childrenAggregate, isActive, Trie.len, data, Bool.and_eq_true] at h1
    obtain ⟨⟨⟨⟨rfl, rfl⟩, h5⟩, h6⟩, h7⟩ := h1
    rw [hl'] at h2
    have h5 := of_decide_eq_true h5
    have h6 := of_decide_eq_true h6
    exact .merge d' ql el nl hl0 ll lr qr er nr hr0 rl rr rfl rfl h5 (by omega) h7 ((h2 rfl).left he (he.trans h7 (he.symm h7)))
  · rw [if_neg h1]
    have hn : childrenAggregate eq p L.1 R.1 = false := by simpa using h1
    by_cases h2 : (umb eq u d act).1 = true
    · rw [if_pos h2]
      obtain ⟨⟨d', e, h4⟩, h3⟩ := createReturnValue_spec he (p := p) (d := d) (act := act) (l0 := l) (r0 := r)
        (isActive := (umb eq u d act).1) (dt := (if redun eq u d act then none else d)) (l := L.1) (r := R.1) (cc := L.2 || R.2) hcc
      refine ⟨?_, h3⟩
      rw [e, h2]
      refine .keep d' h2 ?_ hn
      have := h4 h2
      rw [if_neg] at this
      · exact this
      · intro hx
        simp only [umb, hx] at h2
        simp at h2
    · rw [if_neg h2]
      have h2 : (umb eq u d act).1 = false := by simpa using h2
      by_cases h3 : L.1.isNil = true
      · rw [if_pos h3]
        have : L.1 = nil := by cases h : L.1 <;> simp_all [isNil]
        exact ⟨.right h2 this, fun h => by cases h⟩
      · rw [if_neg h3]
        have hln : L.1 ≠ nil := by intro h; rw [h] at h3; exact h3 rfl
        by_cases h4 : R.1.isNil = true
        · rw [if_pos h4]
          have : R.1 = nil := by cases h : R.1 <;> simp_all [isNil]
          exact ⟨.left h2 this, fun h => by cases h⟩
        · rw [if_neg h4]
          have hrn : R.1 ≠ nil := by intro h; rw [h] at h4; exact h4 rfl
          obtain ⟨⟨d', e, _⟩, h5⟩ := createReturnValue_spec he (p := p) (d := d) (act := act) (l0 := l) (r0 := r)
            (isActive := (umb eq u d act).1) (dt := (if redun eq u d act then none else d)) (l := L.1) (r := R.1) (cc := L.2 || R.2) hcc
          refine ⟨?_, h5⟩
          rw [e, h2]
          exact .inner d' h2 hln hrn hn

theorem aggregate_same (he : EqPer eq geq) {t : Trie α D} (hi : TInv t) : ∀ u,
    (aggregate eq geq u t).2 = false → (aggregate eq geq u t).1 = t := by
  induction hi with
  | empty => intro u _; rfl
  | mk p d act l r wf il ir hl hr two ihl ihr =>
    intro u
    exact (aggregate_cases he p d act l r u (ihl _) (ihr _)).2

/-- induction over `aggregate` -/
theorem aggregate_ind (he : EqPer eq geq) (P : Option (Option D) → Trie α D → Trie α D → Prop)
    (hnil : ∀ u, P u nil nil)
    (hmk : ∀ u p d act (l r l' r' t' : Trie α D), TInv (mk p d act l r) →
      p.WF → Inside p false l → Inside p true r → TInv l → TInv r → (act = false → l ≠ nil ∧ r ≠ nil) →
      P (umb eq u d act).2 l l' → P (umb eq u d act).2 r r' →
      AggCase eq u p d act l' r' t' → P u (mk p d act l r) t') {t : Trie α D} (hi : TInv t) :
    ∀ u, P u t (aggregate eq geq u t).1 := by
  induction hi with
  | empty => exact hnil
  | mk p d act l r wf il ir hl hr two ihl ihr =>
    intro u
    exact hmk u p d act l r _ _ _ (.mk p d act l r wf il ir hl hr two) wf il ir hl hr two (ihl _) (ihr _)
      (aggregate_cases he p d act l r u (aggregate_same he hl _) (aggregate_same he hr _)).1

theorem below_true {u : Option (Option D)} {d : Option D} {act : Bool} (h : (umb eq u d act).1 = true) :
    act = true ∧ (umb eq u d act).2 = some d ∧ ∀ v, u = some v → eq v d = false := by
  simp only [umb, redun] at *
  cases act with
  | false => simp at h
  | true =>
    simp only [Bool.true_and] at *
    refine ⟨trivial, by rw [if_pos h], fun v hv => ?_⟩
    subst hv
    simpa using h

theorem below_false {u : Option (Option D)} {d : Option D} {act : Bool} (h : (umb eq u d act).1 = false) :
    (umb eq u d act).2 = u ∧ (act = true → ∃ v, u = some v ∧ eq v d = true) := by
  refine ⟨?_, fun ha => ?_⟩
  · simp only [umb] at *
    rw [if_neg (by rw [h]; simp)]
  subst ha
  simp only [umb, redun] at h
  cases u with
  | none => simp at h
  | some v => exact ⟨v, rfl, by simpa using h⟩

/-- the shape invariant is kept, and so is the place of the root -/
theorem aggregate_tinv (he : EqPer eq geq) {t : Trie α D} (hi : TInv t) (u) :
    TInv (aggregate eq geq u t).1 ∧ ∀ p b, Inside p b t → Inside p b (aggregate eq geq u t).1 := by
  refine aggregate_ind he (fun u t t' => TInv t' ∧ ∀ p b, Inside p b t → Inside p b t') ?_ ?_ hi u
  · intro u; exact ⟨.empty, fun _ _ h => h⟩
  · intro u p d act l r l' r' t' hi wf il ir hl hr two ⟨hl1, hl2⟩ ⟨hr1, hr2⟩ hc
    cases hc with
    | merge d' => exact ⟨.mk _ _ _ _ _ wf trivial trivial .empty .empty (fun h => by cases h), fun _ _ h => h⟩
    | keep d' h h1 => exact ⟨.mk _ _ _ _ _ wf (hl2 _ _ il) (hr2 _ _ ir) hl1 hr1 (fun h => by cases h), fun _ _ h => h⟩
    | left h h1 => exact ⟨hl1, fun q b h => inside_trans h (hl2 _ _ il)⟩
    | right h h1 => exact ⟨hr1, fun q b h => inside_trans h (hr2 _ _ ir)⟩
    | inner d' h h1 h2 =>
      exact ⟨.mk _ _ _ _ _ wf (hl2 _ _ il) (hr2 _ _ ir) hl1 hr1 (fun _ => ⟨h1, h2⟩), fun _ _ h => h⟩

/-- entries with the value of the umbrella leave no trace -/
theorem aggregate_exists (he : EqPer eq geq) {t : Trie α D} (hi : TInv t) (u) :
    (aggregate eq geq u t).1 ≠ nil → ∃ x, x ∈ t.entries ∧ ∀ v, u = some v → eq v x.2 = false := by
  refine aggregate_ind he (fun u t t' => t' ≠ nil →
    ∃ x, x ∈ t.entries ∧ ∀ v, u = some v → eq v x.2 = false) ?_ ?_ hi u
  · intro u h; exact absurd rfl h
  · intro u p d act l r l' r' t' hi wf il ir hl hr two hl1 hr1 hc hn
    by_cases hb : (umb eq u d act).1 = true
    · obtain ⟨rfl, _, h⟩ := below_true hb
      exact ⟨(p, d), mem_mk.mpr (Or.inl ⟨rfl, rfl⟩), h⟩
    · obtain ⟨hb', _⟩ := below_false (by simpa using hb)
      rw [hb'] at hl1 hr1
      have fromL : l' ≠ nil → ∃ x, x ∈ (mk p d act l r).entries ∧ ∀ v, u = some v → eq v x.2 = false := fun h => by
        obtain ⟨x, hx, h⟩ := hl1 h
        exact ⟨x, mem_mk.mpr (Or.inr (Or.inl hx)), h⟩
      have fromR : r' ≠ nil → ∃ x, x ∈ (mk p d act l r).entries ∧ ∀ v, u = some v → eq v x.2 = false := fun h => by
        obtain ⟨x, hx, h⟩ := hr1 h
        exact ⟨x, mem_mk.mpr (Or.inr (Or.inr hx)), h⟩
      cases hc with
      | merge d' ql el nl hl ll lr qr er nr hr rl rr el' => exact fromL (by rw [el']; simp)
      | keep d' h => exact absurd h hb
      | left h h1 => exact fromL hn
      | right h h1 => exact fromR hn
      | inner d' h h1 h2 => exact fromL h1

/-- an active result covers only addresses that were covered, with an equal value -/
theorem aggregate_covered (he : EqPer eq geq) {t : Trie α D} (hi : TInv t) (u) :
    ∀ q e n h l r, (aggregate eq geq u t).1 = node q e n h true l r → ∀ a, Covers q a →
      ∃ x, x ∈ t.entries ∧ SubEq q x.1 ∧ Covers x.1 a ∧ Close eq e x.2 := by
  have key := aggregate_ind he (fun u t t' => (∀ p b, Inside p b t → Inside p b t') ∧
    ∀ q e n h l r, t' = node q e n h true l r → ∀ a, Covers q a →
      ∃ x, x ∈ t.entries ∧ SubEq q x.1 ∧ Covers x.1 a ∧ Close eq e x.2) ?_ ?_ hi u
  · exact key.2
  · intro u; exact ⟨fun _ _ h => h, fun _ _ _ _ _ _ h => by cases h⟩
  · intro u p d act l r l' r' t' hi wf il ir hl hr two ⟨hl2, hl1⟩ ⟨hr2, hr1⟩ hc
    have inL : ∀ {x}, x ∈ l.entries → x ∈ (mk p d act l r).entries := fun hx => mem_mk.mpr (Or.inr (Or.inl hx))
    have inR : ∀ {x}, x ∈ r.entries → x ∈ (mk p d act l r).entries := fun hx => mem_mk.mpr (Or.inr (Or.inr hx))
    cases hc with
    | merge d' ql el nl hl ll lr qr er nr hr rl rr el' er' h1 h2 h3 h4 =>
      refine ⟨fun _ _ h => h, fun q e n h l0 r0 eqn a ha => ?_⟩
      simp only [Trie.mk] at eqn
      injection eqn with e1 e2
      subst e1 e2
      have sl := hl2 _ _ il
      have sr := hr2 _ _ ir
      rw [el'] at sl
      rw [er'] at sr
      have hcov : ∀ (q : Prefix α) b, Sub p q b → q.len = p.len + 1 → bit a p.len = b → Covers q a := by
        intro q b hs hlen hb i hi
        by_cases hip : i < p.len
        · rw [← hs.agree i hip]; exact ha i hip
        · have : i = p.len := by omega
          subst this
          rw [hs.side, hb]
      cases hb : bit a p.len with
      | false =>
        obtain ⟨x, x1, x2, x3, x4⟩ := hl1 _ _ _ _ _ _ el' a (hcov ql false sl h1 hb)
        exact ⟨x, inL x1, (Sub.subEq sl).trans x2, x3, .inr (x4.right he h4)⟩
      | true =>
        obtain ⟨x, x1, x2, x3, x4⟩ := hr1 _ _ _ _ _ _ er' a (hcov qr true sr h2 hb)
        exact ⟨x, inR x1, (Sub.subEq sr).trans x2, x3, .inr (x4.right he (he.trans h4 h3))⟩
    | keep d' h h1 =>
      obtain ⟨rfl, -, -⟩ := below_true h
      refine ⟨fun _ _ h => h, fun q e n h l0 r0 eqn a ha => ?_⟩
      simp only [Trie.mk] at eqn
      injection eqn with e1 e2
      subst e1 e2
      exact ⟨(p, d), mem_mk.mpr (Or.inl ⟨rfl, rfl⟩), SubEq.refl _, ha, h1⟩
    | left h h1 =>
      refine ⟨fun q b h => inside_trans h (hl2 _ _ il), fun q e n h l0 r0 eqn a ha => ?_⟩
      obtain ⟨x, x1, x2, x3, x4⟩ := hl1 _ _ _ _ _ _ eqn a ha
      exact ⟨x, inL x1, x2, x3, x4⟩
    | right h h1 =>
      refine ⟨fun q b h => inside_trans h (hr2 _ _ ir), fun q e n h l0 r0 eqn a ha => ?_⟩
      obtain ⟨x, x1, x2, x3, x4⟩ := hr1 _ _ _ _ _ _ eqn a ha
      exact ⟨x, inR x1, x2, x3, x4⟩
    | inner d' h h1 h2 =>
      exact ⟨fun _ _ h => h, fun q e n h l0 r0 eqn => by simp [Trie.mk] at eqn⟩

/-- an active result with something below it is an entry with an entry of another value below it -/
theorem aggregate_nonleaf (he : EqPer eq geq) {t : Trie α D} (hi : TInv t) (u) :
    ∀ q e n h l r, (aggregate eq geq u t).1 = node q e n h true l r → (l ≠ nil ∨ r ≠ nil) →
      ∃ x y b, x ∈ t.entries ∧ y ∈ t.entries ∧ x.1 = q ∧ Close eq e x.2 ∧ Sub q y.1 b ∧ eq x.2 y.2 = false := by
  have key := aggregate_ind he (fun u t t' => 
    (t' ≠ nil → ∃ x, x ∈ t.entries ∧ ∀ v, u = some v → eq v x.2 = false) ∧
    ∀ q e n h l r, t' = node q e n h true l r → (l ≠ nil ∨ r ≠ nil) →
      ∃ x y b, x ∈ t.entries ∧ y ∈ t.entries ∧ x.1 = q ∧ Close eq e x.2 ∧ Sub q y.1 b ∧ eq x.2 y.2 = false) ?_ ?_ hi u
  · exact key.2
  · intro u; exact ⟨fun h => absurd rfl h, fun _ _ _ _ _ _ h => by cases h⟩
  · intro u p d act l r l' r' t' hi wf il ir hl hr two ⟨hl2, hl1⟩ ⟨hr2, hr1⟩ hc
    have inL : ∀ {x}, x ∈ l.entries → x ∈ (mk p d act l r).entries := fun hx => mem_mk.mpr (Or.inr (Or.inl hx))
    have inR : ∀ {x}, x ∈ r.entries → x ∈ (mk p d act l r).entries := fun hx => mem_mk.mpr (Or.inr (Or.inr hx))
    constructor
    · intro hn
      by_cases hb : (umb eq u d act).1 = true
      · obtain ⟨rfl, _, h⟩ := below_true hb
        exact ⟨(p, d), mem_mk.mpr (Or.inl ⟨rfl, rfl⟩), h⟩
      · obtain ⟨hb', _⟩ := below_false (by simpa using hb)
        rw [hb'] at hl2 hr2
        have fromL : l' ≠ nil → ∃ x, x ∈ (mk p d act l r).entries ∧ ∀ v, u = some v → eq v x.2 = false := fun h => by
          obtain ⟨x, hx, h⟩ := hl2 h
          exact ⟨x, inL hx, h⟩
        have fromR : r' ≠ nil → ∃ x, x ∈ (mk p d act l r).entries ∧ ∀ v, u = some v → eq v x.2 = false := fun h => by
          obtain ⟨x, hx, h⟩ := hr2 h
          exact ⟨x, inR hx, h⟩
        cases hc with
        | merge d' ql el nl hl ll lr qr er nr hr rl rr el' => exact fromL (by rw [el']; simp)
        | keep d' h => exact absurd h hb
        | left h h1 => exact fromL hn
        | right h h1 => exact fromR hn
        | inner d' h h1 h2 => exact fromL h1
    · intro q e n h l0 r0 eqn hne
      cases hc with
      | merge d' =>
        simp only [Trie.mk] at eqn
        injection eqn with e1 e2 e3 e4 e5 e6 e7
        subst e6 e7
        rcases hne with h | h <;> exact absurd rfl h
      | keep d' h h1 =>
        obtain ⟨rfl, hu, -⟩ := below_true h
        simp only [Trie.mk] at eqn
        injection eqn with e1 e2 e3 e4 e5 e6 e7
        subst e1 e2 e6 e7
        rcases hne with h | h
        · obtain ⟨y, hy, h⟩ := hl2 h
          exact ⟨(p, d), y, false, mem_mk.mpr (Or.inl ⟨rfl, rfl⟩), inL hy, rfl, h1, hl.side il hy, h d hu⟩
        · obtain ⟨y, hy, h⟩ := hr2 h
          exact ⟨(p, d), y, true, mem_mk.mpr (Or.inl ⟨rfl, rfl⟩), inR hy, rfl, h1, hr.side ir hy, h d hu⟩
      | left h h1 =>
        obtain ⟨x, y, b, x1, x2, x3⟩ := hl1 _ _ _ _ _ _ eqn hne
        exact ⟨x, y, b, inL x1, inL x2, x3⟩
      | right h h1 =>
        obtain ⟨x, y, b, x1, x2, x3⟩ := hr1 _ _ _ _ _ _ eqn hne
        exact ⟨x, y, b, inR x1, inR x2, x3⟩
      | inner d' h h1 h2 => simp [Trie.mk] at eqn

/-- `q` is the other half of the prefix of which `p` is a half -/
def Sibling (p q : Prefix α) : Prop := p.len = q.len ∧ ∃ P b, P.len + 1 = p.len ∧ Sub P p b ∧ Sub P q (!b)

/-- Nothing is lost when sibling halves merge: an entry with an entry of a different value inside it
    has an address in its sibling half that no entry inside the sibling half maps to an equal value. -/
def Mergeable' (eq : Eq' D) (t : Trie α D) : Prop :=
  ∀ x y b, x ∈ t.entries → y ∈ t.entries → Sub x.1 y.1 b → eq x.2 y.2 = false →
    ∀ q, Sibling x.1 q → ∃ a, Covers q a ∧ ∀ z, z ∈ t.entries → SubEq q z.1 → Covers z.1 a → eq x.2 z.2 = false

theorem lk_off {a : α} {u} {p : Prefix α} {b : Bool} {t : Trie α D} (hw : Inside p b t)
    (h : ¬ (Covers p a ∧ bit a p.len = b)) : lk a u t = u := by
  cases t with
  | nil => rfl
  | node q d n _ act l r =>
    rw [lk, if_neg]
    intro hc
    exact h (Sub.covers hw hc)

theorem lk_child {a : α} {u} {p : Prefix α} {l r : Trie α D} (il : Inside p false l) (ir : Inside p true r)
    (hc : ¬ Covers p a) : lk a u l = u ∧ lk a u r = u :=
  ⟨lk_off il fun h => hc h.1, lk_off ir fun h => hc h.1⟩

/-- what `aggregate` does to lookups, if nothing is lost in merging -/
theorem aggregate_lk (he : EqPer eq geq) {t : Trie α D} (hi : TInv t) (a : α) (u)
    (hm : Mergeable' eq t) : ORel eq (lk a u (aggregate eq geq u t).1) (lk a u t) := by
  induction hi generalizing u with
  | empty => exact ORel.refl he _
  | mk p d act l r wf il ir hl hr two ihl ihr =>
    have inL : ∀ {x}, x ∈ l.entries → x ∈ (Trie.mk p d act l r).entries := fun hx => mem_mk.mpr (Or.inr (Or.inl hx))
    have inR : ∀ {x}, x ∈ r.entries → x ∈ (Trie.mk p d act l r).entries := fun hx => mem_mk.mpr (Or.inr (Or.inr hx))
    have hml : Mergeable' eq l := fun x y b hx hy hs hxy q hq => by
      obtain ⟨a, h1, h2⟩ := hm x y b (inL hx) (inL hy) hs hxy q hq
      exact ⟨a, h1, fun z hz => h2 z (inL hz)⟩
    have hmr : Mergeable' eq r := fun x y b hx hy hs hxy q hq => by
      obtain ⟨a, h1, h2⟩ := hm x y b (inR hx) (inR hy) hs hxy q hq
      exact ⟨a, h1, fun z hz => h2 z (inR hz)⟩
    have ihl := ihl (umb eq u d act).2 hml
    have ihr := ihr (umb eq u d act).2 hmr
    have hcase := (aggregate_cases he p d act l r u (aggregate_same he hl _) (aggregate_same he hr _)).1
    obtain ⟨til, iil⟩ := aggregate_tinv he hl (umb eq u d act).2
    obtain ⟨tir, iir⟩ := aggregate_tinv he hr (umb eq u d act).2
    have cl := aggregate_covered he hl (umb eq u d act).2
    have cr := aggregate_covered he hr (umb eq u d act).2
    have nl := aggregate_nonleaf he hl (umb eq u d act).2
    have nr := aggregate_nonleaf he hr (umb eq u d act).2
    have iil := iil _ _ il
    have iir := iir _ _ ir
    generalize (aggregate eq geq (umb eq u d act).2 l).1 = l' at *
    generalize (aggregate eq geq (umb eq u d act).2 r).1 = r' at *
    generalize (aggregate eq geq u (Trie.mk p d act l r)).1 = t' at *
    rw [lk_mk]
    by_cases hc : Covers p a
    · rw [if_pos hc]
      -- the default below the node
      have hu : ORel eq (umb eq u d act).2 (if act then some d else u) := by
        by_cases hb : (umb eq u d act).1 = true
        · obtain ⟨rfl, h, -⟩ := below_true hb
          rw [h]; exact ORel.refl he _
        · obtain ⟨h, h'⟩ := below_false (by simpa using hb)
          rw [h]
          cases act with
          | false => exact ORel.refl he _
          | true =>
            obtain ⟨v, rfl, h''⟩ := h' rfl
            exact .inr h''
      have key : ORel eq (if bit a p.len = true then lk a (umb eq u d act).2 r' else lk a (umb eq u d act).2 l')
          (if bit a p.len = true then lk a (if act then some d else u) r else lk a (if act then some d else u) l) := by
        split
        · exact ihr.trans he (lk_congr he a r hu)
        · exact ihl.trans he (lk_congr he a l hu)
      cases hcase with
      | merge d' ql el nl' hl' ll lr qr er nr' hr' rl rr el' er' h1 h2 h3 h4 =>
        have sl := iil
        have sr := iir
        rw [el'] at sl
        rw [er'] at sr
        have sl : Sub p ql false := sl
        have sr : Sub p qr true := sr
        have hcov : ∀ (q : Prefix α) b, Sub p q b → q.len = p.len + 1 → bit a p.len = b → Covers q a := by
          intro q b hs hlen hb i hi
          by_cases hip : i < p.len
          · rw [← hs.agree i hip]; exact hc i hip
          · have : i = p.len := by omega
            subst this
            rw [hs.side, hb]
        have leafl : ll = nil ∧ lr = nil := by
          refine Classical.byContradiction fun hcon => ?_
          have hne : ll ≠ nil ∨ lr ≠ nil := by
            by_cases h : ll = nil
            · exact Or.inr fun h' => hcon ⟨h, h'⟩
            · exact Or.inl h
          obtain ⟨x, y, b, x1, x2, x3, x4, x5, x6⟩ := nl _ _ _ _ _ _ el' hne
          obtain ⟨c, hc1, hc2⟩ := hm x y b (inL x1) (inL x2) (by rw [x3]; exact x5) x6 qr
            ⟨by rw [x3]; omega, p, false, by rw [x3]; omega, by rw [x3]; exact sl, sr⟩
          obtain ⟨z, z1, z2, z3, z4⟩ := cr _ _ _ _ _ _ er' c hc1
          have := hc2 z (inR z1) z2 z3
          rw [(x4.symm he).left he (z4.right he h3)] at this
          cases this
        have leafr : rl = nil ∧ rr = nil := by
          refine Classical.byContradiction fun hcon => ?_
          have hne : rl ≠ nil ∨ rr ≠ nil := by
            by_cases h : rl = nil
            · exact Or.inr fun h' => hcon ⟨h, h'⟩
            · exact Or.inl h
          obtain ⟨x, y, b, x1, x2, x3, x4, x5, x6⟩ := nr _ _ _ _ _ _ er' hne
          obtain ⟨c, hc1, hc2⟩ := hm x y b (inR x1) (inR x2) (by rw [x3]; exact x5) x6 ql
            ⟨by rw [x3]; omega, p, true, by rw [x3]; omega, by rw [x3]; exact sr, sl⟩
          obtain ⟨z, z1, z2, z3, z4⟩ := cl _ _ _ _ _ _ el' c hc1
          have := hc2 z (inL z1) z2 z3
          rw [(x4.symm he).left he (z4.right he (he.symm h3))] at this
          cases this
        obtain ⟨rfl, rfl⟩ := leafl
        obtain ⟨rfl, rfl⟩ := leafr
        rw [lk_mk, if_pos hc]
        refine ORel.trans he ?_ key
        cases hb : bit a p.len with
        | false =>
          rw [el', lk_leaf (hcov ql false sl h1 hb)]
          exact .inr h4
        | true =>
          rw [er', lk_leaf (hcov qr true sr h2 hb)]
          exact .inr (he.trans h4 h3)
      | keep d' h h1 =>
        obtain ⟨rfl, h5, -⟩ := below_true h
        rw [lk_mk, if_pos hc]
        refine ORel.trans he ?_ key
        rw [h5]
        have hd : ORel eq (if true = true then some d' else u) (some d) := h1
        split
        · exact lk_congr he a r' hd
        · exact lk_congr he a l' hd
      | left h h1 =>
        obtain ⟨h5, -⟩ := below_false h
        refine ORel.trans he ?_ key
        rw [h5]
        cases hb : bit a p.len with
        | false => exact ORel.refl he _
        | true => 
          subst h1
          rw [lk_off iil (by rw [hb]; simp)]; exact ORel.refl he _
      | right h h1 =>
        obtain ⟨h5, -⟩ := below_false h
        refine ORel.trans he ?_ key
        rw [h5]
        cases hb : bit a p.len with
        | true => exact ORel.refl he _
        | false =>
          subst h1
          rw [lk_off iir (by rw [hb]; simp)]; exact ORel.refl he _
      | inner d' h h1 h2 =>
        obtain ⟨h5, -⟩ := below_false h
        rw [lk_mk, if_pos hc]
        refine ORel.trans he ?_ key
        rw [h5]
        exact ORel.refl he _
    · rw [if_neg hc]
      have : lk a u t' = u := by
        cases hcase with
        | merge => rw [lk_mk, if_neg hc]
        | keep => rw [lk_mk, if_neg hc]
        | left h h1 => exact lk_off iil fun h => hc h.1
        | right h h1 => exact lk_off iir fun h => hc h.1
        | inner => rw [lk_mk, if_neg hc]
      rw [this]
      exact ORel.refl he _

theorem lk_isSome (a : α) (t : Trie α D) : ∀ u v : Option (Option D), u.isSome = v.isSome →
    (lk a u t).isSome = (lk a v t).isSome := by
  induction t with
  | nil => intro u v h; exact h
  | node p d n h act l r ihl ihr =>
    intro u v h
    simp only [lk]
    by_cases hc : Covers p a
    · rw [if_pos hc, if_pos hc]
      have : (if act then some d else u).isSome = (if act then some d else v).isSome := by
        cases act
        · exact h
        · rfl
      split
      · exact ihr _ _ this
      · exact ihl _ _ this
    · rw [if_neg hc, if_neg hc]; exact h

/-- whether an address is found never changes -/
theorem aggregate_found (he : EqPer eq geq) {t : Trie α D} (hi : TInv t) (a : α) (u) :
    (lk a u (aggregate eq geq u t).1).isSome = (lk a u t).isSome := by
  induction hi generalizing u with
  | empty => rfl
  | mk p d act l r wf il ir hl hr two ihl ihr =>
    have ihl := ihl (umb eq u d act).2
    have ihr := ihr (umb eq u d act).2
    have hcase := (aggregate_cases he p d act l r u (aggregate_same he hl _) (aggregate_same he hr _)).1
    have iil := (aggregate_tinv he hl (umb eq u d act).2).2 _ _ il
    have iir := (aggregate_tinv he hr (umb eq u d act).2).2 _ _ ir
    generalize (aggregate eq geq (umb eq u d act).2 l).1 = l' at *
    generalize (aggregate eq geq (umb eq u d act).2 r).1 = r' at *
    generalize (aggregate eq geq u (Trie.mk p d act l r)).1 = t' at *
    rw [lk_mk]
    by_cases hc : Covers p a
    · rw [if_pos hc]
      have hu : (umb eq u d act).2.isSome = (if act then some d else u).isSome := by
        by_cases hb : (umb eq u d act).1 = true
        · obtain ⟨rfl, h, -⟩ := below_true hb
          rw [h]; rfl
        · obtain ⟨h, h'⟩ := below_false (by simpa using hb)
          rw [h]
          cases act with
          | false => rfl
          | true =>
            obtain ⟨v, rfl, h⟩ := h' rfl
            rfl
      have key : (if bit a p.len = true then lk a (umb eq u d act).2 r' else lk a (umb eq u d act).2 l').isSome =
          (if bit a p.len = true then lk a (if act then some d else u) r else lk a (if act then some d else u) l).isSome := by
        split
        · exact ihr.trans (lk_isSome a r _ _ hu)
        · exact ihl.trans (lk_isSome a l _ _ hu)
      rw [← key]
      cases hcase with
      | merge d' ql el nl' hl' ll lr qr er nr' hr' rl rr el' er' h1 h2 h3 h4 =>
        have sl := iil
        have sr := iir
        rw [el'] at sl
        rw [er'] at sr
        have sl : Sub p ql false := sl
        have sr : Sub p qr true := sr
        have hcov : ∀ (q : Prefix α) b, Sub p q b → q.len = p.len + 1 → bit a p.len = b → Covers q a := by
          intro q b hs hlen hb i hi
          by_cases hip : i < p.len
          · rw [← hs.agree i hip]; exact hc i hip
          · have : i = p.len := by omega
            subst this
            rw [hs.side, hb]
        rw [show Trie.mk p d' true (nil : Trie α D) nil = node p d' 1 1 true nil nil by
          simp [Trie.mk, numNodes, height], lk_leaf hc]
        cases hb : bit a p.len with
        | false =>
          rw [el', if_neg (by simp), lk_active (hcov ql false sl h1 hb), lk_some]; rfl
        | true =>
          rw [er', if_pos rfl, lk_active (hcov qr true sr h2 hb), lk_some]; rfl
      | keep d' h h1 =>
        obtain ⟨rfl, h5, -⟩ := below_true h
        rw [lk_mk, if_pos hc, h5]
        split
        · exact lk_isSome a _ _ _ rfl
        · exact lk_isSome a _ _ _ rfl
      | left h h1 =>
        obtain ⟨h5, -⟩ := below_false h
        rw [h5]
        cases hb : bit a p.len with
        | false => rfl
        | true =>
          subst h1
          rw [lk_off iil (by rw [hb]; simp)]; rfl
      | right h h1 =>
        obtain ⟨h5, -⟩ := below_false h
        rw [h5]
        cases hb : bit a p.len with
        | true => rfl
        | false =>
          subst h1
          rw [lk_off iir (by rw [hb]; simp)]; rfl
      | inner d' h h1 h2 =>
        obtain ⟨h5, -⟩ := below_false h
        rw [lk_mk, if_pos hc, h5]
        rfl
    · rw [if_neg hc]
      have : lk a u t' = u := by
        cases hcase with
        | merge => rw [lk_mk, if_neg hc]
        | keep => rw [lk_mk, if_neg hc]
        | left h h1 => exact lk_off iil fun h => hc h.1
        | right h h1 => exact lk_off iir fun h => hc h.1
        | inner => rw [lk_mk, if_neg hc]
      rw [this]

/-- every entry of the result repeats the value of entries that cover all its addresses -/
theorem aggregate_entries (he : EqPer eq geq) {t : Trie α D} (hi : TInv t) (u) :
    ∀ y, y ∈ (aggregate eq geq u t).1.entries → ∀ a, Covers y.1 a →
      ∃ x, x ∈ t.entries ∧ SubEq y.1 x.1 ∧ Covers x.1 a ∧ Close eq y.2 x.2 := by
  induction hi generalizing u with
  | empty => intro y hy; cases hy
  | mk p d act l r wf il ir hl hr two ihl ihr =>
    have inL : ∀ {x}, x ∈ l.entries → x ∈ (Trie.mk p d act l r).entries := fun hx => mem_mk.mpr (Or.inr (Or.inl hx))
    have inR : ∀ {x}, x ∈ r.entries → x ∈ (Trie.mk p d act l r).entries := fun hx => mem_mk.mpr (Or.inr (Or.inr hx))
    have cov := aggregate_covered he (.mk p d act l r wf il ir hl hr two) u
    have ihl := ihl (umb eq u d act).2
    have ihr := ihr (umb eq u d act).2
    have hcase := (aggregate_cases he p d act l r u (aggregate_same he hl _) (aggregate_same he hr _)).1
    generalize (aggregate eq geq (umb eq u d act).2 l).1 = l' at *
    generalize (aggregate eq geq (umb eq u d act).2 r).1 = r' at *
    generalize (aggregate eq geq u (Trie.mk p d act l r)).1 = t' at *
    have fl : ∀ y, y ∈ l'.entries → ∀ a, Covers y.1 a →
      ∃ x, x ∈ (Trie.mk p d act l r).entries ∧ SubEq y.1 x.1 ∧ Covers x.1 a ∧ Close eq y.2 x.2 := fun y hy a ha => by
      obtain ⟨x, x1, x2⟩ := ihl y hy a ha
      exact ⟨x, inL x1, x2⟩
    have fr : ∀ y, y ∈ r'.entries → ∀ a, Covers y.1 a →
      ∃ x, x ∈ (Trie.mk p d act l r).entries ∧ SubEq y.1 x.1 ∧ Covers x.1 a ∧ Close eq y.2 x.2 := fun y hy a ha => by
      obtain ⟨x, x1, x2⟩ := ihr y hy a ha
      exact ⟨x, inR x1, x2⟩
    intro y hy a ha
    cases hcase with
    | merge d' =>
      rcases mem_mk.mp hy with ⟨_, rfl⟩ | hy | hy
      · exact cov _ _ _ _ _ _ rfl a ha
      · cases hy
      · cases hy
    | keep d' h h1 =>
      rcases mem_mk.mp hy with ⟨_, rfl⟩ | hy | hy
      · exact cov _ _ _ _ _ _ rfl a ha
      · exact fl y hy a ha
      · exact fr y hy a ha
    | left h h1 => exact fl y hy a ha
    | right h h1 => exact fr y hy a ha
    | inner d' h h1 h2 =>
      rcases mem_mk.mp hy with ⟨h, _⟩ | hy | hy
      · cases h
      · exact fl y hy a ha
      · exact fr y hy a ha

theorem entries_length_mk (p : Prefix α) (d : Option D) (act : Bool) (l r : Trie α D) :
    (mk p d act l r).entries.length = (if act then 1 else 0) + (l.entries.length + r.entries.length) := by
  cases act <;> simp [Trie.mk, entries] <;> omega

/-- the result never has more entries -/
theorem aggregate_length (he : EqPer eq geq) {t : Trie α D} (hi : TInv t) (u) :
    (aggregate eq geq u t).1.entries.length ≤ t.entries.length := by
  refine aggregate_ind he (fun u t t' => t'.entries.length ≤ t.entries.length) ?_ ?_ hi u
  · intro u; exact Nat.le_refl _
  · intro u p d act l r l' r' t' hi wf il ir hl hr two hl1 hr1 hc
    rw [entries_length_mk]
    cases hc with
    | merge d' ql el nl hl ll lr qr er nr hr rl rr el' er' h1 h2 h3 h4 =>
      rw [entries_length_mk]
      rw [el'] at hl1
      simp [entries] at hl1 ⊢
      omega
    | keep d' h h1 =>
      obtain ⟨rfl, -, -⟩ := below_true h
      rw [entries_length_mk]
      omega
    | left h h1 => omega
    | right h h1 => omega
    | inner d' h h1 h2 =>
      rw [entries_length_mk]
      simp only [Bool.false_eq_true, if_false]
      omega

/-- no node has two active halves with equal values below it -/
def Reduced (eq : Eq' D) : Trie α D → Prop
  | nil => True
  | node p _ _ _ _ l r => childrenAggregate eq p l r = false ∧ l.Reduced eq ∧ r.Reduced eq

theorem aggregate_reduced (he : EqPer eq geq) {t : Trie α D} (hi : TInv t) (u) :
    (aggregate eq geq u t).1.Reduced eq := by
  refine aggregate_ind he (fun u t t' => t'.Reduced eq) ?_ ?_ hi u
  · intro u; trivial
  · intro u p d act l r l' r' t' hi wf il ir hl hr two hl1 hr1 hc
    cases hc with
    | merge d' => exact ⟨rfl, trivial, trivial⟩
    | keep d' h h1 hn => exact ⟨hn, hl1, hr1⟩
    | left h h1 => exact hl1
    | right h h1 => exact hr1
    | inner d' h h1 h2 hn => exact ⟨hn, hl1, hr1⟩

/-- the entry with the key of the root's half is the root of the child -/
theorem TInv.half {t : Trie α D} (hi : TInv t) {p : Prefix α} {b : Bool} (hw : Inside p b t)
    {x} (hx : x ∈ t.entries) (hl : x.1.len = p.len + 1) :
    ∃ n h l r, t = node x.1 x.2 n h true l r := by
  cases hi with
  | empty => cases hx
  | mk q d act l r wf il ir hl' hr two =>
    have hlt : p.len < q.len := Sub.lt hw
    rcases mem_mk.mp hx with ⟨rfl, rfl⟩ | hx | hx
    · exact ⟨_, _, _, _, rfl⟩
    · have := (hl'.side il hx).lt; omega
    · have := (hr.side ir hx).lt; omega

/-- in a reduced trie no two entries are halves of the same prefix with equal values -/
theorem Reduced.siblings {t : Trie α D} (hi : TInv t) (hr : t.Reduced eq) :
    ∀ P x y, x ∈ t.entries → y ∈ t.entries → x.1.len = P.len + 1 → y.1.len = P.len + 1 →
      Sub P x.1 false → Sub P y.1 true → eq x.2 y.2 = false := by
  induction hi with
  | empty => intro P x y hx; cases hx
  | mk p d act l r wf il ir hl hr' two ihl ihr =>
    obtain ⟨h1, h2, h3⟩ := hr
    intro P x y hx hy lx ly sx sy
    -- a prefix that contains both
    have up : ∀ {q : Prefix α} {c z : Prefix α} {b b' : Bool}, Sub q c b → Sub q z b' → Sub P c false → Sub P z true →
        c.len = P.len + 1 → b = b' ∨ (q.len = P.len ∧ b = false ∧ b' = true) := by
      intro q c z b b' h h' k k' hlen
      have hq : q.len ≤ P.len := by have := h.lt; omega
      by_cases he : q.len = P.len
      · right
        refine ⟨he, ?_, ?_⟩
        · rw [← h.side, he]; exact k.side
        · rw [← h'.side, he]; exact k'.side
      · left
        have hlt : q.len < P.len := by omega
        rw [← h.side, ← h'.side, ← k.agree _ hlt, ← k'.agree _ hlt]
    rcases mem_mk.mp hx with ⟨_, rfl⟩ | hx' | hx' <;> rcases mem_mk.mp hy with ⟨_, rfl⟩ | hy' | hy'
    · have := sx.side; have h := sy.side; simp only at this h; rw [this] at h; cases h
    · have := (hl.side il hy').lt; simp only at lx; omega
    · have := (hr'.side ir hy').lt; simp only at lx; omega
    · have := (hl.side il hx').lt; simp only at ly; omega
    · exact ihl h2 P x y hx' hy' lx ly sx sy
    · have sl := hl.side il hx'
      have sr := hr'.side ir hy'
      rcases up sl sr sx sy lx with h | ⟨h, -, -⟩
      · cases h
      · obtain ⟨n, hh, ll, lr, e⟩ := hl.half il hx' (by omega)
        obtain ⟨n', hh', rl, rr, e'⟩ := hr'.half ir hy' (by omega)
        rw [e, e'] at h1
        simp only [childrenAggregate, isActive, Trie.len, data, lx, ly, h, decide_true, Bool.true_and] at h1
        exact h1
    · have := (hr'.side ir hx').lt; simp only at ly; omega
    · have sr := hr'.side ir hx'
      have sl := hl.side il hy'
      rcases up sr sl sx sy lx with h | ⟨h, h', -⟩
      · cases h
      · cases h'
    · exact ihr h3 P x y hx' hy' lx ly sx sy

/-- lookup of an address through the trie -/
theorem lk_match {t : Trie α D} (hi : TInv t) (a : α) : ∀ u,
    lk a u t = match t.match ⟨a, width α⟩ with
      | some x => some x.2
      | none => u := by
  induction hi with
  | empty => intro u; rfl
  | mk p d act l r wf il ir hl hr two ihl ihr =>
    intro u
    rw [lk_mk]
    have wf' : p.len ≤ width α := wf
    have hm : (Trie.mk p d act l r).match ⟨a, width α⟩ =
        if width α < p.len then none
        else if !(containsP p ⟨a, width α⟩).1 then none
        else match (if !(containsP p ⟨a, width α⟩).2.1 then
            (if (containsP p ⟨a, width α⟩).2.2.2 then r.match ⟨a, width α⟩ else l.match ⟨a, width α⟩) else none) with
          | some x => some x
          | none => if act then some (p, d) else none := rfl
    rw [hm, if_neg (c := width α < p.len) (by omega)]
    rcases containsP_spec (s := p) (l := ⟨a, width α⟩) wf with ⟨h1, h2⟩ | ⟨m, hm', h1, h3, h2⟩
    · have hc : Covers p a := h1
      rw [if_pos hc, h2]
      simp only [Bool.not_true, Bool.false_eq_true, if_false]
      by_cases hex : p.len = width α
      · have hb : ∀ i, p.len ≤ i → bit a i = false := fun i hi => bit_ge (by omega)
        have ll : l = nil := by
          cases l with
          | nil => rfl
          | node q _ _ _ _ _ _ => have := Sub.lt il; have := hl.inv.1; unfold Prefix.WF at this; omega
        have rr : r = nil := by
          cases r with
          | nil => rfl
          | node q _ _ _ _ _ _ => have := Sub.lt ir; have := hr.inv.1; unfold Prefix.WF at this; omega
        subst ll rr
        cases act <;> simp [lk, «match»]
      · simp only [hex, decide_false, Bool.not_false, if_true, Bool.true_and]
        cases hb : bit a p.len with
        | true =>
          simp only [if_true, ihr]
          cases r.match ⟨a, width α⟩ with
          | some x => rfl
          | none => cases act <;> rfl
        | false =>
          simp only [Bool.false_eq_true, if_false, ihl]
          cases l.match ⟨a, width α⟩ with
          | some x => rfl
          | none => cases act <;> rfl
    · have hc : ¬ Covers p a := fun hc => h3 (hc m hm')
      rw [if_neg hc, h2]
      rfl

theorem lk_eq {t : Trie α D} (hi : TInv t) (a : α) :
    lk a none t = (t.match ⟨a, width α⟩).map (·.2) := by
  rw [lk_match hi]
  cases t.match ⟨a, width α⟩ <;> rfl

/-! ### tables in which all values compare equal -/

/-- all values compare equal -/
def AllEq (eq : Eq' D) (t : Trie α D) : Prop := ∀ x y, x ∈ t.entries → y ∈ t.entries → eq x.2 y.2 = true

/-- active nodes have nothing below them -/
def Flat : Trie α D → Prop
  | nil => True
  | node _ _ _ _ act l r => (act = true → l = nil ∧ r = nil) ∧ l.Flat ∧ r.Flat

theorem AllEq.children {p : Prefix α} {d : Option D} {act l r} (h : AllEq eq (mk p d act l r)) :
    AllEq eq l ∧ AllEq eq r :=
  ⟨fun x y hx hy => h x y (mem_mk.mpr (Or.inr (Or.inl hx))) (mem_mk.mpr (Or.inr (Or.inl hy))),
   fun x y hx hy => h x y (mem_mk.mpr (Or.inr (Or.inr hx))) (mem_mk.mpr (Or.inr (Or.inr hy)))⟩

theorem aggregate_flat (he : EqPer eq geq) {t : Trie α D} (hi : TInv t) (ha : AllEq eq t) :
    (aggregate eq geq none t).1.Flat := by
  have key := aggregate_ind he (fun u t t' => AllEq eq t →
    (t' ≠ nil → ∃ x, x ∈ t.entries ∧ ∀ v, u = some v → eq v x.2 = false) ∧ (u = none → t'.Flat)) ?_ ?_ hi none ha
  · exact key.2 rfl
  · intro u _; exact ⟨fun h => absurd rfl h, fun _ => trivial⟩
  · intro u p d act l r l' r' t' hi wf il ir hl hr two hl1 hr1 hc hall
    obtain ⟨al, ar⟩ := hall.children
    obtain ⟨hl2, hl1⟩ := hl1 al
    obtain ⟨hr2, hr1⟩ := hr1 ar
    have inL : ∀ {x}, x ∈ l.entries → x ∈ (mk p d act l r).entries := fun hx => mem_mk.mpr (Or.inr (Or.inl hx))
    have inR : ∀ {x}, x ∈ r.entries → x ∈ (mk p d act l r).entries := fun hx => mem_mk.mpr (Or.inr (Or.inr hx))
    constructor
    · intro hn
      by_cases hb : (umb eq u d act).1 = true
      · obtain ⟨rfl, _, h⟩ := below_true hb
        exact ⟨(p, d), mem_mk.mpr (Or.inl ⟨rfl, rfl⟩), h⟩
      · obtain ⟨hb', _⟩ := below_false (by simpa using hb)
        rw [hb'] at hl2 hr2
        have fromL : l' ≠ nil → ∃ x, x ∈ (mk p d act l r).entries ∧ ∀ v, u = some v → eq v x.2 = false := fun h => by
          obtain ⟨x, hx, h⟩ := hl2 h
          exact ⟨x, inL hx, h⟩
        have fromR : r' ≠ nil → ∃ x, x ∈ (mk p d act l r).entries ∧ ∀ v, u = some v → eq v x.2 = false := fun h => by
          obtain ⟨x, hx, h⟩ := hr2 h
          exact ⟨x, inR hx, h⟩
        cases hc with
        | merge d' ql el nl hl ll lr qr er nr hr rl rr el' => exact fromL (by rw [el']; simp)
        | keep d' h => exact absurd h hb
        | left h h1 => exact fromL hn
        | right h h1 => exact fromR hn
        | inner d' h h1 h2 => exact fromL h1
    · intro hu
      subst hu
      cases hc with
      | merge d' => exact ⟨fun _ => ⟨rfl, rfl⟩, trivial, trivial⟩
      | keep d' h h1 =>
        obtain ⟨rfl, h5, -⟩ := below_true h
        have hln : l' = nil := by
          refine Classical.byContradiction fun hn => ?_
          obtain ⟨x, hx, h⟩ := hl2 hn
          have := h d h5
          rw [hall (p, d) x (mem_mk.mpr (Or.inl ⟨rfl, rfl⟩)) (inL hx)] at this
          cases this
        have hrn : r' = nil := by
          refine Classical.byContradiction fun hn => ?_
          obtain ⟨x, hx, h⟩ := hr2 hn
          have := h d h5
          rw [hall (p, d) x (mem_mk.mpr (Or.inl ⟨rfl, rfl⟩)) (inR hx)] at this
          cases this
        exact ⟨fun _ => ⟨hln, hrn⟩, by rw [hln]; trivial, by rw [hrn]; trivial⟩
      | left h h1 => rw [(below_false h).1] at hl1; exact hl1 rfl
      | right h h1 => rw [(below_false h).1] at hr1; exact hr1 rfl
      | inner d' h h1 h2 =>
        rw [(below_false h).1] at hl1 hr1
        exact ⟨fun h => (by cases h), hl1 rfl, hr1 rfl⟩

/-- the set of addresses of a flat table -/
def strip : Trie α D → SetNode α
  | nil => .nil
  | node p _ _ _ act l r => if act then SetNode.fromPrefix p else Trie.mk p.network none false l.strip r.strip

theorem strip_spec {t : Trie α D} (hi : TInv t) : t.Flat → t.Reduced eq → AllEq eq t →
    SetNode.Inv t.strip ∧ t.strip.prefixes = t.entries.map (·.1) ∧
    (∀ p b, Inside p b t → SetNode.Within p b t.strip) ∧ (t ≠ nil → t.strip ≠ .nil) := by
  induction hi with
  | empty => intro _ _ _; exact ⟨.nil, rfl, fun _ _ _ => trivial, fun h => absurd rfl h⟩
  | mk p d act l r wf il ir hl hr two ihl ihr =>
    intro ⟨hf, fl, fr⟩ ⟨hn, nl, nr⟩ ha
    obtain ⟨al, ar⟩ := ha.children
    obtain ⟨l1, l2, l3, l4⟩ := ihl fl nl al
    obtain ⟨r1, r2, r3, r4⟩ := ihr fr nr ar
    cases act with
    | true =>
      obtain ⟨rfl, rfl⟩ := hf rfl
      exact ⟨.leaf p wf, rfl, fun q b h => h, fun _ h => by cases h⟩
    | false =>
      obtain ⟨ln, rn⟩ := two rfl
      have same : SameKey p p.network := ⟨rfl, (agree_network wf).symm⟩
      have ul : SetNode.Under p.network false l.strip := by
        have h := (l3 _ _ il).under (l4 ln)
        cases e : l.strip with
        | nil => exact absurd e (l4 ln)
        | node q _ _ _ _ _ _ => rw [e] at h; exact Sub.congr_left h same
      have ur : SetNode.Under p.network true r.strip := by
        have h := (r3 _ _ ir).under (r4 rn)
        cases e : r.strip with
        | nil => exact absurd e (r4 rn)
        | node q _ _ _ _ _ _ => rw [e] at h; exact Sub.congr_left h same
      have hz : ZeroFrom p.network.len p.network.addr := fun i hi => by
        have hi : p.len ≤ i := hi
        rw [bit_network wf, decide_eq_false (by omega)]
        rfl
      have nm : ¬ SetNode.Mergeable p.network l.strip r.strip := by
        intro hm
        cases l with
        | nil => exact ln rfl
        | node ql el nl' hl' acl ll lr =>
        cases r with
        | nil => exact rn rfl
        | node qr er nr' hr' acr rl rr =>
        cases acl with
        | false =>
          cases acr with
          | false =>
            simp only [strip, Bool.false_eq_true, if_false, Trie.mk] at hm
            exact absurd hm.1 (by simp)
          | true =>
            simp only [strip, Bool.false_eq_true, if_false, if_true, Trie.mk, SetNode.fromPrefix] at hm
            exact absurd hm.1 (by simp)
        | true =>
        cases acr with
        | false =>
          simp only [strip, Bool.false_eq_true, if_false, if_true, Trie.mk, SetNode.fromPrefix] at hm
          exact absurd hm.2.1 (by simp)
        | true =>
          obtain ⟨-, -, h1, h2⟩ := hm
          have h1 : ql.len = p.len + 1 := h1
          have h2 : qr.len = p.len + 1 := h2
          simp only [childrenAggregate, isActive, Trie.len, data, h1, h2, decide_true, Bool.true_and] at hn
          rw [ha (ql, el) (qr, er) (mem_mk.mpr (Or.inr (Or.inl (mem_node.mpr (Or.inl ⟨rfl, rfl⟩)))))
            (mem_mk.mpr (Or.inr (Or.inr (mem_node.mpr (Or.inl ⟨rfl, rfl⟩)))))] at hn
          cases hn
      have es : (Trie.mk p d false l r).strip = Trie.mk p.network none false l.strip r.strip := by
        simp [Trie.mk, strip]
      rw [es]
      refine ⟨.inner _ _ _ hz ul ur l1 r1 nm, ?_, fun q b h => ?_, fun _ h => by cases h⟩
      · rw [SetNode.prefixes_mk, l2, r2]
        simp [Trie.mk, entries]
      · exact Sub.congr_right (p := q) h same

/-- If all values compare equal, no list of prefixes with the same addresses is shorter. -/
theorem aggregate_minimal (he : EqPer eq geq) {t : Trie α D} (hi : TInv t) (ha : AllEq eq t)
    (L : List (Prefix α)) (hL : ∀ a, (∃ x, x ∈ t.entries ∧ Covers x.1 a) ↔ ∃ p ∈ L, Covers p a) :
    (aggregate eq geq none t).1.entries.length ≤ L.length := by
  have htv := (aggregate_tinv he hi none).1
  have hall : AllEq eq (aggregate eq geq none t).1 := by
    intro x y hx hy
    obtain ⟨x', x1, -, -, x2⟩ := aggregate_entries he hi none x hx x.1.addr (Covers.self _)
    obtain ⟨y', y1, -, -, y2⟩ := aggregate_entries he hi none y hy y.1.addr (Covers.self _)
    exact x2.left he ((y2.symm he).right he (ha x' y' x1 y1))
  obtain ⟨h1, h2, -, -⟩ := strip_spec htv (aggregate_flat he hi ha) (aggregate_reduced he hi none) hall
  have := h1.minimal L fun a => by
    rw [← hL, h1.mem_iff, h2]
    have := aggregate_found he hi a none
    rw [lk_eq htv, lk_eq hi] at this
    have ms := match_spec ⟨a, width α⟩ _ htv
    have ms' := match_spec ⟨a, width α⟩ _ hi
    simp only [Option.isSome_map] at this
    have c1 : ∀ {t : Trie α D}, TInv t → ((t.match ⟨a, width α⟩).isSome = true ↔ ∃ x, x ∈ t.entries ∧ Covers x.1 a) := by
      intro t hi
      have ms := match_spec ⟨a, width α⟩ _ hi
      constructor
      · intro h
        obtain ⟨x, hx⟩ := Option.isSome_iff_exists.mp h
        exact ⟨x, (ms.1 x hx).1, (ms.1 x hx).2.1.2⟩
      · rintro ⟨x, hx, hc⟩
        cases hm : t.match ⟨a, width α⟩ with
        | some y => rfl
        | none => exact absurd ⟨hi.entries_wf hx, hc⟩ (ms.2 hm x hx)
    rw [← c1 hi, ← this, c1 htv]
    constructor
    · rintro ⟨p, hp, hc⟩
      obtain ⟨x, hx, rfl⟩ := List.mem_map.mp hp
      exact ⟨x, hx, hc⟩
    · rintro ⟨x, hx, hc⟩
      exact ⟨x.1, List.mem_map.mpr ⟨x, hx, rfl⟩, hc⟩
  rw [h2, List.length_map] at this
  exact this

end
end Trie
end Addrs

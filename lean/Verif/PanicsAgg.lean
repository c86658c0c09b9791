import Verif.Panics
/-
  When `Aggregate` panics: with a comparison function that panics on nil interfaces (ipv4/table.go:29-33), and
  without one.
-/
set_option linter.unusedSectionVars false
namespace Addrs
open GoWord LawfulGoWord

namespace Trie
variable {α D : Type} [GoWord α]

/-- no node of the trie that is not an entry comes out of `aggregate` with the very children it had -/
def AggSafe (eq geq : Eq' D) : Option (Option D) → Trie α D → Bool
  | _, nil => true
  | u, node p d _ _ act l r =>
    let redundant := act && (match u with
      | some v => eq v d
      | none => false)
    let u' := if act && !redundant then some d else u
    let l' := aggregate eq geq u' l
    let r' := aggregate eq geq u' r
    AggSafe eq geq u' l && AggSafe eq geq u' r &&
      (act || childrenAggregate eq p l'.1 r'.1 || l'.1.isNil || r'.1.isNil || l'.2 || r'.2)

theorem createReturnValue_tidy {eq geq : Eq' D} {p : Prefix α} {d : Option D} {n h : Nat} {act : Bool} {l r l' r' : Trie α D}
    {isActive cc : Bool} {data : Option D} (ht : (node p d n h act l r).Tidy) (hl : l'.Tidy) (hr : r'.Tidy)
    (hd : isActive = true → data.isSome = true) :
    (createReturnValue eq geq (node p d n h act l r) isActive data l' r' cc).1.Tidy := by
  unfold createReturnValue
  simp only
  generalize hd' : (if isActive = true then if (d.isNone || !eq d data) = true then data else d else none) = d'
  split
  · exact ht
  · split
    · exact ht
    · refine ⟨?_, hl, hr⟩
      rw [← hd']
      cases isActive with
      | false => rfl
      | true =>
        simp only [if_true]
        split
        · exact hd rfl
        · next h1 =>
          cases d with
          | none => simp at h1
          | some _ => rfl

theorem Tidy.data_some {t : Trie α D} (h : t.Tidy) (ha : t.isActive = true) : t.data.isSome = true := by
  cases t with
  | nil => cases ha
  | node => exact h.1.trans ha

theorem Tidy.aggregate {eq geq : Eq' D} {t : Trie α D} (ht : t.Tidy) (u : Option (Option D)) : (aggregate eq geq u t).1.Tidy := by
  induction t generalizing u with
  | nil => rw [Trie.aggregate]; trivial
  | node p d n h act l r ihl ihr =>
    unfold Trie.aggregate
    simp only
    generalize hred : (act && (match u with | some v => eq v d | none => false)) = red
    generalize (if (act && !red) = true then some d else u) = u'
    have hl := ihl ht.2.1 u'
    have hr := ihr ht.2.2 u'
    generalize Trie.aggregate eq geq u' l = rl at *
    generalize Trie.aggregate eq geq u' r = rr at *
    split
    · next hc =>
      refine createReturnValue_tidy ht trivial trivial fun _ => hl.data_some ?_
      simp only [childrenAggregate, Bool.and_eq_true] at hc
      exact hc.1.1.1.1
    · split
      · next ha =>
        refine createReturnValue_tidy ht hl hr fun _ => ?_
        simp only [Bool.and_eq_true] at ha
        cases red with
        | true => simp at ha
        | false => simp only [Bool.false_eq_true, if_false]; rw [ht.1]; exact ha.1
      · next ha =>
        split
        · exact hr
        · split
          · exact hl
          · exact createReturnValue_tidy ht hl hr fun h => (ha h).elim

end Trie

namespace Heap
open Prog
variable {α : Type} [LawfulGoWord α]
variable {st : Prop} {β D : Type}

/-- `createReturnValue` with a comparison function that may panic -/
theorem wp_createReturnValue_on [Comparable D] {eq : Comparator D} {ve : Trie.Eq' D}
    {v : View α D} {me : Nat} {c : Cell α D} {l r l' r' : Trie α D}
    {W : Nat → Prop} (ha : v me = some c) (dl : Den v c.l l) (dr : Den v c.r r)
    (hi : Trie.TInv (.node c.pfx c.data c.size c.h c.active l r))
    {isActive : Bool} {data : Option D} {xl xr : Ptr} (dl' : Den v xl l') (dr' : Den v xr r')
    {cc : Bool} (hcc : cc = !(decide (xl = c.l) && decide (xr = c.r)))
    (hk : (isActive == c.active && !cc) = true → eq data c.data = some (ve data c.data))
    (hm : isActive = true → c.data.isSome = true → eq c.data data = some (ve c.data data)) :
    wp st (fun x v' =>
      Den v' x (Trie.createReturnValue ve goEq (.node c.pfx c.data c.size c.h c.active l r) isActive data l' r' cc).1 ∧
      (((Trie.createReturnValue ve goEq (.node c.pfx c.data c.size c.h c.active l r) isActive data l' r' cc).2 = false
          ∧ x = some me) ∨
       ((Trie.createReturnValue ve goEq (.node c.pfx c.data c.size c.h c.active l r) isActive data l' r' cc).2 = true
          ∧ ∃ n, x = some n ∧ v n = none)))
      (createReturnValue eq me c isActive data xl xr) v W := by
  have dt : Den v (some me) _ := Den.node ha dl dr
  obtain ⟨wf, il, ir, hl, hr, two, eme⟩ := hi.inv
  unfold createReturnValue Trie.createReturnValue
  simp only
  have e1 : (isActive == c.active && decide (xl = c.l) && decide (xr = c.r)) = (isActive == c.active && !cc) := by
    rw [hcc, Bool.not_not, Bool.and_assoc]
  rw [e1]
  have e2 : ∀ (R : Bool → Prog α D Ptr), (if (isActive == c.active && !cc) = true then
      ((orPanic (eq data c.data) : Prog α D Bool) >>= R)
      else (pure false : Prog α D Bool) >>= R) = R (isActive == c.active && !cc && ve data c.data) := by
    intro f
    cases h : (isActive == c.active && !cc)
    · rfl
    · simp only [if_true, hk h]; rfl
  refine Eq.mpr (congrArg (fun P => wp st _ P v W) (e2 _)) ?_
  clear hk
  cases hk : (isActive == c.active && !cc && ve data c.data) with
  | true => exact ⟨dt, Or.inl ⟨rfl, rfl⟩⟩
  | false =>
    simp only [Bool.false_eq_true, if_false]
    generalize hd' : (if isActive = true then if (c.data.isNone || !ve c.data data) = true then data else c.data
      else none) = d'
    refine wp_bind ?_
    refine wp_copyMutate_pure (c' := { c with active := isActive, data := d', l := xl, r := xr }) (x := ()) ha ?_
      dl' dr' ?_
    · rw [← hd']
      cases isActive with
      | false => rfl
      | true =>
        cases hn : c.data.isNone with
        | true => simp_all [orPanic]
        | false =>
          have hs : c.data.isSome = true := by cases h : c.data <;> simp_all
          have := hm rfl hs
          cases hv : ve c.data data <;> simp_all [orPanic] <;> rfl
    · intro v' p le hd hp
      simp only at hd
      have hs : sized { c with active := isActive, data := d', l := xl, r := xr } l' r' = c ↔
          (goEq d' c.data && isActive == c.active && !cc) = true := by
        rw [hcc]
        simp only [goEq, Bool.not_not, Bool.and_eq_true, decide_eq_true_eq, beq_iff_eq]
        constructor
        · intro h
          exact ⟨⟨congrArg Cell.data h, congrArg Cell.active h⟩, congrArg Cell.l h, congrArg Cell.r h⟩
        · rintro ⟨⟨rfl, rfl⟩, rfl, rfl⟩
          have el := dl'.functional dl
          have er := dr'.functional dr
          subst el er
          injection eme with _ _ e3 e4
          unfold sized
          cases c
          simp only at e3 e4 ⊢
          rw [e3, e4]
      rcases hp with ⟨rfl, he⟩ | ⟨he, n, rfl, hn⟩
      · rw [if_pos (hs.mp he)]
        exact ⟨dt.mono le, Or.inl ⟨rfl, rfl⟩⟩
      · rw [if_neg (fun h => he (hs.mpr h))]
        exact ⟨hd, Or.inr ⟨rfl, n, rfl, hn⟩⟩

theorem wp_childrenAggregate_on [Comparable D] {eq : Comparator D} {ve : Trie.Eq' D}
    {v : View α D} {p : Prefix α} {x y : Ptr} {l r : Trie α D}
    (hEq : l.isActive = true → r.isActive = true → eq l.data r.data = some (ve l.data r.data))
    (dl : Den v x l) (dr : Den v y r) {W : Nat → Prop} :
    wp st (fun b v' => b = Trie.childrenAggregate ve p l r ∧ v' = v) (childrenAggregate eq p x y) v W := by
  cases dl with
  | nil => exact ⟨rfl, rfl⟩
  | node hx _ _ =>
    cases dr with
    | nil => exact ⟨by simp [Trie.childrenAggregate, Trie.isActive], rfl⟩
    | node hy _ _ =>
      unfold childrenAggregate
      refine wp_deref hx ?_
      refine wp_deref hy ?_
      simp only [Trie.isActive, Trie.data] at hEq
      split
      · next h1 =>
        rw [Bool.and_eq_true] at h1
        split
        · next h2 =>
          split
          · next h3 =>
            rw [hEq h1.1 h1.2]
            have h4 := h3.symm.trans h2
            exact ⟨by simp [Trie.childrenAggregate, Trie.isActive, Trie.len, Trie.data, h1.1, h1.2, h2, h4], rfl⟩
          · next h3 => exact ⟨by simp [Trie.childrenAggregate, Trie.len, h3], rfl⟩
        · next h2 => exact ⟨by simp [Trie.childrenAggregate, Trie.len, h2], rfl⟩
      · next h1 =>
        rw [Bool.not_eq_true] at h1
        exact ⟨by simp only [Trie.childrenAggregate, Trie.isActive, h1, Bool.false_and], rfl⟩

/-- values are never nil -/
abbrev Some' {D : Type} (d : Option D) : Prop := d.isSome = true

theorem redundant_step_on {eq : Comparator D} {ve : Trie.Eq' D} (hEq : ∀ a b, Some' a → Some' b → eq a b = some (ve a b))
    (u : Option (Option D)) (hu : ∀ x, u = some x → Some' x) (act : Bool) (d : Option D) (hd : act = true → Some' d)
    (R : Bool → Prog α D Ptr) : (if act = true then
      (match (generalizing := false) u with
      | some v => ((orPanic (eq v d) : Prog α D Bool) >>= R)
      | none => (pure false : Prog α D Bool) >>= R)
      else (pure false : Prog α D Bool) >>= R) =
    R (act && (match (generalizing := false) u with | some v => ve v d | none => false)) := by
  cases act with
  | false => cases u <;> rfl
  | true =>
    cases u with
    | none => rfl
    | some x => simp only [if_true, hEq _ _ (hu x rfl) (hd rfl)]; rfl

/-- `aggregate` with a comparison function that panics on nil interfaces -/
theorem wp_aggregate_on [Comparable D] {eq : Comparator D} {ve : Trie.Eq' D}
    (hEq : ∀ a b, Some' a → Some' b → eq a b = some (ve a b)) : ∀ (F : Nat) {t : Trie α D}, t.deep < F → Trie.TInv t → t.Tidy →
    ∀ {u : Option (Option D)} {v : View α D} {p : Ptr} {W : Nat → Prop}, (∀ x, u = some x → Some' x) →
    Trie.AggSafe ve goEq u t = true → Den v p t →
    wp st (AggPost v p t (Trie.aggregate ve goEq u t)) (aggregate eq F u p) v W := by
  intro F
  induction F with
  | zero => intro t h; omega
  | succ F ih =>
    intro t hF hi tidy u v p W hu safe dt
    unfold aggregate
    cases dt with
    | nil => exact ⟨Den.nil, Or.inl ⟨rfl, rfl⟩⟩
    | @node a c l r ha dl dr =>
    obtain ⟨wf, il, ir, hl, hr, two, eme⟩ := hi.inv
    simp only [Trie.deep] at hF
    have hdat : c.active = true → Some' c.data := fun h => tidy.1.trans h
    refine wp_deref ha ?_
    simp only
    refine Eq.mpr (congrArg (fun P => wp st _ P v W) (redundant_step_on (ve := ve) hEq u hu c.active c.data hdat _)) ?_
    show wp st (AggPost v (some a) _ (Trie.aggregate ve goEq u (.node c.pfx c.data c.size c.h c.active l r))) _ v W
    unfold Trie.aggregate
    unfold Trie.AggSafe at safe
    simp only at safe ⊢
    generalize hred : (c.active && (match (generalizing := false) u with | some v => ve v c.data | none => false)) = red at *
    have hu' : ∀ x, (if (c.active && !red) = true then some c.data else u) = some x → Some' x := by
      intro x hx
      split at hx
      · next h => cases hx; exact hdat (by rw [Bool.and_eq_true] at h; exact h.1)
      · exact hu x hx
    generalize (if (c.active && !red) = true then some c.data else u) = u' at *
    simp only [Bool.and_eq_true] at safe
    obtain ⟨⟨safel, safer⟩, safe⟩ := safe
    refine wp_call (ih (t := l) (by omega) hl tidy.2.1 (u := u') hu' safel dl) ?_
    intro x v1 le1 px
    refine wp_call (ih (t := r) (by omega) hr tidy.2.2 (u := u') hu' safer (dr.mono le1)) ?_
    intro y v2 le2 py
    have hx := px.ne le1 dl (by rintro rfl; rw [Trie.aggregate])
    have hy := py.ne le2 (dr.mono le1) (by rintro rfl; rw [Trie.aggregate])
    have wx := AggPost.weaken (View.le_refl _) px le2 (dl.mono (View.le_trans le1 le2))
      (t1 := .node c.pfx c.data c.size c.h c.active l r) (by simp only [Trie.deep]; omega)
    have wy := AggPost.weaken le1 py (View.le_refl _) (dr.mono (View.le_trans le1 le2))
      (t1 := .node c.pfx c.data c.size c.h c.active l r) (by simp only [Trie.deep]; omega)
    have nx : l = .nil → (Trie.aggregate ve goEq u' l).1 = .nil := by rintro rfl; rw [Trie.aggregate]
    have ny : r = .nil → (Trie.aggregate ve goEq u' r).1 = .nil := by rintro rfl; rw [Trie.aggregate]
    have tl : (Trie.aggregate ve goEq u' l).1.Tidy := tidy.2.1.aggregate u'
    have tr : (Trie.aggregate ve goEq u' r).1.Tidy := tidy.2.2.aggregate u'
    generalize Trie.aggregate ve goEq u' l = rl at *
    generalize Trie.aggregate ve goEq u' r = rr at *
    obtain ⟨rl1, rl2⟩ := rl
    obtain ⟨rr1, rr2⟩ := rr
    simp only at *
    obtain ⟨dx, wx⟩ := wx
    obtain ⟨dy, wy⟩ := wy
    have le := View.le_trans le1 le2
    have hfin : ∀ {isActive : Bool} {data : Option D} {xl xr : Ptr} {l' r' : Trie α D} {cc : Bool},
        Den v2 xl l' → Den v2 xr r' → cc = (!(decide (xl = c.l) && decide (xr = c.r))) →
        ((isActive == c.active && !cc) = true → eq data c.data = some (ve data c.data)) →
        (isActive = true → Some' data) →
        wp st (AggPost v (some a) (.node c.pfx c.data c.size c.h c.active l r)
          (Trie.createReturnValue ve goEq (.node c.pfx c.data c.size c.h c.active l r) isActive data l' r' cc))
          (createReturnValue eq a c isActive data xl xr) v2 W := by
      intro isActive data xl xr l' r' cc h1 h2 h3 h4 h5
      refine wp_mono (fun _ h => h) ?_ (wp_createReturnValue_on (le _ _ ha) (dl.mono le) (dr.mono le) hi h1 h2 h3 h4
        fun h6 h7 => hEq _ _ h7 (h5 h6))
      rintro z v3 ⟨dz, hz⟩
      refine ⟨dz, ?_⟩
      rcases hz with hz | ⟨hz, n, rfl, hn⟩
      · exact Or.inl hz
      · exact Or.inr ⟨hz, Or.inr (Or.inl ⟨n, rfl, none_of_le le hn⟩)⟩
    have hcc : (rl2 || rr2) = (!(decide (x = c.l) && decide (y = c.r))) := by
      rw [hx, hy, Bool.not_and]
    refine wp_bind (wp_mono (fun _ h => h) ?_ (wp_childrenAggregate_on (p := c.pfx)
      (fun h1 h2 => hEq _ _ (tl.data_some h1) (tr.data_some h2)) dx dy))
    rintro b v3 ⟨rfl, rfl⟩
    cases hag : Trie.childrenAggregate ve c.pfx rl1 rr1 with
    | true =>
      simp only [if_true]
      have hla : Some' rl1.data := tl.data_some (by
        simp only [Trie.childrenAggregate, Bool.and_eq_true] at hag; exact hag.1.1.1.1)
      cases dx with
      | nil => cases hag
      | @node b cb l' r' hb dl' dr' =>
        refine wp_deref hb ?_
        have hcl : c.l ≠ none := by
          intro h
          rw [h] at dl
          have := nx dl.none_inv
          cases this
        refine hfin Den.nil Den.nil ?_ (fun h => ?_) fun _ => hla
        · simp [Ne.symm hcl]
        · simp at h
    | false =>
      simp only [Bool.false_eq_true, if_false]
      cases hact : (c.active && !red) with
      | true => 
        simp only [if_true]
        rw [Bool.and_eq_true] at hact
        have hd : Some' (if red = true then none else c.data) := by
          cases red with
          | true => simp at hact
          | false => exact hdat hact.1
        exact hfin dx dy hcc (fun _ => hEq _ _ hd (hdat hact.1)) fun _ => hd
      | false =>
        simp only [Bool.false_eq_true, if_false]
        cases dx with
        | nil => exact ⟨dy, Or.inr ⟨rfl, wy⟩⟩
        | node hb dl' dr' =>
          simp only [reduceCtorEq, if_false, Trie.isNil, Bool.false_eq_true]
          cases dy with
          | nil => exact ⟨Den.node hb dl' dr', Or.inr ⟨rfl, wx⟩⟩
          | node hc dl'' dr'' =>
            simp only [reduceCtorEq, if_false, Bool.false_eq_true]
            refine hfin (Den.node hb dl' dr') (Den.node hc dl'' dr'') hcc (fun h => ?_) fun h => by cases h
            simp only [hag, Trie.isNil, Bool.or_false] at safe
            cases hca : c.active with
            | true => rw [hca] at h; simp at h
            | false =>
              rw [hca] at h safe
              rw [Bool.false_or] at safe
              rw [safe] at h
              simp at h

/-- otherwise it panics -/
theorem panics_aggregate [Comparable D] {eq : Comparator D} {ve : Trie.Eq' D}
    (hEq : ∀ a b, Some' a → Some' b → eq a b = some (ve a b)) (hno : eq none none = none) :
    ∀ (F : Nat) {t : Trie α D}, t.deep < F → Trie.TInv t → t.Tidy →
    ∀ {u : Option (Option D)} {v : View α D} {p : Ptr}, (∀ x, u = some x → Some' x) →
    Trie.AggSafe ve goEq u t = false → Den v p t → Panics (aggregate eq F u p) v := by
  intro F
  induction F with
  | zero => intro t h; omega
  | succ F ih =>
    intro t hF hi tidy u v p hu unsafe' dt
    unfold aggregate
    cases dt with
    | nil => cases unsafe'
    | @node a c l r ha dl dr =>
    obtain ⟨wf, il, ir, hl, hr, two, eme⟩ := hi.inv
    simp only [Trie.deep] at hF
    have hdat : c.active = true → Some' c.data := fun h => tidy.1.trans h
    refine panics_deref ha ?_
    simp only
    refine Eq.mpr (congrArg (fun P => Panics P v) (redundant_step_on (ve := ve) hEq u hu c.active c.data hdat _)) ?_
    unfold Trie.AggSafe at unsafe'
    simp only at unsafe' ⊢
    generalize hred : (c.active && (match (generalizing := false) u with | some v => ve v c.data | none => false)) = red at *
    have hu' : ∀ x, (if (c.active && !red) = true then some c.data else u) = some x → Some' x := by
      intro x hx
      split at hx
      · next h => cases hx; exact hdat (by rw [Bool.and_eq_true] at h; exact h.1)
      · exact hu x hx
    generalize (if (c.active && !red) = true then some c.data else u) = u' at *
    cases safel : Trie.AggSafe ve goEq u' l with
    | false => exact (ih (t := l) (by omega) hl tidy.2.1 hu' safel dl).bind
    | true =>
    refine Panics.call (wp_aggregate_on hEq F (t := l) (by omega) hl tidy.2.1 (u := u') hu' safel dl) ?_
    intro x v1 le1 px
    cases safer : Trie.AggSafe ve goEq u' r with
    | false => exact (ih (t := r) (by omega) hr tidy.2.2 hu' safer (dr.mono le1)).bind
    | true =>
    refine Panics.call (wp_aggregate_on hEq F (t := r) (by omega) hr tidy.2.2 (u := u') hu' safer (dr.mono le1)) ?_
    intro y v2 le2 py
    have hx := px.ne le1 dl (by rintro rfl; rw [Trie.aggregate])
    have hy := py.ne le2 (dr.mono le1) (by rintro rfl; rw [Trie.aggregate])
    have tl : (Trie.aggregate ve goEq u' l).1.Tidy := tidy.2.1.aggregate u'
    have tr : (Trie.aggregate ve goEq u' r).1.Tidy := tidy.2.2.aggregate u'
    have dx := px.1.mono le2
    have dy := py.1
    simp only [safel, safer, Bool.true_and, Bool.or_eq_false_iff] at unsafe'
    obtain ⟨⟨⟨⟨⟨hact, hag⟩, nl⟩, nr⟩, cl⟩, cr⟩ := unsafe'
    refine Panics.after (wp_childrenAggregate_on (p := c.pfx) (W := Nowhere)
      (fun h1 h2 => hEq _ _ (tl.data_some h1) (tr.data_some h2)) dx dy) ?_
    rintro b v3 ⟨rfl, rfl⟩
    rw [cl] at hx
    rw [cr] at hy
    have hx' : x = c.l := by simpa using hx.symm
    have hy' : y = c.r := by simpa using hy.symm
    have hred' : red = false := by rw [← hred, hact]; rfl
    have hnone : c.data = none := by
      have := tidy.1
      rw [hact] at this
      cases h : c.data with
      | none => rfl
      | some _ => rw [h] at this; cases this
    simp only [hag, hact, hred', Bool.false_eq_true, if_false, Bool.false_and]
    have xn : x ≠ none := by
      rintro rfl
      rw [dx.none_inv] at nl
      cases nl
    have yn : y ≠ none := by
      rintro rfl
      rw [dy.none_inv] at nr
      cases nr
    simp only [xn, yn, if_false]
    unfold createReturnValue
    simp [hact, hx', hy', hnone, hno]
    exact trivial

/-- without a comparison function `aggregate` panics if there is an entry -/
theorem panics_aggregate_nil [Comparable D] : ∀ (F : Nat) {t : Trie α D}, t.deep < F → Trie.TInv t → t ≠ .nil →
    ∀ {u : Option (Option D)} {v : View α D} {p : Ptr}, Den v p t → Panics (aggregate nilComparator F u p) v := by
  intro F
  induction F with
  | zero => intro t h; omega
  | succ F ih =>
    intro t hF hi hne u v p dt
    unfold aggregate
    cases dt with
    | nil => exact (hne rfl).elim
    | @node a c l r ha dl dr =>
    obtain ⟨wf, il, ir, hl, hr, two, eme⟩ := hi.inv
    simp only [Trie.deep] at hF
    refine panics_deref ha ?_
    have rest : ∀ red : Bool, (red = true → c.active = true ∧ False) → Panics (do
        let isActive := c.active && !red
        let data := if red then none else c.data
        let u' := if isActive then some c.data else u
        let l ← aggregate nilComparator F u' c.l
        let r ← aggregate nilComparator F u' c.r
        let agg ← childrenAggregate nilComparator c.pfx l r
        if agg then do
          let lc ← deref l
          createReturnValue nilComparator a c true lc.data none none
        else if isActive then createReturnValue nilComparator a c isActive data l r
        else if l = none then pure r
        else if r = none then pure l
        else createReturnValue nilComparator a c isActive data l r) v := by
      intro red hred
      have hred : red = false := by cases red with
        | false => rfl
        | true => exact ((hred rfl).2).elim
      subst hred
      simp only
      by_cases el : l = .nil
      · subst el
        have hcl : c.l = none := by generalize c.l = q at dl; cases dl; rfl
        cases F with
        | zero => simp [Trie.deep] at hF
        | succ F =>
        rw [hcl]
        show Panics (aggregate nilComparator (F + 1) _ c.r >>= _) v
        by_cases er : r = .nil
        · subst er
          have hcr : c.r = none := by generalize c.r = q at dr; cases dr; rfl
          have hact : c.active = true := by
            cases h : c.active with
            | true => rfl
            | false => exact ((two h).1 rfl).elim
          rw [hcr]
          have : ∀ u : Option (Option D), aggregate (α := α) nilComparator (F + 1) u none = pure none := fun _ => rfl
          simp [this, hact, childrenAggregate, createReturnValue, hcl, hcr, nilComparator, orPanic]
          exact trivial
        · exact (ih (t := r) (by omega) hr er dr).bind
      · exact (ih (t := l) (by omega) hl el dl).bind
    cases hact : c.active with
    | false => simp only [hact] at rest; exact rest false (fun h => by cases h)
    | true =>
      cases u with
      | none => simp only [hact] at rest; exact rest false (fun h => by cases h)
      | some x => exact trivial

end Heap
end Addrs

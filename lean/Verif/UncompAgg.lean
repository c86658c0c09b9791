import Verif.Uncomp
import Verif.PanicsAgg
/-
  Values that `==` cannot compare: when `Aggregate` and `Map` of node.go panic.
-/
set_option linter.unusedSectionVars false
namespace Addrs
open GoWord LawfulGoWord

namespace Trie
variable {α D : Type} [GoWord α]

/-- `aggregate` copies an entry that stays an entry -/
def AggCrash (eq geq : Eq' D) : Option (Option D) → Trie α D → Prop
  | _, nil => False
  | u, node p d _ _ act l r =>
    let redundant := act && (match u with
      | some v => eq v d
      | none => false)
    let u' := if act && !redundant then some d else u
    let l' := aggregate eq geq u' l
    let r' := aggregate eq geq u' r
    AggCrash eq geq u' l ∨ AggCrash eq geq u' r ∨
      (act = true ∧ (childrenAggregate eq p l'.1 r'.1 = true ∨ (redundant = false ∧ (l'.2 || r'.2) = true)))

end Trie

namespace Heap
open Prog
variable {α : Type} [LawfulGoWord α] {D : Type} {A : GoType D}

/-- the mutator of `createReturnValue` -/
theorem crv_mutator {eq : Comparator D} {c : Cell α D} {isActive : Bool} {data : Option D} {xl xr : Ptr} {x : Bool}
    (hm : isActive = true → c.data.isSome = true → eq c.data data = some x) :
    ((do
      let d ← if isActive then do
          let same ← if c.data.isNone then pure false else orPanic (eq c.data data)
          if !same then pure data else pure c.data
        else pure none
      pure ({ c with active := isActive, data := d, l := xl, r := xr }, ())) : Prog α D (Cell α D × Unit)) =
    pure ({ c with active := isActive, data := if isActive then (if c.data.isNone || !x then data else c.data) else none, l := xl, r := xr }, ()) := by
  cases isActive with
  | false => rfl
  | true =>
    cases hd : c.data with
    | none => rfl
    | some y =>
      rw [hd] at hm
      rw [hm rfl rfl]
      cases x <;> rfl

/-- `createReturnValue` does not panic -/
theorem calm_createReturnValue {eq : Comparator D} {v : View α D} {me : Nat} {c : Cell α D} {l' r' : Trie α D} {W : Nat → Prop}
    (ha : v me = some c) {isActive : Bool} {data : Option D} {xl xr : Ptr} (dl' : Den v xl l') (dr' : Den v xr r')
    (hk : (isActive == c.active && decide (xl = c.l) && decide (xr = c.r)) = true → eq data c.data = some true)
    (hm : (isActive == c.active && decide (xl = c.l) && decide (xr = c.r)) = false → isActive = true → c.data = none) :
    wp False (fun _ _ => True) (@createReturnValue α D _ A eq me c isActive data xl xr) v W := by
  unfold createReturnValue
  dsimp only
  cases hb : (isActive == c.active && decide (xl = c.l) && decide (xr = c.r)) with
  | true => rw [if_pos rfl, hk hb]; exact trivial
  | false =>
    rw [if_neg (by simp)]
    have hm := hm hb
    show wp False _ (@copyMutate α D _ _ A me _ >>= _) v W
    refine wp_bind (wp_mono (fun _ h => h) (fun _ _ _ => trivial) (calm_copy ha (crv_mutator (x := true) ?_) dl' dr' ?_))
    · intro h1 h2; rw [hm h1] at h2; cases h2
    · simp only
      cases isActive with
      | false => cases c.data <;> simp [ifaceEq]
      | true => rw [hm rfl]; cases data <;> simp [ifaceEq]

/-- `createReturnValue` panics -/
theorem panics_createReturnValue (hA : ∀ a b, A.eqq a b = none) {eq : Comparator D} {v : View α D} {me : Nat} {c : Cell α D} {l' r' : Trie α D}
    (ha : v me = some c) {data : Option D} {xl xr : Ptr} (dl' : Den v xl l') (dr' : Den v xr r')
    (hk : (true == c.active && decide (xl = c.l) && decide (xr = c.r)) = false) {x : Bool} (hm : eq c.data data = some x)
    (h1 : Some' c.data) (h2 : Some' data) :
    Panics (@createReturnValue α D _ A eq me c true data xl xr) v := by
  unfold createReturnValue
  dsimp only
  rw [hk, if_neg (by simp)]
  show Panics (@copyMutate α D _ _ A me _ >>= _) v
  refine (panics_copy (A := A) (c' := { c with active := true, data := if c.data.isNone || !x then data else c.data, l := xl, r := xr }) (x := ()) ha (crv_mutator (isActive := true) (x := x) fun _ _ => hm) dl' dr' rfl ?_).bind
  simp only
  obtain ⟨a, e1⟩ := Option.isSome_iff_exists.mp h1
  obtain ⟨b, e2⟩ := Option.isSome_iff_exists.mp h2
  rw [e1, e2]
  cases x <;> exact hA _ _

section
variable [Comparable D]

/-- `aggregate`, if it does not panic -/
theorem wp_aggregate_un (hle : A.Le Comparable.toGoType) {eq : Comparator D} {ve : Trie.Eq' D}
    (hEq : ∀ a b, Some' a → Some' b → eq a b = some (ve a b)) {F : Nat} {t : Trie α D} (hF : t.deep < F) (hi : t.TInv) (tidy : t.Tidy)
    {u : Option (Option D)} {v : View α D} {p : Ptr} {W : Nat → Prop} (hu : ∀ x, u = some x → Some' x)
    (safe : Trie.AggSafe ve goEq u t = true) (dt : Den v p t)
    (h : wp False (fun _ _ => True) (@aggregate α D _ A eq F u p) v W) :
    wp False (AggPost v p t (Trie.aggregate ve goEq u t)) (@aggregate α D _ A eq F u p) v W :=
  (cut_aggregate hle (CmpLe.refl eq) F u p).wp (wp_aggregate_on hEq F hF hi tidy hu safe dt) h

theorem calm_aggregate (hle : A.Le Comparable.toGoType) {eq : Comparator D} {ve : Trie.Eq' D}
    (hEq : ∀ a b, Some' a → Some' b → eq a b = some (ve a b)) (hrefl : ∀ a, ve a a = true) : ∀ (F : Nat) {t : Trie α D}, t.deep < F → t.TInv → t.Tidy →
    ∀ {u : Option (Option D)} {v : View α D} {p : Ptr} {W : Nat → Prop}, (∀ x, u = some x → Some' x) →
    Trie.AggSafe ve goEq u t = true → ¬ Trie.AggCrash ve goEq u t → Den v p t →
    wp False (fun _ _ => True) (@aggregate α D _ A eq F u p) v W := by
  intro F
  induction F with
  | zero => intro t h; omega
  | succ F ih =>
    intro t hF hi tidy u v p W hu safe hno dt
    unfold aggregate
    cases dt with
    | nil => exact trivial
    | @node a c l r ha dl dr =>
    obtain ⟨wf, il, ir, hl, hr, two, eme⟩ := hi.inv
    simp only [Trie.deep] at hF
    have hdat : c.active = true → Some' c.data := fun h => tidy.1.trans h
    refine wp_deref ha ?_
    simp only
    refine Eq.mpr (congrArg (fun P => wp False _ P v W) (redundant_step_on (ve := ve) hEq u hu c.active c.data hdat _)) ?_
    unfold Trie.AggSafe at safe
    unfold Trie.AggCrash at hno
    simp only at safe hno ⊢
    generalize hred : (c.active && (match (generalizing := false) u with | some v => ve v c.data | none => false)) = red at *
    have hu' : ∀ x, (if (c.active && !red) = true then some c.data else u) = some x → Some' x := by
      intro x hx
      split at hx
      · next h => cases hx; exact hdat (by rw [Bool.and_eq_true] at h; exact h.1)
      · exact hu x hx
    generalize (if (c.active && !red) = true then some c.data else u) = u' at *
    simp only [Bool.and_eq_true] at safe
    obtain ⟨⟨safel, safer⟩, safe⟩ := safe
    rw [not_or, not_or] at hno
    obtain ⟨nol, nor, no⟩ := hno
    refine wp_call (wp_aggregate_un hle hEq (t := l) (by omega) hl tidy.2.1 hu' safel dl
      (ih (t := l) (by omega) hl tidy.2.1 (u := u') hu' safel nol dl)) ?_
    intro x v1 le1 px
    refine wp_call (wp_aggregate_un hle hEq (t := r) (by omega) hr tidy.2.2 hu' safer (dr.mono le1)
      (ih (t := r) (by omega) hr tidy.2.2 (u := u') hu' safer nor (dr.mono le1))) ?_
    intro y v2 le2 py
    have hx := px.ne le1 dl (by rintro rfl; rw [Trie.aggregate])
    have hy := py.ne le2 (dr.mono le1) (by rintro rfl; rw [Trie.aggregate])
    have nx : l = .nil → (Trie.aggregate ve goEq u' l).1 = .nil := by rintro rfl; rw [Trie.aggregate]
    have tl : (Trie.aggregate ve goEq u' l).1.Tidy := tidy.2.1.aggregate u'
    have tr : (Trie.aggregate ve goEq u' r).1.Tidy := tidy.2.2.aggregate u'
    generalize Trie.aggregate ve goEq u' l = rl at *
    generalize Trie.aggregate ve goEq u' r = rr at *
    obtain ⟨rl1, rl2⟩ := rl
    obtain ⟨rr1, rr2⟩ := rr
    simp only at *
    have dx := px.1.mono le2
    have dy := py.1
    simp only at dx dy
    have le := View.le_trans le1 le2
    have hcc : (decide (x = c.l) && decide (y = c.r)) = !(rl2 || rr2) := by
      rw [hx, hy]; simp [Bool.not_or]
    refine wp_bind (wp_mono (fun _ h => h) ?_ (wp_childrenAggregate_on (p := c.pfx)
      (fun h1 h2 => hEq _ _ (tl.data_some h1) (tr.data_some h2)) dx dy))
    rintro b v3 ⟨rfl, rfl⟩
    have inact : c.active = false → c.data = none := fun h => by
      have := tidy.1
      rw [h] at this
      cases e : c.data with
      | none => rfl
      | some _ => rw [e] at this; cases this
    cases hag : Trie.childrenAggregate ve c.pfx rl1 rr1 with
    | true =>
      simp only [if_true]
      have hact : c.active = false := by
        cases h : c.active with
        | false => rfl
        | true => exact (no ⟨h, Or.inl hag⟩).elim
      cases dx with
      | nil => cases hag
      | @node b cb l' r' hb dl' dr' =>
        refine wp_deref hb ?_
        refine calm_createReturnValue (le _ _ ha) Den.nil Den.nil (fun h => ?_) fun _ _ => inact hact
        rw [hact] at h; simp at h
    | false =>
      simp only [Bool.false_eq_true, if_false]
      cases hact : (c.active && !red) with
      | true =>
        simp only [if_true]
        rw [Bool.and_eq_true] at hact
        have hr0 : red = false := by simpa using hact.2
        have same : (rl2 || rr2) = false := by
          rw [← Bool.not_eq_true]
          exact fun h => no ⟨hact.1, Or.inr ⟨hr0, h⟩⟩
        refine calm_createReturnValue (le _ _ ha) dx dy (fun h => ?_) fun h => ?_
        · rw [hr0]
          simp only [Bool.false_eq_true, if_false]
          rw [hEq _ _ (hdat hact.1) (hdat hact.1), hrefl]
        · rw [Bool.and_assoc, hcc, same, hact.1] at h
          simp at h
      | false =>
        simp only [Bool.false_eq_true, if_false]
        split
        · exact trivial
        · next xn =>
          split
          · exact trivial
          · next yn =>
            refine calm_createReturnValue (le _ _ ha) dx dy (fun h => ?_) fun _ h => by cases h
            rw [Bool.and_assoc, hcc] at h
            have nl : rl1.isNil = false := by
              cases dx with
              | nil => exact (xn rfl).elim
              | node => rfl
            have nr : rr1.isNil = false := by
              cases dy with
              | nil => exact (yn rfl).elim
              | node => rfl
            rw [hag, nl, nr] at safe
            cases hca : c.active with
            | true => rw [hca] at h; simp at h
            | false =>
              rw [hca] at h safe
              simp only [Bool.or_false, Bool.false_or] at safe
              rw [safe] at h
              simp at h

theorem panics_aggregate_un (hle : A.Le Comparable.toGoType) (hA : ∀ a b, A.eqq a b = none) {eq : Comparator D} {ve : Trie.Eq' D}
    (hEq : ∀ a b, Some' a → Some' b → eq a b = some (ve a b)) (hrefl : ∀ a, ve a a = true) : ∀ (F : Nat) {t : Trie α D}, t.deep < F → t.TInv → t.Tidy →
    ∀ {u : Option (Option D)} {v : View α D} {p : Ptr}, (∀ x, u = some x → Some' x) →
    Trie.AggSafe ve goEq u t = true → Trie.AggCrash ve goEq u t → Den v p t → Panics (@aggregate α D _ A eq F u p) v := by
  intro F
  induction F with
  | zero => intro t h; omega
  | succ F ih =>
    intro t hF hi tidy u v p hu safe hcr dt
    unfold aggregate
    cases dt with
    | nil => exact hcr.elim
    | @node a c l r ha dl dr =>
    obtain ⟨wf, il, ir, hl, hr, two, eme⟩ := hi.inv
    simp only [Trie.deep] at hF
    have hdat : c.active = true → Some' c.data := fun h => tidy.1.trans h
    refine panics_deref ha ?_
    simp only
    refine Eq.mpr (congrArg (fun P => Panics P v) (redundant_step_on (ve := ve) hEq u hu c.active c.data hdat _)) ?_
    unfold Trie.AggSafe at safe
    unfold Trie.AggCrash at hcr
    simp only at safe hcr ⊢
    generalize hred : (c.active && (match (generalizing := false) u with | some v => ve v c.data | none => false)) = red at *
    have hu' : ∀ x, (if (c.active && !red) = true then some c.data else u) = some x → Some' x := by
      intro x hx
      split at hx
      · next h => cases hx; exact hdat (by rw [Bool.and_eq_true] at h; exact h.1)
      · exact hu x hx
    generalize (if (c.active && !red) = true then some c.data else u) = u' at *
    simp only [Bool.and_eq_true] at safe
    obtain ⟨⟨safel, safer⟩, safe⟩ := safe
    by_cases nol : Trie.AggCrash ve goEq u' l
    · exact (ih (t := l) (by omega) hl tidy.2.1 hu' safel nol dl).bind
    refine Panics.call (wp_aggregate_un hle hEq (t := l) (by omega) hl tidy.2.1 hu' safel dl
      (calm_aggregate hle hEq hrefl F (t := l) (by omega) hl tidy.2.1 (u := u') hu' safel nol dl)) ?_
    intro x v1 le1 px
    by_cases nor : Trie.AggCrash ve goEq u' r
    · exact (ih (t := r) (by omega) hr tidy.2.2 hu' safer nor (dr.mono le1)).bind
    refine Panics.call (wp_aggregate_un hle hEq (t := r) (by omega) hr tidy.2.2 hu' safer (dr.mono le1)
      (calm_aggregate hle hEq hrefl F (t := r) (by omega) hr tidy.2.2 (u := u') hu' safer nor (dr.mono le1))) ?_
    intro y v2 le2 py
    have hcr := (hcr.resolve_left nol).resolve_left nor
    obtain ⟨hact, hcr⟩ := hcr
    have hx := px.ne le1 dl (by rintro rfl; rw [Trie.aggregate])
    have hy := py.ne le2 (dr.mono le1) (by rintro rfl; rw [Trie.aggregate])
    have nx : l = .nil → (Trie.aggregate ve goEq u' l).1 = .nil := by rintro rfl; rw [Trie.aggregate]
    have tl : (Trie.aggregate ve goEq u' l).1.Tidy := tidy.2.1.aggregate u'
    have tr : (Trie.aggregate ve goEq u' r).1.Tidy := tidy.2.2.aggregate u'
    generalize Trie.aggregate ve goEq u' l = rl at *
    generalize Trie.aggregate ve goEq u' r = rr at *
    obtain ⟨rl1, rl2⟩ := rl
    obtain ⟨rr1, rr2⟩ := rr
    simp only at *
    have dx := px.1.mono le2
    have dy := py.1
    simp only at dx dy
    have le := View.le_trans le1 le2
    have hcc : (decide (x = c.l) && decide (y = c.r)) = !(rl2 || rr2) := by
      rw [hx, hy]; simp [Bool.not_or]
    refine Panics.after (W := Nowhere) (wp_childrenAggregate_on (p := c.pfx)
      (fun h1 h2 => hEq _ _ (tl.data_some h1) (tr.data_some h2)) dx dy) ?_
    rintro b v3 ⟨rfl, rfl⟩
    cases hag : Trie.childrenAggregate ve c.pfx rl1 rr1 with
    | true =>
      simp only [if_true]
      have hla : Some' rl1.data := tl.data_some (by
        simp only [Trie.childrenAggregate, Bool.and_eq_true] at hag; exact hag.1.1.1.1)
      cases dx with
      | nil => cases hag
      | @node b cb l' r' hb dl' dr' =>
        refine panics_deref hb ?_
        have hcl : c.l ≠ none := by
          intro h
          rw [h] at dl
          have := nx dl.none_inv
          cases this
        refine panics_createReturnValue hA (le _ _ ha) Den.nil Den.nil ?_ (hEq _ _ (hdat hact) hla) (hdat hact) hla
        simp [Ne.symm hcl]
    | false =>
      rw [hag] at hcr
      obtain ⟨hr0, hch⟩ := hcr.resolve_left (by simp)
      have hac : (c.active && !red) = true := by rw [hact, hr0]; rfl
      simp only [Bool.false_eq_true, if_false, hac, if_true]
      rw [hr0]
      simp only [Bool.false_eq_true, if_false]
      refine panics_createReturnValue hA (le _ _ ha) dx dy ?_ (hEq _ _ (hdat hact) (hdat hact)) (hdat hact) (hdat hact)
      rw [Bool.and_assoc, hcc, hch]
      simp

end

/-- With a comparison function that panics on any two values, `aggregate` panics if there is an entry. -/
theorem panics_aggregate_any {eq : Comparator D} (hno : ∀ a b, eq (some a) (some b) = none) : ∀ (F : Nat) {t : Trie α D}, t.deep < F → Trie.TInv t →
    t.Tidy → t ≠ .nil → ∀ {u : Option (Option D)} {v : View α D} {p : Ptr}, (∀ x, u = some x → Some' x) → Den v p t →
    Panics (@aggregate α D _ A eq F u p) v := by
  intro F
  induction F with
  | zero => intro t h; omega
  | succ F ih =>
    intro t hF hi tidy hne u v p hu dt
    unfold aggregate
    cases dt with
    | nil => exact (hne rfl).elim
    | @node a c l r ha dl dr =>
    obtain ⟨wf, il, ir, hl, hr, two, eme⟩ := hi.inv
    simp only [Trie.deep] at hF
    refine panics_deref ha ?_
    have hdat : c.active = true → Some' c.data := fun h => tidy.1.trans h
    have bad : ∀ {a b}, Some' a → Some' b → eq a b = none := by
      intro a b h1 h2
      obtain ⟨a, rfl⟩ := Option.isSome_iff_exists.mp h1
      obtain ⟨b, rfl⟩ := Option.isSome_iff_exists.mp h2
      exact hno a b
    have rest : Panics (do
        let isActive := c.active && !false
        let data := if false then none else c.data
        let u' := if isActive then some c.data else u
        let l ← @aggregate α D _ A eq F u' c.l
        let r ← @aggregate α D _ A eq F u' c.r
        let agg ← childrenAggregate eq c.pfx l r
        if agg then do
          let lc ← deref l
          @createReturnValue α D _ A eq a c true lc.data none none
        else if isActive then @createReturnValue α D _ A eq a c isActive data l r
        else if l = none then pure r
        else if r = none then pure l
        else @createReturnValue α D _ A eq a c isActive data l r) v := by
      simp only
      have hu' : ∀ x, (if (c.active && !false) = true then some c.data else u) = some x → Some' x := by
        intro x hx
        split at hx
        · next h => cases hx; exact hdat (by simpa using h)
        · exact hu x hx
      by_cases el : l = .nil
      · subst el
        have hcl : c.l = none := by generalize c.l = q at dl; cases dl; rfl
        cases F with
        | zero => simp [Trie.deep] at hF
        | succ F =>
        rw [hcl]
        show Panics (@aggregate α D _ A eq (F + 1) _ c.r >>= _) v
        by_cases er : r = .nil
        · subst er
          have hcr : c.r = none := by generalize c.r = q at dr; cases dr; rfl
          have hact : c.active = true := by
            cases h : c.active with
            | true => rfl
            | false => exact ((two h).1 rfl).elim
          rw [hcr]
          have : ∀ u : Option (Option D), @aggregate α D _ A eq (F + 1) u none = pure none := fun _ => rfl
          have hb : eq c.data c.data = none := bad (hdat hact) (hdat hact)
          simp [this, hact, childrenAggregate, createReturnValue, hcl, hcr, hb, orPanic]
          exact trivial
        · exact (ih (t := r) (by omega) hr tidy.2.2 er hu' dr).bind
      · exact (ih (t := l) (by omega) hl tidy.2.1 el hu' dl).bind
    cases hact : c.active with
    | false => simp only [hact] at rest; exact rest
    | true =>
      cases u with
      | none => simp only [hact] at rest; exact rest
      | some x =>
        have hb : eq x c.data = none := bad (hu x rfl) (hdat hact)
        simp only [if_true, hb]
        exact trivial

/-- `Map` panics if there is an entry, whatever the comparison function. -/
theorem panics_map_any (hA : ∀ a b, A.eqq a b = none) {σ : Type} {f : Prefix α → Option D → σ → Option D × σ} {eq : Comparator D}
    (hB : ∀ p d s, Some' (f p d s).1) : ∀ (F : Nat) {t : Trie α D}, t.deep < F → Trie.TInv t → t.Tidy → t ≠ .nil →
    ∀ {v : View α D} {p : Ptr} {s : σ}, Den v p t → Panics (@map α D _ A σ f eq F p s) v := by
  intro F
  induction F with
  | zero => intro t h; omega
  | succ F ih =>
    intro t hF hi tidy hne v p s dt
    unfold map
    cases dt with
    | nil => exact (hne rfl).elim
    | @node a c l r ha dl dr =>
    obtain ⟨wf, il, ir, hl, hr, two, eme⟩ := hi.inv
    simp only [Trie.deep] at hF
    have leaf : ∀ {q : Ptr} {s : σ}, Den v q .nil → @map α D _ A σ f eq F q s = pure (none, s) := by
      intro q s h
      cases h
      cases F with
      | zero => simp at hF
      | succ F => rfl
    cases he : eq c.data (f c.pfx c.data s).1 with
    | none =>
      refine panics_copyMutate ha fun n hn => ?_
      refine panics_deref (View.le_set_fresh hn _ _ ha) ?_
      simp only [he]
      exact trivial
    | some e =>
    by_cases el : l = .nil
    · subst el
      by_cases er : r = .nil
      · subst er
        have hact : c.active = true := by
          cases h : c.active with
          | true => rfl
          | false => exact ((two h).1 rfl).elim
        obtain ⟨d, hd⟩ := Option.isSome_iff_exists.mp (show c.data.isSome = true from tidy.1.trans hact)
        obtain ⟨x, hx⟩ := Option.isSome_iff_exists.mp (hB c.pfx c.data s)
        unfold copyMutate
        refine panics_deref ha (panics_new fun n hn => ?_)
        refine Panics.after (W := fun k => k = n) (Q := fun _ v1 => v1 a = some c ∧ ∃ c', v1 n = some c' ∧ c'.pfx = c.pfx ∧ Some' c'.data)
          (wp_mutate (Qm := fun y _ _ => y.1.pfx = c.pfx ∧ Some' y.1.data) hn rfl ?_ ?_) ?_
        · refine wp_deref ha ?_
          simp only [he]
          show wp _ _ (@map α D _ A σ f eq F c.l (f c.pfx c.data s).2 >>= _) _ _
          rw [leaf dl]
          show wp _ _ (@map α D _ A σ f eq F c.r _ >>= _) _ _
          rw [leaf dr]
          refine ⟨.nil, .nil, Den.nil, Den.nil, rfl, ?_⟩
          cases e
          · exact hB _ _ _
          · exact tidy.1.trans hact
        · intro y l' r' v' le hn' hq h1 h2
          have hne : a ≠ n := by rintro rfl; rw [le _ _ ha] at hn'; cases hn'
          exact ⟨(View.set_ne _ _ hne).trans (le _ _ ha), _, View.set_same _ _ _, hq.1, hq.2⟩
        · rintro y v1 ⟨h1, c', h2, h3, h4⟩
          refine panics_deref h2 (panics_deref h1 (Panics.bind ?_))
          obtain ⟨z, hz⟩ := Option.isSome_iff_exists.mp h4
          rw [structEq_panics (A := A) h3 (by rw [hz, hd]; exact hA _ _)]
          exact trivial
      · refine panics_copyMutate ha fun n hn => ?_
        have le : v ≤ v.set n c := View.le_set_fresh hn
        refine panics_deref (le _ _ ha) ?_
        simp only [he]
        show Panics (@map α D _ A σ f eq F c.l (f c.pfx c.data s).2 >>= _) _
        rw [leaf dl]
        exact (ih (t := r) (by omega) hr tidy.2.2 er (dr.mono le)).bind
    · refine panics_copyMutate ha fun n hn => ?_
      have le : v ≤ v.set n c := View.le_set_fresh hn
      refine panics_deref (le _ _ ha) ?_
      simp only [he]
      exact (ih (t := l) (by omega) hl tidy.2.1 el (dl.mono le)).bind

end Heap
end Addrs

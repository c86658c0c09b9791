import Verif.HeapTable
import Verif.HeapDiff
import Verif.HeapAgg
import Verif.ConcInv
/-
  What each call of the table API does, on the machine.
-/
set_option linter.unusedSectionVars false
namespace Addrs
open GoWord LawfulGoWord

section
variable {α D σ : Type} [LawfulGoWord α] [Inhabited D] [Comparable D]

/-- the comparison function as a function on values -/
def EqFn.val : EqFn D → Option (D → D → Bool)
  | .nil => none
  | .dflt => some fun a b => decide (a = b)
  | .custom cmp => some cmp

/-- the `Table` value or object `ob`, with the nodes in `v`, is the table `T` -/
def Obj.Is (v : View α D) (ob : Obj D) (T : Table α D) : Prop := Den v ob.trie T.trie ∧ T.eq = ob.eq.val

theorem Obj.Is.mono {v v' : View α D} (h : v ≤ v') {ob : Obj D} {T : Table α D} (hi : ob.Is v T) : ob.Is v' T :=
  ⟨hi.1.mono h, hi.2⟩

theorem Obj.Is.functional {v : View α D} {ob : Obj D} {T T' : Table α D} (h : ob.Is v T) (h' : ob.Is v T') :
    T = T' := by
  cases T; cases T'
  have h1 := h.1.functional h'.1
  have h2 := h.2.trans h'.2.symm
  simp only at h1 h2
  subst h1 h2
  rfl

/-- what holds of every `Table` -/
def tval (v : View α D) (ob : Obj D) : Prop := ∃ T : Table α D, ob.Is v T ∧ T.Reachable
/-- what holds of every mutable table -/
def tobj (v : View α D) (ob : Obj D) : Prop := tval v ob ∧ ob.eq ≠ .nil

theorem tval.mono {v v' : View α D} (h : v ≤ v') {ob : Obj D} (hi : tval v ob) : tval v' ob := by
  obtain ⟨T, h1, h2⟩ := hi
  exact ⟨T, h1.mono h, h2⟩
theorem tobj.mono {v v' : View α D} (h : v ≤ v') {ob : Obj D} (hi : tobj v ob) : tobj v' ob :=
  ⟨hi.1.mono h, hi.2⟩

/-- the call is `Remove` -/
def TableOp.removes : TableOp α D → Bool
  | .remove _ => true
  | _ => false

/-- A write on `o`: it read the object twice; the result and the new contents are computed from what it
    read the second time; if the new root differs from the root it read first, it was swapped in.
    Only `Remove` can compute a new root that it read first, and only if that is a child of what it read second.  The new version has all nodes in common with the
    old one but those whose prefix contains the key. -/
def WriteSpec (o : Nat) (op : TableOp α D) (tr : List (Event D)) (r : Result D) (v : View α D) : Prop :=
  ∃ (ob1 ob2 : Obj D) (T2 : Table α D), tobj v ob1 ∧ ob1.eq = ob2.eq ∧ ob2.Is v T2 ∧ T2.Reachable ∧
    (T2.step op).1.Reachable ∧ r = (T2.step op).2 ∧
    ((tr = [.load o ob1, .load o ob2] ∧ ((T2.step op).1 = T2 ∨
        (op.removes = true ∧ ob1.Is v (T2.step op).1 ∧ Heap.ChildOf v ob2.trie ob1.trie))) ∨
      ∃ new, tr = [.load o ob1, .load o ob2, .swap o ob1.trie new] ∧ new ≠ ob1.trie ∧
        Obj.Is v ⟨new, ob2.eq⟩ (T2.step op).1 ∧ Shares v op.key.toPrefix ob2.trie new)

/-- a read of `o`: the object was read once and the result is a function of its contents -/
def ReadSpec {ρ : Type} (h : Option Nat) (f : Table α D → ρ) (tr : List (Event D)) (r : ρ) (v : View α D) : Prop :=
  match h with
  | none => tr = [] ∧ r = f Table.empty
  | some o => ∃ (ob : Obj D) (T : Table α D), tr = [.load o ob] ∧ ob.Is v T ∧ T.Reachable ∧ r = f T

/-- a function of a `Table` -/
def ValSpec {ρ : Type} (t : Obj D) (f : Table α D → ρ) (tr : List (Event D)) (r : ρ) (v : View α D) : Prop :=
  tr = [] ∧ ∃ T : Table α D, t.Is v T ∧ T.Reachable ∧ r = f T

/-- a read or a write -/
def OpSpec (h : Option Nat) (o : TableOp α D) (tr : List (Event D)) (x : TVal α D σ) (v : View α D) : Prop :=
  if o.writes then ∃ i r, h = some i ∧ x = .result r ∧ WriteSpec i o tr r v
  else ReadSpec h (fun T => .result (T.step o).2) tr x v

/-- What the call does: `tr` are its accesses to mutable tables, `x` is its result. -/
def TCall.spec : TCall α D σ → List (Event D) → TVal α D σ → View α D → Prop
  | new_, tr, x, _ => ∃ o, tr = [.made o ⟨none, .dflt⟩] ∧ x = .handle o
  | newCustom cmp, tr, x, _ => ∃ o, tr = [.made o ⟨none, .custom cmp⟩] ∧ x = .handle o
  | op h o, tr, x, v => OpSpec h o tr x v
  | longest h k, tr, x, v => ReadSpec h (fun T => .match (T.longestMatch k)) tr x v
  | num h, tr, x, v => ReadSpec h (fun T => .num T.numEntries) tr x v
  | freeze h, tr, x, v =>
    match h with
    | none => tr = [] ∧ x = .table .zero
    | some o => ∃ ob, tr = [.load o ob] ∧ x = .table ob ∧ tval v ob
  | thaw t, tr, x, v => ∃ o e, tr = [.made o ⟨t.trie, e⟩] ∧ x = .handle o ∧
    ∃ T : Table α D, t.Is v T ∧ Obj.Is v ⟨t.trie, e⟩ T.table_ ∧ T.Reachable
  | xget t k, tr, x, v => ValSpec t (fun T => .result (.found (T.get k).1 (T.get k).2)) tr x v
  | xlongest t k, tr, x, v => ValSpec t (fun T => .match (T.longestMatch k)) tr x v
  | xnum t, tr, x, v => ValSpec t (fun T => .num T.numEntries) tr x v
  | walk t cb s, tr, x, v => ValSpec t (fun T => .walked (T.walk cb s)) tr x v
  | diff t u cb s, tr, x, v => ∃ U : Table α D, u.Is v U ∧ U.Reachable ∧
    ValSpec t (fun T => .walked (T.diff U cb s)) tr x v
  | map t f s, tr, x, v => ∃ t' s', x = .mapped t' s' ∧ ∃ T' : Table α D, t'.Is v T' ∧
    ValSpec t (fun T => T.map f s) tr (T', s') v
  | aggregate t, tr, x, v => ∃ t', x = .table t' ∧ ∃ T' : Table α D, t'.Is v T' ∧ T'.Reachable ∧
    ValSpec t (fun T => T.aggregate) tr T' v

/-- The roots that are not new that an operation can put in: one that it has read, or for `Remove` a child of
    one. -/
def TableOp.olds (op : TableOp α D) : OldRoots α D := fun v tr o q =>
  ∃ ob, .load o ob ∈ tr ∧ (ob.trie = q ∨ (op.removes = true ∧ Heap.ChildOf v ob.trie q))
/-- the same for all calls; the others put in no roots -/
def TCall.olds : TCall α D σ → OldRoots α D
  | op _ p => p.olds
  | _ => fun _ _ _ _ => False


/-! ### The immutable operations -/

open Prog Heap

theorem Trie.TInv.boxed {t : Trie α D} (h : t.TInv) : (∀ x, x ∈ t.entries → x.2.isSome = true) → t.Boxed := by
  induction h with
  | empty => intro _; trivial
  | mk p d act l r wf il ir hl hr two ihl ihr =>
    intro hs
    refine ⟨wf, ?_, ihl fun x hx => hs x (Trie.mem_mk.mpr (Or.inr (Or.inl hx))),
      ihr fun x hx => hs x (Trie.mem_mk.mpr (Or.inr (Or.inr hx)))⟩
    intro ha
    exact hs (p, d) (Trie.mem_mk.mpr (Or.inl ⟨ha, rfl⟩))

theorem Table.Reachable.boxed {T : Table α D} (h : T.Reachable) : T.trie.Boxed := h.good.inv.boxed h.good.some
theorem Table.Reachable.deep {T : Table α D} (h : T.Reachable) : T.trie.deep ≤ width α + 1 := h.good.inv.deep_le'

theorem wp_xNumEntries {v : View α D} {m : Obj D} {T : Table α D} {W : Nat → Prop} (h : m.Is v T) :
    wp False (fun x _ => x = T.numEntries) (xNumEntries m) v W := by
  unfold xNumEntries Table.numEntries
  have h1 := h.1
  generalize m.trie = p at h1
  generalize T.trie = t at h1
  cases h1 with
  | nil => exact rfl
  | node hc hl hr => exact ⟨_, hc, rfl⟩

theorem wp_xLongestMatch {F : Nat} {v : View α D} {m : Obj D} {T : Table α D} {W : Nat → Prop} (h : m.Is v T)
    (hF : T.trie.deep < F) (k : PrefixI α) :
    wp False (fun x _ => x = T.longestMatch' k) (xLongestMatch F m k) v W := by
  unfold xLongestMatch
  refine wp_call (wp_match k.code F hF h.1) ?_
  intro x v' le hx
  cases x with
  | none => simp only at hx ⊢; simp only [Table.longestMatch', hx]; exact rfl
  | some a =>
    obtain ⟨c, hc, hm⟩ := hx
    refine wp_deref (le _ _ hc) ?_
    simp only [Table.longestMatch', hm]
    exact rfl

theorem wp_xGet {F : Nat} {v : View α D} {m : Obj D} {T : Table α D} {W : Nat → Prop} (h : m.Is v T)
    (hF : T.trie.deep < F) (k : PrefixI α) : wp False (fun x _ => x = T.get k) (xGet F m k) v W := by
  unfold xGet
  refine wp_call (wp_xLongestMatch h hF k) ?_
  intro x v' le hx
  subst hx
  unfold Table.get
  rcases T.longestMatch' k with _ | ⟨v, _ | _, p⟩ <;> exact rfl

theorem wp_xLongest {F : Nat} {v : View α D} {m : Obj D} {T : Table α D} {W : Nat → Prop} (h : m.Is v T)
    (hF : T.trie.deep < F) (k : PrefixI α) :
    wp False (fun x _ => x = T.longestMatch k) (xLongest F m k) v W := by
  unfold xLongest
  refine wp_call (wp_xLongestMatch h hF k) ?_
  intro x v' le hx
  subst hx
  unfold Table.longestMatch
  rcases T.longestMatch' k with _ | ⟨v, _, p⟩ <;> exact rfl

theorem wp_xWalk {F : Nat} {v : View α D} {m : Obj D} {T : Table α D} {W : Nat → Prop} (h : m.Is v T)
    (hF : T.trie.deep < F) (cb : Prefix α → D → σ → σ × Bool) (s : σ) :
    wp False (fun x _ => x = T.walk cb s) (xWalk F m cb s) v W := wp_walk hF h.1

/-- the comparison functions agree on boxed values -/
theorem EqFn.call_some (e : EqFn D) (he : e ≠ .nil) (T : Table α D) (hT : T.eq = e.val) (a b : D) :
    e.call (some a) (some b) = some (T.cmp (some a) (some b)) := by
  cases e with
  | nil => exact (he rfl).elim
  | dflt => simp [call, defaultComparator, ifaceEq, Table.cmp, hT, val, liftEq, Comparable.eqq_eq]
  | custom cmp => simp [call, customComparator, Table.cmp, hT, val, liftEq]

theorem EqFn.call_dflt (T : Table α D) (hT : T.eq = EqFn.dflt.val) (a b : Option D) :
    EqFn.dflt.call a b = some (T.cmp a b) := by
  cases a <;> cases b <;> simp [call, defaultComparator, ifaceEq, Table.cmp, hT, val, liftEq, Comparable.eqq_eq]

theorem wp_xDiff {F : Nat} {v : View α D} {m m' : Obj D} {T U : Table α D} {W : Nat → Prop} (h : m.Is v T)
    (h' : m'.Is v U) (hT : T.Reachable) (hU : U.Reachable) (hF : 2 * width α + 3 ≤ F)
    (cb : TableDiffCallbacks α D σ) (s : σ) (he : HasEq m)
    (hr : cb.unchanged = none → ∀ cmp, m.eq = .custom cmp → (∀ x, cmp x x = true) ∨ cb.changed = none) :
    wp False (fun x _ => x = T.diff U cb s) (xDiff F m m' cb s) v W := by
  have hdT := hT.deep
  have hdU := hU.deep
  unfold xDiff
  by_cases hnil : m.trie = none
  · have h1 := h.1
    rw [hnil] at h1 ⊢
    have : T.trie = .nil := h1.none_inv
    have e : T.diff U cb s = Trie.Diff cb.boxed T.cmp .nil U.trie s := by
      unfold Table.diff; rw [this]; rfl
    rw [e]
    exact wp_Diff_nil (by omega) h'.1
  · have hne : m.eq ≠ .nil := fun e => hnil (he e)
    refine wp_Diff (ve := T.cmp) (EqFn.call_some m.eq hne T h.2) ?_ (by omega) hT.boxed hU.boxed h.1 h'.1
    intro hs
    have hs' : cb.unchanged = none := by simpa [TableDiffCallbacks.boxed] using hs
    rcases hm : m.eq with _ | _ | cmp
    · exact (hne hm).elim
    · left; intro d
      have hT' := h.2
      rw [hm] at hT'
      simp [Table.cmp, hT', EqFn.val, liftEq]
    · rcases hr hs' cmp hm with hr | hr
      · left; intro d
        have hT' := h.2
        rw [hm] at hT'
        simp [Table.cmp, hT', EqFn.val, liftEq, hr]
      · right; simp [hr]

theorem wp_xMap {F : Nat} {v : View α D} {m : Obj D} {T : Table α D} {W : Nat → Prop} (h : m.Is v T)
    (hF : T.trie.deep < F) (f : Option (Prefix α → D → σ → D × σ)) (s : σ)
    (hp : f = none ∨ m.trie = none ∨ m.eq = .dflt) :
    wp False (fun x v' => x.1.Is v' (T.map f s).1 ∧ x.2 = (T.map f s).2) (xMap F m f s) v W := by
  cases f with
  | none => exact ⟨h, rfl⟩
  | some f =>
    unfold xMap
    by_cases hnil : m.trie = none
    · have h1 := h.1
      rw [hnil] at h1 ⊢
      have ht : T.trie = .nil := h1.none_inv
      cases F with
      | zero => omega
      | succ F =>
        simp only [Table.map, ht]
        exact ⟨⟨by simp only [Trie.map]; exact .nil, h.2⟩, rfl⟩
    · have hd : m.eq = .dflt := by rcases hp with hp | hp | hp <;> first | exact hp | cases hp | exact (hnil hp).elim
      have h2 := h.2
      rw [hd] at h2 ⊢
      refine wp_call (wp_map (ve := T.cmp) (EqFn.call_dflt T h2) F hF h.1) ?_
      rintro x v' le ⟨h3, h4⟩
      refine ⟨⟨h3, ?_⟩, h4⟩
      exact h2

theorem wp_xAggregate {F : Nat} {v : View α D} {m : Obj D} {T : Table α D} {W : Nat → Prop} (h : m.Is v T)
    (hT : T.Reachable) (hF : T.trie.deep < F) (hp : m.trie = none ∨ m.eq = .dflt) :
    wp False (fun x v' => x.Is v' T.aggregate ∧ T.aggregate.Reachable) (xAggregate F m) v W := by
  unfold xAggregate
  by_cases hnil : m.trie = none
  · have h1 := h.1
    rw [hnil] at h1 ⊢
    have ht : T.trie = .nil := h1.none_inv
    have e : T.aggregate = Table.empty := by unfold Table.aggregate; rw [ht]; unfold Trie.aggregate; rfl
    cases F with
    | zero => omega
    | succ F =>
      rw [e]
      exact ⟨⟨.nil, rfl⟩, .empty⟩
  · have hd : m.eq = .dflt := hp.resolve_left hnil
    have h2 := h.2
    rw [hd] at h2 ⊢
    refine wp_call (wp_aggregate (ve := T.cmp) (EqFn.call_dflt T h2) F hF hT.good.inv h.1) ?_
    rintro x v' le ⟨h3, -⟩
    refine ⟨⟨h3, rfl⟩, .aggregate T hT ⟨_, h2, ?_, ?_, ?_⟩⟩
    · intro x; simp
    · intro x y; simp only [decide_eq_true_eq]; exact Eq.symm
    · intro x y z; simp only [decide_eq_true_eq]; exact Eq.trans


/-! ### Threads -/

theorem cwp_readObj {γ : Type} {good : View α D → Obj D → Prop} {fr : OldRoots α D} {Q : List (Event D) → γ → View α D → Prop}
    {o : Nat} {f : Obj D → Prog α D γ} {v base : View α D} {W : Nat → Prop} {n : Nat → Prop} {tr : List (Event D)}
    (ho : n o) (h : ∀ v' base' ob, v ≤ v' → base ≤ base' →
      (base' ≤ v' ∧ ∀ a, v a ≠ none → base a = none → base' a = none) → good v' ob →
      (∀ ob', .load o ob' ∈ tr → ob'.eq = ob.eq) → cwp good fr Q (f ob) v' base' W n (tr ++ [.load o ob])) :
    cwp good fr Q (readObj o >>= f) v base W n tr := ⟨ho, h⟩

/-- what is left to show of the mutator of `mutate`: `ob1`, `ob2` are what was read first and second, `v`
    is the view at the second read -/
def MutOk {τ γ : Type} (good : View α D → Obj D → Prop) (fr : OldRoots α D) (Q : List (Event D) → γ → View α D → Prop)
    (k : τ → Prog α D γ) (o : Nat) (ob1 ob2 : Obj D) (n : Nat → Prop) (v : View α D) (x : (Bool × Ptr) × τ)
    (v' : View α D) : Prop :=
  (x.1.1 = true → ob1.trie ≠ x.1.2 →
    good v' { ob1 with trie := x.1.2 } ∧
    ((∃ a, x.1.2 = some a ∧ v a = none) ∨ fr v' [.load o ob1, .load o ob2] o x.1.2) ∧
    ∀ v'', v' ≤ v'' → cwp good fr Q (k x.2) v'' v'' Nowhere n [.load o ob1, .load o ob2, .swap o ob1.trie x.1.2]) ∧
  (¬ (x.1.1 = true ∧ ob1.trie ≠ x.1.2) → ∀ base W, cwp good fr Q (k x.2) v' base W n [.load o ob1, .load o ob2])

theorem cwp_mutate {τ γ : Type} {good : View α D → Obj D → Prop} {fr : OldRoots α D}
    {Q : List (Event D) → γ → View α D → Prop} {o : Nat} {m : Obj D → Prog α D ((Bool × Ptr) × τ)}
    {k : τ → Prog α D γ} {v base : View α D} {W : Nat → Prop} {n : Nat → Prop}
    (gm : ∀ {v v' ob}, v ≤ v' → good v ob → good v' ob) (ho : n o)
    (h : ∀ ob1 ob2 v1, good v1 ob1 → good v1 ob2 → ob1.eq = ob2.eq →
      wp False (fun x v' => MutOk good fr Q k o ob1 ob2 n v1 x v') (m ob2) v1 Nowhere) :
    cwp good fr Q (tmutate o (readObj o >>= m) >>= k) v base W n [] := by
  unfold tmutate
  rw [bind_assoc]
  refine cwp_readObj ho fun v1 base1 ob1 _ _ _ g1 _ => ?_
  rw [bind_assoc, bind_assoc]
  refine cwp_readObj ho fun v2 base2 ob2 le2 _ hb2 g2 he => ?_
  have heq : ob1.eq = ob2.eq := he ob1 (by simp)
  refine cwp_call (h ob1 ob2 v2 (gm le2 g1) g2 heq) ?_
  intro x v3 le3 hx
  obtain ⟨h1, h2⟩ := hx
  by_cases hc : x.1.1 = true ∧ ob1.trie ≠ x.1.2
  · obtain ⟨hg, hfr, hk⟩ := h1 hc.1 hc.2
    have e : (x.1.1 && decide (ob1.trie ≠ x.1.2)) = true := by simp [hc.1, hc.2]
    simp only [e, if_true]
    refine ⟨ho, ⟨ob1, by simp, rfl, hg⟩, by simp, ?_, rfl, ?_⟩
    · rcases hfr with ⟨a, ha, hv⟩ | ha
      · refine Or.inl ⟨a, ha, ?_⟩
        cases hb : base2 a with
        | none => rfl
        | some c => rw [hb2.1 _ _ hb] at hv; cases hv
      · exact Or.inr ha
    · intro v' le'
      exact hk v' le'
  · have e : (x.1.1 && decide (ob1.trie ≠ x.1.2)) = false := by
      cases hx1 : x.1.1 with
      | false => rfl
      | true => simp only [hx1, true_and] at hc; simpa using hc
    simp only [e]
    exact h2 hc base2 W

theorem tobj_dom {v : View α D} {ob : Obj D} {p : Nat} (h : tobj v ob) (hp : ob.trie = some p) : v p ≠ none := by
  obtain ⟨⟨T, h1, _⟩, _⟩ := h
  have h1 := h1.1
  rw [hp] at h1
  obtain ⟨c, _, _, hc, _⟩ := h1.some_inv
  rw [hc]; simp

/-- Both outcomes of `mutate` for a mutator that computes the new trie from what was read second. -/
theorem mutOk {τ γ : Type} {Q : List (Event D) → γ → View α D → Prop} {k : τ → Prog α D γ}
    {o : Nat} {op : TableOp α D} {ob1 ob2 : Obj D} {n : Nat → Prop} {v v' : View α D} {x : (Bool × Ptr) × τ}
    {T2 : Table α D} (le : v ≤ v') (g1 : tobj v ob1) (heq : ob1.eq = ob2.eq) (i2 : ob2.Is v T2) (r2 : T2.Reachable)
    (hk : op.key.toPrefix.WF) (hok : x.1.1 = true → Obj.Is v' ⟨x.1.2, ob2.eq⟩ (T2.step op).1)
    (hsh : x.1.1 = true → Shares v' op.key.toPrefix ob2.trie x.1.2)
    (hno : x.1.1 = false → (T2.step op).1 = T2)
    (hfr : x.1.1 = true → x.1.2 = ob2.trie ∨ (∃ a, x.1.2 = some a ∧ v a = none) ∨
      (op.removes = true ∧ ChildOf v ob2.trie x.1.2))
    (hQ : ∀ tr v'', v' ≤ v'' → WriteSpec o op tr (T2.step op).2 v'' →
      ∀ base W, cwp tobj op.olds Q (k x.2) v'' base W n tr) :
    MutOk tobj op.olds Q k o ob1 ob2 n v x v' := by
  have hne : T2.eq ≠ none := by
    rw [i2.2, ← heq]
    have := g1.2
    cases h : ob1.eq with
    | nil => exact (this h).elim
    | dflt => simp [EqFn.val]
    | custom c => simp [EqFn.val]
  constructor
  · intro h1 h2
    refine ⟨⟨⟨_, ?_, .step T2 op r2 hne hk⟩, g1.2⟩, ?_, ?_⟩
    rotate_left
    · rcases hfr h1 with h | h | ⟨h, h'⟩
      · exact Or.inr ⟨ob2, by simp, Or.inl h.symm⟩
      · exact Or.inl h
      · exact Or.inr ⟨ob2, by simp, Or.inr ⟨h, h'.mono le⟩⟩
    rotate_left
    · have := hok h1
      unfold Obj.Is at this ⊢
      simp only at this ⊢
      rw [heq]; exact this
    · intro v'' le''
      refine hQ _ v'' le'' ⟨ob1, ob2, T2, (g1.mono le).mono le'', heq, (i2.mono le).mono le'', r2,
        .step T2 op r2 hne hk, rfl,
        Or.inr ⟨x.1.2, rfl, Ne.symm h2, (hok h1).mono le'', (hsh h1).mono le'' (i2.mono le).1 (hok h1).1⟩⟩ v'' Nowhere
  · intro h base W
    refine hQ _ v' (View.le_refl _) ⟨ob1, ob2, T2, g1.mono le, heq, i2.mono le, r2, .step T2 op r2 hne hk, rfl,
      Or.inl ⟨rfl, ?_⟩⟩ base W
    cases hx : x.1.1 with
    | false => exact Or.inl (hno hx)
    | true =>
      have e : ob1.trie = x.1.2 := by
        refine Classical.byContradiction fun hne => h ⟨hx, hne⟩
      have := hok hx
      rcases hfr hx with h2 | ⟨a, ha, hv⟩ | ⟨h2, h3⟩
      · left
        rw [h2] at this
        exact this.functional (i2.mono le)
      · rw [ha] at e
        exact (tobj_dom g1 e hv).elim
      · refine Or.inr ⟨h2, ?_, by rw [e]; exact h3.mono le⟩
        unfold Obj.Is at this ⊢
        rw [e, heq]; exact this


theorem tobj.dest {v : View α D} {ob : Obj D} (h : tobj v ob) : ∃ T : Table α D, ob.Is v T ∧ T.Reachable := h.1

/-- what a write must establish -/
def WriteOk (F : Nat) (op : TableOp α D) : Prop :=
  ∀ (o : Nat) (n : Nat → Prop) (v base : View α D) (W : Nat → Prop), n o → op.key.toPrefix.WF →
    cwp tobj op.olds (fun tr (x : TVal α D σ) v => ∃ i r, some o = some i ∧ x = .result r ∧ WriteSpec i op tr r v)
      (opCode F (some o) op >>= fun r => pure (.result r)) v base W n []

/-- table and result of `Insert` and `Update`: an error leaves the table as it is -/
def optStep (T : Table α D) : Option (Trie α D) → Table α D × Result D
  | none => (T, .bool false)
  | some t => (⟨t, T.eq⟩, .bool true)

/-- `Insert` and `Update` -/
theorem tPost_ok {op : TableOp α D} {o : Nat} {n : Nat → Prop} {ob1 ob2 : Obj D} {v1 v' : View α D} {T2 : Table α D}
    (g1 : tobj v1 ob1) (heq : ob1.eq = ob2.eq) (i2 : ob2.Is v1 T2) (r2 : T2.Reachable) (le : v1 ≤ v')
    (hk : op.key.toPrefix.WF) {res : Option (Trie α D)} {x : Ptr × Bool} (hx : TablePost op.key.code T2.trie v1 ob2.trie res x v')
    (hstep : T2.step op = optStep T2 res) :
    MutOk tobj op.olds (fun tr (x : TVal α D σ) v => ∃ i r, some o = some i ∧ x = .result r ∧ WriteSpec i op tr r v)
      (fun b => (pure (.bool b) : Prog α D (Result D)) >>= fun r => pure (.result r)) o ob1 ob2 n v1
      (if x.2 then ((false, none), false) else ((true, x.1), true)) v' := by
  unfold TablePost at hx
  cases res with
  | none =>
    simp only [optStep] at hx hstep
    rw [hx]
    refine mutOk (op := op) le g1 heq i2 r2 hk (by intro h; cases h) (by intro h; cases h) (by rw [hstep]; intro _; rfl)
      (by intro h; cases h) ?_
    intro tr v'' le'' hw base W
    exact ⟨o, _, rfl, by rw [hstep]; rfl, hw⟩
  | some t =>
    obtain ⟨h1, h2, ⟨a, h3, h4⟩, h5⟩ := hx
    rw [PrefixI.code_eq] at h5
    simp only [optStep] at hstep
    simp only [h1, Bool.false_eq_true, if_false]
    refine mutOk (op := op) le g1 heq i2 r2 hk (by intro _; rw [hstep]; exact ⟨h2, i2.2⟩)
      (fun _ => h5 hk r2.good.inv) (by intro h; cases h) ?_ ?_
    · intro _; exact Or.inr (Or.inl ⟨a, h3, h4⟩)
    · intro tr v'' le'' hw base W
      exact ⟨o, _, rfl, by rw [hstep], hw⟩

theorem tInsert_ok {F : Nat} (hF : width α + 2 ≤ F) (k : PrefixI α) (d : D) :
    WriteOk (σ := σ) F (.insert k d : TableOp α D) := by
  intro o n v base W ho hk
  simp only [opCode, tInsert]
  rw [bind_assoc]
  refine cwp_mutate (fun h g => g.mono h) ho fun ob1 ob2 v1 g1 g2 heq => ?_
  obtain ⟨T2, i2, r2⟩ := g2.dest
  have hd := r2.deep
  refine wp_call (wp_Insert (ve := fun _ _ => false) (by omega) i2.1) ?_
  intro x v' le hx
  refine tPost_ok g1 heq i2 r2 le hk hx ?_
  simp only [Table.step, Table.insert]
  cases Trie.insert _ k.code (some d) T2.trie <;> rfl

/-- comparing entries of a table with a new value -/
theorem eq_entries {ob : Obj D} {v : View α D} {T : Table α D} (i : ob.Is v T) (r : T.Reachable) (hne : ob.eq ≠ .nil)
    (d : D) : ∀ x, x ∈ T.trie.entries → ob.eq.call x.2 (some d) = some (T.cmp x.2 (some d)) := by
  intro x hx
  obtain ⟨w, hw⟩ := Option.isSome_iff_exists.mp (r.good.some x hx)
  rw [hw]
  exact EqFn.call_some ob.eq hne T i.2 w d

theorem tUpdate_ok {F : Nat} (hF : width α + 2 ≤ F) (k : PrefixI α) (d : D) :
    WriteOk (σ := σ) F (.update k d : TableOp α D) := by
  intro o n v base W ho hk
  simp only [opCode, tUpdate]
  rw [bind_assoc]
  refine cwp_mutate (fun h g => g.mono h) ho fun ob1 ob2 v1 g1 g2 heq => ?_
  obtain ⟨T2, i2, r2⟩ := g2.dest
  have hd := r2.deep
  refine wp_call (wp_Update (ve := T2.cmp) (by omega) (eq_entries i2 r2 g2.2 d) i2.1) ?_
  intro x v' le hx
  refine tPost_ok g1 heq i2 r2 le hk hx ?_
  simp only [Table.step, Table.update]
  cases Trie.insert _ k.code (some d) T2.trie <;> rfl

theorem wp_ret' {β : Type} {Q : β → View α D → Prop} {x : β} {v : View α D} {W : Nat → Prop} (h : Q x v) :
    wp False Q (pure x) v W := h

theorem tInsertOrUpdate_ok {F : Nat} (hF : width α + 2 ≤ F) (k : PrefixI α) (d : D) :
    WriteOk (σ := σ) F (.insertOrUpdate k d : TableOp α D) := by
  intro o n v base W ho hk
  simp only [opCode, tInsertOrUpdate]
  rw [bind_assoc]
  refine cwp_mutate (fun h g => g.mono h) ho fun ob1 ob2 v1 g1 g2 heq => ?_
  obtain ⟨T2, i2, r2⟩ := g2.dest
  have hd := r2.deep
  refine wp_call (wp_InsertOrUpdate (ve := T2.cmp) (by omega) (eq_entries i2 r2 g2.2 d) i2.1) ?_
  rintro x v' le ⟨t, h1, h2, h3, h4⟩
  rw [PrefixI.code_eq] at h4
  have hstep : T2.step (.insertOrUpdate k d) = (⟨t, T2.eq⟩, .unit) := by
    simp only [Table.step, Table.insertOrUpdate, h1]
  refine wp_ret' ?_
  refine mutOk (x := ((true, x), ())) (op := .insertOrUpdate k d) le g1 heq i2 r2 hk (by intro _; rw [hstep]; exact ⟨h2, i2.2⟩)
    (fun _ => h4 hk r2.good.inv) (by intro h; cases h) ?_ ?_
  · intro _; exact Or.inr (Or.inl h3)
  · intro tr v'' le'' hw base W
    exact ⟨o, _, rfl, by rw [hstep], hw⟩

theorem tRemove_ok {F : Nat} (hF : width α + 2 ≤ F) (k : PrefixI α) :
    WriteOk (σ := σ) F (.remove k : TableOp α D) := by
  intro o n v base W ho hk
  simp only [opCode, tRemove]
  rw [bind_assoc]
  refine cwp_mutate (fun h g => g.mono h) ho fun ob1 ob2 v1 g1 g2 heq => ?_
  obtain ⟨T2, i2, r2⟩ := g2.dest
  have hd := r2.deep
  refine wp_call (wp_del F (by omega) i2.1) ?_
  intro x v' le hx
  cases hi : Trie.del k.code T2.trie with
  | none =>
    rw [hi] at hx
    simp only at hx
    have hstep : T2.step (.remove k) = (T2, .removed false) := by
      simp only [Table.step, Table.remove, hi]
    rw [hx]
    refine wp_ret' ?_
    refine mutOk (x := ((true, ob2.trie), false)) (op := .remove k) le g1 heq i2 r2 hk (by intro _; rw [hstep]; exact i2.mono le)
      (fun _ => .refl _ _ _) (by intro h; cases h) (fun _ => Or.inl rfl) ?_
    intro tr v'' le'' hw base W
    exact ⟨o, _, rfl, by rw [hstep], hw⟩
  | some t =>
    rw [hi] at hx
    obtain ⟨h1, h2, h3, h4⟩ := hx
    rw [PrefixI.code_eq] at h3
    have hstep : T2.step (.remove k) = (⟨t, T2.eq⟩, .removed true) := by
      simp only [Table.step, Table.remove, hi]
    refine wp_ret' ?_
    refine mutOk (x := ((true, x.1), !x.2)) (op := .remove k) le g1 heq i2 r2 hk (by intro _; rw [hstep]; exact ⟨h2, i2.2⟩)
      (fun _ => h3 hk r2.good.inv) (by intro h; cases h) (fun _ => h4.imp id fun h => h.imp id fun h => ⟨rfl, h⟩) ?_
    intro tr v'' le'' hw base W
    exact ⟨o, _, rfl, by rw [hstep, h1]; rfl, hw⟩

theorem tGetOrInsert_ok {F : Nat} (hF : width α + 3 ≤ F) (k : PrefixI α) (d : D) :
    WriteOk (σ := σ) F (.getOrInsert k d : TableOp α D) := by
  intro o n v base W ho hk
  simp only [opCode, tGetOrInsert]
  rw [bind_assoc, bind_assoc]
  refine cwp_mutate (fun h g => g.mono h) ho fun ob1 ob2 v1 g1 g2 heq => ?_
  obtain ⟨T2, i2, r2⟩ := g2.dest
  have hd := r2.deep
  refine wp_call (wp_getOrInsert hk F (by omega) r2.good.inv i2.1) ?_
  rintro x v' le ⟨h1, h2, ⟨a, c, h3, h4, h5⟩, h6⟩
  have hstep : T2.step (.getOrInsert k d) =
      (⟨(Trie.getOrInsert k.code (some d) T2.trie).1, T2.eq⟩,
        .value (Table.unbox (Trie.getOrInsert k.code (some d) T2.trie).2)) := rfl
  refine wp_ret' ?_
  refine mutOk (x := ((true, x.1), x.2)) (op := .getOrInsert k d) le g1 heq i2 r2 hk (by intro _; exact ⟨h1, i2.2⟩)
    (fun _ => h6) (by intro h; cases h) ?_ ?_
  · intro _; exact h2.imp id Or.inl
  · intro tr v'' le'' hw base W
    simp only [h3]
    refine ⟨c, le'' _ _ h4, o, _, rfl, ?_, hw⟩
    rw [hstep, h5]; rfl


theorem WriteSpec.mono {o : Nat} {op : TableOp α D} {tr : List (Event D)} {r : Result D} {v v' : View α D}
    (le : v ≤ v') (h : WriteSpec o op tr r v) : WriteSpec o op tr r v' := by
  obtain ⟨ob1, ob2, T2, h1, h2, h3, h4, h4', h5, h6⟩ := h
  refine ⟨ob1, ob2, T2, h1.mono le, h2, h3.mono le, h4, h4', h5, ?_⟩
  rcases h6 with ⟨h6, h7⟩ | ⟨new, h6, h7, h8, h9⟩
  · exact Or.inl ⟨h6, h7.imp id fun h => ⟨h.1, h.2.1.mono le, h.2.2.mono le⟩⟩
  · exact Or.inr ⟨new, h6, h7, h8.mono le, h9.mono le h3.1 h8.1⟩

theorem ReadSpec.mono {ρ : Type} {h : Option Nat} {f : Table α D → ρ} {tr : List (Event D)} {r : ρ} {v v' : View α D}
    (le : v ≤ v') (hs : ReadSpec h f tr r v) : ReadSpec h f tr r v' := by
  cases h with
  | none => exact hs
  | some o =>
    obtain ⟨ob, T, h1, h2, h3, h4⟩ := hs
    exact ⟨ob, T, h1, h2.mono le, h3, h4⟩

theorem ValSpec.mono {ρ : Type} {t : Obj D} {f : Table α D → ρ} {tr : List (Event D)} {r : ρ} {v v' : View α D}
    (le : v ≤ v') (hs : ValSpec t f tr r v) : ValSpec t f tr r v' := by
  obtain ⟨h1, T, h2, h3, h4⟩ := hs
  exact ⟨h1, T, h2.mono le, h3, h4⟩

theorem TCall.spec_mono {c : TCall α D σ} {tr : List (Event D)} {x : TVal α D σ} {v v' : View α D} (le : v ≤ v')
    (h : c.spec tr x v) : c.spec tr x v' := by
  cases c with
  | new_ => exact h
  | newCustom cmp => exact h
  | op hd o =>
    simp only [spec, OpSpec] at h ⊢
    split
    · next hw =>
      rw [if_pos hw] at h
      obtain ⟨i, r, h1, h2, h3⟩ := h
      exact ⟨i, r, h1, h2, h3.mono le⟩
    · next hw =>
      rw [if_neg hw] at h
      exact h.mono le
  | longest hd k => simp only [spec] at h ⊢; exact h.mono le
  | num hd => simp only [spec] at h ⊢; exact h.mono le
  | freeze hd =>
    cases hd with
    | none => exact h
    | some o =>
      obtain ⟨ob, h1, h2, h3⟩ := h
      exact ⟨ob, h1, h2, h3.mono le⟩
  | thaw t =>
    obtain ⟨o, e, h1, h2, T, h3, h4, h5⟩ := h
    exact ⟨o, e, h1, h2, T, h3.mono le, h4.mono le, h5⟩
  | xget t k => exact ValSpec.mono le h
  | xlongest t k => exact ValSpec.mono le h
  | xnum t => exact ValSpec.mono le h
  | walk t cb s => exact ValSpec.mono le h
  | diff t u cb s =>
    obtain ⟨U, h1, h2, h3⟩ := h
    exact ⟨U, h1.mono le, h2, h3.mono le⟩
  | map t f s =>
    obtain ⟨t', s', h1, T', h2, h3⟩ := h
    exact ⟨t', s', h1, T', h2.mono le, h3.mono le⟩
  | aggregate t =>
    obtain ⟨t', h1, T', h2, h3, h4⟩ := h
    exact ⟨t', h1, T', h2.mono le, h3, h4.mono le⟩

theorem TCall.spec_outs {c : TCall α D σ} {tr : List (Event D)} {x : TVal α D σ} {v : View α D}
    (h : c.spec tr x v) : ∀ y ∈ x.outs, tval v y := by
  intro y hy
  cases c with
  | new_ => obtain ⟨o, _, rfl⟩ := h; cases hy
  | newCustom cmp => obtain ⟨o, _, rfl⟩ := h; cases hy
  | op hd o =>
    simp only [spec, OpSpec] at h
    split at h
    · obtain ⟨i, r, _, rfl, _⟩ := h; cases hy
    · cases hd with
      | none => obtain ⟨_, rfl⟩ := h; cases hy
      | some o => obtain ⟨_, _, _, _, _, rfl⟩ := h; cases hy
  | longest hd k =>
    cases hd with
    | none => obtain ⟨_, rfl⟩ := h; cases hy
    | some o => obtain ⟨_, _, _, _, _, rfl⟩ := h; cases hy
  | num hd =>
    cases hd with
    | none => obtain ⟨_, rfl⟩ := h; cases hy
    | some o => obtain ⟨_, _, _, _, _, rfl⟩ := h; cases hy
  | freeze hd =>
    cases hd with
    | none =>
      obtain ⟨_, rfl⟩ := h
      simp only [TVal.outs, List.mem_singleton] at hy
      subst hy
      exact ⟨Table.empty, ⟨.nil, rfl⟩, .empty⟩
    | some o =>
      obtain ⟨ob, _, rfl, h⟩ := h
      simp only [TVal.outs, List.mem_singleton] at hy
      subst hy
      exact h
  | thaw t => obtain ⟨_, _, _, rfl, _⟩ := h; cases hy
  | xget t k => obtain ⟨_, _, _, _, rfl⟩ := h; cases hy
  | xlongest t k => obtain ⟨_, _, _, _, rfl⟩ := h; cases hy
  | xnum t => obtain ⟨_, _, _, _, rfl⟩ := h; cases hy
  | walk t cb s => obtain ⟨_, _, _, _, rfl⟩ := h; cases hy
  | diff t u cb s => obtain ⟨_, _, _, _, _, _, _, rfl⟩ := h; cases hy
  | map t f s =>
    obtain ⟨t', s', rfl, T', h2, _, T, h3, h4, h5⟩ := h
    simp only [TVal.outs, List.mem_singleton] at hy
    subst hy
    refine ⟨T', h2, ?_⟩
    have : T' = (T.map f s).1 := congrArg Prod.fst h5
    rw [this]
    exact .map T f s h4
  | aggregate t =>
    obtain ⟨t', rfl, T', h2, h3, _⟩ := h
    simp only [TVal.outs, List.mem_singleton] at hy
    subst hy
    exact ⟨T', h2, h3⟩

/-- a call that only computes something from `Table` values -/
theorem cwp_pure_call {ρ : Type} {good : View α D → Obj D → Prop} {fr : OldRoots α D} {Q : List (Event D) → TVal α D σ → View α D → Prop}
    {P : Prog α D ρ} {f : ρ → TVal α D σ} {v base : View α D} {W : Nat → Prop} {n : Nat → Prop} {tr : List (Event D)}
    {Q0 : ρ → View α D → Prop} (h : wp False Q0 P v Nowhere) (hf : ∀ b v', v ≤ v' → Q0 b v' → Q tr (f b) v') :
    cwp good fr Q (P >>= fun x => pure (f x)) v base W n tr := cwp_call h hf

/-- The package satisfies its specification, whatever else runs, with a depth of recursion that depends
    only on the width of addresses. -/
theorem tableLib_ok {F : Nat} (hF : 2 * width α + 3 ≤ F) :
    LibOk (tableLib α D σ F) tobj tval TCall.olds TCall.spec where
  fr_mono := by
    intro c v v' tr o q le h
    cases c with
    | op hd p =>
      obtain ⟨ob, h1, h2⟩ := h
      exact ⟨ob, h1, h2.imp id fun h => ⟨h.1, h.2.mono le⟩⟩
    | _ => exact h
  good_mono h g := g.mono h
  good_dom := by
    intro v ob p h hp
    obtain ⟨⟨T, h1, _⟩, _⟩ := h
    have h1 := h1.1
    rw [hp] at h1
    obtain ⟨c, _, _, hc, _⟩ := h1.some_inv
    rw [hc]; simp
  gval_zero v := ⟨Table.empty, ⟨.nil, rfl⟩, .empty⟩
  spec_mono := TCall.spec_mono
  outs := TCall.spec_outs
  code := by
    have hw0 : 0 < width α := width_pos
    intro c hpre v n hvals hrefs
    cases c with
    | new_ =>
      refine ⟨⟨⟨Table.new_, ⟨.nil, rfl⟩, .new_⟩, by simp⟩, fun v' o _ _ => ⟨o, rfl, rfl⟩⟩
    | newCustom cmp =>
      refine ⟨⟨⟨Table.newCustom cmp, ⟨.nil, rfl⟩, .newCustom cmp⟩, by simp⟩, fun v' o _ _ => ⟨o, rfl, rfl⟩⟩
    | op h o =>
      cases hwr : o.writes with
      | true =>
        obtain ⟨hk, hn⟩ := hpre hwr
        obtain ⟨i, rfl⟩ := Option.ne_none_iff_exists'.mp hn
        have hi : n i := hrefs i (by simp [tableLib, TCall.refs])
        have key : WriteOk (σ := σ) F o →
            cwp tobj (TCall.olds (.op (some i) o : TCall α D σ)) (TCall.spec (.op (some i) o)) (TCall.code (σ := σ) F (.op (some i) o)) v v Nowhere n [] := by
          intro h
          refine cwp_mono ?_ (fun _ h => h) (fun _ h => h) (h i n v v Nowhere hi hk)
          intro tr b v h
          simp only [TCall.spec, OpSpec]
          rw [if_pos hwr]
          exact h
        cases o with
        | insert k d => exact key (tInsert_ok (by omega) k d)
        | update k d => exact key (tUpdate_ok (by omega) k d)
        | insertOrUpdate k d => exact key (tInsertOrUpdate_ok (by omega) k d)
        | get k => cases hwr
        | getOrInsert k d => exact key (tGetOrInsert_ok (by omega) k d)
        | remove k => exact key (tRemove_ok (by omega) k)
      | false =>
        cases o with
        | get k =>
          cases h with
          | none => exact ⟨rfl, rfl⟩
          | some i =>
            have hi : n i := hrefs i (by simp [tableLib, TCall.refs])
            refine cwp_readObj (f := fun m => (xGet F m k >>= fun x => pure (Result.found x.1 x.2)) >>= fun r => pure (TVal.result r)) hi ?_
            intro v' base' ob le _ _ g _
            obtain ⟨T, h1, h2⟩ := g.dest
            have hd := h2.deep
            rw [Prog.bind_assoc]
            refine cwp_call (wp_xGet h1 (by omega) k) ?_
            rintro x v'' le' rfl
            exact ⟨ob, T, rfl, h1.mono le', h2, rfl⟩
        | _ => cases hwr
    | longest h k =>
      cases h with
      | none => exact ⟨rfl, rfl⟩
      | some i =>
        have hi : n i := hrefs i (by simp [tableLib, TCall.refs])
        refine cwp_readObj (f := fun m => xLongest F m k >>= fun r => pure (TVal.match r)) hi ?_
        intro v' base' ob le _ _ g _
        obtain ⟨T, h1, h2⟩ := g.dest
        have hd := h2.deep
        refine cwp_call (wp_xLongest h1 (by omega) k) ?_
        rintro x v'' le' rfl
        exact ⟨ob, T, rfl, h1.mono le', h2, rfl⟩
    | num h =>
      cases h with
      | none => exact ⟨rfl, rfl⟩
      | some i =>
        have hi : n i := hrefs i (by simp [tableLib, TCall.refs])
        refine cwp_readObj (f := fun m => xNumEntries m >>= fun r => pure (TVal.num r)) hi ?_
        intro v' base' ob le _ _ g _
        obtain ⟨T, h1, h2⟩ := g.dest
        refine cwp_call (wp_xNumEntries h1) ?_
        rintro x v'' le' rfl
        exact ⟨ob, T, rfl, h1.mono le', h2, rfl⟩
    | freeze h =>
      cases h with
      | none => exact ⟨rfl, rfl⟩
      | some i =>
        have hi : n i := hrefs i (by simp [tableLib, TCall.refs])
        refine cwp_readObj (f := fun m => pure (TVal.table m)) hi ?_
        intro v' base' ob le _ _ g _
        exact ⟨ob, rfl, rfl, g.1⟩
    | thaw t =>
      obtain ⟨T, h1, h2⟩ := hvals t (by simp [tableLib, TCall.vals])
      refine ⟨⟨⟨T.table_, ?_, .table_ T h2⟩, ?_⟩, fun v' o le _ => ⟨o, _, rfl, rfl, T, h1.mono le, ?_, h2⟩⟩
      · refine ⟨h1.1, ?_⟩
        have := h1.2
        simp only [Table.table_]
        cases he : t.eq with
        | nil => simp [this, he, EqFn.val]
        | dflt => simp [this, he, EqFn.val]
        | custom c => simp [this, he, EqFn.val]
      · cases he : t.eq <;> simp
      · refine ⟨h1.1.mono le, ?_⟩
        have := h1.2
        simp only [Table.table_]
        cases he : t.eq with
        | nil => simp [this, he, EqFn.val]
        | dflt => simp [this, he, EqFn.val]
        | custom c => simp [this, he, EqFn.val]
    | xget t k =>
      obtain ⟨T, h1, h2⟩ := hvals t (by simp [tableLib, TCall.vals])
      have hd := h2.deep
      refine cwp_pure_call (wp_xGet h1 (by omega) k) ?_
      rintro x v' le rfl
      exact ⟨rfl, T, h1.mono le, h2, rfl⟩
    | xlongest t k =>
      obtain ⟨T, h1, h2⟩ := hvals t (by simp [tableLib, TCall.vals])
      have hd := h2.deep
      refine cwp_pure_call (wp_xLongest h1 (by omega) k) ?_
      rintro x v' le rfl
      exact ⟨rfl, T, h1.mono le, h2, rfl⟩
    | xnum t =>
      obtain ⟨T, h1, h2⟩ := hvals t (by simp [tableLib, TCall.vals])
      refine cwp_pure_call (wp_xNumEntries h1) ?_
      rintro x v' le rfl
      exact ⟨rfl, T, h1.mono le, h2, rfl⟩
    | walk t cb s =>
      obtain ⟨T, h1, h2⟩ := hvals t (by simp [tableLib, TCall.vals])
      have hd := h2.deep
      refine cwp_pure_call (wp_xWalk h1 (by omega) cb s) ?_
      rintro x v' le rfl
      exact ⟨rfl, T, h1.mono le, h2, rfl⟩
    | diff t u cb s =>
      obtain ⟨T, h1, h2⟩ := hvals t (by simp [tableLib, TCall.vals])
      obtain ⟨U, h3, h4⟩ := hvals u (by simp [tableLib, TCall.vals])
      refine cwp_pure_call (wp_xDiff h1 h3 h2 h4 hF cb s hpre.1 hpre.2) ?_
      rintro x v' le rfl
      exact ⟨U, h3.mono le, h4, rfl, T, h1.mono le, h2, rfl⟩
    | map t f s =>
      obtain ⟨T, h1, h2⟩ := hvals t (by simp [tableLib, TCall.vals])
      have hd := h2.deep
      refine cwp_pure_call (wp_xMap h1 (by omega) f s hpre) ?_
      rintro x v' le ⟨h3, h4⟩
      exact ⟨x.1, x.2, rfl, (T.map f s).1, h3, rfl, T, h1.mono le, h2, by rw [h4]⟩
    | aggregate t =>
      obtain ⟨T, h1, h2⟩ := hvals t (by simp [tableLib, TCall.vals])
      have hd := h2.deep
      refine cwp_pure_call (wp_xAggregate h1 h2 (by omega) hpre) ?_
      rintro x v' le ⟨h3, h4⟩
      exact ⟨x, rfl, T.aggregate, h3, h4, rfl, T, h1.mono le, h2, rfl⟩

end
end Addrs

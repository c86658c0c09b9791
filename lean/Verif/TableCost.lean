import Verif.HeapReadCost
import Verif.HeapAgg
import Verif.TableLib
/-
  What `Map` and `Aggregate` of tables cost.
-/
set_option linter.unusedSectionVars false
namespace Addrs
open GoWord LawfulGoWord
namespace Heap
open Prog
variable {α : Type} [LawfulGoWord α] {D : Type} [Comparable D] {ld : View α D → Obj D → Prop}

theorem takes_copyMutate {τ : Type} {v : View α D} {me : Nat} {c : Cell α D} (h : v me = some c)
    {f : Cell α D → Prog α D (Cell α D × τ)} {n a : Nat}
    (hm : ∀ v', v ≤ v' → (f c).Takes ld v' n a)
    (hw : ∀ v', v ≤ v' → wp True (fun _ _ => True) (f c) v' Nowhere) :
    (copyMutate me f).Takes ld v (n + 11) (a + 1) := by
  unfold copyMutate
  refine Takes.deref h (n := n + 10) (by omega) ?_
  refine ⟨by omega, by omega, fun m hm' => ?_⟩
  have hs : v.set m c m = some c := by simp [View.set]
  have le : v ≤ v.set m c := View.le_set_fresh hm'
  show ((mutate m f) >>= _).Takes ld (v.set m c) _ _
  unfold mutate
  rw [Prog.bind_assoc]
  refine Takes.deref hs (n := n + 8) (by omega) ?_
  rw [Prog.bind_assoc]
  refine Takes.call (n := n) (m := 8) (a := a) (b := 0) (hm _ le) (hw _ le) (by omega) (by omega) ?_
  intro x v1 le1 _
  refine AtMost.takes (Q := fun _ => True) ?_
  refine .bind' (n := 6) (m := 2) (a := 0) (b := 0) (fun _ => True) ?_ (by omega) (by omega) fun y _ => ?_
  · refine .bind' (n := 1) (m := 5) (a := 0) (b := 0) _ (atMost_store _ _ (by omega)) (by omega) (by omega) fun _ _ => ?_
    refine .bind' (n := 1) (m := 4) (a := 0) (b := 0) _ (atMost_numNodes _ (by omega)) (by omega) (by omega) fun _ _ => ?_
    refine .bind' (n := 1) (m := 3) (a := 0) (b := 0) _ (atMost_numNodes _ (by omega)) (by omega) (by omega) fun _ _ => ?_
    refine .bind' (n := 1) (m := 2) (a := 0) (b := 0) _ (atMost_height _ (by omega)) (by omega) (by omega) fun _ _ => ?_
    refine .bind' (n := 1) (m := 1) (a := 0) (b := 0) _ (atMost_height _ (by omega)) (by omega) (by omega) fun _ _ => ?_
    refine .bind' (n := 1) (m := 0) (a := 0) (b := 0) _ (atMost_store _ _ (by omega)) (by omega) (by omega) fun _ _ => trivial
  · refine .bind' (n := 1) (m := 1) (a := 0) (b := 0) _ (atMost_deref _ (by omega)) (by omega) (by omega) fun _ _ => ?_
    refine .bind' (n := 1) (m := 0) (a := 0) (b := 0) _ (atMost_deref _ (by omega)) (by omega) (by omega) fun _ _ => ?_
    exact .bind' (n := 0) (m := 0) (a := 0) (b := 0) _ (atMost_structEq _ _) (by omega) (by omega) fun _ _ => trivial

/-- `Map`: at most 12 steps and one allocation for each node -/
theorem takes_map {σ : Type} {f : Prefix α → Option D → σ → Option D × σ}
    {eq : Comparator D} {ve : Trie.Eq' D} (hEq : ∀ a b, eq a b = some (ve a b)) :
    ∀ (F : Nat) {t : Trie α D}, t.deep < F → ∀ {v : View α D} {p : Ptr} {s : σ}, Den v p t →
    (map f eq F p s).Takes ld v (12 * t.nodes) t.nodes := by
  intro F
  induction F with
  | zero => intro t h; omega
  | succ F ih =>
    intro t hF v p s dt
    unfold map
    cases dt with
    | nil => trivial
    | @node a c l r ha dl dr =>
    simp only [Trie.deep] at hF
    simp only [Trie.nodes]
    refine (takes_copyMutate (n := 1 + 12 * l.nodes + 12 * r.nodes) (a := l.nodes + r.nodes) ha ?_ ?_).mono (by omega) (by omega)
    · intro v' le
      refine Takes.deref (le _ _ ha) (n := 12 * l.nodes + 12 * r.nodes) (by omega) ?_
      simp only [hEq]
      show (map f eq F c.l (f c.pfx c.data s).2 >>= _).Takes _ _ _ _
      refine Takes.call (n := 12 * l.nodes) (m := 12 * r.nodes) (a := l.nodes) (b := r.nodes)
        (ih (t := l) (by omega) (dl.mono le)) (wp_map (st := True) hEq F (t := l) (by omega) (dl.mono le)) (by omega) (by omega) ?_
      intro x v1 le1 _
      have d := dr.mono (View.le_trans le le1)
      exact Takes.last (ih (t := r) (by omega) d)
    · intro v' le
      refine wp_deref (le _ _ ha) ?_
      simp only [hEq]
      show wp _ _ (map f eq F c.l (f c.pfx c.data s).2 >>= _) _ _
      refine wp_call (wp_map (st := True) (W := Nowhere) hEq F (t := l) (by omega) (dl.mono le)) ?_
      intro x v1 le1 _
      refine wp_call (wp_map (st := True) (W := Nowhere) hEq F (t := r) (by omega) (dr.mono (View.le_trans le le1))) ?_
      intro y v2 le2 _
      exact trivial

theorem atMost_createReturnValue (eq : Comparator D) (me : Nat) (c : Cell α D) (isActive : Bool) (data : Option D)
    (l r : Ptr) : (createReturnValue eq me c isActive data l r).AtMost 11 1 fun _ => True := by
  have tail : ∀ k : Bool, ((if k then pure (some me)
      else do
        let (x, _) ← copyMutate me fun n => do
          let d ← if isActive then do
              let same ← if n.data.isNone then pure false else orPanic (eq n.data data)
              if !same then pure data else pure n.data
            else pure none
          pure ({ n with active := isActive, data := d, l := l, r := r }, ())
        pure x) : Prog α D Ptr).AtMost 11 1 fun _ => True := by
    intro k
    cases k with
    | true => exact atMost_pure trivial
    | false =>
      refine .bind' (n := 11) (m := 0) (a := 1) (b := 0) (fun _ => True)
        (atMost_copyMutate (n := 0) (a := 0) fun n => ?_) (by omega) (by omega) fun _ _ => trivial
      cases isActive with
      | false => exact atMost_pure trivial
      | true =>
        cases hn : n.data.isNone with
        | true => exact atMost_pure trivial
        | false =>
          cases he : eq n.data data with
          | none => exact trivial
          | some b => cases b <;> exact atMost_pure trivial
  unfold createReturnValue
  cases hk : (isActive == c.active && decide (l = c.l) && decide (r = c.r)) with
  | true =>
    cases he : eq data c.data with
    | none => exact trivial
    | some k => exact tail k
  | false => exact tail false

theorem atMost_childrenAggregate (eq : Comparator D) (p : Prefix α) (a b : Ptr) :
    (childrenAggregate eq p a b).AtMost 2 0 fun _ => True := by
  unfold childrenAggregate
  split
  · refine .bind' (n := 1) (m := 1) (a := 0) (b := 0) _ (atMost_deref _ (by omega)) (by omega) (by omega) fun _ _ => ?_
    refine .bind' (n := 1) (m := 0) (a := 0) (b := 0) _ (atMost_deref _ (by omega)) (by omega) (by omega) fun _ _ => ?_
    split
    · split
      · split
        · exact atMost_orPanic _
        · exact atMost_pure trivial
      · exact atMost_pure trivial
    · exact atMost_pure trivial
  · exact atMost_pure trivial

/-- `aggregate`: at most 15 steps and one allocation for each node -/
theorem takes_aggregate {eq : Comparator D} {ve : Trie.Eq' D} (hEq : ∀ a b, eq a b = some (ve a b)) :
    ∀ (F : Nat) {t : Trie α D}, t.deep < F → Trie.TInv t →
    ∀ {u : Option (Option D)} {v : View α D} {p : Ptr}, Den v p t →
    (aggregate eq F u p).Takes ld v (15 * t.nodes) t.nodes := by
  intro F
  induction F with
  | zero => intro t h; omega
  | succ F ih =>
    intro t hF hi u v p dt
    unfold aggregate
    cases dt with
    | nil => trivial
    | @node a c l r ha dl dr =>
    obtain ⟨wf, il, ir, hl, hr, two, eme⟩ := hi.inv
    simp only [Trie.deep] at hF
    simp only [Trie.nodes]
    refine Takes.deref ha (n := 15 * l.nodes + 15 * r.nodes + 14) (by omega) ?_
    simp only [hEq]
    refine Eq.mpr (congrArg (fun P => Prog.Takes ld P v _ _) (redundant_step (ve := ve) u c.active c.data _)) ?_
    generalize (c.active && (match u with | some v => ve v c.data | none => false)) = red
    generalize (if (c.active && !red) = true then some c.data else u) = u'
    refine Takes.call (n := 15 * l.nodes) (m := 15 * r.nodes + 14) (a := l.nodes) (b := r.nodes + 1)
      (ih (t := l) (by omega) hl dl) (wp_aggregate (st := True) hEq F (t := l) (by omega) hl (u := u') dl) (by omega) (by omega) ?_
    intro x v1 le1 _
    refine Takes.call (n := 15 * r.nodes) (m := 14) (a := r.nodes) (b := 1)
      (ih (t := r) (by omega) hr (dr.mono le1)) (wp_aggregate (st := True) hEq F (t := r) (by omega) hr (u := u') (dr.mono le1)) (by omega) (by omega) ?_
    intro y v2 le2 _
    refine AtMost.takes (Q := fun _ => True) ?_
    refine .bind' (n := 2) (m := 12) (a := 0) (b := 1) _ (atMost_childrenAggregate _ _ _ _) (by omega) (by omega) fun b _ => ?_
    split
    · exact .bind' (n := 1) (m := 11) (a := 0) (b := 1) _ (atMost_deref _ (by omega)) (by omega) (by omega)
        fun _ _ => atMost_createReturnValue _ _ _ _ _ _ _
    · split
      · exact (atMost_createReturnValue _ _ _ _ _ _ _).mono (by omega) (by omega) fun _ h => h
      · split
        · trivial
        · split
          · trivial
          · exact (atMost_createReturnValue _ _ _ _ _ _ _).mono (by omega) (by omega) fun _ h => h

variable [Inhabited D] {σ : Type}

theorem takes_xMap {F : Nat} {v : View α D} {m : Obj D} {T : Table α D} (h : m.Is v T)
    (hF : T.trie.deep < F) (f : Option (Prefix α → D → σ → D × σ)) (s : σ)
    (hp : f = none ∨ m.trie = none ∨ m.eq = .dflt) :
    (xMap F m f s).Takes ld v (12 * T.trie.nodes) T.trie.nodes := by
  cases f with
  | none => trivial
  | some f =>
    unfold xMap
    by_cases hnil : m.trie = none
    · rw [hnil]
      cases F with
      | zero => omega
      | succ F => trivial
    · have hd : m.eq = .dflt := by rcases hp with hp | hp | hp <;> first | exact hp | cases hp | exact (hnil hp).elim
      have h2 := h.2
      rw [hd] at h2 ⊢
      exact Takes.last (takes_map (ve := T.cmp) (EqFn.call_dflt T h2) F hF h.1)

theorem takes_xAggregate {F : Nat} {v : View α D} {m : Obj D} {T : Table α D} (h : m.Is v T)
    (hT : T.Reachable) (hF : T.trie.deep < F) (hp : m.trie = none ∨ m.eq = .dflt) :
    (xAggregate F m).Takes ld v (15 * T.trie.nodes) T.trie.nodes := by
  unfold xAggregate
  by_cases hnil : m.trie = none
  · rw [hnil]
    cases F with
    | zero => omega
    | succ F => trivial
  · have hd : m.eq = .dflt := hp.resolve_left hnil
    have h2 := h.2
    rw [hd] at h2 ⊢
    exact Takes.last (takes_aggregate (ve := T.cmp) (EqFn.call_dflt T h2) F hF hT.good.inv h.1)

end Heap
end Addrs

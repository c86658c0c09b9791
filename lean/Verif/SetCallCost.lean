import Verif.HeapSetCost2
import Verif.SetLib
/-
  What each call of the set API costs, in terms of the sets it works on.
-/
set_option linter.unusedSectionVars false
namespace Addrs
open GoWord LawfulGoWord

/-- a family whose measure of a set visits each node at most once -/
class CostFamily (α : Type) extends HeapFamily α where
  size_reads : ∀ (F : Nat) {t : SetNode α} {v : View α Empty} {p : Ptr}, Den v p t →
    (HeapFamily.sizeCode (α := α) F p).ReadsAtMost v t.nodes

instance : CostFamily (BitVec 32) where
  size_reads F _ _ _ d := Heap.reads_numAddresses F d

instance : CostFamily U128 where
  size_reads F _ _ _ d := Heap.reads_isEmpty F d

section
variable {α σ : Type} [CostFamily α]
open Prog Heap SetNode

/-- an object that is loaded holds a set that satisfies `PL` -/
def LD (PL : IPSet α → Prop) (v : View α Empty) (ob : Obj Empty) : Prop := ∃ S : IPSet α, ob.Holds v S ∧ PL S

/-- the sets that an argument may stand for, if objects hold sets that satisfy `PL` -/
def SetArg.Poss (X : View α Empty) (PL : IPSet α → Prop) : SetArg α → IPSet α → Prop
  | .nil, A => A = IPSet.empty
  | .address x, A => A = (SetI.address x).toSet
  | .prefix p, A => A = (SetI.prefix p).toSet
  | .range r, A => A = (SetI.range r).toSet
  | .set t, A => t.Holds X A
  | .obj none, A => A = IPSet.empty
  | .obj (some _), A => PL A

/-- the sets that a receiver may stand for -/
def SetRecv.Poss (X : View α Empty) (PL : IPSet α → Prop) : SetRecv → IPSet α → Prop
  | .set t, A => t.Holds X A
  | .obj none, A => A = IPSet.empty
  | .obj (some _), A => PL A

/-- steps and allocations for turning an argument into a set -/
def SetArg.steps : SetArg α → Nat
  | .address _ | .prefix _ => 1
  | .range _ => 48 * width α + 12
  | .obj (some _) => 1
  | _ => 0
def SetArg.allocs : SetArg α → Nat
  | .address _ | .prefix _ => 1
  | .range _ => 4 * width α + 1
  | _ => 0

variable {X : View α Empty} {PL : IPSet α → Prop}

theorem LD.mono {v v' : View α Empty} {ob : Obj Empty} (le : v ≤ v') (h : LD PL v ob) : LD PL v' ob := by
  obtain ⟨S, h1, h2⟩ := h
  exact ⟨S, h1.mono le, h2⟩

theorem takes_arg {β : Type} {F : Nat} (hF : setBound α ≤ F) {a : SetArg α} (ha : a.Ok) {k : Ptr → SProg α β}
    {v : View α Empty} {n b : Nat} (hv : ∀ x ∈ a.vals, ∃ A : IPSet α, x.Holds v A ∧ x.Holds X A)
    (h : ∀ v' p A, v ≤ v' → A.Reachable → a.Poss X PL A → Den v' p A.trie → (k p).Takes (LD PL) v' n b) :
    (argSet F a >>= k).Takes (LD PL) v (a.steps + n) (a.allocs + b) := by
  cases a with
  | nil => exact (h v none _ (View.le_refl _) .empty rfl .nil).mono (by omega) (by omega)
  | address x =>
    refine Takes.call (P := argSet F (.address x)) (Q := fun p v' => Den v' p (SetNode.fromPrefix (Prefix.ofAddress x)))
      (st := False) (takes_fromPrefix _ _) (wp_fromPrefix fun n v' _ h => h) (Nat.le_refl _) (Nat.le_refl _) ?_
    intro p v' le d; exact h v' p _ le (.address x) rfl d
  | «prefix» q =>
    refine Takes.call (P := argSet F (.prefix q)) (Q := fun p v' => Den v' p (SetNode.fromPrefix q))
      (st := False) (takes_fromPrefix _ _) (wp_fromPrefix fun n v' _ h => h) (Nat.le_refl _) (Nat.le_refl _) ?_
    intro p v' le d; exact h v' p _ le (.prefix q ha) rfl d
  | range r =>
    refine Takes.call (P := argSet F (.range r)) (Q := fun p v' => Den v' p (SetNode.fromRange r))
      (st := False) (takes_fromRange ha (by unfold setBound at hF; omega) _)
      (wp_fromRange ha F (by unfold setBound at hF; omega) _ _) (Nat.le_refl _) (Nat.le_refl _) ?_
    intro p v' le d; exact h v' p _ le (.range r ha) rfl d
  | set t =>
    obtain ⟨A, h1, h2⟩ := hv t (by simp [SetArg.vals])
    exact (h v t.trie A (View.le_refl _) h1.2.1 h2 h1.1).mono (by omega) (by omega)
  | obj o =>
    cases o with
    | none => exact (h v none _ (View.le_refl _) .empty rfl .nil).mono (by omega) (by omega)
    | some o =>
      refine Takes.readObj (f := fun m => k m.trie) (n := n) (by simp only [SetArg.steps]; omega) ?_
      rintro ob v' le ⟨A, h1, h2⟩
      exact (h v' _ A le h1.2.1 h2 h1.1).mono (Nat.le_refl _) (by omega)

theorem takes_recv {β : Type} {r : SetRecv} {f : Ptr → SProg α β} {v : View α Empty} {n b : Nat}
    (hv : ∀ x ∈ r.vals, ∃ A : IPSet α, x.Holds v A ∧ x.Holds X A)
    (h : ∀ v' p S, v ≤ v' → S.Reachable → r.Poss X PL S → Den v' p S.trie → (f p).Takes (LD PL) v' n b) :
    (match r with
     | .set t => (f t.trie).Takes (LD PL) v (1 + n) b
     | .obj none => True
     | .obj (some o) => (readObj o >>= fun m => f m.trie).Takes (LD PL) v (1 + n) b) := by
  cases r with
  | set t =>
    obtain ⟨A, h1, h2⟩ := hv t (by simp [SetRecv.vals])
    exact (h v t.trie A (View.le_refl _) h1.2.1 h2 h1.1).mono (by omega) (by omega)
  | obj o =>
    cases o with
    | none => trivial
    | some o =>
      refine Takes.readObj (n := n) (by omega) ?_
      rintro ob v' le ⟨A, h1, h2⟩
      exact h v' _ A le h1.2.1 h2 h1.1

/-- what is needed of the function that computes the result -/
def Work (X : View α Empty) (PL : IPSet α → Prop) (r : SetRecv) (a : SetArg α) (gc : Ptr → Ptr → SProg α Ptr) (n b : Nat) : Prop :=
  ∀ (v : View α Empty) p q (S A : IPSet α), S.Reachable → A.Reachable → r.Poss X PL S → a.Poss X PL A →
    Den v p S.trie → Den v q A.trie → (gc p q).Takes (LD PL) v n b ∧ ∃ Q, wp False Q (gc p q) v Nowhere

theorem takes_smutate {β : Type} {F : Nat} (hF : setBound α ≤ F) {a : SetArg α} (ha : a.Ok)
    {gc : Ptr → Ptr → SProg α Ptr} {n b : Nat} {o : Nat} (hg : Work X PL (.obj (some o)) a gc n b)
    {late : Bool} {x : β} {v : View α Empty}
    (hv : ∀ x ∈ a.vals, ∃ A : IPSet α, x.Holds v A ∧ x.Holds X A) :
    (smutate F o gc a late >>= fun _ => pure x).Takes (LD PL) v (a.steps + n + 3) (a.allocs + b) := by
  refine Takes.last (f := fun _ => x) ?_
  unfold smutate
  refine Takes.readObj (n := a.steps + n + 2) (by omega) ?_
  rintro ob1 v1 le1 ⟨S1, h1, _⟩
  have hv1 : ∀ x ∈ a.vals, ∃ A : IPSet α, x.Holds v1 A ∧ x.Holds X A := fun x hx => by
    obtain ⟨A, e1, e2⟩ := hv x hx
    exact ⟨A, e1.mono le1, e2⟩
  have tail : ∀ (v2 : View α Empty) p q (S A : IPSet α), S.Reachable → A.Reachable → PL S → a.Poss X PL A →
      Den v2 p S.trie → Den v2 q A.trie →
      (gc p q >>= fun new => (if decide (ob1.trie ≠ new) then
        swap o ob1.trie new >>= fun ok => if !ok then panic else pure () else pure () : SProg α Unit)).Takes (LD PL) v2 (n + 1) b := by
    intro v2 p q S A hS hA pS pA d1 d2
    obtain ⟨ht, Q, hq⟩ := hg v2 p q S A hS hA pS pA d1 d2
    refine Takes.call ht hq (m := 1) (b := 0) (Nat.le_refl _) (Nat.le_refl _) ?_
    intro new v3 _ _
    split
    · exact ⟨Nat.le_refl _, fun b => by cases b <;> trivial⟩
    · trivial
  cases late with
  | true =>
    simp only [if_true]
    rw [Prog.bind_assoc]
    refine (takes_arg hF ha (n := n + 2) (b := b) hv1 ?_).mono (by omega) (Nat.le_refl _)
    intro v2 q A le2 hA pA dA
    rw [Prog.bind_assoc]
    refine Takes.readObj (n := n + 1) (Nat.le_refl _) ?_
    rintro ob2 v3 le3 ⟨S, h2, pS⟩
    exact tail v3 _ _ S A h2.2.1 hA pS pA h2.1 (dA.mono le3)
  | false =>
    simp only [Bool.false_eq_true, if_false]
    rw [Prog.bind_assoc]
    refine Takes.readObj (n := a.steps + (n + 1)) (by omega) ?_
    rintro ob2 v2 le2 ⟨S, h2, pS⟩
    rw [Prog.bind_assoc]
    refine takes_arg (X := X) hF ha ?_ ?_
    · intro x hx
      obtain ⟨A, e1, e2⟩ := hv1 x hx
      exact ⟨A, e1.mono le2, e2⟩
    · intro v3 q A le3 hA pA dA
      exact tail v3 _ _ S A h2.2.1 hA pS pA (h2.1.mono le3) dA

theorem takes_xBin {F : Nat} (hF : setBound α ≤ F) {a : SetArg α} (ha : a.Ok) {r : SetRecv}
    {gc : Ptr → Ptr → SProg α Ptr} {n b : Nat} (hg : Work X PL r a gc n b) {v : View α Empty} {p : Ptr} {S : IPSet α}
    (hv : ∀ x ∈ a.vals, ∃ A : IPSet α, x.Holds v A ∧ x.Holds X A) (hS : S.Reachable) (pS : r.Poss X PL S) (d : Den v p S.trie) :
    (xBin F gc p a).Takes (LD PL) v (a.steps + n) (a.allocs + b) := by
  unfold xBin
  refine takes_arg hF ha hv ?_
  intro v' q A le hA pA dA
  exact (hg v' p q S A hS hA pS pA (d.mono le) dA).1.last

theorem takes_sBin {β : Type} {F : Nat} (hF : setBound α ≤ F) {r : SetRecv} {a : SetArg α} (ha : a.Ok)
    {gc : Ptr → Ptr → SProg α Ptr} {n b : Nat} (hg : Work X PL r a gc n b) {v : View α Empty} {f : Obj Empty → β}
    (hv : ∀ x ∈ r.vals ++ a.vals, ∃ A : IPSet α, x.Holds v A ∧ x.Holds X A) :
    (sBin F gc r a >>= fun t => pure (f t)).Takes (LD PL) v (a.steps + n + 1) (a.allocs + b) := by
  refine Takes.last ?_
  have key := takes_recv (r := r) (f := fun p => xBin F gc p a) (PL := PL) (X := X) (v := v) (n := a.steps + n) (b := a.allocs + b)
    (fun x hx => hv x (List.mem_append_left _ hx))
    fun v' p S le hS pS d => takes_xBin hF ha hg (fun x hx => by
      obtain ⟨A, e1, e2⟩ := hv x (List.mem_append_right _ hx)
      exact ⟨A, e1.mono le, e2⟩) hS pS d
  cases r with
  | set t => exact key.mono (by omega) (Nat.le_refl _)
  | obj o =>
    cases o with
    | none => trivial
    | some o => exact key.mono (by omega) (Nat.le_refl _)

theorem takes_sUnion {β : Type} {F : Nat} (hF : setBound α ≤ F) {r : SetRecv} {a : SetArg α} (ha : a.Ok)
    {n b : Nat} (hg : Work X PL r a (Heap.union F) n b) {v : View α Empty} {f : Obj Empty → β}
    (hv : ∀ x ∈ r.vals ++ a.vals, ∃ A : IPSet α, x.Holds v A ∧ x.Holds X A) :
    (sUnion F r a >>= fun t => pure (f t)).Takes (LD PL) v (a.steps + n + 1) (a.allocs + b) := by
  have key := takes_sBin hF ha hg (f := f) hv
  cases r with
  | set t => exact key
  | obj o =>
    cases o with
    | some o => exact key
    | none =>
      refine Takes.last ?_
      refine (takes_arg (X := X) hF ha (n := 0) (b := 0) (fun x hx => hv x (List.mem_append_right _ hx)) ?_).mono (by omega) (by omega)
      intros; trivial

/-- the receiver of a call -/
def SCall.recv : SCall α σ → SetRecv
  | new_ => .obj none
  | freeze h => .obj h
  | thaw t => .set t
  | insert h _ _ | remove h _ _ => .obj h
  | size r | isEmpty r => r
  | contains r _ | union r _ | intersection r _ | difference r _ => r
  | equal_ h _ _ => .obj h
  | equal t _ => .set t
  | walk t _ _ => .set t
  | find t _ _ => .set t

/-- the argument of a call -/
def SCall.arg : SCall α σ → SetArg α
  | insert _ a _ | remove _ a _ => a
  | contains _ a | union _ a | intersection _ a | difference _ a => a
  | equal_ _ h _ => .obj h
  | equal _ t => .set t
  | find _ a _ => a
  | _ => .nil

/-- steps and allocations for the work proper -/
def SCall.work (F : Nat) (c : SCall α σ) (S A : SetNode α) : Nat × Nat :=
  match c with
  | insert _ _ _ | union _ _ => (12 * unionCalls F S A, unionCalls F S A)
  | remove _ _ _ | difference _ _ => (16 * diffCalls F S A, 3 * diffCalls F S A)
  | intersection _ _ => (14 * interCalls F S A, interCalls F S A)
  | contains _ _ => (16 * diffCalls F A S + (SetNode.difference A S).nodes, 3 * diffCalls F A S)
  | find _ _ _ => (S.nodes + 1 + 6 * diffCalls F S A, 2 * diffCalls F S A)
  | equal_ _ _ _ | equal _ _ => (S.nodes + A.nodes, 0)
  | size _ | isEmpty _ | walk _ _ _ => (S.nodes, 0)
  | new_ | freeze _ | thaw _ => (0, 0)

theorem work_union {F : Nat} (hF : setBound α ≤ F) {r : SetRecv} {a : SetArg α} {n b : Nat}
    (h : ∀ S A : IPSet α, S.Reachable → A.Reachable → r.Poss X PL S → a.Poss X PL A →
      12 * unionCalls F S.trie A.trie ≤ n ∧ unionCalls F S.trie A.trie ≤ b) : Work X PL r a (Heap.union F) n b := by
  intro v p q S A hS hA pS pA d1 d2
  obtain ⟨h1, h2⟩ := h S A hS hA pS pA
  have e1 := hS.deep
  have e2 := hA.deep
  exact ⟨(takes_union F (by unfold setBound at hF; omega) hS.inv hA.inv d1 d2).mono h1 h2, _, wp_union' hF hS hA d1 d2⟩

theorem takes_difference' {F : Nat} (hF : setBound α ≤ F) {S A : IPSet α} (hS : S.Reachable) (hA : A.Reachable)
    {v : View α Empty} {p q : Ptr} (d1 : Den v p S.trie) (d2 : Den v q A.trie) :
    (Heap.difference F p q).Takes (LD PL) v (16 * diffCalls F S.trie A.trie) (3 * diffCalls F S.trie A.trie) := by
  have e1 := hS.deep
  have e2 := hA.deep
  have e3 := room_le S.trie
  exact takes_difference _ (Nat.le_refl _) hS.inv hA.inv (by unfold uB; unfold setBound at hF; omega) d1 d2

theorem work_difference {F : Nat} (hF : setBound α ≤ F) {r : SetRecv} {a : SetArg α} {n b : Nat}
    (h : ∀ S A : IPSet α, S.Reachable → A.Reachable → r.Poss X PL S → a.Poss X PL A →
      16 * diffCalls F S.trie A.trie ≤ n ∧ 3 * diffCalls F S.trie A.trie ≤ b) : Work X PL r a (Heap.difference F) n b := by
  intro v p q S A hS hA pS pA d1 d2
  obtain ⟨h1, h2⟩ := h S A hS hA pS pA
  exact ⟨(takes_difference' hF hS hA d1 d2).mono h1 h2, _, wp_difference' hF hS hA d1 d2⟩

theorem work_intersect {F : Nat} (hF : setBound α ≤ F) {r : SetRecv} {a : SetArg α} {n b : Nat}
    (h : ∀ S A : IPSet α, S.Reachable → A.Reachable → r.Poss X PL S → a.Poss X PL A →
      14 * interCalls F S.trie A.trie ≤ n ∧ interCalls F S.trie A.trie ≤ b) : Work X PL r a (Heap.intersect F) n b := by
  intro v p q S A hS hA pS pA d1 d2
  obtain ⟨h1, h2⟩ := h S A hS hA pS pA
  have e1 := hS.deep
  have e2 := hA.deep
  exact ⟨(takes_intersect _ (Nat.le_refl _) hS.inv hA.inv (by unfold uB; unfold setBound at hF; omega) d1 d2).mono h1 h2, _,
    wp_intersect' hF hS hA d1 d2⟩

theorem takes_size {F : Nat} {t : SetNode α} {v : View α Empty} {p : Ptr} (d : Den v p t) {β : Type} {f : HeapFamily.Size α → β}
    {n : Nat} (h : t.nodes ≤ n) :
    (HeapFamily.sizeCode (α := α) F p >>= fun x => pure (f x)).Takes (LD PL) v n 0 :=
  ((CostFamily.size_reads F d).takes.last).mono h (Nat.le_refl _)

/-- what follows `other.Set()` in `Contains` -/
theorem takes_xContains {F : Nat} (hF : setBound α ≤ F) {a : SetArg α} (ha : a.Ok) {r : SetRecv} {n b : Nat}
    (h : ∀ S A : IPSet α, S.Reachable → A.Reachable → r.Poss X PL S → a.Poss X PL A →
      16 * diffCalls F A.trie S.trie + (SetNode.difference A.trie S.trie).nodes ≤ n ∧ 3 * diffCalls F A.trie S.trie ≤ b)
    {v : View α Empty} {p : Ptr} {S : IPSet α}
    (hv : ∀ x ∈ a.vals, ∃ A : IPSet α, x.Holds v A ∧ x.Holds X A) (hS : S.Reachable) (pS : r.Poss X PL S) (d : Den v p S.trie) :
    (xContains F p a).Takes (LD PL) v (a.steps + n) (a.allocs + b) := by
  unfold xContains
  refine takes_arg hF ha hv ?_
  intro v' q A le hA pA dA
  obtain ⟨h1, h2⟩ := h S A hS hA pS pA
  refine Takes.call (takes_difference' hF hA hS dA (d.mono le)) (wp_difference' hF hA hS dA (d.mono le)) h1 (b := 0) h2 ?_
  intro x v2 le2 dx
  exact takes_size dx (Nat.le_refl _)

/-- The cost of a call: turning the argument into a set, the work proper, and a few accesses to objects. -/
theorem SCall.takes {F : Nat} (hF : setBound α ≤ F) (c : SCall α σ) (hp : c.pre) {v : View α Empty} {n b : Nat}
    (hv : ∀ x ∈ c.vals, ∃ A : IPSet α, x.Holds v A ∧ x.Holds X A)
    (h : ∀ S A : IPSet α, S.Reachable → A.Reachable → c.recv.Poss X PL S → c.arg.Poss X PL A →
      (c.work F S.trie A.trie).1 ≤ n ∧ (c.work F S.trie A.trie).2 ≤ b) :
    (c.code F).Takes (LD PL) v (c.arg.steps + n + 3) (c.arg.allocs + b) := by
  cases c with
  | new_ => exact Takes.mono (n := 1) (a := 0) ⟨Nat.le_refl _, fun _ => trivial⟩ (by omega) (by omega)
  | freeze o =>
    cases o with
    | none => trivial
    | some o => exact Takes.mono (n := 1) (a := 0) ⟨Nat.le_refl _, fun _ _ _ _ => trivial⟩ (by omega) (by omega)
  | thaw t => exact Takes.mono (n := 1) (a := 0) ⟨Nat.le_refl _, fun _ => trivial⟩ (by omega) (by omega)
  | insert o a late =>
    cases o with
    | none => trivial
    | some o => exact takes_smutate hF hp.2 (work_union hF h) hv
  | remove o a late =>
    cases o with
    | none => trivial
    | some o => exact takes_smutate hF hp.2 (work_difference hF h) hv
  | union r a => exact (takes_sUnion hF hp (work_union hF h) hv).mono (by simp only [SCall.arg]; omega) (by simp only [SCall.arg]; omega)
  | intersection r a => exact (takes_sBin hF hp (work_intersect hF h) hv).mono (by simp only [SCall.arg]; omega) (by simp only [SCall.arg]; omega)
  | difference r a => exact (takes_sBin hF hp (work_difference hF h) hv).mono (by simp only [SCall.arg]; omega) (by simp only [SCall.arg]; omega)
  | size r =>
    have key := takes_recv (r := r) (f := fun p => HeapFamily.sizeCode (α := α) F p) (PL := PL) (X := X) (v := v) (n := n) (b := b) hv
      fun v' p S le hS pS d => ((CostFamily.size_reads F d).takes (ld := LD PL)).mono (h S _ hS .empty pS rfl).1 (by omega)
    refine Takes.last ?_
    cases r with
    | set t => exact key.mono (by simp only [SCall.arg, SetArg.steps]; omega) (by simp only [SCall.arg, SetArg.allocs]; omega)
    | obj o =>
      cases o with
      | none => trivial
      | some o => exact key.mono (by simp only [SCall.arg, SetArg.steps]; omega) (by simp only [SCall.arg, SetArg.allocs]; omega)
  | isEmpty r =>
    have key := takes_recv (r := r) (f := fun p => HeapFamily.sizeCode (α := α) F p) (PL := PL) (X := X) (v := v) (n := n) (b := b) hv
      fun v' p S le hS pS d => ((CostFamily.size_reads F d).takes (ld := LD PL)).mono (h S _ hS .empty pS rfl).1 (by omega)
    refine Takes.last (Takes.last ?_)
    cases r with
    | set t => exact key.mono (by simp only [SCall.arg, SetArg.steps]; omega) (by simp only [SCall.arg, SetArg.allocs]; omega)
    | obj o =>
      cases o with
      | none => trivial
      | some o => exact key.mono (by simp only [SCall.arg, SetArg.steps]; omega) (by simp only [SCall.arg, SetArg.allocs]; omega)
  | contains r a =>
    have ha : a.Ok := hp
    have hva : ∀ {v'}, v ≤ v' → ∀ x ∈ a.vals, ∃ A : IPSet α, x.Holds v' A ∧ x.Holds X A := fun le x hx => by
      obtain ⟨A, e1, e2⟩ := hv x (List.mem_append_right _ hx)
      exact ⟨A, e1.mono le, e2⟩
    have key := takes_recv (r := r) (f := fun p => xContains F p a) (PL := PL) (X := X) (v := v) (n := a.steps + n) (b := a.allocs + b)
      (fun x hx => hv x (List.mem_append_left _ hx))
      fun v' p S le hS pS d => takes_xContains hF ha h (hva le) hS pS d
    refine Takes.last ?_
    cases r with
    | set t => exact key.mono (by simp only [SCall.arg]; omega) (Nat.le_refl _)
    | obj o =>
      cases o with
      | some o => exact key.mono (by simp only [SCall.arg]; omega) (Nat.le_refl _)
      | none =>
        have hn : (argSet F a >>= fun x => HeapFamily.sizeCode (α := α) F x >>= fun n => pure (HeapFamily.isZero n)).Takes
            (LD PL) v (a.steps + n) (a.allocs + b) := by
          refine takes_arg hF ha (hva (View.le_refl _)) ?_
          intro v' q A le hA pA dA
          have := (h IPSet.empty A .empty hA rfl pA).1
          simp only [SCall.work, IPSet.empty, SetNode.difference_nil_right] at this
          exact (takes_size dA (by omega)).mono (Nat.le_refl _) (by omega)
        cases a with
        | nil => trivial
        | _ => exact hn.mono (by simp only [SCall.arg]; omega) (Nat.le_refl _)
  | equal_ o o' late =>
    have hv' : ∀ {v'}, ∀ x ∈ (SetArg.obj o' : SetArg α).vals, ∃ A : IPSet α, x.Holds v' A ∧ x.Holds X A := fun x hx => by cases hx
    refine Takes.last ?_
    cases o with
    | none =>
      show (sSize F (.obj o') >>= _).Takes _ _ _ _
      refine Takes.last ?_
      cases o' with
      | none => trivial
      | some o' =>
        refine Takes.readObj (n := n) (by simp only [SCall.arg, SetArg.steps]; omega) ?_
        rintro ob v' le ⟨A, h1, h2⟩
        have := (h IPSet.empty A .empty h1.2.1 rfl h2).1
        simp only [SCall.work] at this
        exact (CostFamily.size_reads F h1.1).takes.mono (by omega) (by omega)
    | some o =>
      have tail : ∀ (v2 : View α Empty) p q (S A : IPSet α), S.Reachable → A.Reachable → PL S → (SetArg.obj o').Poss X PL A →
          Den v2 p S.trie → Den v2 q A.trie → (setEqual F p q).Takes (LD PL) v2 n b := by
        intro v2 p q S A hS hA pS pA d1 d2
        have := (h S A hS hA pS pA).1
        exact (reads_equal _ F d1 d2).takes.mono this (by omega)
      have ho : (SetArg.obj o' : SetArg α).Ok := trivial
      simp only [sEqual_]
      cases late with
      | true =>
        simp only [if_true]
        refine (takes_arg (X := X) hF ho (n := n + 1) (b := b) hv' ?_).mono (by simp only [SCall.arg]; omega) (Nat.le_refl _)
        intro v2 q A le2 hA pA dA
        refine Takes.readObj (n := n) (Nat.le_refl _) ?_
        rintro ob2 v3 le3 ⟨S, h2, pS⟩
        exact tail v3 _ _ S A h2.2.1 hA pS pA h2.1 (dA.mono le3)
      | false =>
        simp only [Bool.false_eq_true, if_false]
        refine Takes.readObj (n := (SetArg.obj o' : SetArg α).steps + n) (by simp only [SCall.arg]; omega) ?_
        rintro ob2 v2 le2 ⟨S, h2, pS⟩
        refine takes_arg (X := X) hF ho hv' ?_
        intro v3 q A le3 hA pA dA
        exact tail v3 _ _ S A h2.2.1 hA pS pA (h2.1.mono le3) dA
  | equal t u =>
    obtain ⟨S, h1, h2⟩ := hv t (by simp [SCall.vals])
    obtain ⟨A, h3, h4⟩ := hv u (by simp [SCall.vals])
    have := (h S A h1.2.1 h3.2.1 h2 h4).1
    exact ((reads_equal _ F h1.1 h3.1).takes.last).mono (Nat.le_trans this (by omega)) (by omega)
  | walk t cb s =>
    obtain ⟨S, h1, h2⟩ := hv t (by simp [SCall.vals])
    have := (h S IPSet.empty h1.2.1 .empty h2 rfl).1
    exact ((reads_walk F _ h1.1 s).takes.last).mono (Nat.le_trans this (by omega)) (by omega)
  | find t a len =>
    obtain ⟨S, h1, h2⟩ := hv t (by simp [SCall.vals])
    have hva : ∀ x ∈ a.vals, ∃ A : IPSet α, x.Holds v A ∧ x.Holds X A := fun x hx => hv x (by simp [SCall.vals, hx])
    have key : (argSet F a >>= fun x => Heap.findSmallestReserved len F t.trie x >>= fun p =>
        pure (match p with
          | none => .err
          | some p => .ok ⟨p.network.addr, len⟩) : SProg α (Out (Prefix α))).Takes (LD PL) v (a.steps + n) (a.allocs + b) := by
      refine takes_arg hF hp.2 hva ?_
      intro v' q A le hA pA dA
      obtain ⟨e1, e2⟩ := h S A h1.2.1 hA h2 pA
      have e3 := h1.2.1.deep
      have e4 := hA.deep
      have e5 := room_le S.trie
      exact ((takes_findReserved len _ (Nat.le_refl _) h1.2.1.inv hA.inv (by unfold setBound at hF; omega) (h1.1.mono le) dA).last).mono e1 e2
    refine Takes.last ?_
    cases a with
    | nil => exact (hp.1 rfl).elim
    | _ => exact key.mono (by simp only [SCall.arg]; omega) (Nat.le_refl _)

end
end Addrs

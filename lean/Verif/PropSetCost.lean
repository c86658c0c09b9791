import Verif.SetCallCost
import Verif.PropConcSets
import Verif.PropMemory
/-
  C65: the cost of operations on sets.  The unit is that of C48: one read or write of a node (all fields at
  once), one allocation, one read or compare-and-swap of a root; plus one for returning.
-/
set_option linter.unusedSectionVars false
namespace Addrs
open GoWord LawfulGoWord

section
variable {α : Type} [HeapFamily α]

/-- `S` is the union of at most `N` prefixes -/
def IPSet.MadeOf (S : IPSet α) (N : Nat) : Prop :=
  ∃ L : List (Prefix α), L.length ≤ N ∧ (∀ p ∈ L, p.WF) ∧ ∀ a, S.has a ↔ ∃ p ∈ L, InPrefix p a

theorem IPSet.MadeOf.nodes {S : IPSet α} {N : Nat} (h : S.MadeOf N) (hS : S.Reachable) : S.trie.nodes ≤ 2 * N := by
  obtain ⟨L, h1, h2, h3⟩ := h
  by_cases hn : S.trie = .nil
  · rw [hn]; simp only [Trie.nodes]; omega
  · have e1 := hS.inv.nodes_eq hn
    have e2 := C17_minimal S hS L h2 h3
    rw [walkPrefixes_count] at e2
    omega

/-- a small tree is made of few prefixes -/
theorem IPSet.Reachable.madeOf {S : IPSet α} (hS : S.Reachable) {N : Nat} (h : S.trie.nodes + 1 ≤ 2 * N) : S.MadeOf N := by
  refine ⟨S.trie.prefixes, ?_, ?_, ?_⟩
  · by_cases hn : S.trie = .nil
    · rw [hn]; simp [Trie.prefixes, Trie.entries]
    · have := hS.inv.nodes_eq hn; omega
  · exact fun p hp => hS.inv.prefixes_wf p hp
  · intro a
    rw [hS.has_iff, hS.inv.mem_iff]
    constructor
    · rintro ⟨p, hp, h⟩; exact ⟨p, hp, (inPrefix_iff (hS.inv.prefixes_wf p hp)).mpr h⟩
    · rintro ⟨p, hp, h⟩; exact ⟨p, hp, (inPrefix_iff (hS.inv.prefixes_wf p hp)).mp h⟩

end

section
variable {α σ : Type} [CostFamily α] {F : Nat}

/-- the sets that the call `c` of thread `i` works on: those passed by value and the contents of the `Set_`s it
    read -/
def SState.WorksOn (s : SState α σ F) (i : Nat) (c : SCall α σ) (ob : Obj Empty) : Prop :=
  ob ∈ c.vals ∨ ∃ o, .act i (.load o ob) ∈ s.log

/-- only looks at its receiver and argument: `NumAddresses` or `IsEmpty`, `WalkPrefixes`, `Equal` -/
def SCall.looks : SCall α σ → Bool
  | size _ | isEmpty _ | walk _ _ _ | equal _ _ | equal_ _ _ _ => true
  | _ => false

/-- `Insert`, `Union`, `Remove`, `Difference` -/
def SCall.changes : SCall α σ → Bool
  | insert _ _ _ | remove _ _ _ | union _ _ | difference _ _ => true
  | _ => false

/-- the argument stands for a set that is the union of at most `M` prefixes -/
def SetArg.MadeOf (v : View α Empty) (a : SetArg α) (M : Nat) : Prop := ∃ A : IPSet α, a.Is v [] A ∧ A.MadeOf M

open SetNode

theorem SCall.cost (hF : setBound α ≤ F) {r : List (Label (setLib α σ F) × Nat)} {s : SState α σ F} (h : Run .init r s)
    {i : Nat} {c : SCall α σ} (hs : .start i c ∈ s.log) {n b : Nat} (PL : IPSet α → Prop)
    (hl : ∀ o ob S, .act i (.load o ob) ∈ s.log → ob.Holds s.mem S → PL S)
    (hw : c.pre → ∀ S A : IPSet α, S.Reachable → A.Reachable → c.recv.Poss s.mem PL S → c.arg.Poss s.mem PL A →
      (c.work F S.trie A.trie).1 ≤ n ∧ (c.work F S.trie A.trie).2 ≤ b) :
    numSteps i r ≤ c.arg.steps + n + 4 ∧ numNew i r ≤ c.arg.allocs + b := by
  have ok := setLib_ok (α := α) (σ := σ) hF
  refine h.takes ok (ld := LD PL) (fun v v' ob le h => h.mono le) hs ?_ ?_
  · rintro o ob ho v le ⟨S, hS⟩
    exact ⟨S, hS, hl o ob S ho (hS.mono le)⟩
  · intro v le hp hv
    refine SCall.takes hF c hp ?_ (hw hp)
    intro x hx
    obtain ⟨A, hA⟩ := hv x hx
    exact ⟨A, hA, hA.mono le⟩

theorem arg_steps_le (a : SetArg α) : a.steps ≤ 48 * width α + 12 ∧ a.allocs ≤ 4 * width α + 1 := by
  cases a with
  | obj o => cases o <;> simp only [SetArg.steps, SetArg.allocs] <;> omega
  | _ => simp only [SetArg.steps, SetArg.allocs]; omega

theorem worksOn_nodes {s : SState α σ F} {i : Nat} {c : SCall α σ} {N : Nat}
    (hN : ∀ ob, s.WorksOn i c ob → ∃ S : IPSet α, ob.Holds s.mem S ∧ S.MadeOf N) {ob : Obj Empty} (h : s.WorksOn i c ob)
    {S : IPSet α} (hS : ob.Holds s.mem S) : S.trie.nodes ≤ 2 * N := by
  obtain ⟨S', h1, h2⟩ := hN ob h
  rw [hS.functional h1]
  exact h2.nodes h1.2.1

theorem arg_nodes {a : SetArg α} (ha : a.Ok) {X : View α Empty} {N : Nat} {A : IPSet α}
    (hv : ∀ t, t ∈ a.vals → t.Holds X A → A.trie.nodes ≤ 2 * N)
    (h : a.Poss X (fun S => S.trie.nodes ≤ 2 * N) A) : A.trie.nodes ≤ 2 * N + (4 * width α + 1) := by
  cases a with
  | nil => rw [h]; simp [IPSet.empty, Trie.nodes]
  | address x => rw [h]; show Trie.nodes (SetNode.fromPrefix _) ≤ _; rw [fromPrefix_nodes]; omega
  | «prefix» p => rw [h]; show Trie.nodes (SetNode.fromPrefix _) ≤ _; rw [fromPrefix_nodes]; omega
  | range r => rw [h]; have := fromRange_nodes (r := r) ha; show Trie.nodes (SetNode.fromRange _) ≤ _; omega
  | set t => have := hv t (by simp [SetArg.vals]) h; omega
  | obj o =>
    cases o with
    | none => rw [h]; simp [IPSet.empty, Trie.nodes]
    | some o => have : A.trie.nodes ≤ 2 * N := h; omega

theorem arg_vals_sub {c : SCall α σ} : ∀ t ∈ c.arg.vals, t ∈ c.vals := by
  intro t ht
  cases c <;> simp_all [SCall.arg, SCall.vals, SetArg.vals]

theorem recv_nodes {r : SetRecv} {X : View α Empty} {N : Nat} {S : IPSet α}
    (hv : ∀ t, t ∈ r.vals → t.Holds X S → S.trie.nodes ≤ 2 * N)
    (h : r.Poss X (fun S => S.trie.nodes ≤ 2 * N) S) : S.trie.nodes ≤ 2 * N := by
  cases r with
  | set t => exact hv t (by simp [SetRecv.vals]) h
  | obj o =>
    cases o with
    | none => rw [h]; simp [IPSet.empty, Trie.nodes]
    | some o => exact h

theorem recv_vals_sub {c : SCall α σ} : ∀ t ∈ c.recv.vals, t ∈ c.vals := by
  intro t ht
  cases c <;> simp_all [SCall.recv, SCall.vals, SetRecv.vals]

theorem arg_ok {c : SCall α σ} (h : c.pre) : c.arg.Ok := by
  cases c <;> first | exact h.2 | exact h | trivial

/-- Any call on sets that are unions of at most `N` prefixes, with any address, prefix or range as argument, ends
    after a number of steps that is linear in `N`. -/
theorem C65_linear (hF : setBound α ≤ F) {r : List (Label (setLib α σ F) × Nat)} {s : SState α σ F} (h : Run .init r s)
    {i : Nat} {c : SCall α σ} (hs : .start i c ∈ s.log) {N : Nat}
    (hN : ∀ ob, s.WorksOn i c ob → ∃ S : IPSet α, ob.Holds s.mem S ∧ S.MadeOf N) :
    numSteps i r ≤ 300 * (width α + 1) * (N + width α + 1) ∧ numNew i r ≤ 40 * (width α + 1) * (N + width α + 1) := by
  obtain ⟨P, hP⟩ : ∃ P, P = (width α + 1) * (N + width α + 1) := ⟨_, rfl⟩
  have hP1 : N + width α + 1 ≤ P := by rw [hP]; exact Nat.le_mul_of_pos_left _ (by omega)
  have key := SCall.cost hF h hs (fun S => S.trie.nodes ≤ 2 * N) (n := 232 * P) (b := 36 * P)
    (fun o ob S ho hS => worksOn_nodes hN (Or.inr ⟨o, ho⟩) hS) ?_
  · obtain ⟨e1, e2⟩ := arg_steps_le c.arg
    rw [Nat.mul_assoc, Nat.mul_assoc, ← hP]
    omega
  · intro hp S A hS hA pS pA
    have t1 := recv_nodes (fun t ht hS => worksOn_nodes hN (Or.inl (recv_vals_sub t ht)) hS) pS
    have t2 := arg_nodes (arg_ok hp) (fun t ht hS => worksOn_nodes hN (Or.inl (arg_vals_sub t ht)) hS) pA
    have u := unionCalls_le F S.trie A.trie
    have d := diffCalls_le _ (Nat.le_refl _) hS.inv hA.inv F
    have d' := diffCalls_le _ (Nat.le_refl _) hA.inv hS.inv F
    have ii := interCalls_le F hS.inv hA.inv
    have m : ∀ x, x ≤ 4 * (N + width α + 1) → (width α + 1) * x ≤ 4 * P := by
      intro x hx
      have := Nat.mul_le_mul_left (width α + 1) hx
      rw [hP]
      rw [Nat.mul_left_comm] at this
      exact this
    have m1 := m (S.trie.nodes + A.trie.nodes) (by omega)
    have m2 := m (A.trie.nodes + S.trie.nodes) (by omega)
    have e3 : ∀ x, (3 * width α + 3) * x = 3 * ((width α + 1) * x) := fun x => by rw [← Nat.mul_assoc]; rfl
    rw [e3] at d d'
    rw [Nat.mul_assoc] at ii
    have hd1 := hS.deep
    have hd2 := hA.deep
    have hr := room_le A.trie
    have dn := difference_nodes _ (Nat.le_refl _) hA.inv hS.inv (F := F) (by unfold setBound at hF; omega)
    cases c <;> simp only [SCall.work] <;> omega

/-- `Insert` and `Union`: at most `48 * N + 96 * width + 28` steps. -/
theorem C65_union (hF : setBound α ≤ F) {r : List (Label (setLib α σ F) × Nat)} {s : SState α σ F} (h : Run .init r s)
    {i : Nat} {c : SCall α σ} (hs : .start i c ∈ s.log) (hc : (∃ o a l, c = .insert o a l) ∨ ∃ x a, c = .union x a) {N : Nat}
    (hN : ∀ ob, s.WorksOn i c ob → ∃ S : IPSet α, ob.Holds s.mem S ∧ S.MadeOf N) :
    numSteps i r ≤ 48 * N + 96 * width α + 28 ∧ numNew i r ≤ 4 * N + 8 * width α + 2 := by
  have key := SCall.cost hF h hs (fun S => S.trie.nodes ≤ 2 * N) (n := 48 * N + 48 * width α + 12) (b := 4 * N + 4 * width α + 1)
    (fun o ob S ho hS => worksOn_nodes hN (Or.inr ⟨o, ho⟩) hS) ?_
  · have := arg_steps_le c.arg; omega
  · intro hp S A hS hA pS pA
    have t1 := recv_nodes (fun t ht hS => worksOn_nodes hN (Or.inl (recv_vals_sub t ht)) hS) pS
    have t2 := arg_nodes (arg_ok hp) (fun t ht hS => worksOn_nodes hN (Or.inl (arg_vals_sub t ht)) hS) pA
    have u := unionCalls_le F S.trie A.trie
    rcases hc with ⟨_, _, _, rfl⟩ | ⟨_, _, rfl⟩ <;> simp only [SCall.work] <;> omega

/-- The calls that only look take at most `4 * N + 5` steps and allocate nothing. -/
theorem C65_looks (hF : setBound α ≤ F) {r : List (Label (setLib α σ F) × Nat)} {s : SState α σ F} (h : Run .init r s)
    {i : Nat} {c : SCall α σ} (hs : .start i c ∈ s.log) (hc : c.looks = true) {N : Nat}
    (hN : ∀ ob, s.WorksOn i c ob → ∃ S : IPSet α, ob.Holds s.mem S ∧ S.MadeOf N) :
    numSteps i r ≤ 4 * N + 5 ∧ numNew i r = 0 := by
  have key := SCall.cost hF h hs (fun S => S.trie.nodes ≤ 2 * N) (n := 4 * N) (b := 0)
    (fun o ob S ho hS => worksOn_nodes hN (Or.inr ⟨o, ho⟩) hS) ?_
  · have e : c.arg.steps ≤ 1 ∧ c.arg.allocs = 0 := by
      cases c <;> try cases hc
      case equal_ o o' l => cases o' <;> simp [SCall.arg, SetArg.steps, SetArg.allocs]
      all_goals simp [SCall.arg, SetArg.steps, SetArg.allocs]
    omega
  · intro hp S A hS hA pS pA
    have t1 := recv_nodes (fun t ht hS => worksOn_nodes hN (Or.inl (recv_vals_sub t ht)) hS) pS
    have t2 : A.trie.nodes ≤ 2 * N := by
      have hv := fun t ht (hS : t.Holds s.mem A) => worksOn_nodes hN (Or.inl (arg_vals_sub (c := c) t ht)) hS
      cases c <;> try cases hc
      case equal t u => exact hv u (by simp [SCall.arg, SetArg.vals]) pA
      case equal_ o o' l =>
        cases o' with
        | none => rw [show A = IPSet.empty from pA]; simp [IPSet.empty, Trie.nodes]
        | some o' => exact pA
      all_goals (rw [show A = IPSet.empty from pA]; simp [IPSet.empty, Trie.nodes])
    cases c <;> (try cases hc) <;> simp only [SCall.work] <;> omega

theorem poss_is {a : SetArg α} {X : View α Empty} {PL : IPSet α → Prop} {A A' : IPSet α} (h : a.Is X [] A)
    (h' : a.Poss X PL A') : A' = A := by
  cases a with
  | nil => rw [h.2]; exact h'
  | address x => rw [h.2]; exact h'
  | «prefix» p => rw [h.2.1]; exact h'
  | range r => rw [h.2.1]; exact h'
  | set t => exact Obj.Holds.functional h' h.2
  | obj o =>
    cases o with
    | none => rw [h.2]; exact h'
    | some o => obtain ⟨_, h, _⟩ := h; cases h

/-- However large the receiver is, `Insert`, `Union`, `Remove` and `Difference` with an argument that is the union of
    at most `M` prefixes end after at most `160 * M * (width + 1) + 48 * width + 16` steps and allocate at most
    `30 * M * (width + 1) + 4 * width + 1` nodes: everything else is shared with the previous version. -/
theorem C65_small (hF : setBound α ≤ F) {r : List (Label (setLib α σ F) × Nat)} {s : SState α σ F} (h : Run .init r s)
    {i : Nat} {c : SCall α σ} (hs : .start i c ∈ s.log) (hc : c.changes = true) {M : Nat} (hM : c.arg.MadeOf s.mem M) :
    numSteps i r ≤ 160 * M * (width α + 1) + 48 * width α + 16 ∧
    numNew i r ≤ 30 * M * (width α + 1) + 4 * width α + 1 := by
  obtain ⟨A, hA, hm⟩ := hM
  have hn := hm.nodes hA.reachable
  have key := SCall.cost hF h hs (fun _ => True) (n := 160 * M * (width α + 1)) (b := 30 * M * (width α + 1))
    (fun o ob S ho hS => trivial) ?_
  · have := arg_steps_le c.arg; omega
  · intro hp S A' hS hA' pS pA
    cases poss_is hA pA
    have e1 := (unionCalls_small F S.trie A.trie).1
    have e2 := diffCalls_small _ (Nat.le_refl _) hS.inv hA'.inv F
    have hd := hS.deep
    have f1 := Nat.mul_le_mul hn (show S.trie.deep + 1 ≤ 2 * (width α + 1) by omega)
    have f2 := Nat.mul_le_mul hn (show 2 * S.trie.deep + 3 * (width α + 1) ≤ 5 * (width α + 1) by omega)
    obtain ⟨Q, hQ⟩ : ∃ Q, Q = M * (width α + 1) := ⟨_, rfl⟩
    have g : ∀ b, 2 * M * (b * (width α + 1)) = 2 * b * Q := by
      intro b; rw [hQ]; simp only [Nat.mul_assoc, Nat.mul_left_comm, Nat.mul_comm]
    rw [g] at f1 f2
    rw [Nat.mul_assoc, Nat.mul_assoc, ← hQ]
    cases c <;> (try cases hc) <;> simp only [SCall.work] <;> omega

/-- an address or a prefix is one prefix, a range at most `2 * width + 1` -/
theorem C65_arguments (v : View α Empty) :
    (∀ a, (SetArg.address a : SetArg α).MadeOf v 1) ∧ (∀ p : Prefix α, p.WF → (SetArg.prefix p).MadeOf v 1) ∧
    (∀ q : Range α, q.Valid → (SetArg.range q).MadeOf v (2 * width α + 1)) := by
  refine ⟨fun a => ⟨_, ⟨rfl, rfl⟩, IPSet.Reachable.madeOf (.address a) ?_⟩, fun p hp => ⟨_, ⟨rfl, rfl, hp⟩, IPSet.Reachable.madeOf (.prefix p hp) ?_⟩,
    fun q hq => ⟨_, ⟨rfl, rfl, hq⟩, IPSet.Reachable.madeOf (.range q hq) ?_⟩⟩
  · show Trie.nodes (SetNode.fromPrefix _) + 1 ≤ _; rw [fromPrefix_nodes]; omega
  · show Trie.nodes (SetNode.fromPrefix _) + 1 ≤ _; rw [fromPrefix_nodes]; omega
  · have := fromRange_nodes (r := q) hq; show Trie.nodes (SetNode.fromRange _) + 1 ≤ _; omega

/-- However large the receiver is, `Contains` of one address takes at most `18 * width + 24` steps and
    `Intersection` with one address at most `56 * width + 75`. -/
theorem C65_address (hF : setBound α ≤ F) {r : List (Label (setLib α σ F) × Nat)} {s : SState α σ F} (h : Run .init r s)
    {i : Nat} {x : SetRecv} {a : α} :
    (.start i (.contains x (.address a)) ∈ s.log → numSteps i r ≤ 18 * width α + 24 ∧ numNew i r ≤ 3 * width α + 4) ∧
    (.start i (.intersection x (.address a)) ∈ s.log → numSteps i r ≤ 56 * width α + 75 ∧ numNew i r ≤ 4 * width α + 6) := by
  constructor
  · intro hs
    refine SCall.cost hF h hs (fun _ => True) (n := 18 * width α + 19) (b := 3 * width α + 3) (fun o ob S ho hS => trivial) ?_ |>.imp ?_ ?_
    · intro hp S A hS hA pS pA
      have pA : A = (SetI.address a).toSet := pA
      subst pA
      have e1 := diffCalls_address_left F (p := Prefix.ofAddress a) rfl hS.inv
      have hd1 := hS.deep
      have hd2 := hA.deep
      have hr := room_le (SetI.address a).toSet.trie
      have dn := difference_nodes _ (Nat.le_refl _) hA.inv hS.inv (F := F) (by unfold setBound at hF; omega)
      have e2 : (SetI.address a).toSet.trie = SetNode.fromPrefix (Prefix.ofAddress a) := rfl
      rw [e2, fromPrefix_nodes] at dn
      simp only [SCall.work, e2]
      omega
    · simp only [SCall.arg, SetArg.steps]; omega
    · simp only [SCall.arg, SetArg.allocs]; omega
  · intro hs
    refine SCall.cost hF h hs (fun _ => True) (n := 56 * width α + 70) (b := 4 * width α + 5) (fun o ob S ho hS => trivial) ?_ |>.imp ?_ ?_
    · intro hp S A hS hA pS pA
      have pA : A = (SetI.address a).toSet := pA
      subst pA
      have e1 := interCalls_address F (p := Prefix.ofAddress a) rfl hS.inv
      have e2 : (SetI.address a).toSet.trie = SetNode.fromPrefix (Prefix.ofAddress a) := rfl
      simp only [SCall.work, e2]
      omega
    · simp only [SCall.arg, SetArg.steps]; omega
    · simp only [SCall.arg, SetArg.allocs]; omega

end

/-- the snapshot `y1` and the contents of the `Set_` in `srun2`: one and two prefixes -/
theorem Sample.y1_made : ∃ S, Sample.y1.Holds Sample.t2.mem S ∧ S.MadeOf 2 := by
  obtain ⟨S, h, _⟩ := C64_set (by decide) Sample.t2_reach (x := Sample.y1)
    (Or.inr ⟨2, .set Sample.y1, by rw [Sample.t2_log]; simp [Sample.slog1], List.mem_singleton_self _⟩)
  refine ⟨S, h, h.2.1.madeOf ?_⟩
  have d : Den Sample.t2.mem Sample.y1.trie (Trie.node _ _ _ _ _ .nil .nil) := .node rfl .nil .nil
  rw [h.1.functional d]
  decide

set_option maxRecDepth 100000 in
theorem Sample.ob_made : ∃ S, (⟨some 2, .nil⟩ : Obj Empty).Holds Sample.t2.mem S ∧ S.MadeOf 2 := by
  obtain ⟨S, h, _⟩ := C64_set_object (by decide) Sample.t2_reach (k := 44) (o := 0) (ob := ⟨some 2, .nil⟩)
    (by rw [Sample.t2_log]; rfl)
  refine ⟨S, h, h.2.1.madeOf ?_⟩
  have d : Den Sample.t2.mem (some 2) (Trie.node _ _ _ _ _ (Trie.node _ _ _ _ _ .nil .nil) (Trie.node _ _ _ _ _ .nil .nil)) :=
    .node rfl (.node rfl .nil .nil) (.node rfl .nil .nil)
  rw [h.1.functional d]
  decide

/-- `y1.Union(set)` where both sets are unions of at most two prefixes, and `Union` with a prefix -/
example : ∃ r, Run .init r Sample.t2 ∧ numSteps 11 r ≤ 300 * 33 * 35 ∧ numSteps 11 r ≤ 3196 ∧ numSteps 6 r ≤ 160 * 1 * 33 + 48 * 32 + 16 ∧
    numSteps 5 r ≤ 300 * 33 * 35 := by
  obtain ⟨r, hr⟩ := Sample.t2_reach.run
  have hN : ∀ ob, SState.WorksOn Sample.t2 11 (.union (.set Sample.y1) (.obj (some 0))) ob → ∃ S : IPSet (BitVec 32), ob.Holds Sample.t2.mem S ∧ S.MadeOf 2 := by
    rintro ob (h | ⟨o, h⟩)
    · cases List.mem_singleton.mp h; exact Sample.y1_made
    · rw [Sample.t2_log] at h
      simp [Sample.slog1, Sample.slog2] at h
      rw [h.2]; exact Sample.ob_made
  have hN5 : ∀ ob, SState.WorksOn Sample.t2 5 (.contains (.obj (some 0)) Sample.b3) ob → ∃ S : IPSet (BitVec 32), ob.Holds Sample.t2.mem S ∧ S.MadeOf 2 := by
    rintro ob (h | ⟨o, h⟩)
    · cases h
    · rw [Sample.t2_log] at h
      simp [Sample.slog1, Sample.slog2] at h
      rw [h.2]; exact Sample.ob_made
  have hs : .start 11 (.union (.set Sample.y1) (.obj (some 0))) ∈ Sample.t2.log := by rw [Sample.t2_log]; simp [Sample.slog2]
  refine ⟨r, hr, (C65_linear (by decide) hr hs hN).1, (C65_union (by decide) hr hs (Or.inr ⟨_, _, rfl⟩) hN).1, ?_, ?_⟩
  · exact (C65_small (by decide) hr (i := 6) (c := .union (.set Sample.y1) Sample.b2) (by rw [Sample.t2_log]; simp [Sample.slog2]) rfl
      ((C65_arguments _).2.1 _ Sample.b2_ok)).1
  · exact (C65_linear (by decide) hr (i := 5) (c := .contains (.obj (some 0)) Sample.b3) (by rw [Sample.t2_log]; simp [Sample.slog1]) hN5).1

/-- looking at a set, and one address -/
def Sample.srun9 : List (Sched Sample.SL) :=
  [.call (.equal Sample.y1 Sample.y1), .finish 12, .call (.contains (.obj (some 0)) Sample.b1), .finish 13,
   .call (.intersection (.set Sample.y1) Sample.b1), .finish 14]
set_option maxRecDepth 100000 in
theorem Sample.srun9_ok : (exec Sample.t2 Sample.srun9).isSome := rfl
def Sample.t9 : State Sample.SL := after Sample.t2 Sample.srun9 Sample.srun9_ok
set_option maxRecDepth 100000 in
theorem Sample.t9_log : Sample.t9.log = Sample.t2.log ++ [.start 12 (.equal Sample.y1 Sample.y1), .done 12 (.bool true),
    .start 13 (.contains (.obj (some 0)) Sample.b1), .act 13 (.load 0 ⟨some 2, .nil⟩), .done 13 (.bool true),
    .start 14 (.intersection (.set Sample.y1) Sample.b1), .done 14 (.set ⟨some 10, .nil⟩)] := rfl

theorem Sample.t9_reach : Sample.t9.Reach := by
  refine Sample.t2_reach.steps (after_steps Sample.srun9_ok ?_)
  have hx : Sample.t2.Known Sample.y1 :=
    Or.inr ⟨2, .set Sample.y1, by rw [Sample.t2_log]; simp [Sample.slog1], List.mem_singleton_self _⟩
  intro c hc
  simp only [Sample.srun9, List.mem_cons, reduceCtorEq, List.not_mem_nil, or_false, false_or] at hc
  rcases hc with h | h | h <;> cases h
  · refine ⟨trivial, fun x h => ?_⟩
    have : x = Sample.y1 := by simpa [Sample.SL, setLib, SCall.vals] using h
    rw [this]; exact hx
  · exact ⟨trivial, fun x h => (by cases h)⟩
  · refine ⟨trivial, fun x h => ?_⟩
    have : x = Sample.y1 := by simpa [Sample.SL, setLib, SCall.vals, SetRecv.vals, Sample.b1, SetArg.vals] using h
    rw [this]; exact hx

example : ∃ r, Run .init r Sample.t9 ∧ numSteps 12 r ≤ 4 * 1 + 5 ∧ numSteps 13 r ≤ 18 * 32 + 24 ∧ numSteps 14 r ≤ 56 * 32 + 75 := by
  obtain ⟨r, hr⟩ := Sample.t9_reach.run
  refine ⟨r, hr, ?_, ?_, ?_⟩
  · refine (C65_looks (N := 1) (by decide) hr (i := 12) (c := .equal Sample.y1 Sample.y1) (by rw [Sample.t9_log]; simp) rfl ?_).1
    rintro ob (h | ⟨o, h⟩)
    · have : ob = Sample.y1 := by simpa [SCall.vals] using h
      rw [this]
      obtain ⟨S, h, _⟩ := C64_set (by decide) Sample.t9_reach (x := Sample.y1)
        (Or.inr ⟨2, .set Sample.y1, by rw [Sample.t9_log, Sample.t2_log]; simp [Sample.slog1], List.mem_singleton_self _⟩)
      refine ⟨S, h, h.2.1.madeOf ?_⟩
      have d : Den Sample.t9.mem Sample.y1.trie (Trie.node _ _ _ _ _ .nil .nil) := .node rfl .nil .nil
      rw [h.1.functional d]
      decide
    · rw [Sample.t9_log, Sample.t2_log] at h
      simp [Sample.slog1, Sample.slog2] at h
  · exact ((C65_address (by decide) hr (i := 13) (x := .obj (some 0)) (a := 0x0a000001#32)).1 (by rw [Sample.t9_log]; simp [Sample.b1])).1
  · exact ((C65_address (by decide) hr (i := 14) (x := .set Sample.y1) (a := 0x0a000001#32)).2 (by rw [Sample.t9_log]; simp [Sample.b1])).1

end Addrs

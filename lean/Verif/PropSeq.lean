import Verif.SeqTable
import Verif.SeqSet
/-
  Property C58: a sequential program cannot tell tables and sets from plain values.
-/
set_option linter.unusedSectionVars false
namespace Addrs
open GoWord LawfulGoWord Heap

/-! ### such a program is an execution of the machine -/

/-- what the calls have returned, in order -/
def returned {D C V : Type} (log : List (Entry D C V)) : List V :=
  log.filterMap fun
    | .done _ v => some v
    | _ => none

section
open Prog
variable {α D : Type} {L : Lib α D}

theorem returned_snoc {D C V : Type} (log : List (Entry D C V)) (e : Entry D C V) :
    returned (log ++ [e]) = returned log ++ returned [e] := by simp [returned]

/-- a call that is run alone adds one result -/
theorem State.solo_returned (P : Prog α D L.Val) {s : State L} {i : Nat} (hi : s.threads[i]? = some (some P)) {x : L.Val} {m' : Mem α D}
    (hr : P.run s.memory = (.ret x, m')) :
    ∃ n, (State.solo i n s).memory = m' ∧ returned (State.solo i n s).log = returned s.log ++ [x] ∧
      (.done i x) ∈ (State.solo i n s).log ∧ (State.solo i n s).threads = s.threads.set i none := by
  induction P generalizing s with
  | ret v =>
    cases hr
    refine ⟨1, ?_⟩
    rw [State.solo_act (by rw [State.act_thread hi]; rfl)]
    exact ⟨rfl, returned_snoc _ _, List.mem_append_right _ (List.mem_singleton_self _), rfl⟩
  | panic => cases hr
  | stuck => cases hr
  | alloc c k ih =>
    obtain ⟨n, hn⟩ := ih s.heap.length (s := { s.cont i (k s.heap.length) with heap := s.heap ++ [c] }) (State.cont_thread hi) hr
    refine ⟨n + 1, ?_⟩
    rw [State.solo_act (by rw [State.act_thread hi]; rfl)]
    refine ⟨hn.1, hn.2.1, hn.2.2.1, hn.2.2.2.trans ?_⟩
    simp [State.cont]
  | newObj ob k ih =>
    obtain ⟨n, hn⟩ := ih s.objs.length (s := State.note { s.cont i (k s.objs.length) with objs := s.objs ++ [ob] }
      (.act i (.made s.objs.length ob))) (State.cont_thread hi) hr
    refine ⟨n + 1, ?_⟩
    rw [State.solo_act (by rw [State.act_thread hi]; rfl)]
    refine ⟨hn.1, hn.2.1.trans ?_, hn.2.2.1, hn.2.2.2.trans ?_⟩
    · simp [State.note, State.cont, returned]
    · simp [State.note, State.cont]
  | read p k ih =>
    simp only [run, State.memory] at hr
    cases hp : s.heap[p]? with
    | none => rw [hp] at hr; cases hr
    | some c =>
      rw [hp] at hr
      obtain ⟨n, hn⟩ := ih c (s := s.cont i (k c)) (State.cont_thread hi) hr
      refine ⟨n + 1, ?_⟩
      rw [State.solo_act (by rw [State.act_thread hi, State.actP, hp])]
      refine ⟨hn.1, hn.2.1, hn.2.2.1, hn.2.2.2.trans ?_⟩
      simp [State.cont]
  | write p c k ih =>
    by_cases hp : p < s.heap.length
    · have e : (write p c k).run s.memory = k.run ⟨s.heap.set p c, s.objs⟩ := if_pos hp
      rw [e] at hr
      obtain ⟨n, hn⟩ := ih (s := { s.cont i k with heap := s.heap.set p c }) (State.cont_thread hi) hr
      refine ⟨n + 1, ?_⟩
      rw [State.solo_act (by rw [State.act_thread hi, State.actP, if_pos hp])]
      refine ⟨hn.1, hn.2.1, hn.2.2.1, hn.2.2.2.trans ?_⟩
      simp [State.cont]
    · have e : (write p c k).run s.memory = (.panic, s.memory) := if_neg hp
      rw [e] at hr; cases hr
  | load o k ih =>
    simp only [run, State.memory] at hr
    cases hp : s.objs[o]? with
    | none => rw [hp] at hr; cases hr
    | some c =>
      rw [hp] at hr
      obtain ⟨n, hn⟩ := ih c (s := (s.cont i (k c)).note (.act i (.load o c))) (State.cont_thread hi) hr
      refine ⟨n + 1, ?_⟩
      rw [State.solo_act (by rw [State.act_thread hi, State.actP, hp])]
      refine ⟨hn.1, hn.2.1.trans ?_, hn.2.2.1, hn.2.2.2.trans ?_⟩
      · simp [State.note, State.cont, returned]
      · simp [State.note, State.cont]
  | cas o old new k ih =>
    simp only [run, State.memory] at hr
    cases hp : s.objs[o]? with
    | none => rw [hp] at hr; cases hr
    | some ob =>
      rw [hp] at hr
      by_cases ho : ob.trie = old
      · simp only [if_pos ho] at hr
        obtain ⟨n, hn⟩ := ih true (s := State.note { s.cont i (k true) with objs := s.objs.set o { ob with trie := new } }
          (.act i (.swap o old new))) (State.cont_thread hi) hr
        refine ⟨n + 1, ?_⟩
        rw [State.solo_act (by rw [State.act_thread hi, State.actP, hp]; simp only [if_pos ho]; rfl)]
        refine ⟨hn.1, hn.2.1.trans ?_, hn.2.2.1, hn.2.2.2.trans ?_⟩
        · simp [State.note, State.cont, returned]
        · simp [State.note, State.cont]
      · simp only [if_neg ho] at hr
        obtain ⟨n, hn⟩ := ih false (s := (s.cont i (k false)).note (.fail i o old)) (State.cont_thread hi) hr
        refine ⟨n + 1, ?_⟩
        rw [State.solo_act (by rw [State.act_thread hi, State.actP, hp]; simp only [if_neg ho]; rfl)]
        refine ⟨hn.1, hn.2.1.trans ?_, hn.2.2.1, hn.2.2.2.trans ?_⟩
        · simp [State.note, State.cont, returned]
        · simp [State.note, State.cont]

/-- a call that is made when nothing else runs -/
theorem State.call_alone {s : State L} {c : L.Call} (hc : s.CanStart c) (hidle : ∀ P, some P ∉ s.threads) {x : L.Val} {m' : Mem α D}
    (hr : (L.code c).run s.memory = (.ret x, m')) :
    ∃ t, s.Steps t ∧ t.memory = m' ∧ returned t.log = returned s.log ++ [x] ∧ (∀ y ∈ L.outs x, t.Known y) ∧ ∀ P, some P ∉ t.threads := by
  have hi : (s.spawn c).threads[s.threads.length]? = some (some (L.code c)) := by simp [State.spawn]
  obtain ⟨n, h1, h2, h3, h4⟩ := State.solo_returned (L.code c) hi hr
  refine ⟨_, State.Steps.trans (.step _ _ .refl (.spawn c hc)) (State.steps_solo _ _ n), h1, h2.trans ?_,
    fun y hy => Or.inr ⟨_, _, h3, hy⟩, ?_⟩
  · simp [State.spawn, returned]
  · intro P hP
    rw [h4] at hP
    simp [State.spawn] at hP
    exact hidle P hP

end

section
variable {α D σ : Type} [LawfulGoWord α] [Inhabited D] [Comparable D] {F : Nat}

/-- A sequential program that uses tables (several variables of type `Table_`, any number of `Table`s, frozen,
    thawed, mapped, aggregated, compared in any order), run on shared nodes and mutable objects, sees exactly
    what it would see if every `Table_` were a variable of its own and every `Table` a value of its own; no
    call panics or runs for ever. -/
theorem C58_tables (hF : 2 * width α + 3 ≤ F) (p : TProgram α D σ) (hp : p.Legal) (n : Nat) :
    ∃ r, p.onHeap F n = some r ∧ r.seen = (p.ideally n).2 ∧ (p.ideally n).1.Matches r.mem.sight r.regs := by
  induction n with
  | zero =>
    refine ⟨_, rfl, rfl, { nvars := rfl, vars := fun h _ => (by simp [Mem.sight] at h), nvals := rfl, vals := ?_ }⟩
    intro t ob a h1 h2
    cases t with
    | zero => cases h1; cases h2; exact ⟨⟨.nil, rfl⟩, .empty, rfl⟩
    | succ t => cases h1
  | succ n ih =>
    obtain ⟨r, h1, h2, h3⟩ := ih
    simp only [TProgram.onHeap, h1, TProgram.ideally, h2]
    cases hc : p (p.ideally n).2 with
    | none => exact ⟨r, rfl, h2, h3⟩
    | some c =>
      obtain ⟨x, m', e1, e2, e3⟩ := TCmd.step_ok hF h3 (hp n c hc)
      simp only [e1]
      exact ⟨_, rfl, by simp only [e2], e3⟩

/-- It is an execution of the machine in which one call is made after the other. -/
theorem C58_tables_machine (hF : 2 * width α + 3 ≤ F) (p : TProgram α D σ) (hp : p.Legal) (n : Nat) :
    ∃ (r : TRun α D σ) (s : State (tableLib α D σ F)), p.onHeap F n = some r ∧ State.init.Steps s ∧ s.memory = r.mem ∧
      (returned s.log).map TVal.seen = r.seen ∧ (∀ x ∈ r.regs, s.Known x) ∧ ∀ P, some P ∉ s.threads := by
  induction n with
  | zero =>
    refine ⟨_, State.init, rfl, .refl, rfl, rfl, fun x hx => ?_, fun P hP => by cases hP⟩
    rw [List.mem_singleton.mp hx]; exact Or.inl rfl
  | succ n ih =>
    obtain ⟨r, s, h1, h2, h3, h4, h5, h6⟩ := ih
    obtain ⟨r', h1', h7, h8⟩ := C58_tables hF p hp n
    rw [h1] at h1'
    cases h1'
    cases hc : p r.seen with
    | none =>
      simp only [TProgram.onHeap, h1, hc]
      exact ⟨r, s, rfl, h2, h3, h4, h5, h6⟩
    | some c =>
      have hl := hp n c (h7 ▸ hc)
      obtain ⟨x, m', e1, e2, e3⟩ := TCmd.step_ok hF h8 hl
      obtain ⟨p1, p2, p3⟩ := TCmd.pre_of_legal h8 hl
      have hv : ∀ y ∈ (c.call r.regs).vals, s.Known y := by
        have : ∀ t, s.Known (r.regs.getD t .zero) := by
          intro t
          rw [List.getD_eq_getElem?_getD]
          cases e : r.regs[t]? with
          | none => exact Or.inl rfl
          | some y => exact h5 y (List.mem_of_getElem? e)
        intro y hy
        cases c <;> simp only [TCmd.call, TCall.vals, List.mem_cons, List.not_mem_nil, or_false] at hy
        all_goals first
          | (rw [hy]; exact this _)
          | (rcases hy with rfl | rfl <;> exact this _)
          | exact hy.elim
      have hr : ((tableLib α D σ F).code (c.call r.regs)).run s.memory = (.ret x, m') := by rw [h3]; exact e1
      have ho : s.objs.length = r.mem.objs.length := congrArg (fun m => m.objs.length) h3
      obtain ⟨t, t1, t2, t3, t4, t5⟩ := State.call_alone (c := c.call r.regs) ⟨p1, fun o ho' => by rw [ho]; exact p3 o ho', hv⟩ h6 hr
      refine ⟨⟨m', r.regs ++ x.outs, r.seen ++ [x.seen]⟩, t, ?_, h2.trans t1, t2, ?_, ?_, t5⟩
      · simp only [TProgram.onHeap, h1, hc, e1]
      · rw [t3]
        exact (List.map_append ..).trans (by rw [h4]; rfl)
      · intro y hy
        rcases List.mem_append.mp hy with hy | hy
        · exact t1.known (h5 y hy)
        · exact t4 y hy

end

section
variable {α σ : Type} [HeapFamily α] {F : Nat}

/-- the same for sets -/
theorem C58_sets (hF : setBound α ≤ F) (p : SProgram α σ) (hp : SProgram.Legal p) (n : Nat) :
    ∃ r, SProgram.onHeap F p n = some r ∧ r.seen = (SProgram.ideally p n).2 ∧ (SProgram.ideally p n).1.Matches r.mem.sight r.regs := by
  induction n with
  | zero =>
    refine ⟨_, rfl, rfl, { nvars := rfl, vars := fun h _ => (by simp [Mem.sight] at h), nvals := rfl, vals := ?_ }⟩
    intro t ob a h1 h2
    cases t with
    | zero => cases h1; cases h2; exact ⟨.nil, .empty, rfl⟩
    | succ t => cases h1
  | succ n ih =>
    obtain ⟨r, h1, h2, h3⟩ := ih
    simp only [SProgram.onHeap, h1, SProgram.ideally, h2]
    cases hc : p (SProgram.ideally p n).2 with
    | none => exact ⟨r, rfl, h2, h3⟩
    | some c =>
      obtain ⟨x, m', e1, e2, e3⟩ := SCmd.step_ok hF h3 (hp n c hc)
      simp only [e1]
      exact ⟨_, rfl, by simp only [e2], e3⟩

/-- It is an execution of the machine in which one call is made after the other. -/
theorem C58_sets_machine (hF : setBound α ≤ F) (p : SProgram α σ) (hp : SProgram.Legal p) (n : Nat) :
    ∃ (r : SRun α σ) (s : State (setLib α σ F)), SProgram.onHeap F p n = some r ∧ State.init.Steps s ∧ s.memory = r.mem ∧
      (returned s.log).map SVal.seen = r.seen ∧ (∀ x ∈ r.regs, s.Known x) ∧ ∀ P, some P ∉ s.threads := by
  induction n with
  | zero =>
    refine ⟨_, State.init, rfl, .refl, rfl, rfl, fun x hx => ?_, fun P hP => by cases hP⟩
    rw [List.mem_singleton.mp hx]; exact Or.inl rfl
  | succ n ih =>
    obtain ⟨r, s, h1, h2, h3, h4, h5, h6⟩ := ih
    obtain ⟨r', h1', h7, h8⟩ := C58_sets hF p hp n
    rw [h1] at h1'
    cases h1'
    cases hc : p r.seen with
    | none =>
      simp only [SProgram.onHeap, h1, hc]
      exact ⟨r, s, rfl, h2, h3, h4, h5, h6⟩
    | some c =>
      have hl := hp n c (h7 ▸ hc)
      obtain ⟨x, m', e1, e2, e3⟩ := SCmd.step_ok hF h8 hl
      obtain ⟨p1, p2, p3⟩ := SCmd.pre_of_legal h8 hl
      have hv : ∀ y ∈ (c.call r.regs).vals, s.Known y := by
        have : ∀ t, s.Known (r.regs.getD t .zero) := by
          intro t
          rw [List.getD_eq_getElem?_getD]
          cases e : r.regs[t]? with
          | none => exact Or.inl rfl
          | some y => exact h5 y (List.mem_of_getElem? e)
        have ha : ∀ a : SArg α, ∀ y ∈ (a.call r.regs).vals, s.Known y := by
          intro a y hy
          cases a <;> simp only [SArg.call, SetArg.vals, List.mem_cons, List.not_mem_nil, or_false] at hy
          rw [hy]; exact this _
        have hr : ∀ a : SRecv, ∀ y ∈ (a.call r.regs).vals, s.Known y := by
          intro a y hy
          cases a <;> simp only [SRecv.call, SetRecv.vals, List.mem_cons, List.not_mem_nil, or_false] at hy
          rw [hy]; exact this _
        intro y hy
        cases c <;> simp only [SCmd.call, SCall.vals, List.mem_cons, List.not_mem_nil, or_false, List.mem_append] at hy
        all_goals first
          | exact hr _ _ hy
          | exact ha _ _ hy
          | exact hy.elim
          | (rw [hy]; exact this _)
          | exact hy.elim (hr _ _) (ha _ _)
          | exact hy.elim (fun e => e ▸ this _) (ha _ _)
          | (rcases hy with rfl | rfl <;> exact this _)
      have hr : ((setLib α σ F).code (c.call r.regs)).run s.memory = (.ret x, m') := by rw [h3]; exact e1
      have ho : s.objs.length = r.mem.objs.length := congrArg (fun m => m.objs.length) h3
      obtain ⟨t, t1, t2, t3, t4, t5⟩ := State.call_alone (c := c.call r.regs) ⟨p1, fun o ho' => by rw [ho]; exact p3 o ho', hv⟩ h6 hr
      refine ⟨⟨m', r.regs ++ x.outs, r.seen ++ [x.seen]⟩, t, ?_, h2.trans t1, t2, ?_, ?_, t5⟩
      · simp only [SProgram.onHeap, h1, hc, e1]
      · rw [t3]
        exact (List.map_append ..).trans (by rw [h4]; rfl)
      · intro y hy
        rcases List.mem_append.mp hy with hy | hy
        · exact t1.known (h5 y hy)
        · exact t4 y hy

end
/-! ### concrete programs -/

/-- a program that makes the given calls -/
def TProgram.ofList {α D σ : Type} (l : List (TCmd α D σ)) : TProgram α D σ := fun h => l[h.length]?
def SProgram.ofList {α σ : Type} [HeapFamily α] (l : List (SCmd α σ)) : SProgram α σ := fun h => l[h.length]?

/-- how many variables and values a call adds -/
def TCmd.adds {α D σ : Type} : TCmd α D σ → Nat × Nat
  | new_ | newCustom _ | thaw _ => (1, 0)
  | freeze _ | map _ _ _ | aggregate _ => (0, 1)
  | _ => (0, 0)
def SCmd.adds {α σ : Type} : SCmd α σ → Nat × Nat
  | new_ | thaw _ => (1, 0)
  | freeze _ | union _ _ | intersection _ _ | difference _ _ => (0, 1)
  | _ => (0, 0)

section
variable {α D σ : Type} [LawfulGoWord α] [Inhabited D] [DecidableEq D]

theorem TCmd.ideal_adds (w : TWorld α D) (c : TCmd α D σ) :
    (c.ideal w).2.vars.length = w.vars.length + c.adds.1 ∧ (c.ideal w).2.vals.length = w.vals.length + c.adds.2 := by
  cases c with
  | op h o => cases h <;> simp [ideal, TWorld.assign, adds]
  | freeze h => cases h <;> simp [ideal, TWorld.got, adds]
  | _ => simp [ideal, TWorld.declare, TWorld.got, adds]

theorem TProgram.counts (l : List (TCmd α D σ)) (n : Nat) :
    (TProgram.ideally (.ofList l) n).2.length = (l.take n).length ∧
    (TProgram.ideally (.ofList l) n).1.vars.length = ((l.take n).map fun c => c.adds.1).sum ∧
    (TProgram.ideally (.ofList l) n).1.vals.length = 1 + ((l.take n).map fun c => c.adds.2).sum := by
  induction n with
  | zero => simp [TProgram.ideally]
  | succ n ih =>
    obtain ⟨h1, h2, h3⟩ := ih
    have e : TProgram.ofList l (TProgram.ideally (.ofList l) n).2 = l[n]? := by
      rw [TProgram.ofList, h1, List.length_take]
      rcases Nat.le_total n l.length with h | h
      · rw [Nat.min_eq_left h]
      · rw [Nat.min_eq_right h, List.getElem?_eq_none (Nat.le_refl _), List.getElem?_eq_none h]
    simp only [TProgram.ideally, e]
    cases hn : l[n]? with
    | none =>
      have hl : l.length ≤ n := List.getElem?_eq_none_iff.mp hn
      rw [List.take_of_length_le (by omega)]
      rw [List.take_of_length_le hl] at h1 h2 h3
      exact ⟨h1, h2, h3⟩
    | some c =>
      have ht : l.take (n + 1) = l.take n ++ [c] := by rw [List.take_add_one, hn]; rfl
      obtain ⟨a1, a2⟩ := TCmd.ideal_adds (TProgram.ideally (.ofList l) n).1 c
      rw [ht]
      simp only [List.length_append, List.map_append, List.sum_append, a1, a2, h1, h2, h3]
      simp [Nat.add_assoc]

/-- the calls of such a program -/
theorem TProgram.legal_ofList (l : List (TCmd α D σ))
    (h : ∀ n c (w : TWorld α D), l[n]? = some c → w.vars.length = ((l.take n).map fun c => c.adds.1).sum →
      w.vals.length = 1 + ((l.take n).map fun c => c.adds.2).sum → c.Legal w) : TProgram.Legal (.ofList l) := by
  intro n c hc
  obtain ⟨h1, h2, h3⟩ := TProgram.counts l n
  refine h n c _ ?_ h2 h3
  rw [TProgram.ofList, h1, List.length_take] at hc
  rcases Nat.le_total n l.length with hl | hl
  · rwa [Nat.min_eq_left hl] at hc
  · rw [Nat.min_eq_right hl, List.getElem?_eq_none (Nat.le_refl _)] at hc; cases hc

end

section
variable {α σ : Type} [HeapFamily α]

theorem SCmd.ideal_adds (w : SWorld (IPSet α)) (c : SCmd α σ) :
    (c.ideal w).2.vars.length = w.vars.length + c.adds.1 ∧ (c.ideal w).2.vals.length = w.vals.length + c.adds.2 := by
  cases c with
  | insert h a late => cases h <;> simp [ideal, SWorld.assign, adds]
  | remove h a late => cases h <;> simp [ideal, SWorld.assign, adds]
  | _ => simp [ideal, SWorld.declare, SWorld.got, adds]

theorem SProgram.counts (l : List (SCmd α σ)) (n : Nat) :
    (SProgram.ideally (.ofList l) n).2.length = (l.take n).length ∧
    (SProgram.ideally (.ofList l) n).1.vars.length = ((l.take n).map fun c => c.adds.1).sum ∧
    (SProgram.ideally (.ofList l) n).1.vals.length = 1 + ((l.take n).map fun c => c.adds.2).sum := by
  induction n with
  | zero => simp [SProgram.ideally]
  | succ n ih =>
    obtain ⟨h1, h2, h3⟩ := ih
    have e : SProgram.ofList l (SProgram.ideally (.ofList l) n).2 = l[n]? := by
      rw [SProgram.ofList, h1, List.length_take]
      rcases Nat.le_total n l.length with h | h
      · rw [Nat.min_eq_left h]
      · rw [Nat.min_eq_right h, List.getElem?_eq_none (Nat.le_refl _), List.getElem?_eq_none h]
    simp only [SProgram.ideally, e]
    cases hn : l[n]? with
    | none =>
      have hl : l.length ≤ n := List.getElem?_eq_none_iff.mp hn
      rw [List.take_of_length_le (by omega)]
      rw [List.take_of_length_le hl] at h1 h2 h3
      exact ⟨h1, h2, h3⟩
    | some c =>
      have ht : l.take (n + 1) = l.take n ++ [c] := by rw [List.take_add_one, hn]; rfl
      obtain ⟨a1, a2⟩ := SCmd.ideal_adds (SProgram.ideally (.ofList l) n).1 c
      rw [ht]
      simp only [List.length_append, List.map_append, List.sum_append, a1, a2, h1, h2, h3]
      simp [Nat.add_assoc]

/-- the calls of such a program -/
theorem SProgram.legal_ofList (l : List (SCmd α σ))
    (h : ∀ n c (w : SWorld (IPSet α)), l[n]? = some c → w.vars.length = ((l.take n).map fun c => c.adds.1).sum →
      w.vals.length = 1 + ((l.take n).map fun c => c.adds.2).sum → c.Legal w) : SProgram.Legal (.ofList l) := by
  intro n c hc
  obtain ⟨h1, h2, h3⟩ := SProgram.counts l n
  refine h n c _ ?_ h2 h3
  rw [SProgram.ofList, h1, List.length_take] at hc
  rcases Nat.le_total n l.length with hl | hl
  · rwa [Nat.min_eq_left hl] at hc
  · rw [Nat.min_eq_right hl, List.getElem?_eq_none (Nat.le_refl _)] at hc; cases hc

end

namespace Sample
/-- two variables share nodes; a frozen table survives changes of both -/
def tprog : TProgram (BitVec 32) Nat Unit := TProgram.ofList [
  .new_,
  .op (some 0) (.insertOrUpdate (.prefix p8) 1),
  .freeze (some 0),
  .thaw 1,
  .op (some 1) (.insertOrUpdate (.prefix p16) 2),
  .op (some 0) (.remove (.prefix p8)),
  .op (some 0) (.get (.prefix p8)),
  .xget 1 (.prefix p8),
  .longest (some 1) (.prefix ⟨0x0a010203#32, 32⟩)]

theorem tprog_legal : tprog.Legal := by
  refine TProgram.legal_ofList _ ?_
  intro n c w h h1 h2
  have v : ∀ {k m : Nat}, k < m → ∀ i, some k = some i → i < m := fun h i e => by cases e; exact h
  match n with
  | 0 => cases h; trivial
  | 1 => cases h; exact ⟨v (by rw [h1]; decide), fun _ => ⟨by show p8.WF; decide, by simp⟩⟩
  | 2 => cases h; exact v (by rw [h1]; decide)
  | 3 => cases h; show 1 < w.vals.length; rw [h2]; decide
  | 4 => cases h; exact ⟨v (by rw [h1]; decide), fun _ => ⟨by show p16.WF; decide, by simp⟩⟩
  | 5 => cases h; exact ⟨v (by rw [h1]; decide), fun _ => ⟨by show p8.WF; decide, by simp⟩⟩
  | 6 => cases h; exact ⟨v (by rw [h1]; decide), fun e => by cases e⟩
  | 7 => cases h; show 1 < w.vals.length; rw [h2]; decide
  | 8 => cases h; exact v (by rw [h1]; decide)
  | n + 9 => cases h

/-- what it sees on the heap -/
example : ∃ r, tprog.onHeap 67 9 = some r ∧ r.seen.drop 5 =
    [.result (.removed true), .result (.found 0 false), .result (.found 1 true), .match (2, true, p16)] := by
  obtain ⟨r, h1, h2, _⟩ := C58_tables (F := 67) (by decide) tprog tprog_legal 9
  refine ⟨r, h1, ?_⟩
  rw [h2]
  rfl

/-- a set that is an argument of its own change, and a `Set` that survives it -/
def sprog : SProgram (BitVec 32) Unit := SProgram.ofList [
  .new_,
  .insert (some 0) (.prefix p8) false,
  .freeze (some 0),
  .remove (some 0) (.prefix p16) true,
  .remove (some 0) (.obj (some 0)) true,
  .isEmpty (.obj (some 0)),
  .contains (.set 1) (.prefix p16)]

theorem sprog_legal : SProgram.Legal sprog := by
  refine SProgram.legal_ofList _ ?_
  intro n c w h h1 h2
  have v : ∀ {k m : Nat}, k < m → ∀ i, some k = some i → i < m := fun h i e => by cases e; exact h
  match n with
  | 0 => cases h; trivial
  | 1 => cases h; exact ⟨by simp, v (by rw [h1]; decide), trivial, by show p8.WF; decide⟩
  | 2 => cases h; exact v (by rw [h1]; decide)
  | 3 => cases h; exact ⟨by simp, v (by rw [h1]; decide), trivial, by show p16.WF; decide⟩
  | 4 => cases h; exact ⟨by simp, v (by rw [h1]; decide), v (by rw [h1]; decide), trivial⟩
  | 5 => cases h; exact v (by rw [h1]; decide)
  | 6 => cases h; exact ⟨by show 1 < w.vals.length; rw [h2]; decide, trivial, by show p16.WF; decide⟩
  | n + 7 => cases h

/-- what it sees on the heap -/
example : ∃ r, SProgram.onHeap 170 sprog 7 = some r ∧ r.seen.drop 5 = [.bool true, .bool true] := by
  obtain ⟨r, h1, h2, _⟩ := C58_sets (F := 170) (by decide) sprog sprog_legal 7
  refine ⟨r, h1, ?_⟩
  rw [h2]
  have e1 : ∀ S : IPSet (BitVec 32), S.Reachable → (S.difference (.set S)).isEmpty = true := by
    intro S hS
    rw [C12_isEmpty _ (.difference _ _ hS hS)]
    intro a h
    have := (C11_difference S (.set S) hS hS a).mp h
    exact this.2 this.1
  have r8 : (SetI.prefix p8 : SetI (BitVec 32)).toSet.Reachable := .prefix _ (by decide)
  have r16 : (SetI.prefix p16 : SetI (BitVec 32)).toSet.Reachable := .prefix _ (by decide)
  have r1 := IPSet.Reachable.union _ _ .empty r8
  have e2 := e1 _ (.difference _ _ r1 r16)
  have e3 : (IPSet.union (IPSet.empty (α := BitVec 32)) (.set (SetI.prefix p8).toSet)).contains (.set (SetI.prefix p16).toSet) = true := by
    rw [C12_contains _ (.set _) r1 r16]
    intro a ha
    rw [C09_union _ (.set _) .empty r8]
    right
    rw [show (SetI.set (SetI.prefix p8).toSet : SetI (BitVec 32)).toSet = (SetI.prefix p8).toSet from rfl, C08_prefix _ (by decide)]
    rw [show (SetI.set (SetI.prefix p16).toSet : SetI (BitVec 32)).toSet = (SetI.prefix p16).toSet from rfl, C08_prefix _ (by decide)] at ha
    simp only [InPrefix] at ha ⊢
    have b8 : blockSize (BitVec 32) p8.len = 256 * 65536 := by decide
    have b16 : blockSize (BitVec 32) p16.len = 65536 := by decide
    rw [b16] at ha
    rw [b8, Nat.mul_comm, ← Nat.div_div_eq_div_mul, ← Nat.div_div_eq_div_mul, ← ha]
    decide
  have pair : ∀ {a b : Bool}, a = true → b = true → [(.bool a : SSeen (BitVec 32) Unit), .bool b] = [.bool true, .bool true] := by
    intro a b h1 h2; rw [h1, h2]
  exact pair e2 e3

end Sample
end Addrs

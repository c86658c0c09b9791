import Verif.Exec
import Verif.TableLin
import Verif.SetLin
/-
  Concrete executions, which show that the hypotheses of the properties can be met.
-/
set_option linter.unusedSectionVars false
namespace Addrs
open GoWord LawfulGoWord
namespace Sample

/-! ### tables -/

/-- tables of numbers with IPv4 prefixes -/
abbrev TL := tableLib (BitVec 32) Nat Unit 67
/-- 10.0.0.0/8 -/
def c1 : PrefixI (BitVec 32) := .prefix ⟨0x0a000000#32, 8⟩
/-- 10.1.0.0/16 -/
def c2 : PrefixI (BitVec 32) := .prefix ⟨0x0a010000#32, 16⟩
/-- 11.0.0.0/8 -/
def c3 : PrefixI (BitVec 32) := .prefix ⟨0x0b000000#32, 8⟩
theorem c1_wf : c1.toPrefix.WF := by decide
theorem c2_wf : c2.toPrefix.WF := by decide
theorem c3_wf : c3.toPrefix.WF := by decide

/-- A table is made, gets an entry, and a snapshot is taken; then two goroutines write at the same time, so
    that one of them (thread 3) panics; then there is a read. -/
def run1 : List (Sched TL) :=
  [.call .new_, .finish 0, .call (.op (some 0) (.insert c1 7)), .finish 1, .call (.freeze (some 0)), .finish 2,
   .call (.op (some 0) (.insert c2 8)), .step 3, .step 3, .call (.op (some 0) (.insertOrUpdate c3 9)), .finish 4,
   .finish 3, .call (.op (some 0) (.get c3)), .finish 5]
/-- the snapshot -/
def x1 : Obj Nat := ⟨some 0, .dflt⟩
def log1 : List (Entry Nat TL.Call TL.Val) :=
  [.start 0 .new_, .act 0 (.made 0 ⟨none, .dflt⟩), .done 0 (.handle 0),
   .start 1 (.op (some 0) (.insert c1 7)), .act 1 (.load 0 ⟨none, .dflt⟩), .act 1 (.load 0 ⟨none, .dflt⟩),
   .act 1 (.swap 0 none (some 0)), .done 1 (.result (.bool true)),
   .start 2 (.freeze (some 0)), .act 2 (.load 0 x1), .done 2 (.table x1),
   .start 3 (.op (some 0) (.insert c2 8)), .act 3 (.load 0 x1), .act 3 (.load 0 x1),
   .start 4 (.op (some 0) (.insertOrUpdate c3 9)), .act 4 (.load 0 x1), .act 4 (.load 0 x1),
   .act 4 (.swap 0 (some 0) (some 2)), .done 4 (.result .unit), .fail 3 0 (some 0),
   .start 5 (.op (some 0) (.get c3)), .act 5 (.load 0 ⟨some 2, .dflt⟩), .done 5 (.result (.found 9 true))]
set_option maxRecDepth 100000 in
theorem run1_ok : (exec State.init run1).isSome := rfl
/-- the state after `run1` -/
def s1 : State TL := final run1 run1_ok
set_option maxRecDepth 100000 in
theorem s1_log : s1.log = log1 := rfl
set_option maxRecDepth 100000 in
theorem s1_panic : s1.threads[3]? = some (some .panic) := rfl
set_option maxRecDepth 100000 in
theorem s1_objs : s1.objs = [⟨some 2, .dflt⟩] := rfl

theorem s1_reach : s1.Reach := by
  refine final_reach run1_ok ?_
  intro c hc
  simp only [run1, List.mem_cons, reduceCtorEq, List.not_mem_nil, or_false, false_or] at hc
  rcases hc with h | h | h | h | h | h <;> cases h
  · exact ⟨trivial, rfl⟩
  · exact ⟨fun _ => ⟨c1_wf, by simp⟩, rfl⟩
  · exact ⟨trivial, rfl⟩
  · exact ⟨fun _ => ⟨c2_wf, by simp⟩, rfl⟩
  · exact ⟨fun _ => ⟨c3_wf, by simp⟩, rfl⟩
  · exact ⟨fun _ => ⟨c3_wf, by simp⟩, rfl⟩

theorem x1_known : s1.Known x1 := Or.inr ⟨2, .table x1, by rw [s1_log]; simp [log1], List.mem_singleton_self _⟩

/-- The snapshot is cloned, the clone modified (by a removal and an insertion) and a snapshot taken of it; the first
    snapshot is read before and after. -/
def run2 : List (Sched TL) :=
  [.call (.xget x1 c1), .call (.thaw x1), .finish 7, .call (.op (some 1) (.remove c1)), .finish 8,
   .call (.op (some 1) (.insert c2 3)), .finish 9, .call (.freeze (some 1)), .finish 10,
   .finish 6, .call (.xget x1 c1), .finish 11]
/-- the snapshot of the clone -/
def x2 : Obj Nat := ⟨some 5, .dflt⟩
def log2 : List (Entry Nat TL.Call TL.Val) :=
  [.start 6 (.xget x1 c1), .start 7 (.thaw x1), .act 7 (.made 1 x1), .done 7 (.handle 1),
   .start 8 (.op (some 1) (.remove c1)), .act 8 (.load 1 x1), .act 8 (.load 1 x1), .act 8 (.swap 1 (some 0) none),
   .done 8 (.result (.removed true)),
   .start 9 (.op (some 1) (.insert c2 3)), .act 9 (.load 1 ⟨none, .dflt⟩), .act 9 (.load 1 ⟨none, .dflt⟩),
   .act 9 (.swap 1 none x2.trie), .done 9 (.result (.bool true)),
   .start 10 (.freeze (some 1)), .act 10 (.load 1 x2), .done 10 (.table x2),
   .done 6 (.result (.found 7 true)), .start 11 (.xget x1 c1), .done 11 (.result (.found 7 true))]
set_option maxRecDepth 100000 in
theorem run2_ok : (exec s1 run2).isSome := rfl
/-- the state after `run1` and `run2` -/
def s2 : State TL := after s1 run2 run2_ok
set_option maxRecDepth 100000 in
theorem s2_log : s2.log = log1 ++ log2 := rfl
set_option maxRecDepth 100000 in
theorem s2_objs : s2.objs = [⟨some 2, .dflt⟩, x2] := rfl

theorem s1_steps : s1.Steps s2 := by
  refine after_steps run2_ok ?_
  have hx : ∀ x ∈ [x1], s1.Known x := by intro x hx; cases List.mem_singleton.mp hx; exact x1_known
  have no : ∀ x ∈ ([] : List (Obj Nat)), s1.Known x := by intro x hx; cases hx
  intro c hc
  simp only [run2, List.mem_cons, reduceCtorEq, List.not_mem_nil, or_false, false_or] at hc
  rcases hc with h | h | h | h | h | h <;> cases h
  · exact ⟨trivial, hx⟩
  · exact ⟨trivial, hx⟩
  · exact ⟨fun _ => ⟨c1_wf, by simp⟩, no⟩
  · exact ⟨fun _ => ⟨c2_wf, by simp⟩, no⟩
  · exact ⟨trivial, no⟩
  · exact ⟨trivial, hx⟩

theorem s2_reach : s2.Reach := s1_reach.steps s1_steps

theorem s1_oneKind : OneKind TCall.role s1.log 0 := by
  refine ⟨false, ?_⟩
  intro i c κ hs hr
  rw [s1_log] at hs
  simp only [log1, List.mem_cons, reduceCtorEq, List.not_mem_nil, or_false, false_or] at hs
  rcases hs with h | h | h | h | h | h <;> cases h <;> cases hr <;> rfl

theorem s2_apart : WritesApart TCall.role s2.log 1 := by
  have main : ∀ i c κ, .start i c ∈ s2.log → TCall.role c = some (1, some κ) → i = 8 ∨ i = 9 := by
    intro i c κ hs hr
    rw [s2_log] at hs
    simp only [log1, log2, List.mem_append, List.mem_cons, reduceCtorEq, List.not_mem_nil, or_false, false_or] at hs
    rcases hs with (h | h | h | h | h | h) | (h | h | h | h | h | h) <;> cases h <;> simp <;> cases hr
  have p89 : Precedes s2.log 8 9 :=
    ⟨31, 32, .result (.removed true), .op (some 1) (.insert c2 3), by decide, by rw [s2_log]; rfl, by rw [s2_log]; rfl⟩
  intro i j ci cj κ κ' hne hi hj hri hrj
  rcases main i ci κ hi hri with rfl | rfl <;> rcases main j cj κ' hj hrj with rfl | rfl
  · exact (hne rfl).elim
  · exact Or.inl p89
  · exact Or.inr p89
  · exact (hne rfl).elim

/-! ### sets -/

/-- sets of IPv4 addresses -/
abbrev SL := setLib (BitVec 32) Unit 170
/-- 10.0.0.1 -/
def b1 : SetArg (BitVec 32) := .address 0x0a000001#32
/-- 10.0.0.0/24 -/
def b2 : SetArg (BitVec 32) := .prefix ⟨0x0a000000#32, 24⟩
/-- 10.0.1.0-10.0.1.255 -/
def b3 : SetArg (BitVec 32) := .range ⟨0x0a000100#32, 0x0a0001ff#32⟩

/-- as `run1` -/
def srun1 : List (Sched SL) :=
  [.call .new_, .finish 0, .call (.insert (some 0) b1 false), .finish 1, .call (.freeze (some 0)), .finish 2,
   .call (.insert (some 0) b2 false), .step 3, .step 3, .call (.insert (some 0) b3 true), .finish 4, .finish 3,
   .call (.contains (.obj (some 0)) b3), .finish 5]
/-- the snapshot -/
def y1 : Obj Empty := ⟨some 0, .nil⟩
def slog1 : List (Entry Empty SL.Call SL.Val) :=
  [.start 0 .new_, .act 0 (.made 0 ⟨none, .nil⟩), .done 0 (.handle 0),
   .start 1 (.insert (some 0) b1 false), .act 1 (.load 0 ⟨none, .nil⟩), .act 1 (.load 0 ⟨none, .nil⟩),
   .act 1 (.swap 0 none (some 0)), .done 1 .unit,
   .start 2 (.freeze (some 0)), .act 2 (.load 0 y1), .done 2 (.set y1),
   .start 3 (.insert (some 0) b2 false), .act 3 (.load 0 y1), .act 3 (.load 0 y1),
   .start 4 (.insert (some 0) b3 true), .act 4 (.load 0 y1), .act 4 (.load 0 y1),
   .act 4 (.swap 0 (some 0) (some 2)), .done 4 .unit, .fail 3 0 (some 0),
   .start 5 (.contains (.obj (some 0)) b3), .act 5 (.load 0 ⟨some 2, .nil⟩), .done 5 (.bool true)]
set_option maxRecDepth 100000 in
theorem srun1_ok : (exec State.init srun1).isSome := rfl
/-- the state after `srun1` -/
def t1 : State SL := final srun1 srun1_ok
set_option maxRecDepth 100000 in
theorem t1_log : t1.log = slog1 := rfl
set_option maxRecDepth 100000 in
theorem t1_panic : t1.threads[3]? = some (some .panic) := rfl
set_option maxRecDepth 100000 in
theorem t1_objs : t1.objs = [⟨some 2, .nil⟩] := rfl

theorem b2_ok : b2.Ok := by show Prefix.WF _; decide
theorem b3_ok : b3.Ok := by show toNat _ ≤ toNat _; decide

theorem t1_reach : t1.Reach := by
  refine final_reach srun1_ok ?_
  intro c hc
  simp only [srun1, List.mem_cons, reduceCtorEq, List.not_mem_nil, or_false, false_or] at hc
  rcases hc with h | h | h | h | h | h <;> cases h
  · exact ⟨trivial, rfl⟩
  · exact ⟨⟨by simp, trivial⟩, rfl⟩
  · exact ⟨trivial, rfl⟩
  · exact ⟨⟨by simp, b2_ok⟩, rfl⟩
  · exact ⟨⟨by simp, b3_ok⟩, rfl⟩
  · exact ⟨b3_ok, rfl⟩

theorem y1_known : t1.Known y1 := Or.inr ⟨2, .set y1, by rw [t1_log]; simp [slog1], List.mem_singleton_self _⟩

/-- as `run2` -/
def srun2 : List (Sched SL) :=
  [.call (.union (.set y1) b2), .call (.thaw y1), .finish 7, .call (.remove (some 1) b2 false), .finish 8,
   .call (.insert (some 1) b3 false), .finish 9, .call (.freeze (some 1)), .finish 10,
   .finish 6, .call (.union (.set y1) (.obj (some 0))), .finish 11]
/-- the snapshot of the clone -/
def y2 : Obj Empty := ⟨some 6, .nil⟩
def slog2 (u v : Ptr) : List (Entry Empty SL.Call SL.Val) :=
  [.start 6 (.union (.set y1) b2), .start 7 (.thaw y1), .act 7 (.made 1 y1), .done 7 (.handle 1),
   .start 8 (.remove (some 1) b2 false), .act 8 (.load 1 y1), .act 8 (.load 1 y1), .act 8 (.swap 1 (some 0) none),
   .done 8 .unit,
   .start 9 (.insert (some 1) b3 false), .act 9 (.load 1 ⟨none, .nil⟩), .act 9 (.load 1 ⟨none, .nil⟩),
   .act 9 (.swap 1 none y2.trie), .done 9 .unit,
   .start 10 (.freeze (some 1)), .act 10 (.load 1 y2), .done 10 (.set y2),
   .done 6 (.set ⟨u, .nil⟩), .start 11 (.union (.set y1) (.obj (some 0))), .act 11 (.load 0 ⟨some 2, .nil⟩),
   .done 11 (.set ⟨v, .nil⟩)]
set_option maxRecDepth 100000 in
theorem srun2_ok : (exec t1 srun2).isSome := rfl
/-- the state after `srun1` and `srun2` -/
def t2 : State SL := after t1 srun2 srun2_ok
set_option maxRecDepth 100000 in
theorem t2_log : t2.log = slog1 ++ slog2 (some 7) (some 8) := rfl
set_option maxRecDepth 100000 in
theorem t2_objs : t2.objs = [⟨some 2, .nil⟩, y2] := rfl

theorem t1_steps : t1.Steps t2 := by
  refine after_steps srun2_ok ?_
  have hx : ∀ x ∈ [y1], t1.Known x := by intro x hx; cases List.mem_singleton.mp hx; exact y1_known
  have no : ∀ x ∈ ([] : List (Obj Empty)), t1.Known x := by intro x hx; cases hx
  intro c hc
  simp only [srun2, List.mem_cons, reduceCtorEq, List.not_mem_nil, or_false, false_or] at hc
  rcases hc with h | h | h | h | h | h <;> cases h
  · exact ⟨b2_ok, hx⟩
  · exact ⟨trivial, hx⟩
  · exact ⟨⟨by simp, b2_ok⟩, no⟩
  · exact ⟨⟨by simp, b3_ok⟩, no⟩
  · exact ⟨trivial, no⟩
  · exact ⟨trivial, hx⟩

theorem t2_reach : t2.Reach := t1_reach.steps t1_steps

theorem t1_oneKind : OneKind SCall.role t1.log 0 := by
  refine ⟨false, ?_⟩
  intro i c κ hs hr
  rw [t1_log] at hs
  simp only [slog1, List.mem_cons, reduceCtorEq, List.not_mem_nil, or_false, false_or] at hs
  rcases hs with h | h | h | h | h | h <;> cases h <;> cases hr <;> rfl

theorem t2_apart : WritesApart SCall.role t2.log 1 := by
  have main : ∀ i c κ, .start i c ∈ t2.log → SCall.role c = some (1, some κ) → i = 8 ∨ i = 9 := by
    intro i c κ hs hr
    rw [t2_log] at hs
    simp only [slog1, slog2, List.mem_append, List.mem_cons, reduceCtorEq, List.not_mem_nil, or_false, false_or] at hs
    rcases hs with (h | h | h | h | h | h) | (h | h | h | h | h | h) <;> cases h <;> simp <;> cases hr
  have p89 : Precedes t2.log 8 9 :=
    ⟨31, 32, .unit, .insert (some 1) b3 false, by decide, by rw [t2_log]; rfl, by rw [t2_log]; rfl⟩
  intro i j ci cj κ κ' hne hi hj hri hrj
  rcases main i ci κ hi hri with rfl | rfl <;> rcases main j cj κ' hj hrj with rfl | rfl
  · exact (hne rfl).elim
  · exact Or.inl p89
  · exact Or.inr p89
  · exact (hne rfl).elim

end Sample
end Addrs

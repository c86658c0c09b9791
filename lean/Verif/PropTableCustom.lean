import Verif.Exec
import Verif.ConcSamples
import Verif.PropConcTables
/-
  Property C39: tables with a custom comparison function.  The property is false of the code; here are
  executions that panic, and the part that holds.
-/
set_option linter.unusedSectionVars false
namespace Addrs
open GoWord LawfulGoWord

section
variable {α D σ : Type} [GoWord α] [GoType D] [Inhabited D]

/-- Arguments that a client of tables with custom comparison functions may pass: valid prefixes, `Table_`s
    that have been initialised, and for `Diff`, `Map` and `Aggregate` a table that has its comparison function
    (one that `Aggregate` returned has none, see C40). -/
def TCall.customPre : TCall α D σ → Prop
  | new_ => False
  | op h o => o.writes = true → o.key.toPrefix.WF ∧ h ≠ none
  | diff t _ _ _ | map t _ _ | aggregate t => HasEq t
  | _ => True

/-- the package, of which only tables with custom comparison functions are used -/
def customLib (α D σ : Type) [GoWord α] [GoType D] [Inhabited D] (F : Nat) : Lib α D :=
  { tableLib α D σ F with pre := TCall.customPre }

/-- C39: In no execution does a call panic, unless it lost a race against another write on the same
    table. -/
def CustomTablesWork (α D : Type) [GoWord α] [GoType D] [Inhabited D] : Prop :=
  ∀ (σ : Type) (F : Nat), 2 * width α + 3 ≤ F → ∀ s : State (customLib α D σ F), s.Reach →
    ∀ i, s.threads[i]? = some (some .panic) → ∃ o q, .fail i o q ∈ s.log
end

namespace Custom
open Sample (c1 c2 c3 c1_wf c2_wf c3_wf)

instance : Inhabited GoSlice := ⟨⟨[]⟩⟩

/-- tables of slices with IPv4 prefixes -/
abbrev SLib := customLib (BitVec 32) GoSlice Unit 67
/-- tables of numbers with IPv4 prefixes -/
abbrev NLib := customLib (BitVec 32) Nat Unit 67

/-- like `bytes.Equal` -/
def sliceEq (a b : GoSlice) : Bool := decide (a.elems = b.elems)
/-- equality of numbers -/
def natEq (a b : Nat) : Bool := decide (a = b)

/-! ### slices: inserting below an existing entry -/

/-- A table of slices with a custom comparison function gets an entry for 10.0.0.0/8 and then one for
    10.1.0.0/16. -/
def nested : List (Sched SLib) :=
  [.call (.newCustom sliceEq), .finish 0, .call (.op (some 0) (.insert c1 ⟨[1]⟩)), .finish 1,
   .call (.op (some 0) (.insert c2 ⟨[2]⟩)), .finish 2]

set_option maxRecDepth 100000 in
theorem nested_ok : (exec State.init nested).isSome := rfl
/-- The second `Insert` panics: `*mutated == *me` in `copyMutate` compares two slices. -/
theorem nested_panic : (final nested nested_ok).threads[2]? = some (some .panic) := by
  set_option maxRecDepth 100000 in rfl
def nestedLog : List (Entry GoSlice SLib.Call SLib.Val) :=
  [.start 0 (.newCustom sliceEq), .act 0 (.made 0 ⟨none, .custom sliceEq⟩), .done 0 (.handle 0),
   .start 1 (.op (some 0) (.insert c1 ⟨[1]⟩)), .act 1 (.load 0 ⟨none, .custom sliceEq⟩),
   .act 1 (.load 0 ⟨none, .custom sliceEq⟩), .act 1 (.swap 0 none (some 0)), .done 1 (.result (.bool true)),
   .start 2 (.op (some 0) (.insert c2 ⟨[2]⟩)), .act 2 (.load 0 ⟨some 0, .custom sliceEq⟩),
   .act 2 (.load 0 ⟨some 0, .custom sliceEq⟩)]
set_option maxRecDepth 100000 in
theorem nested_log : (final nested nested_ok).log = nestedLog := rfl
theorem nested_reach : (final nested nested_ok).Reach := by
  refine final_reach nested_ok ?_
  intro c hc
  simp only [nested, List.mem_cons, reduceCtorEq, List.not_mem_nil, or_false, false_or] at hc
  rcases hc with h | h | h <;> cases h
  · exact ⟨trivial, rfl⟩
  · exact ⟨fun _ => ⟨c1_wf, by simp⟩, rfl⟩
  · exact ⟨fun _ => ⟨c2_wf, by simp⟩, rfl⟩

/-! ### slices: `Map` -/

/-- A table of slices with one entry, and a snapshot of it. -/
def one : List (Sched SLib) :=
  [.call (.newCustom sliceEq), .finish 0, .call (.op (some 0) (.insert c1 ⟨[1]⟩)), .finish 1,
   .call (.freeze (some 0)), .finish 2]
def snap : Obj GoSlice := ⟨some 0, .custom sliceEq⟩
def oneLog : List (Entry GoSlice SLib.Call SLib.Val) :=
  [.start 0 (.newCustom sliceEq), .act 0 (.made 0 ⟨none, .custom sliceEq⟩), .done 0 (.handle 0),
   .start 1 (.op (some 0) (.insert c1 ⟨[1]⟩)), .act 1 (.load 0 ⟨none, .custom sliceEq⟩),
   .act 1 (.load 0 ⟨none, .custom sliceEq⟩), .act 1 (.swap 0 none (some 0)), .done 1 (.result (.bool true)),
   .start 2 (.freeze (some 0)), .act 2 (.load 0 snap), .done 2 (.table snap)]
set_option maxRecDepth 100000 in
theorem one_ok : (exec State.init one).isSome := rfl
def oneState : State SLib := final one one_ok
set_option maxRecDepth 100000 in
theorem one_log : oneState.log = oneLog := rfl
theorem one_reach : oneState.Reach := by
  refine final_reach one_ok ?_
  intro c hc
  simp only [one, List.mem_cons, reduceCtorEq, List.not_mem_nil, or_false, false_or] at hc
  rcases hc with h | h | h <;> cases h
  · exact ⟨trivial, rfl⟩
  · exact ⟨fun _ => ⟨c1_wf, by simp⟩, rfl⟩
  · exact ⟨trivial, rfl⟩
theorem snap_known : oneState.Known snap := Or.inr ⟨2, .table snap, by rw [one_log]; simp [oneLog], List.mem_singleton_self _⟩

/-- `Map` with the mapper that returns its argument -/
def mapOne : List (Sched SLib) := [.call (.map snap (some fun _ d s => (d, s)) ()), .finish 3]
set_option maxRecDepth 100000 in
theorem mapOne_ok : (exec oneState mapOne).isSome := rfl
/-- All fields other than `Data` are equal here, so `*mutated == *me` compares the slices in whatever order
    the fields are compared. -/
theorem mapOne_panic : (after oneState mapOne mapOne_ok).threads[3]? = some (some .panic) := by
  set_option maxRecDepth 100000 in rfl
set_option maxRecDepth 100000 in
theorem mapOne_log : (after oneState mapOne mapOne_ok).log =
    oneLog ++ [.start 3 (.map snap (some fun _ d s => (d, s)) ())] := rfl
theorem mapOne_reach : (after oneState mapOne mapOne_ok).Reach := by
  refine one_reach.steps (after_steps mapOne_ok ?_)
  intro c hc
  simp only [mapOne, List.mem_cons, reduceCtorEq, List.not_mem_nil, or_false] at hc
  cases hc
  refine ⟨fun (h : EqFn.custom _ = EqFn.nil) => (by cases h), ?_⟩
  intro x hx
  cases List.mem_singleton.mp hx
  exact snap_known

/-! ### numbers: `Map` and `Aggregate` on a table with a node that is not an entry -/

/-- A table of numbers with a custom comparison function, with entries for 10.0.0.0/8 and 11.0.0.0/8, and a
    snapshot of it.  The trie has a third node, 10.0.0.0/7, without a value. -/
def two : List (Sched NLib) :=
  [.call (.newCustom natEq), .finish 0, .call (.op (some 0) (.insert c1 1)), .finish 1,
   .call (.op (some 0) (.insert c3 2)), .finish 2, .call (.freeze (some 0)), .finish 3]
def snap2 : Obj Nat := ⟨some 2, .custom natEq⟩
def twoLog : List (Entry Nat NLib.Call NLib.Val) :=
  [.start 0 (.newCustom natEq), .act 0 (.made 0 ⟨none, .custom natEq⟩), .done 0 (.handle 0),
   .start 1 (.op (some 0) (.insert c1 1)), .act 1 (.load 0 ⟨none, .custom natEq⟩),
   .act 1 (.load 0 ⟨none, .custom natEq⟩), .act 1 (.swap 0 none (some 0)), .done 1 (.result (.bool true)),
   .start 2 (.op (some 0) (.insert c3 2)), .act 2 (.load 0 ⟨some 0, .custom natEq⟩),
   .act 2 (.load 0 ⟨some 0, .custom natEq⟩), .act 2 (.swap 0 (some 0) (some 2)), .done 2 (.result (.bool true)),
   .start 3 (.freeze (some 0)), .act 3 (.load 0 snap2), .done 3 (.table snap2)]
set_option maxRecDepth 100000 in
theorem two_ok : (exec State.init two).isSome := rfl
def twoState : State NLib := final two two_ok
set_option maxRecDepth 100000 in
theorem two_log : twoState.log = twoLog := rfl
theorem two_reach : twoState.Reach := by
  refine final_reach two_ok ?_
  intro c hc
  simp only [two, List.mem_cons, reduceCtorEq, List.not_mem_nil, or_false, false_or] at hc
  rcases hc with h | h | h | h <;> cases h
  · exact ⟨trivial, rfl⟩
  · exact ⟨fun _ => ⟨c1_wf, by simp⟩, rfl⟩
  · exact ⟨fun _ => ⟨c3_wf, by simp⟩, rfl⟩
  · exact ⟨trivial, rfl⟩
theorem snap2_known : twoState.Known snap2 := Or.inr ⟨3, .table snap2, by rw [two_log]; simp [twoLog], List.mem_singleton_self _⟩

/-- `Aggregate` -/
def aggTwo : List (Sched NLib) := [.call (.aggregate snap2), .finish 4]
set_option maxRecDepth 100000 in
theorem aggTwo_ok : (exec twoState aggTwo).isSome := rfl
/-- `eq(data, me.Data)` in `createReturnValue` is called with nil interfaces, on which the type assertions of
    the comparison function panic. -/
theorem aggTwo_panic : (after twoState aggTwo aggTwo_ok).threads[4]? = some (some .panic) := by
  set_option maxRecDepth 100000 in rfl
set_option maxRecDepth 100000 in
theorem aggTwo_log : (after twoState aggTwo aggTwo_ok).log = twoLog ++ [.start 4 (.aggregate snap2)] := rfl
theorem aggTwo_reach : (after twoState aggTwo aggTwo_ok).Reach := by
  refine two_reach.steps (after_steps aggTwo_ok ?_)
  intro c hc
  simp only [aggTwo, List.mem_cons, reduceCtorEq, List.not_mem_nil, or_false] at hc
  cases hc
  refine ⟨fun (h : EqFn.custom _ = EqFn.nil) => (by cases h), ?_⟩
  intro x hx
  cases List.mem_singleton.mp hx
  exact snap2_known

/-- `Map` that adds one to the values -/
def mapTwo : List (Sched NLib) := [.call (.map snap2 (some fun _ d s => (d + 1, s)) ()), .finish 4]
set_option maxRecDepth 100000 in
theorem mapTwo_ok : (exec twoState mapTwo).isSome := rfl
/-- `eq(me.Data, n.Data)` in `Map` is called with a nil interface. -/
theorem mapTwo_panic : (after twoState mapTwo mapTwo_ok).threads[4]? = some (some .panic) := by
  set_option maxRecDepth 100000 in rfl
set_option maxRecDepth 100000 in
theorem mapTwo_log : (after twoState mapTwo mapTwo_ok).log =
    twoLog ++ [.start 4 (.map snap2 (some fun _ d s => (d + 1, s)) ())] := rfl
theorem mapTwo_reach : (after twoState mapTwo mapTwo_ok).Reach := by
  refine two_reach.steps (after_steps mapTwo_ok ?_)
  intro c hc
  simp only [mapTwo, List.mem_cons, reduceCtorEq, List.not_mem_nil, or_false] at hc
  cases hc
  refine ⟨fun (h : EqFn.custom _ = EqFn.nil) => (by cases h), ?_⟩
  intro x hx
  cases List.mem_singleton.mp hx
  exact snap2_known

end Custom
open Custom

/-- C39 is false of slices: inserting a prefix below an existing one panics. -/
theorem C39_nested_insert_panics : ∃ s : State SLib, s.Reach ∧ s.threads[2]? = some (some .panic) ∧
    s.log = nestedLog := ⟨_, nested_reach, nested_panic, nested_log⟩

/-- C39 is false of slices: `Map` panics on a table with one entry. -/
theorem C39_map_panics : ∃ s : State SLib, s.Reach ∧ s.threads[3]? = some (some .panic) ∧
    s.log = oneLog ++ [.start 3 (.map snap (some fun _ d s => (d, s)) ())] := ⟨_, mapOne_reach, mapOne_panic, mapOne_log⟩

/-- C39 is false of numbers: `Map` panics on a table with the entries 10.0.0.0/8 and 11.0.0.0/8. -/
theorem C39_map_nil_panics : ∃ s : State NLib, s.Reach ∧ s.threads[4]? = some (some .panic) ∧
    s.log = twoLog ++ [.start 4 (.map snap2 (some fun _ d s => (d + 1, s)) ())] := ⟨_, mapTwo_reach, mapTwo_panic, mapTwo_log⟩

/-- C39 is false of numbers: `Aggregate` panics on a table with the entries 10.0.0.0/8 and 11.0.0.0/8. -/
theorem C39_aggregate_nil_panics : ∃ s : State NLib, s.Reach ∧ s.threads[4]? = some (some .panic) ∧
    s.log = twoLog ++ [.start 4 (.aggregate snap2)] := ⟨_, aggTwo_reach, aggTwo_panic, aggTwo_log⟩

theorem C39_fails_for_slices : ¬ CustomTablesWork (BitVec 32) GoSlice := by
  intro h
  obtain ⟨o, q, hf⟩ := h Unit 67 (by decide) _ nested_reach 2 nested_panic
  rw [nested_log] at hf
  simp [nestedLog] at hf

theorem C39_fails_for_numbers : ¬ CustomTablesWork (BitVec 32) Nat := by
  intro h
  obtain ⟨o, q, hf⟩ := h Unit 67 (by decide) _ aggTwo_reach 4 aggTwo_panic
  rw [aggTwo_log] at hf
  simp [twoLog] at hf

/-! ### the part that holds -/

/-- What holds of C39: if the values are comparable with `==`, and `Map` and `Aggregate` are not called on
    tables with custom comparison functions (`TCall.pre`), then on such a table nothing panics but calls that lost a race.
    Missing: values that are not comparable, `Map` and `Aggregate`. -/
theorem C39_partial {α D σ : Type} [LawfulGoWord α] [Inhabited D] [Comparable D] {F : Nat}
    (hF : 2 * width α + 3 ≤ F) {s : TState α D σ F} (h : s.Reach) {i : Nat}
    (hp : s.threads[i]? = some (some .panic)) : ∃ o q, .fail i o q ∈ s.log := by
  obtain ⟨⟨o, j, k, l, m, ob, x, y, q, p, h1⟩, _⟩ := C38_table_panics hF h hp
  exact ⟨o, q, List.mem_of_getElem? h1.2.2.2.2.2.1⟩

namespace Custom
open Sample (c1 c2 c1_wf c2_wf)

/-- Two goroutines write to a table with a custom comparison function, and one of them loses. -/
def race : List (Sched Sample.TL) :=
  [.call (.newCustom natEq), .finish 0, .call (.op (some 0) (.insert c1 7)), .finish 1,
   .call (.op (some 0) (.update c1 8)), .step 2, .step 2, .call (.op (some 0) (.insertOrUpdate c2 9)), .finish 3, .finish 2]
set_option maxRecDepth 100000 in
theorem race_ok : (exec State.init race).isSome := rfl
theorem race_panic : (final race race_ok).threads[2]? = some (some .panic) := by
  set_option maxRecDepth 100000 in rfl
theorem race_reach : (final race race_ok).Reach := by
  refine final_reach race_ok ?_
  intro c hc
  simp only [race, List.mem_cons, reduceCtorEq, List.not_mem_nil, or_false, false_or] at hc
  rcases hc with h | h | h | h <;> cases h
  · exact ⟨trivial, rfl⟩
  · exact ⟨fun _ => ⟨c1_wf, by simp⟩, rfl⟩
  · exact ⟨fun _ => ⟨c1_wf, by simp⟩, rfl⟩
  · exact ⟨fun _ => ⟨c2_wf, by simp⟩, rfl⟩

end Custom
example := C39_partial (by decide) race_reach race_panic

end Addrs

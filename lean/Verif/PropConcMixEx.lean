import Verif.PropConcMix
/-
  Executions in which insertions and removals overlap, for the theorems of C62.
-/
set_option linter.unusedSectionVars false
namespace Addrs
open GoWord LawfulGoWord
namespace Mix

/-- tables of numbers with IPv4 prefixes -/
abbrev TL := tableLib (BitVec 32) Nat Unit 67
open Bad (k1 k2 wf1 wf2)

/-- `k1` is removed from a new table; then two goroutines remove `k2` and insert `k1` at the same time, the former panics;
    while a third one is removing `k2`, `k1` is looked up; then `k2` is looked up. -/
def run : List (Sched TL) :=
  [.call .new_, .finish 0, .call (.op (some 0) (.remove k1)), .finish 1,
   .call (.op (some 0) (.remove k2)), .step 2, .call (.op (some 0) (.insert k1 7)), .finish 3, .finish 2,
   .call (.op (some 0) (.remove k2)), .step 4, .call (.op (some 0) (.get k1)), .finish 5, .finish 4,
   .call (.op (some 0) (.get k2)), .finish 6]

def log : List (Entry Nat TL.Call TL.Val) :=
  [.start 0 .new_, .act 0 (.made 0 ⟨none, .dflt⟩), .done 0 (.handle 0),
   .start 1 (.op (some 0) (.remove k1)), .act 1 (.load 0 ⟨none, .dflt⟩), .act 1 (.load 0 ⟨none, .dflt⟩),
   .done 1 (.result (.removed false)),
   .start 2 (.op (some 0) (.remove k2)), .act 2 (.load 0 ⟨none, .dflt⟩),
   .start 3 (.op (some 0) (.insert k1 7)), .act 3 (.load 0 ⟨none, .dflt⟩), .act 3 (.load 0 ⟨none, .dflt⟩),
   .act 3 (.swap 0 none (some 0)), .done 3 (.result (.bool true)),
   .act 2 (.load 0 ⟨some 0, .dflt⟩), .fail 2 0 none,
   .start 4 (.op (some 0) (.remove k2)), .act 4 (.load 0 ⟨some 0, .dflt⟩),
   .start 5 (.op (some 0) (.get k1)), .act 5 (.load 0 ⟨some 0, .dflt⟩), .done 5 (.result (.found 7 true)),
   .act 4 (.load 0 ⟨some 0, .dflt⟩), .done 4 (.result (.removed false)),
   .start 6 (.op (some 0) (.get k2)), .act 6 (.load 0 ⟨some 0, .dflt⟩), .done 6 (.result (.found 0 false))]

set_option maxRecDepth 100000 in
theorem run_ok : (exec State.init run).isSome := rfl
set_option maxRecDepth 100000 in
theorem run_log : (final run run_ok).log = log := rfl

theorem run_reach : (final run run_ok).Reach := by
  refine final_reach run_ok ?_
  intro c hc
  simp only [run, List.mem_cons, reduceCtorEq, List.not_mem_nil, or_false, false_or] at hc
  rcases hc with h | h | h | h | h | h | h <;> cases h
  · exact ⟨trivial, rfl⟩
  · exact ⟨fun _ => ⟨wf1, by simp⟩, rfl⟩
  · exact ⟨fun _ => ⟨wf2, by simp⟩, rfl⟩
  · exact ⟨fun _ => ⟨wf1, by simp⟩, rfl⟩
  · exact ⟨fun _ => ⟨wf2, by simp⟩, rfl⟩
  · exact ⟨fun _ => ⟨wf1, by simp⟩, rfl⟩
  · exact ⟨fun _ => ⟨wf2, by simp⟩, rfl⟩

/-- after the first removal no write is in progress -/
theorem run_quiet : Quiet TCall.role (final run run_ok).log 0 7 := by
  intro i c κ h hr
  rw [run_log] at h ⊢
  simp only [log, List.take, List.mem_cons, reduceCtorEq, List.not_mem_nil, or_false, false_or] at h
  rcases h with h | h <;> cases h
  · cases hr
  · exact Or.inl ⟨.result (.removed false), by simp [log]⟩

/-- since then nobody removes `k1` and nobody inserts `k2` -/
theorem run_calls (b i : Nat) (w : TableOp (BitVec 32) Nat) (h1 : 7 ≤ b)
    (h3 : (final run run_ok).log[b]? = some (.start i (.op (some 0) w))) :
    w = .remove k2 ∨ w = .insert k1 7 ∨ w = .get k1 ∨ w = .get k2 := by
  rw [run_log] at h3
  have h4 : .start i (.op (some 0) w) ∈ log.drop 7 := by
    refine List.mem_of_getElem? (i := b - 7) ?_
    rw [List.getElem?_drop, Nat.add_sub_cancel' h1]; exact h3
  simp only [log, List.drop, List.mem_cons, reduceCtorEq, List.not_mem_nil, or_false, false_or] at h4
  rcases h4 with h | h | h | h | h <;> cases h <;> simp

/-- `k1` is found although removals were running -/
example := C62_table_kept (by decide) run_reach (i := 3) (j := 5) (o := 0) (t := 7) (p := 9) (q := 13) (p' := 18)
  (q' := 20) (w := .insert k1 7) (k := k1) rfl wf1 run_quiet (by decide) (by rw [run_log]; rfl) (by rw [run_log]; rfl)
  (by decide) (by rw [run_log]; rfl) (by rw [run_log]; rfl) (by
    intro b i w h1 _ h3
    rcases run_calls b i w h1 h3 with rfl | rfl | rfl | rfl
    · exact fun h => Bad.key_ne h.symm
    · exact fun h => h
    · exact fun h => h
    · exact fun h => h)

/-- `k2` is not found -/
example := C62_table_gone (by decide) run_reach (i := 4) (j := 6) (o := 0) (t := 7) (p := 16) (q := 22) (p' := 23)
  (q' := 25) (k := k2) (k' := k2) rfl wf2 run_quiet (by decide) (by rw [run_log]; rfl) (by rw [run_log]; rfl)
  (by decide) (by rw [run_log]; rfl) (by rw [run_log]; rfl) (by
    intro b i w h1 _ h3
    rcases run_calls b i w h1 h3 with rfl | rfl | rfl | rfl
    · exact fun h => h
    · exact fun h => Bad.key_ne h
    · exact fun h => h
    · exact fun h => h)

example := C62_table_origin (by decide) run_reach (j := 5) (o := 0) (p := 18) (q := 20) (k := k1) (v := 7) wf1
  (by rw [run_log]; rfl) (by rw [run_log]; rfl)

/-! ### sets -/

/-- sets of IPv4 addresses -/
abbrev SL := setLib (BitVec 32) Unit 170
open Bad (a1 a2)

/-- the same with sets -/
def srun : List (Sched SL) :=
  [.call .new_, .finish 0, .call (.remove (some 0) a1 false), .finish 1,
   .call (.remove (some 0) a2 false), .step 2, .call (.insert (some 0) a1 false), .finish 3, .finish 2,
   .call (.remove (some 0) a2 false), .step 4, .call (.contains (.obj (some 0)) a1), .finish 5, .finish 4,
   .call (.contains (.obj (some 0)) a2), .finish 6]

def slog : List (Entry Empty SL.Call SL.Val) :=
  [.start 0 .new_, .act 0 (.made 0 ⟨none, .nil⟩), .done 0 (.handle 0),
   .start 1 (.remove (some 0) a1 false), .act 1 (.load 0 ⟨none, .nil⟩), .act 1 (.load 0 ⟨none, .nil⟩), .done 1 .unit,
   .start 2 (.remove (some 0) a2 false), .act 2 (.load 0 ⟨none, .nil⟩),
   .start 3 (.insert (some 0) a1 false), .act 3 (.load 0 ⟨none, .nil⟩), .act 3 (.load 0 ⟨none, .nil⟩),
   .act 3 (.swap 0 none (some 1)), .done 3 .unit,
   .act 2 (.load 0 ⟨some 1, .nil⟩), .fail 2 0 none,
   .start 4 (.remove (some 0) a2 false), .act 4 (.load 0 ⟨some 1, .nil⟩),
   .start 5 (.contains (.obj (some 0)) a1), .act 5 (.load 0 ⟨some 1, .nil⟩), .done 5 (.bool true),
   .act 4 (.load 0 ⟨some 1, .nil⟩), .done 4 .unit,
   .start 6 (.contains (.obj (some 0)) a2), .act 6 (.load 0 ⟨some 1, .nil⟩), .done 6 (.bool false)]

set_option maxRecDepth 100000 in
theorem srun_ok : (exec State.init srun).isSome := rfl
set_option maxRecDepth 100000 in
theorem srun_log : (final srun srun_ok).log = slog := rfl

theorem srun_reach : (final srun srun_ok).Reach := by
  refine final_reach srun_ok ?_
  intro c hc
  simp only [srun, List.mem_cons, reduceCtorEq, List.not_mem_nil, or_false, false_or] at hc
  rcases hc with h | h | h | h | h | h | h <;> cases h
  · exact ⟨trivial, rfl⟩
  · exact ⟨⟨by simp, trivial⟩, rfl⟩
  · exact ⟨⟨by simp, trivial⟩, rfl⟩
  · exact ⟨⟨by simp, trivial⟩, rfl⟩
  · exact ⟨⟨by simp, trivial⟩, rfl⟩
  · exact ⟨trivial, rfl⟩
  · exact ⟨trivial, rfl⟩

theorem srun_quiet : Quiet SCall.role (final srun srun_ok).log 0 7 := by
  intro i c κ h hr
  rw [srun_log] at h ⊢
  simp only [slog, List.take, List.mem_cons, reduceCtorEq, List.not_mem_nil, or_false, false_or] at h
  rcases h with h | h <;> cases h
  · cases hr
  · exact Or.inl ⟨.unit, by simp [slog]⟩

theorem srun_calls (b i : Nat) (c : SCall (BitVec 32) Unit) (h1 : 7 ≤ b)
    (h3 : (final srun srun_ok).log[b]? = some (.start i c)) :
    c = .remove (some 0) a2 false ∨ c = .insert (some 0) a1 false ∨ ∃ a, c = .contains (.obj (some 0)) a := by
  rw [srun_log] at h3
  have h4 : .start i c ∈ slog.drop 7 := by
    refine List.mem_of_getElem? (i := b - 7) ?_
    rw [List.getElem?_drop, Nat.add_sub_cancel' h1]; exact h3
  simp only [slog, List.drop, List.mem_cons, reduceCtorEq, List.not_mem_nil, or_false, false_or] at h4
  rcases h4 with h | h | h | h | h <;> cases h <;> simp

example := C62_set_kept (by decide) srun_reach (i := 3) (j := 5) (o := 0) (t := 7) (p := 9) (q := 13) (p' := 18)
  (q' := 20) (arg := a1) (x := 0x0a000001#32) ⟨false, rfl⟩ (by rintro A rfl; exact (C08_address _ _).mpr rfl) srun_quiet
  (by decide) (by rw [srun_log]; rfl) (by rw [srun_log]; rfl) (by decide) (by rw [srun_log]; rfl) (by rw [srun_log]; rfl) (by
    rintro b i c arg A h1 _ h3 ⟨l, rfl⟩ hA hx
    rcases srun_calls b i _ h1 h3 with h | h | ⟨_, h⟩ <;> cases h
    cases hA
    exact absurd ((C08_address _ _).mp hx) (by decide))

example := C62_set_gone (by decide) srun_reach (i := 4) (j := 6) (o := 0) (t := 7) (p := 16) (q := 22) (p' := 23)
  (q' := 25) (arg := a2) (x := 0x0b000001#32) ⟨false, rfl⟩ (by rintro A rfl; exact (C08_address _ _).mpr rfl) srun_quiet
  (by decide) (by rw [srun_log]; rfl) (by rw [srun_log]; rfl) (by decide) (by rw [srun_log]; rfl) (by rw [srun_log]; rfl) (by
    rintro b i c arg A h1 _ h3 ⟨l, rfl⟩ hA hx
    rcases srun_calls b i _ h1 h3 with h | h | ⟨_, h⟩ <;> cases h
    cases hA
    exact absurd ((C08_address _ _).mp hx) (by decide))

example := C62_set_origin (by decide) srun_reach (j := 5) (o := 0) (p := 18) (q := 20) (x := 0x0a000001#32)
  (by rw [srun_log]; rfl) (by rw [srun_log]; rfl)

end Mix
end Addrs

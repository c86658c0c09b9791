import Verif.ReadsCalm
import Verif.PropConcSets
/-
  Property C38, more: calls that do not write never panic, whatever other goroutines do.
-/
set_option linter.unusedSectionVars false
namespace Addrs
open GoWord LawfulGoWord Prog

/-- A call on tables that is no write (`Get`, `LongestMatch`, `NumEntries`, `Table`, `Table_`, `Walk`, `Diff`, `Map`, `Aggregate`
    with the arguments of `TCall.pre`) never panics, whatever happens meanwhile. -/
theorem C38_table_reads {α D σ : Type} [LawfulGoWord α] [Inhabited D] [Comparable D] {F : Nat} (hF : 2 * width α + 3 ≤ F)
    {s : TState α D σ F} (h : s.Reach) {i : Nat} {c : TCall α D σ} (hs : .start i c ∈ s.log) (hc : c.writes = false) :
    s.threads[i]? ≠ some (some .panic) := by
  intro hp
  obtain ⟨⟨o, j, k, l, m, ob, x, y, q, p, _, _, _, _, _, h6, _⟩, _⟩ := C38_table_panics hF h hp
  exact h.no_fail hs (c.noSwap hc) o q (List.mem_of_getElem? h6)

/-- A call on sets that is neither `Insert` nor `Remove` never panics, whatever happens meanwhile. -/
theorem C38_set_reads {α σ : Type} [QuietFamily α] {F : Nat} (hF : setBound α ≤ F)
    {s : SState α σ F} (h : s.Reach) {i : Nat} {c : SCall α σ} (hs : .start i c ∈ s.log) (hc : c.writes = false) :
    s.threads[i]? ≠ some (some .panic) := by
  intro hp
  obtain ⟨⟨o, j, k, l, m, ob, x, y, q, a, e, _, _, _, _, _, h6, _⟩, _⟩ := C38_set_panics hF h hp
  exact h.no_fail hs (SCall.noSwap c hc) o q (List.mem_of_getElem? h6)

/-- the snapshots of the samples -/
example := C38_table_reads (by decide) Sample.s1_reach (i := 2) (c := .freeze (some 0)) (by rw [Sample.s1_log]; simp [Sample.log1]) rfl

example := C38_set_reads (by decide) Sample.t1_reach (i := 2) (c := .freeze (some 0)) (by rw [Sample.t1_log]; simp [Sample.slog1]) rfl

end Addrs

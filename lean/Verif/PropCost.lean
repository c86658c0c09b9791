import Verif.Cost
import Verif.PropConcSets
import Verif.PropConcTables
/-
  Property C48: the cost of single-key operations and of snapshots.  The unit is one action of the machine: a
  read or write of a node (all fields at once), an allocation, a read or compare-and-swap of a root; plus one
  for returning.
-/
set_option linter.unusedSectionVars false
namespace Addrs
open GoWord LawfulGoWord

section
variable {α D σ : Type} [LawfulGoWord α] [Inhabited D] [Comparable D]

/-- the recursion depth that is enough for every call (C38) -/
abbrev depth (α : Type) [GoWord α] : Nat := 2 * width α + 3

/-- looks up one prefix -/
def TCall.isLookup : TCall α D σ → Bool
  | op _ (.get _) | longest _ _ | xget _ _ | xlongest _ _ => true
  | _ => false

/-- changes at most one entry -/
def TCall.isWrite : TCall α D σ → Bool
  | op _ o => o.writes
  | _ => false

/-- makes a table, takes a snapshot, makes a mutable copy of a snapshot, or asks for the number of entries -/
def TCall.isConstant : TCall α D σ → Bool
  | new_ | newCustom _ | freeze _ | thaw _ | num _ | xnum _ => true
  | _ => false

/-- However many entries the table has and whatever other goroutines do, a lookup takes at most
    `2 * width + 6` steps and allocates nothing. -/
theorem C48_lookup {r : List (Label (tableLib α D σ (depth α)) × Nat)} {s : TState α D σ (depth α)} (h : Run .init r s)
    {i : Nat} {c : TCall α D σ} (hs : .start i c ∈ s.log) (hc : c.isLookup = true) :
    numSteps i r ≤ 2 * width α + 6 ∧ numNew i r = 0 := by
  have key : (c.code (depth α)).AtMost (depth α + 2) 0 fun _ => True := by
    cases c <;> try cases hc
    case op hd o =>
      cases o <;> try cases hc
      exact .bind' (m := 0) (b := 0) (fun _ => True) (.bind' (m := 0) (b := 0) _ (Heap.atMost_tGet _ _ _) (Nat.le_refl _) (Nat.le_refl _) fun _ _ => trivial)
        (Nat.le_refl _) (Nat.le_refl _) fun _ _ => trivial
    · exact .bind' (m := 0) (b := 0) _ (Heap.atMost_tLongest _ _ _) (Nat.le_refl _) (Nat.le_refl _) fun _ _ => trivial
    · exact .bind' (m := 0) (b := 0) _ (Heap.atMost_xGet _ _ _) (by omega) (Nat.le_refl _) fun _ _ => trivial
    · exact .bind' (m := 0) (b := 0) _ (Heap.atMost_xLongest _ _ _) (by omega) (Nat.le_refl _) fun _ _ => trivial
  have := h.cost (L := tableLib α D σ (depth α)) hs key
  exact ⟨by have := this.1; simp only [depth] at this; omega, by have := this.2; omega⟩

/-- However many entries the table has and whatever other goroutines do, `Insert`, `Update`, `InsertOrUpdate`,
    `GetOrInsert` and `Remove` end (return or panic) after at most `50 * width + 96` steps and copy at most
    `4 * width + 8` nodes: everything else is shared with the previous version. -/
theorem C48_write {r : List (Label (tableLib α D σ (depth α)) × Nat)} {s : TState α D σ (depth α)} (h : Run .init r s)
    {i : Nat} {c : TCall α D σ} (hs : .start i c ∈ s.log) (hc : c.isWrite = true) :
    numSteps i r ≤ 50 * width α + 96 ∧ numNew i r ≤ 4 * width α + 8 := by
  have key : (c.code (depth α)).AtMost (50 * width α + 95) (4 * width α + 8) fun _ => True := by
    cases c <;> try cases hc
    case op hd o =>
      have hb : ∀ {β : Type} {p : Prog α D β} {f : β → Result D} {n a : Nat}, (p.AtMost n a fun _ => True) → n ≤ 50 * width α + 95 →
          a ≤ 4 * width α + 8 → ((p >>= fun x => pure (f x)) >>= fun y => pure (.result y) : Prog α D (TVal α D σ)).AtMost
            (50 * width α + 95) (4 * width α + 8) fun _ => True := fun hp h1 h2 =>
        .bind' (m := 0) (b := 0) (fun _ => True) (.bind' (m := 0) (b := 0) _ hp (Nat.le_refl _) (Nat.le_refl _) fun _ _ => trivial) (by omega) (by omega) fun _ _ => trivial
      have hd : depth α = 2 * width α + 3 := rfl
      cases o
      · exact hb (Heap.atMost_tInsert _ _ _ _) (by omega) (by omega)
      · exact hb (Heap.atMost_tUpdate _ _ _ _) (by omega) (by omega)
      · exact hb (Heap.atMost_tInsertOrUpdate _ _ _ _) (by omega) (by omega)
      · cases hc
      · exact hb (Heap.atMost_tGetOrInsert _ _ _ _) (by omega) (by omega)
      · exact hb (Heap.atMost_tRemove _ _ _) (by omega) (by omega)
  exact h.cost (L := tableLib α D σ (depth α)) hs key

/-- Snapshots (`Table()`), mutable copies of snapshots (`Table_()`), new tables and `NumEntries` take at most
    three steps and copy nothing. -/
theorem C48_snapshot {r : List (Label (tableLib α D σ (depth α)) × Nat)} {s : TState α D σ (depth α)} (h : Run .init r s)
    {i : Nat} {c : TCall α D σ} (hs : .start i c ∈ s.log) (hc : c.isConstant = true) :
    numSteps i r ≤ 3 ∧ numNew i r = 0 := by
  have key : (c.code (depth α)).AtMost 2 0 fun _ => True := by
    cases c <;> try cases hc
    · exact .bind' (n := 1) (m := 0) (b := 0) _ (Prog.atMost_newObject _ (by omega)) (by omega) (Nat.le_refl _) fun _ _ => trivial
    · exact .bind' (n := 1) (m := 0) (b := 0) _ (Prog.atMost_newObject _ (by omega)) (by omega) (Nat.le_refl _) fun _ _ => trivial
    · exact .bind' (m := 0) (b := 0) _ (Heap.atMost_tNumEntries _) (by omega) (Nat.le_refl _) fun _ _ => trivial
    · exact .bind' (m := 0) (b := 0) _ (Heap.atMost_tFreeze _) (by omega) (Nat.le_refl _) fun _ _ => trivial
    · exact .bind' (m := 0) (b := 0) _ (Heap.atMost_xThaw _) (by omega) (Nat.le_refl _) fun _ _ => trivial
    · exact .bind' (n := 1) (m := 0) (b := 0) _ (Heap.atMost_numNodes _ (by omega)) (by omega) (Nat.le_refl _) fun _ _ => trivial
  have := h.cost (L := tableLib α D σ (depth α)) hs key
  exact ⟨this.1, by have := this.2; omega⟩

/-- the same for sets: `Set()` on a `Set_`, `Set_()` on a `Set`, and new sets -/
theorem C48_set_snapshot {α σ : Type} [HeapFamily α] {F : Nat} {r : List (Label (setLib α σ F) × Nat)} {s : SState α σ F}
    (h : Run .init r s) {i : Nat} {c : SCall α σ} (hs : .start i c ∈ s.log)
    (hc : c = .new_ ∨ (∃ o, c = .freeze o) ∨ ∃ t, c = .thaw t) :
    numSteps i r ≤ 2 ∧ numNew i r = 0 := by
  have key : (c.code F).AtMost 1 0 fun _ => True := by
    rcases hc with rfl | ⟨o, rfl⟩ | ⟨t, rfl⟩
    · exact .bind' (n := 1) (m := 0) (b := 0) _ (Prog.atMost_newObject _ (by omega)) (by omega) (Nat.le_refl _) fun _ _ => trivial
    · refine .bind' (n := 1) (m := 0) (a := 0) (b := 0) (fun _ => True) ?_ (by omega) (Nat.le_refl _) fun _ _ => trivial
      cases o with
      | none => trivial
      | some o => exact ⟨Nat.le_refl _, fun _ => trivial⟩
    · exact .bind' (n := 1) (m := 0) (b := 0) _ (Prog.atMost_newObject _ (by omega)) (by omega) (Nat.le_refl _) fun _ _ => trivial
  have := h.cost (L := setLib α σ F) hs key
  exact ⟨this.1, by have := this.2; omega⟩

/-- an execution with inserts, snapshots and lookups of several goroutines -/
example : ∃ r, Run .init r Sample.s1 ∧ numSteps 5 r ≤ 70 ∧ numNew 5 r = 0 ∧ numSteps 4 r ≤ 1696 ∧ numNew 4 r ≤ 136 ∧ numSteps 2 r ≤ 3 := by
  obtain ⟨r, hr⟩ := Sample.s1_reach.run
  have h5 := C48_lookup (i := 5) (c := .op (some 0) (.get Sample.c3)) hr (by rw [Sample.s1_log]; simp [Sample.log1]) rfl
  have h4 := C48_write (i := 4) (c := .op (some 0) (.insertOrUpdate Sample.c3 9)) hr (by rw [Sample.s1_log]; simp [Sample.log1]) rfl
  have h2 := C48_snapshot (i := 2) (c := .freeze (some 0)) hr (by rw [Sample.s1_log]; simp [Sample.log1]) rfl
  exact ⟨r, hr, h5.1, h5.2, h4.1, h4.2, h2.1⟩

end
end Addrs

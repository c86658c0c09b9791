import Verif.HeapShare
import Verif.PropConcMix
import Verif.ConcSamples
/-
  C64: the memory that sets and tables need.
-/
set_option linter.unusedSectionVars false
namespace Addrs
open GoWord LawfulGoWord

section
variable {α D : Type}

/-- a tree has no more nodes than it has positions -/
theorem Den.reachable {v : View α D} {p : Ptr} {t : Trie α D} (d : Den v p t) :
    ∃ N : List Nat, (∀ n, In v p n ↔ n ∈ N) ∧ N.length ≤ t.nodes := by
  induction d with
  | nil => exact ⟨[], fun n => ⟨fun h => (in_none h).elim, fun h => (by cases h)⟩, Nat.le_refl _⟩
  | @node a c l r h _ _ ihl ihr =>
    obtain ⟨L, l1, l2⟩ := ihl
    obtain ⟨R, r1, r2⟩ := ihr
    refine ⟨a :: (L ++ R), fun n => ?_, ?_⟩
    · rw [in_some h, l1, r1]; simp
    · simp only [List.length_cons, List.length_append, Trie.nodes]; omega

variable [LawfulGoWord α]

/-- a table has at most twice as many nodes as entries -/
theorem Trie.TInv.nodes_le {t : Trie α D} (h : t.TInv) : t ≠ .nil → t.nodes + 1 ≤ 2 * t.entries.length := by
  induction h with
  | empty => intro h; exact (h rfl).elim
  | mk p d act l r wf il ir hl hr two ihl ihr =>
    intro _
    have e : ∀ {x : Trie α D}, (x ≠ .nil → x.nodes + 1 ≤ 2 * x.entries.length) → x.nodes ≤ 2 * x.entries.length := by
      intro x hx
      cases x with
      | nil => simp [Trie.nodes]
      | node => have := hx (by simp); omega
    cases act with
    | true =>
      have := e ihl; have := e ihr
      simp only [Trie.mk, Trie.nodes, Trie.entries, if_true, List.length_append, List.length_singleton]; omega
    | false =>
      have := ihl (two rfl).1; have := ihr (two rfl).2
      simp only [Trie.mk, Trie.nodes, Trie.entries, Bool.false_eq_true, if_false, List.length_append, List.length_nil]; omega

end

section
variable {α σ : Type} [HeapFamily α] {F : Nat}

/-- what a set needs -/
theorem Obj.Holds.memory {v : View α Empty} {x : Obj Empty} {S : IPSet α} (h : x.Holds v S) :
    ∃ N : List Nat, (∀ n, In v x.trie n ↔ n ∈ N) ∧
      ∀ L : List (Prefix α), (∀ p ∈ L, p.WF) → (∀ a, S.has a ↔ ∃ p ∈ L, InPrefix p a) → N.length ≤ 2 * L.length - 1 := by
  obtain ⟨d, hS, _⟩ := h
  obtain ⟨N, h1, h2⟩ := d.reachable
  refine ⟨N, h1, fun L hL hc => ?_⟩
  by_cases hn : S.trie = .nil
  · rw [hn] at h2; simp only [Trie.nodes] at h2; omega
  · have e1 := hS.inv.nodes_eq hn
    have e2 := C17_minimal S hS L hL hc
    rw [walkPrefixes_count] at e2
    omega

/-- The nodes that are reachable from a `Set` are at most twice as many, minus one, as the prefixes of any list that
    covers exactly the addresses of the set. -/
theorem C64_set (hF : setBound α ≤ F) {s : SState α σ F} (h : s.Reach) {x : Obj Empty} (hx : s.Known x) :
    ∃ S : IPSet α, x.Holds s.mem S ∧ ∃ N : List Nat, (∀ n, In s.mem x.trie n ↔ n ∈ N) ∧
      ∀ L : List (Prefix α), (∀ p ∈ L, p.WF) → (∀ a, S.has a ↔ ∃ p ∈ L, InPrefix p a) → N.length ≤ 2 * L.length - 1 := by
  have ok := setLib_ok (α := α) (σ := σ) hF
  obtain ⟨g, inv⟩ := h.inv ok
  obtain ⟨S, hS⟩ := inv.known ok hx
  have hS := hS.mono inv.mem.fz_le
  exact ⟨S, hS, hS.memory⟩

/-- The same for a `Set_`, at every time, in every execution. -/
theorem C64_set_object (hF : setBound α ≤ F) {s : SState α σ F} (h : s.Reach) {k o : Nat} {ob : Obj Empty}
    (hk : objAt s.log k o = some ob) :
    ∃ S : IPSet α, ob.Holds s.mem S ∧ ∃ N : List Nat, (∀ n, In s.mem ob.trie n ↔ n ∈ N) ∧
      ∀ L : List (Prefix α), (∀ p ∈ L, p.WF) → (∀ a, S.has a ↔ ∃ p ∈ L, InPrefix p a) → N.length ≤ 2 * L.length - 1 := by
  obtain ⟨S, hS⟩ := set_at hF h hk
  exact ⟨S, hS, hS.memory⟩

end

section
variable {α D σ : Type} [LawfulGoWord α] [Inhabited D] [Comparable D] {F : Nat}

theorem Obj.Is.memory {v : View α D} {x : Obj D} {T : Table α D} (h : x.Is v T) (hT : T.Reachable) :
    ∃ N : List Nat, (∀ n, In v x.trie n ↔ n ∈ N) ∧ N.length ≤ 2 * T.listed.length - 1 := by
  obtain ⟨d, _⟩ := h
  obtain ⟨N, h1, h2⟩ := d.reachable
  refine ⟨N, h1, ?_⟩
  rw [Table.listed_eq, Table.pairs, List.length_map]
  by_cases hn : T.trie = .nil
  · rw [hn] at h2; simp only [Trie.nodes] at h2; omega
  · have := hT.good.inv.nodes_le hn; omega

/-- The nodes that are reachable from a `Table` are at most twice as many, minus one, as its entries (those that `Walk` visits). -/
theorem C64_table (hF : 2 * width α + 3 ≤ F) {s : TState α D σ F} (h : s.Reach) {x : Obj D} (hx : s.Known x) :
    ∃ T : Table α D, x.Is s.mem T ∧ T.Reachable ∧ ∃ N : List Nat, (∀ n, In s.mem x.trie n ↔ n ∈ N) ∧
      N.length ≤ 2 * T.listed.length - 1 := by
  have ok := tableLib_ok (α := α) (D := D) (σ := σ) hF
  obtain ⟨g, inv⟩ := h.inv ok
  obtain ⟨T, h1, h2⟩ := inv.known ok hx
  have h1 := h1.mono inv.mem.fz_le
  exact ⟨T, h1, h2, h1.memory h2⟩

/-- The same for a `Table_`, at every time, in every execution. -/
theorem C64_table_object (hF : 2 * width α + 3 ≤ F) {s : TState α D σ F} (h : s.Reach) {k o : Nat} {ob : Obj D}
    (hk : objAt s.log k o = some ob) :
    ∃ T : Table α D, ob.Is s.mem T ∧ T.Reachable ∧ ∃ N : List Nat, (∀ n, In s.mem ob.trie n ↔ n ∈ N) ∧
      N.length ≤ 2 * T.listed.length - 1 := by
  obtain ⟨T, h1, h2, _⟩ := table_at hF h hk
  exact ⟨T, h1, h2, h1.memory h2⟩

/-- the set and the snapshot of `srun1` -/
example := C64_set (by decide) Sample.t1_reach Sample.y1_known
example := C64_set_object (by decide) Sample.t1_reach (k := 23) (o := 0) (ob := ⟨some 2, .nil⟩)
  (by rw [Sample.t1_log]; rfl)
/-- the snapshot and the table of `run1` -/
example := C64_table (by decide) Sample.s1_reach Sample.x1_known
example := C64_table_object (by decide) Sample.s1_reach (k := 23) (o := 0) (ob := ⟨some 2, .dflt⟩)
  (by rw [Sample.s1_log]; rfl)

end
end Addrs

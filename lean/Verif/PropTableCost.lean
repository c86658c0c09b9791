import Verif.TableCost
import Verif.PropMemory
import Verif.PropDiffCost
/-
  C66: the cost of the calls that go through whole tables.  The unit is that of C48.
-/
set_option linter.unusedSectionVars false
namespace Addrs
open GoWord LawfulGoWord Prog

section
variable {α D σ : Type} [LawfulGoWord α] [Inhabited D] [Comparable D] {F : Nat}

theorem Table.Reachable.nodes_le {T : Table α D} (hT : T.Reachable) : T.trie.nodes ≤ 2 * T.listed.length - 1 := by
  rw [Table.listed_eq, Table.pairs, List.length_map]
  by_cases hn : T.trie = .nil
  · rw [hn]; simp [Trie.nodes]
  · have := hT.good.inv.nodes_le hn; omega

theorem TCall.cost (hF : 2 * width α + 3 ≤ F) {r : List (Label (tableLib α D σ F) × Nat)} {s : TState α D σ F}
    (h : Run .init r s) {i : Nat} {c : TCall α D σ} (hs : .start i c ∈ s.log) {n a : Nat}
    (hc : ∀ v, c.pre → (∀ t ∈ c.vals, ∃ T : Table α D, t.Is v T ∧ t.Is s.mem T ∧ T.Reachable) →
      (c.code F).Takes (fun _ _ => True) v n a) :
    numSteps i r ≤ n + 1 ∧ numNew i r ≤ a := by
  have ok := tableLib_ok (α := α) (D := D) (σ := σ) hF
  refine h.takes ok (ld := fun _ _ => True) (fun _ _ _ _ _ => trivial) hs (fun _ _ _ _ _ _ => trivial) ?_
  intro v le hp hv
  refine hc v hp fun t ht => ?_
  obtain ⟨T, h1, h2⟩ := hv t ht
  exact ⟨T, h1, h1.mono le, h2⟩

theorem Obj.Is.trie_eq {v : View α D} {t : Obj D} {T T' : Table α D} (h : t.Is v T) (h' : t.Is v T') : T'.trie = T.trie :=
  h'.1.functional h.1

theorem Obj.Is.nodes_le {v : View α D} {t : Obj D} {T T' : Table α D} (h : t.Is v T) (h' : t.Is v T') (hT : T'.Reachable) :
    T'.trie.nodes ≤ 2 * T.listed.length - 1 := by
  have := hT.nodes_le
  rw [Table.listed_eq, Table.pairs] at this ⊢
  rw [h.trie_eq h'] at this ⊢
  exact this

/-- `Walk` of a table with `N` entries takes at most `2 * N + 1` steps and allocates nothing. -/
theorem C66_walk (hF : 2 * width α + 3 ≤ F) {r : List (Label (tableLib α D σ F) × Nat)} {s : TState α D σ F}
    (h : Run .init r s) {i : Nat} {t : Obj D} {cb : Prefix α → D → σ → σ × Bool} {st : σ}
    (hs : .start i (.walk t cb st) ∈ s.log) {T : Table α D} (hT : t.Is s.mem T) :
    numSteps i r ≤ 2 * T.listed.length + 1 ∧ numNew i r = 0 := by
  have key := TCall.cost hF h hs (n := 2 * T.listed.length) (a := 0) ?_
  · omega
  · intro v hp hv
    obtain ⟨T', h1, h2, h3⟩ := hv t (by simp [TCall.vals])
    have := hT.nodes_le h2 h3
    exact (Takes.last ((Heap.reads_walk F _ h1.1 st).takes)).mono (by omega) (Nat.le_refl _)

/-- `Diff` of tables with `N` and `M` entries takes at most `4 * (N + M) + 1` steps and allocates nothing. -/
theorem C66_diff (hF : 2 * width α + 3 ≤ F) {r : List (Label (tableLib α D σ F) × Nat)} {s : TState α D σ F}
    (h : Run .init r s) {i : Nat} {t u : Obj D} {cb : TableDiffCallbacks α D σ} {st : σ}
    (hs : .start i (.diff t u cb st) ∈ s.log) {T U : Table α D} (hT : t.Is s.mem T) (hU : u.Is s.mem U) :
    numSteps i r ≤ 4 * (T.listed.length + U.listed.length) + 1 ∧ numNew i r = 0 := by
  have key := TCall.cost hF h hs (n := 4 * (T.listed.length + U.listed.length)) (a := 0) ?_
  · omega
  · intro v hp hv
    obtain ⟨T', h1, h2, h3⟩ := hv t (by simp [TCall.vals])
    obtain ⟨U', h4, h5, h6⟩ := hv u (by simp [TCall.vals])
    have := hT.nodes_le h2 h3
    have := hU.nodes_le h5 h6
    exact (Takes.last ((Heap.reads_Diff F _ _ h1.1 h4.1 st).takes)).mono (by omega) (Nat.le_refl _)

/-- `Map` of a table with `N` entries takes at most `24 * N + 1` steps and allocates at most `2 * N` nodes. -/
theorem C66_map (hF : 2 * width α + 3 ≤ F) {r : List (Label (tableLib α D σ F) × Nat)} {s : TState α D σ F}
    (h : Run .init r s) {i : Nat} {t : Obj D} {f : Option (Prefix α → D → σ → D × σ)} {st : σ}
    (hs : .start i (.map t f st) ∈ s.log) {T : Table α D} (hT : t.Is s.mem T) :
    numSteps i r ≤ 24 * T.listed.length + 1 ∧ numNew i r ≤ 2 * T.listed.length := by
  refine TCall.cost hF h hs ?_
  intro v hp hv
  obtain ⟨T', h1, h2, h3⟩ := hv t (by simp [TCall.vals])
  have := hT.nodes_le h2 h3
  have hd := h3.deep
  exact (Takes.last (Heap.takes_xMap h1 (by omega) f st hp)).mono (by omega) (by omega)

/-- `Aggregate` of a table with `N` entries takes at most `30 * N + 1` steps and allocates at most `2 * N` nodes. -/
theorem C66_aggregate (hF : 2 * width α + 3 ≤ F) {r : List (Label (tableLib α D σ F) × Nat)} {s : TState α D σ F}
    (h : Run .init r s) {i : Nat} {t : Obj D} (hs : .start i (.aggregate t) ∈ s.log) {T : Table α D} (hT : t.Is s.mem T) :
    numSteps i r ≤ 30 * T.listed.length + 1 ∧ numNew i r ≤ 2 * T.listed.length := by
  refine TCall.cost hF h hs ?_
  intro v hp hv
  obtain ⟨T', h1, h2, h3⟩ := hv t (by simp [TCall.vals])
  have := hT.nodes_le h2 h3
  have hd := h3.deep
  exact (Takes.last (Heap.takes_xAggregate h1 h3 (by omega) hp)).mono (by omega) (by omega)

end

namespace Sample

/-- the table of two entries of `sD` (three nodes) is gone through, compared with a snapshot, mapped and aggregated -/
def addOne : Prefix (BitVec 32) → Nat → Unit → Nat × Unit := fun _ n s => (n + 1, s)
def goOn : Prefix (BitVec 32) → Nat → Unit → Unit × Bool := fun _ _ s => (s, true)
def runE : List (Sched TL) :=
  [.call (.walk xD goOn ()), .finish 7, .call (.diff xD x1 noCb ()), .finish 8, .call (.map xD (some addOne) ()), .finish 9,
   .call (.aggregate xD), .finish 10]
set_option maxRecDepth 100000 in
theorem runE_ok : (exec sD runE).isSome := rfl
def sE : State TL := after sD runE runE_ok
set_option maxRecDepth 100000 in
theorem sE_log : sE.log = sD.log ++ [.start 7 (.walk xD goOn ()), .done 7 (.walked ((), true)), .start 8 (.diff xD x1 noCb ()),
    .done 8 (.walked ((), true)), .start 9 (.map xD (some addOne) ()), .done 9 (.mapped ⟨some 5, .dflt⟩ ()),
    .start 10 (.aggregate xD), .done 10 (.table ⟨some 2, .nil⟩)] := rfl

theorem sE_reach : sE.Reach := by
  refine sD_reach.steps (after_steps runE_ok ?_)
  have k1 : sD.Known x1 := Or.inr ⟨2, .table x1, by rw [sD_log]; simp [log1], List.mem_singleton_self _⟩
  have kD : sD.Known xD := Or.inr ⟨6, .table xD, by rw [sD_log]; simp [logD], List.mem_singleton_self _⟩
  intro c hc
  simp only [runE, List.mem_cons, reduceCtorEq, List.not_mem_nil, or_false, false_or] at hc
  rcases hc with h | h | h | h <;> cases h
  · exact ⟨trivial, fun x hx => by cases List.mem_singleton.mp hx; exact kD⟩
  · refine ⟨(⟨fun h => (by cases h), fun _ cmp h => (by cases h)⟩ : HasEq xD ∧ (noCb.unchanged = none →
      ∀ cmp, xD.eq = .custom cmp → (∀ x, cmp x x = true) ∨ noCb.changed = none)), fun x hx => ?_⟩
    rcases List.mem_cons.mp hx with rfl | hx
    · exact kD
    · cases List.mem_singleton.mp hx; exact k1
  · exact ⟨Or.inr (Or.inr rfl), fun x hx => by cases List.mem_singleton.mp hx; exact kD⟩
  · exact ⟨Or.inr rfl, fun x hx => by cases List.mem_singleton.mp hx; exact kD⟩

theorem xD_is : ∃ T : Table (BitVec 32) Nat, xD.Is sE.mem T ∧ T.listed.length = 2 := by
  obtain ⟨T, h, _⟩ := C64_table (by decide) sE_reach (x := xD)
    (Or.inr ⟨6, .table xD, by rw [sE_log, sD_log]; simp [logD], List.mem_singleton_self _⟩)
  refine ⟨T, h, ?_⟩
  have d : Den sE.mem xD.trie (Trie.node _ _ _ _ _ (Trie.node _ _ _ _ _ .nil .nil) (Trie.node _ _ _ _ _ .nil .nil)) :=
    .node rfl (.node rfl .nil .nil) (.node rfl .nil .nil)
  rw [Table.listed_eq, Table.pairs, h.1.functional d]
  rfl
theorem x1_is : ∃ T : Table (BitVec 32) Nat, x1.Is sE.mem T ∧ T.listed.length = 1 := by
  obtain ⟨T, h, _⟩ := C64_table (by decide) sE_reach (x := x1)
    (Or.inr ⟨2, .table x1, by rw [sE_log, sD_log]; simp [log1], List.mem_singleton_self _⟩)
  refine ⟨T, h, ?_⟩
  have d : Den sE.mem x1.trie (Trie.node _ _ _ _ _ .nil .nil) := .node rfl .nil .nil
  rw [Table.listed_eq, Table.pairs, h.1.functional d]
  rfl

example : ∃ r, Run .init r sE ∧ numSteps 7 r ≤ 2 * 2 + 1 ∧ numSteps 8 r ≤ 4 * (2 + 1) + 1 ∧ numNew 9 r ≤ 2 * 2 ∧
    numSteps 10 r ≤ 30 * 2 + 1 := by
  obtain ⟨r, hr⟩ := sE_reach.run
  obtain ⟨T, hT, e⟩ := xD_is
  obtain ⟨U, hU, e'⟩ := x1_is
  refine ⟨r, hr, ?_, ?_, ?_, ?_⟩
  · have := (C66_walk (by decide) hr (i := 7) (cb := goOn) (st := ()) (by rw [sE_log]; simp) hT).1; rw [e] at this; exact this
  · have := (C66_diff (by decide) hr (i := 8) (cb := noCb) (st := ()) (by rw [sE_log]; simp) hT hU).1; rw [e, e'] at this; exact this
  · have := (C66_map (by decide) hr (i := 9) (f := some addOne) (st := ()) (by rw [sE_log]; simp) hT).2; rw [e] at this; exact this
  · have := (C66_aggregate (by decide) hr (i := 10) (by rw [sE_log]; simp) hT).1; rw [e] at this; exact this

end Sample
end Addrs

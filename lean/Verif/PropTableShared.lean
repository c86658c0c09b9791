import Verif.PropConcTables
/-
  Property C30: `Diff` skips pairs of sub-tables that are the same object when there is no callback for
  unchanged entries.  Nobody can tell.
-/
set_option linter.unusedSectionVars false
namespace Addrs
open GoWord LawfulGoWord

/-- related callbacks, called on the same things, end in related states -/
theorem visit_rel {β σ τ : Type} {R : σ → τ → Prop} {f : β → σ → σ × Bool} {g : β → τ → τ × Bool}
    (h : ∀ x s t, R s t → R (f x s).1 (g x t).1 ∧ (f x s).2 = (g x t).2) :
    ∀ (l : List β) (s : σ) (t : τ), R s t → R (visit f l s).1 (visit g l t).1 ∧ (visit f l s).2 = (visit g l t).2
  | [], _, _, hr => ⟨hr, rfl⟩
  | x :: l, s, t, hr => by
    have h1 := h x s t hr
    unfold visit
    cases hf : f x s with
    | mk s' b =>
      cases hg : g x t with
      | mk t' b' =>
        rw [hf, hg] at h1
        obtain ⟨h2, h3⟩ := h1
        simp only at h2 h3
        subst h3
        cases b
        · exact ⟨h2, rfl⟩
        · exact visit_rel h l s' t' h2

section
variable {α D σ τ : Type}

/-- The callbacks `cb` for changed, removed and added entries, next to which there is a callback `g` for
    unchanged entries, which works on a state of its own, or none. -/
def TableDiffCallbacks.with (cb : TableDiffCallbacks α D σ) (g : Option (Prefix α → D → τ → τ)) :
    TableDiffCallbacks α D (σ × τ) where
  changed := cb.changed.map fun f p v w s => (((f p v w s.1).1, s.2), (f p v w s.1).2)
  left := cb.left.map fun f p v s => (((f p v s.1).1, s.2), (f p v s.1).2)
  right := cb.right.map fun f p v s => (((f p v s.1).1, s.2), (f p v s.1).2)
  unchanged := g.map fun f p v s => ((s.1, f p v s.2), true)

variable [LawfulGoWord α] [Inhabited D]

theorem Table.diff_with (T U : Table α D) (cb : TableDiffCallbacks α D σ) (g g' : Option (Prefix α → D → τ → τ))
    (a : σ) (b b' : τ) :
    (T.diff U (cb.with g) (a, b)).1.1 = (T.diff U (cb.with g') (a, b')).1.1 ∧
    (T.diff U (cb.with g) (a, b)).2 = (T.diff U (cb.with g') (a, b')).2 := by
  unfold Table.diff
  rw [Trie.Diff_eq, Trie.Diff_eq]
  refine visit_rel (R := fun (x y : σ × τ) => x.1 = y.1) ?_ _ _ _ rfl
  rintro v ⟨a, b⟩ ⟨a', b'⟩ rfl
  cases v with
  | removed x =>
    simp only [Trie.dispatch, Trie.orNoop1, TableDiffCallbacks.with]
    cases cb.left <;> exact ⟨rfl, rfl⟩
  | added x =>
    simp only [Trie.dispatch, Trie.orNoop1, TableDiffCallbacks.with]
    cases cb.right <;> exact ⟨rfl, rfl⟩
  | both x y =>
    simp only [Trie.dispatch, Trie.orNoop1, Trie.orNoop2, TableDiffCallbacks.with]
    split
    · cases g <;> cases g' <;> exact ⟨rfl, rfl⟩
    · cases cb.changed <;> exact ⟨rfl, rfl⟩

end

section
variable {α D σ τ : Type} [LawfulGoWord α] [Inhabited D] [Comparable D] {F : Nat}

/-- Two `Diff` calls on the same tables, however these were made and whatever structure they share, one with
    a callback for unchanged entries and one without (so that shared sub-tables are skipped), do the same
    with the other callbacks: these end in the same state, and the calls return the same.  (`TCall.pre` asks
    that the comparison function is reflexive, or that there is no callback for changed entries.) -/
theorem C30_shared (hF : 2 * width α + 3 ≤ F) {s : TState α D (σ × τ) F} (h : s.Reach) {i j : Nat} {t u : Obj D}
    {cb : TableDiffCallbacks α D σ} {g : Prefix α → D → τ → τ} {a : σ} {b b' : τ} {z z' : TVal α D (σ × τ)}
    (hi : .start i (.diff t u (cb.with none) (a, b)) ∈ s.log) (hz : .done i z ∈ s.log)
    (hj : .start j (.diff t u (cb.with (some g)) (a, b')) ∈ s.log) (hz' : .done j z' ∈ s.log) :
    ∃ r r' b1 b2, z = .walked ((r, b1), r') ∧ z' = .walked ((r, b2), r') := by
  have ok := tableLib_ok (α := α) (D := D) (σ := σ × τ) hF
  obtain ⟨U, h1, _, _, T, h2, _, rfl⟩ := done_spec' ok h hi hz
  obtain ⟨U', h3, _, _, T', h4, _, rfl⟩ := done_spec' ok h hj hz'
  cases h3.functional h1
  cases h4.functional h2
  obtain ⟨e1, e2⟩ := Table.diff_with T U cb none (some g) a b b'
  revert e1 e2
  simp only []
  generalize T.diff U (cb.with none) (a, b) = x
  generalize T.diff U (cb.with (some g)) (a, b') = y
  obtain ⟨⟨x1, x2⟩, x3⟩ := x
  obtain ⟨⟨y1, y2⟩, y3⟩ := y
  rintro rfl rfl
  exact ⟨_, _, _, _, rfl, rfl⟩

end

namespace Shared
open Sample (c1 c2 c3 c1_wf c2_wf c3_wf)

/-- tables of numbers; the callbacks record prefixes in two lists -/
abbrev DL := tableLib (BitVec 32) Nat (List (Prefix (BitVec 32)) × List (Prefix (BitVec 32))) 67

/-- a snapshot of a table with two entries; and one after one of them is updated -/
def setup : List (Sched DL) :=
  [.call .new_, .finish 0, .call (.op (some 0) (.insert c1 7)), .finish 1, .call (.op (some 0) (.insert c3 8)), .finish 2,
   .call (.freeze (some 0)), .finish 3, .call (.op (some 0) (.update c3 9)), .finish 4, .call (.freeze (some 0)), .finish 5]
def old : Obj Nat := ⟨some 2, .dflt⟩
def new : Obj Nat := ⟨some 4, .dflt⟩
set_option maxRecDepth 100000 in
theorem setup_ok : (exec State.init setup).isSome := rfl
def setupState : State DL := final setup setup_ok
theorem setup_reach : setupState.Reach := by
  refine final_reach setup_ok ?_
  intro c hc
  simp only [setup, List.mem_cons, reduceCtorEq, List.not_mem_nil, or_false, false_or] at hc
  rcases hc with h | h | h | h | h | h <;> cases h
  · exact ⟨trivial, rfl⟩
  · exact ⟨fun _ => ⟨c1_wf, by simp⟩, rfl⟩
  · exact ⟨fun _ => ⟨c3_wf, by simp⟩, rfl⟩
  · exact ⟨trivial, rfl⟩
  · exact ⟨fun _ => ⟨c3_wf, by simp⟩, rfl⟩
  · exact ⟨trivial, rfl⟩
theorem old_at : setupState.log[15]? = some (.done 3 (.table old)) := by
  set_option maxRecDepth 100000 in rfl
theorem new_at : setupState.log[23]? = some (.done 5 (.table new)) := by
  set_option maxRecDepth 100000 in rfl
theorem known : ∀ x ∈ [old, new], setupState.Known x := by
  intro x hx
  simp only [List.mem_cons, List.not_mem_nil, or_false] at hx
  rcases hx with rfl | rfl
  · exact Or.inr ⟨3, _, List.mem_of_getElem? old_at, List.mem_singleton_self _⟩
  · exact Or.inr ⟨5, _, List.mem_of_getElem? new_at, List.mem_singleton_self _⟩

/-- record what has changed -/
def cb : TableDiffCallbacks (BitVec 32) Nat (List (Prefix (BitVec 32))) where
  changed := some fun p _ _ s => (s ++ [p], true)
  left := some fun p _ s => (s ++ [p], true)
  right := some fun p _ s => (s ++ [p], true)
  unchanged := none
/-- record what has not changed -/
def rec' (p : Prefix (BitVec 32)) (_ : Nat) (s : List (Prefix (BitVec 32))) : List (Prefix (BitVec 32)) := s ++ [p]
def both : List (Sched DL) :=
  [.call (.diff old new (cb.with none) ([], [])), .finish 6, .call (.diff old new (cb.with (some rec')) ([], [])), .finish 7]
set_option maxRecDepth 100000 in
theorem both_ok : (exec setupState both).isSome := rfl
def bothState : State DL := after setupState both both_ok
theorem both_reach : bothState.Reach := by
  refine setup_reach.steps (after_steps both_ok ?_)
  intro c hc
  simp only [both, List.mem_cons, reduceCtorEq, List.not_mem_nil, or_false, false_or] at hc
  rcases hc with h | h <;> cases h
  · exact ⟨⟨fun (h : EqFn.dflt = EqFn.nil) => (by cases h), fun _ _ h => (by cases h)⟩, known⟩
  · exact ⟨⟨fun (h : EqFn.dflt = EqFn.nil) => (by cases h), fun _ _ h => (by cases h)⟩, known⟩
theorem start6 : bothState.log[24]? = some (.start 6 (.diff old new (cb.with none) ([], []))) := by
  set_option maxRecDepth 100000 in rfl
theorem done6 : bothState.log[25]? = some (.done 6 (.walked (([c3.toPrefix], []), true))) := by
  set_option maxRecDepth 100000 in rfl
theorem start7 : bothState.log[26]? = some (.start 7 (.diff old new (cb.with (some rec')) ([], []))) := by
  set_option maxRecDepth 100000 in rfl
theorem done7 : bothState.log[27]? = some (.done 7 (.walked (([c3.toPrefix], [c1.toPrefix]), true))) := by
  set_option maxRecDepth 100000 in rfl

end Shared
open Shared in
example := C30_shared (by decide) both_reach (List.mem_of_getElem? start6) (List.mem_of_getElem? done6)
  (List.mem_of_getElem? start7) (List.mem_of_getElem? done7)

end Addrs

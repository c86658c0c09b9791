import Verif.ReenterWalk
import Verif.PropTableDiff
import Verif.TableLib
/-
  `Diff` of a table without comparison function: it panics at the first entry that both tables have.
-/
set_option linter.unusedSectionVars false
set_option linter.unusedSimpArgs false
namespace Addrs
open GoWord LawfulGoWord Heap Prog

section
variable {α D σ : Type} [LawfulGoWord α] [Inhabited D]

/-- an entry that both tables have -/
def Change.common : Change α D → Bool
  | .both .. => true
  | _ => false

/-- The callbacks have been told all changes up to an entry that both tables have: it is not among the first
    changes `C1`, and no callback has returned false for them. -/
def MeetsCommon (cb : TableDiffCallbacks α D σ) (C : List (Change α D)) (s : σ) : Prop :=
  ∃ C1 c C2, C = C1 ++ c :: C2 ∧ c.common = true ∧ (∀ d ∈ C1, d.common = false) ∧
    (visit (Change.report (fun _ _ => false) cb) C1 s).2 = true

/-- what happens for a change, without comparison function -/
def nilReport (cb : TableDiffCallbacks α D σ) (c : Change α D) (s : σ) : Prog α D (σ × Bool) :=
  if c.common then panic else pure (Change.report (fun _ _ => false) cb c s)

theorem run_nilReport (cb : TableDiffCallbacks α D σ) (C : List (Change α D)) (s : σ) (m : Mem α D) :
    (MeetsCommon cb C s → (visitM (nilReport cb) C s).run m = (.panic, m)) ∧
    (¬ MeetsCommon cb C s → (visitM (nilReport cb) C s).run m = (.ret (visit (Change.report (fun _ _ => false) cb) C s), m)) := by
  induction C generalizing s with
  | nil =>
    refine ⟨?_, fun _ => rfl⟩
    rintro ⟨C1, c, C2, h, _⟩
    cases C1 <;> cases h
  | cons c C ih =>
    cases hc : c.common with
    | true =>
      have e : (visitM (nilReport cb) (c :: C) s).run m = (.panic, m) := by
        simp only [visitM, nilReport, hc, if_true]; rfl
      refine ⟨fun _ => e, fun hn => (hn ⟨[], c, C, rfl, hc, (by simp), rfl⟩).elim⟩
    | false =>
      cases hr : Change.report (fun _ _ => false) cb c s with
      | mk s' b =>
        have e : (visitM (nilReport cb) (c :: C) s).run m = (if b then visitM (nilReport cb) C s' else pure (s', false)).run m := by
          simp only [visitM, nilReport, hc, Bool.false_eq_true, if_false, hr, bind_pure']
        rw [e]
        have meets : MeetsCommon cb (c :: C) s ↔ b = true ∧ MeetsCommon cb C s' := by
          constructor
          · rintro ⟨C1, d, C2, h1, h2, h3, h4⟩
            cases C1 with
            | nil => cases h1; rw [hc] at h2; cases h2
            | cons d1 C1 =>
              cases h1
              cases b with
              | false => simp only [visit, hr, Bool.false_eq_true, if_false] at h4
              | true =>
                simp only [visit, hr, if_true] at h4
                exact ⟨rfl, C1, d, C2, rfl, h2, fun x hx => h3 x (List.mem_cons_of_mem _ hx), h4⟩
          · rintro ⟨rfl, C1, d, C2, rfl, h2, h3, h4⟩
            refine ⟨c :: C1, d, C2, rfl, h2, ?_, ?_⟩
            · intro x hx
              rcases List.mem_cons.mp hx with rfl | hx
              · exact hc
              · exact h3 x hx
            · simp only [visit, hr, if_true]; exact h4
        rw [meets]
        cases b with
        | false =>
          refine ⟨fun h => Bool.noConfusion h.1, fun _ => ?_⟩
          simp only [visit, hr, Bool.false_eq_true, if_false]; rfl
        | true =>
          simp only [visit, hr, if_true, true_and]
          exact ih s'

/-- `Diff` of a table whose comparison function panics, if `unchanged` is given or if no entry is in both tables -/
theorem run_xDiff_nil [GoType D] {F : Nat} {T U : Table α D} (hb : T.trie.Boxed) (hb' : U.trie.Boxed)
    {l r : Obj D} {m : Mem α D} (h1 : Den m.nodes l.trie T.trie) (h2 : Den m.nodes r.trie U.trie) (hn : ∀ a b, l.eq.call (some a) (some b) = none)
    (hF : T.trie.deep + U.trie.deep < F) (cb : TableDiffCallbacks α D σ) (s : σ)
    (hc : cb.unchanged ≠ none ∨ ∀ c ∈ Table.changes T U, c.common = false) :
    (MeetsCommon cb (Table.changes T U) s → (xDiff F l r cb s).run m = (.panic, m)) ∧
    (¬ MeetsCommon cb (Table.changes T U) s →
      (xDiff F l r cb s).run m = (.ret (visit (Change.report (fun _ _ => false) cb) (Table.changes T U) s), m)) := by
  suffices h : (xDiff F l r cb s).run m = (visitM (nilReport cb) (Table.changes T U) s).run m by
    rw [h]; exact run_nilReport cb _ s m
  unfold Table.changes
  rw [visitM_map]
  unfold xDiff Diff
  refine run_diff_on (ok := fun v => cb.unchanged = none → (Table.toChange v).common = false) ?_ ?_ ?_ ?_ ?_ F hF hb hb' ?_ h1 h2
  · intro c s m
    cases ha : c.active with
    | false => simp only [ha, Trie.ev1, Bool.false_eq_true, if_false]; rfl
    | true =>
      simp only [ha, Trie.ev1, if_true, visitM_one, Table.toChange, nilReport, Change.common, Bool.false_eq_true, if_false]
      simp only [Change.report, TableDiffCallbacks.boxed, Trie.orNoop1]
      cases cb.left <;> rfl
  · intro c s m
    cases ha : c.active with
    | false => simp only [ha, Trie.ev2, Bool.false_eq_true, if_false]; rfl
    | true =>
      simp only [ha, Trie.ev2, if_true, visitM_one, Table.toChange, nilReport, Change.common, Bool.false_eq_true, if_false]
      simp only [Change.report, TableDiffCallbacks.boxed, Trie.orNoop1]
      cases cb.right <;> rfl
  · intro c d s m hcd hdd
    cases ha : c.active <;> cases hd : d.active <;> simp only [ha, hd, Trie.ev, Bool.and_false, Bool.false_and, Bool.and_self, Bool.false_eq_true, if_false, if_true]
    · rfl
    · rw [visitM_one]
      simp only [Table.toChange, nilReport, Change.common, Bool.false_eq_true, if_false]
      simp only [Change.report, TableDiffCallbacks.boxed, Trie.orNoop1]
      cases cb.right <;> rfl
    · rw [visitM_one]
      simp only [Table.toChange, nilReport, Change.common, Bool.false_eq_true, if_false]
      simp only [Change.report, TableDiffCallbacks.boxed, Trie.orNoop1]
      cases cb.left <;> rfl
    · rw [visitM_one]
      obtain ⟨x, hx⟩ := Option.isSome_iff_exists.mp (hcd ha)
      obtain ⟨y, hy⟩ := Option.isSome_iff_exists.mp (hdd hd)
      simp only [Table.toChange, nilReport, Change.common, if_true, hx, hy, hn]
      rfl
  · intro x s
    unfold nilReport
    split <;> trivial
  · intro hn' t s m hbt hok
    have hu : cb.unchanged = none := by
      simp only [TableDiffCallbacks.boxed] at hn'
      cases h : cb.unchanged with
      | none => rfl
      | some f => rw [h] at hn'; cases hn'
    have : Trie.events t t = [] := by
      cases he : Trie.events t t with
      | nil => rfl
      | cons v E =>
        have hv : v ∈ Trie.events t t := by rw [he]; exact List.mem_cons_self
        obtain ⟨x, rfl, _⟩ := Trie.events_self hbt v hv
        exact absurd (hok _ hv hu) (by simp [Table.toChange, Change.common])
    rw [this]
    rfl
  · intro v hv hu
    rcases hc with hc | hc
    · exact (hc hu).elim
    · exact hc _ (List.mem_map.mpr ⟨v, hv, rfl⟩)

end
end Addrs

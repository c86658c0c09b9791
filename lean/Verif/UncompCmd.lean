import Verif.UncompStep
import Verif.UncompAgg
/-
  One call of a sequential program over values that `==` cannot compare: on plain tables, all calls.
-/
set_option linter.unusedSectionVars false
namespace Addrs
open GoWord LawfulGoWord Heap Prog

section
variable {α D σ : Type} [LawfulGoWord α] [Inhabited D] [Comparable D] {A : GoType D} {F : Nat}

/-- the `h`th variable -/
def TWorld.cell (w : TWorld α D) (i : Nat) : AbsTable α D := (w.vars[i]?).getD .zero

/-- the call panics when values cannot be compared -/
def TCmd.UCrash (w : TWorld α D) : TCmd α D σ → Prop
  | op none o => o.writes = true
  | op (some i) o => o.UCrash (w.cell i)
  | map t f _ => f.isSome = true ∧ (w.val t).table.trie ≠ .nil
  | aggregate t => match (w.val t).cmp with
    | .custom _ => Trie.AggSafe (w.val t).table.cmp goEq none (w.val t).table.trie = false ∨
      Trie.AggCrash (w.val t).table.cmp goEq none (w.val t).table.trie
    | _ => (w.val t).table.trie ≠ .nil
  | diff t u cb s => (∀ e, (w.val t).cmp ≠ .custom e) ∧ MeetsCommon cb (Table.changes (w.val t).table (w.val u).table) s
  | _ => False

/-- the call can be made, but it may panic -/
def TCmd.UAllowed (w : TWorld α D) (c : TCmd α D σ) : Prop :=
  c.Allowed w ∧ ∀ t u cb s, c = .diff t u cb s → (w.val t).cmp = .dflt →
    cb.unchanged ≠ none ∨ ∀ c ∈ Table.changes (w.val t).table (w.val u).table, c.common = false

/-- all tables have values at the entries only -/
structure TWorld.Tidy (w : TWorld α D) : Prop where
  vars : ∀ {i : Nat} {a : AbsTable α D}, w.vars[i]? = some a → a.table.trie.Tidy
  vals : ∀ {i : Nat} {a : AbsTable α D}, w.vals[i]? = some a → a.table.trie.Tidy

namespace TWorld.Tidy
variable {w : TWorld α D}

theorem neat (N : w.Tidy) : w.Neat := ⟨fun h _ _ => N.vars h, fun h _ _ => N.vals h⟩

theorem val (N : w.Tidy) (t : Nat) : (w.val t).table.trie.Tidy := by
  unfold TWorld.val
  cases e : w.vals[t]? with
  | none => exact trivial
  | some a => exact N.vals e

theorem cell (N : w.Tidy) (t : Nat) : (w.cell t).table.trie.Tidy := by
  unfold TWorld.cell
  cases e : w.vars[t]? with
  | none => exact trivial
  | some a => exact N.vars e

theorem declare (N : w.Tidy) {a : AbsTable α D} (h : a.table.trie.Tidy) : TWorld.Tidy { w with vars := w.vars ++ [a] } where
  vals := N.vals
  vars := by
    intro i b hb
    rcases List.mem_append.mp (List.mem_of_getElem? hb) with hb | hb
    · obtain ⟨j, hj⟩ := List.mem_iff_getElem?.mp hb; exact N.vars hj
    · rw [List.mem_singleton.mp hb]; exact h

theorem got (N : w.Tidy) {a : AbsTable α D} (h : a.table.trie.Tidy) : (w.got a).Tidy where
  vars := N.vars
  vals := by
    intro i b hb
    rcases List.mem_append.mp (List.mem_of_getElem? hb) with hb | hb
    · obtain ⟨j, hj⟩ := List.mem_iff_getElem?.mp hb; exact N.vals hj
    · rw [List.mem_singleton.mp hb]; exact h

theorem assign (N : w.Tidy) (h : Option Nat) {T : Table α D} (hT : T.trie.Tidy) : (w.assign h T).Tidy := by
  cases h with
  | none => exact N
  | some o =>
    refine ⟨?_, N.vals⟩
    intro i b hb
    simp only [TWorld.assign, List.getElem?_modify] at hb
    by_cases e : o = i
    · subst e
      cases ev : w.vars[o]? with
      | none => rw [ev] at hb; cases hb
      | some a =>
        rw [ev] at hb
        simp only [if_true, Option.map_eq_map, Option.map_some, Option.some.injEq] at hb
        subst hb
        exact hT
    · simp only [if_neg e, Option.map_eq_map, Option.map_id'] at hb
      exact N.vars hb

theorem init : TWorld.Tidy (⟨[], [.zero]⟩ : TWorld α D) where
  vars := fun h => by simp at h
  vals := fun {i a} h => by
    have := List.mem_of_getElem? h
    rw [List.mem_singleton.mp this]
    trivial

theorem var (N : w.Tidy) (h : Option Nat) : (w.var h).trie.Tidy := by
  cases h with
  | none => trivial
  | some i => exact N.cell i

theorem ideal (N : w.Tidy) {c : TCmd α D σ} (hc : ¬ c.UCrash w) : (c.ideal w).2.Tidy := by
  cases c with
  | new_ => exact N.declare trivial
  | newCustom cmp => exact N.declare trivial
  | op h o => exact N.assign h (Table.tidy_step (N.var h) o)
  | longest h k => exact N
  | num h => exact N
  | freeze h =>
    cases h with
    | none => exact N.got trivial
    | some o => exact N.got (N.cell o)
  | thaw t => exact N.declare (N.val t)
  | xget t k => exact N
  | xlongest t k => exact N
  | xnum t => exact N
  | walk t cb s => exact N
  | diff t u cb s => exact N
  | map t f s =>
    refine N.got ?_
    cases f with
    | none => exact N.val t
    | some f =>
      have hn : (w.val t).table.trie = .nil := Classical.byContradiction fun h => hc ⟨rfl, h⟩
      refine Table.tidy_map (N.val t) ?_ (some f) s
      rw [hn]; trivial
  | aggregate t => exact N.got ((N.val t).aggregate none)

end TWorld.Tidy

theorem xDiff_custom {e : D → D → Bool} {l : Obj D} (hl : l.eq = .custom e ∨ l.eq = .nil) (B : GoType D) (r : Obj D) (cb : TableDiffCallbacks α D σ) (s : σ) :
    @xDiff α D _ A _ σ F l r cb s = @xDiff α D _ B _ σ F l r cb s := by
  unfold xDiff
  rcases hl with h | h <;> rw [h] <;> rfl

/-- a call, with values that cannot be compared -/
theorem TCmd.step_un (hle : A.Le Comparable.toGoType) (hA : ∀ a b, A.eqq a b = none) (hF : 2 * width α + 3 ≤ F) {w : TWorld α D} {m : Mem α D}
    {regs : List (Obj D)} (M : w.Matches m.sight regs) (N : w.Tidy) {c : TCmd α D σ} (ha : c.UAllowed w) :
    (c.UCrash w → ((@TCall.code α D σ _ A _ F (c.call regs)).run m).1 = .panic) ∧
    (¬ c.UCrash w → (@TCall.code α D σ _ A _ F (c.call regs)).run m = (@TCall.code α D σ _ Comparable.toGoType _ F (c.call regs)).run m ∧
      ¬ c.Crash w) := by
  obtain ⟨ha, ha'⟩ := ha
  have read : ∀ {c : TCmd α D σ}, (c.call regs).writes = false → (∀ t u cb s, c.call regs ≠ .diff t u cb s) → (∀ t f s, c.call regs ≠ .map t (some f) s) →
      (∀ t, c.call regs ≠ .aggregate t) → (@TCall.code α D σ _ A _ F (c.call regs)).run m = (@TCall.code α D σ _ Comparable.toGoType _ F (c.call regs)).run m :=
    fun h1 h2 h3 h4 => by rw [code_eq F h1 h2 h3 h4]
  have hv : m.nodes ≤ m.nodes := fun _ _ h => h
  cases c with
  | new_ => exact ⟨fun h => h.elim, fun _ => ⟨read rfl (by simp [TCmd.call]) (by simp [TCmd.call]) (by simp [TCmd.call]), id⟩⟩
  | newCustom cmp => exact ⟨fun h => h.elim, fun _ => ⟨read rfl (by simp [TCmd.call]) (by simp [TCmd.call]) (by simp [TCmd.call]), id⟩⟩
  | longest h k => exact ⟨fun h => h.elim, fun _ => ⟨read rfl (by simp [TCmd.call]) (by simp [TCmd.call]) (by simp [TCmd.call]), id⟩⟩
  | num h => exact ⟨fun h => h.elim, fun _ => ⟨read rfl (by simp [TCmd.call]) (by simp [TCmd.call]) (by simp [TCmd.call]), id⟩⟩
  | freeze h => exact ⟨fun h => h.elim, fun _ => ⟨read rfl (by simp [TCmd.call]) (by simp [TCmd.call]) (by simp [TCmd.call]), id⟩⟩
  | thaw t => exact ⟨fun h => h.elim, fun _ => ⟨read rfl (by simp [TCmd.call]) (by simp [TCmd.call]) (by simp [TCmd.call]), id⟩⟩
  | xget t k => exact ⟨fun h => h.elim, fun _ => ⟨read rfl (by simp [TCmd.call]) (by simp [TCmd.call]) (by simp [TCmd.call]), id⟩⟩
  | xlongest t k => exact ⟨fun h => h.elim, fun _ => ⟨read rfl (by simp [TCmd.call]) (by simp [TCmd.call]) (by simp [TCmd.call]), id⟩⟩
  | xnum t => exact ⟨fun h => h.elim, fun _ => ⟨read rfl (by simp [TCmd.call]) (by simp [TCmd.call]) (by simp [TCmd.call]), id⟩⟩
  | walk t cb s => exact ⟨fun h => h.elim, fun _ => ⟨read rfl (by simp [TCmd.call]) (by simp [TCmd.call]) (by simp [TCmd.call]), id⟩⟩
  | op h o =>
    cases h with
    | none =>
      constructor
      · intro hw
        replace hw : o.writes = true := hw
        cases o <;> first | rfl | cases hw
      · intro hw
        replace hw : ¬ o.writes = true := hw
        exact ⟨read (by simpa [TCmd.call, TCall.writes] using hw) (by simp [TCmd.call]) (by simp [TCmd.call]) (by simp [TCmd.call]), fun h => hw h.2⟩
    | some i =>
      have hi : i < m.objs.length := by
        have := M.nvars
        simp only [Mem.sight] at this
        rw [this]; exact ha.1 i rfl
      have ho : m.objs[i]? = some m.objs[i] := List.getElem?_eq_getElem hi
      obtain ⟨a, h1, h2, h3, h4⟩ := M.var (o := i) ho
      have ea : w.cell i = a := by simp [TWorld.cell, h1]
      obtain ⟨k1, k2⟩ := op_un hle hA hF ho h3 h4 (N.vars h1) ha.2
      constructor
      · intro hc
        replace hc : o.UCrash (w.cell i) := hc
        rw [ea] at hc
        exact run_bind_panic (k1 hc) _
      · intro hc
        replace hc : ¬ o.UCrash (w.cell i) := hc
        rw [ea] at hc
        exact ⟨run_bind_same (k2 hc) _, fun h => by cases h.1⟩
  | map t f s =>
    obtain ⟨hi, hr, he⟩ := M.val ha
    have hd := hr.deep
    cases f with
    | none => exact ⟨fun h => (by cases h.1), fun _ => ⟨rfl, fun h => by cases h.1⟩⟩
    | some f =>
      constructor
      · rintro ⟨-, hn⟩
        refine Panics.run (v := m.nodes) (Panics.bind (Panics.bind ?_)) hv
        exact panics_map_any hA (fun _ _ _ => rfl) F (t := (w.val t).table.trie) (by omega) hr.good.inv (N.val t) hn hi.1
      · intro hc
        have hn : (w.val t).table.trie = .nil := Classical.byContradiction fun h => hc ⟨rfl, h⟩
        have hp : (regs.getD t .zero).trie = none := by
          have := hi.1
          rw [hn] at this
          generalize (regs.getD t .zero).trie = p at this
          cases this; rfl
        refine ⟨?_, ?_⟩
        · refine (cut_code hle F _).run_eq ?_
          show ((@TCall.code α D σ _ A _ F (.map (regs.getD t .zero) (some f) s)).run m).1 ≠ _
          obtain ⟨F, rfl⟩ : ∃ F', F = F' + 1 := ⟨F - 1, by omega⟩
          simp only [TCall.code, xMap, hp]
          intro h; cases h
        · rintro ⟨-, h⟩
          cases hcm : (w.val t).cmp with
          | nil => rw [hcm] at h; exact h hn
          | dflt => rw [hcm] at h; exact h
          | custom e => rw [hcm] at h; refine h ?_; rw [hn]; trivial
  | aggregate t =>
    obtain ⟨hi, hr, he⟩ := M.val ha.1
    have hd := hr.deep
    have plain : (∀ e, (w.val t).cmp ≠ .custom e) → ((w.val t).table.trie ≠ .nil →
        ((@TCall.code α D σ _ A _ F ((TCmd.aggregate t : TCmd α D σ).call regs)).run m).1 = .panic) ∧ ((w.val t).table.trie = .nil →
        (@TCall.code α D σ _ A _ F ((TCmd.aggregate t : TCmd α D σ).call regs)).run m =
          (@TCall.code α D σ _ Comparable.toGoType _ F ((TCmd.aggregate t : TCmd α D σ).call regs)).run m ∧ ¬ (TCmd.aggregate t : TCmd α D σ).Crash w) := by
      intro hne
      constructor
      · intro hn
        refine Panics.run (v := m.nodes) (Panics.bind (Panics.bind ?_)) hv
        refine panics_aggregate_any ?_ F (t := (w.val t).table.trie) (by omega) hr.good.inv (N.val t) hn (fun _ h => by cases h) hi.1
        intro a b
        rw [he]
        cases hcm : (w.val t).cmp with
        | nil => rfl
        | dflt => exact hA a b
        | custom e => exact (hne e hcm).elim
      · intro hn
        have hp : (regs.getD t .zero).trie = none := by
          have := hi.1
          rw [hn] at this
          generalize (regs.getD t .zero).trie = p at this
          cases this; rfl
        refine ⟨?_, ?_⟩
        · refine (cut_code hle F _).run_eq ?_
          show ((@TCall.code α D σ _ A _ F (.aggregate (regs.getD t .zero))).run m).1 ≠ _
          obtain ⟨F, rfl⟩ : ∃ F', F = F' + 1 := ⟨F - 1, by omega⟩
          simp only [TCall.code, xAggregate, hp]
          intro h; cases h
        · intro h
          replace h : match (w.val t).cmp with
            | .nil => (w.val t).table.trie ≠ .nil
            | .dflt => False
            | .custom _ => Trie.AggSafe (w.val t).table.cmp goEq none (w.val t).table.trie = false := h
          cases hcm : (w.val t).cmp with
          | nil => rw [hcm] at h; exact h hn
          | dflt => rw [hcm] at h; exact h
          | custom e => exact (hne e hcm).elim
    show (((match (w.val t).cmp with
    | .custom _ => Trie.AggSafe (w.val t).table.cmp goEq none (w.val t).table.trie = false ∨
      Trie.AggCrash (w.val t).table.cmp goEq none (w.val t).table.trie
    | _ => (w.val t).table.trie ≠ .nil) : Prop) → _) ∧ (¬ ((match (w.val t).cmp with
    | .custom _ => Trie.AggSafe (w.val t).table.cmp goEq none (w.val t).table.trie = false ∨
      Trie.AggCrash (w.val t).table.cmp goEq none (w.val t).table.trie
    | _ => (w.val t).table.trie ≠ .nil) : Prop) → _)
    cases hcm : (w.val t).cmp with
    | nil =>
      obtain ⟨k1, k2⟩ := plain (by simp [hcm])
      exact ⟨k1, fun h => k2 (Classical.not_not.mp h)⟩
    | dflt =>
      obtain ⟨k1, k2⟩ := plain (by simp [hcm])
      exact ⟨k1, fun h => k2 (Classical.not_not.mp h)⟩
    | custom e =>
      simp only
      have heq : (w.val t).table.eq = some e := by rw [hi.2, he, hcm]; rfl
      have hq : ∀ a b, Some' a → Some' b → @EqFn.call D A (.custom e) a b = some ((w.val t).table.cmp a b) := custom_some e _ heq
      have hok := (ha.2 e hcm).eqOk
      constructor
      · intro hc
        refine Panics.run (v := m.nodes) (Panics.bind (Panics.bind ?_)) hv
        rw [he, hcm]
        rcases Bool.eq_false_or_eq_true (Trie.AggSafe (w.val t).table.cmp goEq none (w.val t).table.trie) with safe | unsafe'
        · rcases hc with hc | hc
          · rw [safe] at hc; cases hc
          · exact panics_aggregate_un hle hA hq hok.refl F (by omega) hr.good.inv (N.val t) (fun _ h => by cases h) safe hc hi.1
        · refine (cut_aggregate hle (call_le hle _) F _ _).panics ?_
          exact panics_aggregate (custom_some e _ heq) rfl F (by omega) hr.good.inv (N.val t) (fun _ h => by cases h) unsafe' hi.1
      · intro hc
        have safe : Trie.AggSafe (w.val t).table.cmp goEq none (w.val t).table.trie = true := by
          rw [← Bool.not_eq_false]; exact fun h => hc (Or.inl h)
        refine ⟨?_, ?_⟩
        · refine run_bind_same (run_bind_same (Cut.run_same (R := fun _ _ => True) (W := Nowhere) (cut_aggregate hle (call_le hle _) F _ _) ?_) _) _
          rw [he, hcm]
          exact calm_aggregate hle hq hok.refl F (by omega) hr.good.inv (N.val t) (fun _ h => by cases h) safe (fun h => hc (Or.inr h)) hi.1
        · intro h
          replace h : match (w.val t).cmp with
            | .nil => (w.val t).table.trie ≠ .nil
            | .dflt => False
            | .custom _ => Trie.AggSafe (w.val t).table.cmp goEq none (w.val t).table.trie = false := h
          rw [hcm] at h
          exact hc (Or.inl h)
  | diff t u cb s =>
    have hall := ha
    obtain ⟨a1, a2, a3, a4⟩ := ha
    obtain ⟨hi, hr, he⟩ := M.val a1
    obtain ⟨hi', hr', _⟩ := M.val a2
    have hd := hr.deep
    have hd' := hr'.deep
    have same : (∃ e, (w.val t).cmp = .custom e) ∨ (w.val t).cmp = .nil → (@TCall.code α D σ _ A _ F ((TCmd.diff t u cb s).call regs)) =
        (@TCall.code α D σ _ Comparable.toGoType _ F ((TCmd.diff t u cb s).call regs)) := by
      intro h
      simp only [TCall.code, TCmd.call]
      rcases h with ⟨e, h⟩ | h
      · rw [xDiff_custom (e := e) (Or.inl (he.trans h)) Comparable.toGoType]
      · rw [xDiff_custom (e := fun _ _ => true) (Or.inr (he.trans h)) Comparable.toGoType]
    cases hcm : (w.val t).cmp with
    | custom e =>
      refine ⟨fun h => (h.1 e hcm).elim, fun _ => ⟨by rw [same (Or.inl ⟨e, hcm⟩)], fun h => ?_⟩⟩
      rw [h.1] at hcm; cases hcm
    | nil =>
      rw [same (Or.inr hcm)]
      refine ⟨fun h => TCmd.step_panic hF M N.neat hall ⟨hcm, h.2⟩, fun h => ⟨rfl, fun h' => h ⟨?_, h'.2⟩⟩⟩
      simp [hcm]
    | dflt =>
      have h := run_xDiff_nil (F := F) (m := m) (s := s) hr.boxed hr'.boxed hi.1 hi'.1 (fun a b => by rw [he.trans hcm]; exact hA a b) (by omega) cb
        (ha' t u cb s rfl hcm)
      constructor
      · intro hc
        refine run_bind_panic ?_ _
        rw [h.1 hc.2]
      · intro hc
        refine ⟨(cut_code hle F _).run_eq ?_, fun h => ?_⟩
        · show ((@xDiff α D _ A _ σ F _ _ cb s >>= _).run m).1 ≠ _
          rw [run_bind, h.2 fun h => hc ⟨by simp [hcm], h⟩]
          intro h; cases h
        · rw [h.1] at hcm; cases hcm

end
end Addrs

import Verif.Tidy
import Verif.SeqTable
import Verif.ReenterMap
import Verif.PropReenter
import Verif.PanicsDiff
/-
  One call of a sequential program that may panic: on plain tables.
-/
set_option linter.unusedSectionVars false
namespace Addrs
open GoWord LawfulGoWord Heap

section
variable {α D σ : Type} [LawfulGoWord α] [Inhabited D] [Comparable D] {F : Nat}

/-- The call panics: an uninitialised `Table_` is modified; `Map` or `Aggregate` calls a comparison function that
    is nil, or passes nil interfaces to a custom one; `Diff` calls a comparison function that is nil. -/
def TCmd.Crash (w : TWorld α D) : TCmd α D σ → Prop
  | op h o => h = none ∧ o.writes = true
  | map t f _ => f.isSome = true ∧ match (w.val t).cmp with
    | .nil => (w.val t).table.trie ≠ .nil
    | .dflt => False
    | .custom _ => ¬ (w.val t).table.trie.Solid
  | aggregate t => match (w.val t).cmp with
    | .nil => (w.val t).table.trie ≠ .nil
    | .dflt => False
    | .custom _ => Trie.AggSafe (w.val t).table.cmp goEq none (w.val t).table.trie = false
  | diff t u cb s => (w.val t).cmp = .nil ∧ MeetsCommon cb (Table.changes (w.val t).table (w.val u).table) s
  | _ => False

/-- The call can be made, but it may panic. -/
def TCmd.Allowed (w : TWorld α D) : TCmd α D σ → Prop
  | op h o => (∀ i, h = some i → i < w.vars.length) ∧ (o.writes = true → o.key.toPrefix.WF)
  | map t _ _ => t < w.vals.length
  | aggregate t => t < w.vals.length ∧ ∀ e, (w.val t).cmp = .custom e → (w.val t).table.CmpOk
  | diff t u cb _ => t < w.vals.length ∧ u < w.vals.length ∧
    ((w.val t).cmp = .nil → cb.unchanged ≠ none ∨ ∀ c ∈ Table.changes (w.val t).table (w.val u).table, c.common = false) ∧
    (cb.unchanged = none → ∀ e, (w.val t).cmp = .custom e → (∀ x, e x x = true) ∨ cb.changed = none)
  | c => c.Legal w

/-- tables with a custom comparison function have values at the entries only -/
structure TWorld.Neat (w : TWorld α D) : Prop where
  vars : ∀ {i : Nat} {a : AbsTable α D}, w.vars[i]? = some a → ∀ c, a.cmp = .custom c → a.table.trie.Tidy
  vals : ∀ {i : Nat} {a : AbsTable α D}, w.vals[i]? = some a → ∀ c, a.cmp = .custom c → a.table.trie.Tidy

namespace TWorld.Neat
variable {w : TWorld α D}

theorem val (N : w.Neat) (t : Nat) : ∀ c, (w.val t).cmp = .custom c → (w.val t).table.trie.Tidy := by
  intro c hc
  unfold TWorld.val at hc ⊢
  cases e : w.vals[t]? with
  | none => rw [e] at hc; cases hc
  | some a => rw [e] at hc; exact N.vals e c hc

theorem declare (N : w.Neat) {a : AbsTable α D} (h : ∀ c, a.cmp = .custom c → a.table.trie.Tidy) :
    TWorld.Neat { w with vars := w.vars ++ [a] } where
  vals := N.vals
  vars := by
    intro i b hb
    rcases List.mem_append.mp (List.mem_of_getElem? hb) with hb | hb
    · obtain ⟨j, hj⟩ := List.mem_iff_getElem?.mp hb; exact N.vars hj
    · rw [List.mem_singleton.mp hb]; exact h

theorem got (N : w.Neat) {a : AbsTable α D} (h : ∀ c, a.cmp = .custom c → a.table.trie.Tidy) : (w.got a).Neat where
  vars := N.vars
  vals := by
    intro i b hb
    rcases List.mem_append.mp (List.mem_of_getElem? hb) with hb | hb
    · obtain ⟨j, hj⟩ := List.mem_iff_getElem?.mp hb; exact N.vals hj
    · rw [List.mem_singleton.mp hb]; exact h

theorem assign (N : w.Neat) (h : Option Nat) {T : Table α D} (hT : (w.var h).trie.Tidy → T.trie.Tidy) : (w.assign h T).Neat := by
  cases h with
  | none => exact N
  | some o =>
    refine ⟨?_, N.vals⟩
    intro i b hb c hc
    simp only [TWorld.assign, List.getElem?_modify] at hb
    by_cases e : o = i
    · subst e
      cases ev : w.vars[o]? with
      | none => rw [ev] at hb; cases hb
      | some a =>
        rw [ev] at hb
        simp only [if_true, Option.map_eq_map, Option.map_some, Option.some.injEq] at hb
        subst hb
        refine hT ?_
        have : w.var (some o) = a.table := by simp [TWorld.var, ev]
        rw [this]
        exact N.vars ev c hc
    · simp only [if_neg e, Option.map_eq_map, Option.map_id'] at hb
      exact N.vars hb c hc

theorem init : TWorld.Neat (⟨[], [.zero]⟩ : TWorld α D) where
  vars := fun h => by simp at h
  vals := fun {i a} h c hc => by
    have := List.mem_of_getElem? h
    rw [List.mem_singleton.mp this] at hc
    cases hc

theorem ideal (N : w.Neat) {c : TCmd α D σ} (hc : ¬ c.Crash w) : (c.ideal w).2.Neat := by
  cases c with
  | new_ => exact N.declare fun c h => by cases h
  | newCustom cmp => exact N.declare fun c _ => trivial
  | op h o => exact N.assign h fun ht => Table.tidy_step ht o
  | longest h k => exact N
  | num h => exact N
  | freeze h =>
    cases h with
    | none => exact N.got fun c h => by cases h
    | some o =>
      refine N.got fun c hc => ?_
      cases e : w.vars[o]? with
      | none => rw [e] at hc; cases hc
      | some a => rw [e] at hc; exact N.vars e c hc
  | thaw t =>
    refine N.declare fun c hc => ?_
    have : (w.val t).cmp = .custom c := by
      simp only at hc
      split at hc
      · cases hc
      · exact hc
    exact N.val t c this
  | xget t k => exact N
  | xlongest t k => exact N
  | xnum t => exact N
  | walk t cb s => exact N
  | diff t u cb s => exact N
  | map t f s =>
    refine N.got fun c e => ?_
    cases f with
    | none => exact N.val t c e
    | some f =>
      refine Table.tidy_map (N.val t c e) ?_ (some f) s
      apply Classical.byContradiction
      intro hs
      refine hc ⟨rfl, ?_⟩
      rw [show (w.val t).cmp = .custom c from e]
      exact hs
  | aggregate t => exact N.got fun c e => by cases e

end TWorld.Neat

theorem custom_some (e : D → D → Bool) (T : Table α D) (hT : T.eq = some e) (a b : Option D) (ha : Some' a) (hb : Some' b) :
    (EqFn.custom e).call a b = some (T.cmp a b) := by
  cases a with
  | none => cases ha
  | some a =>
    cases b with
    | none => cases hb
    | some b => exact EqFn.call_some (.custom e) (by simp) T hT a b

theorem custom_none (e : D → D → Bool) (a b : Option D) (ha : ¬ Some' a) : (EqFn.custom e).call a b = none := by
  cases a with
  | none => rfl
  | some a => exact (ha rfl).elim

theorem Trie.Solid.of_allData {t : Trie α D} (ht : t.Tidy) (h : t.AllData Some') : t.Solid := by
  induction t with
  | nil => trivial
  | node p d n hh act l r ihl ihr => exact ⟨ht.1.symm.trans h.1, ihl ht.2.1 h.2.1, ihr ht.2.2 h.2.2⟩

/-- a call that panics -/
theorem TCmd.step_panic (hF : 2 * width α + 3 ≤ F) {w : TWorld α D} {m : Mem α D} {regs : List (Obj D)} (M : w.Matches m.sight regs)
    (N : w.Neat) {c : TCmd α D σ} (ha : c.Allowed w) (hc : c.Crash w) : (((c.call regs).code F).run m).1 = .panic := by
  cases c with
  | new_ => exact hc.elim
  | newCustom cmp => exact hc.elim
  | op h o =>
    obtain ⟨rfl, hw⟩ := hc
    cases o <;> first | rfl | cases hw
  | longest h k => exact hc.elim
  | num h => exact hc.elim
  | freeze h => exact hc.elim
  | thaw t => exact hc.elim
  | xget t k => exact hc.elim
  | xlongest t k => exact hc.elim
  | xnum t => exact hc.elim
  | walk t cb s => exact hc.elim
  | diff t u cb s =>
    obtain ⟨hn, hc⟩ := hc
    obtain ⟨a1, a2, a3, _⟩ := ha
    obtain ⟨hi, hr, he⟩ := M.val a1
    obtain ⟨hi', hr', _⟩ := M.val a2
    have hd := hr.deep
    have hd' := hr'.deep
    have h := (run_xDiff_nil (F := F) (m := m) (s := s) hr.boxed hr'.boxed hi.1 hi'.1 (fun a b => by rw [he.trans hn]; rfl) (by omega) cb (a3 hn)).1 hc
    show ((xDiff F _ _ cb s >>= _).run m).1 = _
    rw [Prog.run_bind, h]
  | map t f s =>
    obtain ⟨hs, hc⟩ := hc
    obtain ⟨hi, hr, he⟩ := M.val ha
    cases f with
    | none => cases hs
    | some f =>
    have hd := hr.deep
    refine Prog.Panics.run (v := m.nodes) (Prog.Panics.bind (Prog.Panics.bind ?_)) (fun _ _ h => h)
    rw [he]
    cases hcmp : (w.val t).cmp with
    | nil =>
      rw [hcmp] at hc
      refine panics_map (A := fun _ => False) (B := fun _ => True) (ve := fun _ _ => false) (fun _ _ h => h.elim) (fun _ _ _ _ => rfl) (fun _ _ _ => trivial) F
        (t := (w.val t).table.trie) (by omega) ?_ hi.1
      intro h
      cases hn : (w.val t).table.trie with
      | nil => exact hc hn
      | node p d n hh act l r => rw [hn] at h; exact h.1
    | dflt => rw [hcmp] at hc; exact hc.elim
    | custom e =>
      rw [hcmp] at hc
      have heq : (w.val t).table.eq = some e := by rw [hi.2, he, hcmp]; rfl
      refine panics_map (A := Some') (B := Some') (ve := (w.val t).table.cmp) (custom_some e _ heq) (fun a b ha _ => custom_none e a b ha)
        (fun _ _ _ => rfl) F (t := (w.val t).table.trie) (by omega) ?_ hi.1
      exact fun h => hc (Trie.Solid.of_allData (N.val t e hcmp) h)
  | aggregate t =>
    obtain ⟨hi, hr, he⟩ := M.val ha.1
    have hd := hr.deep
    refine Prog.Panics.run (v := m.nodes) (Prog.Panics.bind (Prog.Panics.bind ?_)) (fun _ _ h => h)
    rw [he]
    replace hc : match (w.val t).cmp with
      | .nil => (w.val t).table.trie ≠ .nil
      | .dflt => False
      | .custom _ => Trie.AggSafe (w.val t).table.cmp goEq none (w.val t).table.trie = false := hc
    cases hcmp : (w.val t).cmp with
    | nil =>
      rw [hcmp] at hc
      exact panics_aggregate_nil F (t := (w.val t).table.trie) (by omega) hr.good.inv hc hi.1
    | dflt => rw [hcmp] at hc; exact hc.elim
    | custom e =>
      rw [hcmp] at hc
      have heq : (w.val t).table.eq = some e := by rw [hi.2, he, hcmp]; rfl
      exact panics_aggregate (custom_some e _ heq) rfl F (by omega) hr.good.inv (N.val t e hcmp) (fun _ h => by cases h) hc hi.1

/-- a call that does not panic -/
theorem TCmd.step_returns (hF : 2 * width α + 3 ≤ F) {w : TWorld α D} {m : Mem α D} {regs : List (Obj D)} (M : w.Matches m.sight regs)
    (N : w.Neat) {c : TCmd α D σ} (ha : c.Allowed w) (hc : ¬ c.Crash w) :
    ∃ x m', ((c.call regs).code F).run m = (.ret x, m') ∧ x.seen = (c.ideal w).1 ∧
      (c.ideal w).2.Matches m'.sight (regs ++ x.outs) := by
  by_cases hl : c.Legal w
  · exact TCmd.step_ok hF M hl
  cases c with
  | new_ => exact (hl ha).elim
  | newCustom cmp => exact (hl ha).elim
  | op h o =>
    refine (hl ⟨ha.1, fun hw => ⟨ha.2 hw, ?_⟩⟩).elim
    rintro rfl
    exact hc ⟨rfl, hw⟩
  | longest h k => exact (hl ha).elim
  | num h => exact (hl ha).elim
  | freeze h => exact (hl ha).elim
  | thaw t => exact (hl ha).elim
  | xget t k => exact (hl ha).elim
  | xlongest t k => exact (hl ha).elim
  | xnum t => exact (hl ha).elim
  | walk t cb s => exact (hl ha).elim
  | diff t u cb s =>
    obtain ⟨a1, a2, a3, a4⟩ := ha
    obtain ⟨hi, hr, he⟩ := M.val a1
    obtain ⟨hi', hr', _⟩ := M.val a2
    have hd := hr.deep
    have hd' := hr'.deep
    have hn : (w.val t).cmp = .nil := by
      apply Classical.byContradiction
      intro hn
      exact hl ⟨a1, a2, fun h => (hn h).elim, a4⟩
    have h := (run_xDiff_nil (F := F) (m := m) (s := s) hr.boxed hr'.boxed hi.1 hi'.1 (fun a b => by rw [he.trans hn]; rfl) (by omega) cb (a3 hn)).2 fun h => hc ⟨hn, h⟩
    have hq : (w.val t).table.eq.getD (fun _ _ => false) = fun _ _ => false := by
      rw [hi.2, he.trans hn]; rfl
    have e := Table.diff_changes' hr.good hr'.good hq cb s
    refine ⟨.walked ((w.val t).table.diff (w.val u).table cb s), m, ?_, rfl, ?_⟩
    · show (xDiff F _ _ cb s >>= _).run m = _
      rw [Prog.run_bind, h, e]
      rfl
    · simp only [TVal.outs, List.append_nil]
      exact M
  | map t f s =>
    obtain ⟨hi, hr, he⟩ := M.val ha
    have hd := hr.deep
    cases f with
    | none => exact (hl ⟨ha, Or.inl rfl⟩).elim
    | some f =>
    cases hcmp : (w.val t).cmp with
    | nil =>
      refine (hl ⟨ha, Or.inr (Or.inl ?_)⟩).elim
      apply Classical.byContradiction
      intro h
      refine hc ⟨rfl, ?_⟩
      rw [hcmp]; exact h
    | dflt => exact (hl ⟨ha, Or.inr (Or.inr hcmp)⟩).elim
    | custom e =>
      have heq : (w.val t).table.eq = some e := by rw [hi.2, he, hcmp]; rfl
      have hsol : (w.val t).table.trie.Solid := by
        apply Classical.byContradiction
        intro h
        refine hc ⟨rfl, ?_⟩
        rw [hcmp]; exact h
      have hw : Prog.wp False (fun (x : TVal α D σ) v' => ∃ p, x = .mapped ⟨p, .custom e⟩ ((w.val t).table.map (some f) s).2 ∧
          Den v' p ((w.val t).table.map (some f) s).1.trie) ((TCmd.map t (some f) s).call regs |>.code F) m.nodes Prog.Nowhere := by
        show Prog.wp _ _ (xMap F _ (some f) s >>= _) _ _
        refine Prog.wp_call (Q0 := fun (x : Obj D × σ) v' => x.1.eq = .custom e ∧ Den v' x.1.trie ((w.val t).table.map (some f) s).1.trie ∧
          x.2 = ((w.val t).table.map (some f) s).2) ?_ ?_
        · unfold xMap
          rw [he, hcmp]
          refine Prog.wp_call (wp_map_on (A := Some') (B := Some') (ve := (w.val t).table.cmp) (custom_some e _ heq) (fun _ _ _ => rfl) F
            (t := (w.val t).table.trie) (by omega) ((N.val t e hcmp).allData hsol) hi.1) ?_
          rintro x v' le ⟨h3, h4⟩
          exact ⟨rfl, h3, h4⟩
        · rintro ⟨⟨p, q⟩, s'⟩ v' le ⟨h1, h2, h3⟩
          simp only at h1 h2 h3
          subst h1 h3
          exact ⟨p, rfl, h2⟩
      obtain ⟨x, v', m', h1, ⟨p, rfl, h2⟩, h3, h4, h5, h6⟩ := Prog.run_wp hw (m := m) (fun _ _ h => h)
      refine ⟨_, m', h1, rfl, ?_⟩
      have le : m.nodes ≤ m'.nodes := by
        intro n c e
        have hlt : n < m.heap.length := (List.getElem?_eq_some_iff.mp (show m.heap[n]? = some c from e)).1
        show m'.heap[n]? = some c
        rw [h6 n hlt id]; exact e
      refine TWorld.Matches.got (M.keep (m' := m'.sight) h4 le) ⟨⟨h2.mono h3, ?_⟩, .map _ _ _ hr, hcmp.symm⟩
      exact heq
  | aggregate t =>
    obtain ⟨hi, hr, he⟩ := M.val ha.1
    have hd := hr.deep
    cases hcmp : (w.val t).cmp with
    | nil =>
      refine (hl ⟨ha.1, Or.inl ?_⟩).elim
      apply Classical.byContradiction
      intro h
      apply hc
      show match (w.val t).cmp with
        | .nil => (w.val t).table.trie ≠ .nil
        | .dflt => False
        | .custom _ => Trie.AggSafe (w.val t).table.cmp goEq none (w.val t).table.trie = false
      rw [hcmp]; exact h
    | dflt => exact (hl ⟨ha.1, Or.inr hcmp⟩).elim
    | custom e =>
      have heq : (w.val t).table.eq = some e := by rw [hi.2, he, hcmp]; rfl
      have safe : Trie.AggSafe (w.val t).table.cmp goEq none (w.val t).table.trie = true := by
        rw [← Bool.not_eq_false]
        intro h
        apply hc
        show match (w.val t).cmp with
          | .nil => (w.val t).table.trie ≠ .nil
          | .dflt => False
          | .custom _ => Trie.AggSafe (w.val t).table.cmp goEq none (w.val t).table.trie = false
        rw [hcmp]; exact h
      have hw : Prog.wp False (fun (x : TVal α D σ) v' => ∃ p, x = .table ⟨p, .nil⟩ ∧ Den v' p (w.val t).table.aggregate.trie)
          ((TCmd.aggregate t : TCmd α D σ).call regs |>.code F) m.nodes Prog.Nowhere := by
        show Prog.wp _ _ (xAggregate F _ >>= _) _ _
        refine Prog.wp_call (Q0 := fun (x : Obj D) v' => x.eq = .nil ∧ Den v' x.trie (w.val t).table.aggregate.trie) ?_ ?_
        · unfold xAggregate
          rw [he, hcmp]
          refine Prog.wp_call (wp_aggregate_on (custom_some e _ heq) F (by omega) hr.good.inv (N.val t e hcmp) (fun _ h => by cases h) safe hi.1) ?_
          rintro x v' le ⟨h3, -⟩
          exact ⟨rfl, h3⟩
        · rintro ⟨p, q⟩ v' le ⟨h1, h2⟩
          simp only at h1 h2
          subst h1
          exact ⟨p, rfl, h2⟩
      obtain ⟨x, v', m', h1, ⟨p, rfl, h2⟩, h3, h4, h5, h6⟩ := Prog.run_wp hw (m := m) (fun _ _ h => h)
      refine ⟨_, m', h1, rfl, ?_⟩
      have le : m.nodes ≤ m'.nodes := by
        intro n c e
        have hlt : n < m.heap.length := (List.getElem?_eq_some_iff.mp (show m.heap[n]? = some c from e)).1
        show m'.heap[n]? = some c
        rw [h6 n hlt id]; exact e
      exact TWorld.Matches.got (M.keep (m' := m'.sight) h4 le) ⟨⟨h2.mono h3, rfl⟩, .aggregate _ hr (ha.2 e hcmp), rfl⟩

end
end Addrs

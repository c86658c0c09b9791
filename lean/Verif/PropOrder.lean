import Verif.PropLocal
/-
  Property C84: every prefix has its own history.
-/
set_option linter.unusedSectionVars false
namespace Addrs
open GoWord LawfulGoWord

section
variable {α D : Type} [LawfulGoWord α] [Inhabited D] [DecidableEq D]

/-! ### the specification -/

/-- the calls of a history for the prefix with the given key -/
def callsFor (κ : Nat × Nat) (ops : List (TableOp α D)) : List (TableOp α D) :=
  ops.filter fun o => decide (keyOf o.key.toPrefix = κ)

/-- a result without what `Remove` returns -/
def Result.blur : Result D → Result D
  | .removed _ => .unit
  | r => r

/-- the results of these calls, except those of `Remove`; the second argument is the list of all results of the history -/
def resultsFor (κ : Nat × Nat) (ops : List (TableOp α D)) (rs : List (Result D)) : List (Result D) :=
  ((ops.zip rs).filter fun x => decide (keyOf x.1.key.toPrefix = κ)).map fun x => x.2.blur

/-- `t` and `u` have the same entries, written in the same way, and the same answers -/
def Table.Alike (t u : Table α D) : Prop :=
  t.listed = u.listed ∧ t.numEntries = u.numEntries ∧ ∀ k, t.longestMatch k = u.longestMatch k ∧ (k.toPrefix.WF → t.get k = u.get k)

/-! ### proofs -/

theorem runOps_length {S O R : Type} (step : S → O → S × R) (s : S) (ops : List O) : (runOps step s ops).2.length = ops.length := by
  induction ops generalizing s with
  | nil => rfl
  | cons o ops ih => simp [runOps, ih]

theorem run_reachable (t : Table α D) (ht : t.Reachable) (e : D → D → Bool) (he : t.eq = some e) (ops : List (TableOp α D))
    (hv : ∀ o ∈ ops, o.key.toPrefix.WF) : (runOps Table.step t ops).1.Reachable := by
  induction ops generalizing t with
  | nil => exact ht
  | cons o ops ih =>
    have hk := hv o List.mem_cons_self
    have he' : (t.step o).1.eq = some e := by
      obtain ⟨m', hm'⟩ := C23_shows t ht
      exact (Table.step_spec (hm'.repr ht.good) he o hk).2.1
    exact ih _ (.step t o ht (by rw [he]; simp) hk) he' fun o' ho' => hv o' (List.mem_cons_of_mem _ ho')

/-- what one call does to the entry under its key, without what `Remove` returns -/
noncomputable def cell (e : D → D → Bool) (c : Option (Prefix α × D)) (o : TableOp α D) : Option (Prefix α × D) × Result D :=
  ((Entries.step e (fun _ => c) o).1 (keyOf o.key.toPrefix), (Entries.step e (fun _ => c) o).2.blur)

theorem cell_step (e : D → D → Bool) (m : Entries α D) (o : TableOp α D) :
    cell e (m (keyOf o.key.toPrefix)) o = ((m.step e o).1 (keyOf o.key.toPrefix), (m.step e o).2.blur) := by
  cases o with
  | insert k v | update k v | insertOrUpdate k v | getOrInsert k v | get k =>
    simp only [cell, Entries.step, TableOp.key]
    cases h : m (keyOf k.toPrefix) <;> simp [Entries.set, h]
  | remove k => simp [cell, Entries.step, TableOp.key, Entries.erase, Result.blur]

theorem run_cell (e : D → D → Bool) (κ : Nat × Nat) (ops : List (TableOp α D)) (m : Entries α D) :
    (runOps (Entries.step e) m ops).1 κ = (runOps (cell e) (m κ) (callsFor κ ops)).1 ∧
    resultsFor κ ops (runOps (Entries.step e) m ops).2 = (runOps (cell e) (m κ) (callsFor κ ops)).2 := by
  induction ops generalizing m with
  | nil => exact ⟨rfl, rfl⟩
  | cons o ops ih =>
    obtain ⟨h1, h2⟩ := ih (m.step e o).1
    by_cases hk : keyOf o.key.toPrefix = κ
    · have hc : callsFor κ (o :: ops) = o :: callsFor κ ops := by simp [callsFor, hk]
      have hs := cell_step e m o
      rw [hk] at hs
      have hr : ∀ r rs, resultsFor κ (o :: ops) (r :: rs) = r.blur :: resultsFor κ ops rs := by
        intro r rs; simp [resultsFor, hk]
      rw [hc]
      simp only [runOps, hr, hs, h1, h2, and_self]
    · have hc : callsFor κ (o :: ops) = callsFor κ ops := by simp [callsFor, hk]
      have hr : ∀ r rs, resultsFor κ (o :: ops) (r :: rs) = resultsFor κ ops rs := by
        intro r rs; simp [resultsFor, hk]
      rw [hc]
      have := Entries.step_other e m o κ (fun h => hk h.symm)
      rw [this] at h1 h2
      simp only [runOps, hr, h1, h2, and_self]

theorem Table.Alike.of_holds {t u : Table α D} {m : Entries α D} (ht : t.Reachable) (hu : u.Reachable) (h : t.Holds m) (h' : u.Holds m) :
    t.Alike u := by
  have hl : t.listed = u.listed := eq_of_sorted (R := fun x y => LexBefore x.1 y.1) (fun h h' => h.asymm h') (C27_sorted t ht)
    (C27_sorted u hu) fun x => h.mem.trans h'.mem.symm
  refine ⟨hl, ?_, fun k => ⟨longestMatch_congr t u ht hu k k fun x => by rw [hl], fun hk => ?_⟩⟩
  · rw [C26_numEntries_mod t ht, C26_numEntries_mod u hu, hl]
  · rw [(h.shows ht) k hk, (h'.shows hu) k hk]

/-- Full statement: with the results of `Remove`, too.  False (`C84_counterexample`).

    Two histories that make, for every prefix, the same calls in the same order give tables with the same entries and the same
    answers, and the calls return the same. -/
theorem C84_history_partial (t : Table α D) (ht : t.Reachable) (e : D → D → Bool) (he : t.eq = some e)
    (ops ops' : List (TableOp α D)) (hv : ∀ o ∈ ops, o.key.toPrefix.WF) (hv' : ∀ o ∈ ops', o.key.toPrefix.WF)
    (same : ∀ κ, callsFor κ ops = callsFor κ ops') :
    (runOps Table.step t ops).1.Alike (runOps Table.step t ops').1 ∧
    ∀ κ, resultsFor κ ops (runOps Table.step t ops).2 = resultsFor κ ops' (runOps Table.step t ops').2 := by
  obtain ⟨m, hm⟩ := ht.holds
  obtain ⟨a1, a2⟩ := C23_entries t ht e he m hm ops hv
  obtain ⟨b1, b2⟩ := C23_entries t ht e he m hm ops' hv'
  have hs : (runOps (Entries.step e) m ops).1 = (runOps (Entries.step e) m ops').1 := by
    funext κ
    rw [(run_cell e κ ops m).1, (run_cell e κ ops' m).1, same]
  refine ⟨Table.Alike.of_holds (run_reachable t ht e he ops hv) (run_reachable t ht e he ops' hv') a2 (by rw [hs]; exact b2), fun κ => ?_⟩
  rw [a1, b1, (run_cell e κ ops m).2, (run_cell e κ ops' m).2, same]

/-- What a call for a prefix returns and leaves does not depend on calls for other prefixes: they may be left out. -/
theorem C84_alone_partial (t : Table α D) (ht : t.Reachable) (e : D → D → Bool) (he : t.eq = some e)
    (ops : List (TableOp α D)) (hv : ∀ o ∈ ops, o.key.toPrefix.WF) (k : PrefixI α) (hk : k.toPrefix.WF) :
    (runOps Table.step t ops).1.get k = (runOps Table.step t (callsFor (keyOf k.toPrefix) ops)).1.get k ∧
    resultsFor (keyOf k.toPrefix) ops (runOps Table.step t ops).2 =
      (runOps Table.step t (callsFor (keyOf k.toPrefix) ops)).2.map Result.blur := by
  obtain ⟨m, hm⟩ := ht.holds
  have hv' : ∀ o ∈ callsFor (keyOf k.toPrefix) ops, o.key.toPrefix.WF := fun o ho => hv o (List.mem_filter.mp ho).1
  have hf : callsFor (keyOf k.toPrefix) (callsFor (keyOf k.toPrefix) ops) = callsFor (keyOf k.toPrefix) ops := by
    simp [callsFor]
  obtain ⟨a1, a2⟩ := C23_entries t ht e he m hm ops hv
  obtain ⟨b1, b2⟩ := C23_entries t ht e he m hm _ hv'
  have hs := (run_cell e (keyOf k.toPrefix) ops m)
  have hs' := (run_cell e (keyOf k.toPrefix) (callsFor (keyOf k.toPrefix) ops) m)
  rw [hf] at hs'
  have a3 := Table.Holds.shows (show Table.Holds _ _ from a2) (run_reachable t ht e he ops hv) k hk
  have b3 := Table.Holds.shows (show Table.Holds _ _ from b2) (run_reachable t ht e he _ hv') k hk
  refine ⟨?_, ?_⟩
  · rw [a3, b3]
    simp only [Entries.values, hs.1, hs'.1]
  · rw [a1, b1, hs.2, ← hs'.2]
    have : ∀ (ops : List (TableOp α D)) (rs : List (Result D)) , (∀ o ∈ ops, keyOf o.key.toPrefix = keyOf k.toPrefix) → rs.length = ops.length →
        resultsFor (keyOf k.toPrefix) ops rs = rs.map Result.blur := by
      intro ops
      induction ops with
      | nil => intro rs _ h; rw [List.length_eq_zero_iff.mp h]; rfl
      | cons o ops ih =>
        intro rs ho hl
        cases rs with
        | nil => cases hl
        | cons r rs =>
          have := ih rs (fun o h => ho o (List.mem_cons_of_mem _ h)) (by simpa using hl)
          simp only [resultsFor] at this
          simp [resultsFor, ho o List.mem_cons_self, this]
    refine this _ _ (fun o ho => by simpa [callsFor] using (List.mem_filter.mp ho).2) ?_
    exact runOps_length _ _ _

/-- The order of the writes does not matter, if no two of them are for the same prefix. -/
theorem C84_order (t : Table α D) (ht : t.Reachable) (e : D → D → Bool) (he : t.eq = some e)
    (ops ops' : List (TableOp α D)) (hv : ∀ o ∈ ops, o.key.toPrefix.WF)
    (distinct : ops.Pairwise fun o o' => keyOf o.key.toPrefix ≠ keyOf o'.key.toPrefix) (perm : ops.Perm ops') :
    (runOps Table.step t ops).1.Alike (runOps Table.step t ops').1 := by
  refine (C84_history_partial t ht e he ops ops' hv (fun o h => hv o (perm.mem_iff.mpr h)) fun κ => ?_).1
  have hp : (callsFor κ ops).Perm (callsFor κ ops') := perm.filter _
  have hlen : (callsFor κ ops).length ≤ 1 := by
    have hd : (callsFor κ ops).Pairwise fun o o' => keyOf o.key.toPrefix ≠ keyOf o'.key.toPrefix := distinct.filter _
    have hk : ∀ o ∈ callsFor κ ops, keyOf o.key.toPrefix = κ := fun o h => by simpa using (List.mem_filter.mp h).2
    cases h : callsFor κ ops with
    | nil => exact Nat.zero_le _
    | cons o l =>
      cases l with
      | nil => exact Nat.le_refl _
      | cons o' l =>
        rw [h] at hd hk
        exact absurd ((hk o List.mem_cons_self).trans (hk o' (List.mem_cons_of_mem _ List.mem_cons_self)).symm)
          (List.rel_of_pairwise_cons hd List.mem_cons_self)
  cases h : callsFor κ ops with
  | nil => rw [h] at hp; exact hp.nil_eq
  | cons o l =>
    rw [h] at hp hlen
    have : l = [] := List.length_eq_zero_iff.mp (by simpa using hlen)
    rw [this] at hp ⊢
    exact (List.perm_singleton.mp hp.symm).symm

end

/-- 10.0.0.0/24 is removed before or after its halves are inserted: without an entry of its own `Remove` says true only after. -/
theorem C84_counterexample :
    let lo : TableOp (BitVec 32) Nat := .insert (.prefix ⟨0x0a000000#32, 25⟩) 1
    let hi : TableOp (BitVec 32) Nat := .insert (.prefix ⟨0x0a000080#32, 25⟩) 2
    let out : TableOp (BitVec 32) Nat := .remove (.prefix ⟨0x0a000000#32, 24⟩)
    (∀ κ, callsFor κ [out, lo, hi] = callsFor κ [lo, hi, out]) ∧
    (runOps Table.step Table.new_ [out, lo, hi]).2 = [.removed false, .bool true, .bool true] ∧
    (runOps Table.step Table.new_ [lo, hi, out]).2 = [.bool true, .bool true, .removed true] := by
  refine ⟨fun κ => ?_, by rfl, by rfl⟩
  simp only [callsFor, List.filter_cons, List.filter_nil, TableOp.key, PrefixI.toPrefix]
  by_cases h : κ.1 = 24
  · have h1 : ∀ x : BitVec 32, keyOf (⟨x, 25⟩ : Prefix (BitVec 32)) ≠ κ := fun x e => by rw [← e] at h; cases h
    simp [h1]
  · have h1 : ∀ x : BitVec 32, keyOf (⟨x, 24⟩ : Prefix (BitVec 32)) ≠ κ := fun x e => h (by rw [← e]; rfl)
    simp [h1]

/-- three calls for 10.0.0.0/24 in their order and two for others, in two orders that satisfy the hypothesis -/
example :
    let a : TableOp (BitVec 32) Nat := .insert (.prefix ⟨0x0a000000#32, 24⟩) 1
    let b : TableOp (BitVec 32) Nat := .update (.prefix ⟨0x0a000007#32, 24⟩) 2
    let c : TableOp (BitVec 32) Nat := .get (.prefix ⟨0x0a000000#32, 24⟩)
    let x : TableOp (BitVec 32) Nat := .insert (.prefix ⟨0x0a000000#32, 8⟩) 7
    let y : TableOp (BitVec 32) Nat := .insert (.address 0x0a000001#32) 8
    (runOps Table.step Table.new_ [a, x, b, y, c]).1.Alike (runOps Table.step Table.new_ [y, a, b, c, x]).1 := by
  intro a b c x y
  refine (C84_history_partial _ .new_ _ rfl _ _ ?_ ?_ fun κ => ?_).1
  · intro o ho; simp only [List.mem_cons, List.mem_nil_iff, or_false] at ho
    rcases ho with rfl | rfl | rfl | rfl | rfl <;> decide
  · intro o ho; simp only [List.mem_cons, List.mem_nil_iff, or_false] at ho
    rcases ho with rfl | rfl | rfl | rfl | rfl <;> decide
  · by_cases h8 : κ.1 = 8
    · have h1 : ∀ z : BitVec 32, keyOf (⟨z, 24⟩ : Prefix (BitVec 32)) ≠ κ := fun z e => by rw [← e] at h8; cases h8
      have h2 : ∀ z : BitVec 32, keyOf (⟨z, width (BitVec 32)⟩ : Prefix (BitVec 32)) ≠ κ := fun z e => by rw [← e] at h8; cases h8
      simp [callsFor, List.filter_cons, a, b, c, x, y, TableOp.key, PrefixI.toPrefix, h1, h2]
    · have h1 : ∀ z : BitVec 32, keyOf (⟨z, 8⟩ : Prefix (BitVec 32)) ≠ κ := fun z e => h8 (by rw [← e]; rfl)
      by_cases h24 : κ.1 = 24
      · have h2 : ∀ z : BitVec 32, keyOf (⟨z, width (BitVec 32)⟩ : Prefix (BitVec 32)) ≠ κ := fun z e => by rw [← e] at h24; cases h24
        simp [callsFor, List.filter_cons, a, b, c, x, y, TableOp.key, PrefixI.toPrefix, h1, h2]
      · have h2 : ∀ z : BitVec 32, keyOf (⟨z, 24⟩ : Prefix (BitVec 32)) ≠ κ := fun z e => h24 (by rw [← e]; rfl)
        simp [callsFor, List.filter_cons, a, b, c, x, y, TableOp.key, PrefixI.toPrefix, h1, h2]

/-- the two halves and the whole, in two orders -/
example :
    let lo : TableOp (BitVec 32) Nat := .insert (.prefix ⟨0x0a000000#32, 25⟩) 1
    let hi : TableOp (BitVec 32) Nat := .insert (.prefix ⟨0x0a000080#32, 25⟩) 2
    let all : TableOp (BitVec 32) Nat := .insertOrUpdate (.prefix ⟨0x0a000000#32, 24⟩) 3
    (runOps Table.step Table.new_ [lo, hi, all]).1.Alike (runOps Table.step Table.new_ [all, lo, hi]).1 := by
  intro lo hi all
  refine C84_order _ .new_ _ rfl _ _ ?_ ?_ ?_
  · intro o ho; simp only [List.mem_cons, List.mem_nil_iff, or_false] at ho
    rcases ho with rfl | rfl | rfl <;> decide
  · refine .cons (fun o ho => ?_) (.cons (fun o ho => ?_) (.cons (fun o ho => nomatch ho) .nil))
    · simp only [List.mem_cons, List.mem_nil_iff, or_false] at ho
      rcases ho with rfl | rfl <;> decide
    · simp only [List.mem_cons, List.mem_nil_iff, or_false] at ho
      subst ho; decide
  · exact (List.perm_append_comm (l₁ := [lo, hi]) (l₂ := [all]))

end Addrs

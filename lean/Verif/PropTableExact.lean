import Verif.PropTables
/-
  C23 and C24 exactly: every result of every history of calls on a table, in terms of a plain map.
-/
set_option linter.unusedSectionVars false
namespace Addrs
open GoWord LawfulGoWord

section
variable {α D : Type} [LawfulGoWord α]

/-- the map has entries strictly inside `k` that are in different halves of it -/
def InBothHalves (m : PMap D) (k : Prefix α) : Prop :=
  ∃ p q : Prefix α, p.WF ∧ q.WF ∧ m (keyOf p) ≠ none ∧ m (keyOf q) ≠ none ∧ k.len < p.len ∧ k.len < q.len ∧
    InPrefix k p.addr ∧ InPrefix k q.addr ∧ ¬ InPrefix ⟨p.addr, k.len + 1⟩ q.addr

open Classical in
/-- What a call returns, exactly: as `PMap.step`, except that `Remove` also returns true if there is no entry
    but there are entries in both halves of the prefix. -/
noncomputable def PMap.stepExact [Inhabited D] (e : D → D → Bool) (m : PMap D) (o : TableOp α D) : PMap D × Result D :=
  match o with
  | .remove k => (m.erase (keyOf k.toPrefix),
    .removed (decide (m (keyOf k.toPrefix) ≠ none ∨ InBothHalves m k.toPrefix)))
  | o => m.step e o

theorem PMap.stepExact_map [Inhabited D] (e : D → D → Bool) (m : PMap D) (o : TableOp α D) :
    (m.stepExact e o).1 = (m.step e o).1 := by
  cases o <;> rfl

theorem div_of_key {p q : Prefix α} (hp : p.WF) (h : keyOf p = keyOf q) {n : Nat} (hn : n ≤ p.len) :
    toNat p.addr / blockSize α n = toNat q.addr / blockSize α n := by
  simp only [keyOf, Prod.mk.injEq] at h
  obtain ⟨h1, h2⟩ := h
  rw [← h1] at h2
  have hw : p.len ≤ width α := hp
  have e : blockSize α n = blockSize α p.len * 2 ^ (p.len - n) := by
    unfold blockSize
    rw [← Nat.pow_add]
    congr 1
    omega
  rw [e, ← Nat.div_div_eq_div_mul, ← Nat.div_div_eq_div_mul, h2]

variable [Inhabited D] [DecidableEq D]

theorem shows_present {t : Table α D} {m : PMap D} (hm : t.Shows m) (q : PrefixI α) (hq : q.toPrefix.WF) :
    (∃ v, t.get q = (v, true)) ↔ m (keyOf q.toPrefix) ≠ none := by
  have := hm q hq
  cases e : m (keyOf q.toPrefix) with
  | some v => rw [e] at this; simp only at this; exact ⟨fun _ => by simp, fun _ => ⟨v, this⟩⟩
  | none =>
    rw [e] at this; simp only at this
    refine ⟨?_, fun h => (h rfl).elim⟩
    rintro ⟨v, hv⟩
    rw [this] at hv; cases hv

/-- entries in both halves of a prefix -/
theorem inBothHalves_iff {t : Table α D} (ht : t.Reachable) {m : PMap D} (hm : t.Shows m) (k : Prefix α) :
    (∃ x y, x ∈ t.listed ∧ y ∈ t.listed ∧ k.len < x.1.len ∧ k.len < y.1.len ∧ InPrefix k x.1.addr ∧ InPrefix k y.1.addr ∧
      ¬ InPrefix ⟨x.1.addr, k.len + 1⟩ y.1.addr) ↔ InBothHalves m k := by
  have listed_wf : ∀ x ∈ t.listed, x.1.WF := by
    intro x hx
    rw [Table.listed_eq] at hx
    obtain ⟨y, hy, rfl⟩ := List.mem_map.mp hx
    exact ht.good.inv.entries_wf hy
  constructor
  · rintro ⟨x, y, h1, h2, h3, h4, h5, h6, h7⟩
    refine ⟨x.1, y.1, listed_wf x h1, listed_wf y h2, ?_, ?_, h3, h4, h5, h6, h7⟩
    · exact (shows_present hm (.prefix x.1) (listed_wf x h1)).mp ⟨x.2, (C27_complete t ht _ _).mpr ⟨x.1, h1, rfl⟩⟩
    · exact (shows_present hm (.prefix y.1) (listed_wf y h2)).mp ⟨y.2, (C27_complete t ht _ _).mpr ⟨y.1, h2, rfl⟩⟩
  · rintro ⟨p, q, w1, w2, h1, h2, h3, h4, h5, h6, h7⟩
    obtain ⟨v1, g1⟩ := (shows_present hm (.prefix p) w1).mpr h1
    obtain ⟨v2, g2⟩ := (shows_present hm (.prefix q) w2).mpr h2
    obtain ⟨p', l1, e1⟩ := (C27_complete t ht _ _).mp g1
    obtain ⟨q', l2, e2⟩ := (C27_complete t ht _ _).mp g2
    have e1 : keyOf p' = keyOf p := e1
    have e2 : keyOf q' = keyOf q := e2
    have n1 : p'.len = p.len := (Prod.mk.injEq .. ▸ e1).1
    have n2 : q'.len = q.len := (Prod.mk.injEq .. ▸ e2).1
    refine ⟨(p', v1), (q', v2), l1, l2, by simp only; omega, by simp only; omega, ?_, ?_, ?_⟩
    · unfold InPrefix at h5 ⊢
      rw [h5, div_of_key w1 e1.symm (by omega)]
    · unfold InPrefix at h6 ⊢
      rw [h6, div_of_key w2 e2.symm (by omega)]
    · unfold InPrefix at h7 ⊢
      simp only at h7 ⊢
      rwa [← div_of_key w1 e1.symm (by omega), ← div_of_key w2 e2.symm (by omega)]

theorem C24_remove_map (t : Table α D) (ht : t.Reachable) (m : PMap D) (hm : t.Shows m) (k : PrefixI α)
    (hk : k.toPrefix.WF) :
    (t.remove k).2 = true ↔ m (keyOf k.toPrefix) ≠ none ∨ InBothHalves m k.toPrefix := by
  rw [C24_remove_exact t ht k hk, inBothHalves_iff ht hm, ← shows_present hm k hk]
  refine or_congr ?_ Iff.rfl
  constructor
  · intro h; exact ⟨(t.get k).1, by rw [← h]⟩
  · rintro ⟨v, hv⟩; rw [hv]

/-- the result of one call -/
theorem Table.step_exact {t : Table α D} (ht : t.Reachable) {m : PMap D} (hm : t.Shows m) {e : D → D → Bool}
    (he : t.eq = some e) (o : TableOp α D) (hk : o.key.toPrefix.WF) : (t.step o).2 = (m.stepExact e o).2 := by
  have h := (Table.step_spec (hm.repr ht.good) he o hk).2.2
  cases o with
  | remove k =>
    have h1 := C24_remove_map t ht m hm k hk
    show Result.removed (t.remove k).2 = _
    simp only [PMap.stepExact]
    congr 1
    rw [Bool.eq_iff_iff]
    rw [h1]; simp
  | insert k v =>
    revert h
    show ResultOk _ (PMap.step e m (.insert k v)).2 → _ = (PMap.step e m (.insert k v)).2
    simp only [PMap.step]
    cases m (keyOf k.toPrefix) <;> exact fun h => h
  | update k v =>
    revert h
    show ResultOk _ (PMap.step e m (.update k v)).2 → _ = (PMap.step e m (.update k v)).2
    simp only [PMap.step]
    cases m (keyOf k.toPrefix) <;> exact fun h => h
  | insertOrUpdate k v =>
    revert h
    show ResultOk _ (PMap.step e m (.insertOrUpdate k v)).2 → _ = (PMap.step e m (.insertOrUpdate k v)).2
    simp only [PMap.step]
    cases m (keyOf k.toPrefix) <;> exact fun h => h
  | get k =>
    revert h
    show ResultOk _ (PMap.step e m (.get k)).2 → _ = (PMap.step e m (.get k)).2
    simp only [PMap.step]
    cases m (keyOf k.toPrefix) <;> exact fun h => h
  | getOrInsert k v =>
    revert h
    show ResultOk _ (PMap.step e m (.getOrInsert k v)).2 → _ = (PMap.step e m (.getOrInsert k v)).2
    simp only [PMap.step]
    cases m (keyOf k.toPrefix) <;> exact fun h => h

/-- All results of every history of calls, exactly, and the final contents. -/
theorem C23_history (t : Table α D) (ht : t.Reachable) (e : D → D → Bool) (he : t.eq = some e)
    (m : PMap D) (hm : t.Shows m) (ops : List (TableOp α D)) (hv : ∀ o ∈ ops, o.key.toPrefix.WF) :
    (runOps Table.step t ops).2 = (runOps (PMap.stepExact e) m ops).2 ∧
    (runOps Table.step t ops).1.Shows (runOps (PMap.stepExact e) m ops).1 := by
  induction ops generalizing t m with
  | nil => exact ⟨rfl, hm⟩
  | cons o ops ih =>
    have hk := hv o List.mem_cons_self
    obtain ⟨h1, h2, _⟩ := Table.step_spec (hm.repr ht.good) he o hk
    have h3 := Table.step_exact ht hm he o hk
    rw [← PMap.stepExact_map] at h1
    obtain ⟨h4, h5⟩ := ih (t.step o).1 (.step t o ht (by rw [he]; simp) hk) h2 _ h1.shows
      fun o' ho' => hv o' (List.mem_cons_of_mem _ ho')
    refine ⟨?_, h5⟩
    show (t.step o).2 :: _ = (m.stepExact e o).2 :: _
    rw [h3, h4]

example : (runOps Table.step (Table.new_ : Table (BitVec 32) Nat) Sample.ops).2 =
    (runOps (PMap.stepExact fun a b => decide (a = b)) PMap.empty Sample.ops).2 :=
  (C23_history _ .new_ _ rfl _ (C23_empty fun _ _ => true).2.1 _ Sample.ops_ok).1

end
end Addrs

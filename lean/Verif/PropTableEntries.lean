import Verif.PropTableExact
import Verif.PropTableDiff
/-
  C23 with the prefixes as they are stored: a table as a map from keys to entries, where an entry has the prefix
  as the caller wrote it (with or without host bits) and the value.
-/
set_option linter.unusedSectionVars false
set_option linter.unusedSimpArgs false
namespace Addrs
open GoWord LawfulGoWord

section
variable {α D : Type} [LawfulGoWord α]

/-- a plain map from keys to entries -/
def Entries (α D : Type) := Nat × Nat → Option (Prefix α × D)

namespace Entries
/-- no entries -/
def empty : Entries α D := fun _ => none
/-- change of one entry -/
def set (m : Entries α D) (x : Prefix α × D) : Entries α D := fun κ => if κ = keyOf x.1 then some x else m κ
/-- removal of one entry -/
def erase (m : Entries α D) (p : Prefix α) : Entries α D := fun κ => if κ = keyOf p then none else m κ
/-- the values only -/
def values (m : Entries α D) : PMap D := fun κ => (m κ).map (·.2)
/-- `x` is an entry -/
def Has (m : Entries α D) (x : Prefix α × D) : Prop := m (keyOf x.1) = some x

open Classical in
/-- What a call does and returns.  Writing stores the prefix as it is written in the call; a value that compares
    equal to the old one is not replaced; `Remove` also returns true if there is no entry but there are entries
    in both halves of the prefix (C24). -/
noncomputable def step [Inhabited D] (e : D → D → Bool) (m : Entries α D) : TableOp α D → Entries α D × Result D
  | .insert k v =>
    match m (keyOf k.toPrefix) with
    | some _ => (m, .bool false)
    | none => (m.set (k.toPrefix, v), .bool true)
  | .update k v =>
    match m (keyOf k.toPrefix) with
    | some x => (m.set (k.toPrefix, if e x.2 v then x.2 else v), .bool true)
    | none => (m, .bool false)
  | .insertOrUpdate k v =>
    match m (keyOf k.toPrefix) with
    | some x => (m.set (k.toPrefix, if e x.2 v then x.2 else v), .unit)
    | none => (m.set (k.toPrefix, v), .unit)
  | .get k =>
    match m (keyOf k.toPrefix) with
    | some x => (m, .found x.2 true)
    | none => (m, .found default false)
  | .getOrInsert k v =>
    match m (keyOf k.toPrefix) with
    | some x => (m, .value x.2)
    | none => (m.set (k.toPrefix, v), .value v)
  | .remove k => (m.erase k.toPrefix,
    .removed (decide (m (keyOf k.toPrefix) ≠ none ∨ InBothHalves m.values k.toPrefix)))
end Entries

variable [Inhabited D] [DecidableEq D]

/-- the entries that `Walk` lists are those of the map -/
def Table.Holds (t : Table α D) (m : Entries α D) : Prop := ∀ κ x, m κ = some x ↔ x ∈ t.listed ∧ keyOf x.1 = κ

namespace Table.Holds
variable {t : Table α D} {m : Entries α D}

theorem mem (h : t.Holds m) {x : Prefix α × D} : x ∈ t.listed ↔ m.Has x :=
  ⟨fun hx => (h _ x).mpr ⟨hx, rfl⟩, fun hx => ((h _ x).mp hx).1⟩

/-- there is only one such map -/
theorem unique {m' : Entries α D} (h : t.Holds m) (h' : t.Holds m') : m = m' := by
  funext κ
  cases e : m κ with
  | some x => exact (((h' κ x).mpr ((h κ x).mp e))).symm
  | none =>
    cases e' : m' κ with
    | none => rfl
    | some x => rw [(h κ x).mpr ((h' κ x).mp e')] at e; cases e

theorem shows (h : t.Holds m) (ht : t.Reachable) : t.Shows m.values := by
  intro k hk
  simp only [Entries.values]
  cases e : m (keyOf k.toPrefix) with
  | some x =>
    obtain ⟨h1, h2⟩ := (h _ x).mp e
    exact (C25_get t ht k x.2).mpr ⟨x.1, h1, h2⟩
  | none =>
    simp only [Option.map_none]
    cases hg : (t.get k).2 with
    | true =>
      obtain ⟨p, h1, h2⟩ := (C25_get t ht k (t.get k).1).mp (by rw [← hg])
      have := (h _ (p, (t.get k).1)).mpr ⟨h1, h2⟩
      rw [e] at this; cases this
    | false =>
      obtain ⟨m', hm'⟩ := C23_shows t ht
      have := hm' k hk
      rw [this] at hg ⊢
      cases e : m' (keyOf k.toPrefix) with
      | none => rfl
      | some v => rw [e] at hg; cases hg

theorem entry (h : t.Holds m) (ht : t.Good) {k : Prefix α} {x : Prefix α × D} (e : m (keyOf k) = some x) :
    (x.1, some x.2) ∈ t.trie.entries ∧ SameKey x.1 k := by
  obtain ⟨h1, h2⟩ := (h _ x).mp e
  have h1' := (Table.mem_listed ht).mp h1
  exact ⟨h1', (keyOf_eq (ht.inv.entries_wf h1')).mp h2⟩

theorem absent (h : t.Holds m) (ht : t.Good) {k : Prefix α} (e : m (keyOf k) = none) :
    ∀ x, x ∈ t.trie.entries → ¬ SameKey x.1 k := by
  intro x hx hs
  obtain ⟨v, hv⟩ := Option.isSome_iff_exists.mp (ht.some x hx)
  have hx' : (x.1, some v) ∈ t.trie.entries := by rw [← hv]; exact hx
  have := (h (keyOf k) (x.1, v)).mpr ⟨(Table.mem_listed ht).mpr hx', (keyOf_eq (ht.inv.entries_wf hx)).mpr hs⟩
  rw [e] at this; cases this

theorem put (h : t.Holds m) (ht : t.Good) {k : Prefix α} {v : D} {n : Trie α D} {e} (hn : Table.Good (⟨n, e⟩ : Table α D))
    (hm : ∀ y, y ∈ n.entries ↔ (y ∈ t.trie.entries ∧ ¬ SameKey y.1 k) ∨ y = (k, some v)) :
    Table.Holds (⟨n, e⟩ : Table α D) (m.set (k, v)) := by
  intro κ x
  rw [Table.mem_listed (p := x.1) (v := x.2) hn]
  simp only [hm, Entries.set]
  by_cases hk : κ = keyOf k
  · subst hk
    simp only [if_true, Option.some.injEq]
    constructor
    · rintro rfl; exact ⟨Or.inr rfl, rfl⟩
    · rintro ⟨h1 | h1, h2⟩
      · exact absurd ((keyOf_eq (ht.inv.entries_wf h1.1)).mp h2) h1.2
      · simp only [Prod.mk.injEq, Option.some.injEq] at h1
        rw [← h1.1, ← h1.2]
  · simp only [if_neg hk]
    rw [h, Table.mem_listed (p := x.1) (v := x.2) ht]
    constructor
    · rintro ⟨h1, rfl⟩
      exact ⟨Or.inl ⟨h1, fun hs => hk ((keyOf_eq (ht.inv.entries_wf h1)).mpr hs)⟩, rfl⟩
    · rintro ⟨h1 | h1, h2⟩
      · exact ⟨h1.1, h2⟩
      · simp only [Prod.mk.injEq, Option.some.injEq] at h1
        rw [h1.1] at h2; exact absurd h2.symm hk

theorem drop (h : t.Holds m) (ht : t.Good) {k : Prefix α} {n : Trie α D} {e} (hn : Table.Good (⟨n, e⟩ : Table α D))
    (hm : ∀ y, y ∈ n.entries ↔ y ∈ t.trie.entries ∧ ¬ SameKey y.1 k) :
    Table.Holds (⟨n, e⟩ : Table α D) (m.erase k) := by
  intro κ x
  rw [Table.mem_listed (p := x.1) (v := x.2) hn]
  simp only [hm, Entries.erase]
  by_cases hk : κ = keyOf k
  · subst hk
    simp only [if_true]
    constructor
    · intro h; cases h
    · rintro ⟨h1, h2⟩
      exact absurd ((keyOf_eq (ht.inv.entries_wf h1.1)).mp h2) h1.2
  · simp only [if_neg hk]
    rw [h, Table.mem_listed (p := x.1) (v := x.2) ht]
    constructor
    · rintro ⟨h1, rfl⟩
      exact ⟨⟨h1, fun hs => hk ((keyOf_eq (ht.inv.entries_wf h1)).mpr hs)⟩, rfl⟩
    · rintro ⟨h1, h2⟩; exact ⟨h1.1, h2⟩

theorem same (h : t.Holds m) (ht : t.Good) {n : Trie α D} {e} (hn : Table.Good (⟨n, e⟩ : Table α D))
    (hm : ∀ y, y ∈ n.entries ↔ y ∈ t.trie.entries) : Table.Holds (⟨n, e⟩ : Table α D) m := by
  intro κ x
  rw [Table.mem_listed (p := x.1) (v := x.2) hn, h, Table.mem_listed (p := x.1) (v := x.2) ht, hm]

theorem erase_absent {k : Prefix α} (e : m (keyOf k) = none) : m.erase k = m := by
  funext κ
  simp only [Entries.erase]
  split
  · next h => rw [h, e]
  · rfl

/-- one call: the new contents -/
theorem step_map (h : t.Holds m) (ht : t.Reachable) {e : D → D → Bool} (he : t.eq = some e) (o : TableOp α D)
    (hk : o.key.toPrefix.WF) : (t.step o).1.Holds (m.step e o).1 := by
  have hcmp : ∀ a b, t.cmp (some a) (some b) = e a b := by
    intro a b; simp only [Table.cmp, he, Option.getD_some, liftEq]
  have hg := ht.good
  have hr := (Table.Reachable.step t o ht (by rw [he]; simp) hk).good
  cases o with
  | insert k v =>
    have is := Trie.insert_spec ⟨true, false, fun _ _ => false⟩ k.toPrefix hk (some v) t.trie hg.inv
    simp only [Table.step, Entries.step, Table.insert, PrefixI.code_eq] at hr ⊢
    cases hm : m (keyOf k.toPrefix) with
    | some x =>
      obtain ⟨h1, h2⟩ := h.entry hg hm
      rw [(is.found _ h1 h2).1 rfl]
      exact h
    | none =>
      obtain ⟨n, hn, hn'⟩ := (is.absent (h.absent hg hm)).2 rfl
      rw [hn] at hr ⊢
      refine h.put hg hr fun y => ?_
      rw [hn']
      exact or_congr ⟨fun hy => ⟨hy, h.absent hg hm y hy⟩, fun hy => hy.1⟩ Iff.rfl
  | update k v =>
    have is := Trie.insert_spec ⟨false, true, t.cmp⟩ k.toPrefix hk (some v) t.trie hg.inv
    simp only [Table.step, Entries.step, Table.update, PrefixI.code_eq] at hr ⊢
    cases hm : m (keyOf k.toPrefix) with
    | some x =>
      obtain ⟨h1, h2⟩ := h.entry hg hm
      obtain ⟨n, hn, hn'⟩ := (is.found _ h1 h2).2 rfl
      rw [hn] at hr ⊢
      simp only [hcmp] at hn'
      refine h.put hg hr fun y => ?_
      rw [hn']
      cases e x.2 v <;> rfl
    | none =>
      rw [(is.absent (h.absent hg hm)).1 rfl]
      exact h
  | insertOrUpdate k v =>
    have is := Trie.insert_spec ⟨true, true, t.cmp⟩ k.toPrefix hk (some v) t.trie hg.inv
    simp only [Table.step, Entries.step, Table.insertOrUpdate, PrefixI.code_eq] at hr ⊢
    cases hm : m (keyOf k.toPrefix) with
    | some x =>
      obtain ⟨h1, h2⟩ := h.entry hg hm
      obtain ⟨n, hn, hn'⟩ := (is.found _ h1 h2).2 rfl
      rw [hn] at hr ⊢
      simp only [hcmp] at hn'
      refine h.put hg hr fun y => ?_
      rw [hn']
      cases e x.2 v <;> rfl
    | none =>
      obtain ⟨n, hn, hn'⟩ := (is.absent (h.absent hg hm)).2 rfl
      rw [hn] at hr ⊢
      refine h.put hg hr fun y => ?_
      rw [hn']
      exact or_congr ⟨fun hy => ⟨hy, h.absent hg hm y hy⟩, fun hy => hy.1⟩ Iff.rfl
  | get k =>
    simp only [Table.step, Entries.step]
    cases m (keyOf k.toPrefix) <;> exact h
  | getOrInsert k v =>
    have gs := Trie.getOrInsert_spec k.toPrefix hk (some v) t.trie hg.inv
    have is := Trie.insert_spec ⟨true, false, fun _ _ => false⟩ k.toPrefix hk (some v) t.trie hg.inv
    simp only [Table.step, Entries.step, Table.getOrInsert, PrefixI.code_eq] at hr ⊢
    cases hm : m (keyOf k.toPrefix) with
    | some x =>
      obtain ⟨h1, h2⟩ := h.entry hg hm
      rw [gs.1 _ h1 h2]
      exact h
    | none =>
      obtain ⟨n, hn, hg'⟩ := gs.2 (h.absent hg hm)
      obtain ⟨n', hn1, hn'⟩ := (is.absent (h.absent hg hm)).2 rfl
      rw [hn] at hn1
      injection hn1 with hn1
      subst hn1
      rw [hg'] at hr ⊢
      refine h.put hg hr fun y => ?_
      rw [hn']
      exact or_congr ⟨fun hy => ⟨hy, h.absent hg hm y hy⟩, fun hy => hy.1⟩ Iff.rfl
  | remove k =>
    have ds := Trie.del_spec k.toPrefix hk t.trie hg.inv
    simp only [Table.step, Entries.step, Table.remove, PrefixI.code_eq] at hr ⊢
    cases hm : m (keyOf k.toPrefix) with
    | some x =>
      obtain ⟨h1, h2⟩ := h.entry hg hm
      obtain ⟨n, hn, hn'⟩ := ds.found _ h1 h2
      rw [hn] at hr ⊢
      exact h.drop hg hr hn'
    | none =>
      rw [erase_absent hm]
      rcases ds.absent (h.absent hg hm) with ⟨hn, _⟩ | ⟨n, hn, hn', _⟩
      · rw [hn]; exact h
      · rw [hn] at hr ⊢
        exact h.same hg hr hn'

/-- one call: the result -/
theorem step_result (h : t.Holds m) (ht : t.Reachable) {e : D → D → Bool} (he : t.eq = some e) (o : TableOp α D)
    (hk : o.key.toPrefix.WF) : (t.step o).2 = (m.step e o).2 := by
  rw [Table.step_exact ht (h.shows ht) he o hk]
  cases o with
  | remove k =>
    simp only [PMap.stepExact, Entries.step, Entries.values]
    congr 2
    cases m (keyOf k.toPrefix) <;> simp
  | insert k v => simp only [PMap.stepExact, PMap.step, Entries.step, Entries.values]; cases m (keyOf k.toPrefix) <;> rfl
  | update k v => simp only [PMap.stepExact, PMap.step, Entries.step, Entries.values]; cases m (keyOf k.toPrefix) <;> rfl
  | insertOrUpdate k v => simp only [PMap.stepExact, PMap.step, Entries.step, Entries.values]; cases m (keyOf k.toPrefix) <;> rfl
  | get k => simp only [PMap.stepExact, PMap.step, Entries.step, Entries.values]; cases m (keyOf k.toPrefix) <;> rfl
  | getOrInsert k v => simp only [PMap.stepExact, PMap.step, Entries.step, Entries.values]; cases m (keyOf k.toPrefix) <;> rfl

end Table.Holds

/-- a table holds the entries that `Walk` lists -/
theorem Table.Reachable.holds {t : Table α D} (ht : t.Reachable) : ∃ m, t.Holds m := by
  classical
  refine ⟨fun κ => if h : ∃ x, x ∈ t.listed ∧ keyOf x.1 = κ then some (Classical.choose h) else none, fun κ x => ?_⟩
  by_cases h : ∃ x, x ∈ t.listed ∧ keyOf x.1 = κ
  · simp only [dif_pos h, Option.some.injEq]
    have hc := Classical.choose_spec h
    constructor
    · rintro rfl; exact hc
    · intro hx
      have w := ht.good
      have h1 := (Table.mem_listed (p := (Classical.choose h).1) (v := (Classical.choose h).2) w).mp hc.1
      have h2 := (Table.mem_listed (p := x.1) (v := x.2) w).mp hx.1
      have := w.inv.unique h1 h2 ((keyOf_eq (w.inv.entries_wf h1)).mp (hc.2.trans hx.2.symm))
      simp only [Prod.mk.injEq, Option.some.injEq] at this
      exact Prod.ext this.1 this.2
  · simp only [dif_neg h]
    exact ⟨fun e => (by cases e), fun e => (h ⟨x, e⟩).elim⟩

theorem Table.listed_nil (eq : Option (D → D → Bool)) : (⟨.nil, eq⟩ : Table α D).listed = [] := by
  rw [Table.listed_eq]; rfl

theorem Table.holds_nil (eq : Option (D → D → Bool)) : (⟨.nil, eq⟩ : Table α D).Holds Entries.empty := by
  intro κ x
  rw [Table.listed_nil]
  simp [Entries.empty]

/-- All results of every history of calls and the final entries, with the prefixes as they were written: the
    entries of the table are exactly those of the map. -/
theorem C23_entries (t : Table α D) (ht : t.Reachable) (e : D → D → Bool) (he : t.eq = some e)
    (m : Entries α D) (hm : ∀ κ x, m κ = some x ↔ x ∈ t.listed ∧ keyOf x.1 = κ)
    (ops : List (TableOp α D)) (hv : ∀ o ∈ ops, o.key.toPrefix.WF) :
    (runOps Table.step t ops).2 = (runOps (Entries.step e) m ops).2 ∧
    ∀ κ x, (runOps (Entries.step e) m ops).1 κ = some x ↔ x ∈ (runOps Table.step t ops).1.listed ∧ keyOf x.1 = κ := by
  induction ops generalizing t m with
  | nil => exact ⟨rfl, hm⟩
  | cons o ops ih =>
    have hk := hv o List.mem_cons_self
    have h : t.Holds m := hm
    have he' : (t.step o).1.eq = some e := by
      obtain ⟨m', hm'⟩ := C23_shows t ht
      exact (Table.step_spec (hm'.repr ht.good) he o hk).2.1
    obtain ⟨h4, h5⟩ := ih (t.step o).1 (.step t o ht (by rw [he]; simp) hk) he' _ (h.step_map ht he o hk)
      fun o' ho' => hv o' (List.mem_cons_of_mem _ ho')
    refine ⟨?_, h5⟩
    show (t.step o).2 :: _ = (m.step e o).2 :: _
    rw [h.step_result ht he o hk, h4]

/-! ### C31: what `Map` calls the mapper for -/

namespace Trie

/-- the same trie with all nodes active -/
def activate : Trie α D → Trie α D
  | nil => nil
  | node p d _ _ _ l r => mk p d true l.activate r.activate

theorem inside_activate {p : Prefix α} {b : Bool} {t : Trie α D} (h : Inside p b t) : Inside p b t.activate := by
  cases t with
  | nil => exact h
  | node => exact h

theorem TInv.activate {t : Trie α D} (hi : TInv t) : TInv t.activate := by
  induction hi with
  | empty => exact .empty
  | mk p d act l r wf il ir hl hr two ihl ihr =>
    exact .mk p d true _ _ wf (inside_activate il) (inside_activate ir) ihl ihr (fun h => by cases h)

theorem entries_activate (t : Trie α D) : t.activate.entries = t.allNodes.map fun n => (n.1, n.2.1) := by
  induction t with
  | nil => rfl
  | node p d n h act l r ihl ihr => simp [activate, mk, entries, allNodes, ihl, ihr]

theorem TInv.allNodes_sorted {t : Trie α D} (hi : TInv t) :
    t.allNodes.Pairwise fun x y => Before x.1 y.1 := by
  have := hi.activate.sorted
  rw [entries_activate, List.pairwise_map] at this
  exact this

theorem TInv.allNodes_wf {t : Trie α D} (hi : TInv t) {n} (h : n ∈ t.allNodes) : n.1.WF :=
  hi.activate.entries_wf (x := (n.1, n.2.1)) (by rw [entries_activate]; exact List.mem_map.mpr ⟨n, h, rfl⟩)

theorem TInv.entry {t : Trie α D} (hi : TInv t) (hn : t ≠ nil) : ∃ x, x ∈ t.entries := by
  induction hi with
  | empty => exact (hn rfl).elim
  | mk p d act l r wf il ir hl hr two ihl ihr =>
    cases act with
    | true => exact ⟨_, mem_mk.mpr (Or.inl ⟨rfl, rfl⟩)⟩
    | false =>
      obtain ⟨x, hx⟩ := ihl (two rfl).1
      exact ⟨x, mem_mk.mpr (Or.inr (Or.inl hx))⟩

/-- an inactive node has entries in both halves and is no entry -/
theorem TInv.inactive {t : Trie α D} (hi : TInv t) {n} (h : n ∈ t.allNodes) (ha : n.2.2 = false) :
    (∃ x y, x ∈ t.entries ∧ y ∈ t.entries ∧ Sub n.1 x.1 false ∧ Sub n.1 y.1 true) ∧
    ∀ x, x ∈ t.entries → ¬ SameKey x.1 n.1 := by
  constructor
  · induction hi with
    | empty => cases h
    | mk p d act l r wf il ir hl hr two ihl ihr =>
      simp only [Trie.mk, allNodes, List.mem_cons, List.mem_append] at h
      rcases h with rfl | h | h
      · obtain ⟨x, hx⟩ := hl.entry (two ha).1
        obtain ⟨y, hy⟩ := hr.entry (two ha).2
        exact ⟨x, y, mem_mk.mpr (Or.inr (Or.inl hx)), mem_mk.mpr (Or.inr (Or.inr hy)), hl.side il hx, hr.side ir hy⟩
      · obtain ⟨x, y, hx, hy, h1, h2⟩ := ihl h
        exact ⟨x, y, mem_mk.mpr (Or.inr (Or.inl hx)), mem_mk.mpr (Or.inr (Or.inl hy)), h1, h2⟩
      · obtain ⟨x, y, hx, hy, h1, h2⟩ := ihr h
        exact ⟨x, y, mem_mk.mpr (Or.inr (Or.inr hx)), mem_mk.mpr (Or.inr (Or.inr hy)), h1, h2⟩
  · intro x hx hs
    rw [entries_allNodes] at hx
    obtain ⟨n', h1, h2⟩ := List.mem_map.mp hx
    obtain ⟨h1, h3⟩ := List.mem_filter.mp h1
    have hne : n ≠ n' := fun e => by rw [e] at ha; rw [ha] at h3; cases h3
    have key : ∀ {L : List (Prefix α × Option D × Bool)}, L.Pairwise (fun x y => Before x.1 y.1) → n ∈ L → n' ∈ L →
        Before n.1 n'.1 ∨ Before n'.1 n.1 := by
      intro L
      induction L with
      | nil => intro _ h; cases h
      | cons z L ih =>
        intro hp h1 h2
        obtain ⟨p1, p2⟩ := List.pairwise_cons.mp hp
        rcases List.mem_cons.mp h1 with e1 | h1
        · rcases List.mem_cons.mp h2 with e2 | h2
          · exact (hne (e1.trans e2.symm)).elim
          · exact Or.inl (e1 ▸ p1 _ h2)
        · rcases List.mem_cons.mp h2 with e2 | h2
          · exact Or.inr (e2 ▸ p1 _ h1)
          · exact ih p2 h1 h2
    have e : x.1 = n'.1 := by rw [← h2]
    rw [e] at hs
    rcases key hi.allNodes_sorted h h1 with hb | hb
    · exact before_not_sameKey hb hs.symm
    · exact before_not_sameKey hb hs

/-- where entries fork there is a node -/
theorem TInv.fork {t : Trie α D} (hi : TInv t) {k : Prefix α} {x y : Prefix α × Option D} (hx : x ∈ t.entries) (hy : y ∈ t.entries)
    (sx : Sub k x.1 false) (sy : Sub k y.1 true) : ∃ n, n ∈ t.allNodes ∧ SameKey n.1 k := by
  induction hi with
  | empty => cases hx
  | mk p d act l r wf il ir hl hr two ihl ihr =>
    -- two entries below `p` that lie in different halves of `k` cannot be on one path
    have path : ∀ {x y : Prefix α} {c : Bool}, Sub k x false → Sub k y true → Sub x y c → False := by
      intro x y c h1 h2 h3
      have := h3.agree k.len h1.lt
      rw [h1.side, h2.side] at this; cases this
    have path' : ∀ {x y : Prefix α} {c : Bool}, Sub k x false → Sub k y true → Sub y x c → False := by
      intro x y c h1 h2 h3
      have := h3.agree k.len h2.lt
      rw [h1.side, h2.side] at this; cases this
    simp only [Trie.mk, allNodes, List.mem_cons, List.mem_append]
    rcases mem_mk.mp hx with ⟨_, rfl⟩ | hx <;> rcases mem_mk.mp hy with ⟨_, rfl⟩ | hy
    · exact absurd (sx.side.symm.trans sy.side) (by simp)
    · rcases hy with hy | hy
      · exact (path sx sy (hl.side il hy)).elim
      · exact (path sx sy (hr.side ir hy)).elim
    · rcases hx with hx | hx
      · exact (path' sx sy (hl.side il hx)).elim
      · exact (path' sx sy (hr.side ir hx)).elim
    · rcases hx with hx | hx <;> rcases hy with hy | hy
      · obtain ⟨n, h1, h2⟩ := ihl hx hy
        exact ⟨n, Or.inr (Or.inl h1), h2⟩
      · have s1 := hl.side il hx
        have s2 := hr.side ir hy
        refine ⟨_, Or.inl rfl, ?_⟩
        have hlen : p.len = k.len := by
          rcases Nat.lt_trichotomy p.len k.len with h | h | h
          · have := (sx.agree.symm.trans sy.agree) p.len h
            rw [s1.side, s2.side] at this; cases this
          · exact h
          · have := (s1.agree.symm.trans s2.agree) k.len h
            rw [sx.side, sy.side] at this; cases this
        exact ⟨hlen, s1.agree.trans (hlen ▸ sx.agree.symm)⟩
      · have s1 := hr.side ir hx
        have s2 := hl.side il hy
        have hlen : p.len = k.len := by
          rcases Nat.lt_trichotomy p.len k.len with h | h | h
          · have := (sx.agree.symm.trans sy.agree) p.len h
            rw [s1.side, s2.side] at this; cases this
          · exact h
          · have := (s1.agree.symm.trans s2.agree) k.len h
            rw [sx.side, sy.side] at this; cases this
        have := s1.side
        rw [hlen, sx.side] at this; cases this
      · obtain ⟨n, h1, h2⟩ := ihr hx hy
        exact ⟨n, Or.inr (Or.inr h1), h2⟩

end Trie

theorem Table.mapNodes_exact (t : Table α D) (ht : t.Reachable) (e : D → D → Bool) (he : t.eq = some e) (m : PMap D) (hm : t.Shows m) :
    (t.mapNodes.filter fun n => n.2.2).map (fun n => (n.1, n.2.1)) = t.listed ∧
    t.mapNodes.Pairwise (fun n n' => LexBefore n.1 n'.1) ∧
    (∀ n ∈ t.mapNodes, n.2.2 = false → n.1.WF ∧ m (keyOf n.1) = none ∧ InBothHalves m n.1) ∧
    (∀ p : Prefix α, p.WF → m (keyOf p) = none → InBothHalves m p → ∃ n ∈ t.mapNodes, n.2.2 = false ∧ keyOf n.1 = keyOf p) ∧
    ∀ {σ : Type} (f : Prefix α → D → σ → D × σ) (s : σ),
      t.mapNodes.foldl (mapCall e f) ([], s) = ((t.map (some f) s).1.listed, (t.map (some f) s).2) := by
  obtain ⟨h1, h2⟩ := Table.mapNodes_ok t ht e he
  have hi := ht.good.inv
  have nokey : ∀ {p : Prefix α}, p.WF → ((∀ x, x ∈ t.trie.entries → ¬ SameKey x.1 p) ↔ m (keyOf p) = none) := by
    intro p hp
    have hg := Table.get_spec ht.good (.prefix p)
    have hs := shows_present hm (.prefix p) hp
    constructor
    · intro h
      cases e : m (keyOf p) with
      | none => rfl
      | some v =>
        obtain ⟨v, hv⟩ := hs.mpr (by simp [PrefixI.toPrefix, e])
        rw [hg.2 h] at hv; cases hv
    · intro h x hx hk
      exact hs.mp ⟨_, hg.1 x hx hk⟩ h
  refine ⟨h1, ?_, ?_, ?_, h2⟩
  · unfold Table.mapNodes
    rw [List.pairwise_map]
    exact hi.allNodes_sorted.imp_of_mem fun {x y} hx hy h => h.lex (hi.allNodes_wf hx) (hi.allNodes_wf hy)
  · intro n hn ha
    obtain ⟨z, hz, rfl⟩ := List.mem_map.mp hn
    have wf := hi.allNodes_wf hz
    obtain ⟨g1, g2⟩ := hi.inactive hz ha
    exact ⟨wf, (nokey wf).mp g2, (inBothHalves_iff ht hm _).mp ((halves_iff ht wf).mp g1)⟩
  · intro p hp hno hb
    obtain ⟨x, y, hx, hy, sx, sy⟩ := (halves_iff ht hp).mpr ((inBothHalves_iff ht hm p).mpr hb)
    obtain ⟨n, hn, hk⟩ := hi.fork hx hy sx sy
    refine ⟨(n.1, Table.unbox n.2.1, n.2.2), List.mem_map.mpr ⟨n, hn, rfl⟩, ?_, (keyOf_eq (hi.allNodes_wf hn)).mpr hk⟩
    cases ha : n.2.2 with
    | false => rfl
    | true =>
      refine absurd hk ((nokey hp).mpr hno (n.1, n.2.1) ?_)
      rw [Trie.entries_allNodes]
      exact List.mem_map.mpr ⟨n, List.mem_filter.mpr ⟨hn, ha⟩, rfl⟩

/-- Exactly what `Map` calls the mapper for, in which order, and what it does with the results.  The calls are in
    lexicographic order; besides the entries they are for the prefixes that are no entries but have entries in both
    halves, each once.  Full statement: the calls are for entries only (false: `C31_calls_counterexample`). -/
theorem C31_calls_exact_partial (t : Table α D) (ht : t.Reachable) (e : D → D → Bool) (he : t.eq = some e) (m : PMap D) (hm : t.Shows m) :
    ∃ N : List (Prefix α × D × Bool),
      (N.filter fun n => n.2.2).map (fun n => (n.1, n.2.1)) = t.listed ∧
      N.Pairwise (fun n n' => LexBefore n.1 n'.1) ∧
      (∀ n ∈ N, n.2.2 = false → n.1.WF ∧ m (keyOf n.1) = none ∧ InBothHalves m n.1) ∧
      (∀ p : Prefix α, p.WF → m (keyOf p) = none → InBothHalves m p → ∃ n ∈ N, n.2.2 = false ∧ keyOf n.1 = keyOf p) ∧
      ∀ {σ : Type} (f : Prefix α → D → σ → D × σ) (s : σ),
        N.foldl (mapCall e f) ([], s) = ((t.map (some f) s).1.listed, (t.map (some f) s).2) :=
  ⟨t.mapNodes, Table.mapNodes_exact t ht e he m hm⟩

end

/-- `Update` with 10.0.0.7/24 of an entry 10.0.0.0/24, with the same value: the entry is then written 10.0.0.7/24. -/
example : ((runOps Table.step (Table.new_ : Table (BitVec 32) Nat)
      [.insert (.prefix ⟨0x0a000000#32, 24⟩) 1, .update (.prefix ⟨0x0a000007#32, 24⟩) 1]).1.listed.map fun x => (x.1.addr, x.1.len, x.2)) =
    [(0x0a000007#32, 24, 1)] := by rw [Table.listed_eq]; decide

example : (runOps Table.step (Table.new_ : Table (BitVec 32) Nat) Sample.ops).2 =
    (runOps (Entries.step fun a b => decide (a = b)) Entries.empty Sample.ops).2 :=
  (C23_entries _ .new_ _ rfl _ (Table.holds_nil _) _ Sample.ops_ok).1

end Addrs

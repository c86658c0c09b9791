import Verif.PropTables
/-
  Properties C32, C33 (Aggregate of tables).
-/
set_option linter.unusedSectionVars false
namespace Addrs
open GoWord LawfulGoWord

section
variable {α D : Type} [LawfulGoWord α] [Inhabited D] [DecidableEq D]
open Table

/-! ### from tries to the API -/

theorem lm_address {t : Table α D} (a : α) :
    (t.longestMatch (.address a)).1 = ((Trie.match ⟨a, width α⟩ t.trie).map fun x => unbox x.2).getD default ∧
    (t.longestMatch (.address a)).2.1 = (Trie.match ⟨a, width α⟩ t.trie).isSome := by
  unfold longestMatch longestMatch'
  simp only [PrefixI.code, Prefix.ofAddress]
  cases Trie.match ⟨a, width α⟩ t.trie <;> exact ⟨rfl, rfl⟩

theorem sibling_halves {p q : Prefix α} (hp : p.WF) (hq : q.WF) (h : Trie.Sibling p q) : SiblingHalves p q := by
  obtain ⟨hl, P, b, hP, h1, h2⟩ := h
  have wf : (⟨p.addr, p.len - 1⟩ : Prefix α).WF := Nat.le_trans (Nat.sub_le _ _) hp
  refine ⟨hl, by omega, (inPrefix_iff wf).mpr ?_, fun h => ?_⟩
  · have e : p.len - 1 = P.len := by omega
    show Agree (p.len - 1) p.addr q.addr
    rw [e]
    exact h1.agree.symm.trans h2.agree
  · have := (inPrefix_iff hp).mp h P.len h1.lt
    rw [h1.side, h2.side] at this
    cases b <;> cases this

theorem halves_sibling {p q : Prefix α} (hp : p.WF) (h : SiblingHalves p q) :
    ∃ P b, P.len + 1 = p.len ∧ Sub P p b ∧ Sub P q (!b) := by
  obtain ⟨hl, h0, h1, h2⟩ := h
  have wf : (⟨p.addr, p.len - 1⟩ : Prefix α).WF := Nat.le_trans (Nat.sub_le _ _) hp
  have h1 : Agree (p.len - 1) p.addr q.addr := (inPrefix_iff wf).mp h1
  have hne : bit p.addr (p.len - 1) ≠ bit q.addr (p.len - 1) := by
    intro e
    refine h2 ((inPrefix_iff hp).mpr fun i hi => ?_)
    by_cases h : i = p.len - 1
    · rw [h]; exact e
    · exact h1 i (by omega)
  refine ⟨⟨p.addr, p.len - 1⟩, bit p.addr (p.len - 1), by simp only; omega,
    ⟨by simp only; omega, Agree.refl _ _, rfl⟩, ⟨by simp only; omega, h1, ?_⟩⟩
  simp only
  cases h : bit p.addr (p.len - 1) <;> cases h' : bit q.addr (p.len - 1) <;> simp_all

/-- the API-level condition as a condition on tries -/
theorem mergeable_of {t : Table α D} (ht : t.Good) {e : D → D → Bool} (he : t.eq = some e)
    (h : NothingLost e t.listed) : Trie.Mergeable' t.cmp t.trie := by
  intro x y b hx hy hs hxy q hq
  obtain ⟨v, hv⟩ := Option.isSome_iff_exists.mp (ht.some x hx)
  obtain ⟨w, hw⟩ := Option.isSome_iff_exists.mp (ht.some y hy)
  have hcmp : ∀ a b, t.cmp (some a) (some b) = e a b := by
    intro a b; simp only [cmp, he, Option.getD_some, liftEq]
  have wx := ht.inv.entries_wf hx
  have wq : q.WF := by have := hq.1; unfold Prefix.WF at *; omega
  rw [hv, hw, hcmp] at hxy
  have hx' : (x.1, v) ∈ t.listed := (mem_listed ht).mpr (by rw [← hv]; exact hx)
  have hy' : (y.1, w) ∈ t.listed := (mem_listed ht).mpr (by rw [← hw]; exact hy)
  obtain ⟨a, ha1, ha2⟩ := h (x.1, v) (y.1, w) hx' hy' ((containsP_iff wx).mpr hs.subEq) hs.lt hxy q wq
    (sibling_halves wx wq hq)
  refine ⟨a, (inPrefix_iff wq).mp ha1, fun z hz hqz hza => ?_⟩
  obtain ⟨u, hu⟩ := Option.isSome_iff_exists.mp (ht.some z hz)
  have hz' : (z.1, u) ∈ t.listed := (mem_listed ht).mpr (by rw [← hu]; exact hz)
  rw [hv, hu, hcmp]
  exact ha2 (z.1, u) hz' ((containsP_iff wq).mpr hqz) ((inPrefix_iff (ht.inv.entries_wf hz)).mpr hza)

/-! ### C32 -/

theorem aggBy_found {geq : Option D → Option D → Bool} {t : Table α D} (ht : t.Good) (hp : Trie.EqPer t.cmp geq) {c : Option (D → D → Bool)} (a : α) :
    ((⟨(t.aggregateBy geq).trie, c⟩ : Table α D).longestMatch (.address a)).2.1 = (t.longestMatch (.address a)).2.1 := by
  have h := Trie.aggregate_found hp ht.inv a none
  rw [Trie.lk_eq ht.inv, Trie.lk_eq (Trie.aggregate_tinv hp ht.inv none).1] at h
  rw [(lm_address a).2, (lm_address a).2]
  simpa [aggregateBy] using h

theorem aggBy_value {geq : Option D → Option D → Bool} {t : Table α D} (ht : t.Good) (hp : Trie.EqPer t.cmp geq) {c : Option (D → D → Bool)}
    {e : D → D → Bool} (he : t.eq = some e) (a : α)
    (hf : ((⟨(t.aggregateBy geq).trie, c⟩ : Table α D).longestMatch (.address a)).2.1 = true) :
    ∃ x ∈ t.listed, InPrefix x.1 a ∧ (((⟨(t.aggregateBy geq).trie, c⟩ : Table α D).longestMatch (.address a)).1 = x.2 ∨
      e ((⟨(t.aggregateBy geq).trie, c⟩ : Table α D).longestMatch (.address a)).1 x.2 = true) := by
  have hg : (⟨(t.aggregateBy geq).trie, c⟩ : Table α D).Good := aggregateBy_good ht hp
  have ms := Trie.match_spec ⟨a, width α⟩ _ hg.inv
  rw [(lm_address a).2] at hf
  obtain ⟨y, hy⟩ := Option.isSome_iff_exists.mp hf
  obtain ⟨y1, y2, -⟩ := ms.1 y hy
  obtain ⟨x, x1, -, x3, x4⟩ := Trie.aggregate_entries hp ht.inv none y y1 a y2.2
  obtain ⟨v, hv⟩ := Option.isSome_iff_exists.mp (ht.some x x1)
  obtain ⟨w, hw⟩ := Option.isSome_iff_exists.mp (hg.some y y1)
  refine ⟨(x.1, v), (mem_listed ht).mpr (by rw [← hv]; exact x1), (inPrefix_iff (ht.inv.entries_wf x1)).mpr x3, ?_⟩
  rw [(lm_address a).1, hy]
  rw [hv, hw] at x4
  simp only [Trie.Close, cmp, he, Option.getD_some, liftEq, Option.some.injEq] at x4
  simpa [hw, unbox] using x4

theorem aggBy_lookup {geq : Option D → Option D → Bool} {t : Table α D} (ht : t.Good) (hp : Trie.EqPer t.cmp geq) {c : Option (D → D → Bool)}
    {e : D → D → Bool} (he : t.eq = some e) (hn : NothingLost e t.listed) (a : α) (hf : (t.longestMatch (.address a)).2.1 = true) :
    ((⟨(t.aggregateBy geq).trie, c⟩ : Table α D).longestMatch (.address a)).1 = (t.longestMatch (.address a)).1 ∨
    e ((⟨(t.aggregateBy geq).trie, c⟩ : Table α D).longestMatch (.address a)).1 (t.longestMatch (.address a)).1 = true := by
  have h := Trie.aggregate_lk hp ht.inv a none (mergeable_of ht he hn)
  have hg : (⟨(t.aggregateBy geq).trie, c⟩ : Table α D).Good := aggregateBy_good ht hp
  rw [Trie.lk_eq ht.inv, Trie.lk_eq (Trie.aggregate_tinv hp ht.inv none).1] at h
  have hf' := hf
  rw [← aggBy_found ht hp (c := c) a, (lm_address a).2] at hf'
  rw [(lm_address a).2] at hf
  obtain ⟨x, hx⟩ := Option.isSome_iff_exists.mp hf
  obtain ⟨y, hy⟩ := Option.isSome_iff_exists.mp hf'
  obtain ⟨v, hv⟩ := Option.isSome_iff_exists.mp (ht.some x ((Trie.match_spec _ _ ht.inv).1 x hx).1)
  obtain ⟨w, hw⟩ := Option.isSome_iff_exists.mp (hg.some y ((Trie.match_spec _ _ hg.inv).1 y hy).1)
  rw [(lm_address a).1, (lm_address a).1, hx, hy]
  unfold aggregateBy at hy
  simp only at hy
  rw [hx, hy] at h
  simp only [Option.map_some, Trie.ORel, Trie.Close, hv, hw, cmp, he, Option.getD_some, liftEq, Option.some.injEq] at h
  simpa [hv, hw, unbox] using h

theorem aggBy_length {geq : Option D → Option D → Bool} {t : Table α D} (ht : t.Good) (hp : Trie.EqPer t.cmp geq) {c : Option (D → D → Bool)} :
    (⟨(t.aggregateBy geq).trie, c⟩ : Table α D).listed.length ≤ t.listed.length := by
  rw [listed_eq, listed_eq]
  unfold pairs
  rw [List.length_map, List.length_map]
  exact Trie.aggregate_length hp ht.inv none

theorem aggBy_siblings {geq : Option D → Option D → Bool} {t : Table α D} (ht : t.Good) (hp : Trie.EqPer t.cmp geq) {c : Option (D → D → Bool)}
    {e : D → D → Bool} (he : t.eq = some e) {x y : Prefix α × D} (hx : x ∈ (⟨(t.aggregateBy geq).trie, c⟩ : Table α D).listed)
    (hy : y ∈ (⟨(t.aggregateBy geq).trie, c⟩ : Table α D).listed) (hs : SiblingHalves x.1 y.1) : e x.2 y.2 = false := by
  have hg : (⟨(t.aggregateBy geq).trie, c⟩ : Table α D).Good := aggregateBy_good ht hp
  have hx' := (mem_listed hg).mp hx
  have hy' := (mem_listed hg).mp hy
  obtain ⟨P, b, hP, h1, h2⟩ := halves_sibling (hg.inv.entries_wf hx') hs
  have hr := Trie.Reduced.siblings hg.inv (Trie.aggregate_reduced hp ht.inv none)
  have hcmp : ∀ a b, t.cmp (some a) (some b) = e a b := by
    intro a b; simp only [cmp, he, Option.getD_some, liftEq]
  have hsym : ∀ a b, e a b = e b a := by
    intro a b
    have h1 := @hp.symm (some a) (some b)
    have h2 := @hp.symm (some b) (some a)
    rw [hcmp, hcmp] at h1 h2
    cases e1 : e a b <;> cases e2 : e b a <;> simp_all
  have hxl : x.1.len = P.len + 1 := hP.symm
  have hyl : y.1.len = P.len + 1 := by rw [← hs.1]; exact hxl
  cases b with
  | false =>
    have := hr P _ _ hx' hy' hxl hyl h1 h2
    rwa [hcmp] at this
  | true =>
    have := hr P _ _ hy' hx' hyl hxl h2 h1
    rw [hcmp] at this
    rw [hsym]; exact this

/-- a value is equal to itself -/
theorem Table.CmpOk.rfl_of {t : Table α D} (hc : t.CmpOk) {e : D → D → Bool} (he : t.eq = some e) {x y : D} (h : x = y ∨ e x y = true) : e x y = true := by
  obtain ⟨e', he', hr, -⟩ := hc
  rw [he] at he'
  injection he' with he'
  subst he'
  rcases h with rfl | h
  · exact hr _
  · exact h

/-- whether an address is found never changes -/
theorem C32_found (t : Table α D) (ht : t.Reachable) (hc : t.CmpOk) (a : α) :
    (t.aggregate.longestMatch (.address a)).2.1 = (t.longestMatch (.address a)).2.1 :=
  aggBy_found ht.good hc.eqOk.toEqPer a

/-- the value found is the value of some entry of the original that contains the address -/
theorem C32_value (t : Table α D) (ht : t.Reachable) (e : D → D → Bool) (he : t.eq = some e) (hc : t.CmpOk)
    (a : α) (hf : (t.aggregate.longestMatch (.address a)).2.1 = true) :
    ∃ x ∈ t.listed, InPrefix x.1 a ∧ e (t.aggregate.longestMatch (.address a)).1 x.2 = true := by
  obtain ⟨x, h1, h2, h3⟩ := aggBy_value (c := none) ht.good hc.eqOk.toEqPer he a hf
  exact ⟨x, h1, h2, hc.rfl_of he h3⟩

/-- Full statement: the same without the hypothesis `NothingLost`.  It is false
    (`C32_lookup_counterexample`): when the two halves of a prefix have equal values, they are merged
    and everything more specific below them is dropped. -/
theorem C32_lookup_partial (t : Table α D) (ht : t.Reachable) (e : D → D → Bool) (he : t.eq = some e)
    (hc : t.CmpOk) (hn : NothingLost e t.listed) (a : α)
    (hf : (t.longestMatch (.address a)).2.1 = true) :
    e (t.aggregate.longestMatch (.address a)).1 (t.longestMatch (.address a)).1 = true := by
  exact hc.rfl_of he (aggBy_lookup (c := none) ht.good hc.eqOk.toEqPer he hn a hf)

/-- in particular lookups are preserved in a table without nested entries -/
theorem C32_disjoint_partial (t : Table α D) (ht : t.Reachable) (e : D → D → Bool) (he : t.eq = some e)
    (hc : t.CmpOk) (hd : ∀ x ∈ t.listed, ∀ y ∈ t.listed, ContainsP x.1 y.1 → x = y) (a : α)
    (hf : (t.longestMatch (.address a)).2.1 = true) :
    e (t.aggregate.longestMatch (.address a)).1 (t.longestMatch (.address a)).1 = true := by
  refine C32_lookup_partial t ht e he hc (fun x y hx hy hxy hl _ => ?_) a hf
  have := hd x hx y hy hxy
  subst this
  omega

/-! ### C33 -/

/-- never more entries than before -/
theorem C33_length (t : Table α D) (ht : t.Reachable) (hc : t.CmpOk) :
    t.aggregate.listed.length ≤ t.listed.length :=
  aggBy_length ht.good hc.eqOk.toEqPer

/-- the two halves of one prefix never both remain with equal values -/
theorem C33_siblings (t : Table α D) (ht : t.Reachable) (e : D → D → Bool) (he : t.eq = some e)
    (hc : t.CmpOk) (x y : Prefix α × D) (hx : x ∈ t.aggregate.listed) (hy : y ∈ t.aggregate.listed)
    (hs : SiblingHalves x.1 y.1) : e x.2 y.2 = false :=
  aggBy_siblings (c := none) ht.good hc.eqOk.toEqPer he hx hy hs

/-- Full statement: no table with the same lookups has fewer entries.  It is false in general
    (`C33_minimal_counterexample`).  It holds if all values compare equal: then no list of prefixes with
    the same addresses is shorter. -/
theorem C33_minimal_partial (t : Table α D) (ht : t.Reachable) (e : D → D → Bool) (he : t.eq = some e)
    (hc : t.CmpOk) (ha : ∀ x ∈ t.listed, ∀ y ∈ t.listed, e x.2 y.2 = true)
    (L : List (Prefix α)) (hw : ∀ p ∈ L, p.WF)
    (hL : ∀ a, (t.longestMatch (.address a)).2.1 = true ↔ ∃ p ∈ L, InPrefix p a) :
    t.aggregate.listed.length ≤ L.length := by
  rw [listed_eq]
  unfold pairs
  rw [List.length_map]
  refine Trie.aggregate_minimal hc.eqOk.toEqPer ht.good.inv ?_ L fun a => ?_
  · intro x y hx hy
    obtain ⟨v, hv⟩ := Option.isSome_iff_exists.mp (ht.good.some x hx)
    obtain ⟨w, hw⟩ := Option.isSome_iff_exists.mp (ht.good.some y hy)
    have hx' : (x.1, v) ∈ t.listed := (mem_listed ht.good).mpr (by rw [← hv]; exact hx)
    have hy' : (y.1, w) ∈ t.listed := (mem_listed ht.good).mpr (by rw [← hw]; exact hy)
    rw [hv, hw]
    simp only [cmp, he, Option.getD_some, liftEq]
    exact ha _ hx' _ hy'
  · have h1 : (∃ p ∈ L, Covers p a) ↔ ∃ p ∈ L, InPrefix p a :=
      ⟨fun ⟨p, hp, h⟩ => ⟨p, hp, (inPrefix_iff (hw p hp)).mpr h⟩, fun ⟨p, hp, h⟩ => ⟨p, hp, (inPrefix_iff (hw p hp)).mp h⟩⟩
    rw [h1, ← hL a, (lm_address a).2]
    have ms := Trie.match_spec ⟨a, width α⟩ _ ht.good.inv
    constructor
    · rintro ⟨x, hx, hxa⟩
      cases hm : Trie.match ⟨a, width α⟩ t.trie with
      | some y => rfl
      | none => exact absurd ⟨ht.good.inv.entries_wf hx, hxa⟩ (ms.2 hm x hx)
    · intro h
      obtain ⟨y, hy⟩ := Option.isSome_iff_exists.mp h
      obtain ⟨y1, y2, -⟩ := ms.1 y hy
      exact ⟨y, y1, y2.2⟩

end

/-! ### witnesses -/
namespace Sample
theorem cmpOk_of_eq {α D : Type} [LawfulGoWord α] [DecidableEq D] {t : Table α D}
    (h : t.eq = some fun a b => decide (a = b)) : t.CmpOk :=
  ⟨_, h, fun x => by simp, fun x y h => by simp at h ⊢; exact h.symm, fun x y z h h' => by
    simp at h h' ⊢; exact h.trans h'⟩

/-- {10.0.0.0/25 ↦ 1, 10.0.0.128/25 ↦ 1, 10.0.0.0/26 ↦ 2} -/
def lost : Table (BitVec 32) Nat :=
  (runOps Table.step Table.new_ [.insert k25a 1, .insert k25b 1, .insert k26 2]).1
theorem lost_reachable : lost.Reachable := (run_reachable _ _ .new_ (by simp [Table.new_]) (by decide)).1
theorem lost_ok : lost.CmpOk := cmpOk_of_eq rfl

/-- {10.0.0.0/22 ↦ 5, 10.0.0.0/24 ↦ 4, 10.0.0.0/25 ↦ 5, 10.0.0.128/25 ↦ 5} -/
def wide : Table (BitVec 32) Nat :=
  (runOps Table.step Table.new_ [.insert (.prefix ⟨0x0a000000#32, 22⟩) 5, .insert (.prefix ⟨0x0a000000#32, 24⟩) 4,
    .insert k25a 5, .insert k25b 5]).1
theorem wide_reachable : wide.Reachable := (run_reachable _ _ .new_ (by simp [Table.new_]) (by decide)).1
theorem wide_ok : wide.CmpOk := cmpOk_of_eq rfl

/-- {10.0.0.0/25 ↦ 1, 10.0.0.128/25 ↦ 1, 10.0.1.0/24 ↦ 1, 10.0.2.0/24 ↦ 1} -/
def same : Table (BitVec 32) Nat :=
  (runOps Table.step Table.new_ [.insert k25a 1, .insert k25b 1, .insert (.prefix ⟨0x0a000100#32, 24⟩) 1,
    .insert (.prefix ⟨0x0a000200#32, 24⟩) 1]).1
theorem same_reachable : same.Reachable := (run_reachable _ _ .new_ (by simp [Table.new_]) (by decide)).1
end Sample

/-- The address 10.0.0.1 has value 2 before and 1 after `Aggregate`. -/
theorem C32_lookup_counterexample : ∃ t : Table (BitVec 32) Nat, t.Reachable ∧ t.CmpOk ∧
    (t.longestMatch (.address 0x0a000001#32)).1 = 2 ∧
    (t.aggregate.longestMatch (.address 0x0a000001#32)).1 = 1 :=
  ⟨Sample.lost, Sample.lost_reachable, Sample.lost_ok, by decide, by decide⟩

/-- `Aggregate` of {10.0.0.0/22 ↦ 5, 10.0.0.0/24 ↦ 4, 10.0.0.0/25 ↦ 5, 10.0.0.128/25 ↦ 5} has two
    entries, both with value 5, one inside the other; the single entry 10.0.0.0/22 ↦ 5 would do. -/
theorem C33_minimal_counterexample : ∃ t : Table (BitVec 32) Nat, t.Reachable ∧ t.CmpOk ∧
    t.aggregate.listed.map (fun x => (x.1.addr, x.1.len, x.2)) =
      [(0x0a000000#32, 22, 5), (0x0a000000#32, 24, 5)] :=
  ⟨Sample.wide, Sample.wide_reachable, Sample.wide_ok, by rw [Table.listed_eq]; decide⟩

/-- the hypotheses of C32 and C33 are met by a table in which entries are merged twice -/
example : Sample.same.aggregate.listed.map (fun x => (x.1.addr, x.1.len, x.2)) =
      [(0x0a000000#32, 23, 1), (0x0a000200#32, 24, 1)] ∧
    (∀ x ∈ Sample.same.listed, ∀ y ∈ Sample.same.listed, decide (x.2 = y.2) = true) ∧
    (∀ x ∈ Sample.same.listed, ∀ y ∈ Sample.same.listed, ContainsP x.1 y.1 → x = y) := by
  refine ⟨?_, ?_, ?_⟩
  · rw [Table.listed_eq]; decide
  · rw [Table.listed_eq]; decide
  · rw [Table.listed_eq]; unfold ContainsP InPrefix; decide

end Addrs

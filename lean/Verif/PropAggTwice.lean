import Verif.AggTwice
import Verif.PropTableAgg
/-
  Property C74: aggregating an aggregated table.
-/
set_option linter.unusedSectionVars false
namespace Addrs
open GoWord LawfulGoWord

section
variable {α D : Type} [LawfulGoWord α]

/-! ### the specification, on a list of entries -/

/-- `x` is the entry of `L` that most closely contains the entry `y` -/
def ClosestEntry (L : List (Prefix α × D)) (x y : Prefix α × D) : Prop :=
  x ∈ L ∧ y ∈ L ∧ ContainsP x.1 y.1 ∧ x.1.len < y.1.len ∧
    ∀ z ∈ L, ContainsP z.1 y.1 → z.1.len < y.1.len → z.1.len ≤ x.1.len

/-- no entry repeats the value of the entry that most closely contains it -/
def NoRepeat (e : D → D → Bool) (L : List (Prefix α × D)) : Prop := ∀ x y, ClosestEntry L x y → e x.2 y.2 = false

/-- no two halves of one prefix are entries with equal values -/
def NoPair (e : D → D → Bool) (L : List (Prefix α × D)) : Prop :=
  ∀ x ∈ L, ∀ y ∈ L, SiblingHalves x.1 y.1 → e x.2 y.2 = false

variable [Inhabited D] [DecidableEq D]
open Table

/-! ### from tries to the API -/

theorem closest_iff {t : Table α D} (ht : t.Good) (x y : Prefix α × D) :
    ClosestEntry t.listed x y ↔ t.trie.Closest (x.1, some x.2) (y.1, some y.2) := by
  have con : ∀ {p q : Prefix α} {d}, (p, d) ∈ t.trie.entries → (ContainsP p q ↔ SubEq p q) :=
    fun h => containsP_iff (ht.inv.entries_wf h)
  unfold ClosestEntry Trie.Closest
  rw [show x = (x.1, x.2) from rfl, show y = (y.1, y.2) from rfl, mem_listed ht, mem_listed ht]
  refine and_congr_right fun hx => and_congr_right fun hy => ?_
  simp only
  rw [con hx]
  refine and_congr_right fun _ => and_congr_right fun _ => ⟨fun h z hz h1 h2 => ?_, fun h z hz h1 h2 => ?_⟩
  · obtain ⟨v, hv⟩ := Option.isSome_iff_exists.mp (ht.some z hz)
    exact h (z.1, v) ((mem_listed ht).mpr (by rw [← hv]; exact hz)) ((containsP_iff (ht.inv.entries_wf hz)).mpr h1) h2
  · have hz' : (z.1, some z.2) ∈ t.trie.entries := (mem_listed ht).mp hz
    exact h _ hz' ((con hz').mp h1) h2

theorem noRepeat_iff {t : Table α D} (ht : t.Good) (e : D → D → Bool) :
    NoRepeat e t.listed ↔ ∀ x y, t.trie.Closest x y → liftEq e x.2 y.2 = false := by
  constructor
  · intro h x y hxy
    obtain ⟨v, hv⟩ := Option.isSome_iff_exists.mp (ht.some x hxy.1)
    obtain ⟨w, hw⟩ := Option.isSome_iff_exists.mp (ht.some y hxy.2.1)
    rw [hv, hw]
    refine h (x.1, v) (y.1, w) ((closest_iff ht _ _).mpr ?_)
    simp only [← hv, ← hw]
    exact hxy
  · intro h x y hxy
    exact h _ _ ((closest_iff ht _ _).mp hxy)

theorem noPair_iff {t : Table α D} (ht : t.Good) (e : D → D → Bool) (hs : ∀ a b, e a b = e b a) :
    NoPair e t.listed ↔ t.trie.NoHalves (liftEq e) := by
  constructor
  · intro h P x y hx hy lx ly sx sy
    obtain ⟨v, hv⟩ := Option.isSome_iff_exists.mp (ht.some x hx)
    obtain ⟨w, hw⟩ := Option.isSome_iff_exists.mp (ht.some y hy)
    rw [hv, hw]
    refine h (x.1, v) ((mem_listed ht).mpr (by rw [← hv]; exact hx)) (y.1, w) ((mem_listed ht).mpr (by rw [← hw]; exact hy)) ?_
    exact sibling_halves (ht.inv.entries_wf hx) (ht.inv.entries_wf hy) ⟨(lx.trans ly.symm : x.1.len = y.1.len), P, false, lx.symm, sx, sy⟩
  · intro h x hx y hy hxy
    have hx' : (x.1, some x.2) ∈ t.trie.entries := (mem_listed ht).mp hx
    have hy' : (y.1, some y.2) ∈ t.trie.entries := (mem_listed ht).mp hy
    obtain ⟨P, b, hP, h1, h2⟩ := halves_sibling (ht.inv.entries_wf hx') hxy
    have lx : x.1.len = P.len + 1 := hP.symm
    have ly : y.1.len = P.len + 1 := by rw [← hxy.1]; exact lx
    cases b with
    | false => exact h P _ _ hx' hy' lx ly h1 h2
    | true => rw [hs]; exact h P _ _ hy' hx' ly lx h2 h1

theorem CmpOk.sym {t : Table α D} (hc : t.CmpOk) {e : D → D → Bool} (he : t.eq = some e) (a b : D) : e a b = e b a := by
  obtain ⟨e', he', -, hs, -⟩ := hc
  rw [he] at he'
  injection he' with he'
  subst he'
  cases h1 : e a b <;> cases h2 : e b a <;> first | rfl | (have := hs _ _ h1; simp_all) | (have := hs _ _ h2; simp_all)

theorem cmp_eq {t : Table α D} {e : D → D → Bool} (he : t.eq = some e) : t.cmp = liftEq e := by
  simp only [cmp, he, Option.getD_some]

theorem settled_api {t : Table α D} (ht : t.Reachable) {e : D → D → Bool} (he : t.eq = some e) (hc : t.CmpOk) :
    t.trie.Settled t.cmp none ↔ NoRepeat e t.listed ∧ NoPair e t.listed := by
  rw [Trie.settled_iff ht.good.inv, noRepeat_iff ht.good, noPair_iff ht.good e (CmpOk.sym hc he), cmp_eq he]

/-! ### the theorems -/

/-- If no entry repeats the value of the entry that most closely contains it, and no two halves of a prefix have equal
    values, `Aggregate` changes nothing. -/
theorem C74_unchanged (t : Table α D) (ht : t.Reachable) (e : D → D → Bool) (he : t.eq = some e) (hc : t.CmpOk)
    (h1 : NoRepeat e t.listed) (h2 : NoPair e t.listed) : t.aggregate.listed = t.listed := by
  have h := Trie.aggregate_clean hc.eqOk ht.good.inv none ((settled_api ht he hc).mpr ⟨h1, h2⟩)
  rw [listed_eq, listed_eq, pairs, pairs, aggregate, h]

/-- Otherwise the result has fewer entries. -/
theorem C74_fewer (t : Table α D) (ht : t.Reachable) (e : D → D → Bool) (he : t.eq = some e) (hc : t.CmpOk)
    (h : ¬ (NoRepeat e t.listed ∧ NoPair e t.listed)) : t.aggregate.listed.length < t.listed.length := by
  have h := Trie.aggregate_fewer hc.eqOk ht.good.inv none (fun k => h ((settled_api ht he hc).mp k))
  rw [listed_eq, listed_eq, pairs, pairs, aggregate, List.length_map, List.length_map]
  exact h

/-- so `Aggregate` changes nothing exactly if there is no such entry and no such pair -/
theorem C74_unchanged_iff (t : Table α D) (ht : t.Reachable) (e : D → D → Bool) (he : t.eq = some e) (hc : t.CmpOk) :
    t.aggregate.listed = t.listed ↔ NoRepeat e t.listed ∧ NoPair e t.listed := by
  refine ⟨fun h => Classical.byContradiction fun hn => ?_, fun h => C74_unchanged t ht e he hc h.1 h.2⟩
  have := C74_fewer t ht e he hc hn
  rw [h] at this
  exact absurd this (Nat.lt_irrefl _)

/-- In the result of `Aggregate`, an entry that still repeats the value of the entry that most closely contains it
    contains no other entry. -/
theorem C74_leftover (t : Table α D) (ht : t.Reachable) (e : D → D → Bool) (he : t.eq = some e) (hc : t.CmpOk)
    (x y : Prefix α × D) (hxy : ClosestEntry t.aggregate.listed x y) (hv : e x.2 y.2 = true)
    (z : Prefix α × D) (hz : z ∈ t.aggregate.listed) (hyz : ContainsP y.1 z.1) : z = y := by
  have hg := aggregate_good ht.good hc
  have hx := (closest_iff hg _ _).mp hxy
  have hz' : (z.1, some z.2) ∈ t.aggregate.trie.entries := (mem_listed hg).mp hz
  have h := (Trie.Tips.entries hg.inv none (Trie.aggregate_tips hc.eqOk ht.good.inv none)).2 _ _ hx
    (by rw [cmp_eq he]; exact hv) _ hz' ((containsP_iff (hg.inv.entries_wf hx.2.1)).mp hyz)
  simp only [Prod.mk.injEq, Option.some.injEq] at h
  exact Prod.ext h.1 h.2

theorem again_reachable {t : Table α D} (ht : t.Reachable) (hc : t.CmpOk) : t.aggregate.table_.Reachable :=
  .table_ _ (.aggregate t ht hc)

theorem again_eq (t : Table α D) : t.aggregate.table_.eq = some fun a b => decide (a = b) := rfl

theorem again_ok (t : Table α D) : t.aggregate.table_.CmpOk :=
  ⟨_, again_eq t, by simp, by simp +contextual, by simp +contextual⟩

theorem again_listed (t : Table α D) : t.aggregate.table_.listed = t.aggregate.listed := by
  rw [listed_eq, listed_eq]; rfl

/-- Full statement: aggregating an aggregated table changes nothing.  It is false (`C74_idempotent_false`).  What holds:
    it changes nothing exactly if no entry of the aggregated table repeats the value of the entry that most closely
    contains it. -/
theorem C74_idempotent_partial (t : Table α D) (ht : t.Reachable) (he : t.eq = some fun a b => decide (a = b)) :
    t.aggregate.table_.aggregate.listed = t.aggregate.listed ↔ NoRepeat (fun a b => decide (a = b)) t.aggregate.listed := by
  have hc : t.CmpOk := ⟨_, he, by simp, by simp +contextual, by simp +contextual⟩
  have h := C74_unchanged_iff _ (again_reachable ht hc) _ (again_eq t) (again_ok t)
  rw [again_listed] at h
  rw [h]
  exact ⟨fun h => h.1, fun h => ⟨h, fun x hx y hy hs => C33_siblings t ht _ he hc x y hx hy hs⟩⟩

/-- Aggregating a second time is enough: a third time changes nothing. -/
theorem C74_twice (t : Table α D) (ht : t.Reachable) (he : t.eq = some fun a b => decide (a = b)) :
    t.aggregate.table_.aggregate.table_.aggregate.listed = t.aggregate.table_.aggregate.listed := by
  have hc : t.CmpOk := ⟨_, he, by simp, by simp +contextual, by simp +contextual⟩
  have h := Trie.aggregate_third hc.eqOk ht.good.inv
  rw [cmp_eq he] at h
  rw [listed_eq, listed_eq, pairs, pairs]
  simp only [aggregate, table_, cmp, he, Option.getD_some, Option.getD_none]
  rw [h]

/-- and then no entry repeats the value of the entry that most closely contains it, and no two halves of a prefix have
    equal values -/
theorem C74_twice_settled (t : Table α D) (ht : t.Reachable) (he : t.eq = some fun a b => decide (a = b)) :
    NoRepeat (fun a b => decide (a = b)) t.aggregate.table_.aggregate.listed ∧
    NoPair (fun a b => decide (a = b)) t.aggregate.table_.aggregate.listed := by
  have hc : t.CmpOk := ⟨_, he, by simp, by simp +contextual, by simp +contextual⟩
  have r1 := again_reachable ht hc
  have r2 := again_reachable r1 (again_ok t)
  have h := C74_unchanged_iff _ r2 _ (again_eq _) (again_ok _)
  rw [again_listed] at h
  exact h.mp (C74_twice t ht he)

end

/-! ### witnesses -/

/-- {10.0.0.0/22 ↦ 5, 10.0.0.0/24 ↦ 4, 10.0.0.0/25 ↦ 5, 10.0.0.128/25 ↦ 5}: the first `Aggregate` leaves
    10.0.0.0/22 ↦ 5 and 10.0.0.0/24 ↦ 5; the second only the first of these. -/
theorem C74_idempotent_false : ∃ t : Table (BitVec 32) Nat, t.Reachable ∧ t.eq = some (fun a b => decide (a = b)) ∧
    t.aggregate.listed = [(⟨0x0a000000#32, 22⟩, 5), (⟨0x0a000000#32, 24⟩, 5)] ∧
    t.aggregate.table_.aggregate.listed = [(⟨0x0a000000#32, 22⟩, 5)] :=
  ⟨Sample.wide, Sample.wide_reachable, rfl, by rw [Table.listed_eq]; decide, by rw [Table.listed_eq]; decide⟩

/-- The hypotheses are met: by a table that `Aggregate` leaves alone (10.0.0.0/25 ↦ 1 inside of 10.0.0.0/24 ↦ 2), and by
    one that it changes. -/
example : ∃ t : Table (BitVec 32) Nat, t.Reachable ∧ t.eq = some (fun a b => decide (a = b)) ∧ t.CmpOk ∧
    NoRepeat (fun a b => decide (a = b)) t.listed ∧ NoPair (fun a b => decide (a = b)) t.listed ∧
    ClosestEntry t.listed (⟨0x0a000000#32, 24⟩, 2) (⟨0x0a000000#32, 25⟩, 1) := by
  let t : Table (BitVec 32) Nat := (runOps Table.step Table.new_
    [.insert (.prefix ⟨0x0a000000#32, 24⟩) 2, .insert (.prefix ⟨0x0a000000#32, 25⟩) 1]).1
  have hl : t.listed = [(⟨0x0a000000#32, 24⟩, 2), (⟨0x0a000000#32, 25⟩, 1)] := by rw [Table.listed_eq]; decide
  have hr : t.Reachable := (Sample.run_reachable _ _ .new_ (by simp [Table.new_]) (by decide)).1
  have hk := C74_unchanged_iff t hr _ rfl (Sample.cmpOk_of_eq rfl)
  have hk := hk.mp (by rw [Table.listed_eq, Table.listed_eq]; decide)
  refine ⟨t, hr, rfl, Sample.cmpOk_of_eq rfl, hk.1, hk.2, ?_⟩
  rw [hl]
  refine ⟨by decide, by decide, by unfold ContainsP InPrefix; decide, by decide, fun z hz _ h => ?_⟩
  rcases List.mem_cons.mp hz with rfl | hz
  · exact Nat.le_refl _
  · rcases List.mem_cons.mp hz with rfl | hz
    · exact absurd h (Nat.lt_irrefl _)
    · cases hz

end Addrs

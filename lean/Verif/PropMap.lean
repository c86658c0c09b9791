import Verif.PropLocal
import Verif.PropBoth
/-
  Property C78: Map and the other operations of a table: lookups, counts, Diff, writes, Map again, Aggregate.
-/
set_option linter.unusedSectionVars false
namespace Addrs
open GoWord LawfulGoWord

/-- the value that `Map` leaves: the old one if the table's comparison calls the two equal, else the new one -/
def keepOld {D : Type} (e : D → D → Bool) (v w : D) : D := if e v w then v else w

section
variable {α D : Type} [LawfulGoWord α] [Inhabited D] [DecidableEq D]

/-- `t.Map(f)` for a mapper without effects -/
def Table.mapped (t : Table α D) (f : Prefix α → D → D) : Table α D :=
  (t.map (some fun p v (s : Unit) => (f p v, s)) ()).1

/-- the same call with the value that the mapper gives its argument; the mapper gets the prefix as the call has it -/
def TableOp.mapped (f : Prefix α → D → D) : TableOp α D → TableOp α D
  | .insert k v => .insert k (f k.toPrefix v)
  | .update k v => .update k (f k.toPrefix v)
  | .insertOrUpdate k v => .insertOrUpdate k (f k.toPrefix v)
  | .getOrInsert k v => .getOrInsert k (f k.toPrefix v)
  | .get k => .get k
  | .remove k => .remove k

theorem mapped_reachable {t : Table α D} (ht : t.Reachable) (f : Prefix α → D → D) : (t.mapped f).Reachable := .map t _ _ ht

theorem mapped_cmp (t : Table α D) (f : Prefix α → D → D) : (t.mapped f).eq = t.eq := rfl

theorem mapped_listed {t : Table α D} (ht : t.Reachable) {e : D → D → Bool} (he : t.eq = some e) (f : Prefix α → D → D) :
    (t.mapped f).listed = t.listed.map fun x => (x.1, keepOld e x.2 (f x.1 x.2)) := C31_map t ht e he f

/-! ### C78 -/

/-- `LongestMatch` after `Map` finds the same prefix with the mapped value, or nothing as before. -/
theorem C78_longestMatch (t : Table α D) (ht : t.Reachable) (e : D → D → Bool) (he : t.eq = some e) (f : Prefix α → D → D)
    (k : PrefixI α) : (t.mapped f).longestMatch k =
      match t.longestMatch k with
      | (v, true, p) => (keepOld e v (f p v), true, p)
      | r => r := by
  have hu := mapped_reachable ht f
  generalize hg : t.longestMatch k = g
  obtain ⟨v, b, p⟩ := g
  cases b with
  | true =>
    obtain ⟨h1, h2, h3⟩ := (longestMatch_iff t ht k v p).mp hg
    refine (longestMatch_iff _ hu k _ p).mpr ⟨?_, h2, ?_⟩
    · rw [mapped_listed ht he]
      exact List.mem_map.mpr ⟨_, h1, rfl⟩
    · rw [mapped_listed ht he]
      intro x hx hc
      obtain ⟨y, hy, rfl⟩ := List.mem_map.mp hx
      exact h3 y hy hc
  | false =>
    have hn : (t.longestMatch k).2.1 = false := by rw [hg]
    have hn' : ((t.mapped f).longestMatch k).2.1 = false := (C25_longestMatch_notFound _ hu k).mpr fun x hx hc => by
      rw [mapped_listed ht he] at hx
      obtain ⟨y, hy, rfl⟩ := List.mem_map.mp hx
      exact (C25_longestMatch_notFound t ht k).mp hn y hy hc
    simp only
    rw [← hg, C25_longestMatch_zero _ k hn', C25_longestMatch_zero t k hn]

/-- `Get` after `Map`: the mapped value of the entry, or nothing as before. -/
theorem C78_get (t : Table α D) (ht : t.Reachable) (e : D → D → Bool) (he : t.eq = some e) (f : Prefix α → D → D)
    (k : PrefixI α) (hk : k.toPrefix.WF) :
    (∀ p v, (p, v) ∈ t.listed → keyOf p = keyOf k.toPrefix → (t.mapped f).get k = (keepOld e v (f p v), true)) ∧
    ((t.get k).2 = false → (t.mapped f).get k = (default, false)) := by
  have hu := mapped_reachable ht f
  refine ⟨fun p v h hp => (C25_get _ hu k _).mpr ⟨p, ?_, hp⟩, fun h => ?_⟩
  · rw [mapped_listed ht he]
    exact List.mem_map.mpr ⟨_, h, rfl⟩
  · obtain ⟨m, hm⟩ := hu.holds
    have hs := hm.shows hu k hk
    simp only [Entries.values] at hs
    cases hx : m (keyOf k.toPrefix) with
    | none => rw [hs, hx]; rfl
    | some x =>
      obtain ⟨h1, h2⟩ := (hm _ x).mp hx
      rw [mapped_listed ht he] at h1
      obtain ⟨y, hy, rfl⟩ := List.mem_map.mp h1
      rw [(C25_get t ht k y.2).mpr ⟨y.1, hy, h2⟩] at h
      cases h

/-- the same prefixes, as they were written, in the same order, and the same count -/
theorem C78_prefixes (t : Table α D) (ht : t.Reachable) (e : D → D → Bool) (he : t.eq = some e) (f : Prefix α → D → D) :
    (t.mapped f).listed.map (·.1) = t.listed.map (·.1) ∧ (t.mapped f).numEntries = t.numEntries := by
  have hu := mapped_reachable ht f
  refine ⟨?_, ?_⟩
  · rw [mapped_listed ht he, List.map_map]
    rfl
  · rw [C26_numEntries_mod _ hu, C26_numEntries_mod t ht, mapped_listed ht he, List.length_map]

/-- A mapper that changes no value (as the table's comparison sees it) gives a table with the same entries. -/
theorem C78_identity (t : Table α D) (ht : t.Reachable) (e : D → D → Bool) (he : t.eq = some e) (f : Prefix α → D → D)
    (h : ∀ x ∈ t.listed, e x.2 (f x.1 x.2) = true ∨ f x.1 x.2 = x.2) : (t.mapped f).listed = t.listed := by
  rw [mapped_listed ht he]
  conv => rhs; rw [← List.map_id t.listed]
  refine List.map_congr_left fun x hx => ?_
  have : keepOld e x.2 (f x.1 x.2) = x.2 := by
    unfold keepOld
    rcases h x hx with h | h
    · rw [if_pos h]
    · rw [h]; split <;> rfl
  rw [this]; rfl

theorem keepOld_new {e : D → D → Bool} (hl : ∀ a b, e a b = true → a = b) (v w : D) : keepOld e v w = w := by
  unfold keepOld
  split
  · rename_i h; exact hl _ _ h
  · rfl

/-- `Map` with `f` and then with `g` is `Map` with "first `f`, then `g`", if values that compare equal are equal. -/
theorem C78_compose (t : Table α D) (ht : t.Reachable) (e : D → D → Bool) (he : t.eq = some e)
    (hl : ∀ a b, e a b = true → a = b) (f g : Prefix α → D → D) :
    ((t.mapped f).mapped g).listed = (t.mapped fun p v => g p (f p v)).listed := by
  rw [mapped_listed (mapped_reachable ht f) (e := e) he, mapped_listed ht he, mapped_listed ht he, List.map_map]
  refine List.map_congr_left fun x _ => ?_
  simp only [Function.comp, keepOld_new hl]

/-- `Diff` of a table and its image reports every entry once, in order, with its mapped value: the entries that `Map`
    changed to `Changed` and the others to `Unchanged`; nothing is reported to `Left` or `Right`. -/
theorem C78_diff (t : Table α D) (ht : t.Reachable) (e : D → D → Bool) (he : t.eq = some e) (f : Prefix α → D → D)
    {σ : Type} (cb : TableDiffCallbacks α D σ) (s : σ) :
    t.diff (t.mapped f) cb s =
      visit (fun x => Change.report e cb (.both x.1 x.2 x.1 (keepOld e x.2 (f x.1 x.2)))) t.listed s := by
  have hu := mapped_reachable ht f
  obtain ⟨L, h1, h2, h3, h4, h5⟩ := C28_diff t (t.mapped f) ht hu e he
  have mem : ∀ x, (x ∈ t.listed) → (x.1, keepOld e x.2 (f x.1 x.2)) ∈ (t.mapped f).listed := fun x hx => by
    rw [mapped_listed ht he]; exact List.mem_map.mpr ⟨x, hx, rfl⟩
  have hb : ∀ c ∈ L, ∃ p v q w, c = .both p v q w := by
    intro c hc
    have hc5 := h5 c hc
    cases c with
    | both p v q w => exact ⟨p, v, q, w, rfl⟩
    | onlyLeft p v =>
      have hm : (p, v) ∈ t.listed := by rw [← h2]; exact List.mem_filterMap.mpr ⟨_, hc, rfl⟩
      have := (C25_get _ hu (.prefix p) _).mpr ⟨p, mem _ hm, rfl⟩
      have h' := hc5.2
      rw [this] at h'; cases h'
    | onlyRight p v =>
      have hm : (p, v) ∈ (t.mapped f).listed := by rw [← h3]; exact List.mem_filterMap.mpr ⟨_, hc, rfl⟩
      rw [mapped_listed ht he] at hm
      obtain ⟨y, hy, hye⟩ := List.mem_map.mp hm
      injection hye with e1 e2
      have := (C25_get t ht (.prefix p) y.2).mpr ⟨y.1, hy, by rw [e1]; rfl⟩
      have h' := hc5.1
      rw [this] at h'; cases h'
  rw [h1]
  rw [mapped_listed ht he] at h3
  have key : ∀ (L : List (Change α D)) (E : List (Prefix α × D)), (∀ c ∈ L, ∃ p v q w, c = Change.both p v q w) →
      L.filterMap Change.left = E →
      L.filterMap Change.right = E.map (fun x => (x.1, keepOld e x.2 (f x.1 x.2))) →
      L = E.map fun x => Change.both x.1 x.2 x.1 (keepOld e x.2 (f x.1 x.2)) := by
    intro L
    induction L with
    | nil => intro E _ h _; rw [← h]; rfl
    | cons c L ih =>
      intro E hb hl hr
      obtain ⟨p, v, q, w, rfl⟩ := hb c List.mem_cons_self
      simp only [List.filterMap_cons, Change.left, Change.right] at hl hr
      cases E with
      | nil => cases hl
      | cons x E =>
        injection hl with hl1 hl2
        simp only [List.map_cons] at hr
        injection hr with hr1 hr2
        rw [ih E (fun c hc => hb c (List.mem_cons_of_mem _ hc)) hl2 hr2]
        subst hl1
        injection hr1 with a b
        subst a; subst b
        rfl
  rw [key L _ hb h2 h3]
  have hv : ∀ (E : List (Prefix α × D)) (s : σ),
      visit (Change.report e cb) (E.map fun x => Change.both x.1 x.2 x.1 (keepOld e x.2 (f x.1 x.2))) s =
      visit (fun x => Change.report e cb (.both x.1 x.2 x.1 (keepOld e x.2 (f x.1 x.2)))) E s := by
    intro E
    induction E with
    | nil => intro s; rfl
    | cons x E ih =>
      intro s
      simp only [List.map_cons, visit]
      split
      · exact ih _
      · rfl
  exact hv _ _

/-- the entries with the mapped values -/
def Entries.mapped (f : Prefix α → D → D) (m : Entries α D) : Entries α D := fun κ => (m κ).map fun x => (x.1, f x.1 x.2)

theorem Table.Holds.mapped {t : Table α D} {m : Entries α D} (h : t.Holds m) (ht : t.Reachable) {e : D → D → Bool}
    (he : t.eq = some e) (hl : ∀ a b, e a b = true → a = b) (f : Prefix α → D → D) : (t.mapped f).Holds (m.mapped f) := by
  intro κ x
  rw [mapped_listed ht he]
  simp only [Entries.mapped, Option.map_eq_some_iff, List.mem_map, keepOld_new hl]
  constructor
  · rintro ⟨y, hy, rfl⟩
    obtain ⟨h1, h2⟩ := (h κ y).mp hy
    exact ⟨⟨y, h1, rfl⟩, h2⟩
  · rintro ⟨⟨y, hy, rfl⟩, h2⟩
    exact ⟨y, (h κ y).mpr ⟨hy, h2⟩, rfl⟩

theorem Entries.mapped_set (f : Prefix α → D → D) (m : Entries α D) (x : Prefix α × D) :
    (m.set x).mapped f = (m.mapped f).set (x.1, f x.1 x.2) := by
  funext κ
  simp only [Entries.mapped, Entries.set]
  split <;> rfl

theorem Entries.mapped_erase (f : Prefix α → D → D) (m : Entries α D) (p : Prefix α) :
    (m.erase p).mapped f = (m.mapped f).erase p := by
  funext κ
  simp only [Entries.mapped, Entries.erase]
  split <;> rfl

theorem Entries.mapped_step {e : D → D → Bool} (hl : ∀ a b, e a b = true → a = b) (f : Prefix α → D → D) (m : Entries α D)
    (o : TableOp α D) : (m.step e o).1.mapped f = ((m.mapped f).step e (o.mapped f)).1 := by
  have hk : ∀ a b : D, (if e a b = true then a else b) = b := fun a b => keepOld_new hl a b
  have hm : ∀ κ, m.mapped f κ = (m κ).map fun x => (x.1, f x.1 x.2) := fun _ => rfl
  cases o with
  | insert k v | update k v | insertOrUpdate k v | getOrInsert k v =>
    simp only [Entries.step, TableOp.mapped, hm]
    cases m (keyOf k.toPrefix) <;> simp only [Option.map_none, Option.map_some, hk, Entries.mapped_set]
  | get k => 
    simp only [Entries.step, TableOp.mapped, hm]
    cases m (keyOf k.toPrefix) <;> rfl
  | remove k => simp only [Entries.step, TableOp.mapped, Entries.mapped_erase]

/-- A write and then `Map` is the same as `Map` and then the write with the mapped value (if values that compare equal
    are equal). -/
theorem C78_write (t : Table α D) (ht : t.Reachable) (e : D → D → Bool) (he : t.eq = some e)
    (hl : ∀ a b, e a b = true → a = b) (f : Prefix α → D → D) (o : TableOp α D) (hk : o.key.toPrefix.WF) :
    ((t.step o).1.mapped f).listed = ((t.mapped f).step (o.mapped f)).1.listed := by
  obtain ⟨m, hm⟩ := ht.holds
  have hu := mapped_reachable ht f
  have hk' : (o.mapped f).key.toPrefix.WF := by cases o <;> exact hk
  have r1 : (t.step o).1.Reachable := .step t o ht (by rw [he]; simp) hk
  have heq : (t.step o).1.eq = some e := by
    exact (Table.step_spec (Table.repr_abs ht.good) he o hk).2.1
  have a := (hm.step_map ht he o hk).mapped r1 heq hl f
  have b := (hm.mapped ht he hl f).step_map hu (e := e) he (o.mapped f) hk'
  have r2 : ((t.mapped f).step (o.mapped f)).1.Reachable := .step _ _ hu (by rw [mapped_cmp, he]; simp) hk'
  refine eq_of_sorted (R := fun x y => LexBefore x.1 y.1) (fun h h' => h.asymm h') (C27_sorted _ (mapped_reachable r1 f))
    (C27_sorted _ r2) fun x => ?_
  rw [a.mem, b.mem, Entries.mapped_step hl]

end

section
variable {α D : Type} [LawfulIPFamily α] [Inhabited D] [DecidableEq D]

/-- `Aggregate` after `Map` with a constant has exactly the prefixes which `WalkPrefixes` reports for the set of the
    addresses that the table has an entry for, in the same order. -/
theorem C78_aggregate (t : Table α D) (ht : t.Reachable) (hc : t.CmpOk) (c : D) (s : IPSet α) (hs : s.Reachable)
    (h : ∀ a, s.has a ↔ (t.longestMatch (.address a)).2.1 = true) :
    ∃ L : List (Prefix α), (∀ (σ : Type) (cb : Prefix α → σ → σ × Bool) (st : σ), s.walkPrefixes cb st = visit cb L st) ∧
      (t.mapped fun _ _ => c).aggregate.listed.map (fun x => x.1.network) = L.map Prefix.network := by
  obtain ⟨e, he, h1, h2, h3⟩ := hc
  have hu := mapped_reachable ht fun _ _ => c
  refine C76_aggregate _ hu e he ⟨e, he, h1, h2, h3⟩ ?_ s hs fun a => ?_
  · have val : ∀ x ∈ (t.mapped fun _ _ => c).listed, e x.2 c = true := by
      rw [mapped_listed ht he]
      intro x hx
      obtain ⟨y, _, rfl⟩ := List.mem_map.mp hx
      simp only [keepOld]
      split
      · assumption
      · exact h1 c
    exact fun x hx y hy => h3 _ _ _ (val x hx) (h2 _ _ (val y hy))
  · rw [h a, C78_longestMatch t ht e he]
    generalize t.longestMatch (.address a) = g
    obtain ⟨v, b, p⟩ := g
    cases b <;> rfl

/-! ### concrete cases -/

/-- 0, 1, 2, … are doubled: a mapper under which every value of the sample table changes; the prefixes do not -/
def Sample.twice : Prefix (BitVec 32) → Nat → Nat := fun _ v => 2 * v

example : Sample.tbl.Reachable ∧ Sample.tbl.eq = some (fun a b => decide (a = b)) ∧
    (Sample.tbl.mapped Sample.twice).listed.map (·.2) = [18, 6, 2, 4] := by
  refine ⟨Sample.tbl_reachable, rfl, ?_⟩
  rw [Table.listed_eq]; decide

example : (Sample.tbl.mapped Sample.twice).longestMatch (.address 0x0a000041#32) = (2, true, ⟨0x0a000000#32, 25⟩) ∧
    (Sample.tbl.mapped Sample.twice).get Sample.k26 = (4, true) ∧
    (Sample.tbl.mapped Sample.twice).get Sample.k25b = (0, false) := by decide

/-- `Diff` calls `Changed` for the value that changes and `Unchanged` for the others -/
example : Sample.tbl.diff (Sample.tbl.mapped fun _ v => if v = 1 then 8 else v)
      { left := none, right := none, changed := some fun p v w (s : List (Nat × Nat × Nat)) => (s ++ [(p.len, v, w)], true),
        unchanged := some fun p v s => (s ++ [(p.len, v, v)], true) } [] =
    ([(0, 9, 9), (32, 3, 3), (25, 1, 8), (26, 2, 2)], true) := by
  rw [C78_diff _ Sample.tbl_reachable _ rfl, Table.listed_eq]; decide

/-- values that the comparison calls equal are equal: the hypothesis of `C78_compose` and `C78_write` -/
example : ∀ a b : Nat, (fun a b : Nat => decide (a = b)) a b = true → a = b := fun _ _ h => of_decide_eq_true h

/-- the comparison matters: with one that calls all values equal, no value changes -/
example : ∃ t : Table (BitVec 32) Nat, t.Reachable ∧ t.eq = some (fun _ _ => true) ∧ t.listed = [(⟨0x0a000000#32, 25⟩, 1)] ∧
    (t.mapped Sample.twice).listed = t.listed := by
  refine ⟨((Table.newCustom fun _ _ => true).step (.insert Sample.k25a 1)).1,
    .step _ _ (.newCustom _) (by simp [Table.newCustom]) (by decide), rfl, ?_, ?_⟩
  · rw [Table.listed_eq]; decide
  · rw [Table.listed_eq, Table.listed_eq]; decide

end
end Addrs

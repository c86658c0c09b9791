import Verif.PropLocal
import Verif.PropSets
import Verif.PropNet
import Verif.PropParse
/-
  Property C83: what the API returns is well formed, and everything well formed can be made with the API.
-/
set_option linter.unusedSectionVars false
namespace Addrs
open GoWord LawfulGoWord

/-! ### the specification -/

/-- a value a program can hold: a prefix, a range, a mask, a set, an argument for a set, a table, or an argument for a table -/
inductive ApiValue (α D : Type) where
  | pfx (p : Prefix α)
  | rng (r : Range α)
  | msk (m : α)
  | set (s : IPSet α)
  | arg (i : SetI α)
  | tab (t : Table α D)
  | key (k : PrefixI α)

section
variable {α D : Type} [IPFamily α] [Inhabited D] [DecidableEq D]

/-- What the values of a program should look like: the length of a prefix is at most the number of bits of an address, a range
    is not empty, a mask is a row of ones followed by zeros, sets and tables are built from such values. -/
def ApiValue.WellFormed : ApiValue α D → Prop
  | .pfx p => p.len ≤ width α
  | .rng r => toNat r.first ≤ toNat r.last
  | .msk m => ∃ n, n ≤ width α ∧ ∀ i, i < width α → bit m i = decide (i < n)
  | .set s => s.Reachable
  | .arg i => i.Valid
  | .tab t => t.Reachable
  | .key k => k.toPrefix.len ≤ width α

/-- The values that the calls of the API make, from nothing but addresses, texts and other values so made.  `source` says which
    prefixes the two constructors that differ between the families make, `lengths` which lengths the program passes to
    `FindAvailablePrefix`.  A callback is represented by the list of what it is called with. -/
inductive ApiValue.Made (source : Prefix α → Prop) (lengths : Nat → Prop) : ApiValue α D → Prop
  /- masks -/
  | maskZero : Made source lengths (.msk zero)
  | maskFromLength (k : Int) (m : α) (h : maskFromLength α k = some m) : Made source lengths (.msk m)
  | maskFromWord (w m : α) (h : maskFromWord w = some m) : Made source lengths (.msk m)
  | maskFromNetIPMask (x : Slice) (m : α) (h : maskFromNetIPMask α x = some m) : Made source lengths (.msk m)
  | prefixMask (p : Prefix α) (h : Made source lengths (.pfx p)) : Made source lengths (.msk p.mask)
  /- prefixes -/
  | prefixZero : Made source lengths (.pfx Prefix.zeroValue)
  | source (p : Prefix α) (h : source p) : Made source lengths (.pfx p)
  | addressPrefix (a : α) : Made source lengths (.pfx (Prefix.ofAddress a))
  | prefixFromAddressMask (a m : α) (h : Made source lengths (.msk m)) : Made source lengths (.pfx (prefixFromAddressMask a m))
  | network (p : Prefix α) (h : Made source lengths (.pfx p)) : Made source lengths (.pfx p.network)
  | broadcast (p : Prefix α) (h : Made source lengths (.pfx p)) : Made source lengths (.pfx p.broadcast)
  | host (p : Prefix α) (h : Made source lengths (.pfx p)) : Made source lengths (.pfx p.host)
  | halves (p : Prefix α) (h : Made source lengths (.pfx p)) (q : Prefix α) (hq : q = p.halves.1 ∨ q = p.halves.2) :
      Made source lengths (.pfx q)
  | walkPrefixes (s : IPSet α) (h : Made source lengths (.set s)) (p : Prefix α)
      (hp : p ∈ (s.walkPrefixes (fun p L => (L ++ [p], true)) []).1) : Made source lengths (.pfx p)
  | findAvailablePrefix (s : IPSet α) (i : SetI α) (n : Nat) (hs : Made source lengths (.set s)) (hi : Made source lengths (.arg i))
      (hn : lengths n) (p : Prefix α) (h : s.findAvailablePrefix i n = .ok p) : Made source lengths (.pfx p)
  | walk (t : Table α D) (h : Made source lengths (.tab t)) (p : Prefix α) (v : D)
      (hp : (p, v) ∈ (t.walk (fun p v L => (L ++ [(p, v)], true)) []).1) : Made source lengths (.pfx p)
  | longestMatch (t : Table α D) (k : PrefixI α) (ht : Made source lengths (.tab t)) (hk : Made source lengths (.key k)) :
      Made source lengths (.pfx (t.longestMatch k).2.2)
  | diff (t u : Table α D) (ht : Made source lengths (.tab t)) (hu : Made source lengths (.tab u)) (he : t.eq ≠ none) (p : Prefix α)
      (hp : p ∈ (t.diff u ⟨some fun p _ _ L => (L ++ [p], true), some fun p _ L => (L ++ [p], true), some fun p _ L => (L ++ [p], true),
        some fun p _ L => (L ++ [p], true)⟩ []).1) : Made source lengths (.pfx p)
  | mapper (t : Table α D) (h : Made source lengths (.tab t)) (he : t.eq ≠ none) (p : Prefix α)
      (hp : p ∈ (t.map (some fun p v L => (v, L ++ [p])) []).2) : Made source lengths (.pfx p)
  /- ranges -/
  | rangeZero : Made source lengths (.rng ⟨zero, zero⟩)
  | rangeFromAddresses (a b : α) : Made source lengths (.rng (Range.fromAddresses a b).1)
  | prefixRange (p : Prefix α) (h : Made source lengths (.pfx p)) : Made source lengths (.rng p.range)
  | minus (r q : Range α) (hr : Made source lengths (.rng r)) (hq : Made source lengths (.rng q)) (x : Range α) (hx : x ∈ r.minus q) :
      Made source lengths (.rng x)
  | plus (r q : Range α) (hr : Made source lengths (.rng r)) (hq : Made source lengths (.rng q)) (x : Range α) (hx : x ∈ r.plus q) :
      Made source lengths (.rng x)
  | walkRanges (s : IPSet α) (h : Made source lengths (.set s)) (r : Range α)
      (hr : r ∈ (s.walkRanges (fun r L => (L ++ [r], true)) []).1) : Made source lengths (.rng r)
  /- arguments for sets -/
  | argNil : Made source lengths (.arg .nil)
  | argAddress (a : α) : Made source lengths (.arg (.address a))
  | argPrefix (p : Prefix α) (h : Made source lengths (.pfx p)) : Made source lengths (.arg (.prefix p))
  | argRange (r : Range α) (h : Made source lengths (.rng r)) : Made source lengths (.arg (.range r))
  | argSet (s : IPSet α) (h : Made source lengths (.set s)) : Made source lengths (.arg (.set s))
  /- sets -/
  | setEmpty : Made source lengths (.set IPSet.empty)
  | toSet (i : SetI α) (h : Made source lengths (.arg i)) : Made source lengths (.set i.toSet)
  | union (s : IPSet α) (i : SetI α) (hs : Made source lengths (.set s)) (hi : Made source lengths (.arg i)) :
      Made source lengths (.set (s.union i))
  | intersection (s : IPSet α) (i : SetI α) (hs : Made source lengths (.set s)) (hi : Made source lengths (.arg i)) :
      Made source lengths (.set (s.intersection i))
  | difference (s : IPSet α) (i : SetI α) (hs : Made source lengths (.set s)) (hi : Made source lengths (.arg i)) :
      Made source lengths (.set (s.difference i))
  /- arguments for tables -/
  | keyNil : Made source lengths (.key .nil)
  | keyAddress (a : α) : Made source lengths (.key (.address a))
  | keyPrefix (p : Prefix α) (h : Made source lengths (.pfx p)) : Made source lengths (.key (.prefix p))
  /- tables -/
  | tableEmpty : Made source lengths (.tab Table.empty)
  | tableNew : Made source lengths (.tab Table.new_)
  | tableNewCustom (cmp : D → D → Bool) : Made source lengths (.tab (Table.newCustom cmp))
  | tableStep (t : Table α D) (o : TableOp α D) (h : Made source lengths (.tab t)) (he : t.eq ≠ none)
      (hk : Made source lengths (.key o.key)) : Made source lengths (.tab (t.step o).1)
  | tableMap {σ : Type} (t : Table α D) (f : Option (Prefix α → D → σ → D × σ)) (x : σ) (h : Made source lengths (.tab t)) :
      Made source lengths (.tab (t.map f x).1)
  | tableAggregate (t : Table α D) (h : Made source lengths (.tab t)) (hc : t.CmpOk) : Made source lengths (.tab t.aggregate)
  | tableTable_ (t : Table α D) (h : Made source lengths (.tab t)) : Made source lengths (.tab t.table_)
  | tableAggregateBy (t : Table α D) (e : D → D → Bool) (h : Made source lengths (.tab t)) (he : t.eq = some e)
      (symm : ∀ x y, e x y = e y x) (trans : ∀ x y z, e x y = true → e y z = true → e x z = true) :
      Made source lengths (.tab (t.aggregateBy (liftEq e)))

end

/-- what `ipv4.PrefixFromString` and `ipv4.PrefixFromNetIPNet` return -/
def V4.Source (p : Prefix (BitVec 32)) : Prop := (∃ s, V4.prefixFromString s = some p) ∨ ∃ n, V4.prefixFromNetIPNet n = some p
/-- what `ipv6.PrefixFromString` and `ipv6.PrefixFromNetIPNet` return -/
def V6.Source (p : Prefix U128) : Prop := (∃ s, V6.prefixFromString s = some p) ∨ ∃ n, V6.prefixFromNetIPNet n = some p

/-! ### proofs -/

theorem V4.Source.wf {p : Prefix (BitVec 32)} (h : V4.Source p) : p.WF := by
  rcases h with ⟨s, h⟩ | ⟨n, h⟩
  · unfold V4.prefixFromString at h
    cases e : V4.parseNet s with
    | none => rw [e] at h; cases h
    | some n => rw [e] at h; exact ((C44_v4_net_accepts _ _).mp h).1
  · exact ((C44_v4_net_accepts _ _).mp h).1

theorem V6.Source.wf {p : Prefix U128} (h : V6.Source p) : p.WF := by
  rcases h with ⟨s, h⟩ | ⟨n, h⟩
  · exact (v6_prefix_inv h).1
  · exact ((C44_v6_net_accepts _ _).mp h).1

section
variable {α : Type} [LawfulGoWord α]

theorem Prefix.range_valid {p : Prefix α} (h : p.WF) : p.range.Valid := (C04_range p h (p.addr)).2.2

theorem Range.fromAddresses_valid (a b : α) : (Range.fromAddresses a b).1.Valid := by
  rw [Range.fromAddresses]
  cases h : lt b a with
  | true => exact Nat.le_refl _
  | false => exact (lt_eq_false_iff.mp h : toNat a ≤ toNat b)

theorem Range.minus_valid {r q : Range α} (hr : r.Valid) (hq : q.Valid) {x : Range α} (hx : x ∈ r.minus q) : x.Valid :=
  (C06_minus r q hr hq).2.1.1 x hx

theorem Range.plus_valid {r q : Range α} (hr : r.Valid) (hq : q.Valid) {x : Range α} (hx : x ∈ r.plus q) : x.Valid := by
  have key : ∀ a b : Range α, a.Valid → b.Valid → x ∈ Range.plusAux a b → x.Valid := by
    intro a b ha hb h
    rw [Range.plusAux] at h
    split at h
    · rcases List.mem_cons.mp h with rfl | h
      · exact ha
      · rw [List.mem_singleton.mp h]; exact hb
    · rw [List.mem_singleton.mp h]
      show toNat a.first ≤ toNat (maxAddress a.last b.last)
      rw [toNat_max]
      exact Nat.le_trans ha (Nat.le_max_left _ _)
  rw [Range.plus] at hx
  split at hx
  · exact key _ _ hr hq hx
  · exact key _ _ hq hr hx

theorem Prefix.halves_wf {p q : Prefix α} (hq : q = p.halves.1 ∨ q = p.halves.2) : q.WF := by
  rw [Prefix.halves] at hq
  split at hq
  · rename_i h
    rcases hq with rfl | rfl <;> exact h
  · rcases hq with rfl | rfl <;> exact Nat.zero_le _

/-- every well formed prefix is made from an address and a mask -/
theorem Prefix.made_mask {p : Prefix α} (h : p.WF) :
    ∃ m, Addrs.maskFromLength α (p.len : Int) = some m ∧ Addrs.prefixFromAddressMask p.addr m = p := by
  have e : maskFromLength α (p.len : Int) = some (lengthToMask p.len) := by
    rw [maskFromLength, if_neg]
    · rfl
    · have : p.len ≤ width α := h
      omega
  refine ⟨_, e, ?_⟩
  have := C02_inverse.1 _ _ e
  show (⟨p.addr, maskLength (lengthToMask p.len : α)⟩ : Prefix α) = p
  have e2 : maskLength (lengthToMask p.len : α) = p.len := by omega
  rw [e2]

end

section
variable {α D : Type} [LawfulIPFamily α] [Inhabited D] [DecidableEq D]

theorem mem_visit_append {β : Type} (L : List β) (x : β) : x ∈ (visit (fun y A => (A ++ [y], true)) L []).1 ↔ x ∈ L := by
  have key : ∀ (L A : List β), x ∈ (visit (fun y A => (A ++ [y], true)) L A).1 ↔ x ∈ A ∨ x ∈ L := by
    intro L
    induction L with
    | nil => intro A; simp [visit]
    | cons y L ih =>
      intro A
      rw [visit]
      simp only [ih, List.mem_append, List.mem_cons, List.mem_nil_iff, or_false, or_assoc]
  rw [key]; simp

theorem Table.longestMatch_wf {t : Table α D} (ht : t.Reachable) (k : PrefixI α) : (t.longestMatch k).2.2.WF := by
  cases h : t.longestMatch k with
  | mk v x =>
    obtain ⟨b, p⟩ := x
    cases b with
    | true => exact ht.good.inv.entries_wf ((Table.mem_listed ht.good).mp ((longestMatch_iff t ht k v p).mp h).1)
    | false =>
      rw [Table.longestMatch] at h
      split at h
      · cases h
      · cases h; exact Nat.zero_le _

theorem Table.diff_wf {t u : Table α D} (ht : t.Reachable) (hu : u.Reachable) (he : t.eq ≠ none) {p : Prefix α}
    (hp : p ∈ (t.diff u ⟨some fun p _ _ L => (L ++ [p], true), some fun p _ L => (L ++ [p], true), some fun p _ L => (L ++ [p], true),
      some fun p _ L => (L ++ [p], true)⟩ ([] : List (Prefix α))).1) : p.WF := by
  obtain ⟨e, he⟩ := Option.ne_none_iff_exists'.mp he
  obtain ⟨C, h1, h2, h3, -⟩ := C28_diff t u ht hu e he
  have wt : ∀ {q : Prefix α} {v : D}, (q, v) ∈ t.listed → q.WF := fun h => ht.good.inv.entries_wf ((Table.mem_listed ht.good).mp h)
  have wu : ∀ {q : Prefix α} {v : D}, (q, v) ∈ u.listed → q.WF := fun h => hu.good.inv.entries_wf ((Table.mem_listed hu.good).mp h)
  have wf : ∀ c ∈ C, c.pfx.WF := by
    intro c hc
    cases c with
    | onlyLeft q v => exact wt (v := v) (h2 ▸ List.mem_filterMap.mpr ⟨_, hc, rfl⟩)
    | onlyRight q v => exact wu (v := v) (h3 ▸ List.mem_filterMap.mpr ⟨_, hc, rfl⟩)
    | both q v q' w => exact wt (v := v) (h2 ▸ List.mem_filterMap.mpr ⟨_, hc, rfl⟩)
  rw [h1] at hp
  have key : ∀ (C : List (Change α D)) (A : List (Prefix α)), (∀ c ∈ C, c.pfx.WF) → (∀ q ∈ A, q.WF) →
      ∀ q ∈ (visit (Change.report e ⟨some fun p _ _ L => (L ++ [p], true), some fun p _ L => (L ++ [p], true),
        some fun p _ L => (L ++ [p], true), some fun p _ L => (L ++ [p], true)⟩) C A).1, q.WF := by
    intro C
    induction C with
    | nil => intro A _ hA; exact hA
    | cons c C ih =>
      intro A hC hA
      have hstep : Change.report e (⟨some fun p _ _ L => (L ++ [p], true), some fun p _ L => (L ++ [p], true),
          some fun p _ L => (L ++ [p], true), some fun p _ L => (L ++ [p], true)⟩ : TableDiffCallbacks α D (List (Prefix α))) c A =
          (A ++ [c.pfx], true) := by
        cases c with
        | onlyLeft q v => rfl
        | onlyRight q v => rfl
        | both q v q' w =>
          rw [Change.report]
          cases e v w <;> rfl
      rw [visit, hstep]
      refine ih _ (fun c hc => hC c (List.mem_cons_of_mem _ hc)) fun q hq => ?_
      rcases List.mem_append.mp hq with h | h
      · exact hA q h
      · rw [List.mem_singleton.mp h]; exact hC c List.mem_cons_self
  exact key C [] wf (fun q h => nomatch h) p hp

theorem Table.mapper_wf {t : Table α D} (ht : t.Reachable) (he : t.eq ≠ none) {p : Prefix α}
    (hp : p ∈ (t.map (some fun p v L => (v, L ++ [p])) ([] : List (Prefix α))).2) : p.WF := by
  obtain ⟨e, he⟩ := Option.ne_none_iff_exists'.mp he
  obtain ⟨m, hm⟩ := C23_shows t ht
  obtain ⟨h1, -, h3, -, h5⟩ := Table.mapNodes_exact t ht e he m hm
  have wf : ∀ n ∈ t.mapNodes, n.1.WF := by
    intro n hn
    cases hb : n.2.2 with
    | false => exact (h3 n hn hb).1
    | true =>
      have : (n.1, n.2.1) ∈ t.listed := h1 ▸ List.mem_map.mpr ⟨n, List.mem_filter.mpr ⟨hn, hb⟩, rfl⟩
      exact ht.good.inv.entries_wf ((Table.mem_listed ht.good).mp this)
  have key : ∀ (N : List (Prefix α × D × Bool)) (x : List (Prefix α × D) × List (Prefix α)), (∀ n ∈ N, n.1.WF) → (∀ q ∈ x.2, q.WF) →
      ∀ q ∈ (N.foldl (mapCall e fun p v L => (v, L ++ [p])) x).2, q.WF := by
    intro N
    induction N with
    | nil => intro x _ hx; exact hx
    | cons n N ih =>
      intro x hN hx
      rw [List.foldl_cons]
      refine ih _ (fun c hc => hN c (List.mem_cons_of_mem _ hc)) fun q hq => ?_
      rcases List.mem_append.mp (show q ∈ x.2 ++ [n.1] from hq) with h | h
      · exact hx q h
      · rw [List.mem_singleton.mp h]; exact hN n List.mem_cons_self
  have := key t.mapNodes ([], []) wf (fun q h => nomatch h) p
  rw [h5] at this
  exact this hp

/-- whatever `source` makes, if that is well formed -/
theorem ApiValue.Made.wellFormed {source : Prefix α → Prop} (hs : ∀ p, source p → p.WF) {x : ApiValue α D}
    (h : x.Made source fun n => n ≤ width α) : x.WellFormed := by
  induction h with
  | maskZero => exact ⟨0, Nat.zero_le _, fun i hi => by simp⟩
  | maskFromLength k m h =>
    obtain ⟨h1, h2, h3⟩ := (C02_fromLength k m).mp h
    exact ⟨k.toNat, by omega, fun i hi => by rw [h3 i hi, decide_eq_decide]; omega⟩
  | maskFromWord w m h =>
    obtain ⟨rfl, n, hn, hb⟩ := (C02_fromWord w m).mp h
    exact ⟨n, hn, hb⟩
  | maskFromNetIPMask x m h =>
    unfold Addrs.maskFromNetIPMask at h
    split at h
    · cases h
    · split at h
      · cases h
      · rename_i h2
        split at h
        · cases h
        · cases h
          obtain ⟨h1, h2, h3⟩ := (C02_fromLength _ m).mp h2
          exact ⟨(Net.size x).1, by omega, fun i hi => by rw [h3 i hi, decide_eq_decide]; omega⟩
  | prefixMask p h ih => exact ⟨p.len, ih, fun i hi => bit_lengthToMask ih hi⟩
  | prefixZero => exact Nat.zero_le _
  | source p h => exact hs p h
  | addressPrefix a => exact Nat.le_refl _
  | prefixFromAddressMask a m h ih => exact lz_le _
  | network p h ih | broadcast p h ih | host p h ih => exact ih
  | halves p h q hq ih => exact Prefix.halves_wf hq
  | walkPrefixes s h p hp ih =>
    obtain ⟨L, h1, -, -, h4⟩ := C16_walkPrefixes s ih
    rw [h1, mem_visit_append] at hp
    exact (h4 p hp).1
  | findAvailablePrefix s i n hs hi hn p h ih1 ih2 => exact (C21_sound_partial s i n ih1 ih2 hn p h).2.1
  | walk t h p v hp ih => exact ih.good.inv.entries_wf ((Table.mem_listed ih.good).mp hp)
  | longestMatch t k ht hk ih1 ih2 => exact Table.longestMatch_wf ih1 k
  | diff t u ht hu he p hp ih1 ih2 => exact Table.diff_wf ih1 ih2 he hp
  | mapper t h he p hp ih => exact Table.mapper_wf ih he hp
  | rangeZero => exact Nat.le_refl _
  | rangeFromAddresses a b => exact Range.fromAddresses_valid a b
  | prefixRange p h ih => exact Prefix.range_valid ih
  | minus r q hr hq x hx ih1 ih2 => exact Range.minus_valid ih1 ih2 hx
  | plus r q hr hq x hx ih1 ih2 => exact Range.plus_valid ih1 ih2 hx
  | walkRanges s h r hr ih =>
    obtain ⟨L, h1, h2, -, -⟩ := C18_walkRanges s ih
    rw [h1, mem_visit_append] at hr
    exact h2 r hr
  | argNil => exact True.intro
  | argAddress a => exact True.intro
  | argPrefix p h ih => exact ih
  | argRange r h ih => exact ih
  | argSet s h ih => exact ih
  | setEmpty => exact .empty
  | toSet i h ih => exact SetI.Valid.reachable ih
  | union s i hs hi ih1 ih2 => exact .union _ _ ih1 (SetI.Valid.reachable ih2)
  | intersection s i hs hi ih1 ih2 => exact .intersection _ _ ih1 (SetI.Valid.reachable ih2)
  | difference s i hs hi ih1 ih2 => exact .difference _ _ ih1 (SetI.Valid.reachable ih2)
  | keyNil => exact Nat.zero_le _
  | keyAddress a => exact Nat.le_refl _
  | keyPrefix p h ih => exact ih
  | tableEmpty => exact .empty
  | tableNew => exact .new_
  | tableNewCustom cmp => exact .newCustom cmp
  | tableStep t o h he hk ih1 ih2 => exact .step _ _ ih1 he ih2
  | tableMap t f x h ih => exact .map _ _ _ ih
  | tableAggregate t h hc ih => exact .aggregate _ ih hc
  | tableTable_ t h ih => exact .table_ _ ih
  | tableAggregateBy t e h he symm trans ih => exact .aggregateBy _ e ih he symm trans

/-- Everything well formed can be made, without `PrefixFromString`, `PrefixFromNetIPNet` and `FindAvailablePrefix`. -/
theorem C83_complete (x : ApiValue α D) (h : x.WellFormed) (source : Prefix α → Prop) (lengths : Nat → Prop) : x.Made source lengths := by
  have hp : ∀ p : Prefix α, p.WF → (ApiValue.pfx p : ApiValue α D).Made source lengths := by
    intro p h
    obtain ⟨m, h1, h2⟩ := Prefix.made_mask h
    rw [← h2]
    exact .prefixFromAddressMask _ _ (.maskFromLength _ _ h1)
  have hr : ∀ r : Range α, r.Valid → (ApiValue.rng r : ApiValue α D).Made source lengths := by
    intro r h
    have e : (Range.fromAddresses r.first r.last).1 = r := by
      rw [Range.fromAddresses, if_neg]
      rw [lt_eq_false_iff.mpr h]; simp
    rw [← e]
    exact .rangeFromAddresses _ _
  have hs : ∀ s : IPSet α, s.Reachable → (ApiValue.set s : ApiValue α D).Made source lengths := by
    intro s h
    induction h with
    | empty => exact .setEmpty
    | address a => exact .toSet _ (.argAddress a)
    | «prefix» p h => exact .toSet _ (.argPrefix _ (hp p h))
    | range r h => exact .toSet _ (.argRange _ (hr r h))
    | union s t _ _ ih1 ih2 => exact .union _ _ ih1 (.argSet _ ih2)
    | intersection s t _ _ ih1 ih2 => exact .intersection _ _ ih1 (.argSet _ ih2)
    | difference s t _ _ ih1 ih2 => exact .difference _ _ ih1 (.argSet _ ih2)
  have hk : ∀ k : PrefixI α, k.toPrefix.WF → (ApiValue.key k : ApiValue α D).Made source lengths := by
    intro k h
    cases k with
    | nil => exact .keyNil
    | address a => exact .keyAddress a
    | «prefix» p => exact .keyPrefix _ (hp p h)
  cases x with
  | pfx p => exact hp p h
  | rng r => exact hr r h
  | msk m =>
    refine .maskFromWord m m ((C02_fromWord m m).mpr ⟨rfl, h⟩)
  | set s => exact hs s h
  | arg i =>
    cases i with
    | nil => exact .argNil
    | address a => exact .argAddress a
    | «prefix» p => exact .argPrefix _ (hp p h)
    | range r => exact .argRange _ (hr r h)
    | set s => exact .argSet _ (hs s h)
  | tab t =>
    replace h : t.Reachable := h
    induction h with
    | empty => exact .tableEmpty
    | new_ => exact .tableNew
    | newCustom cmp => exact .tableNewCustom cmp
    | step t o h he hk' ih => exact .tableStep _ _ ih he (hk _ hk')
    | map t f s h ih => exact .tableMap _ _ _ ih
    | aggregate t h hc ih => exact .tableAggregate _ ih hc
    | table_ t h ih => exact .tableTable_ _ ih
    | aggregateBy t e h he symm trans ih => exact .tableAggregateBy _ e ih he symm trans
  | key k => exact hk k h

end

section
variable {D : Type} [Inhabited D] [DecidableEq D]

/-- Full statement: for every length passed to `FindAvailablePrefix`.  False (`C83_counterexample`). -/
theorem C83_v4_partial (x : ApiValue (BitVec 32) D) : x.Made V4.Source (fun n => n ≤ 32) ↔ x.WellFormed :=
  ⟨fun h => ApiValue.Made.wellFormed (fun _ => V4.Source.wf) h, fun h => C83_complete x h _ _⟩

theorem C83_v6_partial (x : ApiValue U128 D) : x.Made V6.Source (fun n => n ≤ 128) ↔ x.WellFormed :=
  ⟨fun h => ApiValue.Made.wellFormed (fun _ => V6.Source.wf) h, fun h => C83_complete x h _ _⟩

/-- `FindAvailablePrefix` of the set of all addresses, with length 40, makes a prefix of length 40. -/
theorem C83_counterexample : ∃ x : ApiValue (BitVec 32) D, x.Made V4.Source (fun _ => True) ∧ ¬ x.WellFormed := by
  obtain ⟨s, h1, h2, h3⟩ := C21_counterexample
  exact ⟨.pfx ⟨0#32, 40⟩, .findAvailablePrefix s _ 40 (C83_complete (.set s) h1 _ _) (.argSet _ .setEmpty) True.intro _ h2, h3⟩

end

/-- a value made in a dozen steps: the second range of the set of 10.0.0.0/8 without 10.1.0.0/16 -/
example : (ApiValue.rng ⟨0x0a020000#32, 0x0affffff#32⟩ : ApiValue (BitVec 32) Nat).Made V4.Source (fun n => n ≤ 32) := by
  refine .minus ⟨0x0a000000#32, 0x0affffff#32⟩ ⟨0x0a010000#32, 0x0a01ffff#32⟩ ?_ ?_ _ (by decide)
  · exact .prefixRange ⟨0x0a000001#32, 8⟩ (.source _ (.inl ⟨"10.0.0.1/8".toList, by decide +kernel⟩))
  · exact .rangeFromAddresses 0x0a010000#32 0x0a01ffff#32

end Addrs

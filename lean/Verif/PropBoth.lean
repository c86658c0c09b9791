import Verif.PropSync
import Verif.PropAlgebra
import Verif.PropTableAgg
/-
  Property C76: tables and sets together.
-/
set_option linter.unusedSectionVars false
namespace Addrs
open GoWord LawfulGoWord

namespace Trie
variable {α D : Type} [LawfulGoWord α] {eq geq : Eq' D}

/-- a table trie with equal values only, after `aggregate`, seen as the trie of a set -/
theorem aggregate_canon (he : EqOk eq geq) {t : Trie α D} (hi : TInv t) (ha : AllEq eq t) :
    SetNode.Inv (aggregate eq geq none t).1.strip ∧
    (aggregate eq geq none t).1.strip.prefixes = (aggregate eq geq none t).1.entries.map (·.1) := by
  have htv := (aggregate_tinv he.toEqPer hi none).1
  have hall : AllEq eq (aggregate eq geq none t).1 := by
    intro x y hx hy
    obtain ⟨x', x1, -, -, x2⟩ := aggregate_entries he.toEqPer hi none x hx x.1.addr (Covers.self _)
    obtain ⟨y', y1, -, -, y2⟩ := aggregate_entries he.toEqPer hi none y hy y.1.addr (Covers.self _)
    exact x2.left he.toEqPer ((y2.symm he.toEqPer).right he.toEqPer (ha x' y' x1 y1))
  obtain ⟨h1, h2, -, -⟩ := strip_spec htv (aggregate_flat he.toEqPer hi ha) (aggregate_reduced he.toEqPer hi none) hall
  exact ⟨h1, h2⟩
end Trie

section
variable {α D : Type} [LawfulIPFamily α] [Inhabited D] [DecidableEq D]

theorem found_iff (t : Table α D) (ht : t.Reachable) (a : α) :
    (t.longestMatch (.address a)).2.1 = true ↔ ∃ x ∈ t.listed, InPrefix x.1 a := by
  have h := C25_longestMatch_notFound t ht (.address a)
  have c : ∀ x ∈ t.listed, (ContainsP x.1 (PrefixI.address a).toPrefix ↔ InPrefix x.1 a) := by
    intro x hx
    have w : x.1.WF := ht.good.inv.entries_wf ((Table.mem_listed (p := x.1) (v := x.2) ht.good).mp hx)
    exact ⟨fun h => h.2, fun h => ⟨w, h⟩⟩
  constructor
  · intro hf
    refine Classical.byContradiction fun hn => ?_
    rw [h.mpr fun x hx hc => hn ⟨x, hx, (c x hx).mp hc⟩] at hf
    cases hf
  · rintro ⟨x, hx, hc⟩
    cases hf : (t.longestMatch (.address a)).2.1 with
    | true => rfl
    | false => exact absurd ((c x hx).mpr hc) (h.mp hf x hx)

/-- the callback of a table's `Walk` that inserts every prefix into a `Set_` -/
def collect (p : Prefix α) (_ : D) (s : IPSet α) : IPSet α × Bool := (SetCall.apply s (.insert (.prefix p)), true)

/-- The prefixes of a table, collected in a set: the set has exactly the addresses for which `LongestMatch` finds an
    entry. -/
theorem C76_footprint (t : Table α D) (ht : t.Reachable) :
    ∃ s : IPSet α, t.walk collect IPSet.empty = (s, true) ∧ s.Reachable ∧
      ∀ a, s.has a ↔ (t.longestMatch (.address a)).2.1 = true := by
  have wf : ∀ x ∈ t.listed, x.1.WF := fun x h => ht.good.inv.entries_wf ((Table.mem_listed (p := x.1) (v := x.2) ht.good).mp h)
  obtain ⟨r1, r2⟩ := visit_insert (fun x : Prefix α × D => SetI.prefix x.1) t.listed wf IPSet.empty .empty
  refine ⟨_, ?_, r1, fun a => ?_⟩
  · rw [C27_walk]
    refine Prod.ext rfl ?_
    have : ∀ (L : List (Prefix α × D)) (s : IPSet α), (visit (fun x => collect x.1 x.2) L s).2 = true := by
      intro L
      induction L with
      | nil => intro s; rfl
      | cons x L ih => intro s; simp only [visit, collect]; exact ih _
    exact this _ _
  · rw [r2, found_iff t ht]
    constructor
    · rintro (h | ⟨x, hx, h⟩)
      · rw [IPSet.Reachable.empty.has_iff] at h
        exact (SetNode.mem_nil h).elim
      · exact ⟨x, hx, (C08_prefix x.1 (wf x hx) a).mp h⟩
    · rintro ⟨x, hx, h⟩
      exact .inr ⟨x, hx, (C08_prefix x.1 (wf x hx) a).mpr h⟩

/-- the callback of a set's `WalkPrefixes` that inserts every prefix with the value `v` into a `Table_` -/
def spread (v : D) (p : Prefix α) (s : Table α D × Bool) : (Table α D × Bool) × Bool := copyInto p v s

/-- The prefixes of a set, each inserted with the value `v` into a new `Table_`: every `Insert` returns true, the table
    has one entry for each prefix of the set, and `LongestMatch` finds `v` for the addresses of the set and nothing
    for all others. -/
theorem C76_spread (s : IPSet α) (hs : s.Reachable) (v : D) (e : D → D → Bool) :
    ∃ t : Table α D, s.walkPrefixes (spread v) (Table.newCustom e, true) = ((t, true), true) ∧
      (∃ L : List (Prefix α), (∀ (σ : Type) (cb : Prefix α → σ → σ × Bool) (st : σ), s.walkPrefixes cb st = visit cb L st) ∧
        t.listed = L.map fun p => (p, v)) ∧
      ∀ a, (s.has a → ∃ p, t.longestMatch (.address a) = (v, true, p)) ∧
        (¬ s.has a → (t.longestMatch (.address a)).2.1 = false) := by
  obtain ⟨L, h1, h2, h3, h4⟩ := C16_walkPrefixes s hs
  have self : ∀ p ∈ L, InPrefix p p.addr := fun p hp => (inPrefix_iff (h4 p hp).1).mpr (Covers.self p)
  have pw : (L.map fun p => (p, v)).Pairwise (fun x y : Prefix α × D => keyOf x.1 ≠ keyOf y.1) := by
    rw [List.pairwise_map]
    refine h2.imp_of_mem fun {p q} hp hq h hk => ?_
    have := (C23_key p q (h4 p hp).1).mp hk
    exact Nat.lt_irrefl _ (h q.addr q.addr this.2 (self q hq))
  have lex : (L.map fun p => (p, v)).Pairwise (fun x y : Prefix α × D => LexBefore x.1 y.1) := by
    rw [List.pairwise_map]
    refine h2.imp_of_mem fun {p q} hp hq h => .inl (h _ _ ?_ ?_)
    · exact (inPrefix_iff (h4 p hp).1).mpr (covers_network_addr (h4 p hp).1)
    · exact (inPrefix_iff (h4 q hq).1).mpr (covers_network_addr (h4 q hq).1)
  have wf : ∀ x ∈ L.map fun p => (p, v), x.1.WF := by
    intro x hx
    obtain ⟨p, hp, rfl⟩ := List.mem_map.mp hx
    exact (h4 p hp).1
  obtain ⟨t, k1, k2, k3, k4⟩ := copy_all (L.map fun p => (p, v)) (t := Table.newCustom e) (e := e) (m := Entries.empty)
    (.newCustom e) rfl (Table.holds_nil _) wf (fun _ _ => rfl) pw true
  have hl : t.listed = L.map fun p => (p, v) := by
    refine eq_of_sorted (R := fun x y => LexBefore x.1 y.1) (fun h h' => h.asymm h') (C27_sorted t k2) lex fun x => ?_
    rw [k4, show (Table.newCustom e : Table α D).listed = [] from Table.listed_nil _]
    simp
  refine ⟨t, ?_, ⟨L, h1, hl⟩, fun a => ?_⟩
  · rw [h1, ← k1, visit_map (fun p => (p, v)) (fun x => copyInto x.1 x.2)]
    rfl
  · have hf := found_iff t k2 a
    have hc : (∃ x ∈ t.listed, InPrefix x.1 a) ↔ s.has a := by
      rw [h3, hl]
      constructor
      · rintro ⟨x, hx, h⟩
        obtain ⟨p, hp, rfl⟩ := List.mem_map.mp hx
        exact ⟨p, hp, h⟩
      · rintro ⟨p, hp, h⟩
        exact ⟨(p, v), List.mem_map.mpr ⟨p, hp, rfl⟩, h⟩
    rw [hc] at hf
    refine ⟨fun ha => ?_, fun ha => ?_⟩
    · have hb := hf.mpr ha
      generalize hg : t.longestMatch (.address a) = g at hb ⊢
      obtain ⟨w, b, p⟩ := g
      cases hb
      have := (C25_longestMatch_found t k2 _ w p hg).1
      rw [hl] at this
      obtain ⟨q, _, e⟩ := List.mem_map.mp this
      injection e with e1 e2
      exact ⟨p, by rw [e2]⟩
    · cases hb : (t.longestMatch (.address a)).2.1 with
      | false => rfl
      | true => exact absurd (hf.mp hb) ha

/-- `Aggregate` of a table whose values are all equal has exactly the prefixes which `WalkPrefixes` reports for the set
    of the addresses that the table has an entry for (however the set was made), in the same order. -/
theorem C76_aggregate (t : Table α D) (ht : t.Reachable) (e : D → D → Bool) (he : t.eq = some e) (hc : t.CmpOk)
    (ha : ∀ x ∈ t.listed, ∀ y ∈ t.listed, e x.2 y.2 = true) (s : IPSet α) (hs : s.Reachable)
    (h : ∀ a, s.has a ↔ (t.longestMatch (.address a)).2.1 = true) :
    ∃ L : List (Prefix α), (∀ (σ : Type) (cb : Prefix α → σ → σ × Bool) (st : σ), s.walkPrefixes cb st = visit cb L st) ∧
      t.aggregate.listed.map (fun x => x.1.network) = L.map Prefix.network := by
  refine ⟨s.trie.prefixes, fun σ cb st => IPSet.walkPrefixes_eq _ _ _, ?_⟩
  have hall : Trie.AllEq t.cmp t.trie := by
    intro x y hx hy
    obtain ⟨v, hv⟩ := Option.isSome_iff_exists.mp (ht.good.some x hx)
    obtain ⟨w, hw⟩ := Option.isSome_iff_exists.mp (ht.good.some y hy)
    have hx' : (x.1, v) ∈ t.listed := (Table.mem_listed ht.good).mpr (by rw [← hv]; exact hx)
    have hy' : (y.1, w) ∈ t.listed := (Table.mem_listed ht.good).mpr (by rw [← hw]; exact hy)
    rw [hv, hw]
    simp only [Table.cmp, he, Option.getD_some, liftEq]
    exact ha _ hx' _ hy'
  obtain ⟨h1, h2⟩ := Trie.aggregate_canon hc.eqOk ht.good.inv hall
  have hg := Table.aggregate_good ht.good hc
  have hE : SetNode.Eqv _ s.trie := h1.canonical hs.inv fun x => by
    rw [← hs.has_iff, h, ← C32_found t ht hc, found_iff _ (.aggregate t ht hc), h1.mem_iff, h2]
    constructor
    · rintro ⟨p, hp, hx⟩
      obtain ⟨y, hy, rfl⟩ := List.mem_map.mp hp
      obtain ⟨v, hv⟩ := Option.isSome_iff_exists.mp (hg.some y hy)
      exact ⟨(y.1, v), (Table.mem_listed hg).mpr (by rw [← hv]; exact hy), (inPrefix_iff (hg.inv.entries_wf hy)).mpr hx⟩
    · rintro ⟨y, hy, hx⟩
      have hy' := (Table.mem_listed (p := y.1) (v := y.2) hg).mp hy
      exact ⟨y.1, List.mem_map.mpr ⟨_, hy', rfl⟩, (inPrefix_iff (hg.inv.entries_wf hy')).mp hx⟩
  rw [← hE.prefixes h1.prefixes_wf, h2, Table.listed_eq]
  unfold Table.pairs
  rw [List.map_map, List.map_map]
  rfl

/-- So a set and a table can do the same work: the prefixes of a table with equal values only, collected in a set and
    inserted into a new table, are the entries of `Aggregate` of the table. -/
theorem C76_round_trip (t : Table α D) (ht : t.Reachable) (e : D → D → Bool) (he : t.eq = some e) (hc : t.CmpOk)
    (ha : ∀ x ∈ t.listed, ∀ y ∈ t.listed, e x.2 y.2 = true) (v : D) (e' : D → D → Bool) :
    ∃ (s : IPSet α) (u : Table α D), t.walk collect IPSet.empty = (s, true) ∧
      s.walkPrefixes (spread v) (Table.newCustom e', true) = ((u, true), true) ∧
      u.listed.map (fun x => x.1.network) = t.aggregate.listed.map (fun x => x.1.network) := by
  obtain ⟨s, h1, h2, h3⟩ := C76_footprint t ht
  obtain ⟨u, k1, ⟨L, k2, k3⟩, _⟩ := C76_spread s h2 v e'
  obtain ⟨L', l1, l2⟩ := C76_aggregate t ht e he hc ha s h2 h3
  refine ⟨s, u, h1, k1, ?_⟩
  rw [l2, k3, List.map_map]
  have hl : ∀ M : List (Prefix α), (visit (fun p (acc : List (Prefix α)) => (acc ++ [p], true)) M []).1 = M := by
    have : ∀ (M acc : List (Prefix α)), (visit (fun p (acc : List (Prefix α)) => (acc ++ [p], true)) M acc).1 = acc ++ M := by
      intro M
      induction M with
      | nil => intro acc; simp [visit]
      | cons x M ih => intro acc; simp only [visit]; rw [ih]; simp
    intro M; rw [this]; rfl
  have : L = L' := by rw [← hl L, ← hl L', ← k2, ← l1]
  rw [this]
  rfl

/-- four entries with equal values become two prefixes, 10.0.0.0/23 and 10.0.2.0/24 -/
example : ∃ s : IPSet (BitVec 32), s.Reachable ∧ Sample.same.walk collect IPSet.empty = (s, true) ∧
    s.has 0x0a0001ff#32 ∧ ¬ s.has 0x0a000300#32 ∧
    Sample.same.listed.length = 4 ∧ Sample.same.aggregate.listed.length = 2 := by
  obtain ⟨s, h1, h2, h3⟩ := C76_footprint Sample.same Sample.same_reachable
  refine ⟨s, h2, h1, (h3 _).mpr ?_, fun h => ?_, ?_, ?_⟩
  · decide
  · have := (h3 _).mp h
    revert this
    decide
  · rw [Table.listed_eq]; decide
  · rw [Table.listed_eq]; decide

/-- the hypotheses of `C76_aggregate` -/
example : Sample.same.Reachable ∧ Sample.same.CmpOk ∧
    ∀ x ∈ Sample.same.listed, ∀ y ∈ Sample.same.listed, decide (x.2 = y.2) = true := by
  refine ⟨Sample.same_reachable, Sample.cmpOk_of_eq rfl, ?_⟩
  rw [Table.listed_eq]
  decide

end
end Addrs

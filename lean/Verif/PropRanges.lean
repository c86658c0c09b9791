import Verif.PropSetExact
/-
  Properties C79, C80: calculating with ranges and calculating with sets give the same.
-/
namespace Addrs
open GoWord LawfulGoWord
open SetNode

section
variable {α : Type} [LawfulIPFamily α]

/-- the ranges of a set, as `WalkRanges` lists them -/
def IPSet.ranges (s : IPSet α) : List (Range α) := (s.walkRanges (fun r acc => (acc ++ [r], true)) []).1

/-- valid ranges in ascending order that neither overlap nor touch -/
def Gapped (L : List (Range α)) : Prop :=
  (∀ r ∈ L, r.Valid) ∧ L.Pairwise fun r r' => toNat r.last + 1 < toNat r'.first

/-- the address is in one of the ranges -/
def InRanges (L : List (Range α)) (a : α) : Prop := ∃ r ∈ L, InRange r a

/-- `Minus` for lists of ranges: subtract every range of `M` from every range of `L` -/
def subtract (L M : List (Range α)) : List (Range α) :=
  M.foldl (fun pieces q => pieces.flatMap fun r => r.minus q) L

theorem visit_gather {β : Type} (L acc : List β) : visit (fun r acc => (acc ++ [r], true)) L acc = (acc ++ L, true) := by
  induction L generalizing acc with
  | nil => simp [visit]
  | cons x L ih => simp [visit, ih]

theorem Gapped.tail {r : Range α} {L : List (Range α)} (h : Gapped (r :: L)) : Gapped L :=
  ⟨fun q hq => h.1 q (List.mem_cons_of_mem _ hq), (List.pairwise_cons.mp h.2).2⟩

theorem Gapped.after {r : Range α} {L : List (Range α)} (h : Gapped (r :: L)) {a : α} (ha : InRanges L a) : toNat r.last + 1 < toNat a := by
  obtain ⟨q, hq, hi⟩ := ha
  exact Nat.lt_of_lt_of_le ((List.pairwise_cons.mp h.2).1 q hq) hi.1

theorem inRanges_cons {r : Range α} {L : List (Range α)} {a : α} : InRanges (r :: L) a ↔ InRange r a ∨ InRanges L a := by
  simp [InRanges]

/-- the ranges are determined by the addresses -/
theorem Gapped.unique : ∀ {L M : List (Range α)}, Gapped L → Gapped M → (∀ a, InRanges L a ↔ InRanges M a) → L = M := by
  have none : ∀ {r : Range α} {M : List (Range α)}, r.Valid → (∀ a, InRanges [] a ↔ InRanges (r :: M) a) → False := by
    intro r M hr h
    obtain ⟨q, hq, _⟩ := (h r.first).mpr ⟨r, by simp, Nat.le_refl _, hr⟩
    cases hq
  intro L
  induction L with
  | nil =>
    intro M _ hM h
    cases M with
    | nil => rfl
    | cons r M => exact (none (hM.1 r (by simp)) h).elim
  | cons r L ih =>
    intro M hL hM h
    cases M with
    | nil => exact (none (hL.1 r (by simp)) fun a => (h a).symm).elim
    | cons q M =>
      have vr : toNat r.first ≤ toNat r.last := hL.1 r (by simp)
      have vq : toNat q.first ≤ toNat q.last := hM.1 q (by simp)
      have first : ∀ {r q : Range α} {L M : List (Range α)}, Gapped (r :: L) → Gapped (q :: M) →
          (∀ a, InRanges (r :: L) a ↔ InRanges (q :: M) a) → toNat q.first ≤ toNat r.first := by
        intro r q L M hL hM h
        have vr : toNat r.first ≤ toNat r.last := hL.1 r (by simp)
        have vq : toNat q.first ≤ toNat q.last := hM.1 q (by simp)
        rcases inRanges_cons.mp ((h r.first).mp ⟨r, by simp, Nat.le_refl _, vr⟩) with h1 | h1
        · exact h1.1
        · have := hM.after h1; omega
      have last : ∀ {r q : Range α} {L M : List (Range α)}, Gapped (r :: L) → Gapped (q :: M) →
          (∀ a, InRanges (r :: L) a ↔ InRanges (q :: M) a) → toNat q.first ≤ toNat r.first → toNat q.last ≤ toNat r.last := by
        intro r q L M hL hM h hf
        apply Nat.le_of_not_lt
        intro hlt
        have vr : toNat r.first ≤ toNat r.last := hL.1 r (by simp)
        have hb := toNat_lt q.last
        have hn : toNat (add1 r.last) = toNat r.last + 1 := toNat_add1_lt (by omega)
        rcases inRanges_cons.mp ((h (add1 r.last)).mpr ⟨q, by simp, by omega, by omega⟩) with h1 | h1
        · have := h1.2; omega
        · have := hL.after h1; omega
      have f1 := first hL hM h
      have f2 := first hM hL fun a => (h a).symm
      have l1 := last hL hM h f1
      have l2 := last hM hL (fun a => (h a).symm) f2
      have e : r = q := by
        have e1 := toNat_inj (Nat.le_antisymm f2 f1)
        have e2 := toNat_inj (Nat.le_antisymm l2 l1)
        cases r; cases q
        simp only at e1 e2
        rw [e1, e2]
      subst e
      rw [ih hL.tail hM.tail fun a => ?_]
      constructor
      · intro ha
        rcases inRanges_cons.mp ((h a).mp (inRanges_cons.mpr (Or.inr ha))) with h1 | h1
        · have := hL.after ha; have := h1.2; omega
        · exact h1
      · intro ha
        rcases inRanges_cons.mp ((h a).mpr (inRanges_cons.mpr (Or.inr ha))) with h1 | h1
        · have := hM.after ha; have := h1.2; omega
        · exact h1

/-- `WalkRanges` lists ranges with gaps; these have the addresses of the set, and no other list of such ranges has. -/
theorem C79_ranges (s : IPSet α) (hs : s.Reachable) :
    Gapped s.ranges ∧ (∀ a, InRanges s.ranges a ↔ s.has a) ∧
    ∀ L : List (Range α), Gapped L → (∀ a, InRanges L a ↔ s.has a) → L = s.ranges := by
  obtain ⟨L, h1, h2, h3, h4⟩ := C18_walkRanges s hs
  have e : s.ranges = L := by
    unfold IPSet.ranges
    rw [h1, visit_gather]
    rfl
  rw [e]
  exact ⟨⟨h2, h3⟩, fun a => (h4 a).symm, fun M hM h => hM.unique ⟨h2, h3⟩ fun a => (h a).trans (h4 a)⟩

/-- the pieces of `r.Minus(q)` do not touch -/
theorem minus_gapped {r q : Range α} (hr : r.Valid) (hq : q.Valid) : Gapped (r.minus q) := by
  obtain ⟨_, ⟨h1, h2⟩, h3⟩ := C06_minus r q hr hq
  refine ⟨h1, ?_⟩
  have hr' : toNat r.first ≤ toNat r.last := hr
  have hq' : toNat q.first ≤ toNat q.last := hq
  have hm := toNat_lt r.last
  unfold Range.minus
  cases g1 : lt r.first q.first <;> cases g2 : lt q.last r.last <;> simp only [Bool.false_eq_true, if_false, if_true, List.nil_append, List.append_nil,
    List.Pairwise.nil, List.singleton_append, List.pairwise_cons, List.mem_singleton, List.not_mem_nil, false_imp_iff, implies_true,
    and_true, forall_eq]
  rw [lt_iff] at g1 g2
  have hn : toNat q.next = toNat q.last + 1 := toNat_add1_lt (by omega)
  have hp : toNat q.prev = toNat q.first - 1 := toNat_sub1_pos (by omega)
  rw [toNat_max, toNat_min, hn, hp]
  omega

theorem minus_inside {r q : Range α} (hr : r.Valid) (hq : q.Valid) {t : Range α} (ht : t ∈ r.minus q) :
    toNat r.first ≤ toNat t.first ∧ toNat t.last ≤ toNat r.last := by
  obtain ⟨_, ⟨h1, _⟩, h3⟩ := C06_minus r q hr hq
  have hv : toNat t.first ≤ toNat t.last := h1 t ht
  exact ⟨((h3 t.first).mp ⟨t, ht, Nat.le_refl _, hv⟩).1.1, ((h3 t.last).mp ⟨t, ht, hv, Nat.le_refl _⟩).1.2⟩

theorem Gapped.minus {L : List (Range α)} (h : Gapped L) {q : Range α} (hq : q.Valid) :
    Gapped (L.flatMap fun r => r.minus q) ∧ ∀ a, InRanges (L.flatMap fun r => r.minus q) a ↔ InRanges L a ∧ ¬ InRange q a := by
  constructor
  · constructor
    · intro t ht
      obtain ⟨r, hr, ht⟩ := List.mem_flatMap.mp ht
      exact (minus_gapped (h.1 r hr) hq).1 t ht
    · induction L with
      | nil => exact .nil
      | cons r L ih =>
        have vr := h.1 r (by simp)
        rw [List.flatMap_cons, List.pairwise_append]
        refine ⟨(minus_gapped vr hq).2, ih h.tail, ?_⟩
        intro t ht u hu
        obtain ⟨r', hr', hu⟩ := List.mem_flatMap.mp hu
        have h1 := (minus_inside vr hq ht).2
        have h2 := (minus_inside (h.1 r' (List.mem_cons_of_mem _ hr')) hq hu).1
        have h3 := (List.pairwise_cons.mp h.2).1 r' hr'
        omega
  · intro a
    constructor
    · rintro ⟨t, ht, ha⟩
      obtain ⟨r, hr, ht⟩ := List.mem_flatMap.mp ht
      obtain ⟨h1, h2⟩ := ((C06_minus r q (h.1 r hr) hq).2.2 a).mp ⟨t, ht, ha⟩
      exact ⟨⟨r, hr, h1⟩, h2⟩
    · rintro ⟨⟨r, hr, h1⟩, h2⟩
      obtain ⟨t, ht, ha⟩ := ((C06_minus r q (h.1 r hr) hq).2.2 a).mpr ⟨h1, h2⟩
      exact ⟨t, List.mem_flatMap.mpr ⟨r, hr, ht⟩, ha⟩

theorem Gapped.subtract {L : List (Range α)} (h : Gapped L) {M : List (Range α)} (hM : ∀ q ∈ M, q.Valid) :
    Gapped (subtract L M) ∧ ∀ a, InRanges (Addrs.subtract L M) a ↔ InRanges L a ∧ ¬ InRanges M a := by
  induction M generalizing L with
  | nil => exact ⟨h, fun a => by simp [Addrs.subtract, InRanges]⟩
  | cons q M ih =>
    obtain ⟨h1, h2⟩ := h.minus (hM q (by simp))
    obtain ⟨h3, h4⟩ := ih h1 fun q' hq' => hM q' (List.mem_cons_of_mem _ hq')
    refine ⟨h3, fun a => ?_⟩
    rw [inRanges_cons, not_or, ← and_assoc, ← h2 a]
    exact h4 a

/-- The ranges of a difference of sets: `Minus` for every range of the one and every range of the other.  For all sets. -/
theorem C79_difference (s t : IPSet α) (hs : s.Reachable) (ht : t.Reachable) :
    (s.difference (.set t)).ranges = subtract s.ranges t.ranges := by
  obtain ⟨g1, g2, _⟩ := C79_ranges s hs
  obtain ⟨g3, g4, _⟩ := C79_ranges t ht
  obtain ⟨h1, h2⟩ := g1.subtract g3.1
  refine ((C79_ranges _ (.difference s t hs ht)).2.2 _ h1 fun a => ?_).symm
  rw [h2, g2, g4, C11_difference s (.set t) hs ht]
  rfl

/-- and of an intersection -/
theorem C79_intersection (s t : IPSet α) (hs : s.Reachable) (ht : t.Reachable) :
    (s.intersection (.set t)).ranges = subtract s.ranges (subtract s.ranges t.ranges) := by
  obtain ⟨g1, g2, _⟩ := C79_ranges s hs
  obtain ⟨g3, g4, _⟩ := C79_ranges t ht
  obtain ⟨h1, h2⟩ := g1.subtract g3.1
  obtain ⟨h3, h4⟩ := g1.subtract h1.1
  refine ((C79_ranges _ (.intersection s t hs ht)).2.2 _ h3 fun a => ?_).symm
  rw [h4, h2, g2, g4, C10_intersection s (.set t) hs ht]
  show _ ↔ s.has a ∧ t.has a
  constructor
  · rintro ⟨h1, h2⟩
    exact ⟨h1, Classical.byContradiction fun h => h2 ⟨h1, h⟩⟩
  · rintro ⟨h1, h2⟩
    exact ⟨h1, fun h => h.2 h2⟩

/-- A set contains another if `Minus` leaves nothing of the ranges of the other. -/
theorem C79_contains (s t : IPSet α) (hs : s.Reachable) (ht : t.Reachable) :
    s.contains (.set t) = true ↔ subtract t.ranges s.ranges = [] := by
  rw [← C79_difference t s ht hs, C12_contains s (.set t) hs ht]
  have hd := C79_ranges _ (.difference t s ht hs)
  have hm := fun a => C11_difference t (.set s) ht hs a
  constructor
  · intro h
    refine (hd.2.2 [] ⟨by simp, .nil⟩ fun a => ?_).symm
    rw [hm a]
    constructor
    · rintro ⟨r, hr, _⟩; cases hr
    · rintro ⟨h1, h2⟩; exact (h2 (h a h1)).elim
  · intro h a ha
    apply Classical.byContradiction
    intro hn
    obtain ⟨r, hr, _⟩ := (hd.2.1 a).mpr ((hm a).mpr ⟨ha, hn⟩)
    rw [h] at hr
    cases hr

theorem range_gapped {r : Range α} (hr : r.Valid) : Gapped [r] := ⟨by simpa using hr, List.pairwise_singleton _ _⟩

theorem inRanges_one {r : Range α} {a : α} : InRanges [r] a ↔ InRange r a := by simp [InRanges]

/-- the set of a range has one range, the one that it is taken for -/
theorem C80_range_exact (r r' : Range α) (hr : r.Valid) (h : TakenFor r r') : (SetI.range r).toSet.ranges = [r'] := by
  refine ((C79_ranges _ (.range r hr)).2.2 _ (range_gapped (h.valid hr)) fun a => ?_).symm
  rw [inRanges_one, h.has hr]

/-- the set of a prefix has the range of the prefix -/
theorem C79_prefix (p : Prefix α) (hp : p.WF) : (SetI.prefix p).toSet.ranges = [p.range] := by
  refine ((C79_ranges _ (.prefix p hp)).2.2 _ (range_gapped (C04_range p hp zero).2.2) fun a => ?_).symm
  rw [inRanges_one, C08_prefix p hp, (C04_range p hp a).1]

/-- `Minus` of ranges and `Difference` of the sets of ranges, for all valid ranges: what is computed is the difference of the ranges that
    they are taken for. -/
theorem C80_minus_exact (r r' q q' : Range α) (hr : r.Valid) (hq : q.Valid) (h : TakenFor r r') (h' : TakenFor q q') :
    ((SetI.range r).toSet.difference (.range q)).ranges = r'.minus q' := by
  obtain ⟨h1, h2⟩ := (range_gapped (h.valid hr)).minus (h'.valid hq)
  simp only [List.flatMap_cons, List.flatMap_nil, List.append_nil] at h1 h2
  refine ((C79_ranges _ (.difference _ _ (.range r hr) (.range q hq))).2.2 _ h1 fun a => ?_).symm
  refine Iff.trans ?_ (C11_difference _ (.range q) (.range r hr) hq a).symm
  rw [h2, inRanges_one, h.has hr, h'.has hq]

/-- Full statement: without `hb` and `hb'`, false (`C80_counterexample`); `C80_minus_exact` says what happens for the others. -/
theorem C80_minus_partial (r q : Range α) (hr : r.Valid) (hq : q.Valid) (hb : ¬ BadRange r) (hb' : ¬ BadRange q) :
    ((SetI.range r).toSet.difference (.range q)).ranges = r.minus q :=
  C80_minus_exact r r q q hr hq (.self hb) (.self hb')

/-- for prefixes it is always so -/
theorem C79_prefix_minus (p q : Prefix α) (hp : p.WF) (hq : q.WF) :
    ((SetI.prefix p).toSet.difference (.prefix q)).ranges = p.range.minus q.range := by
  have vp := (C04_range p hp zero).2.2
  have vq := (C04_range q hq zero).2.2
  obtain ⟨h1, h2⟩ := (range_gapped vp).minus vq
  simp only [List.flatMap_cons, List.flatMap_nil, List.append_nil] at h1 h2
  refine ((C79_ranges _ (.difference _ _ (.prefix p hp) (.prefix q hq))).2.2 _ h1 fun a => ?_).symm
  refine Iff.trans ?_ (C11_difference _ (.prefix q) (.prefix p hp) hq a).symm
  rw [h2, inRanges_one, C08_prefix p hp, C08_prefix q hq, (C04_range p hp a).1, (C04_range q hq a).1]

/-- the pieces of `r.Plus(q)` do not touch, unless `PlusWraps` -/
theorem plus_gapped {r q : Range α} (hr : r.Valid) (hq : q.Valid) : Gapped (r.plus q) ↔ ¬ PlusWraps r q := by
  constructor
  · intro h hw
    refine (C07_plus_wraps r q hr hq hw).2.2 ⟨h.1, h.2.imp ?_⟩
    intro a b hab; omega
  · intro hw
    obtain ⟨h1, h2, h3⟩ := C07_plus_partial r q hr hq hw
    refine ⟨h1.1, ?_⟩
    by_cases ht : Touch r q
    · match hL : r.plus q, h2 ht with
      | [x], _ => exact List.pairwise_singleton _ _
    · unfold Touch at ht
      have g : ∀ {x y : Range α}, (x = r ∧ y = q ∨ x = q ∧ y = r) → toNat x.last < toNat y.first → toNat x.last + 1 < toNat y.first := by
        intro x y hxy hlt
        have vr : toNat r.first ≤ toNat r.last := hr
        have vq : toNat q.first ≤ toNat q.last := hq
        rcases hxy with ⟨rfl, rfl⟩ | ⟨rfl, rfl⟩ <;> omega
      have h4 := h1.2
      rcases h3 ht with e | e <;> rw [e] at h4 ⊢ <;>
        simp only [List.pairwise_cons, List.mem_singleton, forall_eq, List.not_mem_nil, false_imp_iff, implies_true, List.Pairwise.nil, and_true] at h4 ⊢
      · exact g (Or.inl ⟨rfl, rfl⟩) h4
      · exact g (Or.inr ⟨rfl, rfl⟩) h4

/-- `Plus` of ranges and `Union` of the sets of ranges, for all valid ranges -/
theorem C80_plus_exact (r r' q q' : Range α) (hr : r.Valid) (hq : q.Valid) (h : TakenFor r r') (h' : TakenFor q q') :
    ((SetI.range r).toSet.union (.range q)).ranges = r'.plus q' ↔ ¬ PlusWraps r' q' := by
  have vr := h.valid hr
  have vq := h'.valid hq
  have hR := C79_ranges _ (.union _ _ (.range r hr) (.range q hq))
  constructor
  · intro e
    rw [← plus_gapped vr vq, ← e]
    exact hR.1
  · intro hw
    refine (hR.2.2 _ ((plus_gapped vr vq).mpr hw) fun a => ?_).symm
    refine Iff.trans ?_ (C09_union _ (.range q) (.range r hr) hq a).symm
    rw [h.has hr, h'.has hq]
    exact C07_plus_addresses r' q' vr vq a

/-- Full statement: without `hb`, `hb'` and `hw` (C08, C07). -/
theorem C80_plus_partial (r q : Range α) (hr : r.Valid) (hq : q.Valid) (hb : ¬ BadRange r) (hb' : ¬ BadRange q) (hw : ¬ PlusWraps r q) :
    ((SetI.range r).toSet.union (.range q)).ranges = r.plus q :=
  (C80_plus_exact r r q q hr hq (.self hb) (.self hb')).mpr hw

end

open Classical in
/-- `NumAddresses` is the sum of the sizes of the ranges -/
theorem C79_count (s : IPSet (BitVec 32)) (hs : s.Reachable) :
    s.numAddresses.toNat = (s.ranges.map fun r => r.last.toNat - r.first.toNat + 1).sum := by
  obtain ⟨g1, g2, _⟩ := C79_ranges s hs
  rw [(C15_numAddresses s hs).1]
  have key : ∀ (L : List (Range (BitVec 32))), Gapped L →
      (List.range (2 ^ 32)).countP (fun k => decide (InRanges L (BitVec.ofNat 32 k))) = (L.map fun r => r.last.toNat - r.first.toNat + 1).sum := by
    intro L
    induction L with
    | nil =>
      intro _
      rw [List.map_nil, List.sum_nil, List.countP_eq_zero]
      intro k _ h
      obtain ⟨r, hr, _⟩ := of_decide_eq_true h
      cases hr
    | cons r L ih =>
      intro hL
      have vr : r.first.toNat ≤ r.last.toNat := hL.1 r (by simp)
      rw [List.map_cons, List.sum_cons, ← ih hL.tail, ← countP_interval vr r.last.isLt, ← countP_or_disjoint]
      · apply List.countP_congr
        intro k hk
        have hk := List.mem_range.mp hk
        rw [Bool.or_eq_true, decide_eq_true_eq, decide_eq_true_eq, decide_eq_true_eq, inRanges_cons]
        refine or_congr ?_ Iff.rfl
        show r.first.toNat ≤ (BitVec.ofNat 32 k).toNat ∧ (BitVec.ofNat 32 k).toNat ≤ r.last.toNat ↔ _
        rw [BitVec.toNat_ofNat, Nat.mod_eq_of_lt hk]
      · rintro k hk ⟨h1, h2⟩
        have hk := List.mem_range.mp hk
        rw [decide_eq_true_eq] at h1 h2
        have h3 : r.last.toNat + 1 < (BitVec.ofNat 32 k).toNat := hL.after h2
        rw [BitVec.toNat_ofNat, Nat.mod_eq_of_lt hk] at h3
        omega
  rw [← key _ g1]
  apply List.countP_congr
  intro k _
  rw [decide_eq_true_eq, decide_eq_true_eq, g2]

/-! ### where it fails, and samples -/
namespace Sample

/-- 10.0.0.1-10.0.0.2: its set has two more addresses (C08) -/
def rbad : Range (BitVec 32) := ⟨0x0a000001#32, 0x0a000002#32⟩
/-- 10.0.0.0-10.0.0.9 -/
def r09 : Range (BitVec 32) := ⟨0x0a000000#32, 0x0a000009#32⟩

theorem r09_valid : r09.Valid := by show (0x0a000000#32).toNat ≤ (0x0a000009#32).toNat; decide
theorem not_bad {r : Range (BitVec 32)} (h : ∀ k, k < 33 → r.first.toNat / 2 ^ k = r.last.toNat / 2 ^ k →
    r.first.toNat % 2 ^ k + r.last.toNat % 2 ^ k = 2 ^ k - 1 → r.first.toNat % 2 ^ k = 0) : ¬ BadRange r := by
  rintro ⟨k, h1, h2, h3, h4⟩
  exact h4 (h k (Nat.lt_succ_of_le h1) h2 h3)
theorem r09_good : ¬ BadRange r09 := not_bad (by decide)
theorem rbad_valid : rbad.Valid := by show (0x0a000001#32).toNat ≤ (0x0a000002#32).toNat; decide
end Sample

/-- The two ways to calculate differ: 10.0.0.0-10.0.0.9 minus 10.0.0.1-10.0.0.2 are two ranges, but one with sets. -/
theorem C80_counterexample : ∃ r q : Range (BitVec 32), r.Valid ∧ q.Valid ∧
    r.minus q = [⟨0x0a000000#32, 0x0a000000#32⟩, ⟨0x0a000003#32, 0x0a000009#32⟩] ∧
    ((SetI.range r).toSet.difference (.range q)).ranges = [⟨0x0a000004#32, 0x0a000009#32⟩] := by
  refine ⟨Sample.r09, Sample.rbad, Sample.r09_valid, Sample.rbad_valid, by decide, ?_⟩
  rw [C80_minus_exact _ _ _ ⟨0x0a000000#32, 0x0a000003#32⟩ Sample.r09_valid Sample.rbad_valid (.self Sample.r09_good)
    (Or.inr ⟨2, ⟨by decide, by decide, by decide⟩, by decide, by decide⟩)]
  decide

/-- [0.0.0.5, 255.255.255.255] and [0.0.0.7, 0.0.0.9]: `Plus` returns both (C07), the union of the sets is one range. -/
theorem C80_plus_counterexample : ∃ r q : Range (BitVec 32), r.Valid ∧ q.Valid ∧ (r.plus q).length = 2 ∧
    ((SetI.range r).toSet.union (.range q)).ranges = [r] := by
  have v1 : Range.Valid (⟨5#32, 0xffffffff#32⟩ : Range (BitVec 32)) := by show (5#32).toNat ≤ (0xffffffff#32).toNat; decide
  have v2 : Range.Valid (⟨7#32, 9#32⟩ : Range (BitVec 32)) := by show (7#32).toNat ≤ (9#32).toNat; decide
  have b1 : ¬ BadRange (⟨5#32, 0xffffffff#32⟩ : Range (BitVec 32)) := Sample.not_bad (by decide)
  have b2 : ¬ BadRange (⟨7#32, 9#32⟩ : Range (BitVec 32)) := Sample.not_bad (by decide)
  refine ⟨⟨5#32, 0xffffffff#32⟩, ⟨7#32, 9#32⟩, v1, v2, by decide, ?_⟩
  refine ((C79_ranges _ (.union _ _ (.range _ v1) (.range _ v2))).2.2 _ (range_gapped v1) fun a => ?_).symm
  refine Iff.trans ?_ (C09_union _ (.range _) (.range _ v1) v2 a).symm
  rw [inRanges_one, C08_range_partial _ v1 b1, C08_range_partial _ v2 b2]
  refine ⟨Or.inl, fun h => h.elim id fun h => ?_⟩
  have h1 : (7#32).toNat ≤ a.toNat := h.1
  have h2 : a.toNat ≤ (9#32).toNat := h.2
  constructor
  · show (5#32).toNat ≤ a.toNat
    exact Nat.le_trans (by decide) h1
  · show a.toNat ≤ (0xffffffff#32).toNat
    exact Nat.le_trans h2 (by decide)

namespace Sample
/-- a set with a gap, calculated with `Minus` -/
example : ((SetI.range r09).toSet.difference (.range ⟨0x0a000004#32, 0x0a000005#32⟩)).ranges =
    [⟨0x0a000000#32, 0x0a000003#32⟩, ⟨0x0a000006#32, 0x0a000009#32⟩] := by
  rw [C80_minus_partial _ _ r09_valid (by show (0x0a000004#32).toNat ≤ (0x0a000005#32).toNat; decide) r09_good (not_bad (by decide))]
  decide
example : subtract [r09, ⟨0x0a000100#32, 0x0a00010f#32⟩] [⟨0x0a000004#32, 0x0a000005#32⟩, ⟨0x0a000009#32, 0x0a00010a#32⟩] =
    [⟨0x0a000000#32, 0x0a000003#32⟩, ⟨0x0a000006#32, 0x0a000008#32⟩, ⟨0x0a00010b#32, 0x0a00010f#32⟩] := by decide
example : ((SetI.range r09).toSet.union (.range ⟨0x0a00000a#32, 0x0a00000f#32⟩)).ranges = [⟨0x0a000000#32, 0x0a00000f#32⟩] := by
  rw [C80_plus_partial _ _ r09_valid (by show (0x0a00000a#32).toNat ≤ (0x0a00000f#32).toNat; decide) r09_good (not_bad (by decide)) (by unfold PlusWraps; decide)]
  decide
example : ((SetI.prefix p8).toSet.difference (.prefix p16)).ranges =
    [⟨0x0a000000#32, 0x0a00ffff#32⟩, ⟨0x0a020000#32, 0x0affffff#32⟩] := by
  rw [C79_prefix_minus _ _ (by decide) (by decide)]
  decide
end Sample
end Addrs

import Verif.SetApiProofs
/-
  WalkRanges, WalkAddresses and NumPrefixes.
-/
namespace Addrs
open GoWord LawfulGoWord

section
variable {α : Type} [LawfulGoWord α]

/-- the range of a prefix is its interval -/
theorem Prefix.range_eq {p : Prefix α} (hp : p.WF) :
    p.range = ⟨p.network.addr, p.broadcast.addr⟩ ∧ toNat p.network.addr ≤ toNat p.broadcast.addr := by
  have h := (covers_iff_range hp).mp (Covers.self p)
  have hle : toNat p.network.addr ≤ toNat p.broadcast.addr := Nat.le_trans h.1 h.2
  refine ⟨?_, hle⟩
  have : lt p.broadcast.addr p.network.addr = false := by
    cases hb : lt p.broadcast.addr p.network.addr with
    | false => rfl
    | true => rw [lt_iff] at hb; omega
  simp [Prefix.range, Range.fromAddresses, this]

theorem inRange_range {p : Prefix α} (hp : p.WF) {x : α} : InRange p.range x ↔ Covers p x := by
  rw [(Prefix.range_eq hp).1, covers_iff_range hp]; rfl

theorem covers_network_addr {p : Prefix α} (hp : p.WF) : Covers p p.network.addr :=
  (covers_iff_range hp).mpr ⟨Nat.le_refl _, (Prefix.range_eq hp).2⟩
theorem covers_broadcast_addr {p : Prefix α} (hp : p.WF) : Covers p p.broadcast.addr :=
  (covers_iff_range hp).mpr ⟨(Prefix.range_eq hp).2, Nat.le_refl _⟩

/-- the ranges `WalkRanges` produces from a current range and the prefixes still to come -/
def mergeFrom (cur : Range α) : List (Prefix α) → List (Range α)
  | [] => [cur]
  | p :: ps =>
    if lt cur.next p.range.first then cur :: mergeFrom p.range ps
    else mergeFrom ⟨cur.first, maxAddress cur.last p.range.last⟩ ps

def mergeAll : List (Prefix α) → List (Range α)
  | [] => []
  | p :: ps => mergeFrom p.range ps

/-- the step function of `WalkRanges` (ipv4/set.go:270-283) -/
def rangeStep {σ : Type} (cb : Range α → σ → σ × Bool) (p : Prefix α) (x : List (Range α) × σ) :
    (List (Range α) × σ) × Bool :=
  let ranges := match x.1 with
    | [] => [p.range]
    | r :: _ => p.range.plus r
  match ranges with
  | [a, b] =>
    match cb a x.2 with
    | (st', false) => ((ranges, st'), false)
    | (st', true) => (([b], st'), true)
  | _ => ((ranges, x.2), true)

/-- the end of `WalkRanges` (ipv4/set.go:284-292) -/
def rangeEnd {σ : Type} (cb : Range α → σ → σ × Bool) (x : (List (Range α) × σ) × Bool) : σ × Bool :=
  match x with
  | ((_, st'), false) => (st', false)
  | ((ranges, st'), true) =>
    match ranges with
    | [a] =>
      match cb a st' with
      | (st'', false) => (st'', false)
      | (st'', true) => (st'', true)
    | _ => (st', true)

theorem walkRanges_eq {σ : Type} (s : IPSet α) (cb : Range α → σ → σ × Bool) (st : σ) :
    s.walkRanges cb st = rangeEnd cb (visit (rangeStep cb) s.trie.prefixes ([], st)) := by
  simp only [IPSet.walkRanges]
  rw [IPSet.walkPrefixes_eq]
  rfl

/-- all addresses of the prefixes come after `cur` -/
def After (cur : Range α) (ps : List (Prefix α)) : Prop :=
  ∀ p ∈ ps, ∀ x, Covers p x → toNat cur.last < toNat x

def Ascending (ps : List (Prefix α)) : Prop :=
  ps.Pairwise fun p q => ∀ x y, Covers p x → Covers q y → toNat x < toNat y

theorem lt_false_iff {a b : α} : lt a b = false ↔ toNat b ≤ toNat a := by
  have h := lt_iff (a := a) (b := b)
  cases hb : lt a b with
  | true => rw [hb] at h; simp at h; simp; omega
  | false => rw [hb] at h; simp at h; simp; omega

theorem plus_step {cur : Range α} {p : Prefix α} (hv : cur.Valid) (hp : p.WF)
    (ha : ∀ x, Covers p x → toNat cur.last < toNat x) :
    p.range.plus cur = Range.plusAux cur p.range ∧ toNat cur.next = toNat cur.last + 1 ∧
      maxAddress cur.last p.range.last = p.range.last ∧
      p.range = ⟨p.network.addr, p.broadcast.addr⟩ := by
  have h1 := ha _ (covers_network_addr hp)
  have h2 := ha _ (covers_broadcast_addr hp)
  have hr := Prefix.range_eq hp
  have hv' : toNat cur.first ≤ toNat cur.last := hv
  refine ⟨?_, ?_, ?_, hr.1⟩
  · have : lt p.range.first cur.first = false := by
      rw [lt_false_iff, hr.1]; simp only; omega
    simp [Range.plus, this]
  · rw [Range.next, toNat_add1]
    apply Nat.mod_eq_of_lt
    have := toNat_lt p.network.addr
    omega
  · rw [hr.1]
    have : lt cur.last p.broadcast.addr = true := lt_iff.mpr h2
    simp [maxAddress, this]

theorem visit_rangeStep {σ : Type} (cb : Range α → σ → σ × Bool) (ps : List (Prefix α)) :
    ∀ (cur : Range α) (st : σ), cur.Valid → (∀ p ∈ ps, p.WF) → After cur ps → Ascending ps →
    rangeEnd cb (visit (rangeStep cb) ps ([cur], st)) = visit cb (mergeFrom cur ps) st := by
  induction ps with
  | nil =>
    intro cur st _ _ _ _
    simp only [visit, rangeEnd, mergeFrom]
    cases cb cur st with
    | mk s b => cases b <;> rfl
  | cons p ps ih =>
    intro cur st hv hw haf has
    have hp : p.WF := hw p (List.mem_cons_self ..)
    have hap := haf p (List.mem_cons_self ..)
    obtain ⟨e1, e2, e3, e4⟩ := plus_step hv hp hap
    rw [Ascending, List.pairwise_cons] at has
    have hpv : p.range.Valid := by rw [e4]; exact (Prefix.range_eq hp).2
    have haf' : After p.range ps := by
      intro q hq x hx
      rw [e4]
      exact has.1 q hq _ x (covers_broadcast_addr hp) hx
    have hw' : ∀ q ∈ ps, q.WF := fun q hq => hw q (List.mem_cons_of_mem _ hq)
    simp only [visit, mergeFrom]
    by_cases hc : lt cur.next p.range.first = true
    · simp only [rangeStep, e1, Range.plusAux, hc, if_true]
      simp only [visit]
      cases hcb : cb cur st with
      | mk s b =>
        cases b with
        | true =>
          simp only
          exact ih p.range s hpv hw' haf' has.2
        | false => simp [rangeEnd]
    · simp only [rangeStep, e1, Range.plusAux, hc, e3]
      have := ih ⟨cur.first, p.range.last⟩ st (by
        have h1 : toNat cur.first ≤ toNat cur.last := hv
        have h2 := hap _ (covers_broadcast_addr hp)
        rw [e4]; show toNat cur.first ≤ toNat p.broadcast.addr; omega) hw' haf' has.2
      simpa using this

theorem walkRanges_visit {σ : Type} {s : IPSet α} (hi : SetNode.Inv s.trie)
    (cb : Range α → σ → σ × Bool) (st : σ) :
    s.walkRanges cb st = visit cb (mergeAll s.trie.prefixes) st := by
  rw [walkRanges_eq]
  have hw := hi.prefixes_wf
  have has : Ascending s.trie.prefixes := hi.sorted
  cases hps : s.trie.prefixes with
  | nil => rfl
  | cons p ps =>
    rw [hps] at hw has
    have hp : p.WF := hw p (List.mem_cons_self ..)
    rw [Ascending, List.pairwise_cons] at has
    simp only [visit, rangeStep, mergeAll]
    apply visit_rangeStep cb ps p.range st
    · rw [(Prefix.range_eq hp).1]; exact (Prefix.range_eq hp).2
    · exact fun q hq => hw q (List.mem_cons_of_mem _ hq)
    · intro q hq x hx
      rw [(Prefix.range_eq hp).1]
      exact has.1 q hq _ x (covers_broadcast_addr hp) hx
    · exact has.2

theorem mergeFrom_spec (ps : List (Prefix α)) : ∀ (cur : Range α), cur.Valid → (∀ p ∈ ps, p.WF) →
    After cur ps → Ascending ps →
    (∀ r ∈ mergeFrom cur ps, r.Valid ∧ toNat cur.first ≤ toNat r.first) ∧
    (mergeFrom cur ps).Pairwise (fun r r' => toNat r.last + 1 < toNat r'.first) ∧
    (∀ x, (∃ r ∈ mergeFrom cur ps, InRange r x) ↔ InRange cur x ∨ ∃ p ∈ ps, Covers p x) := by
  induction ps with
  | nil =>
    intro cur hv _ _ _
    refine ⟨?_, ?_, ?_⟩
    · intro r hr
      rw [mergeFrom, List.mem_singleton] at hr
      subst hr; exact ⟨hv, Nat.le_refl _⟩
    · simp [mergeFrom]
    · simp [mergeFrom]
  | cons p ps ih =>
    intro cur hv hw haf has
    have hp : p.WF := hw p (List.mem_cons_self ..)
    have hap := haf p (List.mem_cons_self ..)
    obtain ⟨e1, e2, e3, e4⟩ := plus_step hv hp hap
    rw [Ascending, List.pairwise_cons] at has
    have hpv : p.range.Valid := by rw [e4]; exact (Prefix.range_eq hp).2
    have haf' : After p.range ps := by
      intro q hq x hx
      rw [e4]
      exact has.1 q hq _ x (covers_broadcast_addr hp) hx
    have hw' : ∀ q ∈ ps, q.WF := fun q hq => hw q (List.mem_cons_of_mem _ hq)
    have hv' : toNat cur.first ≤ toNat cur.last := hv
    have hn := hap _ (covers_network_addr hp)
    have hb := hap _ (covers_broadcast_addr hp)
    rw [mergeFrom]
    by_cases hc : lt cur.next p.range.first = true
    · simp only [hc, if_true]
      obtain ⟨i1, i2, i3⟩ := ih p.range hpv hw' haf' has.2
      rw [lt_iff, e2] at hc
      have hfirst : toNat p.range.first = toNat p.network.addr := by rw [e4]
      refine ⟨?_, ?_, ?_⟩
      · intro r hr
        rcases List.mem_cons.mp hr with rfl | hr
        · exact ⟨hv, Nat.le_refl _⟩
        · have := i1 r hr
          exact ⟨this.1, by omega⟩
      · rw [List.pairwise_cons]
        exact ⟨fun r hr => by have := (i1 r hr).2; omega, i2⟩
      · intro x
        have hx := i3 x
        rw [inRange_range hp] at hx
        simp only [List.mem_cons]
        constructor
        · rintro ⟨r, rfl | hr, hx'⟩
          · exact .inl hx'
          · rcases hx.mp ⟨r, hr, hx'⟩ with h | ⟨q, hq, h⟩
            · exact .inr ⟨p, .inl rfl, h⟩
            · exact .inr ⟨q, .inr hq, h⟩
        · rintro (h | ⟨q, rfl | hq, h⟩)
          · exact ⟨cur, .inl rfl, h⟩
          · obtain ⟨r, hr, h'⟩ := hx.mpr (.inl h); exact ⟨r, .inr hr, h'⟩
          · obtain ⟨r, hr, h'⟩ := hx.mpr (.inr ⟨q, hq, h⟩); exact ⟨r, .inr hr, h'⟩
    · simp only [hc]
      rw [e3]
      have hc : lt cur.next p.range.first = false := by simpa using hc
      rw [lt_false_iff, e2, e4] at hc
      simp only at hc
      have hv2 : Range.Valid (⟨cur.first, p.range.last⟩ : Range α) := by
        rw [e4]; show toNat cur.first ≤ toNat p.broadcast.addr; omega
      obtain ⟨i1, i2, i3⟩ := ih ⟨cur.first, p.range.last⟩ hv2 hw' haf' has.2
      refine ⟨i1, i2, ?_⟩
      intro x
      have hx := i3 x
      have hin : InRange ⟨cur.first, p.range.last⟩ x ↔ InRange cur x ∨ Covers p x := by
        rw [covers_iff_range hp, e4]
        simp only [InRange]
        have := Prefix.range_eq hp
        omega
      simp only [Bool.false_eq_true, if_false]
      rw [hx, hin]
      constructor
      · rintro ((h | h) | ⟨q, hq, h⟩)
        · exact .inl h
        · exact .inr ⟨p, List.mem_cons_self .., h⟩
        · exact .inr ⟨q, List.mem_cons_of_mem _ hq, h⟩
      · rintro (h | ⟨q, hq, h⟩)
        · exact .inl (.inl h)
        · rcases List.mem_cons.mp hq with rfl | hq
          · exact .inl (.inr h)
          · exact .inr ⟨q, hq, h⟩

theorem mergeAll_spec {t : SetNode α} (hi : SetNode.Inv t) :
    (∀ r ∈ mergeAll t.prefixes, r.Valid) ∧
    (mergeAll t.prefixes).Pairwise (fun r r' => toNat r.last + 1 < toNat r'.first) ∧
    (∀ x, (∃ r ∈ mergeAll t.prefixes, InRange r x) ↔ SetNode.Mem t x) := by
  have hw := hi.prefixes_wf
  have has : Ascending t.prefixes := hi.sorted
  have hm := fun x => hi.mem_iff (x := x)
  cases hps : t.prefixes with
  | nil =>
    rw [hps] at hm
    refine ⟨by simp [mergeAll], by simp [mergeAll], fun x => ?_⟩
    rw [hm]; simp [mergeAll]
  | cons p ps =>
    rw [hps] at hw has hm
    have hp : p.WF := hw p (List.mem_cons_self ..)
    rw [Ascending, List.pairwise_cons] at has
    obtain ⟨i1, i2, i3⟩ := mergeFrom_spec ps p.range
      (by rw [(Prefix.range_eq hp).1]; exact (Prefix.range_eq hp).2)
      (fun q hq => hw q (List.mem_cons_of_mem _ hq))
      (by
        intro q hq x hx
        rw [(Prefix.range_eq hp).1]
        exact has.1 q hq _ x (covers_broadcast_addr hp) hx) has.2
    refine ⟨fun r hr => (i1 r hr).1, i2, fun x => ?_⟩
    rw [mergeAll, i3, hm, inRange_range hp]
    simp

end

/-! ### WalkAddresses (ipv4) -/

theorem walkAddrLoop_eq {σ : Type} (cb : BitVec 32 → σ → σ × Bool) (hi : BitVec 32)
    (hmax : hi.toNat < 2 ^ 32 - 1) (n : Nat) : ∀ (fuel : Nat) (a : BitVec 32) (st : σ), n < fuel →
    hi.toNat + 1 = a.toNat + n →
    walkAddrLoop cb hi fuel a st =
      let r := visit cb ((List.range' a.toNat n).map (BitVec.ofNat 32)) st
      (r.1, some r.2) := by
  induction n with
  | zero =>
    intro fuel a st hf hn
    cases fuel with
    | zero => omega
    | succ fuel =>
      rw [walkAddrLoop]
      have : hi.toNat < a.toNat := by omega
      simp [this, visit]
  | succ n ih =>
    intro fuel a st hf hn
    cases fuel with
    | zero => omega
    | succ fuel =>
      rw [walkAddrLoop]
      have h1 : ¬ hi.toNat < a.toNat := by omega
      have ha : BitVec.ofNat 32 a.toNat = a := by simp
      simp only [h1, if_false, List.range'_succ, List.map_cons, visit, ha]
      cases hcb : cb a st with
      | mk s b =>
        cases b with
        | false => rfl
        | true =>
          simp only
          have ea : (a + 1#32).toNat = a.toNat + 1 := by
            rw [BitVec.toNat_add]; simp; omega
          rw [ih fuel (a + 1#32) s (by omega) (by omega), ea]

/-- the addresses of a prefix, ascending -/
def Prefix.addresses (p : Prefix (BitVec 32)) : List (BitVec 32) :=
  (List.range' p.network.addr.toNat (2 ^ (32 - p.len))).map (BitVec.ofNat 32)

theorem Prefix.walkAddresses_eq {σ : Type} {p : Prefix (BitVec 32)} (hp : p.WF)
    (hmax : p.broadcast.addr.toNat < 2 ^ 32 - 1) (fuel : Nat) (hf : 2 ^ 32 < fuel)
    (cb : BitVec 32 → σ → σ × Bool) (st : σ) :
    p.walkAddresses fuel cb st =
      ((visit cb p.addresses st).1, some (visit cb p.addresses st).2) := by
  have h1 := toNat_network hp
  have h2 := toNat_broadcast hp
  have e1 : toNat p.network.addr = p.network.addr.toNat := rfl
  have e2 : toNat p.broadcast.addr = p.broadcast.addr.toNat := rfl
  have ew : width (BitVec 32) = 32 := rfl
  rw [ew] at h1 h2
  have hpow : 2 ^ (32 - p.len) ≤ 2 ^ 32 := Nat.pow_le_pow_right (by omega) (by omega)
  have hpos : 0 < 2 ^ (32 - p.len) := Nat.pow_pos (by omega)
  rw [Prefix.walkAddresses, walkAddrLoop_eq cb _ hmax (2 ^ (32 - p.len)) fuel _ st (by omega) (by omega)]
  rfl

/-- the last address 255.255.255.255 makes the loop run for ever when the callback never stops it -/
theorem walkAddrLoop_forever {σ : Type} (cb : BitVec 32 → σ → σ × Bool) (hcb : ∀ a s, (cb a s).2 = true)
    (fuel : Nat) : ∀ a st, (walkAddrLoop cb (BitVec.allOnes 32) fuel a st).2 = none := by
  induction fuel with
  | zero => intro a st; rfl
  | succ fuel ih =>
    intro a st
    rw [walkAddrLoop]
    have h1 : ¬ (BitVec.allOnes 32).toNat < a.toNat := by
      have := a.isLt
      simp; omega
    simp only [h1, if_false]
    cases h : cb a st with
    | mk s b =>
      have := hcb a st
      rw [h] at this
      simp only at this
      subst this
      exact ih _ _

/-- visiting through an inner walk per prefix is visiting all addresses in order -/
theorem walkAddresses_visit {σ : Type} {s : IPSet (BitVec 32)} (hw : ∀ p ∈ s.trie.prefixes, p.WF)
    (hmax : ∀ p ∈ s.trie.prefixes, p.broadcast.addr.toNat < 2 ^ 32 - 1)
    (fuel : Nat) (hf : 2 ^ 32 < fuel) (cb : BitVec 32 → σ → σ × Bool) (st : σ) :
    s.walkAddresses fuel cb st =
      ((visit cb (s.trie.prefixes.flatMap Prefix.addresses) st).1,
        some (visit cb (s.trie.prefixes.flatMap Prefix.addresses) st).2) := by
  simp only [IPSet.walkAddresses, IPSet.walkPrefixes_eq]
  change (match visit _ s.trie.prefixes (st, false) with
    | ((st', true), _) => (st', none)
    | ((st', false), b) => (st', some b)) = _
  generalize s.trie.prefixes = ps at *
  induction ps generalizing st with
  | nil => rfl
  | cons p ps ih =>
    have hp := Prefix.walkAddresses_eq (hw p (List.mem_cons_self ..)) (hmax p (List.mem_cons_self ..))
      fuel hf cb st
    rw [List.flatMap_cons, visit_append]
    simp only [visit, hp, Trie.andThen]
    cases hb : (visit cb p.addresses st).2 with
    | false => simp
    | true =>
      simp only [if_true]
      exact ih _ (fun q hq => hw q (List.mem_cons_of_mem _ hq))
        (fun q hq => hmax q (List.mem_cons_of_mem _ hq))

theorem mem_addresses {p : Prefix (BitVec 32)} (hp : p.WF) {a : BitVec 32} :
    a ∈ p.addresses ↔ Covers p a := by
  have h1 := toNat_network hp
  have h2 := toNat_broadcast hp
  have e1 : toNat p.network.addr = p.network.addr.toNat := rfl
  have e3 : toNat a = a.toNat := rfl
  have ew : width (BitVec 32) = 32 := rfl
  rw [ew] at h1 h2
  have hpos : 0 < 2 ^ (32 - p.len) := Nat.pow_pos (by omega)
  rw [covers_iff_range hp, Prefix.addresses, List.mem_map]
  have hb : toNat p.broadcast.addr < 2 ^ 32 := toNat_lt _
  constructor
  · rintro ⟨n, hn, rfl⟩
    rw [List.mem_range'] at hn
    obtain ⟨i, hi, rfl⟩ := hn
    have : toNat (BitVec.ofNat 32 (p.network.addr.toNat + 1 * i)) = p.network.addr.toNat + i := by
      show (BitVec.ofNat 32 _).toNat = _
      rw [BitVec.toNat_ofNat]; omega
    omega
  · rintro ⟨g1, g2⟩
    refine ⟨a.toNat, ?_, by simp⟩
    rw [List.mem_range']
    exact ⟨a.toNat - p.network.addr.toNat, by omega, by omega⟩

theorem addresses_sorted {p : Prefix (BitVec 32)} (hp : p.WF) :
    p.addresses.Pairwise fun a b => a.toNat < b.toNat := by
  have h1 := toNat_network hp
  have h2 := toNat_broadcast hp
  have e1 : toNat p.network.addr = p.network.addr.toNat := rfl
  have ew : width (BitVec 32) = 32 := rfl
  rw [ew] at h1 h2
  have hpos : 0 < 2 ^ (32 - p.len) := Nat.pow_pos (by omega)
  have hb : toNat p.broadcast.addr < 2 ^ 32 := toNat_lt _
  rw [Prefix.addresses, List.pairwise_map]
  have hs := List.pairwise_lt_range' (s := p.network.addr.toNat) (n := 2 ^ (32 - p.len)) 1 (by omega)
  refine List.Pairwise.imp_of_mem ?_ hs
  intro a b ha hb' hlt
  obtain ⟨i, hi, rfl⟩ := List.mem_range'.mp ha
  obtain ⟨j, hj, rfl⟩ := List.mem_range'.mp hb'
  rw [BitVec.toNat_ofNat, BitVec.toNat_ofNat, Nat.mod_eq_of_lt (by omega), Nat.mod_eq_of_lt (by omega)]
  exact hlt

/-! ### NumPrefixes -/

theorem numPrefixes4_sum (ps : List (Prefix (BitVec 32))) (n : Nat) (hn : n ≤ 32) (c : BitVec 64) :
    (visit (fun p count => (count + (p.numPrefixes4 n).1, true)) ps c).1.toNat =
      (c.toNat + (ps.map fun q => if q.len ≤ n then 2 ^ (n - q.len) else 0).sum) % 2 ^ 64 := by
  induction ps generalizing c with
  | nil =>
    simp only [visit, List.map_nil, List.sum_nil, Nat.add_zero]
    rw [Nat.mod_eq_of_lt c.isLt]
  | cons p ps ih =>
    simp only [visit, List.map_cons, List.sum_cons]
    rw [ih, BitVec.toNat_add]
    have h : (p.numPrefixes4 n).1.toNat = (if p.len ≤ n then 2 ^ (n - p.len) else 0) := by
      have h32 : ¬ 32 < n := by omega
      simp only [Prefix.numPrefixes4, h32, if_false]
      by_cases h : n < p.len
      · have : ¬ p.len ≤ n := by omega
        simp [h, this]
      · have : p.len ≤ n := by omega
        simp only [h, if_false, this, if_true, BitVec.toNat_ofNat]
        apply Nat.mod_eq_of_lt
        have : 2 ^ (n - p.len) ≤ 2 ^ 32 := Nat.pow_le_pow_right (by omega) (by omega)
        omega
    rw [h]
    omega

theorem numPrefixes6_sum (ps : List (Prefix U128)) (n : Nat) (hn : n ≤ 128) (c : BitVec 64) :
    let S := (ps.map fun q => if q.len ≤ n then 2 ^ (n - q.len) else 0).sum
    let res := (visit (fun (p : Prefix U128) (x : BitVec 64 × Bool) =>
      let c := p.numPrefixes6 n
      if c.2 then ((x.1, true), false)
      else if (BitVec.allOnes 64 - c.1).toNat < x.1.toNat then ((x.1, true), false)
      else ((x.1 + c.1, x.2), true)) ps (c, false)).1
    (c.toNat + S < 2 ^ 64 → res.2 = false ∧ res.1.toNat = c.toNat + S) ∧
    (2 ^ 64 ≤ c.toNat + S → res.2 = true) := by
  induction ps generalizing c with
  | nil =>
    have := c.isLt
    simp [visit]; omega
  | cons p ps ih =>
    have h128 : ¬ 128 < n := by omega
    have hc := c.isLt
    simp only [visit, List.map_cons, List.sum_cons]
    generalize hS : (ps.map fun q => if q.len ≤ n then 2 ^ (n - q.len) else 0).sum = S at *
    by_cases hlen : n < p.len
    · have e : p.numPrefixes6 n = (0#64, false) := by simp [Prefix.numPrefixes6, h128, hlen]
      have : ¬ p.len ≤ n := by omega
      have h0 : ¬ (BitVec.allOnes 64 - 0#64).toNat < c.toNat := by simp; omega
      have h1 : c + 0#64 = c := by simp
      simp only [e, this, if_false, h0, Nat.zero_add, Bool.false_eq_true, h1]
      have ih := ih c
      simp only at ih
      exact ih
    · have hle : p.len ≤ n := by omega
      by_cases h63 : 63 < n - p.len
      · have e : p.numPrefixes6 n = (0#64, true) := by simp [Prefix.numPrefixes6, h128, hlen, h63]
        have hp : 2 ^ 64 ≤ 2 ^ (n - p.len) := Nat.pow_le_pow_right (by omega) (by omega)
        simp only [e, if_true, hle]
        constructor
        · intro h; omega
        · intro _; trivial
      · have e : p.numPrefixes6 n = (BitVec.ofNat 64 (2 ^ (n - p.len)), false) := by
          simp [Prefix.numPrefixes6, h128, hlen, h63]
        have hp : 2 ^ (n - p.len) ≤ 2 ^ 63 := Nat.pow_le_pow_right (by omega) (by omega)
        have hpos : 0 < 2 ^ (n - p.len) := Nat.pow_pos (by omega)
        generalize 2 ^ (n - p.len) = k at *
        have ek : (BitVec.ofNat 64 k).toNat = k := by
          rw [BitVec.toNat_ofNat]; apply Nat.mod_eq_of_lt; omega
        have em : (BitVec.allOnes 64 - BitVec.ofNat 64 k).toNat = 2 ^ 64 - 1 - k := by
          rw [BitVec.toNat_sub, ek, BitVec.toNat_allOnes]; omega
        simp only [e, hle, if_true, em, Bool.false_eq_true, if_false]
        by_cases hov : 2 ^ 64 - 1 - k < c.toNat
        · simp only [hov, if_true]
          constructor
          · intro h; omega
          · intro _; trivial
        · simp only [hov, if_false]
          have ea : (c + BitVec.ofNat 64 k).toNat = c.toNat + k := by
            rw [BitVec.toNat_add, ek]; apply Nat.mod_eq_of_lt; omega
          have ih := ih (c + BitVec.ofNat 64 k)
          simp only [ea] at ih
          constructor
          · intro h
            have := ih.1 (by omega)
            exact ⟨this.1, by omega⟩
          · intro h; exact ih.2 (by omega)

end Addrs

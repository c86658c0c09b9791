import Verif.PropContains
import Verif.PropAlgebra
/-
  C08, C20, C21, C22, C49, C51: what the code does exactly, also where it is not what it should be.
-/
namespace Addrs
open GoWord LawfulGoWord
open SetNode

section
variable {α : Type} [LawfulIPFamily α]

/-- The ends of `r` lie in the same aligned block of `2^k` addresses, symmetric about its middle. -/
def Symmetric (r : Range α) (k : Nat) : Prop :=
  k ≤ width α ∧ toNat r.first / 2 ^ k = toNat r.last / 2 ^ k ∧ toNat r.first % 2 ^ k + toNat r.last % 2 ^ k = 2 ^ k - 1

/-- The range that the code takes `r` for: `r` itself, or, if the ends of `r` are symmetric in an aligned block, the
    whole block. -/
def TakenFor (r r' : Range α) : Prop :=
  ((∀ k, ¬ Symmetric r k) ∧ r' = r) ∨
  ∃ k, Symmetric r k ∧ toNat r'.first = toNat r.first / 2 ^ k * 2 ^ k ∧ toNat r'.last = toNat r.first / 2 ^ k * 2 ^ k + (2 ^ k - 1)

theorem badRange_sym {r : Range α} : BadRange r ↔ ∃ k, Symmetric r k ∧ toNat r.first % 2 ^ k ≠ 0 :=
  ⟨fun ⟨k, h1, h2, h3, h4⟩ => ⟨k, ⟨h1, h2, h3⟩, h4⟩, fun ⟨k, ⟨h1, h2, h3⟩, h4⟩ => ⟨k, h1, h2, h3, h4⟩⟩

/-- numbers that are in the same block of size `2^j` are not symmetric in a larger block -/
theorem not_sym_larger {f l j k : Nat} (hjk : j < k) (h : f / 2 ^ j = l / 2 ^ j) : f % 2 ^ k + l % 2 ^ k ≠ 2 ^ k - 1 := by
  intro hs
  obtain ⟨d, rfl⟩ : ∃ d, k = j + (d + 1) := ⟨k - j - 1, by omega⟩
  have hp : 0 < 2 ^ j := Nat.pow_pos (by omega)
  have hq : 0 < 2 ^ d := Nat.pow_pos (by omega)
  rw [Nat.pow_add, Nat.mod_mul, Nat.mod_mul, h] at hs
  have h1 := Nat.mod_lt f hp
  have h2 := Nat.mod_lt l hp
  generalize 2 ^ j = P at *
  rw [Nat.pow_succ] at hs
  generalize 2 ^ d = Q at *
  generalize l / P % (Q * 2) = x at *
  have h3 : f % P + l % P + P * (2 * x) = P * (2 * Q) - 1 := by
    have e1 : P * (2 * x) = P * x + P * x := by rw [Nat.mul_left_comm, Nat.two_mul]
    have e2 : P * (2 * Q) = P * (Q * 2) := by rw [Nat.mul_comm 2 Q]
    omega
  have h4 : 0 < P * (2 * Q) := Nat.mul_pos hp (by omega)
  have h5 : P * (2 * x) < P * (2 * Q) := by omega
  have h6 := Nat.lt_of_mul_lt_mul_left h5
  have h7 : P * (2 * x + 2) ≤ P * (2 * Q) := Nat.mul_le_mul_left _ (by omega)
  rw [Nat.mul_add] at h7
  omega

theorem Symmetric.unique {r : Range α} {j k : Nat} (h : Symmetric r j) (h' : Symmetric r k) : j = k := by
  rcases Nat.lt_trichotomy j k with g | g | g
  · exact (not_sym_larger g h.2.1 h'.2.2).elim
  · exact g
  · exact (not_sym_larger g h'.2.1 h.2.2).elim

/-- symmetric ends, and both at the ends of the block -/
theorem Symmetric.whole {r : Range α} {k : Nat} (h : Symmetric r k) (h0 : toNat r.first % 2 ^ k = 0) :
    toNat r.first / 2 ^ k * 2 ^ k = toNat r.first ∧ toNat r.first / 2 ^ k * 2 ^ k + (2 ^ k - 1) = toNat r.last := by
  have e1 := Nat.div_add_mod (toNat r.first) (2 ^ k)
  have e2 := Nat.div_add_mod (toNat r.last) (2 ^ k)
  rw [← h.2.1] at e2
  have h3 := h.2.2
  rw [Nat.mul_comm] at e1 e2
  omega

theorem mul_block_iff {P q x : Nat} (hP : 0 < P) : (q * P ≤ x ∧ x ≤ q * P + (P - 1)) ↔ x / P = q := by
  constructor
  · rintro ⟨h1, h2⟩
    exact Nat.div_eq_of_lt_le h1 (by rw [Nat.add_mul]; omega)
  · rintro rfl
    have := Nat.div_mul_le_self x P
    have h3 := Nat.mod_lt x hP
    have h4 := Nat.div_add_mod x P
    rw [Nat.mul_comm] at h4
    omega

theorem TakenFor.exists (r : Range α) : ∃ r', TakenFor r r' := by
  by_cases h : ∃ k, Symmetric r k
  · obtain ⟨k, h⟩ := h
    have hp : 0 < 2 ^ k := Nat.pow_pos (by omega)
    have hf : toNat r.first < 2 ^ width α := toNat_lt _
    have h1 : toNat r.first / 2 ^ k < 2 ^ (width α - k) := by
      rw [Nat.div_lt_iff_lt_mul hp, ← Nat.pow_add, Nat.sub_add_cancel h.1]; exact hf
    have h2 : (toNat r.first / 2 ^ k + 1) * 2 ^ k ≤ 2 ^ width α := by
      have := Nat.mul_le_mul_right (2 ^ k) h1
      rwa [← Nat.pow_add, Nat.sub_add_cancel h.1] at this
    rw [Nat.add_mul] at h2
    refine ⟨⟨ofNat α (toNat r.first / 2 ^ k * 2 ^ k), ofNat α (toNat r.first / 2 ^ k * 2 ^ k + (2 ^ k - 1))⟩, Or.inr ⟨k, h, ?_, ?_⟩⟩
    · show toNat (ofNat α _) = _
      exact toNat_ofNat (by omega)
    · show toNat (ofNat α _) = _
      exact toNat_ofNat (by omega)
  · exact ⟨r, Or.inl ⟨fun k hk => h ⟨k, hk⟩, rfl⟩⟩

theorem TakenFor.unique {r r' r'' : Range α} (h : TakenFor r r') (h' : TakenFor r r'') : r' = r'' := by
  rcases h with ⟨h1, h2⟩ | ⟨k, h1, h2, h3⟩ <;> rcases h' with ⟨g1, g2⟩ | ⟨j, g1, g2, g3⟩
  · rw [h2, g2]
  · exact (h1 j g1).elim
  · exact (g1 k h1).elim
  · cases h1.unique g1
    obtain ⟨a, b⟩ := r'
    obtain ⟨c, d⟩ := r''
    simp only at *
    rw [toNat_inj (h2.trans g2.symm), toNat_inj (h3.trans g3.symm)]

theorem TakenFor.self {r : Range α} (hb : ¬ BadRange r) : TakenFor r r := by
  by_cases h : ∃ k, Symmetric r k
  · obtain ⟨k, h⟩ := h
    have h0 : toNat r.first % 2 ^ k = 0 := Classical.byContradiction fun h0 => hb (badRange_sym.mpr ⟨k, h, h0⟩)
    obtain ⟨e1, e2⟩ := h.whole h0
    exact Or.inr ⟨k, h, e1.symm, e2.symm⟩
  · exact Or.inl ⟨fun k hk => h ⟨k, hk⟩, rfl⟩

/-- it is no smaller -/
theorem TakenFor.ends {r r' : Range α} (h : TakenFor r r') : toNat r'.first ≤ toNat r.first ∧ toNat r.last ≤ toNat r'.last := by
  rcases h with ⟨_, rfl⟩ | ⟨k, h1, h2, h3⟩
  · exact ⟨Nat.le_refl _, Nat.le_refl _⟩
  · have hp : 0 < 2 ^ k := Nat.pow_pos (by omega)
    have g1 := (mul_block_iff hp).mpr (rfl : toNat r.first / 2 ^ k = toNat r.first / 2 ^ k)
    have g2 := (mul_block_iff hp).mpr h1.2.1.symm
    omega

theorem TakenFor.valid {r r' : Range α} (h : TakenFor r r') (hr : r.Valid) : r'.Valid := by
  have := h.ends
  unfold Range.Valid at *
  omega

theorem TakenFor.good {r r' : Range α} (h : TakenFor r r') : ¬ BadRange r' := by
  rcases h with ⟨h1, rfl⟩ | ⟨k, h1, h2, h3⟩
  · intro hb
    obtain ⟨k, hk, _⟩ := badRange_sym.mp hb
    exact h1 k hk
  · intro hb
    obtain ⟨j, hj, hne⟩ := badRange_sym.mp hb
    have hp : 0 < 2 ^ k := Nat.pow_pos (by omega)
    have e1 : toNat r'.first / 2 ^ k = toNat r.first / 2 ^ k := by rw [h2, Nat.mul_div_cancel _ hp]
    have e2 : toNat r'.first % 2 ^ k = 0 := by rw [h2, Nat.mul_mod_left]
    have e3 : toNat r'.last / 2 ^ k = toNat r.first / 2 ^ k := (mul_block_iff hp).mp (by omega)
    have e4 : toNat r'.last % 2 ^ k = 2 ^ k - 1 := by
      have := Nat.div_add_mod (toNat r'.last) (2 ^ k)
      rw [e3, Nat.mul_comm] at this
      omega
    have : Symmetric r' k := ⟨h1.1, by rw [e1, e3], by omega⟩
    cases this.unique hj
    exact hne e2

/-- The set of a range holds the addresses of the range that it is taken for, of which there is one; it is the range
    itself exactly if the range is not one of those of C08. -/
theorem C08_range_exact (r : Range α) (hr : r.Valid) :
    ∃ r', TakenFor r r' ∧ r'.Valid ∧ (r' = r ↔ ¬ BadRange r) ∧ (∀ r'', TakenFor r r'' → r'' = r') ∧
      ∀ a, (SetI.range r).toSet.has a ↔ InRange r' a := by
  obtain ⟨r', h⟩ := TakenFor.exists r
  refine ⟨r', h, h.valid hr, ⟨fun e => e ▸ h.good, fun hb => h.unique (.self hb)⟩, fun r'' h'' => h''.unique h, fun a => ?_⟩
  by_cases hb : BadRange r
  · obtain ⟨k, hk, hne⟩ := badRange_sym.mp hb
    rcases h with ⟨h1, _⟩ | ⟨j, h1, h2, h3⟩
    · exact (h1 k hk).elim
    · cases h1.unique hk
      have hl : width α - k ≤ lz (xor r.first r.last) :=
        lz_xor_ge (Nat.sub_le _ _) ((agree_iff_div (Nat.sub_le _ _)).mpr (by rw [Nat.sub_sub_self h1.1]; exact h1.2.1))
      have hle := lz_le (xor r.first r.last)
      have hd := (agree_iff_div (lz_le (xor r.first r.last))).mp (lz_xor_agree r.first r.last)
      have e : width α - lz (xor r.first r.last) = k := by
        apply Classical.byContradiction
        intro hne
        exact not_sym_larger (by omega) hd h1.2.2
      rw [(IPSet.Reachable.range r hr).has_iff]
      show Mem (fromRange r) a ↔ _
      rw [fromRange_bad hb, mem_fromPrefix]
      rw [Covers, agree_iff_div (lz_le _)]
      show _ / 2 ^ (width α - lz (xor r.first r.last)) = _ ↔ _
      unfold InRange
      rw [e, h2, h3, mul_block_iff (Nat.pow_pos (by omega))]
      exact eq_comm
  · rw [h.unique (.self hb)]
    exact C08_range_partial r hr hb a

theorem TakenFor.has {r r' : Range α} (h : TakenFor r r') (hr : r.Valid) (a : α) : (SetI.range r).toSet.has a ↔ InRange r' a := by
  obtain ⟨q, h1, _, _, h4, h5⟩ := C08_range_exact r hr
  rw [h4 r' h]; exact h5 a

/-! ### C49 -/

/-- the addresses that an argument is taken for -/
def SetI.Stands : SetI α → α → Prop
  | .range r, a => ∃ r', TakenFor r r' ∧ InRange r' a
  | i, a => i.Holds a

theorem SetI.has_stands {i : SetI α} (hi : i.Valid) (a : α) : i.toSet.has a ↔ i.Stands a := by
  cases i with
  | range r =>
    constructor
    · intro h
      obtain ⟨r', hr'⟩ := TakenFor.exists r
      exact ⟨r', hr', (hr'.has hi a).mp h⟩
    · rintro ⟨r', h1, h2⟩
      exact (h1.has hi a).mpr h2
  | nil => exact SetI.has_iff hi trivial a
  | address _ => exact SetI.has_iff hi trivial a
  | «prefix» _ => exact SetI.has_iff hi trivial a
  | set _ => exact SetI.has_iff hi trivial a

/-- `r.Contains(x)` for every valid range: iff every address that `x` is taken for is in the range that `r` is taken
    for. -/
theorem C49_range_contains_exact (r r' : Range α) (hr : r.Valid) (h : TakenFor r r') (i : SetI α) (hi : i.Valid) :
    r.contains i = true ↔ ∀ a, i.Stands a → InRange r' a := by
  rw [Range.contains, C12_contains _ _ (.range r hr) hi]
  simp only [SetI.has_stands hi, h.has hr]

/-- and `p.Contains(x)` for every valid prefix -/
theorem C49_prefix_contains_exact (p : Prefix α) (hp : p.WF) (i : SetI α) (hi : i.Valid) :
    p.contains i = true ↔ ∀ a, i.Stands a → InPrefix p a := by
  rw [Prefix.contains, C12_contains _ _ (.prefix p hp) hi]
  simp only [SetI.has_stands hi, C08_prefix p hp]

/-- `r.Contains(s)` for all valid ranges: iff the ends of the range that `s` is taken for lie between those of the range
    that `r` is taken for. -/
theorem C49_range_range_exact (r r' s s' : Range α) (hr : r.Valid) (hs : s.Valid) (h : TakenFor r r') (h' : TakenFor s s') :
    r.contains (.range s) = true ↔ toNat r'.first ≤ toNat s'.first ∧ toNat s'.last ≤ toNat r'.last := by
  rw [C49_range_contains_exact r r' hr h (.range s) hs]
  have hv := h'.valid hs
  constructor
  · intro g
    exact ⟨(g s'.first ⟨s', h', Nat.le_refl _, hv⟩).1, (g s'.last ⟨s', h', hv, Nat.le_refl _⟩).2⟩
  · rintro ⟨h1, h2⟩ a ⟨s'', h3, h4, h5⟩
    rw [h3.unique h'] at h4 h5
    exact ⟨Nat.le_trans h1 h4, Nat.le_trans h5 h2⟩

theorem TakenFor.contains {r r' : Range α} (h : TakenFor r r') (hr : r.Valid) {p : Prefix α} (hp : p.WF) :
    (SetI.range r).toSet.contains (.prefix p) = (SetI.range r').toSet.contains (.prefix p) := by
  have hv : (SetI.prefix p).Valid := hp
  rw [Bool.eq_iff_iff, C12_contains _ _ (.range r hr) hv, C12_contains _ _ (.range r' (h.valid hr)) hv]
  simp only [h.has hr, C08_range_partial r' (h.valid hr) h.good]

/-! ### C51 -/

/-- putting the ranges of `WalkRanges` into an empty set gives the set, and for every maximal run the range that it is
    taken for -/
theorem C51_rebuild_ranges_exact (s : IPSet α) (hs : s.Reachable) :
    (∀ a, s.rebuildRanges.has a ↔ ∃ r r', IsRun s r ∧ TakenFor r r' ∧ InRange r' a) ∧
    (SameAddresses s.rebuildRanges s ↔ ∀ r : Range α, IsRun s r → ¬ BadRange r) := by
  obtain ⟨L, h1, h2, h3, h4⟩ := C18_walkRanges s hs
  have hrun : ∀ r, r ∈ L ↔ IsRun s r := by
    intro r
    constructor
    · intro hr
      refine ⟨h2 r hr, fun a ha => (h4 a).mpr ⟨r, hr, ha⟩, fun a ha => ?_⟩
      obtain ⟨r', hr', ha⟩ := (h4 a).mp ha
      have hv := h2 r hr
      have hv' := h2 r' hr'
      unfold InRange at ha
      unfold Range.Valid at hv hv'
      by_cases e : r = r'
      · subst e; omega
      · have hsep : toNat r.last + 1 < toNat r'.first ∨ toNat r'.last + 1 < toNat r.first := by
          have hp := List.pairwise_iff_getElem.mp h3
          obtain ⟨i, hi, rfl⟩ := List.getElem_of_mem hr
          obtain ⟨j, hj, rfl⟩ := List.getElem_of_mem hr'
          rcases Nat.lt_trichotomy i j with h | h | h
          · exact .inl (hp i j hi hj h)
          · subst h; exact absurd rfl e
          · exact .inr (hp j i hj hi h)
        omega
    · rintro ⟨g1, g2, g3⟩
      obtain ⟨q, hq, ha1, ha2⟩ := (h4 r.first).mp (g2 _ ⟨Nat.le_refl _, g1⟩)
      have hv := h2 q hq
      unfold Range.Valid at hv g1
      -- `q` does not start earlier
      have e1 : toNat q.first = toNat r.first := by
        apply Classical.byContradiction
        intro hne
        have hlt : toNat r.first - 1 < 2 ^ width α := Nat.lt_of_le_of_lt (Nat.sub_le _ _) (toNat_lt _)
        have e : toNat (ofNat α (toNat r.first - 1)) = toNat r.first - 1 := toNat_ofNat hlt
        have := (g3 (ofNat α (toNat r.first - 1)) ((h4 _).mpr ⟨q, hq, by unfold InRange; omega⟩)).1
        omega
      -- it ends where `r` does
      have e2 : toNat q.last = toNat r.last := by
        rcases Nat.lt_trichotomy (toNat q.last) (toNat r.last) with hlt | h | hlt
        · -- the next address is in `r`, hence in another range, that is too close
          have hl : toNat q.last + 1 < 2 ^ width α := Nat.lt_of_le_of_lt hlt (toNat_lt _)
          have e : toNat (ofNat α (toNat q.last + 1)) = toNat q.last + 1 := toNat_ofNat hl
          obtain ⟨q', hq', hb⟩ := (h4 (ofNat α (toNat q.last + 1))).mp (g2 _ (by unfold InRange; omega))
          unfold InRange at hb
          have hp := List.pairwise_iff_getElem.mp h3
          obtain ⟨i, hi, rfl⟩ := List.getElem_of_mem hq
          obtain ⟨j, hj, rfl⟩ := List.getElem_of_mem hq'
          rcases Nat.lt_trichotomy i j with h | h | h
          · have := hp i j hi hj h; omega
          · subst h; omega
          · have := hp j i hj hi h; omega
        · exact h
        · have hl : toNat r.last + 1 < 2 ^ width α := Nat.lt_of_le_of_lt hlt (toNat_lt _)
          have e : toNat (ofNat α (toNat r.last + 1)) = toNat r.last + 1 := toNat_ofNat hl
          have := (g3 (ofNat α (toNat r.last + 1)) ((h4 _).mpr ⟨q, hq, by unfold InRange; omega⟩)).2
          omega
      obtain ⟨a, b⟩ := q
      obtain ⟨c, d⟩ := r
      simp only at e1 e2
      rw [toNat_inj e1, toNat_inj e2] at hq
      exact hq
  rw [IPSet.rebuildRanges, h1]
  obtain ⟨_, r2⟩ := visit_insert (fun r => SetI.range r) L h2 IPSet.empty .empty
  have first : ∀ a, (visit (fun (r : Range α) (t : IPSet α) => (SetCall.apply t (.insert (.range r)), true)) L IPSet.empty).1.has a ↔
      ∃ r r', IsRun s r ∧ TakenFor r r' ∧ InRange r' a := by
    intro a
    rw [r2]
    constructor
    · rintro (h | ⟨r, hr, h⟩)
      · exact absurd h (not_has_empty a)
      · obtain ⟨r', hr'⟩ := TakenFor.exists r
        exact ⟨r, r', (hrun r).mp hr, hr', (hr'.has (h2 r hr) a).mp h⟩
    · rintro ⟨r, r', g1, g2, g3⟩
      exact Or.inr ⟨r, (hrun r).mpr g1, (g2.has g1.1 a).mpr g3⟩
  refine ⟨first, fun hsame r hrn hbad => ?_, fun hg => ?_⟩
  · -- the addresses of the block are in the set, so they are in the run
    obtain ⟨r', hr'⟩ := TakenFor.exists r
    have hin : ∀ a, InRange r' a → s.has a := fun a ha => (hsame a).mp ((first a).mpr ⟨r, r', hrn, hr', ha⟩)
    have he := hr'.ends
    have hv' := hr'.valid hrn.1
    have hv := hrn.1
    unfold Range.Valid at hv hv'
    apply hr'.good
    have e1 : toNat r'.first = toNat r.first := by
      apply Classical.byContradiction
      intro hne
      have hlt : toNat r.first - 1 < 2 ^ width α := Nat.lt_of_le_of_lt (Nat.sub_le _ _) (toNat_lt _)
      have e : toNat (ofNat α (toNat r.first - 1)) = toNat r.first - 1 := toNat_ofNat hlt
      have := (hrn.2.2 _ (hin (ofNat α (toNat r.first - 1)) (by unfold InRange; omega))).1
      omega
    have e2 : toNat r'.last = toNat r.last := by
      apply Classical.byContradiction
      intro hne
      have hl : toNat r.last + 1 < 2 ^ width α := Nat.lt_of_le_of_lt (by omega) (toNat_lt r'.last)
      have e : toNat (ofNat α (toNat r.last + 1)) = toNat r.last + 1 := toNat_ofNat hl
      have := (hrn.2.2 _ (hin (ofNat α (toNat r.last + 1)) (by unfold InRange; omega))).2
      omega
    obtain ⟨a, b⟩ := r'
    obtain ⟨c, d⟩ := r
    simp only at e1 e2
    rw [toNat_inj e1, toNat_inj e2]
    exact hbad
  · have := (C51_rebuild_ranges_partial s hs).2 hg
    rwa [IPSet.rebuildRanges, h1] at this

/-! ### C21, C22 for every requested length -/

/-- For every requested length, also above the width: an error if there is no maximal free block that is long enough,
    and otherwise the address of a smallest one with the requested length, whether that is a length or not. -/
theorem C22_exact (s : IPSet α) (i : SetI α) (n : Nat) (hs : s.Reachable) (hi : i.Valid) (hnil : i ≠ .nil) :
    (s.findAvailablePrefix i n = .err ∧ ∀ P : Prefix α, P.WF → P.len ≤ n → ¬ Free s i P) ∨
    (∃ p B : Prefix α, s.findAvailablePrefix i n = .ok p ∧ MaxFree s i B ∧ B.len ≤ n ∧ p.len = n ∧
      toNat p.addr = toNat B.addr / blockSize α B.len * blockSize α B.len ∧
      ∀ B' : Prefix α, MaxFree s i B' → B'.len ≤ n → B'.len ≤ B.len) := by
  have ht := hi.reachable
  have hb := findSmallestReserved_spec n s.trie i.toSet.trie hs.inv ht.inv
  have e : s.findAvailablePrefix i n =
      match findSmallestReserved n s.trie i.toSet.trie with
      | none => .err
      | some p => .ok ⟨p.network.addr, n⟩ := by
    unfold IPSet.findAvailablePrefix
    cases i with
    | nil => exact absurd rfl hnil
    | address a | «prefix» a | range a | set a => rfl
  rw [e]
  cases hr : findSmallestReserved n s.trie i.toSet.trie with
  | none =>
    left
    rw [hr] at hb
    refine ⟨rfl, fun P hP hl hf => hb P hP hl fun x hx => ?_⟩
    have := hf x ((inPrefix_iff hP).mpr hx)
    rwa [hs.has_iff, ht.has_iff] at this
  | some q =>
    right
    rw [hr] at hb
    obtain ⟨hw, hl, hm, hbest⟩ := hb
    refine ⟨_, q, rfl, (maxFree_iff s i hs hi q).mpr ⟨hw, hm⟩, hl, rfl, ?_, fun B' hB hl' => ?_⟩
    · exact toNat_network hw
    · have := (maxFree_iff s i hs hi B').mp hB
      exact hbest B' this.1 hl' this.2

/-- So a result for a length above the width is never a prefix, and there is one exactly if any address is free. -/
theorem C21_too_long (s : IPSet α) (i : SetI α) (n : Nat) (hs : s.Reachable) (hi : i.Valid) (hnil : i ≠ .nil) (hn : width α < n) :
    (∀ p, s.findAvailablePrefix i n = .ok p → ¬ p.WF) ∧
    ((∃ p, s.findAvailablePrefix i n = .ok p) ↔ ∃ a, s.has a ∧ ¬ i.toSet.has a) := by
  rcases C22_exact s i n hs hi hnil with ⟨h1, h2⟩ | ⟨p, B, h1, h2, h3, h4, h5, h6⟩
  · rw [h1]
    refine ⟨fun p h => (by cases h), ⟨fun ⟨p, h⟩ => (by cases h), fun ⟨a, ha⟩ => ?_⟩⟩
    refine (h2 ⟨a, width α⟩ (Nat.le_refl _) (Nat.le_of_lt hn) fun x hx => ?_).elim
    have : x = a := by
      have h0 : blockSize α (width α) = 1 := by simp [blockSize]
      unfold InPrefix at hx
      simp only [h0, Nat.div_one] at hx
      exact (toNat_inj hx).symm
    rw [this]; exact ha
  · rw [h1]
    refine ⟨fun p' h => ?_, fun _ => ⟨B.addr, h2.2.1 _ (InPrefix.self B)⟩, fun _ => ⟨p, rfl⟩⟩
    cases h
    show ¬ p.len ≤ width α
    omega
end

/-! ### C20, C49: counting -/

/-- IPv4 `Range.NumAddresses` for every valid range -/
theorem C49_range_numAddresses_exact (r r' : Range (BitVec 32)) (hr : r.Valid) (h : TakenFor r r') :
    r.numAddresses.toNat = r'.last.toNat - r'.first.toNat + 1 := by
  rw [← C49_range_numAddresses_partial r' (h.valid hr) h.good]
  have e1 := (C20_numPrefixes4 (SetI.range r).toSet (.range r hr) 32 (Nat.le_refl _)).2
  have e2 := (C20_numPrefixes4 (SetI.range r').toSet (.range r' (h.valid hr)) 32 (Nat.le_refl _)).2
  show ((SetI.range r).toSet.numPrefixes4 32).1.toNat = ((SetI.range r').toSet.numPrefixes4 32).1.toNat
  rw [e1, e2]
  exact List.countP_congr fun k _ => by rw [h.contains hr (p := ⟨_, 32⟩) (Nat.le_refl _)]

/-- IPv4 `Range.NumPrefixes` for every valid range -/
theorem C20_range4_exact (r r' : Range (BitVec 32)) (hr : r.Valid) (h : TakenFor r r') (n : Nat) (hn : n ≤ 32) :
    (r.numPrefixes4 n).2 = false ∧
    (r.numPrefixes4 n).1.toNat = (List.range (2 ^ n)).countP
      (fun k => decide (r'.first.toNat ≤ k * 2 ^ (32 - n) ∧ k * 2 ^ (32 - n) + (2 ^ (32 - n) - 1) ≤ r'.last.toNat)) := by
  obtain ⟨h1, h2⟩ := C20_numPrefixes4 (SetI.range r).toSet (.range r hr) n hn
  obtain ⟨_, g2⟩ := C20_numPrefixes4 (SetI.range r').toSet (.range r' (h.valid hr)) n hn
  refine ⟨h1, Eq.trans ?_ (C20_range4_partial r' (h.valid hr) h.good n hn).2⟩
  refine h2.trans (Eq.trans ?_ g2.symm)
  exact List.countP_congr fun k _ => by rw [h.contains hr (p := ⟨_, n⟩) hn]

/-- IPv6 `Range.NumPrefixes` for every valid range -/
theorem C20_range6_exact (r r' : Range U128) (hr : r.Valid) (h : TakenFor r r') (n : Nat) (hn : n ≤ 128) :
    let N := (List.range (2 ^ n)).countP
      (fun k => decide (toNat r'.first ≤ k * 2 ^ (128 - n) ∧ k * 2 ^ (128 - n) + (2 ^ (128 - n) - 1) ≤ toNat r'.last))
    (N < 2 ^ 64 → (r.numPrefixes6 n).2 = false ∧ (r.numPrefixes6 n).1.toNat = N) ∧
    (2 ^ 64 ≤ N → (r.numPrefixes6 n).2 = true) := by
  intro N
  have g := C20_numPrefixes6 (SetI.range r).toSet (.range r hr) n hn
  have e : (List.range (2 ^ n)).countP
      (fun k => (SetI.range r).toSet.contains (.prefix ⟨ofNat U128 (k * 2 ^ (128 - n)), n⟩)) = N := by
    refine List.countP_congr fun k hk => ?_
    rw [h.contains hr (p := ⟨_, n⟩) hn, decide_eq_true_iff]
    exact nthPrefix_in_range r' (h.valid hr) h.good hn (List.mem_range.mp hk)
  rw [← e]; exact g

/-! ### concrete cases -/

namespace Sample
/-- [10.0.0.1, 10.0.0.2] is taken for [10.0.0.0, 10.0.0.3] … -/
theorem taken : TakenFor (⟨0x0a000001#32, 0x0a000002#32⟩ : Range (BitVec 32)) ⟨0x0a000000#32, 0x0a000003#32⟩ :=
  Or.inr ⟨2, ⟨by decide, by decide, by decide⟩, by decide, by decide⟩
/-- … and 10.0.0.5-10.0.0.20 for itself -/
theorem taken_self : TakenFor Sample.r Sample.r := .self Sample.r_good

example : Range.numAddresses (⟨0x0a000001#32, 0x0a000002#32⟩ : Range (BitVec 32)) = 4#64 :=
  BitVec.eq_of_toNat_eq (C49_range_numAddresses_exact _ _ (by unfold Range.Valid; decide) taken)
/-- 10.0.0.5-10.0.0.20 does not contain [10.0.0.1, 10.0.0.2], but that contains the range 10.0.0.0-10.0.0.3 -/
example : Range.contains Sample.r (.range ⟨0x0a000001#32, 0x0a000002#32⟩) = false ∧
    Range.contains (⟨0x0a000001#32, 0x0a000002#32⟩ : Range (BitVec 32)) (.range ⟨0x0a000000#32, 0x0a000003#32⟩) = true := by
  constructor
  · rw [Bool.eq_false_iff, Ne, C49_range_range_exact _ _ _ _ r_valid (by unfold Range.Valid; decide) taken_self taken]
    decide
  · rw [C49_range_range_exact _ _ _ ⟨0x0a000000#32, 0x0a000003#32⟩ (by unfold Range.Valid; decide) (by unfold Range.Valid; decide) taken
      (Or.inr ⟨2, ⟨by decide, by decide, by decide⟩, by decide, by decide⟩)]
    decide
example := C20_range4_exact _ _ (by unfold Range.Valid; decide) taken 31 (by decide)
/-- a range of IPv6 addresses: [::1, ::6] is taken for [::, ::7] -/
example := C20_range6_exact ⟨⟨0, 1⟩, ⟨0, 6⟩⟩ ⟨⟨0, 0⟩, ⟨0, 7⟩⟩ (by unfold Range.Valid; decide)
  (Or.inr ⟨3, ⟨by decide, by decide, by decide⟩, by decide, by decide⟩) 126 (by decide)
/-- {10.0.0.1, 10.0.0.2} has a run that is not converted properly -/
example := C51_rebuild_ranges_exact ((SetI.address 0x0a000001#32).toSet.union (.address 0x0a000002#32))
  (.union _ _ (.address _) (.address _))
/-- 10.0.0.0/8 has room for a "prefix" of length 40 -/
example : ∃ p, IPSet.findAvailablePrefix (SetI.prefix p8).toSet (.address 0#32) 40 = .ok p :=
  (C21_too_long (SetI.prefix p8).toSet (.address 0#32) 40 (.prefix p8 (by decide)) trivial (by simp) (by decide)).2.mpr
    ⟨p8.addr, (C08_prefix p8 (by decide) _).mpr (InPrefix.self p8), fun h => by
      have := (C08_address (0#32) p8.addr).mp h
      revert this; decide⟩
end Sample
end Addrs

import Verif.SetClean
/-
  `setNodeFromRange`: exactly which ranges it gets right.
-/
namespace Addrs
open GoWord LawfulGoWord

section
theorem popBV_compl {w : Nat} (x : BitVec w) :
    popBV (~~~x) = lzBV x ↔ ∀ i, lzBV x ≤ i → i < w → x.getMsbD i = true := by
  have hle := lzBV_le x
  have hw : w = lzBV x + (w - lzBV x) := by omega
  have e : popBV (~~~x) = lzBV x +
      ((List.range (w - lzBV x)).map (lzBV x + ·)).countP (fun i => (~~~x).getMsbD i) := by
    rw [popBV]
    conv => lhs; rw [show List.range w = List.range (lzBV x + (w - lzBV x)) by rw [← hw]]
    rw [List.range_add, List.countP_append]
    congr 1
    rw [List.countP_eq_length.mpr, List.length_range]
    intro i hi
    have hi : i < lzBV x := List.mem_range.mp hi
    rw [BitVec.getMsbD_not, lzBV_before x hi]
    simp; omega
  rw [e]
  constructor
  · intro h i h1 h2
    have h0 : ((List.range (w - lzBV x)).map (lzBV x + ·)).countP (fun i => (~~~x).getMsbD i) = 0 := by
      omega
    rw [List.countP_eq_zero] at h0
    have := h0 i (List.mem_map.mpr ⟨i - lzBV x, List.mem_range.mpr (by omega), by omega⟩)
    rw [BitVec.getMsbD_not] at this
    simpa [h2] using this
  · intro h
    have h0 : ((List.range (w - lzBV x)).map (lzBV x + ·)).countP (fun i => (~~~x).getMsbD i) = 0 := by
      rw [List.countP_eq_zero]
      intro i hi
      obtain ⟨j, hj, rfl⟩ := List.mem_map.mp hi
      have hj := List.mem_range.mp hj
      rw [BitVec.getMsbD_not, h _ (by omega) (by omega)]
      simp
    omega

variable {α : Type} [LawfulGoWord α]

theorem pop_compl_iff (x : α) :
    lz x = pop (compl x) ↔ ∀ i, lz x ≤ i → i < width α → bit x i = true := by
  rw [pop_eq, toBV_compl, lz_eq, eq_comm]
  exact popBV_compl _

theorem toNat_sub1_pos {a : α} (h : 0 < toNat a) : toNat (sub1 a) = toNat a - 1 := by
  rw [toNat_sub1]
  have := toNat_lt a
  rw [show toNat a + (2 ^ width α - 1) = (toNat a - 1) + 2 ^ width α by omega, Nat.add_mod_right,
    Nat.mod_eq_of_lt (by omega)]

/-- the last address sharing `n+1` bits with `a` is just before the first one sharing `n+1` bits with
    `b`, when they first differ at bit `n` -/
theorem broadcast_succ {a b : α} {n : Nat} (hn : n < width α) (h : Agree n a b)
    (ha : bit a n = false) (hb : bit b n = true) :
    toNat (Prefix.broadcast ⟨a, n + 1⟩).addr + 1 = toNat (Prefix.network ⟨b, n + 1⟩).addr := by
  have hw : Prefix.WF (⟨a, n + 1⟩ : Prefix α) := hn
  have hw' : Prefix.WF (⟨b, n + 1⟩ : Prefix α) := hn
  rw [toNat_broadcast hw, toNat_network hw']
  simp only
  have h1 := (agree_iff_div (by omega)).mp h
  rw [bit_testBit _ hn, Nat.testBit_eq_decide_div_mod_eq] at ha hb
  have e : width α - n = (width α - 1 - n) + 1 := by omega
  rw [e, Nat.pow_succ, ← Nat.div_div_eq_div_mul, ← Nat.div_div_eq_div_mul] at h1
  have e2 : width α - (n + 1) = width α - 1 - n := by omega
  rw [e2]
  generalize width α - 1 - n = k at *
  simp only [decide_eq_false_iff_not, decide_eq_true_eq] at ha hb
  have h2 : toNat b / 2 ^ k = toNat a / 2 ^ k + 1 := by omega
  rw [h2, Nat.add_mul]
  have : 0 < 2 ^ k := Nat.pow_pos (by omega)
  omega

theorem eq_network {p : Prefix α} (hp : p.WF) (hz : ZeroFrom p.len p.addr) : p.network.addr = p.addr := by
  apply ext_bit
  intro i _
  rw [bit_network hp]
  by_cases h : i < p.len
  · simp [h]
  · rw [hz i (by omega)]; simp

theorem lz_xor_ge {a b : α} {n : Nat} (hn : n ≤ width α) (h : Agree n a b) : n ≤ lz (xor a b) := by
  apply Nat.le_of_not_lt
  intro hlt
  exact lz_xor_diff (Nat.lt_of_lt_of_le hlt hn) (h _ hlt)

namespace SetNode
open Trie

/-- The two ends differ in every bit after their common bits. -/
def AllDiffer (r : Range α) : Prop :=
  ∀ i, lz (xor r.first r.last) ≤ i → i < width α → bit (xor r.first r.last) i = true

theorem fromRangeAux_spec (fuel : Nat) : ∀ (r : Range α), toNat r.first ≤ toNat r.last →
    width α < lz (xor r.first r.last) + fuel →
    (AllDiffer r → ZeroFrom (lz (xor r.first r.last)) r.first) →
    Inv (fromRangeAux fuel r) ∧
      (∀ x, Mem (fromRangeAux fuel r) x ↔ toNat r.first ≤ toNat x ∧ toNat x ≤ toNat r.last) ∧
      Clean (fromRangeAux fuel r) := by
  induction fuel with
  | zero => intro r _ h; have := lz_le (xor r.first r.last); omega
  | succ fuel ih =>
    intro r hle hf hex
    rw [fromRangeAux]
    have hlz := lz_le (xor r.first r.last)
    by_cases hc : lz (xor r.first r.last) = pop (compl (xor r.first r.last))
    · simp only [hc, if_true]
      rw [← hc]
      have had : AllDiffer r := (pop_compl_iff _).mp hc
      have hz := hex had
      have hw : Prefix.WF (⟨r.first, lz (xor r.first r.last)⟩ : Prefix α) := hlz
      refine ⟨.leaf _ hw, fun x => ?_, clean_fromPrefix hz⟩
      rw [mem_fromPrefix, covers_iff_range hw, eq_network hw hz]
      have e : (Prefix.broadcast ⟨r.first, lz (xor r.first r.last)⟩).addr = r.last := by
        apply ext_bit
        intro i hi
        rw [bit_broadcast hw hi]
        simp only
        by_cases h : i < lz (xor r.first r.last)
        · simp [h, lz_xor_agree r.first r.last i h]
        · have h1 := had i (by omega) hi
          rw [bit_xor, hz i (by omega)] at h1
          simp [h] at h1 ⊢
          exact h1
      rw [e]
    · simp only [hc, if_false]
      have hn : lz (xor r.first r.last) < width α := by
        apply Nat.lt_of_not_le
        intro hge
        exact hc ((pop_compl_iff _).mpr fun i h1 h2 => by omega)
      have hag := lz_xor_agree r.first r.last
      have hdf := lz_xor_diff hn
      generalize hN : lz (xor r.first r.last) = n at *
      have hbits : bit r.first n = false ∧ bit r.last n = true := by
        cases h1 : bit r.first n <;> cases h2 : bit r.last n <;> simp_all
        have := toNat_lt_of_bit hn hag.symm h2 h1
        omega
      obtain ⟨hb1, hb2⟩ := hbits
      have hpv : or (and r.first (shl ones (width α - n))) (shr top n)
          = (Prefix.network ⟨r.last, n + 1⟩).addr := by
        apply ext_bit
        intro i hi
        rw [bit_network (p := ⟨r.last, n + 1⟩) hn, bit_or, bit_and, bit_shr _ _ hi]
        have hm := bit_lengthToMask (α := α) (n := n) hlz hi
        rw [lengthToMask] at hm
        rw [hm, bit_top]
        simp only
        by_cases h : i < n
        · have h1 : ¬ n ≤ i := by omega
          have h2 : i < n + 1 := by omega
          simp [h, h2, hag i h]
        · by_cases h' : i = n
          · subst h'; simp [hb2]
          · have h1 : ¬ i - n = 0 := by omega
            have h2 : ¬ i < n + 1 := by omega
            simp [h, h1, h2]
      rw [hpv]
      have hsucc := broadcast_succ hn hag hb1 hb2
      have hwl : Prefix.WF (⟨r.last, n + 1⟩ : Prefix α) := hn
      have hwf : Prefix.WF (⟨r.first, n + 1⟩ : Prefix α) := hn
      have hsub : sub1 (Prefix.network ⟨r.last, n + 1⟩).addr = (Prefix.broadcast ⟨r.first, n + 1⟩).addr := by
        apply toNat_inj
        rw [toNat_sub1_pos (by omega)]
        omega
      rw [hsub]
      have c1 := (covers_iff_range hwf).mp (Covers.self _)
      have c2 := (covers_iff_range hwl).mp (Covers.self _)
      simp only at c1 c2
      -- left part
      have a1 : Agree (n + 1) r.first (Prefix.broadcast ⟨r.first, n + 1⟩).addr := by
        have h := (covers_iff_range hwf (a := (Prefix.broadcast ⟨r.first, n + 1⟩).addr)).mpr
          ⟨by omega, Nat.le_refl _⟩
        exact h
      have g1 := lz_xor_ge hn a1
      obtain ⟨il, ml, kl⟩ := ih ⟨r.first, (Prefix.broadcast ⟨r.first, n + 1⟩).addr⟩ c1.2
        (by simp only; omega) (by
          intro had i hi
          by_cases hw : i < width α
          · have h1 := had i hi hw
            simp only at h1
            rw [bit_xor, bit_broadcast hwf hw] at h1
            have : ¬ i < n + 1 := by simp only at hi; omega
            simpa [this] using h1
          · exact bit_ge (by omega))
      -- right part
      have a2 : Agree (n + 1) (Prefix.network ⟨r.last, n + 1⟩).addr r.last := agree_network hwl
      have g2 := lz_xor_ge hn a2
      obtain ⟨ir, mr, kr⟩ := ih ⟨(Prefix.network ⟨r.last, n + 1⟩).addr, r.last⟩ c2.1
        (by simp only; omega) (by
          intro had i hi
          simp only at hi ⊢
          rw [bit_network hwl]
          have : ¬ i < n + 1 := by omega
          simp [this])
      have hu := union_spec il ir
      refine ⟨hu.inv, fun x => ?_, clean_union kl kr⟩
      rw [hu.mem, ml, mr]
      simp only
      omega

/-- The ranges `setNodeFromRange` gets wrong: the ends lie in the same aligned block of `2^k`
    addresses, symmetric about its middle, without being its two ends. -/
def BadRange (r : Range α) : Prop :=
  ∃ k, k ≤ width α ∧ toNat r.first / 2 ^ k = toNat r.last / 2 ^ k ∧
    toNat r.first % 2 ^ k + toNat r.last % 2 ^ k = 2 ^ k - 1 ∧ toNat r.first % 2 ^ k ≠ 0

theorem badRange_iff (r : Range α) :
    BadRange r ↔ AllDiffer r ∧ ¬ ZeroFrom (lz (xor r.first r.last)) r.first := by
  have key : ∀ k, k ≤ width α → (toNat r.first % 2 ^ k + toNat r.last % 2 ^ k = 2 ^ k - 1 ↔
      ∀ i, width α - k ≤ i → i < width α → bit r.first i = !bit r.last i) := by
    intro k hk
    have hf := Nat.mod_lt (toNat r.first) (Nat.pow_pos (a := 2) (n := k) (by omega))
    have hl := Nat.mod_lt (toNat r.last) (Nat.pow_pos (a := 2) (n := k) (by omega))
    constructor
    · intro h i h1 h2
      have e : toNat r.first % 2 ^ k = 2 ^ k - (toNat r.last % 2 ^ k + 1) := by omega
      have := congrArg (fun y => y.testBit (width α - 1 - i)) e
      simp only [Nat.testBit_mod_two_pow, Nat.testBit_two_pow_sub_succ hl] at this
      have hlt : width α - 1 - i < k := by omega
      rw [bit_testBit _ h2, bit_testBit _ h2]
      simpa [hlt] using this
    · intro h
      have e : toNat r.first % 2 ^ k = 2 ^ k - (toNat r.last % 2 ^ k + 1) := by
        apply Nat.eq_of_testBit_eq
        intro i
        simp only [Nat.testBit_mod_two_pow, Nat.testBit_two_pow_sub_succ hl]
        by_cases hi : i < k
        · rw [testBit_bit _ (by omega), testBit_bit _ (by omega), h _ (by omega) (by omega)]
          simp [hi]
        · simp [hi]
      omega
  have hlz := lz_le (xor r.first r.last)
  constructor
  · rintro ⟨k, hk, h1, h2, h3⟩
    have h2' := (key k hk).mp h2
    have hag : Agree (width α - k) r.first r.last := by
      rw [agree_iff_div (by omega), show width α - (width α - k) = k by omega]; exact h1
    have hge := lz_xor_ge (by omega) hag
    have hz : ¬ ZeroFrom (width α - k) r.first := by
      rw [← mod_eq_zero_iff (by omega), show width α - (width α - k) = k by omega]; exact h3
    have hk0 : k ≠ 0 := by
      rintro rfl; simp at h3; omega
    have heq : lz (xor r.first r.last) = width α - k := by
      apply Nat.le_antisymm _ hge
      apply Nat.le_of_not_lt
      intro hlt
      have e1 := lz_xor_agree r.first r.last _ hlt
      have e2 := h2' (width α - k) (Nat.le_refl _) (by omega)
      rw [e1] at e2
      cases hb : bit r.last (width α - k) <;> simp [hb] at e2
    refine ⟨fun i hi hw => ?_, heq ▸ hz⟩
    rw [bit_xor, h2' i (by omega) hw]; simp
  · rintro ⟨had, hz⟩
    refine ⟨width α - lz (xor r.first r.last), by omega, ?_, ?_, ?_⟩
    · exact (agree_iff_div hlz).mp (lz_xor_agree _ _)
    · rw [key _ (by omega)]
      intro i h1 h2
      have := had i (by omega) h2
      rw [bit_xor] at this
      cases h3 : bit r.first i <;> cases h4 : bit r.last i <;> simp_all
    · rw [Ne, mod_eq_zero_iff hlz]; exact hz

theorem fromRange_good' {r : Range α} (h : toNat r.first ≤ toNat r.last) (hb : ¬ BadRange r) :
    Inv (fromRange r) ∧
      (∀ x, Mem (fromRange r) x ↔ toNat r.first ≤ toNat x ∧ toNat x ≤ toNat r.last) ∧ Clean (fromRange r) := by
  apply fromRangeAux_spec _ _ h (by omega)
  intro had
  exact Classical.byContradiction fun hz => hb ((badRange_iff r).mpr ⟨had, hz⟩)

theorem fromRange_good {r : Range α} (h : toNat r.first ≤ toNat r.last) (hb : ¬ BadRange r) :
    Inv (fromRange r) ∧
      ∀ x, Mem (fromRange r) x ↔ toNat r.first ≤ toNat x ∧ toNat x ≤ toNat r.last :=
  ⟨(fromRange_good' h hb).1, (fromRange_good' h hb).2.1⟩

/-- on a bad range the set is the whole enclosing aligned block -/
theorem fromRange_bad {r : Range α} (hb : BadRange r) :
    fromRange r = fromPrefix ⟨r.first, lz (xor r.first r.last)⟩ := by
  obtain ⟨had, _⟩ := (badRange_iff r).mp hb
  have hc := (pop_compl_iff _).mpr had
  rw [fromRange, fromRangeAux]
  simp only [hc.symm, if_true]

theorem fromRange_inv {r : Range α} (h : toNat r.first ≤ toNat r.last) : Inv (fromRange r) := by
  by_cases hb : BadRange r
  · rw [fromRange_bad hb]; exact .leaf _ (lz_le _)
  · exact (fromRange_good h hb).1

/-- a bad range's set contains an address outside the range -/
theorem fromRange_bad_mem {r : Range α} (hb : BadRange r) :
    ∃ x, Mem (fromRange r) x ∧ toNat x < toNat r.first := by
  have hf := fromRange_bad hb
  obtain ⟨had, hz⟩ := (badRange_iff r).mp hb
  rw [hf]
  have hw : Prefix.WF (⟨r.first, lz (xor r.first r.last)⟩ : Prefix α) := lz_le _
  have c := (covers_iff_range hw).mp (Covers.self _)
  refine ⟨_, mem_fromPrefix.mpr ((covers_iff_range hw).mpr ⟨Nat.le_refl _, Nat.le_trans c.1 c.2⟩), ?_⟩
  apply Nat.lt_of_le_of_ne c.1
  intro e
  apply hz
  rw [← mod_eq_zero_iff hw]
  rw [toNat_network hw] at e
  simp only at e ⊢
  have := Nat.div_add_mod (toNat r.first) (2 ^ (width α - lz (xor r.first r.last)))
  rw [Nat.mul_comm] at this
  omega

end SetNode
end
end Addrs

import Verif.Word
/-
  ipv6/uint128.go, transcribed, and the proof that it is 128-bit unsigned arithmetic.
-/
namespace Addrs

/-- ipv6/uint128.go:20-22 `type uint128 struct { high, low uint64 }` -/
structure U128 where
  high : BitVec 64
  low : BitVec 64
deriving DecidableEq, Repr

namespace U128

/-- ipv6/uint128.go:81-83 -/
def onesCount (a : U128) : Nat := popBV a.high + popBV a.low

/-- ipv6/uint128.go:86-92 -/
def leadingZeros (a : U128) : Nat :=
  let n := lzBV a.high
  if n = 64 then n + lzBV a.low else n

/-- ipv6/uint128.go:101-109.  The Go result -1, 0, 1 is an `Int`. -/
def compare (a b : U128) : Int :=
  if a = b then 0
  else if a.high.toNat < b.high.toNat ∨ (a.high = b.high ∧ a.low.toNat < b.low.toNat) then -1
  else 1

/-- ipv6/uint128.go:112-119 -/
def addUint64 (a : U128) (x : BitVec 64) : U128 :=
  let low := a.low + x
  let high := a.high
  if a.low.toNat > low.toNat then ⟨high + 1#64, low⟩ else ⟨high, low⟩

/-- ipv6/uint128.go:122-129 -/
def subtractUint64 (a : U128) (x : BitVec 64) : U128 :=
  let low := a.low - x
  let high := a.high
  if a.low.toNat < low.toNat then ⟨high - 1#64, low⟩ else ⟨high, low⟩

/-- ipv6/uint128.go:132-134 -/
def and (a x : U128) : U128 := ⟨a.high &&& x.high, a.low &&& x.low⟩
/-- ipv6/uint128.go:137-139 -/
def or (a x : U128) : U128 := ⟨a.high ||| x.high, a.low ||| x.low⟩
/-- ipv6/uint128.go:142-144 -/
def xor (a x : U128) : U128 := ⟨a.high ^^^ x.high, a.low ^^^ x.low⟩
/-- ipv6/uint128.go:147-149 -/
def complement (a : U128) : U128 := ⟨~~~a.high, ~~~a.low⟩

/-- ipv6/uint128.go:152-167.  `bits` is a Go `int`; a negative amount (which panics in Go) never
    arises for prefix lengths at most 128, so it is a natural number here. -/
def leftShift (a : U128) (bits : Nat) : U128 :=
  if 128 ≤ bits then ⟨0, 0⟩
  else if 64 ≤ bits then ⟨a.low <<< (bits - 64), 0⟩
  else ⟨(a.high <<< bits) ||| (a.low >>> (64 - bits)), a.low <<< bits⟩

/-- ipv6/uint128.go:170-185 -/
def rightShift (a : U128) (bits : Nat) : U128 :=
  if 128 ≤ bits then ⟨0, 0⟩
  else if 64 ≤ bits then ⟨0, a.high >>> (bits - 64)⟩
  else ⟨a.high >>> bits, (a.low >>> bits) ||| (a.high <<< (64 - bits))⟩

/-- The 128-bit integer a pair of words stands for: `high * 2^64 + low`. -/
def toBV (a : U128) : BitVec 128 := (a.high ++ a.low : BitVec (64 + 64))

theorem toNat_toBV (a : U128) : (toBV a).toNat = a.high.toNat * 2 ^ 64 + a.low.toNat := by
  show (a.high ++ a.low).toNat = _
  rw [BitVec.toNat_append, ← Nat.shiftLeft_add_eq_or_of_lt a.low.isLt, Nat.shiftLeft_eq]

theorem getMsbD_toBV (a : U128) (i : Nat) :
    (toBV a).getMsbD i = if i < 64 then a.high.getMsbD i else a.low.getMsbD (i - 64) := by
  show (a.high ++ a.low).getMsbD i = _
  rw [BitVec.getMsbD_append]
  by_cases h : i < 64
  · simp [h]; intro h'; omega
  · simp [h]; try (intro h'; omega)

theorem toBV_inj {a b : U128} (h : toBV a = toBV b) : a = b := by
  have h1 := congrArg BitVec.toNat h
  rw [toNat_toBV, toNat_toBV] at h1
  have := a.high.isLt; have := b.high.isLt; have := a.low.isLt; have := b.low.isLt
  have e1 : a.high = b.high := BitVec.eq_of_toNat_eq (by omega)
  have e2 : a.low = b.low := BitVec.eq_of_toNat_eq (by omega)
  cases a; cases b; simp_all

theorem toBV_mk_toNat (h l : BitVec 64) (x : BitVec 128)
    (hx : x.toNat = h.toNat * 2 ^ 64 + l.toNat) : toBV ⟨h, l⟩ = x := by
  apply BitVec.eq_of_toNat_eq; rw [toNat_toBV, hx]

/-- split a 128-bit integer into its two words -/
def ofBV (x : BitVec 128) : U128 := ⟨x.extractLsb' 64 64, x.extractLsb' 0 64⟩

theorem toBV_ofBV (x : BitVec 128) : toBV (ofBV x) = x := by
  apply toBV_mk_toNat
  simp only [BitVec.extractLsb'_toNat, Nat.shiftRight_eq_div_pow]
  have := x.isLt
  omega

theorem toBV_and (a b : U128) : toBV (and a b) = toBV a &&& toBV b := by
  apply BitVec.eq_of_getMsbD_eq; intro i _
  simp only [BitVec.getMsbD_and, getMsbD_toBV, and]; split <;> rfl
theorem toBV_or (a b : U128) : toBV (or a b) = toBV a ||| toBV b := by
  apply BitVec.eq_of_getMsbD_eq; intro i _
  simp only [BitVec.getMsbD_or, getMsbD_toBV, or]; split <;> rfl
theorem toBV_xor (a b : U128) : toBV (xor a b) = toBV a ^^^ toBV b := by
  apply BitVec.eq_of_getMsbD_eq; intro i _
  simp only [BitVec.getMsbD_xor, getMsbD_toBV, xor]; split <;> rfl
theorem toBV_complement (a : U128) : toBV (complement a) = ~~~ toBV a := by
  apply BitVec.eq_of_getMsbD_eq; intro i hi
  simp only [BitVec.getMsbD_not, getMsbD_toBV, complement]
  split
  · simp_all
  · have : i - 64 < 64 := by omega
    simp_all

theorem toBV_leftShift (a : U128) (n : Nat) : toBV (leftShift a n) = toBV a <<< n := by
  apply BitVec.eq_of_getMsbD_eq; intro i hi
  rw [BitVec.getMsbD_shiftLeft]
  by_cases h1 : 128 ≤ n
  · rw [leftShift, if_pos h1, BitVec.getMsbD_of_ge _ (i + n) (by omega), getMsbD_toBV]
    split <;> simp
  · rw [leftShift, if_neg h1]
    by_cases h2 : 64 ≤ n
    · rw [if_pos h2, getMsbD_toBV, getMsbD_toBV, if_neg (by omega : ¬ i + n < 64)]
      by_cases h3 : i < 64
      · rw [if_pos h3, BitVec.getMsbD_shiftLeft]; congr 1; omega
      · rw [if_neg h3, BitVec.getMsbD_of_ge a.low _ (by omega)]; simp
    · rw [if_neg h2, getMsbD_toBV, getMsbD_toBV]
      by_cases h3 : i < 64
      · rw [if_pos h3]
        simp only [BitVec.getMsbD_or, BitVec.getMsbD_shiftLeft, BitVec.getMsbD_ushiftRight]
        by_cases h4 : i + n < 64
        · have : i < 64 - n := by omega
          simp [this, h4]
        · rw [BitVec.getMsbD_of_ge a.high _ (by omega)]
          have h5 : ¬ i < 64 - n := by omega
          simp only [h3, h4, h5, decide_true, decide_false, Bool.not_false, Bool.true_and,
            Bool.false_or, if_false]
          congr 1; omega
      · rw [if_neg h3, if_neg (by omega : ¬ i + n < 64), BitVec.getMsbD_shiftLeft]
        congr 1; omega

theorem toBV_rightShift (a : U128) (n : Nat) : toBV (rightShift a n) = toBV a >>> n := by
  apply BitVec.eq_of_getMsbD_eq; intro i hi
  rw [BitVec.getMsbD_ushiftRight]
  by_cases h1 : 128 ≤ n
  · have : i < n := by omega
    rw [rightShift, if_pos h1, getMsbD_toBV]
    simp [this]
  · rw [rightShift, if_neg h1]
    by_cases h2 : 64 ≤ n
    · rw [if_pos h2, getMsbD_toBV]
      by_cases h3 : i < 64
      · have : i < n := by omega
        simp [h3, this]
      · rw [if_neg h3, BitVec.getMsbD_ushiftRight, getMsbD_toBV]
        have e1 : i - 64 < 64 := by omega
        simp only [hi, e1, decide_true, Bool.true_and]
        by_cases h : i < n
        · have : i - 64 < n - 64 := by omega
          simp [h, this]
        · have h4 : ¬ i - 64 < n - 64 := by omega
          have h5 : i - n < 64 := by omega
          simp only [h, h4, h5, decide_false, Bool.not_false, Bool.true_and, if_true]
          congr 1; omega
    · rw [if_neg h2, getMsbD_toBV]
      by_cases h3 : i < 64
      · rw [if_pos h3, BitVec.getMsbD_ushiftRight, getMsbD_toBV]
        simp only [hi, h3, decide_true, Bool.true_and]
        by_cases h : i < n
        · simp [h]
        · have h5 : i - n < 64 := by omega
          simp [h, h5]
      · rw [if_neg h3, getMsbD_toBV]
        simp only [BitVec.getMsbD_or, BitVec.getMsbD_shiftLeft, BitVec.getMsbD_ushiftRight]
        have h4 : ¬ i < n := by omega
        have e1 : i - 64 < 64 := by omega
        simp only [hi, h4, e1, decide_true, decide_false, Bool.not_false, Bool.true_and]
        by_cases h : i - 64 < n
        · have h5 : i - n < 64 := by omega
          simp only [h, h5, decide_true, Bool.not_true, Bool.false_and, Bool.false_or, if_true]
          congr 1; omega
        · have h5 : ¬ i - n < 64 := by omega
          rw [BitVec.getMsbD_of_ge a.high _ (by omega)]
          simp only [h, h5, decide_false, Bool.not_false, Bool.true_and, Bool.or_false, if_false]
          congr 1; omega

theorem leadingZeros_eq (a : U128) : leadingZeros a = lzBV (toBV a) := by
  symm
  simp only [leadingZeros]
  split
  · rename_i h
    apply lzBV_unique
    · have := lzBV_le a.low; omega
    · intro i hi
      rw [getMsbD_toBV]
      split
      · exact lzBV_before _ (by omega)
      · exact lzBV_before _ (by omega)
    · intro hlt
      rw [getMsbD_toBV, if_neg (by omega), h, Nat.add_sub_cancel_left]
      exact lzBV_at _ (by omega)
  · have hle := lzBV_le a.high
    apply lzBV_unique
    · omega
    · intro i hi
      rw [getMsbD_toBV, if_pos (by omega)]
      exact lzBV_before _ hi
    · intro _
      rw [getMsbD_toBV, if_pos (by omega)]
      exact lzBV_at _ (by omega)

theorem onesCount_eq (a : U128) : onesCount a = popBV (toBV a) := by
  have e : List.range 128 = List.range 64 ++ (List.range 64).map (64 + ·) := by
    rw [← List.range_add]
  unfold onesCount popBV
  rw [e, List.countP_append, List.countP_map]
  congr 1
  · apply List.countP_congr
    intro i hi
    rw [List.mem_range] at hi
    simp [getMsbD_toBV, hi]
  · apply List.countP_congr
    intro i hi
    simp [getMsbD_toBV]

theorem compare_neg_iff (a b : U128) :
    decide (compare a b < 0) = decide ((toBV a).toNat < (toBV b).toNat) := by
  rw [toNat_toBV, toNat_toBV]
  have := a.high.isLt; have := b.high.isLt; have := a.low.isLt; have := b.low.isLt
  unfold compare
  rw [decide_eq_decide]
  split
  · rename_i h; subst h; omega
  · split
    · rename_i h
      rcases h with h | ⟨h1, h2⟩
      · omega
      · rw [h1]; omega
    · rename_i h1 h2
      constructor
      · omega
      · intro h
        exfalso
        apply h2
        by_cases e : a.high.toNat < b.high.toNat
        · exact .inl e
        · right
          exact ⟨BitVec.eq_of_toNat_eq (by omega), by omega⟩

theorem toBV_addUint64 (a : U128) (x : BitVec 64) :
    toBV (addUint64 a x) = toBV a + BitVec.ofNat 128 x.toNat := by
  apply BitVec.eq_of_toNat_eq
  rw [BitVec.toNat_add, toNat_toBV a, BitVec.toNat_ofNat]
  have := a.high.isLt; have := a.low.isLt; have := x.isLt
  simp only [addUint64]
  split <;> rename_i h <;> rw [toNat_toBV] <;>
    simp only [BitVec.toNat_add, BitVec.toNat_ofNat] at h ⊢ <;> omega

theorem toBV_subtractUint64 (a : U128) (x : BitVec 64) :
    toBV (subtractUint64 a x) = toBV a - BitVec.ofNat 128 x.toNat := by
  apply BitVec.eq_of_toNat_eq
  rw [BitVec.toNat_sub, toNat_toBV a, BitVec.toNat_ofNat]
  have := a.high.isLt; have := a.low.isLt; have := x.isLt
  simp only [subtractUint64]
  split <;> rename_i h <;> rw [toNat_toBV] <;>
    simp only [BitVec.toNat_sub, BitVec.toNat_ofNat] at h ⊢ <;> omega

end U128

/-- address words of package ipv6 (ipv6/address.go:14-16) -/
instance : GoWord U128 where
  width := 128
  decEq := inferInstance
  zero := ⟨0, 0⟩
  ones := ⟨0xffffffffffffffff#64, 0xffffffffffffffff#64⟩
  top := ⟨0x8000000000000000#64, 0⟩
  and := U128.and
  or := U128.or
  xor := U128.xor
  compl := U128.complement
  shl := U128.leftShift
  shr := U128.rightShift
  lz := U128.leadingZeros
  pop := U128.onesCount
  lt a b := U128.compare a b < 0
  add1 a := a.addUint64 1#64
  sub1 a := a.subtractUint64 1#64

instance : LawfulGoWord U128 where
  toBV := U128.toBV
  ofBV := U128.ofBV
  toBV_ofBV := U128.toBV_ofBV
  toBV_inj := U128.toBV_inj
  width_pos := by decide
  toBV_zero := by decide
  toBV_ones := by decide
  toBV_top := by decide
  toBV_and := U128.toBV_and
  toBV_or := U128.toBV_or
  toBV_xor := U128.toBV_xor
  toBV_compl := U128.toBV_complement
  toBV_shl := U128.toBV_leftShift
  toBV_shr := U128.toBV_rightShift
  lz_eq := U128.leadingZeros_eq
  pop_eq := U128.onesCount_eq
  lt_eq := U128.compare_neg_iff
  toBV_add1 a := U128.toBV_addUint64 a 1#64
  toBV_sub1 a := U128.toBV_subtractUint64 a 1#64

end Addrs

/-
  Words: the unsigned integer operations the trie code uses.

  * `GoWord` lists them; `LawfulGoWord` says that they are the operations of the `width`-bit
    unsigned integer.
  * instance `BitVec 32` models Go's `uint32` (package ipv4).
  * the instance for IPv6 is in `Verif/U128.lean`.
-/
namespace Addrs

/-- math/bits.LeadingZeros{32,64} (stdlib, used at ipv4/node.go:59, ipv4/mask.go:66,
    ipv4/setnode.go:28, ipv6/uint128.go:87-89): the number of leading zero bits, `w` for 0. -/
def lzBV {w : Nat} (x : BitVec w) : Nat := (List.range w).findIdx (fun i => x.getMsbD i)

/-- math/bits.OnesCount{32,64} (stdlib, used at ipv4/mask.go:85, ipv4/setnode.go:30,
    ipv6/uint128.go:82): the number of one bits. -/
def popBV {w : Nat} (x : BitVec w) : Nat := (List.range w).countP (fun i => x.getMsbD i)

/-- The operations on address words used by packages ipv4 (Go `uint32`) and ipv6 (`uint128`).
    Shift amounts are natural numbers: every Go call site modelled here shifts by a non-negative
    amount whenever prefix lengths are at most the width (see `Prefix.WF`). -/
class GoWord (α : Type) where
  /-- `addressSize`: ipv4/address.go:10, ipv6/address.go:10 (`NumBits`: ipv4/address.go:105-107,
      ipv6/address.go:107-109) -/
  width : Nat
  /-- Go's `==` on words -/
  decEq : DecidableEq α
  /-- `0` -/
  zero : α
  /-- `0xffffffff` / `uint128{0xffffffffffffffff, 0xffffffffffffffff}` -/
  ones : α
  /-- `0x80000000` / `uint128{0x8000000000000000, 0}` -/
  top : α
  and : α → α → α
  or : α → α → α
  xor : α → α → α
  compl : α → α
  shl : α → Nat → α
  shr : α → Nat → α
  lz : α → Nat
  pop : α → Nat
  /-- `<`; the addresses' order is ipv4/address.go:84-86, ipv6/address.go:87-89 `lessThan` -/
  lt : α → α → Bool
  add1 : α → α
  sub1 : α → α

instance (priority := low) {α : Type} [GoWord α] : DecidableEq α := GoWord.decEq

/-- The operations are those of the `width`-bit unsigned integer. -/
class LawfulGoWord (α : Type) extends GoWord α where
  toBV : α → BitVec width
  ofBV : BitVec width → α
  toBV_ofBV : ∀ x, toBV (ofBV x) = x
  toBV_inj : ∀ {a b : α}, toBV a = toBV b → a = b
  width_pos : 0 < width
  toBV_zero : toBV zero = 0#width
  toBV_ones : toBV ones = BitVec.allOnes width
  toBV_top : toBV top = BitVec.ofNat width (2 ^ (width - 1))
  toBV_and : ∀ a b, toBV (and a b) = toBV a &&& toBV b
  toBV_or : ∀ a b, toBV (or a b) = toBV a ||| toBV b
  toBV_xor : ∀ a b, toBV (xor a b) = toBV a ^^^ toBV b
  toBV_compl : ∀ a, toBV (compl a) = ~~~ toBV a
  toBV_shl : ∀ a n, toBV (shl a n) = toBV a <<< n
  toBV_shr : ∀ a n, toBV (shr a n) = toBV a >>> n
  lz_eq : ∀ a, lz a = lzBV (toBV a)
  pop_eq : ∀ a, pop a = popBV (toBV a)
  lt_eq : ∀ a b, lt a b = decide ((toBV a).toNat < (toBV b).toNat)
  toBV_add1 : ∀ a, toBV (add1 a) = toBV a + 1#width
  toBV_sub1 : ∀ a, toBV (sub1 a) = toBV a - 1#width

/-- Go's `uint32`: address words of package ipv4 (ipv4/address.go:15-17).  The operators
    `& | ^ << >> < + -` on `uint32` are Lean's operators on `BitVec 32`; a Go shift by 32 or more
    gives 0, as does a `BitVec` shift. -/
instance : GoWord (BitVec 32) where
  width := 32
  decEq := inferInstance
  zero := 0#32
  ones := 0xffffffff#32
  top := 0x80000000#32
  and := (· &&& ·)
  or := (· ||| ·)
  xor := (· ^^^ ·)
  compl := (~~~ ·)
  shl a n := a <<< n
  shr a n := a >>> n
  lz := lzBV
  pop := popBV
  lt a b := a.toNat < b.toNat
  add1 a := a + 1#32
  sub1 a := a - 1#32

instance : LawfulGoWord (BitVec 32) where
  toBV := id
  ofBV := id
  toBV_ofBV _ := rfl
  toBV_inj h := h
  width_pos := by decide
  toBV_zero := rfl
  toBV_ones := by decide
  toBV_top := by decide
  toBV_and _ _ := rfl
  toBV_or _ _ := rfl
  toBV_xor _ _ := rfl
  toBV_compl _ := rfl
  toBV_shl _ _ := rfl
  toBV_shr _ _ := rfl
  lz_eq _ := rfl
  pop_eq _ := rfl
  lt_eq _ _ := rfl
  toBV_add1 _ := rfl
  toBV_sub1 _ := rfl

/-! ### Facts about `lzBV` -/

theorem lzBV_le {w} (x : BitVec w) : lzBV x ≤ w := by
  unfold lzBV
  simpa using List.findIdx_le_length (xs := List.range w) (p := fun i => x.getMsbD i)

theorem lzBV_before {w} (x : BitVec w) {i : Nat} (h : i < lzBV x) : x.getMsbD i = false := by
  have hw : i < w := Nat.lt_of_lt_of_le h (lzBV_le x)
  have := List.not_of_lt_findIdx (xs := List.range w) (p := fun i => x.getMsbD i) (i := i) h
  simpa using this

theorem lzBV_at {w} (x : BitVec w) (h : lzBV x < w) : x.getMsbD (lzBV x) = true := by
  have := List.findIdx_getElem (xs := List.range w) (p := fun i => x.getMsbD i)
    (w := by simpa [lzBV] using h)
  simpa [lzBV] using this

theorem lzBV_unique {w} (x : BitVec w) {n : Nat} (h1 : n ≤ w)
    (h2 : ∀ i, i < n → x.getMsbD i = false) (h3 : n < w → x.getMsbD n = true) : lzBV x = n := by
  rcases Nat.lt_trichotomy (lzBV x) n with h | h | h
  · have := lzBV_at x (Nat.lt_of_lt_of_le h h1)
    rw [h2 _ h] at this; contradiction
  · exact h
  · have := lzBV_before x h
    rw [h3 (Nat.lt_of_lt_of_le h (lzBV_le x))] at this; contradiction

/-! ### Generic vocabulary -/
section
variable {α : Type} [LawfulGoWord α]
open GoWord LawfulGoWord

/-- the address as a number -/
def toNat (a : α) : Nat := (toBV a).toNat

/-- the `i`-th bit, most significant first -/
def bit (a : α) (i : Nat) : Bool := (toBV a).getMsbD i


theorem toNat_lt (a : α) : toNat a < 2 ^ width α := (toBV a).isLt

theorem toNat_inj {a b : α} (h : toNat a = toNat b) : a = b :=
  toBV_inj (BitVec.eq_of_toNat_eq h)

/-- the address with a given number -/
def ofNat (α : Type) [LawfulGoWord α] (n : Nat) : α := ofBV (BitVec.ofNat _ n)

theorem toNat_ofNat {n : Nat} (h : n < 2 ^ width α) : toNat (ofNat α n) = n := by
  simp [toNat, ofNat, toBV_ofBV, Nat.mod_eq_of_lt h]

theorem bit_ge {a : α} {i : Nat} (h : width α ≤ i) : bit a i = false := by
  simp [bit, BitVec.getMsbD]; omega

theorem ext_bit {a b : α} (h : ∀ i, i < width α → bit a i = bit b i) : a = b := by
  apply toBV_inj
  apply BitVec.eq_of_getMsbD_eq
  exact h

theorem bit_testBit (a : α) {i : Nat} (h : i < width α) :
    bit a i = (toNat a).testBit (width α - 1 - i) := by
  simp [bit, BitVec.getMsbD, h, toNat, BitVec.getLsbD]

theorem testBit_bit (a : α) {i : Nat} (h : i < width α) :
    (toNat a).testBit i = bit a (width α - 1 - i) := by
  rw [bit_testBit a (by omega)]; congr 1; omega

@[simp] theorem bit_zero (i : Nat) : bit (zero : α) i = false := by
  simp [bit, toBV_zero]

theorem bit_ones {i : Nat} (h : i < width α) : bit (ones : α) i = true := by
  simp [bit, toBV_ones, h]

theorem bit_top {i : Nat} : bit (top : α) i = decide (i = 0) := by
  by_cases h : i < width α
  · have hw : 0 < width α := width_pos
    rw [bit_testBit _ h, toNat, toBV_top, BitVec.toNat_ofNat,
      Nat.mod_eq_of_lt (Nat.pow_lt_pow_right (by omega) (by omega)), Nat.testBit_two_pow]
    simp; omega
  · rw [bit_ge (by omega)]
    have hw : 0 < width α := width_pos
    simp; omega

@[simp] theorem bit_and (a b : α) (i : Nat) : bit (and a b) i = (bit a i && bit b i) := by
  simp [bit, toBV_and]
@[simp] theorem bit_or (a b : α) (i : Nat) : bit (or a b) i = (bit a i || bit b i) := by
  simp [bit, toBV_or]
@[simp] theorem bit_xor (a b : α) (i : Nat) : bit (xor a b) i = (bit a i ^^ bit b i) := by
  simp [bit, toBV_xor]
theorem bit_compl (a : α) {i : Nat} (h : i < width α) : bit (compl a) i = !bit a i := by
  simp [bit, toBV_compl, h]
theorem bit_shl (a : α) (n i : Nat) : bit (shl a n) i = bit a (i + n) := by
  simp [bit, toBV_shl]
theorem bit_shr (a : α) (n : Nat) {i : Nat} (h : i < width α) :
    bit (shr a n) i = (!decide (i < n) && bit a (i - n)) := by
  simp [bit, toBV_shr, h]

theorem lz_le (a : α) : lz a ≤ width α := by rw [lz_eq]; exact lzBV_le _
theorem lz_before {a : α} {i : Nat} (h : i < lz a) : bit a i = false := by
  rw [lz_eq] at h; exact lzBV_before _ h
theorem lz_at {a : α} (h : lz a < width α) : bit a (lz a) = true := by
  rw [lz_eq] at h ⊢; exact lzBV_at _ h

theorem lt_iff {a b : α} : lt a b = true ↔ toNat a < toNat b := by
  simp [lt_eq, toNat]

theorem toNat_add1 (a : α) : toNat (add1 a) = (toNat a + 1) % 2 ^ width α := by
  simp [toNat, toBV_add1, BitVec.toNat_add]

theorem toNat_sub1 (a : α) : toNat (sub1 a) = (toNat a + (2 ^ width α - 1)) % 2 ^ width α := by
  have hw : 0 < width α := width_pos
  have : 1 < 2 ^ width α := Nat.one_lt_two_pow (by omega)
  simp only [toNat, toBV_sub1, BitVec.toNat_sub]
  rw [BitVec.toNat_ofNat, Nat.mod_eq_of_lt this]
  congr 1; omega

/-- the first `n` bits coincide -/
def Agree (n : Nat) (a b : α) : Prop := ∀ i, i < n → bit a i = bit b i

theorem Agree.refl (n : Nat) (a : α) : Agree n a a := fun _ _ => rfl
theorem Agree.symm {n : Nat} {a b : α} (h : Agree n a b) : Agree n b a := fun i hi => (h i hi).symm
theorem Agree.trans {n : Nat} {a b c : α} (h : Agree n a b) (h' : Agree n b c) : Agree n a c :=
  fun i hi => (h i hi).trans (h' i hi)
theorem Agree.mono {n m : Nat} {a b : α} (h : Agree n a b) (hm : m ≤ n) : Agree m a b :=
  fun i hi => h i (Nat.lt_of_lt_of_le hi hm)
theorem Agree.zero (a b : α) : Agree 0 a b := fun _ hi => absurd hi (Nat.not_lt_zero _)
theorem Agree.eq {n : Nat} {a b : α} (h : Agree n a b) (hn : width α ≤ n) : a = b :=
  ext_bit fun i hi => h i (by omega)
theorem Agree.succ {n : Nat} {a b : α} (h : Agree n a b) (hb : bit a n = bit b n) :
    Agree (n+1) a b := fun i hi => by
  rcases Nat.lt_succ_iff_lt_or_eq.mp hi with h1 | h1
  · exact h i h1
  · subst h1; exact hb

/-- agreement of leading bits is equality of quotients -/
theorem agree_iff_div {n : Nat} (hn : n ≤ width α) {a b : α} :
    Agree n a b ↔ toNat a / 2 ^ (width α - n) = toNat b / 2 ^ (width α - n) := by
  constructor
  · intro h
    apply Nat.eq_of_testBit_eq
    intro i
    rw [Nat.testBit_div_two_pow, Nat.testBit_div_two_pow]
    by_cases hi : i + (width α - n) < width α
    · rw [testBit_bit a (by omega), testBit_bit b (by omega)]
      exact h _ (by omega)
    · have h1 : toNat a < 2 ^ (i + (width α - n)) :=
        Nat.lt_of_lt_of_le (toNat_lt a) (Nat.pow_le_pow_right (by omega) (by omega))
      have h2 : toNat b < 2 ^ (i + (width α - n)) :=
        Nat.lt_of_lt_of_le (toNat_lt b) (Nat.pow_le_pow_right (by omega) (by omega))
      have e : width α - n + i = i + (width α - n) := by omega
      simp only [Nat.testBit_lt_two_pow h1, Nat.testBit_lt_two_pow h2]
  · intro h i hi
    rw [bit_testBit a (by omega), bit_testBit b (by omega)]
    have e : width α - 1 - i = (n - 1 - i) + (width α - n) := by omega
    rw [e, ← Nat.testBit_div_two_pow, ← Nat.testBit_div_two_pow, h]

/-- numbers are ordered by their first differing bit -/
theorem toNat_lt_of_bit {a b : α} {i : Nat} (hi : i < width α) (h : Agree i a b)
    (ha : bit a i = false) (hb : bit b i = true) : toNat a < toNat b := by
  have h1 := (agree_iff_div (by omega)).mp h
  rw [bit_testBit _ hi, Nat.testBit_eq_decide_div_mod_eq] at ha hb
  have e : width α - i = (width α - 1 - i) + 1 := by omega
  rw [e, Nat.pow_succ, ← Nat.div_div_eq_div_mul, ← Nat.div_div_eq_div_mul] at h1
  generalize width α - 1 - i = k at *
  simp only [decide_eq_false_iff_not, decide_eq_true_eq] at ha hb
  have h2 : toNat a / 2 ^ k < toNat b / 2 ^ k := by omega
  exact Nat.lt_of_not_le fun hle => Nat.not_lt.mpr (Nat.div_le_div_right hle) h2

/-- two words either agree on `n` bits or have a first difference before `n` -/
theorem agree_or_diff (n : Nat) (a b : α) :
    Agree n a b ∨ ∃ i, i < n ∧ Agree i a b ∧ bit a i ≠ bit b i := by
  induction n with
  | zero => exact .inl (Agree.zero a b)
  | succ n ih =>
    rcases ih with h | ⟨i, hi, h⟩
    · by_cases hb : bit a n = bit b n
      · exact .inl (h.succ hb)
      · exact .inr ⟨n, by omega, h, hb⟩
    · exact .inr ⟨i, by omega, h⟩

theorem bit_lt_of_lt {a b : α} (h : toNat a < toNat b) :
    ∃ i, i < width α ∧ Agree i a b ∧ bit a i = false ∧ bit b i = true := by
  rcases agree_or_diff (width α) a b with h1 | ⟨i, hi, h1, h2⟩
  · rw [h1.eq (Nat.le_refl _)] at h; omega
  · refine ⟨i, hi, h1, ?_⟩
    cases hA : bit a i <;> cases hB : bit b i <;> simp_all
    have := toNat_lt_of_bit hi h1.symm hB hA
    omega

end
end Addrs

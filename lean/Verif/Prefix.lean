import Verif.U128
/-
  Address, Mask, Prefix, Range of packages ipv4 and ipv6 (model).

  An `Address` is its word (`Address{ui}`, ipv4/address.go:15-17, ipv6/address.go:14-16), so the word
  type `α` itself is used for addresses.
-/
namespace Addrs
open GoWord

/-- ipv4/prefix.go:16-19, ipv6/prefix.go:16-19 `type Prefix struct { addr Address; length uint32 }`.
    `length` is a natural number here (uint32 in Go); lengths above `addressSize` are outside the
    model except where stated (`Prefix.WF`).  The fields are the accessors `Address` and `Length`
    (ipv4/prefix.go:85-87, 116-118). -/
structure Prefix (α : Type) where
  addr : α
  len : Nat
deriving DecidableEq, Repr

/-- ipv4/range.go:14-16, ipv6/range.go:14-16 `type Range struct { first, last Address }`; the
    fields are the accessors `First` and `Last` (ipv4/range.go:44-46, 49-51; ipv6/range.go:32-34, 37-39) -/
structure Range (α : Type) where
  first : α
  last : α
deriving DecidableEq, Repr

section
variable {α : Type} [GoWord α]

/-- ipv4/mask.go:88-92 and ipv6/mask.go:87-91 `lengthToMask`.  Only called with
    `length ≤ addressSize` here (Go panics on a negative shift otherwise). -/
def lengthToMask (length : Nat) : α := shl ones (width α - length)

/-- ipv4/address.go:61-66 `minAddress` -/
def minAddress (a b : α) : α := if lt a b then a else b

/-- ipv4/address.go:69-74 `maxAddress` -/
def maxAddress (a b : α) : α := if lt a b then b else a

namespace Prefix

/-- the lengths every constructor of the API guarantees (see `Verif/Props`): at most `addressSize` -/
def WF (p : Prefix α) : Prop := p.len ≤ width α

instance (p : Prefix α) : Decidable p.WF := inferInstanceAs (Decidable (_ ≤ _))

/-- ipv4/address.go:89-91 `Address.Prefix`: the host prefix -/
def ofAddress (a : α) : Prefix α := ⟨a, width α⟩

/-- the zero value `Prefix{}` (ipv4/prefix.go:15) -/
def zeroValue : Prefix α := ⟨zero, 0⟩

/-- ipv4/prefix.go:122-124 `Prefix.Mask` -/
def mask (p : Prefix α) : α := lengthToMask p.len

/-- ipv4/prefix.go:131-139 `Prefix.Network` -/
def network (p : Prefix α) : Prefix α := ⟨and p.addr p.mask, p.len⟩

/-- ipv4/prefix.go:145-153 `Prefix.Broadcast`, ipv6/prefix.go:193-201 `prefixUpperLimit` -/
def broadcast (p : Prefix α) : Prefix α := ⟨or p.addr (compl p.mask), p.len⟩

/-- ipv4/prefix.go:157-165 `Prefix.Host` -/
def host (p : Prefix α) : Prefix α := ⟨and p.addr (compl p.mask), p.len⟩

/-- ipv4/prefix.go:104-113 `Prefix.lessThan` -/
def lessThan (p q : Prefix α) : Bool :=
  let pn := p.network
  let qn := q.network
  if pn.addr ≠ qn.addr then lt pn.addr qn.addr
  else if p.len = q.len then lt p.host.addr q.host.addr
  else decide (p.len < q.len)

/-- ipv4/prefix.go:232-245 `Prefix.Halves`.  For a full-length prefix Go returns two zero values. -/
def halves (p : Prefix α) : Prefix α × Prefix α :=
  if p.len < width α then
    let base := p.network.addr
    (⟨base, p.len + 1⟩, ⟨or base (shr top p.len), p.len + 1⟩)
  else (zeroValue, zeroValue)

end Prefix

namespace Range

/-- ipv4/range.go:21-29 `RangeFromAddresses`: the range and the flag `empty` -/
def fromAddresses (first last : α) : Range α × Bool :=
  if lt last first then (⟨zero, zero⟩, true) else (⟨first, last⟩, false)

/-- ipv4/range.go:109-111 `prev` -/
def prev (r : Range α) : α := sub1 r.first
/-- ipv4/range.go:115-117 `next` -/
def next (r : Range α) : α := add1 r.last

/-- ipv4/range.go:64-79 `Minus` -/
def minus (r s : Range α) : List (Range α) :=
  (if lt r.first s.first then [⟨r.first, minAddress s.prev r.last⟩] else []) ++
  (if lt s.last r.last then [⟨maxAddress r.first s.next, r.last⟩] else [])

/-- ipv4/range.go:86-94, the local function `plus` -/
def plusAux (a b : Range α) : List (Range α) :=
  if lt a.next b.first then [a, b] else [⟨a.first, maxAddress a.last b.last⟩]

/-- ipv4/range.go:85-98 `Plus` -/
def plus (r s : Range α) : List (Range α) :=
  if lt r.first s.first then plusAux r s else plusAux s r

end Range

/-- ipv4/prefix.go:224-228 `Prefix.Range` -/
def Prefix.range (p : Prefix α) : Range α :=
  (Range.fromAddresses p.network.addr p.broadcast.addr).1

end

/-! ### Bit-level and arithmetic facts -/
section
variable {α : Type} [LawfulGoWord α]
open LawfulGoWord

/-- `a` lies in prefix `p`: it shares its first `len` bits -/
def Covers (p : Prefix α) (a : α) : Prop := Agree p.len p.addr a

theorem bit_lengthToMask {n i : Nat} (hn : n ≤ width α) (_hi : i < width α) :
    bit (lengthToMask n : α) i = decide (i < n) := by
  rw [lengthToMask, bit_shl]
  by_cases h : i < n
  · rw [bit_ones (by omega)]; simp [h]
  · rw [bit_ge (by omega)]; simp [h]

theorem bit_network {p : Prefix α} (hp : p.WF) (i : Nat) :
    bit p.network.addr i = (decide (i < p.len) && bit p.addr i) := by
  by_cases hi : i < width α
  · simp [Prefix.network, Prefix.mask, bit_lengthToMask hp hi, Bool.and_comm]
  · rw [bit_ge (by omega), bit_ge (by omega)]; simp

theorem bit_broadcast {p : Prefix α} (hp : p.WF) {i : Nat} (hi : i < width α) :
    bit p.broadcast.addr i = (!decide (i < p.len) || bit p.addr i) := by
  simp [Prefix.broadcast, Prefix.mask, bit_lengthToMask hp hi, bit_compl _ hi, Bool.or_comm]

theorem bit_host {p : Prefix α} (hp : p.WF) (i : Nat) :
    bit p.host.addr i = (!decide (i < p.len) && bit p.addr i) := by
  by_cases hi : i < width α
  · simp [Prefix.host, Prefix.mask, bit_lengthToMask hp hi, bit_compl _ hi, Bool.and_comm]
  · rw [bit_ge (by omega), bit_ge (by omega)]; simp

theorem agree_network {p : Prefix α} (hp : p.WF) : Agree p.len p.network.addr p.addr := by
  intro i hi; rw [bit_network hp]; simp [hi]

/-- all bits from `n` on are zero -/
def ZeroFrom (n : Nat) (a : α) : Prop := ∀ i, n ≤ i → bit a i = false

theorem mod_eq_zero_iff {n : Nat} (hn : n ≤ width α) {a : α} :
    toNat a % 2 ^ (width α - n) = 0 ↔ ZeroFrom n a := by
  constructor
  · intro h i hi
    by_cases hw : i < width α
    · rw [bit_testBit a hw]
      have := congrArg (fun x => x.testBit (width α - 1 - i)) h
      simp only [Nat.testBit_mod_two_pow, Nat.zero_testBit] at this
      have hlt : width α - 1 - i < width α - n := by omega
      simpa [hlt] using this
    · exact bit_ge (by omega)
  · intro h
    apply Nat.eq_of_testBit_eq
    intro i
    rw [Nat.testBit_mod_two_pow, Nat.zero_testBit]
    by_cases hi : i < width α - n
    · rw [testBit_bit a (by omega), h _ (by omega)]; simp
    · simp [hi]

theorem toNat_network {p : Prefix α} (hp : p.WF) :
    toNat p.network.addr = toNat p.addr / 2 ^ (width α - p.len) * 2 ^ (width α - p.len) := by
  have h1 := (agree_iff_div hp).mp (agree_network hp)
  have h2 : toNat p.network.addr % 2 ^ (width α - p.len) = 0 := by
    rw [mod_eq_zero_iff hp]
    intro i hi
    rw [bit_network hp]
    have : ¬ i < p.len := by omega
    simp [this]
  have h3 := Nat.div_add_mod (toNat p.network.addr) (2 ^ (width α - p.len))
  rw [h1, h2, Nat.mul_comm] at h3
  omega

theorem toNat_split {p : Prefix α} (hp : p.WF) :
    toNat p.host.addr = toNat p.addr % 2 ^ (width α - p.len) := by
  apply Nat.eq_of_testBit_eq
  intro i
  rw [Nat.testBit_mod_two_pow]
  by_cases hi : i < width α
  · rw [testBit_bit _ hi, testBit_bit _ hi, bit_host hp]
    by_cases h : i < width α - p.len
    · have : ¬ width α - 1 - i < p.len := by omega
      simp [h, this]
    · have : width α - 1 - i < p.len := by omega
      simp [h, this]
  · have h1 : toNat p.host.addr < 2 ^ i :=
      Nat.lt_of_lt_of_le (toNat_lt _) (Nat.pow_le_pow_right (by omega) (by omega))
    have h2 : ¬ i < width α - p.len := by omega
    simp [Nat.testBit_lt_two_pow h1, h2]

theorem toNat_broadcast {p : Prefix α} (hp : p.WF) :
    toNat p.broadcast.addr =
      toNat p.addr / 2 ^ (width α - p.len) * 2 ^ (width α - p.len) + (2 ^ (width α - p.len) - 1) := by
  have h1 : Agree p.len p.broadcast.addr p.addr := by
    intro i hi
    have : p.len ≤ width α := hp
    rw [bit_broadcast hp (by omega)]; simp [hi]
  have h1 := (agree_iff_div hp).mp h1
  have h2 : toNat p.broadcast.addr % 2 ^ (width α - p.len) = 2 ^ (width α - p.len) - 1 := by
    apply Nat.eq_of_testBit_eq
    intro i
    rw [Nat.testBit_mod_two_pow, Nat.testBit_two_pow_sub_one]
    by_cases h : i < width α - p.len
    · rw [testBit_bit _ (by omega), bit_broadcast hp (by omega)]
      have : ¬ width α - 1 - i < p.len := by omega
      simp [h, this]
    · simp [h]
  have h3 := Nat.div_add_mod (toNat p.broadcast.addr) (2 ^ (width α - p.len))
  rw [h1, h2, Nat.mul_comm] at h3
  omega

/-- membership in a prefix is membership in the interval [network, broadcast] -/
theorem covers_iff_range {p : Prefix α} (hp : p.WF) {a : α} :
    Covers p a ↔ toNat p.network.addr ≤ toNat a ∧ toNat a ≤ toNat p.broadcast.addr := by
  rw [Covers, agree_iff_div hp, toNat_network hp, toNat_broadcast hp]
  have hpos : 0 < 2 ^ (width α - p.len) := Nat.pow_pos (by omega)
  generalize 2 ^ (width α - p.len) = k at *
  generalize toNat a = x
  generalize toNat p.addr / k = q
  constructor
  · rintro h
    have h3 := Nat.div_add_mod x k
    have h4 := Nat.mod_lt x hpos
    rw [← h, Nat.mul_comm] at h3
    omega
  · rintro ⟨h1, h2⟩
    symm
    apply Nat.div_eq_of_lt_le
    · exact h1
    · rw [Nat.add_mul]; omega

theorem Covers.self (p : Prefix α) : Covers p p.addr := Agree.refl _ _

theorem covers_network {p : Prefix α} (hp : p.WF) {a : α} : Covers p.network a ↔ Covers p a := by
  constructor
  · intro h; exact (agree_network hp).symm.trans h
  · intro h; exact (agree_network hp).trans h

/-- in a word one can change bits beyond a position freely -/
theorem exists_with_bit (a : α) {n : Nat} (hn : n < width α) (b : Bool) :
    ∃ x : α, Agree n a x ∧ bit x n = b := by
  cases b with
  | false =>
    refine ⟨Prefix.network ⟨a, n⟩ |>.addr, ?_, ?_⟩
    · exact (agree_network (p := ⟨a, n⟩) (Nat.le_of_lt hn)).symm
    · rw [bit_network (p := ⟨a, n⟩) (Nat.le_of_lt hn)]; simp
  | true =>
    refine ⟨Prefix.broadcast ⟨a, n⟩ |>.addr, ?_, ?_⟩
    · intro i hi
      rw [bit_broadcast (p := ⟨a, n⟩) (Nat.le_of_lt hn) (by omega)]
      have : i < n := hi
      simp [this]
    · rw [bit_broadcast (p := ⟨a, n⟩) (Nat.le_of_lt hn) hn]; simp

end
end Addrs

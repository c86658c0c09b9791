import Verif.SetRange
/-
  Bytes, masks and the constructors of addresses, masks and prefixes (packages ipv4, ipv6, ip), with
  the parts of Go's package net they call.

  * A Go `[]byte` / `net.IP` / `net.IPMask` is `Option (List (BitVec 8))`: `none` is the nil slice,
    `some []` an empty non-nil one.
  * A result `(T, error)` is an `Option T`: `none` is "error is non-nil".  Messages are not modelled.
-/
namespace Addrs
open GoWord

/-- Go's `[]byte` (also `net.IP`, `net.IPMask`): `none` is nil -/
abbrev Slice := Option (List (BitVec 8))

/-- Go's `len` on slices: 0 for nil -/
def Slice.len (s : Slice) : Nat := (s.getD []).length

/-! ### package ipv4: addresses -/
namespace V4

/-- ipv4/address.go:26-30 `AddressFromBytes` -/
def addressFromBytes (a b c d : BitVec 8) : BitVec 32 :=
  (a.setWidth 32 <<< 24) ||| (b.setWidth 32 <<< 16) ||| (c.setWidth 32 <<< 8) ||| d.setWidth 32

/-- ipv4/address.go:114-120 `toBytes` -/
def toBytes (ui : BitVec 32) : BitVec 8 × BitVec 8 × BitVec 8 × BitVec 8 :=
  (((ui &&& 0xff000000#32) >>> 24).setWidth 8, ((ui &&& 0xff0000#32) >>> 16).setWidth 8,
   ((ui &&& 0xff00#32) >>> 8).setWidth 8, (ui &&& 0xff#32).setWidth 8)

/-- ipv4/address.go:124-132 `fromSlice` -/
def fromSlice (s : Slice) : Option (BitVec 32) :=
  match s with
  | none => none
  | some [a, b, c, d] => some (addressFromBytes a b c d)
  | some _ => none

/-- ipv4/address.go:20-22 `AddressFromUint32` -/
def addressFromUint32 (ui : BitVec 32) : BitVec 32 := ui
/-- ipv4/address.go:110-112 `Uint32` -/
def uint32 (a : BitVec 32) : BitVec 32 := a
/-- ipv4/address.go:34-36 `AddressFromSlice` -/
def addressFromSlice (s : Slice) : Option (BitVec 32) := fromSlice s

end V4

/-! ### package net (Go standard library, modelled from its source) -/
namespace Net

/-- net.IP.To4 (net/ip.go): a 4-byte slice as it is, the last 4 bytes of a v4-in-v6 address
    (ten zero bytes, 0xff, 0xff), nil otherwise -/
def to4 (ip : Slice) : Slice :=
  match ip with
  | some [a, b, c, d] => some [a, b, c, d]
  | some [z0, z1, z2, z3, z4, z5, z6, z7, z8, z9, f0, f1, a, b, c, d] =>
    if (∀ z ∈ [z0, z1, z2, z3, z4, z5, z6, z7, z8, z9], z = 0#8) ∧ f0 = 0xff#8 ∧ f1 = 0xff#8 then
      some [a, b, c, d]
    else none
  | _ => none

/-- net.IPv4 (net/ip.go): the 16-byte v4-in-v6 form -/
def ipv4 (a b c d : BitVec 8) : Slice :=
  some [0, 0, 0, 0, 0, 0, 0, 0, 0, 0, 0xff#8, 0xff#8, a, b, c, d]

/-- net.CIDRMask (net/ip.go), the loop: `l` bytes with `n` leading ones -/
def cidrBytes : Nat → Nat → List (BitVec 8)
  | 0, _ => []
  | l + 1, n =>
    if 8 ≤ n then 0xff#8 :: cidrBytes l (n - 8)
    else ~~~(0xff#8 >>> n) :: cidrBytes l 0

/-- net.CIDRMask (net/ip.go); `ones` and `bits` are Go `int`s -/
def cidrMask (ones bits : Int) : Slice :=
  if bits ≠ 32 ∧ bits ≠ 128 then none
  else if ones < 0 ∨ bits < ones then none
  else some (cidrBytes (bits.toNat / 8) ones.toNat)

/-- net/ip.go simpleMaskLength, the inner loop `for v&0x80 != 0 { n++; v <<= 1 }`: the count and the
    remaining byte.  It runs at most 8 times since bits are shifted out. -/
def leadOnes : Nat → BitVec 8 → Nat × BitVec 8
  | 0, v => (0, v)
  | k + 1, v => if v &&& 0x80#8 ≠ 0 then ((leadOnes k (v <<< 1)).1 + 1, (leadOnes k (v <<< 1)).2) else (0, v)

/-- net/ip.go simpleMaskLength: `none` is -1 -/
def simpleMaskLength : List (BitVec 8) → Option Nat
  | [] => some 0
  | v :: rest =>
    if v = 0xff#8 then (simpleMaskLength rest).map (· + 8)
    else
      if (leadOnes 8 v).2 ≠ 0 then none
      else if ∀ b ∈ rest, b = 0#8 then some (leadOnes 8 v).1
      else none

/-- net.IPMask.Size (net/ip.go): (ones, bits), or (0, 0) if the mask is not canonical -/
def size (m : Slice) : Nat × Nat :=
  match simpleMaskLength (m.getD []) with
  | some ones => (ones, m.len * 8)
  | none => (0, 0)

end Net

namespace V4

/-- ipv4/address.go:39-41 `AddressFromNetIP` -/
def addressFromNetIP (ip : Slice) : Option (BitVec 32) := fromSlice (Net.to4 ip)

/-- ipv4/address.go:77-80 `ToNetIP` -/
def toNetIP (a : BitVec 32) : Slice :=
  Net.to4 (Net.ipv4 (toBytes a).1 (toBytes a).2.1 (toBytes a).2.2.1 (toBytes a).2.2.2)

end V4

/-! ### package ipv6: addresses -/
namespace V6

/-- ipv6/uint128.go:32-39 (and 40-47): eight bytes, most significant first, as a `uint64` -/
def word64 (a b c d e f g h : BitVec 8) : BitVec 64 :=
  (a.setWidth 64 <<< 56) ||| (b.setWidth 64 <<< 48) ||| (c.setWidth 64 <<< 40) |||
  (d.setWidth 64 <<< 32) ||| (e.setWidth 64 <<< 24) ||| (f.setWidth 64 <<< 16) |||
  (g.setWidth 64 <<< 8) ||| h.setWidth 64

/-- ipv6/uint128.go:25-50 `uint128FromBytes` -/
def uint128FromBytes (s : Slice) : Option U128 :=
  match s with
  | none => none
  | some [s0, s1, s2, s3, s4, s5, s6, s7, s8, s9, s10, s11, s12, s13, s14, s15] =>
    some ⟨word64 s0 s1 s2 s3 s4 s5 s6 s7, word64 s8 s9 s10 s11 s12 s13 s14 s15⟩
  | some _ => none

/-- ipv6/uint128.go:55-62 (and 63-70): the eight bytes of a `uint64` -/
def bytes64 (x : BitVec 64) : List (BitVec 8) :=
  [(0xff#64 &&& (x >>> 56)).setWidth 8, (0xff#64 &&& (x >>> 48)).setWidth 8,
   (0xff#64 &&& (x >>> 40)).setWidth 8, (0xff#64 &&& (x >>> 32)).setWidth 8,
   (0xff#64 &&& (x >>> 24)).setWidth 8, (0xff#64 &&& (x >>> 16)).setWidth 8,
   (0xff#64 &&& (x >>> 8)).setWidth 8, (0xff#64 &&& x).setWidth 8]

/-- ipv6/uint128.go:53-73 `toBytes` -/
def toBytes (a : U128) : List (BitVec 8) := bytes64 a.high ++ bytes64 a.low

/-- ipv6/address.go:19-21 `AddressFromUint64` -/
def addressFromUint64 (high low : BitVec 64) : U128 := ⟨high, low⟩
/-- ipv6/address.go:112-114 `Uint64`, ipv6/uint128.go:76-78 -/
def uint64 (a : U128) : BitVec 64 × BitVec 64 := (a.high, a.low)

/-- ipv6/address.go:24-34 `AddressFromUint16` -/
def addressFromUint16 (a b c d e f g h : BitVec 16) : U128 :=
  ⟨(a.setWidth 64 <<< 48) ||| (b.setWidth 64 <<< 32) ||| (c.setWidth 64 <<< 16) ||| d.setWidth 64,
   (e.setWidth 64 <<< 48) ||| (f.setWidth 64 <<< 32) ||| (g.setWidth 64 <<< 16) ||| h.setWidth 64⟩

/-- ipv6/address.go:118-127 `fromSlice` -/
def fromSlice (s : Slice) : Option U128 :=
  match s with
  | none => none
  | some l => if l.length ≠ 16 then none else uint128FromBytes s

/-- ipv6/address.go:38-40 `AddressFromSlice` -/
def addressFromSlice (s : Slice) : Option U128 := fromSlice s
/-- ipv6/address.go:43-45 `AddressFromNetIP` -/
def addressFromNetIP (ip : Slice) : Option U128 := fromSlice ip
/-- ipv6/address.go:81-83 `ToNetIP` -/
def toNetIP (a : U128) : Slice := some (toBytes a)

end V6

/-! ### masks, both families -/
section
variable {α : Type} [GoWord α]

/-- ipv4/mask.go:65-67, ipv6/mask.go:64-66 `Mask.Length` -/
def maskLength (m : α) : Nat := lz (compl m)

/-- ipv4/mask.go:84-86, ipv6/mask.go:83-85 `valid` -/
def maskValid (m : α) : Bool := maskLength m = pop m

/-- ipv4/mask.go:40-46 `MaskFromUint32`; ipv6/mask.go:39-45 `MaskFromUint64` (with the pair of words as
    argument) -/
def maskFromWord (ui : α) : Option α := if !maskValid ui then none else some ui

/-- ipv4/mask.go:20-26, ipv6/mask.go:19-25 `MaskFromLength`; `length` is a Go `int` -/
def maskFromLength (α : Type) [GoWord α] (length : Int) : Option α :=
  if length < 0 ∨ (width α : Int) < length then none else some (lengthToMask length.toNat)

/-- ipv4/mask.go:49-62, ipv6/mask.go:48-61 `MaskFromNetIPMask` -/
def maskFromNetIPMask (α : Type) [GoWord α] (mask : Slice) : Option α :=
  if (Net.size mask).2 ≠ width α then none
  else
    match maskFromLength α (Net.size mask).1 with
    | none => none
    | some m => if !maskValid m then none else some m

/-- ipv4/mask.go:70-72, ipv6/mask.go:69-71 `ToNetIPMask` -/
def toNetIPMask (m : α) : Slice := Net.cidrMask (maskLength m) (width α)

/-- ipv4/prefix.go:53-58, ipv6/prefix.go:53-58 `PrefixFromAddressMask` -/
def prefixFromAddressMask (a m : α) : Prefix α := ⟨a, maskLength m⟩

end

/-- ipv4/mask.go:30-36 `MaskFromBytes` -/
def V4.maskFromBytes (a b c d : BitVec 8) : Option (BitVec 32) :=
  if !maskValid (V4.addressFromBytes a b c d) then none else some (V4.addressFromBytes a b c d)

/-- ipv6/mask.go:39-45 `MaskFromUint64` -/
def V6.maskFromUint64 (high low : BitVec 64) : Option U128 := maskFromWord ⟨high, low⟩

/-- ipv6/mask.go:29-35 `MaskFromUint16` -/
def V6.maskFromUint16 (a b c d e f g h : BitVec 16) : Option U128 :=
  maskFromWord (V6.addressFromUint16 a b c d e f g h)

/-- ipv4/prefix.go:202-206 `Prefix.Uint32` (with ipv4/mask.go:80-82 `Mask.Uint32`) -/
def V4.prefixUint32 (p : Prefix (BitVec 32)) : BitVec 32 × BitVec 32 := (V4.uint32 p.addr, p.mask)

/-- ipv6/prefix.go:183-187 `Prefix.Uint64` (with ipv6/mask.go:79-81 `Mask.Uint64`) -/
def V6.prefixUint64 (p : Prefix U128) : BitVec 64 × BitVec 64 × BitVec 64 × BitVec 64 :=
  ((V6.uint64 p.addr).1, (V6.uint64 p.addr).2, (V6.uint64 p.mask).1, (V6.uint64 p.mask).2)

/-- Go's `net.IPNet{IP, Mask}` -/
structure IPNet where
  ip : Slice
  mask : Slice
deriving DecidableEq, Repr

/-- ipv4/prefix.go:34-50 `PrefixFromNetIPNet`; the argument is a pointer, nil is `none` -/
def V4.prefixFromNetIPNet (net : Option IPNet) : Option (Prefix (BitVec 32)) :=
  match net with
  | none => none
  | some n =>
    if (Net.size n.mask).2 ≠ 32 then none
    else (V4.addressFromNetIP n.ip).map fun addr => ⟨addr, (Net.size n.mask).1⟩

/-- ipv4/prefix.go:95-100 `ToNetIPNet` -/
def V4.toNetIPNet (p : Prefix (BitVec 32)) : Option IPNet :=
  some ⟨V4.toNetIP p.addr, Net.cidrMask p.len 32⟩

/-- ipv6/prefix.go:34-50 `PrefixFromNetIPNet` -/
def V6.prefixFromNetIPNet (net : Option IPNet) : Option (Prefix U128) :=
  match net with
  | none => none
  | some n =>
    if (Net.size n.mask).2 ≠ 128 then none
    else (V6.addressFromNetIP n.ip).map fun addr => ⟨addr, (Net.size n.mask).1⟩

/-- ipv6/prefix.go:95-100 `ToNetIPNet` -/
def V6.toNetIPNet (p : Prefix U128) : Option IPNet :=
  some ⟨V6.toNetIP p.addr, Net.cidrMask p.len 128⟩

/-! ### package ip -/
namespace IP

/-- a value of one of the two families, or another dynamic type / nil interface (`other`).
    ip/address.go:12-16, ip/mask.go:12-16, ip/prefix.go:13-17, ip/range.go:11-13 -/
inductive Dyn (A B : Type) where
  | v4 (a : A)
  | v6 (b : B)
  | other
deriving DecidableEq, Repr

abbrev Address := Dyn (BitVec 32) U128
abbrev Mask := Dyn (BitVec 32) U128
abbrev Pfx := Dyn (Prefix (BitVec 32)) (Prefix U128)
abbrev Rng := Dyn (Range (BitVec 32)) (Range U128)

/-- ip/address.go:31-40 `AddressFromNetIP` -/
def addressFromNetIP (ip : Slice) : Option Address :=
  if ip.len = 16 then (V6.addressFromNetIP ip).map .v6
  else if ip.len = 4 then (V4.addressFromNetIP ip).map .v4
  else none

/-- ip/address.go:45-54 `PrefixFromAddress`; nil is `other` -/
def prefixFromAddress (a : Address) : Pfx :=
  match a with
  | .v4 a => .v4 (Prefix.ofAddress a)
  | .v6 a => .v6 (Prefix.ofAddress a)
  | .other => .other

/-- ip/mask.go:21-36 `MaskFromNetIPMask`.  (`Size` never returns negative numbers, so the first check
    of the code is always passed.) -/
def maskFromNetIPMask (mask : Slice) : Option Mask :=
  if (Net.size mask).1 > (Net.size mask).2 then none
  else if (Net.size mask).2 = 8 * 16 then (maskFromLength U128 (Net.size mask).1).map .v6
  else if (Net.size mask).2 = 8 * 4 then (maskFromLength (BitVec 32) (Net.size mask).1).map .v4
  else none

/-- ip/prefix.go:22-38 `PrefixFromAddressMask` -/
def prefixFromAddressMask (a : Address) (m : Mask) : Option Pfx :=
  match a, m with
  | .v6 a, .v6 m => some (.v6 (Addrs.prefixFromAddressMask a m))
  | .v6 _, _ => none
  | .v4 a, .v4 m => some (.v4 (Addrs.prefixFromAddressMask a m))
  | .v4 _, _ => none
  | .other, _ => none

/-- ip/prefix.go:47-59 `PrefixFromNetIPNet` -/
def prefixFromNetIPNet (n : Option IPNet) : Option Pfx :=
  match n with
  | none => none
  | some ipn =>
    if ipn.ip.len = 16 then (V6.prefixFromNetIPNet n).map .v6
    else if ipn.ip.len = 4 then (V4.prefixFromNetIPNet n).map .v4
    else none

/-- ip/prefix.go:63-72 `AddressFromPrefix` -/
def addressFromPrefix (p : Pfx) : Address :=
  match p with
  | .v4 p => .v4 p.addr
  | .v6 p => .v6 p.addr
  | .other => .other

/-- ip/prefix.go:76-85 `MaskFromPrefix` -/
def maskFromPrefix (p : Pfx) : Mask :=
  match p with
  | .v4 p => .v4 p.mask
  | .v6 p => .v6 p.mask
  | .other => .other

/-- ip/prefix.go:89-98 `RangeFromPrefix` -/
def rangeFromPrefix (p : Pfx) : Rng :=
  match p with
  | .v4 p => .v4 p.range
  | .v6 p => .v6 p.range
  | .other => .other

/-- ip/range.go:18-36 `RangeFromAddresses`: range and `empty`, or an error -/
def rangeFromAddresses (first last : Address) : Option (Rng × Bool) :=
  match first, last with
  | .v6 f, .v6 l => some (.v6 (Range.fromAddresses f l).1, (Range.fromAddresses f l).2)
  | .v6 _, _ => none
  | .v4 f, .v4 l => some (.v4 (Range.fromAddresses f l).1, (Range.fromAddresses f l).2)
  | .v4 _, _ => none
  | .other, _ => none

/-- ip/range.go:40-49 `FirstFromRange` -/
def firstFromRange (r : Rng) : Address :=
  match r with
  | .v4 r => .v4 r.first
  | .v6 r => .v6 r.first
  | .other => .other

/-- ip/range.go:53-62 `LastFromRange` -/
def lastFromRange (r : Rng) : Address :=
  match r with
  | .v4 r => .v4 r.last
  | .v6 r => .v6 r.last
  | .other => .other

end IP
end Addrs

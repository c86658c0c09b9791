import Verif.SetNode
/-
  The public type `Set` (ipv4/set.go, ipv6/set.go) and the methods of Address, Prefix and Range that
  go through it.
-/
namespace Addrs
open GoWord

/-- how a Go call can end -/
inductive Out (β : Type) where
  | ok (b : β)
  | err
  | panic
deriving DecidableEq, Repr

/-- ipv4/set.go:149-151, ipv6/set.go:160-162 `type Set struct { trie *setNode }` -/
structure IPSet (α : Type) where
  trie : SetNode α
deriving DecidableEq

/-- The arguments of interface type `SetI` (ipv4/set.go:153-158): nil, an Address, a Prefix, a Range
    or a Set.  A `Set_` argument is read once through its method `Set` (ipv4/set.go:27-34). -/
inductive SetI (α : Type) where
  | nil
  | address (a : α)
  | «prefix» (p : Prefix α)
  | range (r : Range α)
  | set (s : IPSet α)

namespace SetNode
/-- ipv4/node.go:243-255 `NumAddresses` (ipv4/setnode.go:284-286), an int64 (two's complement, here `BitVec 64`) -/
def numAddresses : SetNode (BitVec 32) → BitVec 64
  | .nil => 0#64
  | .node p _ _ _ act l r =>
    if act then (compl p.mask).setWidth 64 + 1#64
    else numAddresses l + numAddresses r
end SetNode

/-- The two packages differ in how they test for emptiness. -/
class IPFamily (α : Type) extends LawfulGoWord α where
  isEmptyNode : SetNode α → Bool

/-- ipv4/set.go:196-198 `IsEmpty`: `NumAddresses() == 0` -/
instance : IPFamily (BitVec 32) where
  isEmptyNode t := decide (SetNode.numAddresses t = 0#64)

/-- ipv6/set.go:192-194 `IsEmpty` -/
instance : IPFamily U128 where
  isEmptyNode t := SetNode.isEmpty t

namespace SetI
variable {α : Type} [GoWord α]
/-- `other.Set()`: ipv4/address.go:94-96, ipv4/prefix.go:249-253, ipv4/range.go:101-105,
    ipv4/set.go:191-193; nil is replaced by `Set{}` first (e.g. ipv4/set.go:311-313) -/
def toSet : SetI α → IPSet α
  | .nil => ⟨.nil⟩
  | .address a => ⟨SetNode.fromPrefix (Prefix.ofAddress a)⟩
  | .prefix p => ⟨SetNode.fromPrefix p⟩
  | .range r => ⟨SetNode.fromRange r⟩
  | .set s => s
end SetI

namespace IPSet
section
variable {α : Type} [GoWord α]

/-- the zero value `Set{}` -/
def empty : IPSet α := ⟨.nil⟩

/-- ipv4/set.go:310-317 `Union` -/
def union (s : IPSet α) (o : SetI α) : IPSet α := ⟨SetNode.union s.trie o.toSet.trie⟩
/-- ipv4/set.go:320-327 `Intersection` -/
def intersection (s : IPSet α) (o : SetI α) : IPSet α := ⟨SetNode.intersect s.trie o.toSet.trie⟩
/-- ipv4/set.go:331-338 `Difference` -/
def difference (s : IPSet α) (o : SetI α) : IPSet α := ⟨SetNode.difference s.trie o.toSet.trie⟩
/-- ipv4/set.go:296-298 `Equal` -/
def equal (s t : IPSet α) : Bool := SetNode.equal s.trie t.trie

/-- ipv4/set.go:212-216 `WalkPrefixes`; the callback may keep state `σ` and returns whether to go on -/
def walkPrefixes {σ : Type} (s : IPSet α) (cb : Prefix α → σ → σ × Bool) (st : σ) : σ × Bool :=
  Trie.walk (fun p _ st => cb p st) s.trie st

/-- ipv4/set.go:268-293 `WalkRanges`.  The local variable `ranges` is part of the state. -/
def walkRanges {σ : Type} (s : IPSet α) (cb : Range α → σ → σ × Bool) (st : σ) : σ × Bool :=
  let step (p : Prefix α) (x : List (Range α) × σ) : (List (Range α) × σ) × Bool :=
    let ranges := match x.1 with
      | [] => [p.range]
      | r :: _ => p.range.plus r
    match ranges with
    | [a, b] =>
      match cb a x.2 with
      | (st', false) => ((ranges, st'), false)
      | (st', true) => (([b], st'), true)
    | _ => ((ranges, x.2), true)
  match s.walkPrefixes step ([], st) with
  | ((_, st'), false) => (st', false)
  | ((ranges, st'), true) =>
    match ranges with
    | [a] =>
      match cb a st' with
      | (st'', false) => (st'', false)
      | (st'', true) => (st'', true)
    | _ => (st', true)

/-- ipv4/set.go:348-358 `FindAvailablePrefix`: `reserved.Set()` on a nil interface panics -/
def findAvailablePrefix (s : IPSet α) (reserved : SetI α) (length : Nat) : Out (Prefix α) :=
  match reserved with
  | .nil => .panic
  | o =>
    match SetNode.findSmallestReserved length s.trie o.toSet.trie with
    | none => .err
    | some p => .ok ⟨p.network.addr, length⟩
end

section
variable {α : Type} [IPFamily α]

/-- ipv4/set.go:196-198, ipv6/set.go:192-194 `IsEmpty` -/
def isEmpty (s : IPSet α) : Bool := IPFamily.isEmptyNode s.trie

/-- ipv4/set.go:301-307, ipv6/set.go:289-295 `Contains` -/
def contains (s : IPSet α) (o : SetI α) : Bool := (o.toSet.difference (.set s)).isEmpty
end

/-- ipv4/set.go:201-203 `NumAddresses` (ipv4 only) -/
def numAddresses (s : IPSet (BitVec 32)) : BitVec 64 := SetNode.numAddresses s.trie

end IPSet

/-! ### counting prefixes -/

/-- ipv4/prefix.go:183-193 `Prefix.NumPrefixes`: `(count, err ≠ nil)`; `math.Pow(2, k)` is exact for
    `k ≤ 32` and so is its conversion to uint64 -/
def Prefix.numPrefixes4 (p : Prefix (BitVec 32)) (length : Nat) : BitVec 64 × Bool :=
  if 32 < length then (0#64, true)
  else if length < p.len then (0#64, false)
  else (BitVec.ofNat 64 (2 ^ (length - p.len)), false)

/-- ipv6/prefix.go:122-134 `Prefix.NumPrefixes`; `math.Pow(2, k)` is exact for `k ≤ 63` -/
def Prefix.numPrefixes6 (p : Prefix U128) (length : Nat) : BitVec 64 × Bool :=
  if 128 < length then (0#64, true)
  else if length < p.len then (0#64, false)
  else if 63 < length - p.len then (0#64, true)
  else (BitVec.ofNat 64 (2 ^ (length - p.len)), false)

/-- ipv4/set.go:250-259 `Set.NumPrefixes`: errors of the parts are ignored, `err` is never set -/
def IPSet.numPrefixes4 (s : IPSet (BitVec 32)) (length : Nat) : BitVec 64 × Bool :=
  let step (p : Prefix (BitVec 32)) (count : BitVec 64) : BitVec 64 × Bool :=
    (count + (p.numPrefixes4 length).1, true)
  ((s.walkPrefixes step 0#64).1, false)

/-- ipv6/set.go:230-247 `Set.NumPrefixes` -/
def IPSet.numPrefixes6 (s : IPSet U128) (length : Nat) : BitVec 64 × Bool :=
  let step (p : Prefix U128) (x : BitVec 64 × Bool) : (BitVec 64 × Bool) × Bool :=
    let c := p.numPrefixes6 length
    if c.2 then ((x.1, true), false)
    else if (BitVec.allOnes 64 - c.1).toNat < x.1.toNat then ((x.1, true), false)
    else ((x.1 + c.1, x.2), true)
  (s.walkPrefixes step (0#64, false)).1

/-- ipv4/range.go:33-35 `Range.NumPrefixes` -/
def Range.numPrefixes4 (r : Range (BitVec 32)) (length : Nat) : BitVec 64 × Bool :=
  (SetI.range r).toSet.numPrefixes4 length
/-- ipv6/range.go:52-54 `Range.NumPrefixes` -/
def Range.numPrefixes6 (r : Range U128) (length : Nat) : BitVec 64 × Bool :=
  (SetI.range r).toSet.numPrefixes6 length
/-- ipv4/prefix.go:176-179 `Prefix.NumAddresses` -/
def Prefix.numAddresses (p : Prefix (BitVec 32)) : BitVec 64 := (p.numPrefixes4 32).1
/-- ipv4/range.go:38-41 `Range.NumAddresses` -/
def Range.numAddresses (r : Range (BitVec 32)) : BitVec 64 := (r.numPrefixes4 32).1

/-- ipv4/prefix.go:170-172 `Prefix.Contains` -/
def Prefix.contains {α : Type} [IPFamily α] (p : Prefix α) (o : SetI α) : Bool :=
  (SetI.prefix p).toSet.contains o
/-- ipv4/range.go:58-60 `Range.Contains` -/
def Range.contains {α : Type} [IPFamily α] (r : Range α) (o : SetI α) : Bool :=
  (SetI.range r).toSet.contains o

/-! ### walking addresses (ipv4 only) -/

/-- ipv4/prefix.go:213-220 `walkAddresses`: the loop `for a := lo; a <= hi; a++` run for at most
    `fuel` iterations.  The second component is the result, `none` if the loop is still running. -/
def walkAddrLoop {σ : Type} (cb : BitVec 32 → σ → σ × Bool) (hi : BitVec 32) :
    Nat → BitVec 32 → σ → σ × Option Bool
  | 0, _, st => (st, none)
  | fuel + 1, a, st =>
    if hi.toNat < a.toNat then (st, some true)
    else
      match cb a st with
      | (st', false) => (st', some false)
      | (st', true) => walkAddrLoop cb hi fuel (a + 1#32) st'

/-- ipv4/prefix.go:213-220 `walkAddresses` -/
def Prefix.walkAddresses {σ : Type} (p : Prefix (BitVec 32)) (fuel : Nat)
    (cb : BitVec 32 → σ → σ × Bool) (st : σ) : σ × Option Bool :=
  walkAddrLoop cb p.broadcast.addr fuel p.network.addr st

/-- ipv4/set.go:242-246 `WalkAddresses`.  `fuel` bounds the iterations of each prefix's loop; a loop
    that does not end keeps `WalkAddresses` from returning (`none`). -/
def IPSet.walkAddresses {σ : Type} (s : IPSet (BitVec 32)) (fuel : Nat)
    (cb : BitVec 32 → σ → σ × Bool) (st : σ) : σ × Option Bool :=
  let step (p : Prefix (BitVec 32)) (x : σ × Bool) : (σ × Bool) × Bool :=
    match p.walkAddresses fuel cb x.1 with
    | (st', none) => ((st', true), false)
    | (st', some b) => ((st', false), b)
  match s.walkPrefixes step (st, false) with
  | ((st', true), _) => (st', none)
  | ((st', false), b) => (st', some b)

end Addrs

import Verif.HeapNode
import Verif.SetNode
import Verif.SetApi
/-
  setnode.go as code on the heap (layer 4).
-/
set_option linter.unusedSectionVars false
namespace Addrs
namespace Heap
open Prog GoWord
variable {α : Type} [GoWord α]

/-- code on `setNode`s, ipv4/setnode.go:13 -/
abbrev SProg (α β : Type) := Prog α Empty β

/-- ipv4/setnode.go:15-22 `setNodeFromPrefix` -/
def fromPrefix (p : Prefix α) : SProg α Ptr := do
  let n ← new ⟨p, none, 1, 1, true, none, none⟩
  pure (some n)

/-- ipv4/node.go:334-362 `flatten`: the new fields of the node -/
def flatten (me : Cell α Empty) : SProg α (Cell α Empty) :=
  if me.active then pure { me with l := none, r := none }
  else
    match me.l, me.r with
    | some l, some r => do
      let lc ← deref (some l)
      let rc ← deref (some r)
      if lc.pfx.len ≠ rc.pfx.len then pure me
      else if lc.pfx.len ≠ me.pfx.len + 1 then pure me
      else if !lc.active || !rc.active then pure me
      else pure { me with l := none, r := none, active := true }
    | _, _ => panic

/-- ipv4/setnode.go:114-128, 146-160, 171-185: `newHead := &setNode{…}` and
    `newHead.mutate(func(n) { n.flatten() })` -/
def newFlat (p : Prefix α) (l r : Ptr) : SProg α Ptr := do
  let newHead ← new ⟨p, none, 0, 0, false, l, r⟩
  mutate newHead fun n => do
    let n ← flatten n
    pure (n, ())
  pure (some newHead)

/-- ipv4/setnode.go:89-187 `Union` -/
def union : Nat → Ptr → Ptr → SProg α Ptr
  | 0, _, _ => stuck
  | fuel + 1, me, other =>
    if me = other then pure me
    else
      match me, other with
      | me, none => pure me
      | none, other => pure other
      | some a, some b => do
        let c ← deref (some a)
        let d ← deref (some b)
        match compareP c.pfx d.pfx with
        | (.same, _, _, _) =>
          if c.active then pure (some a)
          else if d.active then pure (some b)
          else do
            let left ← union fuel c.l d.l
            let right ← union fuel c.r d.r
            if left = c.l && right = c.r then pure (some a)
            else newFlat c.pfx left right
        | (.disjoint, reversed, common, child) =>
          let np : Prefix α := ⟨and c.pfx.addr (compl (shr ones common)), common⟩
          if child != reversed then newFlat np (some a) (some b) else newFlat np (some b) (some a)
        | (_, reversed, _, child) =>
          let (super, sub) := if reversed then ((d, some b), some a) else ((c, some a), some b)
          if super.1.active then pure super.2
          else if child then do
            let right ← union fuel super.1.r sub
            newFlat super.1.pfx super.1.l right
          else do
            let left ← union fuel super.1.l sub
            newFlat super.1.pfx left super.1.r

/-- ipv4/setnode.go:24-47 `setNodeFromRange` -/
def fromRange : Nat → Range α → SProg α Ptr
  | 0, _ => stuck
  | fuel + 1, r =>
    let x := xor r.first r.last
    let numCommonBits := lz x
    if numCommonBits = pop (compl x) then fromPrefix ⟨r.first, numCommonBits⟩
    else do
      let pivot := and r.first (shl ones (width α - numCommonBits))
      let pivot := or pivot (shr top numCommonBits)
      let a ← fromRange fuel ⟨r.first, sub1 pivot⟩
      let b ← fromRange fuel ⟨pivot, r.last⟩
      union fuel a b

/-- ipv4/setnode.go:198-248 `Difference` -/
def difference : Nat → Ptr → Ptr → SProg α Ptr
  | 0, _, _ => stuck
  | fuel + 1, me, other =>
    match me, other with
    | none, _ => pure none
    | some a, none => pure (some a)
    | some a, some b => do
      let c ← deref (some a)
      let d ← deref (some b)
      let inner : SProg α Ptr := do
        let left ← difference fuel c.l (some b)
        let right ← difference fuel c.r (some b)
        if left = c.l && right = c.r then pure (some a)
        else union fuel left right
      match compareP c.pfx d.pfx with
      | (.isContained, _, _, child) =>
        if d.active then pure none
        else difference fuel (some a) (Cell.child d child)
      | (.disjoint, _, _, _) => pure (some a)
      | (.same, _, _, _) =>
        if !c.active then inner
        else if d.active then pure none
        else do
          let x ← fromPrefix c.pfx.halves.1
          let y ← fromPrefix c.pfx.halves.2
          let x ← difference fuel x d.l
          let y ← difference fuel y d.r
          union fuel x y
      | (.contains, _, _, child) =>
        if !c.active then inner
        else do
          let x ← fromPrefix c.pfx.halves.1
          let y ← fromPrefix c.pfx.halves.2
          let (whole, part) := if child then (x, y) else (y, x)
          let part ← difference fuel part (some b)
          union fuel whole part

/-- ipv4/setnode.go:251-275 `Intersect` -/
def intersect : Nat → Ptr → Ptr → SProg α Ptr
  | 0, _, _ => stuck
  | fuel + 1, me, other =>
    match me, other with
    | none, _ => pure none
    | some _, none => pure none
    | some a, some b => do
      let c ← deref (some a)
      let d ← deref (some b)
      match compareP c.pfx d.pfx with
      | (.disjoint, _, _, _) => pure none
      | (_, reversed, _, _) =>
        if !c.active then do
          let x ← intersect fuel (some b) c.l
          let y ← intersect fuel (some b) c.r
          union fuel x y
        else if !d.active then do
          let x ← intersect fuel (some a) d.l
          let y ← intersect fuel (some a) d.r
          union fuel x y
        else if reversed then pure (some a)
        else pure (some b)

/-- ipv4/setnode.go:277-281 `Equal` -/
def setEqual (fuel : Nat) (a b : Ptr) : SProg α Bool := equal (fun _ _ => some true) fuel a b

/-- ipv4/node.go:243-255 `NumAddresses` -/
def numAddresses : Nat → Ptr → SProg (BitVec 32) (BitVec 64)
  | 0, _ => stuck
  | _ + 1, none => pure 0#64
  | fuel + 1, some a => do
    let c ← deref (some a)
    if c.active then pure ((compl c.pfx.mask).setWidth 64 + 1#64)
    else do
      let x ← numAddresses fuel c.l
      let y ← numAddresses fuel c.r
      pure (x + y)

/-- ipv6/node.go:243-251 `IsEmpty` -/
def isEmpty : Nat → Ptr → SProg α Bool
  | 0, _ => stuck
  | _ + 1, none => pure true
  | fuel + 1, some a => do
    let c ← deref (some a)
    if c.active then pure false
    else do
      let x ← isEmpty fuel c.l
      if !x then pure false else isEmpty fuel c.r

/-- ipv4/setnode.go:301-323 `best`; an error is `none`.  The right side is only evaluated if needed. -/
def best (l r : SProg α (Option (Prefix α))) (length : Nat) : SProg α (Option (Prefix α)) := do
  let lp ← l
  match lp with
  | some lp =>
    if lp.len = length then pure (some lp)
    else do
      let rp ← r
      match rp with
      | some rp => if lp.len < rp.len then pure (some rp) else pure (some lp)
      | none => pure (some lp)
  | none => do
    let rp ← r
    match rp with
    | some rp => pure (some rp)
    | none => pure none

/-- ipv4/setnode.go:325-348 `findSmallestContainingPrefix` -/
def findSmallest (length : Nat) : Nat → Ptr → SProg α (Option (Prefix α))
  | 0, _ => stuck
  | _ + 1, none => pure none
  | fuel + 1, some a => do
    let c ← deref (some a)
    if length < c.pfx.len then pure none
    else if length = c.pfx.len ∧ c.active = true then pure (some c.pfx)
    else do
      let b ← best (findSmallest length fuel c.l) (findSmallest length fuel c.r) length
      match b with
      | some b => pure (some b)
      | none => if !c.active then pure none else pure (some c.pfx)

/-- ipv4/setnode.go:350-406 `FindSmallestContainingPrefix` -/
def findSmallestReserved (length : Nat) : Nat → Ptr → Ptr → SProg α (Option (Prefix α))
  | 0, _, _ => stuck
  | _ + 1, none, _ => pure none
  | fuel + 1, some a, reserved => do
    let c ← deref (some a)
    if length < c.pfx.len then pure none
    else
      match reserved with
      | none => findSmallest length fuel (some a)
      | some b => do
        let d ← deref (some b)
        let inner : SProg α (Option (Prefix α)) :=
          best (findSmallestReserved length fuel c.l (some b))
            (findSmallestReserved length fuel c.r (some b)) length
        match compareP c.pfx d.pfx with
        | (.isContained, _, _, child) =>
          if d.active then pure none
          else findSmallestReserved length fuel (some a) (Cell.child d child)
        | (.disjoint, _, _, _) => findSmallest length fuel (some a)
        | (.same, _, _, _) =>
          if !c.active then inner
          else if d.active then pure none
          else do
            let x ← fromPrefix c.pfx.halves.1
            let y ← fromPrefix c.pfx.halves.2
            best (findSmallestReserved length fuel x d.l) (findSmallestReserved length fuel y d.r) length
        | (.contains, _, _, child) =>
          if !c.active then inner
          else do
            let x ← fromPrefix c.pfx.halves.1
            let y ← fromPrefix c.pfx.halves.2
            let (whole, part) := if child then (x, y) else (y, x)
            best (findSmallest length fuel whole) (findSmallestReserved length fuel part (some b)) length

end Heap
end Addrs

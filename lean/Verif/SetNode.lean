import Verif.Trie
/-
  setnode.go as functions on immutable trees (layer 3).
-/
namespace Addrs
open GoWord

/-- ipv4/setnode.go:13 `type setNode trieNode`: a trie without values -/
abbrev SetNode (α : Type) := Trie α Empty

namespace SetNode
open Trie
variable {α : Type} [GoWord α]

/-- ipv4/setnode.go:15-22 `setNodeFromPrefix` -/
def fromPrefix (p : Prefix α) : SetNode α := .node p none 1 1 true .nil .nil

/-- ipv4/setnode.go:89-187 `Union` (pointer shortcuts of lines 90-92 and 111-113 are in layer 4) -/
def union : SetNode α → SetNode α → SetNode α
  | a, .nil => a
  | .nil, b => b
  | .node p d n m act l r, .node q e n' m' act' l' r' =>
    match compareP p q with
    | (.same, _, _, _) =>
      if act then .node p d n m act l r
      else if act' then .node q e n' m' act' l' r'
      else mkFlat p (union l l') (union r r')
    | (.disjoint, reversed, common, child) =>
      let a : SetNode α := .node p d n m act l r
      let b : SetNode α := .node q e n' m' act' l' r'
      -- zero out bits not in common (line 174)
      let np : Prefix α := ⟨and p.addr (compl (shr ones common)), common⟩
      if child != reversed then mkFlat np a b else mkFlat np b a
    | (_, reversed, _, child) =>
      if reversed then
        -- super = other, sub = me
        if act' then .node q e n' m' act' l' r'
        else if child then mkFlat q l' (union r' (.node p d n m act l r))
        else mkFlat q (union l' (.node p d n m act l r)) r'
      else
        if act then .node p d n m act l r
        else if child then mkFlat p l (union r (.node q e n' m' act' l' r'))
        else mkFlat p (union l (.node q e n' m' act' l' r')) r
termination_by a b => a.nodes + b.nodes
decreasing_by all_goals simp only [nodes]; omega

/-- ipv4/setnode.go:24-47 `setNodeFromRange`.  Go recurses without a bound; the bound `fuel` is the
    number of remaining recursion levels.  `fromRange` supplies more than is ever needed for a valid
    range (theorem `fromRange_spec`). -/
def fromRangeAux : Nat → Range α → SetNode α
  | 0, _ => .nil
  | fuel + 1, r =>
    let x := xor r.first r.last
    let numCommonBits := lz x
    if numCommonBits = pop (compl x) then fromPrefix ⟨r.first, numCommonBits⟩
    else
      let pivot := and r.first (shl ones (width α - numCommonBits))
      let pivot := or pivot (shr top numCommonBits)
      let a := fromRangeAux fuel ⟨r.first, sub1 pivot⟩
      let b := fromRangeAux fuel ⟨pivot, r.last⟩
      union a b

/-- ipv4/setnode.go:24-47 `setNodeFromRange` -/
def fromRange (r : Range α) : SetNode α := fromRangeAux (width α + 1) r

/-- only for the termination of the two functions below: how often a prefix can be halved -/
def splits : SetNode α → Nat
  | .nil => 0
  | .node p .. => width α - p.len

theorem splits_le (a : SetNode α) : splits a ≤ width α := by
  cases a <;> simp only [splits] <;> omega

theorem splits_lt {a b : SetNode α} {x y : Nat} (h : x < y) : x * (width α + 1) + splits a < y * (width α + 1) + splits b := by
  have h1 := splits_le a
  have h2 := Nat.mul_le_mul_right (width α + 1) (Nat.succ_le_of_lt h)
  rw [Nat.succ_mul] at h2
  omega

theorem splits_half {p q : Prefix α} {a : SetNode α} {x y : Nat} (ha : splits a = width α - p.len) (hq : q.len = p.len + 1)
    (h : p.len < width α) (hx : x ≤ y) : x * (width α + 1) + splits (fromPrefix q) < y * (width α + 1) + splits a := by
  have h2 := Nat.mul_le_mul_right (width α + 1) hx
  simp only [splits, fromPrefix] at *
  omega

theorem half_len {p : Prefix α} (h : p.len < width α) : p.halves.1.len = p.len + 1 ∧ p.halves.2.len = p.len + 1 := by
  simp only [Prefix.halves, h, if_true, and_self]

/-- ipv4/setnode.go:198-248 `Difference`.  `Halves` of a full-length prefix (which Go would answer
    with two zero prefixes, and then possibly never return) is only reached on malformed tries; the
    branch `p.len < width` excludes it here and layer 4 proves it is never taken. -/
def difference : SetNode α → SetNode α → SetNode α
  | .nil, _ => .nil
  | a, .nil => a
  | .node p d n m act l r, .node q e n' m' act' l' r' =>
    match compareP p q with
    | (.isContained, _, _, child) =>
      if act' then .nil
      else if child then difference (.node p d n m act l r) r'
      else difference (.node p d n m act l r) l'
    | (.disjoint, _, _, _) => .node p d n m act l r
    | (.same, _, _, _) =>
      if !act then
        union (difference l (.node q e n' m' act' l' r')) (difference r (.node q e n' m' act' l' r'))
      else if act' then .nil
      else if p.len < width α then
        union (difference (fromPrefix p.halves.1) l') (difference (fromPrefix p.halves.2) r')
      else .nil
    | (.contains, _, _, child) =>
      if !act then
        union (difference l (.node q e n' m' act' l' r')) (difference r (.node q e n' m' act' l' r'))
      else if h : p.len < width α then
        if child then
          union (fromPrefix p.halves.1)
            (difference (fromPrefix p.halves.2) (.node q e n' m' act' l' r'))
        else
          union (fromPrefix p.halves.2)
            (difference (fromPrefix p.halves.1) (.node q e n' m' act' l' r'))
      else .nil
termination_by a b => (a.nodes + b.nodes) * (width α + 1) + splits a
decreasing_by
  all_goals first
    | exact splits_lt (by simp only [nodes]; omega)
    | exact splits_lt (by simp only [nodes, fromPrefix]; omega)
    | exact splits_half rfl (half_len h).1 h (by simp only [nodes, fromPrefix]; omega)
    | exact splits_half rfl (half_len h).2 h (by simp only [nodes, fromPrefix]; omega)

/-- ipv4/setnode.go:251-275 `Intersect` -/
def intersect : SetNode α → SetNode α → SetNode α
  | .nil, _ => .nil
  | _, .nil => .nil
  | .node p d n m act l r, .node q e n' m' act' l' r' =>
    match compareP p q with
    | (.disjoint, _, _, _) => .nil
    | (_, reversed, _, _) =>
      if !act then
        union (intersect (.node q e n' m' act' l' r') l) (intersect (.node q e n' m' act' l' r') r)
      else if !act' then
        union (intersect (.node p d n m act l r) l') (intersect (.node p d n m act l r) r')
      else if reversed then .node p d n m act l r
      else .node q e n' m' act' l' r'
termination_by a b => a.nodes + b.nodes
decreasing_by all_goals simp only [nodes]; omega

/-- ipv4/setnode.go:277-281 `Equal` -/
def equal (a b : SetNode α) : Bool := Trie.equal (fun _ _ => true) a b

/-- ipv6/node.go:243-251 `IsEmpty`, ipv6/setnode.go:282-284 -/
def isEmpty : SetNode α → Bool
  | .nil => true
  | .node _ _ _ _ act l r => if act then false else isEmpty l && isEmpty r

/-- ipv4/setnode.go:301-323 `best`; an error is `none` -/
def best (l r : Option (Prefix α)) (length : Nat) : Option (Prefix α) :=
  match l with
  | some lp =>
    if lp.len = length then some lp
    else
      match r with
      | some rp => if lp.len < rp.len then some rp else some lp
      | none => some lp
  | none =>
    match r with
    | some rp => some rp
    | none => none

/-- ipv4/setnode.go:325-348 `findSmallestContainingPrefix` -/
def findSmallest (length : Nat) : SetNode α → Option (Prefix α)
  | .nil => none
  | .node p _ _ _ act l r =>
    if length < p.len then none
    else if length = p.len ∧ act then some p
    else
      match best (findSmallest length l) (findSmallest length r) length with
      | some b => some b
      | none => if !act then none else some p

/-- ipv4/setnode.go:350-406 `FindSmallestContainingPrefix`; `h : p.len < width` as in `difference` -/
def findSmallestReserved (length : Nat) : SetNode α → SetNode α → Option (Prefix α)
  | .nil, _ => none
  | .node p d n m act l r, reserved =>
    if length < p.len then none
    else
      match reserved with
      | .nil => findSmallest length (.node p d n m act l r)
      | .node q e n' m' act' l' r' =>
        match compareP p q with
        | (.isContained, _, _, child) =>
          if act' then none
          else if child then findSmallestReserved length (.node p d n m act l r) r'
          else findSmallestReserved length (.node p d n m act l r) l'
        | (.disjoint, _, _, _) => findSmallest length (.node p d n m act l r)
        | (.same, _, _, _) =>
          if !act then
            best (findSmallestReserved length l (.node q e n' m' act' l' r'))
              (findSmallestReserved length r (.node q e n' m' act' l' r')) length
          else if act' then none
          else if p.len < width α then
            best (findSmallestReserved length (fromPrefix p.halves.1) l')
              (findSmallestReserved length (fromPrefix p.halves.2) r') length
          else none
        | (.contains, _, _, child) =>
          if !act then
            best (findSmallestReserved length l (.node q e n' m' act' l' r'))
              (findSmallestReserved length r (.node q e n' m' act' l' r')) length
          else if h : p.len < width α then
            if child then
              best (findSmallest length (fromPrefix p.halves.1))
                (findSmallestReserved length (fromPrefix p.halves.2)
                  (.node q e n' m' act' l' r')) length
            else
              best (findSmallest length (fromPrefix p.halves.2))
                (findSmallestReserved length (fromPrefix p.halves.1)
                  (.node q e n' m' act' l' r')) length
          else none
termination_by a b => (a.nodes + b.nodes) * (width α + 1) + splits a
decreasing_by
  all_goals first
    | exact splits_lt (by simp only [nodes]; omega)
    | exact splits_lt (by simp only [nodes, fromPrefix]; omega)
    | exact splits_half rfl (half_len h).1 h (by simp only [nodes, fromPrefix]; omega)
    | exact splits_half rfl (half_len h).2 h (by simp only [nodes, fromPrefix]; omega)

end SetNode
end Addrs

import Verif.Trie
/-
  The table operations of node.go as functions on immutable trees (layer 3).

  `Data` is Go's `interface{}`: `none` is the nil interface, `some v` a value.  Comparators are total
  functions here; comparators that panic (nil, or a failing type assertion) are modelled in layer 4.
-/
namespace Addrs
open GoWord

namespace Trie
variable {α D : Type} [GoWord α]

/-- a comparator, ipv4/node.go:132 `type comparator` -/
abbrev Eq' (D : Type) := Option D → Option D → Bool

/-- ipv4/node.go:327-330 `insertOpts`.  `flatten` is always false for tables; only setNode.Insert sets
    it, which no API function calls (see DESIGN.md). -/
structure InsertOpts (D : Type) where
  ins : Bool
  upd : Bool
  eq : Eq' D

/-- ipv4/node.go:456-463: prefix of the new inactive parent of two disjoint prefixes -/
def joinPrefix (p : Prefix α) (common : Nat) : Prefix α :=
  ⟨and p.addr (compl (shr ones common)), common⟩

/-- ipv4/node.go:367-469 `insert`; `none` is the error return (the trie is then unchanged) -/
def insert (o : InsertOpts D) (k : Prefix α) (d : Option D) : Trie α D → Option (Trie α D)
  | nil => if !o.ins then none else some (mk k d true nil nil)
  | node p e n h act l r =>
    match compareP p k with
    | (.same, _, _, _) =>
      if act && !o.upd then none
      else if !act && !o.ins then none
      else some (mk k (if act && o.eq e d then e else d) true l r)
    | (.contains, _, _, child) =>
      if child then
        match insert o k d r with
        | none => none
        | some r' => some (mk p e act l r')
      else
        match insert o k d l with
        | none => none
        | some l' => some (mk p e act l' r)
    | (.isContained, _, _, child) =>
      if !o.ins then none
      else if child then some (mk k d true nil (node p e n h act l r))
      else some (mk k d true (node p e n h act l r) nil)
    | (.disjoint, reversed, common, child) =>
      if !o.ins then none
      else
        let newChild := mk k d true nil nil
        if child != reversed then
          some (mk (joinPrefix p common) none false (node p e n h act l r) newChild)
        else
          some (mk (joinPrefix p common) none false newChild (node p e n h act l r))

/-- ipv4/node.go:161-199 `GetOrInsert`: the new head and the `Data` of the resulting node.  The
    deferred function runs `me.insert` when no exact active node was found (`opts.eq` is nil there, it
    is not called because the node found is inactive); the error is impossible (line 168 would panic),
    the heap model (HeapNode) has and excludes that panic. -/
def getOrInsert (k : Prefix α) (d : Option D) : Trie α D → Trie α D × Option D
  | nil => (mk k d true nil nil, d)
  | node p e n h act l r =>
    let me := node p e n h act l r
    let ins := ((insert ⟨true, false, fun _ _ => false⟩ k d me).getD me, d)
    if k.len < p.len then ins
    else
      let (m, exact, _, child) := containsP p k
      if !m then ins
      else if !exact then
        if child then
          let x := getOrInsert k d r
          (mk p e act l x.1, x.2)
        else
          let x := getOrInsert k d l
          (mk p e act x.1 r, x.2)
      else if !act then ins
      else (me, e)

/-- `me == nil` -/
def isNil : Trie α D → Bool
  | nil => true
  | node .. => false

/-- ipv4/node.go:485-556 `del` with `opts.flatten = false` (always so for tables; `reverseChild`:
    ipv4/node.go:481-483); `none` is the error
    return (the trie is then unchanged) -/
def del (k : Prefix α) : Trie α D → Option (Trie α D)
  | nil => none
  | node p e _ _ act l r =>
    match compareP p k with
    | (.same, _, _, _) =>
      if l.isNil then some r
      else if r.isNil then some l
      else some (mk p none false l r)
    | (.contains, _, _, child) =>
      if child then
        match del k r with
        | none => none
        | some r' => if r'.isNil && !act then some l else some (mk p e act l r')
      else
        match del k l with
        | none => none
        | some l' => if l'.isNil && !act then some r else some (mk p e act l' r)
    | (.isContained, _, _, _) => none
    | (.disjoint, _, _, _) => none

/-- ipv4/node.go:829-842 `Map`.  The mapper may have side effects (state `σ`); it is called on every
    node, active or not. -/
def map {σ : Type} (f : Prefix α → Option D → σ → Option D × σ) (eq : Eq' D) :
    Trie α D → σ → Trie α D × σ
  | nil, s => (nil, s)
  | node p e _ _ act l r, s =>
    let x := f p e s
    let l' := map f eq l x.2
    let r' := map f eq r l'.2
    (mk p (if eq e x.1 then e else x.1) act l'.1 r'.1, r'.2)

/-- the `Data` of a node (only used on non-nil nodes) -/
def data : Trie α D → Option D
  | nil => none
  | node _ d _ _ _ _ _ => d
/-- the length of a node's prefix (only used on non-nil nodes) -/
def len : Trie α D → Nat
  | nil => 0
  | node p _ _ _ _ _ _ => p.len

/-- ipv4/node.go:786-797 `childrenAggregate` -/
def childrenAggregate (eq : Eq' D) (p : Prefix α) (a b : Trie α D) : Bool :=
  a.isActive && b.isActive && decide (a.len = p.len + 1) && decide (a.len = b.len) &&
    eq a.data b.data

/-- ipv4/node.go:759-774 `createReturnValue`, with copyMutate (ipv4/node.go:119-130): the new node and
    whether it is a different object than `me`.  `cc` says whether `children` differ from
    `me.children` as pointers; `geq` is Go's `==` on the `Data` field. -/
def createReturnValue (eq geq : Eq' D) (me : Trie α D) (isActive : Bool) (data : Option D)
    (l r : Trie α D) (cc : Bool) : Trie α D × Bool :=
  match me with
  | nil => (nil, false)
  | node p d _ _ act _ _ =>
    if isActive == act && !cc && eq data d then (me, false)
    else
      let d' := if isActive then (if d.isNone || !eq d data then data else d) else none
      if geq d' d && isActive == act && !cc then (me, false)
      else (mk p d' isActive l r, true)

/-- ipv4/node.go:751-822 `aggregate` (started by `Aggregate`, ipv4/node.go:824-826): the result and whether it is a different object than `me`
    (needed because `createReturnValue` compares pointers).  `u` is `parentUmbrella`. -/
def aggregate (eq geq : Eq' D) : Option (Option D) → Trie α D → Trie α D × Bool
  | _, nil => (nil, false)
  | u, node p d n h act l r =>
    let me := node p d n h act l r
    let redundant := act && (match u with
      | some v => eq v d
      | none => false)
    let u' := if act && !redundant then some d else u
    let isActive := act && !redundant
    let data := if redundant then none else d
    let l' := aggregate eq geq u' l
    let r' := aggregate eq geq u' r
    if childrenAggregate eq p l'.1 r'.1 then
      createReturnValue eq geq me true l'.1.data nil nil true
    else if isActive then
      createReturnValue eq geq me isActive data l'.1 r'.1 (l'.2 || r'.2)
    else if l'.1.isNil then (r'.1, true)
    else if r'.1.isNil then (l'.1, true)
    else createReturnValue eq geq me isActive data l'.1 r'.1 (l'.2 || r'.2)

end Trie
end Addrs

import Verif.Compare
/-
  node.go as functions on immutable trees (layer 3, see DESIGN.md).

  A `*trieNode` is a tree; `nil` is `Trie.nil`.  All functions of node.go that return a new trie are
  copy-on-write; here they simply return the new tree.  Tests of pointer equality (`left == right`)
  are omitted in this layer: they only avoid work; layer 4 (HeapNode, HeapSet) models them and proves that.
-/
namespace Addrs
open GoWord

/-- ipv4/node.go:8-15 `type trieNode struct`.  `data = none` is Go's nil interface. -/
inductive Trie (α D : Type) where
  | nil
  | node (pfx : Prefix α) (data : Option D) (size h : Nat) (active : Bool) (l r : Trie α D)
deriving DecidableEq, Repr

namespace Trie
variable {α D : Type}

/-- ipv4/node.go:258-263 `NumNodes`, ipv4/setnode.go:289-291 -/
def numNodes : Trie α D → Nat
  | nil => 0
  | node _ _ size _ _ _ _ => size

/-- ipv4/node.go:266-271 `height`, ipv4/setnode.go:293-295 -/
def height : Trie α D → Nat
  | nil => 0
  | node _ _ _ h _ _ _ => h

/-- ipv4/node.go:560-565 `active` -/
def isActive : Trie α D → Bool
  | nil => false
  | node _ _ _ _ a _ _ => a

/-- `me.children[0]` (ipv4/setnode.go:67-69 `Left`), only used on non-nil nodes -/
def left : Trie α D → Trie α D
  | nil => nil
  | node _ _ _ _ _ l _ => l
/-- `me.children[1]` (ipv4/setnode.go:71-73 `Right`), only used on non-nil nodes -/
def right : Trie α D → Trie α D
  | nil => nil
  | node _ _ _ _ _ _ r => r
/-- `me.children[child]` -/
def child (b : Bool) (t : Trie α D) : Trie α D := if b then t.right else t.left

/-- number of nodes of the tree, active or not (measure for termination) -/
def nodes : Trie α D → Nat
  | nil => 0
  | node _ _ _ _ _ l r => l.nodes + r.nodes + 1

/-- ipv4/node.go:101-117 `mutate` (ipv4/node.go:24-29 `intMax`; ipv4/setnode.go:76-82): the node with the given fields and recomputed `size` (uint32) and
    `h` (uint16). -/
def mk (p : Prefix α) (d : Option D) (act : Bool) (l r : Trie α D) : Trie α D :=
  let size := (l.numNodes + r.numNodes) % 2 ^ 32
  let h := (1 + max l.height r.height) % 2 ^ 16
  node p d (if act then (size + 1) % 2 ^ 32 else size) h act l r

/-- ipv4/node.go:334-362 `flatten` (ipv4/setnode.go:84-86): new `(isActive, children)`.  The panic for an inactive node with
    a nil child (line 343) is modelled in layer 4; here the node is left alone. -/
def flatten (p : Prefix α) (act : Bool) (l r : Trie α D) : Bool × Trie α D × Trie α D :=
  if act then (true, nil, nil)
  else
    match l, r with
    | node lp _ _ _ lact _ _, node rp _ _ _ ract _ _ =>
      if lp.len ≠ rp.len then (act, l, r)
      else if lp.len ≠ p.len + 1 then (act, l, r)
      else if !lact || !ract then (act, l, r)
      else (true, nil, nil)
    | _, _ => (act, l, r)

/-- `newHead.mutate(func(n) { n.flatten() })` for a new node with prefix `p` and children `l`, `r`
    (ipv4/setnode.go:114-128, 146-160, 171-185) -/
def mkFlat (p : Prefix α) (l r : Trie α D) : Trie α D :=
  let (act, l', r') := flatten p false l r
  mk p none act l' r'

/-- the active nodes in order of traversal: the entries of the trie -/
def entries : Trie α D → List (Prefix α × Option D)
  | nil => []
  | node p d _ _ a l r => (if a then [(p, d)] else []) ++ (l.entries ++ r.entries)

variable [GoWord α]

/-- ipv4/node.go:215-241 `Match` (ipv4/setnode.go:189-191): the matching node as `(Prefix, Data)` -/
def «match» (key : Prefix α) : Trie α D → Option (Prefix α × Option D)
  | nil => none
  | node p d _ _ act l r =>
    if key.len < p.len then none
    else
      let (m, exact, _, child) := containsP p key
      if !m then none
      else
        let better := if !exact then (if child then r.match key else l.match key) else none
        match better with
        | some x => some x
        | none => if act then some (p, d) else none

/-- ipv4/node.go:135-158 `Equal` -/
def equal (eq : Option D → Option D → Bool) : Trie α D → Trie α D → Bool
  | nil, nil => true
  | nil, node .. => false
  | node .., nil => false
  | node p d _ _ act l r, node q e _ _ act' l' r' =>
    if act != act' then false
    else if p ≠ q then false
    else if act && !eq d e then false
    else if !equal eq l l' then false
    else if !equal eq r r' then false
    else true

/-- what a handler of ipv4/node.go:592-597 `trieDiffHandler` sees of a node -/
structure Info (α D : Type) where
  pfx : Prefix α
  data : Option D
  active : Bool

/-- ipv4/node.go:592-597 `trieDiffHandler` with callbacks over a state `σ` (a Go closure may have side
    effects); the Boolean is the callback's result. -/
structure Handler (α D σ : Type) where
  removed : Info α D → σ → σ × Bool
  added : Info α D → σ → σ × Bool
  modified : Info α D → Info α D → σ → σ × Bool

/-- `if !first { return false }; return second` -/
def andThen {σ : Type} (x : σ × Bool) (k : σ → σ × Bool) : σ × Bool :=
  if x.2 then k x.1 else (x.1, false)

/-- ipv4/node.go:599-688 `diff` (without the pointer shortcut of line 600, which layer 4 models) -/
def diff {σ : Type} (h : Handler α D σ) : Trie α D → Trie α D → σ → σ × Bool
  | nil, nil, s => (s, true)
  | node p d _ _ act l r, nil, s =>
    andThen (h.removed ⟨p, d, act⟩ s) fun s =>
    andThen (diff h l nil s) fun s => diff h r nil s
  | nil, node q e _ _ act' l' r', s =>
    andThen (h.added ⟨q, e, act'⟩ s) fun s =>
    andThen (diff h nil l' s) fun s => diff h nil r' s
  | node p d n m act l r, node q e n' m' act' l' r', s =>
    match compareP p q with
    | (.same, _, _, _) =>
      andThen (h.modified ⟨p, d, act⟩ ⟨q, e, act'⟩ s) fun s =>
      andThen (diff h l l' s) fun s => diff h r r' s
    | (.contains, _, _, child) =>
      andThen (h.removed ⟨p, d, act⟩ s) fun s =>
      if child then
        andThen (diff h l nil s) fun s => diff h r (node q e n' m' act' l' r') s
      else
        andThen (diff h l (node q e n' m' act' l' r') s) fun s => diff h r nil s
    | (.isContained, _, _, child) =>
      andThen (h.added ⟨q, e, act'⟩ s) fun s =>
      if child then
        andThen (diff h nil l' s) fun s => diff h (node p d n m act l r) r' s
      else
        andThen (diff h (node p d n m act l r) l' s) fun s => diff h nil r' s
    | (.disjoint, _, _, child) =>
      if child then
        andThen (diff h (node p d n m act l r) nil s) fun s =>
          diff h nil (node q e n' m' act' l' r') s
      else
        andThen (diff h nil (node q e n' m' act' l' r') s) fun s =>
          diff h (node p d n m act l r) nil s
termination_by a b => a.nodes + b.nodes
decreasing_by all_goals simp only [nodes]; omega

/-- the four callbacks of the public `Diff` (ipv4/table.go:257-289); `none` is a nil callback -/
structure DiffCallbacks (α D σ : Type) where
  removed : Option (Prefix α → Option D → σ → σ × Bool)
  added : Option (Prefix α → Option D → σ → σ × Bool)
  modified : Option (Prefix α → Option D → Option D → σ → σ × Bool)
  same : Option (Prefix α → Option D → σ → σ × Bool)

/-- a nil callback counts as `return true` (ipv4/node.go:693-713) -/
def orNoop1 {β σ : Type} (f : Option (Prefix α → β → σ → σ × Bool)) :
    Prefix α → β → σ → σ × Bool :=
  f.getD fun _ _ s => (s, true)

/-- ipv4/node.go:707-709 -/
def orNoop2 {β σ : Type} (f : Option (Prefix α → β → β → σ → σ × Bool)) :
    Prefix α → β → β → σ → σ × Bool :=
  f.getD fun _ _ _ s => (s, true)

/-- ipv4/node.go:692-745 `Diff` -/
def Diff {σ : Type} (cb : DiffCallbacks α D σ) (eq : Option D → Option D → Bool)
    (a b : Trie α D) (s : σ) : σ × Bool :=
  let removed := orNoop1 cb.removed
  let added := orNoop1 cb.added
  let modified := orNoop2 cb.modified
  let common := orNoop1 cb.same
  diff
    { removed := fun n s => if n.active then removed n.pfx n.data s else (s, true)
      added := fun n s => if n.active then added n.pfx n.data s else (s, true)
      modified := fun l r s =>
        if l.active && r.active then
          if !eq l.data r.data then modified l.pfx l.data r.data s
          else common l.pfx l.data s
        else if l.active then removed l.pfx l.data s
        else if r.active then added r.pfx r.data s
        else (s, true) }
    a b s

/-- ipv4/node.go:574-590 `Walk` (ipv4/setnode.go:297-299) -/
def walk {σ : Type} (cb : Prefix α → Option D → σ → σ × Bool) (t : Trie α D) (s : σ) : σ × Bool :=
  Diff { removed := none, added := some cb, modified := none, same := none } (fun _ _ => false)
    nil t s

end Trie
end Addrs

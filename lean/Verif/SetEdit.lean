import Verif.SetNode
/-
  setnode.go `Insert` and `Remove`: `trieNode.insert` and `trieNode.del` with the option `flatten`.  No function of the
  API calls them (`Set_.Insert` and `Set_.Remove` use `Union` and `Difference`); only the package's own tests do.
  `none` is a Go panic.
-/
namespace Addrs
open GoWord

namespace SetNode
open Trie
variable {α : Type} [GoWord α]

/-- ipv4/node.go:334-362 `flatten` on a new inactive node, with its panic (line 343) for a nil child, and `mutate`
    (ipv4/node.go:101-117) around it -/
def flatEdit (p : Prefix α) (l r : SetNode α) : Option (SetNode α) :=
  match l, r with
  | .nil, _ => none
  | _, .nil => none
  | l, r => some (mkFlat p l r)

/-- ipv4/setnode.go:49-55, ipv6/setnode.go:48-54 `Insert`, which is ipv4/node.go:367-469 `insert` with the options
    `insert`, `update` and `flatten` (lines 389-392, 399-401, 406-409, 416-418, 430-432, 462-464) and without a value.
    With these options no branch returns an error.  `copyMutate` of line 414 returns the old node when nothing has
    changed; here the two are equal trees. -/
def insertKey (k : Prefix α) : SetNode α → Option (SetNode α)
  | .nil => some (mk k none true .nil .nil)
  | .node p d n h act l r =>
    match compareP p k with
    | (.same, _, _, _) => some (.node p d n h act l r)
    | (.contains, _, _, child) =>
      if act then some (.node p d n h act l r)
      else if child then
        match insertKey k r with
        | none => none
        | some r' => flatEdit p l r'
      else
        match insertKey k l with
        | none => none
        | some l' => flatEdit p l' r
    | (.isContained, _, _, _) =>
      -- the children of an active node are dropped (lines 335-340)
      some (mk k none true .nil .nil)
    | (.disjoint, reversed, common, child) =>
      let newChild : SetNode α := mk k none true .nil .nil
      let np : Prefix α := ⟨and p.addr (compl (shr ones common)), common⟩
      if child != reversed then flatEdit np (.node p d n h act l r) newChild
      else flatEdit np newChild (.node p d n h act l r)

/-- ipv4/node.go:515-530: a prefix strictly inside an active one is taken out of it -/
def splitOut (p k : Prefix α) : Option (SetNode α) :=
  match p.range.minus k.range with
  | [] => none
  | [a] => some (fromRange a)
  | a :: b :: _ => some (union (fromRange a) (fromRange b))

/-- ipv4/node.go:485-556 `del` with the option `flatten`: the new head, and whether there is an error -/
def delKey (k : Prefix α) : SetNode α → Option (SetNode α × Bool)
  | .nil => some (.nil, false)
  | .node p d n h act l r =>
    match compareP p k with
    | (.same, _, _, _) => some (.nil, false)
    | (.contains, _, _, child) =>
      if act then (splitOut p k).map fun s => (s, false)
      else if child then
        match delKey k r with
        | none => none
        | some (_, true) => some (.node p d n h act l r, true)
        | some (.nil, false) => some (l, false)
        | some (r', false) => some (mk p d act l r', false)
      else
        match delKey k l with
        | none => none
        | some (_, true) => some (.node p d n h act l r, true)
        | some (.nil, false) => some (r, false)
        | some (l', false) => some (mk p d act l' r, false)
    | (.isContained, _, _, _) => some (.nil, false)
    | (.disjoint, _, _, _) => some (.node p d n h act l r, true)

/-- ipv4/setnode.go:57-65, ipv6/setnode.go:56-64 `Remove`: the error is dropped -/
def removeKey (k : Prefix α) (t : SetNode α) : Option (SetNode α) := (delKey k t).map (·.1)

end SetNode
end Addrs

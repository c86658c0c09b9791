import Verif.TableApi
import Verif.Spec
/-
  The vocabulary of the table properties.
-/
namespace Addrs
open GoWord LawfulGoWord

section
variable {α D : Type} [LawfulGoWord α]

/-- The key of a prefix in a table: its length and its network number.  Host bits do not matter. -/
def keyOf (p : Prefix α) : Nat × Nat := (p.len, toNat p.addr / blockSize α p.len)

/-- prefix `p` contains prefix `q` (or has the same key) -/
def ContainsP (p q : Prefix α) : Prop := p.len ≤ q.len ∧ InPrefix p q.addr

/-- a plain map from keys to values -/
def PMap (D : Type) := Nat × Nat → Option D

namespace PMap
/-- the map without entries -/
def empty : PMap D := fun _ => none
/-- the map with the entry for `k` set to `v` -/
def set (m : PMap D) (k : Nat × Nat) (v : D) : PMap D := fun k' => if k' = k then some v else m k'
/-- the map without the entry for `k` -/
def erase (m : PMap D) (k : Nat × Nat) : PMap D := fun k' => if k' = k then none else m k'
end PMap

/-- a call on a `Table_` -/
inductive TableOp (α D : Type) where
  | insert (k : PrefixI α) (v : D)
  | update (k : PrefixI α) (v : D)
  | insertOrUpdate (k : PrefixI α) (v : D)
  | get (k : PrefixI α)
  | getOrInsert (k : PrefixI α) (v : D)
  | remove (k : PrefixI α)

namespace TableOp
/-- the prefix argument of a call -/
def key : TableOp α D → PrefixI α
  | insert k _ | update k _ | insertOrUpdate k _ | get k | getOrInsert k _ | remove k => k
end TableOp

/-- what a call returns -/
inductive Result (D : Type) where
  | unit
  | bool (b : Bool)
  | removed (b : Bool)
  | found (v : D) (b : Bool)
  | value (v : D)

/-- What the call does to a plain map and what it should return.  `e` decides whether a new value
    compares equal to the old one; then the old one is kept. -/
def PMap.step [Inhabited D] (e : D → D → Bool) (m : PMap D) : TableOp α D → PMap D × Result D
  | .insert k v =>
    match m (keyOf k.toPrefix) with
    | some _ => (m, .bool false)
    | none => (m.set (keyOf k.toPrefix) v, .bool true)
  | .update k v =>
    match m (keyOf k.toPrefix) with
    | some w => (m.set (keyOf k.toPrefix) (if e w v then w else v), .bool true)
    | none => (m, .bool false)
  | .insertOrUpdate k v =>
    match m (keyOf k.toPrefix) with
    | some w => (m.set (keyOf k.toPrefix) (if e w v then w else v), .unit)
    | none => (m.set (keyOf k.toPrefix) v, .unit)
  | .get k =>
    match m (keyOf k.toPrefix) with
    | some w => (m, .found w true)
    | none => (m, .found default false)
  | .getOrInsert k v =>
    match m (keyOf k.toPrefix) with
    | some w => (m, .value w)
    | none => (m.set (keyOf k.toPrefix) v, .value v)
  | .remove k => (m.erase (keyOf k.toPrefix), .removed (m (keyOf k.toPrefix)).isSome)

/-- the call on the model of the code -/
def Table.step [Inhabited D] (t : Table α D) : TableOp α D → Table α D × Result D
  | .insert k v => ((t.insert k v).1, .bool (t.insert k v).2)
  | .update k v => ((t.update k v).1, .bool (t.update k v).2)
  | .insertOrUpdate k v => (t.insertOrUpdate k v, .unit)
  | .get k => (t, .found (t.get k).1 (t.get k).2)
  | .getOrInsert k v => ((t.getOrInsert k v).1, .value (t.getOrInsert k v).2)
  | .remove k => ((t.remove k).1, .removed (t.remove k).2)

/-- a sequence of calls: the final state and all results -/
def runOps {S O R : Type} (step : S → O → S × R) : S → List O → S × List R
  | s, [] => (s, [])
  | s, o :: os => ((runOps step (step s o).1 os).1, (step s o).2 :: (runOps step (step s o).1 os).2)

/-- The results of a call on the table and on the map agree, except that `Remove` on the table may also
    report success when the map says that there was no entry (see C24). -/
def ResultOk : Result D → Result D → Prop
  | .removed b, .removed b' => b' = true → b = true
  | r, r' => r = r'

/-- the two lists of results agree, call by call -/
def ResultsOk : List (Result D) → List (Result D) → Prop
  | [], [] => True
  | r :: rs, r' :: rs' => ResultOk r r' ∧ ResultsOk rs rs'
  | _, _ => False

/-- reading the table with `Get` is reading the map -/
def Table.Shows [Inhabited D] (t : Table α D) (m : PMap D) : Prop :=
  ∀ k : PrefixI α, k.toPrefix.WF → t.get k =
    match m (keyOf k.toPrefix) with
    | some v => (v, true)
    | none => (default, false)

/-- the entries of a table, as `Walk` lists them -/
def Table.listed [Inhabited D] (t : Table α D) : List (Prefix α × D) :=
  (t.walk (fun p v acc => (acc ++ [(p, v)], true)) []).1

/-- the table's comparator is an equivalence relation -/
def Table.CmpOk (t : Table α D) : Prop :=
  ∃ e, t.eq = some e ∧ (∀ x, e x x = true) ∧ (∀ x y, e x y = true → e y x = true) ∧
    ∀ x y z, e x y = true → e y z = true → e x z = true

/-- Every table a program can obtain from valid prefixes. -/
inductive Table.Reachable [Inhabited D] [DecidableEq D] : Table α D → Prop
  | empty : Reachable Table.empty
  | new_ : Reachable Table.new_
  | newCustom (cmp : D → D → Bool) : Reachable (Table.newCustom cmp)
  | step (t : Table α D) (o : TableOp α D) (h : Reachable t) (he : t.eq ≠ none)
      (hk : o.key.toPrefix.WF) : Reachable (t.step o).1
  | map {σ : Type} (t : Table α D) (f : Option (Prefix α → D → σ → D × σ)) (s : σ) (h : Reachable t) :
      Reachable (t.map f s).1
  | aggregate (t : Table α D) (h : Reachable t) (hc : t.CmpOk) : Reachable t.aggregate
  | table_ (t : Table α D) (h : Reachable t) : Reachable t.table_
  /-- `Aggregate().Table_()` of a table whose comparison is `==` on values for which `==` is `e`, where a value need not be
      equal to itself (floating point numbers) -/
  | aggregateBy (t : Table α D) (e : D → D → Bool) (h : Reachable t) (he : t.eq = some e) (symm : ∀ x y, e x y = e y x)
      (trans : ∀ x y z, e x y = true → e y z = true → e x z = true) : Reachable (t.aggregateBy (liftEq e))

/-- `p` and `q` are the two halves of one prefix (in either order) -/
def SiblingHalves (p q : Prefix α) : Prop :=
  p.len = q.len ∧ 0 < p.len ∧ InPrefix ⟨p.addr, p.len - 1⟩ q.addr ∧ ¬ InPrefix p q.addr

/-- what `Diff` can report: an entry only of the left table, only of the right table, or of both -/
inductive Change (α D : Type) where
  | onlyLeft (p : Prefix α) (v : D)
  | onlyRight (p : Prefix α) (v : D)
  | both (p : Prefix α) (v : D) (q : Prefix α) (w : D)

namespace Change
/-- the entry of the left table -/
def left : Change α D → Option (Prefix α × D)
  | onlyLeft p v => some (p, v)
  | onlyRight _ _ => none
  | both p v _ _ => some (p, v)
/-- the entry of the right table -/
def right : Change α D → Option (Prefix α × D)
  | onlyLeft _ _ => none
  | onlyRight p v => some (p, v)
  | both _ _ q w => some (q, w)
/-- the prefix under which it is reported -/
def pfx : Change α D → Prefix α
  | onlyLeft p _ => p
  | onlyRight p _ => p
  | both p _ _ _ => p

/-- call the callback for a change; a nil callback counts as returning true -/
def report {σ : Type} (e : D → D → Bool) (cb : TableDiffCallbacks α D σ) : Change α D → σ → σ × Bool
  | onlyLeft p v, s => match cb.left with
    | some f => f p v s
    | none => (s, true)
  | onlyRight p v, s => match cb.right with
    | some f => f p v s
    | none => (s, true)
  | both p v _ w, s =>
    if e v w then
      match cb.unchanged with
      | some f => f p v s
      | none => (s, true)
    else
      match cb.changed with
      | some f => f p v w s
      | none => (s, true)
/-- what applying a reported change does to a plain map -/
def apply (e : D → D → Bool) (m : PMap D) : Change α D → PMap D
  | onlyLeft p _ => m.erase (keyOf p)
  | onlyRight p v => m.set (keyOf p) v
  | both p v _ w => if e v w then m else m.set (keyOf p) w
end Change

/-- lexicographic order of prefixes: by network address, then by length -/
def LexBefore (p q : Prefix α) : Prop :=
  toNat p.network.addr < toNat q.network.addr ∨
    (toNat p.network.addr = toNat q.network.addr ∧ p.len < q.len)

/-- One call of a mapper with side effects: the list of results so far and the state.  `act` says
    whether the prefix is an entry; `e` decides whether the old value is kept. -/
def mapCall {σ : Type} (e : D → D → Bool) (f : Prefix α → D → σ → D × σ)
    (x : List (Prefix α × D) × σ) (n : Prefix α × D × Bool) : List (Prefix α × D) × σ :=
  let y := f n.1 n.2.1 x.2
  (if n.2.2 then x.1 ++ [(n.1, if e n.2.1 y.1 then n.2.1 else y.1)] else x.1, y.2)

/-- Merging sibling halves loses nothing: an entry with an entry of a different value inside it has an
    address in its sibling half that no entry inside the sibling half maps to an equal value. -/
def NothingLost (e : D → D → Bool) (L : List (Prefix α × D)) : Prop :=
  ∀ x y, x ∈ L → y ∈ L → ContainsP x.1 y.1 → x.1.len < y.1.len → e x.2 y.2 = false →
    ∀ q : Prefix α, q.WF → SiblingHalves x.1 q →
      ∃ a, InPrefix q a ∧ ∀ z, z ∈ L → ContainsP q z.1 → InPrefix z.1 a → e x.2 z.2 = false

end
end Addrs

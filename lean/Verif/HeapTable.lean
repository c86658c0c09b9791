import Verif.HeapNode
import Verif.Machine
import Verif.SpecTable
/-
  tablex.go and table.go as code on the heap and on mutable objects (layer 4), and the package as a
  `Lib` for the machine.  ipv6/table.go and ipv6/tablex.go are copies of the ipv4 files.
-/
set_option linter.unusedSectionVars false
namespace Addrs
open GoWord

/-- calling a table's comparison function -/
def EqFn.call {D : Type} [GoType D] : EqFn D → Comparator D
  | .nil => nilComparator
  | .dflt => defaultComparator
  | .custom cmp => customComparator cmp

/-- the callbacks of `Diff` on `interface{}` values, ipv4/table.go:258-287 -/
def TableDiffCallbacks.boxed {α D σ : Type} [Inhabited D] (cb : TableDiffCallbacks α D σ) : Trie.DiffCallbacks α D σ where
  removed := cb.left.map fun f p d => f p (Table.unbox d)
  added := cb.right.map fun f p d => f p (Table.unbox d)
  modified := cb.changed.map fun f p d e => f p (Table.unbox d) (Table.unbox e)
  same := cb.unchanged.map fun f p d => f p (Table.unbox d)

namespace Heap
open Prog
variable {α D : Type} [GoWord α]

/-! ### `tableX_`: mutable tables; `none` is the uninitialised one with `m == nil` -/

/-- ipv4/tablex.go:67-75 `mutate`.  The mutator returns `(ok, newNode)` and what it assigns to captured
    variables. -/
def tmutate {τ : Type} (o : Nat) (mutator : Prog α D ((Bool × Ptr) × τ)) : Prog α D τ := do
  let old ← readObj o
  let x ← mutator
  if x.1.1 && decide (old.trie ≠ x.1.2) then do
    let ok ← swap o old.trie x.1.2
    if !ok then panic else pure x.2
  else pure x.2

variable [GoType D]

/-- ipv4/tablex.go:80-97, ipv4/table.go:48-50 `Insert`.  `F` bounds the depth of recursion. -/
def tInsert (F : Nat) (h : Option Nat) (k : PrefixI α) (v : D) : Prog α D Bool :=
  match h with
  | none => panic
  | some o =>
    tmutate o (readObj o >>= fun m => do
      let x ← Insert F m.trie k.code (some v)
      pure (if x.2 then ((false, none), false) else ((true, x.1), true)))

/-- ipv4/tablex.go:102-119, ipv4/table.go:55-57 `Update` -/
def tUpdate (F : Nat) (h : Option Nat) (k : PrefixI α) (v : D) : Prog α D Bool :=
  match h with
  | none => panic
  | some o =>
    tmutate o (readObj o >>= fun m => do
      let x ← Update F m.eq.call m.trie k.code (some v)
      pure (if x.2 then ((false, none), false) else ((true, x.1), true)))

/-- ipv4/tablex.go:123-133, ipv4/table.go:61-63 `InsertOrUpdate` -/
def tInsertOrUpdate (F : Nat) (h : Option Nat) (k : PrefixI α) (v : D) : Prog α D Unit :=
  match h with
  | none => panic
  | some o =>
    tmutate o (readObj o >>= fun m => do
      let x ← InsertOrUpdate F m.eq.call m.trie k.code (some v)
      pure ((true, x), ()))

/-- ipv4/tablex.go:180-195, ipv4/table.go:107-109 `Remove`; note that the mutator returns `true` even
    after an error -/
def tRemove (F : Nat) (h : Option Nat) (k : PrefixI α) : Prog α D Bool :=
  match h with
  | none => panic
  | some o =>
    tmutate o (readObj o >>= fun m => do
      let x ← del k.code F m.trie
      pure ((true, x.1), !x.2))

/-! ### `tableX`: immutable tables -/

/-- ipv4/tablex.go:250-252 `NumEntries` -/
def xNumEntries (m : Obj D) : Prog α D Nat := numNodes m.trie

/-- ipv4/tablex.go:281-295 `longestMatch`; `none` is `matchNone`, the Boolean is `matchExact` -/
def xLongestMatch (F : Nat) (m : Obj D) (k : PrefixI α) : Prog α D (Option (Option D × Bool × Prefix α)) := do
  let node ← «match» k.code F m.trie
  match node with
  | none => pure none
  | some a => do
    let c ← deref (some a)
    pure (some (c.data, decide (c.pfx.len = k.code.len), c.pfx))

variable [Inhabited D]

/-- ipv4/tablex.go:258-266, ipv4/table.go:173-180 `Table.Get` -/
def xGet (F : Nat) (m : Obj D) (k : PrefixI α) : Prog α D (D × Bool) := do
  let x ← xLongestMatch F m k
  match x with
  | some (v, true, _) => pure (Table.unbox v, true)
  | _ => pure (default, false)

/-- ipv4/tablex.go:272-279, ipv4/table.go:186-193 `Table.LongestMatch` -/
def xLongest (F : Nat) (m : Obj D) (k : PrefixI α) : Prog α D (D × Bool × Prefix α) := do
  let x ← xLongestMatch F m k
  match x with
  | some (v, _, p) => pure (Table.unbox v, true, p)
  | none => pure (default, false, Prefix.zeroValue)

/-- ipv4/table.go:220-226 `Aggregate`: the result has a nil comparator -/
def xAggregate (F : Nat) (m : Obj D) : Prog α D (Obj D) := do
  let x ← aggregate m.eq.call F none m.trie
  pure ⟨x, .nil⟩

/-- ipv4/table.go:233-239 `Walk` -/
def xWalk {σ : Type} (F : Nat) (m : Obj D) (cb : Prefix α → D → σ → σ × Bool) (s : σ) : Prog α D (σ × Bool) :=
  walk F (fun p d => cb p (Table.unbox d)) m.trie s

/-- ipv4/table.go:257-289 `Diff` -/
def xDiff {σ : Type} (F : Nat) (m other : Obj D) (cb : TableDiffCallbacks α D σ) (s : σ) : Prog α D (σ × Bool) :=
  Diff F cb.boxed m.eq.call m.trie other.trie s

/-- ipv4/table.go:309-322 `Map`; `none` is a nil mapper -/
def xMap {σ : Type} (F : Nat) (m : Obj D) (f : Option (Prefix α → D → σ → D × σ)) (s : σ) :
    Prog α D (Obj D × σ) :=
  match f with
  | none => pure (m, s)
  | some f => do
    let x ← map (fun p d s => let y := f p (Table.unbox d) s; (some y.1, y.2)) m.eq.call F m.trie s
    pure (⟨x.1, m.eq⟩, x.2)

/-! ### reads of mutable tables, and conversions -/

/-- ipv4/table.go:69-77, ipv4/tablex.go:139-144 `Table_.Get` -/
def tGet (F : Nat) (h : Option Nat) (k : PrefixI α) : Prog α D (D × Bool) :=
  match h with
  | none => pure (default, false)
  | some o => readObj o >>= fun m => xGet F m k

/-- ipv4/table.go:93-101, ipv4/tablex.go:169-174 `Table_.LongestMatch` -/
def tLongest (F : Nat) (h : Option Nat) (k : PrefixI α) : Prog α D (D × Bool × Prefix α) :=
  match h with
  | none => pure (default, false, Prefix.zeroValue)
  | some o => readObj o >>= fun m => xLongest F m k

/-- ipv4/table.go:38-43, ipv4/tablex.go:59-64 `Table_.NumEntries` -/
def tNumEntries (h : Option Nat) : Prog α D Nat :=
  match h with
  | none => pure 0
  | some o => readObj o >>= fun m => xNumEntries m

/-- ipv4/tablex.go:149-164, ipv4/table.go:82-86 `GetOrInsert`; the node is read after the swap -/
def tGetOrInsert (F : Nat) (h : Option Nat) (k : PrefixI α) (v : D) : Prog α D D :=
  match h with
  | none => panic
  | some o => do
    let node ← tmutate o (readObj o >>= fun m => do
      let x ← getOrInsert k.code (some v) F m.trie
      pure ((true, x.1), x.2))
    let c ← deref node
    pure (Table.unbox c.data)

/-- ipv4/table.go:114-123, ipv4/tablex.go:199-204 `Table_.Table` -/
def tFreeze (h : Option Nat) : Prog α D (Obj D) :=
  match h with
  | none => pure .zero
  | some o => readObj o

/-- ipv4/table.go:145-147, ipv4/tablex.go:227-232 `Table.Table_` -/
def xThaw (m : Obj D) : Prog α D Nat :=
  newObject ⟨m.trie, match m.eq with
    | .nil => .dflt
    | e => e⟩

end Heap

/-- the calls of the table API.  `h` is a `Table_` (`none` the uninitialised one), `t`, `u` are `Table`s;
    callbacks are functions with a state `σ`. -/
inductive TCall (α D σ : Type) where
  /-- ipv4/table.go:19-23 `NewTable_` -/
  | new_
  /-- ipv4/table.go:27-35 `NewTableCustomCompare_` -/
  | newCustom (cmp : D → D → Bool)
  | op (h : Option Nat) (o : TableOp α D)
  | longest (h : Option Nat) (k : PrefixI α)
  | num (h : Option Nat)
  | freeze (h : Option Nat)
  | thaw (t : Obj D)
  | xget (t : Obj D) (k : PrefixI α)
  | xlongest (t : Obj D) (k : PrefixI α)
  | xnum (t : Obj D)
  | walk (t : Obj D) (cb : Prefix α → D → σ → σ × Bool) (s : σ)
  | diff (t u : Obj D) (cb : TableDiffCallbacks α D σ) (s : σ)
  | map (t : Obj D) (f : Option (Prefix α → D → σ → D × σ)) (s : σ)
  | aggregate (t : Obj D)

/-- what the calls return -/
inductive TVal (α D σ : Type) where
  | handle (o : Nat)
  | table (t : Obj D)
  | result (r : Result D)
  | «match» (x : D × Bool × Prefix α)
  | num (n : Nat)
  | walked (x : σ × Bool)
  | mapped (t : Obj D) (s : σ)

section
open Heap
variable {α D σ : Type} [GoWord α] [GoType D] [Inhabited D]

/-- the methods of `Table_` that take a prefix -/
def opCode (F : Nat) (h : Option Nat) : TableOp α D → Prog α D (Result D)
  | .insert k v => tInsert F h k v >>= fun b => pure (.bool b)
  | .update k v => tUpdate F h k v >>= fun b => pure (.bool b)
  | .insertOrUpdate k v => tInsertOrUpdate F h k v >>= fun _ => pure .unit
  | .get k => tGet F h k >>= fun x => pure (.found x.1 x.2)
  | .getOrInsert k v => tGetOrInsert F h k v >>= fun x => pure (.value x)
  | .remove k => tRemove F h k >>= fun b => pure (.removed b)

/-- the code of each call -/
def TCall.code (F : Nat) : TCall α D σ → Prog α D (TVal α D σ)
  | new_ => Prog.newObject ⟨none, .dflt⟩ >>= fun o => pure (.handle o)
  | newCustom cmp => Prog.newObject ⟨none, .custom cmp⟩ >>= fun o => pure (.handle o)
  | op h o => opCode F h o >>= fun r => pure (.result r)
  | longest h k => tLongest F h k >>= fun r => pure (.match r)
  | num h => tNumEntries h >>= fun n => pure (.num n)
  | freeze h => tFreeze h >>= fun t => pure (.table t)
  | thaw t => xThaw t >>= fun o => pure (.handle o)
  | xget t k => xGet F t k >>= fun x => pure (.result (.found x.1 x.2))
  | xlongest t k => xLongest F t k >>= fun r => pure (.match r)
  | xnum t => xNumEntries t >>= fun n => pure (.num n)
  | walk t cb s => xWalk F t cb s >>= fun x => pure (.walked x)
  | diff t u cb s => xDiff F t u cb s >>= fun x => pure (.walked x)
  | map t f s => xMap F t f s >>= fun x => pure (.mapped x.1 x.2)
  | aggregate t => xAggregate F t >>= fun x => pure (.table x)

/-- the mutable objects among the arguments -/
def TCall.refs : TCall α D σ → List Nat
  | op h _ | longest h _ | num h | freeze h => h.toList
  | _ => []

/-- the `Table`s among the arguments -/
def TCall.vals : TCall α D σ → List (Obj D)
  | thaw t | xget t _ | xlongest t _ | xnum t | walk t _ _ | map t _ _ | aggregate t => [t]
  | diff t u _ _ => [t, u]
  | _ => []

/-- the `Table`s in the result -/
def TVal.outs : TVal α D σ → List (Obj D)
  | table t | mapped t _ => [t]
  | _ => []

/-- whether the call modifies the table it is called on -/
def TableOp.writes : TableOp α D → Bool
  | .get _ => false
  | _ => true

/-- The comparison function of the table can be called, or will not be: a table that `Aggregate` returned
    has none (see C40). -/
def HasEq (t : Obj D) : Prop := t.eq = .nil → t.trie = none

/-- Conditions on the arguments: inserted and removed prefixes are valid; an uninitialised `Table_` is not modified (that
    panics, see C41); with nil `unchanged` the comparison function is reflexive; `Map` and `Aggregate` are
    not called on a table with a custom comparison function (see C39). -/
def TCall.pre : TCall α D σ → Prop
  | op h o => o.writes = true → o.key.toPrefix.WF ∧ h ≠ none
  | diff t _ cb _ => HasEq t ∧
    (cb.unchanged = none → ∀ cmp, t.eq = .custom cmp → (∀ x, cmp x x = true) ∨ cb.changed = none)
  | map t f _ => f = none ∨ t.trie = none ∨ t.eq = .dflt
  | aggregate t => t.trie = none ∨ t.eq = .dflt
  | _ => True

/-- the package -/
def tableLib (α D σ : Type) [GoWord α] [GoType D] [Inhabited D] (F : Nat) : Lib α D where
  Call := TCall α D σ
  Val := TVal α D σ
  code := TCall.code F
  refs := TCall.refs
  vals := TCall.vals
  pre := TCall.pre
  outs := TVal.outs

end
end Addrs

import Verif.SeqTable
import Verif.UncompStep
import Verif.PanicsDiff
/-
  Tables whose type of values `T` is an interface type, so that nil is a value: the code on the heap.

  `V` are the values that such an interface can hold, `Option V` are the values of `T` itself (`none` is nil).  Converting a `T` to
  `interface{}` gives the same value (nil stays nil), `x, _ = i.(T)` gives back the value and, for nil, the zero value of `T`, which is
  nil.  So the `Data` of a node, an `Option V`, is the value itself; the code of table.go is otherwise that of HeapTable.
-/
set_option linter.unusedSectionVars false
namespace Addrs
open GoWord LawfulGoWord

namespace Heap
open Prog
variable {α V : Type} [GoWord α] [GoType V]

/-- ipv4/tablex.go:80-97, ipv4/table.go:48-50 `Insert` -/
def iInsert (F : Nat) (h : Option Nat) (k : PrefixI α) (v : Option V) : Prog α V Bool :=
  match h with
  | none => panic
  | some o =>
    tmutate o (readObj o >>= fun m => do
      let x ← Insert F m.trie k.code v
      pure (if x.2 then ((false, none), false) else ((true, x.1), true)))

/-- ipv4/tablex.go:102-119, ipv4/table.go:55-57 `Update` -/
def iUpdate (F : Nat) (h : Option Nat) (k : PrefixI α) (v : Option V) : Prog α V Bool :=
  match h with
  | none => panic
  | some o =>
    tmutate o (readObj o >>= fun m => do
      let x ← Update F m.eq.call m.trie k.code v
      pure (if x.2 then ((false, none), false) else ((true, x.1), true)))

/-- ipv4/tablex.go:123-133, ipv4/table.go:61-63 `InsertOrUpdate` -/
def iInsertOrUpdate (F : Nat) (h : Option Nat) (k : PrefixI α) (v : Option V) : Prog α V Unit :=
  match h with
  | none => panic
  | some o =>
    tmutate o (readObj o >>= fun m => do
      let x ← InsertOrUpdate F m.eq.call m.trie k.code v
      pure ((true, x), ()))

/-- ipv4/tablex.go:149-164, ipv4/table.go:82-86 `GetOrInsert` -/
def iGetOrInsert (F : Nat) (h : Option Nat) (k : PrefixI α) (v : Option V) : Prog α V (Option V) :=
  match h with
  | none => panic
  | some o => do
    let node ← tmutate o (readObj o >>= fun m => do
      let x ← getOrInsert k.code v F m.trie
      pure ((true, x.1), x.2))
    let c ← deref node
    pure c.data

/-- ipv4/tablex.go:258-266, ipv4/table.go:173-180 `Table.Get` -/
def ixGet (F : Nat) (m : Obj V) (k : PrefixI α) : Prog α V (Option V × Bool) := do
  let x ← xLongestMatch F m k
  match x with
  | some (v, true, _) => pure (v, true)
  | _ => pure (none, false)

/-- ipv4/tablex.go:272-279, ipv4/table.go:186-193 `Table.LongestMatch` -/
def ixLongest (F : Nat) (m : Obj V) (k : PrefixI α) : Prog α V (Option V × Bool × Prefix α) := do
  let x ← xLongestMatch F m k
  match x with
  | some (v, _, p) => pure (v, true, p)
  | none => pure (none, false, Prefix.zeroValue)

/-- ipv4/table.go:69-77, ipv4/tablex.go:139-144 `Table_.Get` -/
def iGet (F : Nat) (h : Option Nat) (k : PrefixI α) : Prog α V (Option V × Bool) :=
  match h with
  | none => pure (none, false)
  | some o => readObj o >>= fun m => ixGet F m k

/-- ipv4/table.go:93-101, ipv4/tablex.go:169-174 `Table_.LongestMatch` -/
def iLongest (F : Nat) (h : Option Nat) (k : PrefixI α) : Prog α V (Option V × Bool × Prefix α) :=
  match h with
  | none => pure (none, false, Prefix.zeroValue)
  | some o => readObj o >>= fun m => ixLongest F m k

/-- ipv4/table.go:233-239 `Walk` -/
def ixWalk {σ : Type} (F : Nat) (m : Obj V) (cb : Prefix α → Option V → σ → σ × Bool) (s : σ) : Prog α V (σ × Bool) :=
  walk F cb m.trie s

/-- the callbacks of `Diff` on `interface{}` values, ipv4/table.go:258-287 -/
def ifaceCallbacks {σ : Type} (cb : TableDiffCallbacks α (Option V) σ) : Trie.DiffCallbacks α V σ where
  removed := cb.left
  added := cb.right
  modified := cb.changed
  same := cb.unchanged

/-- ipv4/table.go:257-289 `Diff` -/
def ixDiff {σ : Type} (F : Nat) (m other : Obj V) (cb : TableDiffCallbacks α (Option V) σ) (s : σ) : Prog α V (σ × Bool) :=
  Diff F (ifaceCallbacks cb) m.eq.call m.trie other.trie s

/-- ipv4/table.go:309-322 `Map`; `none` is a nil mapper -/
def ixMap {σ : Type} (F : Nat) (m : Obj V) (f : Option (Prefix α → Option V → σ → Option V × σ)) (s : σ) : Prog α V (Obj V × σ) :=
  match f with
  | none => pure (m, s)
  | some f => do
    let x ← map f m.eq.call F m.trie s
    pure (⟨x.1, m.eq⟩, x.2)

/-- ipv4/table.go:27-35 `NewTableCustomCompare_`: `comparator(a.(T), b.(T))`.  For an interface type `T` the assertion `a.(T)` gives the
    value, and panics if it is nil. -/
def ifaceCustom (cmp : Option V → Option V → Bool) : EqFn V := .custom fun a b => cmp (some a) (some b)

end Heap

section
open Heap
variable {α V σ : Type} [GoWord α] [GoType V]

/-- the methods of `Table_` that take a prefix -/
def opCodeI (F : Nat) (h : Option Nat) : TableOp α (Option V) → Prog α V (Result (Option V))
  | .insert k v => iInsert F h k v >>= fun b => pure (.bool b)
  | .update k v => iUpdate F h k v >>= fun b => pure (.bool b)
  | .insertOrUpdate k v => iInsertOrUpdate F h k v >>= fun _ => pure .unit
  | .get k => iGet F h k >>= fun x => pure (.found x.1 x.2)
  | .getOrInsert k v => iGetOrInsert F h k v >>= fun x => pure (.value x)
  | .remove k => tRemove F h k >>= fun b => pure (.removed b)

/-- The code of each call.  `r` are the `Table`s that the program has got; the result is what the program sees and the `Table`s it gets. -/
def TCmd.codeI (F : Nat) (r : List (Obj V)) : TCmd α (Option V) σ → Prog α V (TSeen α (Option V) σ × List (Obj V))
  | new_ => Prog.newObject ⟨none, .dflt⟩ >>= fun o => pure (.handle o, [])
  | newCustom cmp => Prog.newObject ⟨none, ifaceCustom cmp⟩ >>= fun o => pure (.handle o, [])
  | op h o => opCodeI F h o >>= fun x => pure (.result x, [])
  | longest h k => iLongest F h k >>= fun x => pure (.match x, [])
  | num h => tNumEntries h >>= fun n => pure (.num n, [])
  | freeze h => tFreeze h >>= fun t => pure (.table, [t])
  | thaw t => xThaw (r.getD t .zero) >>= fun o => pure (.handle o, [])
  | xget t k => ixGet F (r.getD t .zero) k >>= fun x => pure (.result (.found x.1 x.2), [])
  | xlongest t k => ixLongest F (r.getD t .zero) k >>= fun x => pure (.match x, [])
  | xnum t => xNumEntries (r.getD t .zero) >>= fun n => pure (.num n, [])
  | walk t cb s => ixWalk F (r.getD t .zero) cb s >>= fun x => pure (.walked x, [])
  | diff t u cb s => ixDiff F (r.getD t .zero) (r.getD u .zero) cb s >>= fun x => pure (.walked x, [])
  | map t f s => ixMap F (r.getD t .zero) f s >>= fun x => pure (.mapped x.2, [x.1])
  | aggregate t => xAggregate F (r.getD t .zero) >>= fun x => pure (.table, [x])

/-- the state of a sequential program on the heap -/
structure IRun (α V σ : Type) where
  mem : Mem α V
  regs : List (Obj V)
  seen : List (TSeen α (Option V) σ)

/-- the first `n` calls of the program on the heap; `none` if one of them panics or does not return -/
def TProgram.onHeapI (F : Nat) (p : TProgram α (Option V) σ) : Nat → Option (IRun α V σ)
  | 0 => some ⟨⟨[], []⟩, [.zero], []⟩
  | n + 1 =>
    match p.onHeapI F n with
    | none => none
    | some r =>
      match p r.seen with
      | none => some r
      | some c =>
        match (c.codeI F r.regs).run r.mem with
        | (.ret x, m) => some ⟨m, r.regs ++ x.2, r.seen ++ [x.1]⟩
        | _ => none

end

/-! ### Forgetting the box of a nil value -/
namespace Trie
variable {α V : Type} [GoWord α]

/-- the trie with nil where the value is a boxed nil -/
def flat : Trie α (Option V) → Trie α V
  | nil => nil
  | node p d n h act l r => node p d.join n h act (flat l) (flat r)

theorem flat_numNodes (t : Trie α (Option V)) : t.flat.numNodes = t.numNodes := by cases t <;> rfl
theorem flat_height (t : Trie α (Option V)) : t.flat.height = t.height := by cases t <;> rfl
theorem flat_isNil (t : Trie α (Option V)) : t.flat.isNil = t.isNil := by cases t <;> rfl
theorem flat_isActive (t : Trie α (Option V)) : t.flat.isActive = t.isActive := by cases t <;> rfl
theorem flat_len (t : Trie α (Option V)) : t.flat.len = t.len := by cases t <;> rfl
theorem flat_data (t : Trie α (Option V)) : t.flat.data = t.data.join := by cases t <;> rfl
theorem flat_mk (p : Prefix α) (d : Option (Option V)) (a : Bool) (l r : Trie α (Option V)) :
    (Trie.mk p d a l r).flat = Trie.mk p d.join a l.flat r.flat := by
  simp only [Trie.mk, flat, flat_numNodes, flat_height]
theorem flat_deep (t : Trie α (Option V)) : t.flat.deep = t.deep := by
  induction t with
  | nil => rfl
  | node p d n h act l r ihl ihr => simp only [flat, deep, ihl, ihr]
theorem flat_nil_iff {t : Trie α (Option V)} : t.flat = .nil ↔ t = .nil := by
  cases t <;> simp [flat]
theorem flat_entries (t : Trie α (Option V)) : t.flat.entries = t.entries.map fun x => (x.1, x.2.join) := by
  induction t with
  | nil => rfl
  | node p d n h act l r ihl ihr =>
    simp only [flat, entries, ihl, ihr]
    cases act <;> simp

end Trie
end Addrs

import Verif.Table
/-
  The public types `Table` and `Table_` (ipv4/table.go, ipv4/tablex.go and the ipv6 copies) at the
  level of values: an operation on a `Table_` is a function from the table it holds to the new one.
  The type of values is `D`; its zero value is `default`, Go's `==` on it is equality.  References,
  panics and concurrency are modelled in layer 4 (see DESIGN.md).
-/
namespace Addrs
open GoWord

/-- The arguments of interface type `PrefixI` (ipv4/prefix.go:21-30): nil, an Address or a Prefix. -/
inductive PrefixI (α : Type) where
  | nil
  | address (a : α)
  | «prefix» (p : Prefix α)

/-- `prefix.Prefix()` after nil was replaced by `Prefix{}` (ipv4/tablex.go:84-86, ipv4/address.go:89-91,
    ipv4/prefix.go:90-92) -/
def PrefixI.code {α : Type} [GoWord α] : PrefixI α → Prefix α
  | .nil => Prefix.zeroValue
  | .address a => Prefix.ofAddress a
  | .prefix p => p

/-- Specification: the prefix that an argument stands for.  nil is the prefix of length 0, an address is
    the prefix of full length, a prefix is itself. -/
def PrefixI.toPrefix {α : Type} [GoWord α] : PrefixI α → Prefix α
  | .nil => ⟨zero, 0⟩
  | .address a => ⟨a, width α⟩
  | .prefix p => p

theorem PrefixI.code_eq {α : Type} [GoWord α] (k : PrefixI α) : k.code = k.toPrefix := by cases k <;> rfl

/-- A comparison of values as a `comparator` on `interface{}` values: ipv4/table.go:27-35 (custom) and
    ipv4/tablex.go:20-22 (`==`).  The custom one panics if an argument is nil; layer 4 models that,
    here two nils are equal and nil differs from every value, as with `==`. -/
def liftEq {D : Type} (e : D → D → Bool) : Option D → Option D → Bool
  | some a, some b => e a b
  | none, none => true
  | _, _ => false

/-- ipv4/tablex.go:219-222 `tableX` (ipv4/table.go:138-140, the value type of a table, wraps it).  `eq = none` is a nil
    comparator. -/
structure Table (α D : Type) where
  trie : Trie α D
  eq : Option (D → D → Bool)

/-- ipv4/table.go:257-289: the callbacks of `Diff`, `none` is nil -/
structure TableDiffCallbacks (α D σ : Type) where
  changed : Option (Prefix α → D → D → σ → σ × Bool)
  left : Option (Prefix α → D → σ → σ × Bool)
  right : Option (Prefix α → D → σ → σ × Bool)
  unchanged : Option (Prefix α → D → σ → σ × Bool)

namespace Table
variable {α D : Type} [GoWord α]

/-- Go's `==` on `interface{}` values -/
def goEq [DecidableEq D] : Option D → Option D → Bool := fun a b => decide (a = b)

/-- the zero value `Table[T]{}` -/
def empty : Table α D := ⟨.nil, none⟩
/-- ipv4/table.go:19-23 `NewTable_`, ipv4/tablex.go:26-33 -/
def new_ [DecidableEq D] : Table α D := ⟨.nil, some fun a b => decide (a = b)⟩
/-- ipv4/table.go:27-35 `NewTableCustomCompare_`, ipv4/tablex.go:37-44 -/
def newCustom (cmp : D → D → Bool) : Table α D := ⟨.nil, some cmp⟩

/-- the table's comparator; calling a nil comparator panics in Go (layer 4), the properties of this
    layer are about tables that have one -/
def cmp (t : Table α D) : Option D → Option D → Bool := liftEq (t.eq.getD fun _ _ => false)

/-- ipv4/tablex.go:250-252 `NumEntries`, ipv4/table.go:165-167 -/
def numEntries (t : Table α D) : Nat := t.trie.numNodes

/-- ipv4/tablex.go:80-97 `Insert`: the new table and the result -/
def insert (t : Table α D) (k : PrefixI α) (v : D) : Table α D × Bool :=
  match t.trie.insert ⟨true, false, fun _ _ => false⟩ k.code (some v) with
  | none => (t, false)
  | some n => (⟨n, t.eq⟩, true)

/-- ipv4/tablex.go:102-119 `Update` -/
def update (t : Table α D) (k : PrefixI α) (v : D) : Table α D × Bool :=
  match t.trie.insert ⟨false, true, t.cmp⟩ k.code (some v) with
  | none => (t, false)
  | some n => (⟨n, t.eq⟩, true)

/-- ipv4/tablex.go:123-133 `InsertOrUpdate`.  An error cannot occur (ipv4/node.go:317 would panic);
    layer 4 models and excludes that panic. -/
def insertOrUpdate (t : Table α D) (k : PrefixI α) (v : D) : Table α D :=
  match t.trie.insert ⟨true, true, t.cmp⟩ k.code (some v) with
  | none => t
  | some n => ⟨n, t.eq⟩

/-- ipv4/tablex.go:281-295 `longestMatch`: value, whether the match is exact, prefix; `none` is
    `matchNone` -/
def longestMatch' (t : Table α D) (k : PrefixI α) : Option (Option D × Bool × Prefix α) :=
  match t.trie.match k.code with
  | none => none
  | some x => some (x.2, decide (x.1.len = k.code.len), x.1)

variable [Inhabited D]

/-- `t, _ = value.(T)`: the zero value if the interface is nil -/
def unbox (d : Option D) : D := d.getD default

/-- ipv4/table.go:173-180 `Table.Get` and ipv4/table.go:69-77 `Table_.Get`, ipv4/tablex.go:258-266 -/
def get (t : Table α D) (k : PrefixI α) : D × Bool :=
  match t.longestMatch' k with
  | some (v, true, _) => (unbox v, true)
  | _ => (default, false)

/-- ipv4/table.go:186-193 `Table.LongestMatch` and ipv4/table.go:93-101 `Table_.LongestMatch`,
    ipv4/tablex.go:272-279 -/
def longestMatch (t : Table α D) (k : PrefixI α) : D × Bool × Prefix α :=
  match t.longestMatch' k with
  | some (v, _, p) => (unbox v, true, p)
  | none => (default, false, Prefix.zeroValue)

/-- ipv4/tablex.go:149-164, ipv4/table.go:82-86 `GetOrInsert` -/
def getOrInsert (t : Table α D) (k : PrefixI α) (v : D) : Table α D × D :=
  let x := t.trie.getOrInsert k.code (some v)
  (⟨x.1, t.eq⟩, unbox x.2)

omit [Inhabited D] in
/-- ipv4/tablex.go:180-194 `Remove` -/
def remove (t : Table α D) (k : PrefixI α) : Table α D × Bool :=
  match t.trie.del k.code with
  | none => (t, false)
  | some n => (⟨n, t.eq⟩, true)

/-- ipv4/table.go:220-226 `Aggregate`: the result has a nil comparator -/
def aggregate [DecidableEq D] (t : Table α D) : Table α D :=
  ⟨(t.trie.aggregate t.cmp goEq none).1, none⟩

/-- ipv4/table.go:220-226 `Aggregate`, if `geq` is `==` on the values; the comparison function is left as it is, as in
    ipv4/tablex.go:322-327 `tableX.Aggregate`, which only the tests call -/
def aggregateBy (geq : Option D → Option D → Bool) (t : Table α D) : Table α D :=
  ⟨(t.trie.aggregate t.cmp geq none).1, t.eq⟩

/-- ipv4/table.go:145-147 `Table_`, ipv4/tablex.go:227-232: a nil comparator becomes `==` -/
def table_ [DecidableEq D] (t : Table α D) : Table α D :=
  ⟨t.trie, some (t.eq.getD fun a b => decide (a = b))⟩

/-- ipv4/table.go:233-239 `Walk`, ipv4/tablex.go:334-336.  (A nil callback would panic at the first
    entry.) -/
def walk {σ : Type} (t : Table α D) (cb : Prefix α → D → σ → σ × Bool) (s : σ) : σ × Bool :=
  t.trie.walk (fun p d => cb p (unbox d)) s

/-- ipv4/table.go:257-289 `Diff` (twin on boxed values, used by tests only: ipv4/tablex.go:354-377) -/
def diff {σ : Type} (t u : Table α D) (cb : TableDiffCallbacks α D σ) (s : σ) : σ × Bool :=
  Trie.Diff
    { removed := cb.left.map fun f p d => f p (unbox d)
      added := cb.right.map fun f p d => f p (unbox d)
      modified := cb.changed.map fun f p d e => f p (unbox d) (unbox e)
      same := cb.unchanged.map fun f p d => f p (unbox d) }
    t.cmp t.trie u.trie s

/-- ipv4/table.go:309-322 `Map` (twin on boxed values, used by tests only: ipv4/tablex.go:397-405); the mapper may have side effects (state `σ`), `none` is a nil mapper -/
def map {σ : Type} (t : Table α D) (f : Option (Prefix α → D → σ → D × σ)) (s : σ) : Table α D × σ :=
  match f with
  | none => (t, s)
  | some f =>
    let x := t.trie.map (fun p d s => let y := f p (unbox d) s; (some y.1, y.2)) t.cmp s
    (⟨x.1, t.eq⟩, x.2)

end Table
end Addrs

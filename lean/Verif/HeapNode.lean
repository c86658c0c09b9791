import Verif.Heap
/-
  node.go as code on the heap (layer 4): with pointers, pointer comparisons, in-place writes, Go's `==`
  and comparators that may panic.  `fuel` bounds the depth of recursion.
-/
set_option linter.unusedSectionVars false
namespace Addrs
open GoWord

/-- What the model needs to know about the type `T` of a table's values: Go's `==` on it.  `none` is the
    run-time panic "comparing uncomparable type". -/
class GoType (D : Type) where
  eqq : D → D → Option Bool

/-- The type is comparable and its `==` is identity: integers, strings, pointers, structs of those.
    (Floating point numbers are not: NaN ≠ NaN, and -0.0 == 0.0.) -/
class Comparable (D : Type) extends GoType D where
  dec : DecidableEq D
  eqq_eq : ∀ a b : D, eqq a b = some (decide (a = b))

instance (priority := low) {D : Type} [Comparable D] : DecidableEq D := Comparable.dec

/-- `==` on the type never panics, but need not be identity: floating point numbers, and arrays and structs of
    them.  `same a b` says that `a == b`. -/
class Total (D : Type) extends GoType D where
  same : D → D → Bool
  total : ∀ a b : D, eqq a b = some (same a b)
  symm : ∀ a b : D, same a b = same b a
  trans : ∀ a b c : D, same a b = true → same b c = true → same a c = true

instance (priority := low) {D : Type} [Comparable D] : Total D where
  same a b := decide (a = b)
  total a b := Comparable.eqq_eq a b
  symm a b := by by_cases h : a = b <;> simp [h, Ne.symm, eq_comm]
  trans a b c := by intro h1 h2; rw [decide_eq_true_eq] at *; exact h1.trans h2

instance : Comparable Empty where
  eqq a _ := a.elim
  dec a := a.elim
  eqq_eq a _ := a.elim

instance : Comparable Nat where
  eqq a b := some (decide (a = b))
  dec := inferInstance
  eqq_eq _ _ := rfl

instance : Comparable Bool where
  eqq a b := some (decide (a = b))
  dec := inferInstance
  eqq_eq _ _ := rfl

/-- a type like `[]int`, which `==` cannot compare -/
structure GoSlice where
  elems : List Nat
deriving DecidableEq, Repr
instance : GoType GoSlice := ⟨fun _ _ => none⟩

/-- Go's `==` on two `interface{}` values holding nil or values of type `T` -/
def ifaceEq {D : Type} [GoType D] : Option D → Option D → Option Bool
  | none, none => some true
  | some a, some b => GoType.eqq a b
  | _, _ => some false

theorem ifaceEq_eq {D : Type} [Comparable D] (a b : Option D) : ifaceEq a b = some (decide (a = b)) := by
  cases a <;> cases b <;> simp [ifaceEq, Comparable.eqq_eq]

/-- `==` on two `interface{}` values holding nil or values of a type on which `==` does not panic -/
def isame {D : Type} [Total D] : Option D → Option D → Bool
  | none, none => true
  | some a, some b => Total.same a b
  | _, _ => false

theorem ifaceEq_isame {D : Type} [Total D] (a b : Option D) : ifaceEq a b = some (isame a b) := by
  cases a <;> cases b <;> simp [ifaceEq, isame, Total.total]

theorem isame_symm {D : Type} [Total D] (a b : Option D) : isame a b = isame b a := by
  cases a <;> cases b <;> simp [isame, Total.symm]

theorem isame_trans {D : Type} [Total D] {a b c : Option D} (h1 : isame a b = true) (h2 : isame b c = true) : isame a c = true := by
  cases a <;> cases b <;> cases c <;> simp only [isame, Bool.false_eq_true] at * <;> exact Total.trans _ _ _ h1 h2

theorem isame_eq {D : Type} [Comparable D] (a b : Option D) : isame a b = decide (a = b) := by
  cases a <;> cases b <;> simp [isame, Total.same]

/-- ipv4/node.go:132 `type comparator`; the result `none` is a panic -/
abbrev Comparator (D : Type) := Option D → Option D → Option Bool

/-- calling a nil function value -/
def nilComparator {D : Type} : Comparator D := fun _ _ => none
/-- ipv4/tablex.go:20-22 `defaultComparator` -/
def defaultComparator {D : Type} [GoType D] : Comparator D := ifaceEq
/-- ipv4/table.go:29-33: the type assertions `a.(T)` panic on a nil interface -/
def customComparator {D : Type} (cmp : D → D → Bool) : Comparator D
  | some a, some b => some (cmp a b)
  | _, _ => none

namespace Heap
open Prog
variable {α D : Type}

/-- `children[child]` -/
def Cell.child (c : Cell α D) (b : Bool) : Ptr := if b then c.r else c.l
/-- `n.children[child] = p` -/
def Cell.setChild (c : Cell α D) (b : Bool) (p : Ptr) : Cell α D :=
  if b then { c with r := p } else { c with l := p }

/-- ipv4/node.go:258-263 `NumNodes` -/
def numNodes : Ptr → Prog α D Nat
  | none => pure 0
  | some a => do
    let c ← deref (some a)
    pure c.size

/-- ipv4/node.go:266-271 `height` -/
def height : Ptr → Prog α D Nat
  | none => pure 0
  | some a => do
    let c ← deref (some a)
    pure c.h

/-- ipv4/node.go:560-565 `active` -/
def active : Ptr → Prog α D Bool
  | none => pure false
  | some a => do
    let c ← deref (some a)
    pure c.active

/-- ipv4/node.go:101-117 `mutate` on a non-nil node.  The mutator gets the node's fields and returns the
    new ones (and possibly something else); all in place. -/
def mutate {τ : Type} (me : Nat) (mutator : Cell α D → Prog α D (Cell α D × τ)) : Prog α D τ := do
  let c ← deref (some me)
  let x ← mutator c
  let c := x.1
  store me c
  let n0 ← numNodes c.l
  let n1 ← numNodes c.r
  let h0 ← height c.l
  let h1 ← height c.r
  let size := (n0 + n1) % 2 ^ 32
  store me { c with
    size := if c.active then (size + 1) % 2 ^ 32 else size
    h := (1 + max h0 h1) % 2 ^ 16 }
  pure x.2

variable [GoWord α]

/-- ipv4/node.go:126 `*mutated == *me`: struct equality compares the fields in source order and stops at
    the first that differs (the language specification); comparing the interface `Data` may panic -/
def structEq [GoType D] (a b : Cell α D) : Prog α D Bool :=
  if a.pfx ≠ b.pfx then pure false
  else do
    let e ← orPanic (ifaceEq a.data b.data)
    pure (e && decide (a.size = b.size) && decide (a.h = b.h) && decide (a.active = b.active) &&
      decide (a.l = b.l) && decide (a.r = b.r))

/-- ipv4/node.go:119-130 `copyMutate` on a non-nil node -/
def copyMutate {τ : Type} [GoType D] (me : Nat) (mutator : Cell α D → Prog α D (Cell α D × τ)) :
    Prog α D (Ptr × τ) := do
  let c ← deref (some me)
  let doppelganger ← new c
  let x ← mutate doppelganger mutator
  let mutated ← deref (some doppelganger)
  let c ← deref (some me)
  let same ← structEq mutated c
  pure (if same then some me else some doppelganger, x)

/-- ipv4/node.go:135-158 `Equal` -/
def equal (eq : Comparator D) : Nat → Ptr → Ptr → Prog α D Bool
  | 0, _, _ => stuck
  | fuel + 1, me, other =>
    if me = other then pure true
    else
      match me, other with
      | none, _ => pure false
      | _, none => pure false
      | some a, some b => do
        let c ← deref (some a)
        let d ← deref (some b)
        if c.active ≠ d.active then pure false
        else if c.pfx ≠ d.pfx then pure false
        else do
          let e ← if c.active then orPanic (eq c.data d.data) else pure true
          if !e then pure false
          else do
            let x ← equal eq fuel c.l d.l
            if !x then pure false
            else do
              let y ← equal eq fuel c.r d.r
              if !y then pure false else pure true

/-- ipv4/node.go:215-241 `Match` -/
def «match» (searchKey : Prefix α) : Nat → Ptr → Prog α D Ptr
  | 0, _ => stuck
  | _ + 1, none => pure none
  | fuel + 1, some a => do
    let c ← deref (some a)
    if searchKey.len < c.pfx.len then pure none
    else
      let (m, exact, _, child) := containsP c.pfx searchKey
      if !m then pure none
      else do
        let better ← if !exact then «match» searchKey fuel (Cell.child c child) else pure none
        match better with
        | some b => pure (some b)
        | none => if !c.active then pure none else pure (some a)

/-- ipv4/node.go:327-330 `insertOpts` without `flatten`, which only setNode.Insert sets; no API function
    calls that (see DESIGN.md) -/
structure InsertOpts (D : Type) where
  insert : Bool
  update : Bool
  eq : Comparator D

variable [GoType D]

/-- ipv4/node.go:367-469 `insert`: `node` is the new node, written in place.  The Boolean is `err ≠ nil`. -/
def insert (o : InsertOpts D) (node : Nat) : Nat → Ptr → Prog α D (Ptr × Bool)
  | 0, _ => stuck
  | _ + 1, none => do
    if !o.insert then pure (none, true)
    else do
      mutate node fun n => pure ({ n with active := true }, ())
      pure (some node, false)
  | fuel + 1, some a => do
    let me ← deref (some a)
    let nd ← deref (some node)
    match compareP me.pfx nd.pfx with
    | (.same, _, _, _) =>
      if me.active && !o.update then pure (some a, true)
      else if !me.active && !o.insert then pure (some a, true)
      else do
        mutate node fun n => do
          let e ← if me.active then orPanic (o.eq me.data n.data) else pure false
          let n := if e then { n with data := me.data } else n
          pure ({ n with l := me.l, r := me.r, active := true }, ())
        pure (some node, false)
    | (.contains, _, _, child) => do
      let (newChild, err) ← insert o node fuel (Cell.child me child)
      if err then pure (some a, true)
      else do
        let (newNode, _) ← copyMutate a fun n => pure (Cell.setChild n child newChild, ())
        pure (newNode, false)
    | (.isContained, _, _, child) =>
      if !o.insert then pure (some a, true)
      else do
        mutate node fun n => pure ({ Cell.setChild n child (some a) with active := true }, ())
        pure (some node, false)
    | (.disjoint, reversed, common, child) => do
      let (newChild, err) ← insert o node fuel none
      if err then pure (some a, true)
      else do
        let (l, r) := if child != reversed then (some a, newChild) else (newChild, some a)
        let newNode ← new ⟨Trie.joinPrefix me.pfx common, none, 0, 0, false, l, r⟩
        mutate newNode fun n => pure (n, ())
        pure (some newNode, false)

/-- `&trieNode{Prefix: key, Data: data}` -/
def freshCell (key : Prefix α) (data : Option D) : Cell α D := ⟨key, data, 0, 0, false, none, none⟩

/-- ipv4/node.go:323-325 `Insert` -/
def Insert (fuel : Nat) (me : Ptr) (key : Prefix α) (data : Option D) : Prog α D (Ptr × Bool) := do
  let node ← new (freshCell key data)
  insert ⟨true, false, nilComparator⟩ node fuel me

/-- ipv4/node.go:306-308 `Update` -/
def Update (fuel : Nat) (eq : Comparator D) (me : Ptr) (key : Prefix α) (data : Option D) :
    Prog α D (Ptr × Bool) := do
  let node ← new (freshCell key data)
  insert ⟨false, true, eq⟩ node fuel me

/-- ipv4/node.go:312-320 `InsertOrUpdate` -/
def InsertOrUpdate (fuel : Nat) (eq : Comparator D) (me : Ptr) (key : Prefix α) (data : Option D) :
    Prog α D Ptr := do
  let node ← new (freshCell key data)
  let (newHead, err) ← insert ⟨true, true, eq⟩ node fuel me
  if err then panic else pure newHead

/-- ipv4/node.go:161-199 `GetOrInsert`: head and result.  The deferred function (lines 162-173) runs at
    the end of every call, whichever `return` was taken. -/
def getOrInsert (key : Prefix α) (data : Option D) : Nat → Ptr → Prog α D (Ptr × Ptr)
  | 0, _ => stuck
  | fuel + 1, me => do
    let (head, result) ← match me with
      | none => pure (none, none)
      | some a => do
        let c ← deref (some a)
        if key.len < c.pfx.len then pure (none, none)
        else
          let (m, exact, _, child) := containsP c.pfx key
          if !m then pure (none, none)
          else if !exact then do
            let (newChild, result) ← getOrInsert key data fuel (Cell.child c child)
            let (head, _) ← copyMutate a fun n => pure (Cell.setChild n child newChild, ())
            pure (head, result)
          else if !c.active then pure (none, none)
          else pure (some a, some a)
    match result with
    | some r => pure (head, some r)
    | none => do
      let node ← new (freshCell key data)
      let (head, err) ← insert ⟨true, false, nilComparator⟩ node fuel me
      if err then panic else pure (head, some node)

/-- ipv4/node.go:485-556 `del` with `opts.flatten = false`, as `Delete` (ipv4/node.go:477-479) calls it.
    The Boolean is `err ≠ nil`. -/
def del (key : Prefix α) : Nat → Ptr → Prog α D (Ptr × Bool)
  | 0, _ => stuck
  | _ + 1, none => pure (none, true)
  | fuel + 1, some a => do
    let me ← deref (some a)
    match compareP me.pfx key with
    | (.same, _, _, _) =>
      if me.l = none then pure (me.r, false)
      else if me.r = none then pure (me.l, false)
      else do
        let (newNode, _) ← copyMutate a fun n => pure ({ n with active := false, data := none }, ())
        pure (newNode, false)
    | (.contains, _, _, child) => do
      let (newChild, err) ← del key fuel (Cell.child me child)
      if err then pure (some a, true)
      else if newChild = none && !me.active then pure (Cell.child me (!child), false)
      else do
        let (newNode, _) ← copyMutate a fun n => pure (Cell.setChild n child newChild, ())
        pure (newNode, false)
    | (.isContained, _, _, _) => pure (some a, true)
    | (.disjoint, _, _, _) => pure (some a, true)

/-- ipv4/node.go:592-597 `trieDiffHandler` with callbacks over a state `σ` -/
structure Handler (α D σ : Type) where
  removed : Cell α D → σ → Prog α D (σ × Bool)
  added : Cell α D → σ → Prog α D (σ × Bool)
  modified : Cell α D → Cell α D → σ → Prog α D (σ × Bool)
  /-- whether `Same` is nil -/
  sameNil : Bool

/-- `if !first { return false }; return second` -/
def andThen {σ : Type} (x : Prog α D (σ × Bool)) (k : σ → Prog α D (σ × Bool)) : Prog α D (σ × Bool) := do
  let y ← x
  if y.2 then k y.1 else pure (y.1, false)

/-- ipv4/node.go:599-688 `diff` -/
def diff {σ : Type} (h : Handler α D σ) : Nat → Ptr → Ptr → σ → Prog α D (σ × Bool)
  | 0, _, _, _ => stuck
  | fuel + 1, left, right, s =>
    if left = right && h.sameNil then pure (s, true)
    else
      match left, right with
      | none, none => pure (s, true)
      | some a, none => do
        let c ← deref (some a)
        andThen (h.removed c s) fun s =>
        andThen (diff h fuel c.l none s) fun s => diff h fuel c.r none s
      | none, some b => do
        let d ← deref (some b)
        andThen (h.added d s) fun s =>
        andThen (diff h fuel none d.l s) fun s => diff h fuel none d.r s
      | some a, some b => do
        let c ← deref (some a)
        let d ← deref (some b)
        match compareP c.pfx d.pfx with
        | (.same, _, _, _) =>
          andThen (h.modified c d s) fun s =>
          andThen (diff h fuel c.l d.l s) fun s => diff h fuel c.r d.r s
        | (.contains, _, _, child) =>
          andThen (h.removed c s) fun s =>
          let newRight := if child then (none, some b) else (some b, none)
          andThen (diff h fuel c.l newRight.1 s) fun s => diff h fuel c.r newRight.2 s
        | (.isContained, _, _, child) =>
          andThen (h.added d s) fun s =>
          let newLeft := if child then (none, some a) else (some a, none)
          andThen (diff h fuel newLeft.1 d.l s) fun s => diff h fuel newLeft.2 d.r s
        | (.disjoint, _, _, child) =>
          if child then
            andThen (diff h fuel (some a) none s) fun s => diff h fuel none (some b) s
          else
            andThen (diff h fuel none (some b) s) fun s => diff h fuel (some a) none s

/-- ipv4/node.go:692-745 `Diff` -/
def Diff {σ : Type} (fuel : Nat) (cb : Trie.DiffCallbacks α D σ) (eq : Comparator D) (a b : Ptr) (s : σ) :
    Prog α D (σ × Bool) :=
  let removed := Trie.orNoop1 cb.removed
  let added := Trie.orNoop1 cb.added
  let modified := Trie.orNoop2 cb.modified
  let common := Trie.orNoop1 cb.same
  diff
    { removed := fun n s => if n.active then pure (removed n.pfx n.data s) else pure (s, true)
      added := fun n s => if n.active then pure (added n.pfx n.data s) else pure (s, true)
      modified := fun l r s =>
        if l.active && r.active then do
          let e ← orPanic (eq l.data r.data)
          if !e then pure (modified l.pfx l.data r.data s) else pure (common l.pfx l.data s)
        else if l.active then pure (removed l.pfx l.data s)
        else if r.active then pure (added r.pfx r.data s)
        else pure (s, true)
      sameNil := cb.same.isNone }
    fuel a b s

/-- ipv4/node.go:574-590 `Walk` -/
def walk {σ : Type} (fuel : Nat) (cb : Prefix α → Option D → σ → σ × Bool) (t : Ptr) (s : σ) :
    Prog α D (σ × Bool) :=
  Diff fuel { removed := none, added := some cb, modified := none, same := none }
    (fun _ _ => some false) none t s

/-- ipv4/node.go:759-774 `createReturnValue`: `me` is the node, `c` its fields -/
def createReturnValue (eq : Comparator D) (me : Nat) (c : Cell α D) (isActive : Bool) (data : Option D)
    (l r : Ptr) : Prog α D Ptr := do
  let keep ← if isActive == c.active && decide (l = c.l) && decide (r = c.r) then orPanic (eq data c.data)
    else pure false
  if keep then pure (some me)
  else do
    let (x, _) ← copyMutate me fun n => do
      let d ← if isActive then do
          let same ← if n.data.isNone then pure false else orPanic (eq n.data data)
          if !same then pure data else pure n.data
        else pure none
      pure ({ n with active := isActive, data := d, l := l, r := r }, ())
    pure x

/-- ipv4/node.go:786-797 `childrenAggregate` -/
def childrenAggregate (eq : Comparator D) (p : Prefix α) (a b : Ptr) : Prog α D Bool := do
  match a, b with
  | some a, some b => do
    let c ← deref (some a)
    let d ← deref (some b)
    if c.active && d.active then
      if c.pfx.len = p.len + 1 then
        if c.pfx.len = d.pfx.len then orPanic (eq c.data d.data)
        else pure false
      else pure false
    else pure false
  | _, _ => pure false

/-- ipv4/node.go:751-822 `aggregate`; `u` is `parentUmbrella` -/
def aggregate (eq : Comparator D) : Nat → Option (Option D) → Ptr → Prog α D Ptr
  | 0, _, _ => stuck
  | _ + 1, _, none => pure none
  | fuel + 1, u, some me => do
    let c ← deref (some me)
    let redundant ← if c.active then
        match u with
        | some v => orPanic (eq v c.data)
        | none => pure false
      else pure false
    let isActive := c.active && !redundant
    let data := if redundant then none else c.data
    let u' := if isActive then some c.data else u
    let l ← aggregate eq fuel u' c.l
    let r ← aggregate eq fuel u' c.r
    let agg ← childrenAggregate eq c.pfx l r
    if agg then do
      let lc ← deref l
      createReturnValue eq me c true lc.data none none
    else if isActive then createReturnValue eq me c isActive data l r
    else if l = none then pure r
    else if r = none then pure l
    else createReturnValue eq me c isActive data l r

/-- ipv4/node.go:829-842 `Map`.  The mapper may have side effects (state `σ`). -/
def map {σ : Type} (f : Prefix α → Option D → σ → Option D × σ) (eq : Comparator D) :
    Nat → Ptr → σ → Prog α D (Ptr × σ)
  | 0, _, _ => stuck
  | _ + 1, none, s => pure (none, s)
  | fuel + 1, some me, s =>
    copyMutate me fun n => do
      let c ← deref (some me)
      let x := f c.pfx c.data s
      let e ← orPanic (eq c.data x.1)
      let (l, s) ← map f eq fuel c.l x.2
      let (r, s) ← map f eq fuel c.r s
      pure ({ n with data := if e then c.data else x.1, l := l, r := r }, s)

end Heap
end Addrs

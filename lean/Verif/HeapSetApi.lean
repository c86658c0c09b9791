import Verif.HeapRead
import Verif.HeapDiff
import Verif.HeapTable
import Verif.SetApiProofs
/-
  set.go as code on the heap and on mutable objects (layer 4), and the package as a `Lib` for the machine.
  Line numbers are those of ipv4/set.go; ipv6/set.go differs only in what it offers to measure a set.
-/
set_option linter.unusedSectionVars false
namespace Addrs
open GoWord

/-- What a family offers to measure a set and to test it for emptiness: in ipv4 `NumAddresses` and
    `NumAddresses() == 0` (ipv4/set.go:196-203), in ipv6 `IsEmpty` (ipv6/set.go:192-194). -/
class HeapFamily (α : Type) extends LawfulIPFamily α where
  Size : Type
  size : SetNode α → Size
  isZero : Size → Bool
  sizeCode : Nat → Ptr → Heap.SProg α Size
  isEmpty_eq : ∀ t, IPFamily.isEmptyNode t = isZero (size t)
  size_ok : ∀ {F : Nat} {t : SetNode α}, t.deep < F → ∀ {v : View α Empty} {p : Ptr} {W : Nat → Prop},
    Den v p t → Prog.wp False (fun x _ => x = size t) (sizeCode F p) v W

instance : HeapFamily (BitVec 32) where
  Size := BitVec 64
  size := SetNode.numAddresses
  isZero x := decide (x = 0#64)
  sizeCode := Heap.numAddresses
  isEmpty_eq _ := rfl
  size_ok h _ _ _ d := Heap.wp_numAddresses _ h d

instance : HeapFamily U128 where
  Size := Bool
  size := SetNode.isEmpty
  isZero x := x
  sizeCode := Heap.isEmpty
  isEmpty_eq _ := rfl
  size_ok h _ _ _ d := Heap.wp_isEmpty _ h d

/-- An argument of type `SetI` (ipv4/set.go:153-158); `obj` is a `Set_`, `obj none` the uninitialised one. -/
inductive SetArg (α : Type) where
  | nil
  | address (a : α)
  | «prefix» (p : Prefix α)
  | range (r : Range α)
  | set (t : Obj Empty)
  | obj (h : Option Nat)

/-- the receiver of a method that `Set_` and `Set` both have -/
inductive SetRecv where
  | obj (h : Option Nat)
  | set (t : Obj Empty)

/-- The calls of the set API.  `late` says in which order Go evaluates `me.s` and `other.Set()` in one
    expression, which the language leaves open; callbacks are functions with a state `σ`. -/
inductive SCall (α σ : Type) where
  /-- ipv4/set.go:19-23 `NewSet_` -/
  | new_
  | freeze (h : Option Nat)
  | thaw (t : Obj Empty)
  | insert (h : Option Nat) (a : SetArg α) (late : Bool)
  | remove (h : Option Nat) (a : SetArg α) (late : Bool)
  | size (r : SetRecv)
  | isEmpty (r : SetRecv)
  | contains (r : SetRecv) (a : SetArg α)
  | equal_ (h h' : Option Nat) (late : Bool)
  | equal (t u : Obj Empty)
  | union (r : SetRecv) (a : SetArg α)
  | intersection (r : SetRecv) (a : SetArg α)
  | difference (r : SetRecv) (a : SetArg α)
  | walk (t : Obj Empty) (cb : Prefix α → σ → σ × Bool) (s : σ)
  | find (t : Obj Empty) (a : SetArg α) (length : Nat)

/-- what the calls return -/
inductive SVal (α σ : Type) [HeapFamily α] where
  | unit
  | handle (o : Nat)
  | set (t : Obj Empty)
  | size (n : HeapFamily.Size α)
  | bool (b : Bool)
  | walked (x : σ × Bool)
  | found (x : Out (Prefix α))

/-- code on sets returns a Go value; the nodes of sets carry no data -/
instance : GoType Empty where
  eqq a _ := a.elim

namespace Heap
open Prog
variable {α : Type} [HeapFamily α]

/-- `other.Set().trie`: ipv4/address.go:94-96, ipv4/prefix.go:249-253, ipv4/range.go:101-105,
    ipv4/set.go:27-34, 191-193; nil was replaced by `Set{}` (e.g. ipv4/set.go:311-313).  `F` bounds the
    depth of recursion. -/
def argSet (F : Nat) : SetArg α → SProg α Ptr
  | .nil => pure none
  | .address a => fromPrefix (Prefix.ofAddress a)
  | .prefix p => fromPrefix p
  | .range r => fromRange F r
  | .set t => pure t.trie
  | .obj none => pure none
  | .obj (some o) => readObj o >>= fun m => pure m.trie

/-- ipv4/set.go:37-45 `mutate` around the mutators of `Insert` and `Remove` (ipv4/set.go:56-58, 71-73):
    `me.s.trie.Union(other.Set().trie)` -/
def smutate (F : Nat) (o : Nat) (f : Ptr → Ptr → SProg α Ptr) (a : SetArg α) (late : Bool) : SProg α Unit :=
  readObj o >>= fun old =>
    (if late then argSet F a >>= fun x => readObj o >>= fun m => f m.trie x
     else readObj o >>= fun m => argSet F a >>= fun x => f m.trie x) >>= fun new =>
    if decide (old.trie ≠ new) then
      swap o old.trie new >>= fun ok => if !ok then panic else pure ()
    else pure ()

/-- ipv4/set.go:49-59 `Insert` -/
def sInsert (F : Nat) (h : Option Nat) (a : SetArg α) (late : Bool) : SProg α Unit :=
  match h with
  | none => panic
  | some o => smutate F o (union F) a late

/-- ipv4/set.go:64-74 `Remove` -/
def sRemove (F : Nat) (h : Option Nat) (a : SetArg α) (late : Bool) : SProg α Unit :=
  match h with
  | none => panic
  | some o => smutate F o (difference F) a late

/-- ipv4/set.go:27-34 `Set_.Set` -/
def sFreeze (h : Option Nat) : SProg α (Obj Empty) :=
  match h with
  | none => pure .zero
  | some o => readObj o >>= fun m => pure ⟨m.trie, .nil⟩

/-- ipv4/set.go:167-173 `Set.Set_` -/
def sThaw (t : Obj Empty) : SProg α Nat := newObject ⟨t.trie, .nil⟩

/-- ipv4/set.go:201-203, 82-87 `NumAddresses`; ipv6/set.go:93-98, 192-194 `IsEmpty` -/
def sSize (F : Nat) : SetRecv → SProg α (HeapFamily.Size α)
  | .set t => HeapFamily.sizeCode F t.trie
  | .obj none => pure (HeapFamily.size (α := α) .nil)
  | .obj (some o) => readObj o >>= fun m => HeapFamily.sizeCode F m.trie

/-- ipv4/set.go:77-79, 196-198 `IsEmpty` -/
def sIsEmpty (F : Nat) (r : SetRecv) : SProg α Bool := sSize F r >>= fun n => pure (HeapFamily.isZero n)

/-- ipv4/set.go:301-307 `Set.Contains` -/
def xContains (F : Nat) (t : Ptr) (a : SetArg α) : SProg α Bool :=
  argSet F a >>= fun x => difference F x t >>= fun d => HeapFamily.sizeCode F d >>= fun n =>
    pure (HeapFamily.isZero n)

/-- ipv4/set.go:90-95 `Set_.Contains` -/
def sContains (F : Nat) : SetRecv → SetArg α → SProg α Bool
  | .set t, a => xContains F t.trie a
  | .obj (some o), a => readObj o >>= fun m => xContains F m.trie a
  | .obj none, .nil => pure true
  | .obj none, a => argSet F a >>= fun x => HeapFamily.sizeCode F x >>= fun n => pure (HeapFamily.isZero n)

/-- ipv4/set.go:98-103 `Set_.Equal` -/
def sEqual_ (F : Nat) (h h' : Option Nat) (late : Bool) : SProg α Bool :=
  match h with
  | none => sIsEmpty F (.obj h')
  | some o =>
    if late then argSet F (.obj h') >>= fun x => readObj o >>= fun m => setEqual F m.trie x
    else readObj o >>= fun m => argSet F (.obj h') >>= fun x => setEqual F m.trie x

/-- ipv4/set.go:310-338 `Set.Union`, `Set.Intersection`, `Set.Difference` -/
def xBin (F : Nat) (f : Ptr → Ptr → SProg α Ptr) (t : Ptr) (a : SetArg α) : SProg α (Obj Empty) :=
  argSet F a >>= fun x => f t x >>= fun p => pure ⟨p, .nil⟩

/-- ipv4/set.go:110-118 `Set_.Union` -/
def sUnion (F : Nat) : SetRecv → SetArg α → SProg α (Obj Empty)
  | .set t, a => xBin F (union F) t.trie a
  | .obj (some o), a => readObj o >>= fun m => xBin F (union F) m.trie a
  | .obj none, a => argSet F a >>= fun p => pure ⟨p, .nil⟩

/-- ipv4/set.go:121-129, 133-141 `Set_.Intersection`, `Set_.Difference` -/
def sBin (F : Nat) (f : Ptr → Ptr → SProg α Ptr) : SetRecv → SetArg α → SProg α (Obj Empty)
  | .set t, a => xBin F f t.trie a
  | .obj (some o), a => readObj o >>= fun m => xBin F f m.trie a
  | .obj none, _ => pure .zero

/-- ipv4/set.go:348-358 `FindAvailablePrefix`; `reserved.Set()` on a nil interface panics -/
def sFind (F : Nat) (t : Obj Empty) (a : SetArg α) (length : Nat) : SProg α (Out (Prefix α)) :=
  match a with
  | .nil => panic
  | a => argSet F a >>= fun x => findSmallestReserved length F t.trie x >>= fun p =>
    pure (match p with
      | none => .err
      | some p => .ok ⟨p.network.addr, length⟩)

end Heap

section
open Heap
variable {α σ : Type} [HeapFamily α]

/-- the code of each call -/
def SCall.code (F : Nat) : SCall α σ → Heap.SProg α (SVal α σ)
  | new_ => Prog.newObject ⟨none, .nil⟩ >>= fun o => pure (.handle o)
  | freeze h => sFreeze h >>= fun t => pure (.set t)
  | thaw t => sThaw t >>= fun o => pure (.handle o)
  | insert h a late => sInsert F h a late >>= fun _ => pure .unit
  | remove h a late => sRemove F h a late >>= fun _ => pure .unit
  | size r => sSize F r >>= fun n => pure (.size n)
  | isEmpty r => sIsEmpty F r >>= fun b => pure (.bool b)
  | contains r a => sContains F r a >>= fun b => pure (.bool b)
  | equal_ h h' late => sEqual_ F h h' late >>= fun b => pure (.bool b)
  | equal t u => setEqual F t.trie u.trie >>= fun b => pure (.bool b)
  | union r a => sUnion F r a >>= fun t => pure (.set t)
  | intersection r a => sBin F (Heap.intersect F) r a >>= fun t => pure (.set t)
  | difference r a => sBin F (Heap.difference F) r a >>= fun t => pure (.set t)
  -- ipv4/set.go:212-216 `WalkPrefixes`
  | walk t cb s => Heap.walk F (fun p _ => cb p) t.trie s >>= fun x => pure (.walked x)
  | find t a length => sFind F t a length >>= fun x => pure (.found x)

def SetArg.refs : SetArg α → List Nat
  | obj h => h.toList
  | _ => []
def SetArg.vals : SetArg α → List (Obj Empty)
  | set t => [t]
  | _ => []
def SetRecv.refs : SetRecv → List Nat
  | obj h => h.toList
  | _ => []
def SetRecv.vals : SetRecv → List (Obj Empty)
  | set t => [t]
  | _ => []

/-- the mutable objects among the arguments -/
def SCall.refs : SCall α σ → List Nat
  | new_ | thaw _ | equal _ _ | walk _ _ _ => []
  | freeze h => h.toList
  | insert h a _ | remove h a _ => h.toList ++ a.refs
  | size r | isEmpty r => r.refs
  | contains r a | union r a | intersection r a | difference r a => r.refs ++ a.refs
  | equal_ h h' _ => h.toList ++ h'.toList
  | find _ a _ => a.refs

/-- the `Set`s among the arguments -/
def SCall.vals : SCall α σ → List (Obj Empty)
  | new_ | freeze _ | equal_ _ _ _ => []
  | thaw t | walk t _ _ => [t]
  | insert _ a _ | remove _ a _ => a.vals
  | size r | isEmpty r => r.vals
  | contains r a | union r a | intersection r a | difference r a => r.vals ++ a.vals
  | equal t u => [t, u]
  | find t a _ => t :: a.vals

/-- the `Set`s in the result -/
def SVal.outs : SVal α σ → List (Obj Empty)
  | set t => [t]
  | _ => []

/-- valid prefixes and ranges -/
def SetArg.Ok : SetArg α → Prop
  | «prefix» p => p.WF
  | range r => r.Valid
  | _ => True

/-- Conditions on the arguments: prefixes and ranges are valid; an uninitialised `Set_` is not modified and
    `FindAvailablePrefix` not called with nil (these panic, see C41). -/
def SCall.pre : SCall α σ → Prop
  | insert h a _ | remove h a _ => h ≠ none ∧ a.Ok
  | contains _ a | union _ a | intersection _ a | difference _ a => a.Ok
  | find _ a _ => a ≠ .nil ∧ a.Ok
  | _ => True

/-- the package -/
def setLib (α σ : Type) [HeapFamily α] (F : Nat) : Lib α Empty where
  Call := SCall α σ
  Val := SVal α σ
  code := SCall.code F
  refs := SCall.refs
  vals := SCall.vals
  pre := SCall.pre
  outs := SVal.outs

end
end Addrs

import Verif.HeapNode
/-
  The machine: any number of goroutines, each running one API call, interleaved action by action.

  A goroutine that makes several calls one after the other is a sequence of such threads: a call may be
  started at any time with any objects that exist and any values returned earlier, so every client
  program is covered.  The log is a history variable: it records when calls start and end and every
  access to the root of a mutable object, in the order in which they happen.
-/
set_option linter.unusedSectionVars false
namespace Addrs
open GoWord

/-- the zero values `Table{}` and `Set{}` -/
def Obj.zero {D : Type} : Obj D := ⟨none, .nil⟩

/-- A package: the calls, what they return, and the code of each. -/
structure Lib (α D : Type) where
  Call : Type
  Val : Type
  code : Call → Prog α D Val
  /-- the mutable objects among the arguments -/
  refs : Call → List Nat
  /-- the immutable values among the arguments -/
  vals : Call → List (Obj D)
  /-- conditions on the other arguments -/
  pre : Call → Prop
  /-- the immutable values in the result -/
  outs : Val → List (Obj D)

/-- an access to the root of a mutable object -/
inductive Event (D : Type) where
  /-- the object was read -/
  | load (o : Nat) (ob : Obj D)
  /-- a successful compare-and-swap -/
  | swap (o : Nat) (old new : Ptr)
  /-- the object was made -/
  | made (o : Nat) (ob : Obj D)

/-- an entry of the log; `i` is the thread -/
inductive Entry (D Call Val : Type) where
  | start (i : Nat) (c : Call)
  | act (i : Nat) (e : Event D)
  /-- a compare-and-swap that expected the root `old` and found another -/
  | fail (i : Nat) (o : Nat) (old : Ptr)
  | done (i : Nat) (v : Val)

/-- the state of the machine; a thread is `none` after its call has returned -/
structure State {α D : Type} (L : Lib α D) where
  heap : List (Cell α D)
  objs : List (Obj D)
  threads : List (Option (Prog α D L.Val))
  log : List (Entry D L.Call L.Val)

namespace State
variable {α D : Type} {L : Lib α D}

def init : State L := ⟨[], [], [], []⟩

/-- start a call in a new thread -/
def spawn (s : State L) (c : L.Call) : State L :=
  { s with threads := s.threads ++ [some (L.code c)], log := s.log ++ [.start s.threads.length c] }

/-- continue thread `i` with `P` -/
def cont (s : State L) (i : Nat) (P : Prog α D L.Val) : State L :=
  { s with threads := s.threads.set i (some P) }

/-- append to the log -/
def note (s : State L) (e : Entry D L.Call L.Val) : State L := { s with log := s.log ++ [e] }

/-- the next action of a thread that is to continue with the given program -/
def actP (s : State L) (i : Nat) : Prog α D L.Val → Option (State L)
  | .ret v => some { s with threads := s.threads.set i none, log := s.log ++ [.done i v] }
  | .panic => none
  | .stuck => none
  | .alloc c k => some { s.cont i (k s.heap.length) with heap := s.heap ++ [c] }
  | .read p k =>
    match s.heap[p]? with
    | some c => some (s.cont i (k c))
    | none => some (s.cont i .panic)
  | .write p c k =>
    if p < s.heap.length then some { s.cont i k with heap := s.heap.set p c }
    else some (s.cont i .panic)
  | .load o k =>
    match s.objs[o]? with
    | some ob => some ((s.cont i (k ob)).note (.act i (.load o ob)))
    | none => some (s.cont i .panic)
  | .cas o old new k =>
    match s.objs[o]? with
    | some ob =>
      if ob.trie = old then
        some ({ s.cont i (k true) with objs := s.objs.set o { ob with trie := new } }.note
          (.act i (.swap o old new)))
      else some ((s.cont i (k false)).note (.fail i o old))
    | none => some (s.cont i .panic)
  | .newObj ob k =>
    some ({ s.cont i (k s.objs.length) with objs := s.objs ++ [ob] }.note
      (.act i (.made s.objs.length ob)))

/-- one action of thread `i`, if it can take one -/
def act (s : State L) (i : Nat) : Option (State L) :=
  match s.threads[i]? with
  | some (some P) => s.actP i P
  | _ => none

/-- `x` can be an argument of a call: a zero value, or it was returned by a call -/
def Known (s : State L) (x : Obj D) : Prop :=
  x = .zero ∨ ∃ i v, .done i v ∈ s.log ∧ x ∈ L.outs v

/-- the call can be started now -/
def CanStart (s : State L) (c : L.Call) : Prop :=
  L.pre c ∧ (∀ o ∈ L.refs c, o < s.objs.length) ∧ ∀ x ∈ L.vals c, s.Known x

/-- one step: a call is started or a thread takes one action -/
inductive Step (s : State L) : State L → Prop
  | spawn (c : L.Call) (h : s.CanStart c) : Step s (s.spawn c)
  | act (i : Nat) (s' : State L) (h : s.act i = some s') : Step s s'

/-- the states of all executions -/
inductive Reach : State L → Prop
  | init : Reach init
  | step (s s' : State L) (h : Reach s) (hs : s.Step s') : Reach s'

end State

/-! ### Reading the log -/

section
variable {D C V : Type}

/-- the objects after the logged actions -/
def replay1 (objs : List (Obj D)) : Entry D C V → List (Obj D)
  | .act _ (.swap o _ new) =>
    match objs[o]? with
    | some ob => objs.set o { ob with trie := new }
    | none => objs
  | .act _ (.made _ ob) => objs ++ [ob]
  | _ => objs

/-- the objects after the logged actions -/
def replay (log : List (Entry D C V)) : List (Obj D) := log.foldl replay1 []

theorem replay_snoc (log : List (Entry D C V)) (e : Entry D C V) :
    replay (log ++ [e]) = replay1 (replay log) e := by simp [replay]

/-- the root accesses of thread `i` -/
def own (i : Nat) (log : List (Entry D C V)) : List (Event D) :=
  log.filterMap fun
    | .act j e => if j = i then some e else none
    | _ => none

@[simp] theorem own_nil (i : Nat) : own i ([] : List (Entry D C V)) = [] := rfl
theorem own_append (i : Nat) (a b : List (Entry D C V)) : own i (a ++ b) = own i a ++ own i b := by
  simp [own]
@[simp] theorem own_snoc_act (i : Nat) (log : List (Entry D C V)) (e : Event D) :
    own i (log ++ [.act i e]) = own i log ++ [e] := by simp [own_append, own]
theorem own_snoc_other {i j : Nat} (h : j ≠ i) (log : List (Entry D C V)) (e : Event D) :
    own i (log ++ [.act j e]) = own i log := by simp [own_append, own, h]
@[simp] theorem own_snoc_start (i j : Nat) (log : List (Entry D C V)) (c : C) :
    own i (log ++ [.start j c]) = own i log := by simp [own_append, own]
@[simp] theorem own_snoc_done (i j : Nat) (log : List (Entry D C V)) (v : V) :
    own i (log ++ [.done j v]) = own i log := by simp [own_append, own]
@[simp] theorem own_snoc_fail (i j : Nat) (log : List (Entry D C V)) (o : Nat) (q : Ptr) :
    own i (log ++ [.fail j o q]) = own i log := by simp [own_append, own]
theorem mem_own {i : Nat} {log : List (Entry D C V)} {e : Event D} :
    e ∈ own i log ↔ .act i e ∈ log := by
  unfold own
  rw [List.mem_filterMap]
  constructor
  · rintro ⟨x, hx, h⟩
    cases x <;> simp at h
    obtain ⟨rfl, rfl⟩ := h
    exact hx
  · intro h
    exact ⟨_, h, by simp⟩

/-- the thread of an entry -/
def Entry.tid : Entry D C V → Nat
  | .start i _ | .act i _ | .fail i _ _ | .done i _ => i

/-- The entry agrees with the log `a` before it. -/
def EntryOk (a : List (Entry D C V)) : Entry D C V → Prop
  | .act _ (.load o ob) => (replay a)[o]? = some ob
  | .act _ (.swap o old _) => ∃ ob, (replay a)[o]? = some ob ∧ ob.trie = old
  | .act _ (.made o _) => o = (replay a).length
  | .fail _ o old => ∃ ob, (replay a)[o]? = some ob ∧ ob.trie ≠ old
  | _ => True

/-- every entry of the log agrees with what is before it -/
def LogOk (P : List (Entry D C V) → Entry D C V → Prop) (log : List (Entry D C V)) : Prop :=
  ∀ a e b, log = a ++ e :: b → P a e

theorem LogOk.nil (P : List (Entry D C V) → Entry D C V → Prop) : LogOk P [] := by
  intro a e b h; simp at h

theorem LogOk.snoc {P : List (Entry D C V) → Entry D C V → Prop} {log : List (Entry D C V)}
    (h : LogOk P log) {e : Entry D C V} (he : P log e) : LogOk P (log ++ [e]) := by
  intro a x b hx
  rcases List.eq_nil_or_concat b with rfl | ⟨b', y, rfl⟩
  · have := List.append_inj' (s₁ := log) (t₁ := [e]) (s₂ := a) (t₂ := [x]) (by simpa using hx) rfl
    obtain ⟨rfl, h2⟩ := this
    simp at h2
    exact h2 ▸ he
  · have hx' : log ++ [e] = (a ++ x :: b') ++ [y] := by simpa using hx
    obtain ⟨h1, _⟩ := List.append_inj' hx' rfl
    exact h a x b' h1

end
end Addrs

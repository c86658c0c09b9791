import Verif.Seq
/-
  Sequential programs over the set API, and what they would see if sets were plain values.
-/
set_option linter.unusedSectionVars false
namespace Addrs
open GoWord LawfulGoWord Heap

/-- An argument of type `SetI` as a program writes it: `set t` is the `t`th `Set` that the program has got
    (0 is `Set{}`), `obj h` a variable of type `Set_` (`none` an uninitialised one). -/
inductive SArg (α : Type) where
  | nil
  | address (a : α)
  | «prefix» (p : Prefix α)
  | range (r : Range α)
  | set (t : Nat)
  | obj (h : Option Nat)

/-- a receiver as a program writes it -/
inductive SRecv where
  | obj (h : Option Nat)
  | set (t : Nat)

/-- A call as a program writes it.  `late` is the order of evaluation that Go leaves open. -/
inductive SCmd (α σ : Type) where
  | new_
  | freeze (h : Option Nat)
  | thaw (t : Nat)
  | insert (h : Option Nat) (a : SArg α) (late : Bool)
  | remove (h : Option Nat) (a : SArg α) (late : Bool)
  | size (r : SRecv)
  | isEmpty (r : SRecv)
  | contains (r : SRecv) (a : SArg α)
  | equal_ (h h' : Option Nat) (late : Bool)
  | equal (t u : Nat)
  | union (r : SRecv) (a : SArg α)
  | intersection (r : SRecv) (a : SArg α)
  | difference (r : SRecv) (a : SArg α)
  | walk (t : Nat) (cb : Prefix α → σ → σ × Bool) (s : σ)
  | find (t : Nat) (a : SArg α) (length : Nat)

/-- what a program can see of the result of a call -/
inductive SSeen (α σ : Type) [HeapFamily α] where
  | unit
  | handle (o : Nat)
  | set
  | size (n : HeapFamily.Size α)
  | bool (b : Bool)
  | walked (x : σ × Bool)
  | found (x : Out (Prefix α))

/-- the world as the program should see it: variables that hold sets, and the `Set`s it has got; `S` is what a
    set is taken to be -/
structure SWorld (S : Type) where
  vars : List S
  vals : List S

/-- the call on the heap; `r` are the `Set`s the program has got -/
def SArg.call {α : Type} (r : List (Obj Empty)) : SArg α → SetArg α
  | nil => .nil
  | address a => .address a
  | «prefix» p => .prefix p
  | range x => .range x
  | set t => .set (r.getD t .zero)
  | obj h => .obj h
def SRecv.call (r : List (Obj Empty)) : SRecv → SetRecv
  | obj h => .obj h
  | set t => .set (r.getD t .zero)
def SCmd.call {α σ : Type} (r : List (Obj Empty)) : SCmd α σ → SCall α σ
  | new_ => .new_
  | freeze h => .freeze h
  | thaw t => .thaw (r.getD t .zero)
  | insert h a late => .insert h (a.call r) late
  | remove h a late => .remove h (a.call r) late
  | size x => .size (x.call r)
  | isEmpty x => .isEmpty (x.call r)
  | contains x a => .contains (x.call r) (a.call r)
  | equal_ h h' late => .equal_ h h' late
  | equal t u => .equal (r.getD t .zero) (r.getD u .zero)
  | union x a => .union (x.call r) (a.call r)
  | intersection x a => .intersection (x.call r) (a.call r)
  | difference x a => .difference (x.call r) (a.call r)
  | walk t cb s => .walk (r.getD t .zero) cb s
  | find t a length => .find (r.getD t .zero) (a.call r) length

namespace SWorld
variable {S : Type} [Inhabited S]
/-- what variable `h` holds; an uninitialised one reads as the default, the empty set -/
def var (w : SWorld S) : Option Nat → S
  | none => default
  | some o => (w.vars[o]?).getD default
/-- the `t`th `Set` -/
def val (w : SWorld S) (t : Nat) : S := (w.vals[t]?).getD default
def recv (w : SWorld S) : SRecv → S
  | .obj h => w.var h
  | .set t => w.val t
/-- a new variable -/
def declare (w : SWorld S) (a : S) : SWorld S := { w with vars := w.vars ++ [a] }
/-- one more `Set` -/
def got (w : SWorld S) (a : S) : SWorld S := { w with vals := w.vals ++ [a] }
/-- assignment to variable `h` -/
def assign (w : SWorld S) (h : Option Nat) (a : S) : SWorld S :=
  match h with
  | none => w
  | some o => { w with vars := w.vars.set o a }

/-- The variables and values that the call mentions exist. -/
def HasVar (w : SWorld S) (h : Option Nat) : Prop := ∀ i, h = some i → i < w.vars.length
def HasVal (w : SWorld S) (t : Nat) : Prop := t < w.vals.length
def HasRecv (w : SWorld S) : SRecv → Prop
  | .obj h => w.HasVar h
  | .set t => w.HasVal t
def HasArg {α : Type} (w : SWorld S) : SArg α → Prop
  | .obj h => w.HasVar h
  | .set t => w.HasVal t
  | _ => True
end SWorld

/-- a valid argument -/
def SArg.Ok {α : Type} [LawfulGoWord α] : SArg α → Prop
  | «prefix» p => p.WF
  | range r => r.Valid
  | _ => True

section
variable {α σ : Type} [HeapFamily α]

instance : Inhabited (IPSet α) := ⟨IPSet.empty⟩

/-- the `Set` that an argument stands for -/
def SWorld.arg (w : SWorld (IPSet α)) : SArg α → IPSet α
  | .nil => IPSet.empty
  | .address a => (SetI.address a).toSet
  | .prefix p => (SetI.prefix p).toSet
  | .range r => (SetI.range r).toSet
  | .set t => w.val t
  | .obj h => w.var h

def SVal.seen : SVal α σ → SSeen α σ
  | unit => .unit
  | handle o => .handle o
  | set _ => .set
  | size n => .size n
  | bool b => .bool b
  | walked x => .walked x
  | found x => .found x

/-- The call as it should be: `Set_`s are variables, `Set`s are values. -/
def SCmd.ideal (w : SWorld (IPSet α)) : SCmd α σ → SSeen α σ × SWorld (IPSet α)
  | new_ => (.handle w.vars.length, w.declare IPSet.empty)
  | freeze h => (.set, w.got (w.var h))
  | thaw t => (.handle w.vars.length, w.declare (w.val t))
  | insert h a _ => (.unit, w.assign h ((w.var h).union (.set (w.arg a))))
  | remove h a _ => (.unit, w.assign h ((w.var h).difference (.set (w.arg a))))
  | size r => (.size (w.recv r).size, w)
  | isEmpty r => (.bool (w.recv r).isEmpty, w)
  | contains r a => (.bool ((w.recv r).contains (.set (w.arg a))), w)
  | equal_ h h' _ => (.bool ((w.var h).equal (w.var h')), w)
  | equal t u => (.bool ((w.val t).equal (w.val u)), w)
  | union r a => (.set, w.got ((w.recv r).union (.set (w.arg a))))
  | intersection r a => (.set, w.got ((w.recv r).intersection (.set (w.arg a))))
  | difference r a => (.set, w.got ((w.recv r).difference (.set (w.arg a))))
  | walk t cb s => (.walked ((w.val t).walkPrefixes cb s), w)
  | find t a length => (.found ((w.val t).findAvailablePrefix (.set (w.arg a)) length), w)

/-- The call can be made: the variables and values exist, prefixes and ranges are valid, an uninitialised
    `Set_` is not modified and `FindAvailablePrefix` not called with nil (these panic, C41). -/
def SCmd.Legal {S : Type} [Inhabited S] (w : SWorld S) : SCmd α σ → Prop
  | new_ => True
  | freeze h => w.HasVar h
  | thaw t | walk t _ _ => w.HasVal t
  | insert h a _ | remove h a _ => h ≠ none ∧ w.HasVar h ∧ w.HasArg a ∧ a.Ok
  | size r | isEmpty r => w.HasRecv r
  | contains r a | union r a | intersection r a | difference r a => w.HasRecv r ∧ w.HasArg a ∧ a.Ok
  | equal_ h h' _ => w.HasVar h ∧ w.HasVar h'
  | equal t u => w.HasVal t ∧ w.HasVal u
  | find t a _ => w.HasVal t ∧ w.HasArg a ∧ a.Ok ∧ a ≠ .nil

/-- A sequential program: what it does next is a function of what it has seen so far; `none` ends it. -/
abbrev SProgram (α σ : Type) [HeapFamily α] := List (SSeen α σ) → Option (SCmd α σ)

/-- the state of a sequential program on the heap -/
structure SRun (α σ : Type) [HeapFamily α] where
  mem : Mem α Empty
  regs : List (Obj Empty)
  seen : List (SSeen α σ)

/-- the first `n` calls of the program on the heap; `none` if one of them panics or does not return -/
def SProgram.onHeap (F : Nat) (p : SProgram α σ) : Nat → Option (SRun α σ)
  | 0 => some ⟨⟨[], []⟩, [.zero], []⟩
  | n + 1 =>
    match SProgram.onHeap F p n with
    | none => none
    | some r =>
      match p r.seen with
      | none => some r
      | some c =>
        match ((c.call r.regs).code F).run r.mem with
        | (.ret x, m) => some ⟨m, r.regs ++ x.outs, r.seen ++ [x.seen]⟩
        | _ => none

/-- the first `n` calls of the program as they should be -/
def SProgram.ideally (p : SProgram α σ) : Nat → SWorld (IPSet α) × List (SSeen α σ)
  | 0 => (⟨[], [IPSet.empty]⟩, [])
  | n + 1 =>
    let r := SProgram.ideally p n
    match p r.2 with
    | none => r
    | some c => ((c.ideal r.1).2, r.2 ++ [(c.ideal r.1).1])

/-- every call that the program makes is legal -/
def SProgram.Legal (p : SProgram α σ) : Prop :=
  ∀ n c, p (SProgram.ideally p n).2 = some c → c.Legal (SProgram.ideally p n).1

/-! ### The simulation -/

/-- what the program can see of the memory, and the `Set`s that it has got, are the world -/
structure SWorld.Matches (w : SWorld (IPSet α)) (m : Sight α Empty) (regs : List (Obj Empty)) : Prop where
  nvars : m.objs.length = w.vars.length
  vars : ∀ {o : Nat} {ob : Obj Empty} {a : IPSet α}, m.objs[o]? = some ob → w.vars[o]? = some a → ob.Holds m.nodes a
  nvals : regs.length = w.vals.length
  vals : ∀ {t : Nat} {ob : Obj Empty} {a : IPSet α}, regs[t]? = some ob → w.vals[t]? = some a → ob.Holds m.nodes a

namespace SWorld.Matches
variable {w : SWorld (IPSet α)} {m m' : Sight α Empty} {regs : List (Obj Empty)}

theorem val (M : w.Matches m regs) {t : Nat} (ht : w.HasVal t) : (regs.getD t .zero).Holds m.nodes (w.val t) := by
  have ht' : t < regs.length := by rw [M.nvals]; exact ht
  have h1 : regs[t]? = some regs[t] := List.getElem?_eq_getElem ht'
  have h2 : w.vals[t]? = some w.vals[t] := List.getElem?_eq_getElem ht
  have := M.vals h1 h2
  rw [List.getD_eq_getElem?_getD, h1, SWorld.val, h2]
  exact this

theorem var (M : w.Matches m regs) {o : Nat} {ob : Obj Empty} (h : m.objs[o]? = some ob) : ob.Holds m.nodes (w.var (some o)) := by
  have ho : o < w.vars.length := by rw [← M.nvars]; exact (List.getElem?_eq_some_iff.mp h).1
  have h2 : w.vars[o]? = some w.vars[o] := List.getElem?_eq_getElem ho
  have := M.vars h h2
  simpa [SWorld.var, h2] using this

theorem keep (M : w.Matches m regs) (h : m'.objs = m.objs) (le : m.nodes ≤ m'.nodes) : w.Matches m' regs where
  nvars := by rw [h]; exact M.nvars
  vars := fun h1 h2 => by rw [h] at h1; exact (M.vars h1 h2).mono le
  nvals := M.nvals
  vals := fun h1 h2 => (M.vals h1 h2).mono le

theorem got (M : w.Matches m regs) {t : Obj Empty} {a : IPSet α} (h : t.Holds m.nodes a) : (w.got a).Matches m (regs ++ [t]) where
  nvars := M.nvars
  vars := M.vars
  nvals := by simp [SWorld.got, M.nvals]
  vals := by
    intro i ob b h1 h2
    simp only [SWorld.got] at h2
    rcases Nat.lt_or_ge i regs.length with hl | hl
    · rw [List.getElem?_append_left hl] at h1
      rw [List.getElem?_append_left (by rw [← M.nvals]; exact hl)] at h2
      exact M.vals h1 h2
    · rw [List.getElem?_append_right hl] at h1
      rw [List.getElem?_append_right (by rw [← M.nvals]; exact hl), ← M.nvals] at h2
      have : i - regs.length = 0 := by
        have := (List.getElem?_eq_some_iff.mp h1).1
        simp at this; omega
      rw [this] at h1 h2
      simp at h1 h2
      subst h1 h2
      exact h

theorem declare (M : w.Matches m regs) {ob : Obj Empty} {a : IPSet α} (h : m'.objs = m.objs ++ [ob]) (le : m.nodes ≤ m'.nodes)
    (hs : ob.Holds m'.nodes a) : (w.declare a).Matches m' regs where
  nvars := by rw [h]; simp [SWorld.declare, M.nvars]
  nvals := M.nvals
  vals := fun h1 h2 => (M.vals h1 h2).mono le
  vars := by
    intro i x b h1 h2
    rw [h] at h1
    simp only [SWorld.declare] at h2
    rcases Nat.lt_or_ge i m.objs.length with hl | hl
    · rw [List.getElem?_append_left hl] at h1
      rw [List.getElem?_append_left (by rw [← M.nvars]; exact hl)] at h2
      exact (M.vars h1 h2).mono le
    · rw [List.getElem?_append_right hl] at h1
      rw [List.getElem?_append_right (by rw [← M.nvars]; exact hl), ← M.nvars] at h2
      have : i - m.objs.length = 0 := by
        have := (List.getElem?_eq_some_iff.mp h1).1
        simp at this; omega
      rw [this] at h1 h2
      simp at h1 h2
      subst h1 h2
      exact hs

theorem assign (M : w.Matches m regs) {o : Nat} {ob : Obj Empty} {S : IPSet α} (h : m'.objs = m.objs.set o ob)
    (le : m.nodes ≤ m'.nodes) (hs : ob.Holds m'.nodes S) : (w.assign (some o) S).Matches m' regs where
  nvars := by rw [h]; simp [SWorld.assign, M.nvars]
  nvals := M.nvals
  vals := fun h1 h2 => (M.vals h1 h2).mono le
  vars := by
    intro i x b h1 h2
    rw [h] at h1
    simp only [SWorld.assign] at h2
    by_cases e : o = i
    · subst e
      have l1 := (List.getElem?_eq_some_iff.mp h1).1
      have l2 := (List.getElem?_eq_some_iff.mp h2).1
      simp only [List.length_set] at l1 l2
      rw [List.getElem?_set_self l1] at h1
      rw [List.getElem?_set_self l2] at h2
      cases h1; cases h2
      exact hs
    · rw [List.getElem?_set_ne e] at h1 h2
      exact (M.vars h1 h2).mono le

theorem unassigned (M : w.Matches m regs) {o : Nat} {ob : Obj Empty} {S : IPSet α} (ho : m.objs[o]? = some ob)
    (hs : ob.Holds m.nodes S) : (w.assign (some o) S).Matches m regs :=
  M.assign (ob := ob) (by
    obtain ⟨h1, h2⟩ := List.getElem?_eq_some_iff.mp ho
    rw [← h2]; exact (List.set_getElem_self h1).symm) (fun _ _ h => h) hs

/-- reading an argument -/
theorem arg (M : w.Matches m regs) {a : SArg α} (ha : w.HasArg a) {v : View α Empty} (le : m.nodes ≤ v) {evs tr : List (Event Empty)}
    {A : IPSet α} {objs' : List (Obj Empty)} (h : (a.call regs).Is v evs A) (hp : Plays m.objs (evs ++ tr) objs') :
    A = w.arg a ∧ Plays m.objs tr objs' := by
  cases a with
  | nil => obtain ⟨rfl, rfl⟩ := h; exact ⟨rfl, hp⟩
  | address x => obtain ⟨rfl, rfl⟩ := h; exact ⟨rfl, hp⟩
  | «prefix» x => obtain ⟨rfl, rfl, _⟩ := h; exact ⟨rfl, hp⟩
  | range x => obtain ⟨rfl, rfl, _⟩ := h; exact ⟨rfl, hp⟩
  | set t => obtain ⟨rfl, h⟩ := h; exact ⟨h.functional ((M.val ha).mono le), hp⟩
  | obj o =>
    cases o with
    | none => obtain ⟨rfl, rfl⟩ := h; exact ⟨rfl, hp⟩
    | some o =>
      obtain ⟨ob, rfl, h⟩ := h
      obtain ⟨h1, h2⟩ := hp
      exact ⟨h.functional ((M.var h1).mono le), h2⟩

/-- reading a receiver -/
theorem recv (M : w.Matches m regs) {r : SRecv} (ha : w.HasRecv r) {v : View α Empty} (le : m.nodes ≤ v) {evs tr : List (Event Empty)}
    {A : IPSet α} {objs' : List (Obj Empty)} (h : (r.call regs).Is v evs A) (hp : Plays m.objs (evs ++ tr) objs') :
    A = w.recv r ∧ Plays m.objs tr objs' := by
  cases r with
  | set t => obtain ⟨rfl, h⟩ := h; exact ⟨h.functional ((M.val ha).mono le), hp⟩
  | obj o =>
    cases o with
    | none => obtain ⟨rfl, rfl⟩ := h; exact ⟨rfl, hp⟩
    | some o =>
      obtain ⟨ob, rfl, h⟩ := h
      obtain ⟨h1, h2⟩ := hp
      exact ⟨h.functional ((M.var h1).mono le), h2⟩

/-- a function of the receiver -/
theorem read (M : w.Matches m regs) {r : SRecv} (ha : w.HasRecv r) {v : View α Empty} (le : m.nodes ≤ v) {tr : List (Event Empty)}
    {P : IPSet α → Prop} {objs' : List (Obj Empty)} (h : SRead (r.call regs) P tr v) (hp : Plays m.objs tr objs') :
    P (w.recv r) ∧ objs' = m.objs := by
  obtain ⟨S, h1, h2⟩ := h
  obtain ⟨rfl, h3⟩ := M.recv ha le h1 (tr := []) (by rw [List.append_nil]; exact hp)
  exact ⟨h2, h3⟩

/-- a function of the receiver and the argument -/
theorem read2 (M : w.Matches m regs) {r : SRecv} {a : SArg α} (hr : w.HasRecv r) (ha : w.HasArg a) {v : View α Empty} (le : m.nodes ≤ v)
    {tr : List (Event Empty)} {P : IPSet α → IPSet α → Prop} {objs' : List (Obj Empty)}
    (h : SRead2 (r.call regs) (a.call regs) P tr v) (hp : Plays m.objs tr objs') :
    P (w.recv r) (w.arg a) ∧ objs' = m.objs := by
  obtain ⟨S, A, t1, t2, h1, h2, e | e, h3⟩ := h
  · rw [e] at hp
    obtain ⟨rfl, hp⟩ := M.recv hr le h1 hp
    rw [← List.append_nil t2] at hp
    obtain ⟨rfl, hp⟩ := M.arg ha le h2 hp
    exact ⟨h3, hp⟩
  · rw [e] at hp
    obtain ⟨rfl, hp⟩ := M.arg ha le h2 hp
    rw [← List.append_nil t1] at hp
    obtain ⟨rfl, hp⟩ := M.recv hr le h1 hp
    exact ⟨h3, hp⟩

/-- a write -/
theorem write (M : w.Matches m regs) {o : Nat} {a : SArg α} (ha : w.HasArg a) (le : m.nodes ≤ m'.nodes) {tr : List (Event Empty)}
    {f : IPSet α → SetI α → IPSet α} {fr : OldRoots α Empty} (h : SWriteSpec o (a.call regs) f fr tr m'.nodes) (hp : Plays m.objs tr m'.objs) :
    (w.assign (some o) (f (w.var (some o)) (.set (w.arg a)))).Matches m' regs := by
  obtain ⟨ob1, ob2, S2, A, evs, pre, post, h1, h2, h3, h4, h5⟩ := h
  -- the reads
  have reads : ∀ {tl}, Plays m.objs ((.load o ob1 :: pre ++ .load o ob2 :: post) ++ tl) m'.objs →
      m.objs[o]? = some ob1 ∧ S2 = w.var (some o) ∧ A = w.arg a ∧ Plays m.objs tl m'.objs := by
    intro tl hp
    simp only [List.cons_append, List.append_assoc] at hp
    obtain ⟨k1, hp⟩ := hp
    rcases h4 with ⟨rfl, rfl⟩ | ⟨rfl, rfl⟩
    · obtain ⟨k2, hp⟩ := hp
      obtain ⟨k3, hp⟩ := M.arg ha le h3 hp
      exact ⟨k1, h2.functional ((M.var k2).mono le), k3, hp⟩
    · obtain ⟨k3, hp⟩ := M.arg ha le h3 hp
      obtain ⟨k2, hp⟩ := hp
      exact ⟨k1, h2.functional ((M.var k2).mono le), k3, hp⟩
  rcases h5 with ⟨e, h5, _⟩ | ⟨new, e, _, h5⟩
  · rw [e, ← List.append_nil (_ :: _ ++ _)] at hp
    obtain ⟨k1, rfl, rfl, hp⟩ := reads hp
    exact (M.keep hp le).unassigned (by rw [hp]; exact k1) h5
  · rw [e] at hp
    obtain ⟨k1, rfl, rfl, ob, k2, _, hp⟩ := reads hp
    rw [k1] at k2
    cases k2
    have := (M.var k1).2.2
    refine M.assign hp le ?_
    rw [this]; exact h5

end SWorld.Matches

theorem SArg.call_ok {regs : List (Obj Empty)} {a : SArg α} (h : a.Ok) : (a.call regs).Ok := by
  cases a <;> first | exact h | trivial

theorem SArg.call_ne {regs : List (Obj Empty)} {a : SArg α} (h : a ≠ .nil) : a.call regs ≠ .nil := by
  cases a <;> first | exact (h rfl).elim | (intro e; cases e)

theorem SCmd.pre_of_legal {w : SWorld (IPSet α)} {m : Sight α Empty} {regs : List (Obj Empty)} (M : w.Matches m regs) {c : SCmd α σ}
    (h : c.Legal w) : (c.call regs).pre ∧ (∀ x ∈ (c.call regs).vals, sval m.nodes x) ∧ ∀ o ∈ (c.call regs).refs, o < m.objs.length := by
  have none' : ∀ x ∈ ([] : List (Obj Empty)), sval m.nodes x := fun x hx => by cases hx
  have noref : ∀ o ∈ ([] : List Nat), o < m.objs.length := fun x hx => by cases hx
  have one : ∀ {t}, w.HasVal t → ∀ x ∈ [regs.getD t .zero], sval m.nodes x := fun ht x hx => by
    rw [List.mem_singleton.mp hx]; exact ⟨_, M.val ht⟩
  have ref : ∀ {h : Option Nat}, w.HasVar h → ∀ o ∈ h.toList, o < m.objs.length := by
    intro h hl o ho
    cases h with
    | none => cases ho
    | some i => rw [List.mem_singleton.mp ho, M.nvars]; exact hl i rfl
  have rv : ∀ {r : SRecv}, w.HasRecv r → ∀ x ∈ (r.call regs).vals, sval m.nodes x := by
    intro r hr; cases r with
    | obj h => exact none'
    | set t => exact one hr
  have rr : ∀ {r : SRecv}, w.HasRecv r → ∀ o ∈ (r.call regs).refs, o < m.objs.length := by
    intro r hr; cases r with
    | obj h => exact ref hr
    | set t => exact noref
  have av : ∀ {a : SArg α}, w.HasArg a → ∀ x ∈ (a.call regs).vals, sval m.nodes x := by
    intro a hr; cases a with
    | set t => exact one hr
    | _ => exact none'
  have ar : ∀ {a : SArg α}, w.HasArg a → ∀ o ∈ (a.call regs).refs, o < m.objs.length := by
    intro a hr; cases a with
    | obj t => exact ref hr
    | _ => exact noref
  have appv : ∀ {l l' : List (Obj Empty)}, (∀ x ∈ l, sval m.nodes x) → (∀ x ∈ l', sval m.nodes x) → ∀ x ∈ l ++ l', sval m.nodes x :=
    fun h1 h2 x hx => (List.mem_append.mp hx).elim (h1 x) (h2 x)
  have appr : ∀ {l l' : List Nat}, (∀ x ∈ l, x < m.objs.length) → (∀ x ∈ l', x < m.objs.length) → ∀ x ∈ l ++ l', x < m.objs.length :=
    fun h1 h2 x hx => (List.mem_append.mp hx).elim (h1 x) (h2 x)
  cases c with
  | new_ => exact ⟨trivial, none', noref⟩
  | freeze h' => exact ⟨trivial, none', ref h⟩
  | thaw t => exact ⟨trivial, one h, noref⟩
  | insert h' a late => exact ⟨⟨h.1, SArg.call_ok h.2.2.2⟩, av h.2.2.1, appr (ref h.2.1) (ar h.2.2.1)⟩
  | remove h' a late => exact ⟨⟨h.1, SArg.call_ok h.2.2.2⟩, av h.2.2.1, appr (ref h.2.1) (ar h.2.2.1)⟩
  | size r => exact ⟨trivial, rv h, rr h⟩
  | isEmpty r => exact ⟨trivial, rv h, rr h⟩
  | contains r a => exact ⟨SArg.call_ok h.2.2, appv (rv h.1) (av h.2.1), appr (rr h.1) (ar h.2.1)⟩
  | equal_ h1 h2 late => exact ⟨trivial, none', appr (ref h.1) (ref h.2)⟩
  | equal t u => exact ⟨trivial, appv (one h.1) (one h.2), noref⟩
  | union r a => exact ⟨SArg.call_ok h.2.2, appv (rv h.1) (av h.2.1), appr (rr h.1) (ar h.2.1)⟩
  | intersection r a => exact ⟨SArg.call_ok h.2.2, appv (rv h.1) (av h.2.1), appr (rr h.1) (ar h.2.1)⟩
  | difference r a => exact ⟨SArg.call_ok h.2.2, appv (rv h.1) (av h.2.1), appr (rr h.1) (ar h.2.1)⟩
  | walk t cb s => exact ⟨trivial, one h, noref⟩
  | find t a length => exact ⟨⟨SArg.call_ne h.2.2.2, SArg.call_ok h.2.2.1⟩, appv (one h.1) (av h.2.1), ar h.2.1⟩

/-- one call -/
theorem SCmd.step_ok {F : Nat} (hF : setBound α ≤ F) {w : SWorld (IPSet α)} {mem : Mem α Empty} {regs : List (Obj Empty)}
    (M : w.Matches mem.sight regs) {c : SCmd α σ} (hl : c.Legal w) :
    ∃ x mem', ((c.call regs).code F).run mem = (.ret x, mem') ∧ x.seen = (c.ideal w).1 ∧ (c.ideal w).2.Matches mem'.sight (regs ++ x.outs) := by
  obtain ⟨p1, p2, p3⟩ := SCmd.pre_of_legal M hl
  have e : (mem.without []).nodes = mem.nodes := by funext n; simp [Mem.without, Heap.hide]
  obtain ⟨tr, x, v', mem', h1, h2, h3, h4, h5, h6⟩ := (setLib_ok (α := α) (σ := σ) hF).run (H := []) (c.call regs) p1 (fun _ h => nomatch h)
    (by rw [e]; exact p2) p3 (fun ob ho => by
    obtain ⟨o, ho⟩ := List.mem_iff_getElem?.mp ho
    rw [e]
    exact ⟨_, M.var ho⟩)
  have e' : (mem'.without []).nodes = mem'.nodes := by funext n; simp [Mem.without, Heap.hide]
  rw [e] at h4
  rw [e'] at h5
  suffices h : ∀ (m m' : Sight α Empty), m.nodes = mem.nodes → m.objs = mem.objs → m'.nodes = v' → m'.objs = mem'.objs →
      x.seen = (c.ideal w).1 ∧ (c.ideal w).2.Matches m' (regs ++ x.outs) by
    obtain ⟨e1, e2⟩ := h mem.sight ⟨v', mem'.objs⟩ rfl rfl rfl rfl
    exact ⟨x, mem', h1, e1, e2.keep (m' := mem'.sight) rfl h5⟩
  intro m m' hv ho hv' ho'
  have hm : mem.sight = m := by cases m; cases hv; cases ho; rfl
  rw [hm] at M
  rw [← ho, ← ho'] at h3
  rw [← hv, ← hv'] at h4
  rw [← hv'] at h2
  replace h2 : (c.call regs).spec tr x m'.nodes := h2
  cases c with
  | new_ =>
    obtain ⟨o, rfl, rfl⟩ := h2
    obtain ⟨rfl, h3⟩ := h3
    refine ⟨by rw [M.nvars]; rfl, ?_⟩
    exact (List.append_nil regs).symm ▸ M.declare h3 h4 ⟨.nil, .empty, rfl⟩
  | freeze h =>
    obtain ⟨⟨t, rfl, k⟩, h3⟩ := M.read (r := .obj h) hl h4 h2 h3
    exact ⟨rfl, (M.keep h3 h4).got k⟩
  | thaw t =>
    obtain ⟨o, S, rfl, rfl, h2⟩ := h2
    obtain ⟨rfl, h3⟩ := h3
    refine ⟨by rw [M.nvars]; rfl, ?_⟩
    have hv := (M.val hl).mono h4
    refine (List.append_nil regs).symm ▸ M.declare h3 h4 ⟨hv.1, hv.2.1, rfl⟩
  | insert h a late =>
    obtain ⟨o, rfl, rfl, h2⟩ := h2
    exact ⟨rfl, (List.append_nil regs).symm ▸ M.write hl.2.2.1 h4 h2 h3⟩
  | remove h a late =>
    obtain ⟨o, rfl, rfl, h2⟩ := h2
    exact ⟨rfl, (List.append_nil regs).symm ▸ M.write hl.2.2.1 h4 h2 h3⟩
  | size r =>
    obtain ⟨rfl, h3⟩ := M.read hl h4 h2 h3
    exact ⟨rfl, (List.append_nil regs).symm ▸ M.keep h3 h4⟩
  | isEmpty r =>
    obtain ⟨rfl, h3⟩ := M.read hl h4 h2 h3
    exact ⟨rfl, (List.append_nil regs).symm ▸ M.keep h3 h4⟩
  | contains r a =>
    obtain ⟨rfl, h3⟩ := M.read2 hl.1 hl.2.1 h4 h2 h3
    exact ⟨rfl, (List.append_nil regs).symm ▸ M.keep h3 h4⟩
  | equal_ h h' late =>
    obtain ⟨rfl, h3⟩ := M.read2 (r := .obj h) (a := .obj h') hl.1 hl.2 h4 h2 h3
    exact ⟨rfl, (List.append_nil regs).symm ▸ M.keep h3 h4⟩
  | equal t u =>
    obtain ⟨rfl, h3⟩ := M.read2 (r := .set t) (a := .set u) hl.1 hl.2 h4 h2 h3
    exact ⟨rfl, (List.append_nil regs).symm ▸ M.keep h3 h4⟩
  | union r a =>
    obtain ⟨⟨t, rfl, k⟩, h3⟩ := M.read2 hl.1 hl.2.1 h4 h2 h3
    exact ⟨rfl, (M.keep h3 h4).got k⟩
  | intersection r a =>
    rcases h2 with ⟨hr, rfl, rfl⟩ | h2
    · refine ⟨rfl, (M.keep h3 h4).got ?_⟩
      have : r = .obj none := by
        cases r with
        | obj h => cases hr; rfl
        | set t => cases hr
      subst this
      show Obj.Holds _ _ (IPSet.intersection IPSet.empty _)
      rw [IPSet.empty_intersection]
      exact ⟨.nil, .empty, rfl⟩
    · obtain ⟨⟨t, rfl, k⟩, h3⟩ := M.read2 hl.1 hl.2.1 h4 h2 h3
      exact ⟨rfl, (M.keep h3 h4).got k⟩
  | difference r a =>
    rcases h2 with ⟨hr, rfl, rfl⟩ | h2
    · refine ⟨rfl, (M.keep h3 h4).got ?_⟩
      have : r = .obj none := by
        cases r with
        | obj h => cases hr; rfl
        | set t => cases hr
      subst this
      show Obj.Holds _ _ (IPSet.difference IPSet.empty _)
      rw [IPSet.empty_difference]
      exact ⟨.nil, .empty, rfl⟩
    · obtain ⟨⟨t, rfl, k⟩, h3⟩ := M.read2 hl.1 hl.2.1 h4 h2 h3
      exact ⟨rfl, (M.keep h3 h4).got k⟩
  | walk t cb s =>
    obtain ⟨rfl, h3⟩ := M.read (r := .set t) hl h4 h2 h3
    exact ⟨rfl, (List.append_nil regs).symm ▸ M.keep h3 h4⟩
  | find t a length =>
    obtain ⟨rfl, h3⟩ := M.read2 (r := .set t) hl.1 hl.2.1 h4 h2 h3
    exact ⟨rfl, (List.append_nil regs).symm ▸ M.keep h3 h4⟩

end
end Addrs

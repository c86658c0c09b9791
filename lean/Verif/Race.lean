import Verif.ConcLog
/-
  Data races, after the Go memory model (go.dev/ref/mem): the accesses to memory that an execution makes,
  the happens-before order of them, and races.

  A location is a node (`*trieNode`, `*setNode`) or the root field of a mutable object (`me.m.trie`,
  `me.s.trie`).  The root is written with `atomic.CompareAndSwapPointer` (ipv4/unsafe_atomic.go lines 8-26,
  ipv6/unsafe_atomic.go lines 8-26) and read by plain reads (ipv4/tablex.go lines 68-190, ipv4/set.go lines
  32-72, ipv6/tablex.go, ipv6/set.go); nodes are read and written by plain accesses.
-/
set_option linter.unusedSectionVars false
namespace Addrs
open GoWord

/-! ### Specification -/

/-- what a step of a thread does -/
inductive Access (C V : Type) where
  /-- a call is started -/
  | start (c : C)
  /-- the call returns -/
  | done (v : V)
  /-- a node is allocated and filled -/
  | alloc (a : Nat)
  | read (a : Nat)
  | write (a : Nat)
  /-- the root of a mutable object is read -/
  | load (o : Nat)
  /-- compare-and-swap of the root of a mutable object, and whether it succeeds -/
  | cas (o : Nat) (ok : Bool)
  /-- a mutable object is made -/
  | made (o : Nat)

/-- a place in memory -/
inductive Loc where
  | node (a : Nat)
  | root (o : Nat)
  deriving DecidableEq

namespace Access
variable {C V : Type}
/-- the location that is accessed -/
def loc : Access C V → Option Loc
  | alloc a | read a | write a => some (.node a)
  | load o | cas o _ | made o => some (.root o)
  | start _ | done _ => none
/-- does the access change the location? -/
def writes : Access C V → Bool
  | alloc _ | write _ | cas _ true | made _ => true
  | _ => false
/-- is it an operation of `sync/atomic`?  `al`: the reads of roots are, too (they are not in this code) -/
def atomic (al : Bool) : Access C V → Bool
  | cas _ _ => true
  | load _ => al
  | _ => false
end Access

/-- the steps of an execution in the order in which they happen, each with its thread -/
abbrev History (C V : Type) := List (Nat × Access C V)

/-- step number `p` is by thread `i` and does `x` -/
def StepAt {C V : Type} (T : History C V) (p i : Nat) (x : Access C V) : Prop := T[p]? = some (i, x)

section
variable {C V : Type}

/-- The happens-before order of the steps of an execution, given by their positions.  `S` is the
    synchronisation by the client: for a goroutine that makes several calls one after the other, or that
    waits for another by a channel or a lock, it relates the return of a call to the start of a later one. -/
inductive HB (al : Bool) (T : History C V) (S : Nat → Nat → Prop) : Nat → Nat → Prop
  /-- the order of the steps of one thread -/
  | po {p q i : Nat} {x y : Access C V} : p < q → StepAt T p i x → StepAt T q i y → HB al T S p q
  /-- synchronisation by the client -/
  | sync {p q i j : Nat} {v : V} {c : C} :
      p < q → StepAt T p i (.done v) → StepAt T q j (.start c) → S p q → HB al T S p q
  /-- a later atomic operation on the same root observes the effect of the swap -/
  | atomic {p q i j o : Nat} {y : Access C V} :
      p < q → StepAt T p i (.cas o true) → StepAt T q j y → y.loc = some (.root o) → y.atomic al = true →
      HB al T S p q
  | trans {p q r : Nat} : HB al T S p q → HB al T S q r → HB al T S p r

/-- A data race: two accesses to one location by different threads, at least one of which changes it, not
    both of which are atomic operations, and neither of which happens before the other.  (What happens
    before `p` is also before `p` in the execution, so it is enough to look at `p < q`.) -/
def Race (al : Bool) (T : History C V) (S : Nat → Nat → Prop) (p q : Nat) : Prop :=
  p < q ∧ ∃ i j x y l, StepAt T p i x ∧ StepAt T q j y ∧ i ≠ j ∧ x.loc = some l ∧ y.loc = some l ∧
    (x.writes = true ∨ y.writes = true) ∧ ¬ (x.atomic al = true ∧ y.atomic al = true) ∧ ¬ HB al T S p q

end

section
variable {α D : Type} {L : Lib α D}

/-- what the next step of a thread that is to continue with the given program does -/
def State.label (s : State L) : Prog α D L.Val → Option (Access L.Call L.Val)
  | .ret v => some (.done v)
  | .panic => none
  | .stuck => none
  | .alloc _ _ => some (.alloc s.heap.length)
  | .read p _ => some (.read p)
  | .write p _ _ => some (.write p)
  | .load o _ => some (.load o)
  | .cas o old _ _ =>
    match s.objs[o]? with
    | some ob => some (.cas o (decide (ob.trie = old)))
    | none => some (.cas o false)
  | .newObj _ _ => some (.made s.objs.length)

/-- the steps of all executions, and the states they lead to -/
inductive Trace : History L.Call L.Val → State L → Prop
  | init : Trace [] State.init
  | spawn {T : History L.Call L.Val} {s : State L} (c : L.Call) : Trace T s → s.CanStart c →
      Trace (T ++ [(s.threads.length, .start c)]) (s.spawn c)
  | act {T : History L.Call L.Val} {s s' : State L} {i : Nat} {P : Prog α D L.Val} {x : Access L.Call L.Val} :
      Trace T s → s.threads[i]? = some (some P) → s.label P = some x → s.actP i P = some s' →
      Trace (T ++ [(i, x)]) s'

/-- Arguments come from calls that returned before: an immutable value was returned by a call, and a
    mutable object was made by a call, whose return happens before the call that gets it. -/
def HandedOver (al : Bool) (T : History L.Call L.Val) (S : Nat → Nat → Prop) : Prop :=
  ∀ q j c, StepAt T q j (.start c) →
    (∀ x ∈ L.vals c, x = .zero ∨ ∃ p i v, StepAt T p i (.done v) ∧ x ∈ L.outs v ∧ HB al T S p q) ∧
    (∀ o ∈ L.refs c, ∃ m p i v, StepAt T m i (.made o) ∧ StepAt T p i (.done v) ∧ HB al T S p q)

/-- the calls of threads `i` and `j` do not overlap: one has returned before the other is started -/
def NoOverlap (al : Bool) (T : History L.Call L.Val) (S : Nat → Nat → Prop) (i j : Nat) : Prop :=
  ∃ p q v c, HB al T S p q ∧
    ((StepAt T p i (.done v) ∧ StepAt T q j (.start c)) ∨
     (StepAt T p j (.done v) ∧ StepAt T q i (.start c)))

/-- Of two calls on the same mutable object, one of which is a call that writes (`w`), one returns before the
    other is started. -/
def WritersAlone (w : L.Call → Bool) (al : Bool) (T : History L.Call L.Val) (S : Nat → Nat → Prop) : Prop :=
  ∀ p q i j c c' o, i ≠ j → StepAt T p i (.start c) → StepAt T q j (.start c') → o ∈ L.refs c → o ∈ L.refs c' → w c = true →
    NoOverlap al T S i j

/-- A call that swaps the root of a mutable object does not overlap with any other call that reads or swaps it
    (a consequence of `WritersAlone`, see `SInv.alone`). -/
def WritesAlone (al : Bool) (T : History L.Call L.Val) (S : Nat → Nat → Prop) : Prop :=
  ∀ p q i j o ok y, i ≠ j → StepAt T p i (.cas o ok) → StepAt T q j y → y.loc = some (.root o) →
    (∀ o', y ≠ .made o') → NoOverlap al T S i j

end

/-! ### Executions -/

theorem HB.lt {C V : Type} {al : Bool} {T : History C V} {S : Nat → Nat → Prop} {p q : Nat} (h : HB al T S p q) : p < q := by
  induction h with
  | po h _ _ => exact h
  | sync h _ _ _ => exact h
  | atomic h _ _ _ _ => exact h
  | trans _ _ h1 h2 => exact Nat.lt_trans h1 h2

section
variable {α D : Type} {L : Lib α D}

theorem Trace.reach {T : History L.Call L.Val} {s : State L} (h : Trace T s) : s.Reach := by
  induction h with
  | init => exact .init
  | spawn c _ h ih => exact .step _ _ ih (.spawn c h)
  | act _ hi _ ha ih =>
    exact .step _ _ ih (.act _ _ (by unfold State.act; rw [hi]; exact ha))

/-- every state of every execution is reached by a trace -/
theorem State.Reach.trace {s : State L} (h : s.Reach) : ∃ T, Trace T s := by
  induction h with
  | init => exact ⟨_, .init⟩
  | step s s' _ hs ih =>
    obtain ⟨T, hT⟩ := ih
    cases hs with
    | spawn c h => exact ⟨_, .spawn c hT h⟩
    | act i _ h =>
      unfold State.act at h
      split at h
      · next P hi =>
        have : ∃ x, s.label P = some x := by
          cases P with
          | panic => cases h
          | stuck => cases h
          | cas o old new k =>
            unfold State.label
            dsimp only
            split
            · exact ⟨_, rfl⟩
            · exact ⟨_, rfl⟩
          | _ => exact ⟨_, rfl⟩
        obtain ⟨x, hx⟩ := this
        exact ⟨_, .act hT hi hx h⟩
      · cases h

/-- what a trace says about threads and objects -/
structure SInv (T : History L.Call L.Val) (s : State L) : Prop where
  tid : ∀ p i x, StepAt T p i x → i < s.threads.length
  start : ∀ i c, .start i c ∈ s.log ↔ ∃ w, StepAt T w i (.start c)
  first : ∀ w i c, StepAt T w i (.start c) → ∀ p x, StepAt T p i x → w ≤ p
  begun : ∀ p i x, StepAt T p i x → ∃ w c, StepAt T w i (.start c)
  last : ∀ w i v, StepAt T w i (.done v) → s.threads[i]? = some none ∧ .done i v ∈ s.log ∧ ∀ p x, StepAt T p i x → p ≤ w
  made_log : ∀ i o ob, .act i (.made o ob) ∈ s.log → ∃ m, StepAt T m i (.made o)
  made_lt : ∀ m i o, StepAt T m i (.made o) → o < s.objs.length
  made_uniq : ∀ m m' i i' o, StepAt T m i (.made o) → StepAt T m' i' (.made o) → m = m'
  made_first : ∀ m i o, StepAt T m i (.made o) → ∀ p j x, StepAt T p j x → x.loc = some (.root o) → m ≤ p
  roots : ∀ p i x o, StepAt T p i x → x.loc = some (.root o) →
    o < s.objs.length ∧ ((∃ w c, StepAt T w i (.start c) ∧ o ∈ L.refs c) ∨ ∃ m, StepAt T m i (.made o))

theorem stepAt_snoc {C V : Type} {l : History C V} {k p i : Nat} {x y : Access C V} :
    StepAt (l ++ [(k, x)]) p i y ↔ StepAt l p i y ∨ (p = l.length ∧ i = k ∧ y = x) := by
  unfold StepAt
  rcases Nat.lt_trichotomy p l.length with h | h | h
  · rw [List.getElem?_append_left h]
    constructor
    · exact Or.inl
    · rintro (h' | ⟨h', _⟩)
      · exact h'
      · omega
  · subst h
    simp [eq_comm]
  · rw [List.getElem?_append_right (by omega), List.getElem?_eq_none (l := l) (by omega)]
    rw [List.getElem?_eq_none (by simp; omega)]
    constructor
    · intro h; cases h
    · rintro (h' | ⟨h', _⟩)
      · cases h'
      · omega

theorem StepAt.lt {C V : Type} {T : History C V} {p i : Nat} {x : Access C V} (h : StepAt T p i x) : p < T.length :=
  (List.getElem?_eq_some_iff.mp h).1

theorem StepAt.uniq {C V : Type} {T : History C V} {p i j : Nat} {x y : Access C V} (h : StepAt T p i x) (h' : StepAt T p j y) :
    i = j ∧ x = y := by
  unfold StepAt at h h'
  rw [h] at h'
  cases h'
  exact ⟨rfl, rfl⟩

theorem SInv.init : SInv (L := L) [] State.init := by
  refine ⟨?_, ?_, ?_, ?_, ?_, ?_, ?_, ?_, ?_, ?_⟩ <;> simp [StepAt, State.init]

theorem SInv.spawn {T : History L.Call L.Val} {s : State L} (h : SInv T s) (c : L.Call) :
    SInv (T ++ [(s.threads.length, .start c)]) (s.spawn c) := by
  have hnew : ∀ p x, ¬ StepAt T p s.threads.length x := fun p x hx => Nat.lt_irrefl _ (h.tid p _ x hx)
  refine ⟨?_, ?_, ?_, ?_, ?_, ?_, ?_, ?_, ?_, ?_⟩
  · intro p i x hx
    simp only [State.spawn, List.length_append, List.length_singleton]
    rcases stepAt_snoc.mp hx with hx | ⟨_, rfl, _⟩
    · have := h.tid p i x hx; omega
    · omega
  · intro i c'
    simp only [State.spawn, List.mem_append, List.mem_singleton, h.start, Entry.start.injEq, stepAt_snoc, Access.start.injEq]
    constructor
    · rintro (⟨w, hw⟩ | ⟨rfl, rfl⟩)
      · exact ⟨w, Or.inl hw⟩
      · exact ⟨_, Or.inr ⟨rfl, rfl, rfl⟩⟩
    · rintro ⟨w, hw | ⟨_, rfl, rfl⟩⟩
      · exact Or.inl ⟨w, hw⟩
      · exact Or.inr ⟨rfl, rfl⟩
  · intro w i c' hw p x hx
    rcases stepAt_snoc.mp hw with hw | ⟨rfl, rfl, _⟩ <;> rcases stepAt_snoc.mp hx with hx | ⟨rfl, h2, _⟩
    · exact h.first w i c' hw p x hx
    · exact Nat.le_of_lt hw.lt
    · exact (hnew _ _ hx).elim
    · exact Nat.le_refl _
  · intro p i x hx
    rcases stepAt_snoc.mp hx with hx | ⟨rfl, rfl, rfl⟩
    · obtain ⟨w, c', hw⟩ := h.begun p i x hx
      exact ⟨w, c', stepAt_snoc.mpr (Or.inl hw)⟩
    · exact ⟨_, _, hx⟩
  · intro w i v hw
    rcases stepAt_snoc.mp hw with hw | ⟨_, _, hw⟩
    · obtain ⟨h1, h2, h3⟩ := h.last w i v hw
      have hlt := h.tid _ _ _ hw
      refine ⟨?_, by simp [State.spawn, h2], ?_⟩
      · simp only [State.spawn]; rw [List.getElem?_append_left hlt]; exact h1
      · intro p x hx
        rcases stepAt_snoc.mp hx with hx | ⟨_, rfl, _⟩
        · exact h3 p x hx
        · omega
    · cases hw
  · intro i o ob ho
    simp [State.spawn] at ho
    obtain ⟨m, hm⟩ := h.made_log i o ob ho
    exact ⟨m, stepAt_snoc.mpr (Or.inl hm)⟩
  · intro m i o hm
    rcases stepAt_snoc.mp hm with hm | ⟨_, _, hm⟩
    · exact h.made_lt m i o hm
    · cases hm
  · intro m m' i i' o hm hm'
    rcases stepAt_snoc.mp hm with hm | ⟨_, _, hm⟩
    · rcases stepAt_snoc.mp hm' with hm' | ⟨_, _, hm'⟩
      · exact h.made_uniq m m' i i' o hm hm'
      · cases hm'
    · cases hm
  · intro m i o hm p j x hx hl
    rcases stepAt_snoc.mp hm with hm | ⟨_, _, hm⟩
    · rcases stepAt_snoc.mp hx with hx | ⟨rfl, _, rfl⟩
      · exact h.made_first m i o hm p j x hx hl
      · exact Nat.le_of_lt hm.lt
    · cases hm
  · intro p i x o hx hl
    rcases stepAt_snoc.mp hx with hx | ⟨_, _, rfl⟩
    · obtain ⟨h1, h2⟩ := h.roots p i x o hx hl
      refine ⟨h1, h2.imp ?_ ?_⟩
      · rintro ⟨w, c', h3, h4⟩; exact ⟨w, c', stepAt_snoc.mpr (Or.inl h3), h4⟩
      · rintro ⟨m, h3⟩; exact ⟨m, stepAt_snoc.mpr (Or.inl h3)⟩
    · cases hl

/-- a step of thread `i` -/
theorem SInv.snoc {T : History L.Call L.Val} {s s' : State L} (h : SInv T s) {i : Nat} {x : Access L.Call L.Val}
    {P' : Option (Prog α D L.Val)} {P : Prog α D L.Val}
    (hi : s.threads[i]? = some (some P)) (hthr : s'.threads = s.threads.set i P')
    (hstart : ∀ c, x ≠ .start c) {l : List (Entry D L.Call L.Val)} (hlog : s'.log = s.log ++ l)
    (hl1 : ∀ j c, .start j c ∉ l) (hdone : ∀ v, x = .done v → P' = none ∧ .done i v ∈ l)
    (hl2 : ∀ j o ob, .act j (.made o ob) ∈ l → j = i ∧ x = .made o)
    (hlen : s.objs.length ≤ s'.objs.length)
    (hmade : ∀ o, x = .made o → o = s.objs.length ∧ o < s'.objs.length)
    (hroot : ∀ o, x.loc = some (.root o) → x = .made o ∨
      (o < s.objs.length ∧ ((∃ w c, StepAt T w i (.start c) ∧ o ∈ L.refs c) ∨ ∃ m, StepAt T m i (.made o)))) :
    (∃ c, .start i c ∈ s.log) → SInv (T ++ [(i, x)]) s' := by
  rintro ⟨c0, hc0⟩
  obtain ⟨w0, hw0⟩ := (h.start i c0).mp hc0
  have hlt : i < s.threads.length := (List.getElem?_eq_some_iff.mp hi).1
  have hnd : ∀ w v, ¬ StepAt T w i (.done v) := by
    intro w v hw
    have := (h.last w i v hw).1
    rw [hi] at this; cases this
  refine ⟨?_, ?_, ?_, ?_, ?_, ?_, ?_, ?_, ?_, ?_⟩
  · intro p j y hy
    rw [hthr, List.length_set]
    rcases stepAt_snoc.mp hy with hy | ⟨_, rfl, _⟩
    · exact h.tid p j y hy
    · exact hlt
  · intro j c
    rw [hlog]
    simp only [List.mem_append, h.start, stepAt_snoc]
    constructor
    · rintro (⟨w, hw⟩ | h')
      · exact ⟨w, Or.inl hw⟩
      · exact (hl1 _ _ h').elim
    · rintro ⟨w, hw | ⟨_, _, hw⟩⟩
      · exact Or.inl ⟨w, hw⟩
      · exact (hstart _ hw.symm).elim
  · intro w j c hw p y hy
    rcases stepAt_snoc.mp hw with hw | ⟨_, _, hw⟩
    · rcases stepAt_snoc.mp hy with hy | ⟨rfl, _, _⟩
      · exact h.first w j c hw p y hy
      · exact Nat.le_of_lt hw.lt
    · exact (hstart _ hw.symm).elim
  · intro p j y hy
    rcases stepAt_snoc.mp hy with hy | ⟨rfl, rfl, rfl⟩
    · obtain ⟨w, c', hw⟩ := h.begun p j y hy
      exact ⟨w, c', stepAt_snoc.mpr (Or.inl hw)⟩
    · exact ⟨w0, c0, stepAt_snoc.mpr (Or.inl hw0)⟩
  · intro w j v hw
    rcases stepAt_snoc.mp hw with hw | ⟨rfl, rfl, hw1⟩
    · obtain ⟨h1, h2, h3⟩ := h.last w j v hw
      have hne : i ≠ j := by rintro rfl; exact hnd _ _ hw
      refine ⟨?_, by rw [hlog]; exact List.mem_append_left _ h2, ?_⟩
      · rw [hthr, List.getElem?_set_ne hne]; exact h1
      · intro p y hy
        rcases stepAt_snoc.mp hy with hy | ⟨_, h4, _⟩
        · exact h3 p y hy
        · exact (hne h4.symm).elim
    · obtain ⟨h1, h2⟩ := hdone v hw1.symm
      refine ⟨?_, by rw [hlog]; exact List.mem_append_right _ h2, ?_⟩
      · rw [hthr, List.getElem?_set_self hlt, h1]
      · intro p y hy
        rcases stepAt_snoc.mp hy with hy | ⟨rfl, _, _⟩
        · exact Nat.le_of_lt hy.lt
        · exact Nat.le_refl _
  · intro j o ob ho
    rw [hlog] at ho
    rcases List.mem_append.mp ho with ho | ho
    · obtain ⟨m, hm⟩ := h.made_log j o ob ho
      exact ⟨m, stepAt_snoc.mpr (Or.inl hm)⟩
    · obtain ⟨rfl, h1⟩ := hl2 j o ob ho
      exact ⟨_, stepAt_snoc.mpr (Or.inr ⟨rfl, rfl, h1.symm⟩)⟩
  · intro m j o hm
    rcases stepAt_snoc.mp hm with hm | ⟨_, _, hm⟩
    · exact Nat.lt_of_lt_of_le (h.made_lt m j o hm) hlen
    · exact (hmade o hm.symm).2
  · intro m m' j j' o hm hm'
    rcases stepAt_snoc.mp hm with hm | ⟨e1, _, hm⟩ <;> rcases stepAt_snoc.mp hm' with hm' | ⟨e2, _, hm'⟩
    · exact h.made_uniq m m' j j' o hm hm'
    · have := h.made_lt _ _ _ hm; have := (hmade o hm'.symm).1; omega
    · have := h.made_lt _ _ _ hm'; have := (hmade o hm.symm).1; omega
    · omega
  · intro m j o hm p k y hy hl
    rcases stepAt_snoc.mp hm with hm1 | ⟨e1, _, hm1⟩ <;> rcases stepAt_snoc.mp hy with hy | ⟨e2, _, rfl⟩
    · exact h.made_first m j o hm1 p k y hy hl
    · have := hm1.lt; omega
    · have := (h.roots p k y o hy hl).1; have := (hmade o hm1.symm).1; omega
    · omega
  · intro p j y o hy hl
    rcases stepAt_snoc.mp hy with hy | ⟨_, rfl, rfl⟩
    · obtain ⟨h1, h2⟩ := h.roots p j y o hy hl
      refine ⟨Nat.lt_of_lt_of_le h1 hlen, h2.imp ?_ ?_⟩
      · rintro ⟨w, c', h3, h4⟩; exact ⟨w, c', stepAt_snoc.mpr (Or.inl h3), h4⟩
      · rintro ⟨m, h3⟩; exact ⟨m, stepAt_snoc.mpr (Or.inl h3)⟩
    · rcases hroot o hl with h1 | ⟨h1, h2⟩
      · exact ⟨(hmade o h1).2, Or.inr ⟨_, stepAt_snoc.mpr (Or.inr ⟨rfl, rfl, h1.symm⟩)⟩⟩
      · refine ⟨Nat.lt_of_lt_of_le h1 hlen, h2.imp ?_ ?_⟩
        · rintro ⟨w, c', h3, h4⟩; exact ⟨w, c', stepAt_snoc.mpr (Or.inl h3), h4⟩
        · rintro ⟨m, h3⟩; exact ⟨m, stepAt_snoc.mpr (Or.inl h3)⟩

open Prog

theorem SInv.act {good : View α D → Obj D → Prop} {fr : L.Call → OldRoots α D}
    {Q : L.Call → List (Event D) → L.Val → View α D → Prop} {T : History L.Call L.Val} {s s' : State L} {g : Ghost α D}
    (h : SInv T s) (m : MInv good fr Q s g) {i : Nat} {P : Prog α D L.Val} {x : Access L.Call L.Val}
    (hi : s.threads[i]? = some (some P)) (hx : s.label P = some x) (ha : s.actP i P = some s') :
    SInv (T ++ [(i, x)]) s' := by
  obtain ⟨c, hstart, hcw | ⟨rfl, _⟩⟩ := m.thr i P hi
  case inr => cases ha
  obtain ⟨n, hn, hnr, hcw⟩ := hcw
  obtain ⟨w0, hw0⟩ := (h.start i c).mp hstart
  have hroot : ∀ o, n o → o < s.objs.length ∧ ((∃ w c, StepAt T w i (.start c) ∧ o ∈ L.refs c) ∨ ∃ m, StepAt T m i (.made o)) := by
    intro o ho
    refine ⟨hn o ho, (hnr o ho).imp (fun h => ⟨w0, c, hw0, h⟩) ?_⟩
    rintro ⟨ob, hob⟩
    exact h.made_log i o ob hob
  cases P with
  | ret v =>
    injection ha with ha; subst ha; cases hx
    exact h.snoc (P' := none) (l := [.done i v]) hi rfl (by simp) rfl (by simp) (by simp) (by simp) (Nat.le_refl _)
      (by simp) (by simp [Access.loc]) ⟨c, hstart⟩
  | panic => exact hcw.elim
  | stuck => exact hcw.elim
  | alloc d k =>
    injection ha with ha; subst ha; cases hx
    exact h.snoc (l := []) hi rfl (by simp) (by simp [State.cont]) (by simp) (by simp) (by simp) (Nat.le_refl _)
      (by simp) (by simp [Access.loc]) ⟨c, hstart⟩
  | read p k =>
    cases hx
    simp only [State.actP] at ha
    split at ha <;> (injection ha with ha; subst ha)
    · exact h.snoc (l := []) hi rfl (by simp) (by simp [State.cont]) (by simp) (by simp) (by simp) (Nat.le_refl _)
        (by simp) (by simp [Access.loc]) ⟨c, hstart⟩
    · exact h.snoc (l := []) hi rfl (by simp) (by simp [State.cont]) (by simp) (by simp) (by simp) (Nat.le_refl _)
        (by simp) (by simp [Access.loc]) ⟨c, hstart⟩
  | write p d k =>
    cases hx
    simp only [State.actP] at ha
    split at ha <;> (injection ha with ha; subst ha)
    · exact h.snoc (l := []) hi rfl (by simp) (by simp [State.cont]) (by simp) (by simp) (by simp) (Nat.le_refl _)
        (by simp) (by simp [Access.loc]) ⟨c, hstart⟩
    · exact h.snoc (l := []) hi rfl (by simp) (by simp [State.cont]) (by simp) (by simp) (by simp) (Nat.le_refl _)
        (by simp) (by simp [Access.loc]) ⟨c, hstart⟩
  | load o k =>
    cases hx
    simp only [State.actP] at ha
    have hr : ∀ o', (Access.load o : Access L.Call L.Val).loc = some (.root o') → (Access.load o : Access L.Call L.Val) = .made o' ∨
        (o' < s.objs.length ∧ ((∃ w c, StepAt T w i (.start c) ∧ o' ∈ L.refs c) ∨ ∃ m, StepAt T m i (.made o'))) := by
      intro o' ho'
      cases ho'
      exact Or.inr (hroot o hcw.1)
    split at ha <;> (injection ha with ha; subst ha)
    · exact h.snoc (l := [_]) hi rfl (by simp) rfl (by simp) (by simp) (by simp) (Nat.le_refl _)
        (by simp) hr ⟨c, hstart⟩
    · exact h.snoc (l := []) hi rfl (by simp) (by simp [State.cont]) (by simp) (by simp) (by simp) (Nat.le_refl _)
        (by simp) hr ⟨c, hstart⟩
  | cas o old new k =>
    have hr : ∀ b o', (Access.cas o b : Access L.Call L.Val).loc = some (.root o') → (Access.cas o b : Access L.Call L.Val) = .made o' ∨
        (o' < s.objs.length ∧ ((∃ w c, StepAt T w i (.start c) ∧ o' ∈ L.refs c) ∨ ∃ m, StepAt T m i (.made o'))) := by
      intro b o' ho'
      cases ho'
      exact Or.inr (hroot o hcw.1)
    obtain ⟨ob, hob⟩ : ∃ ob, s.objs[o]? = some ob := ⟨_, List.getElem?_eq_getElem (hn o hcw.1)⟩
    simp only [State.label, hob] at hx
    simp only [State.actP, hob] at ha
    cases hx
    split at ha <;> (injection ha with ha; subst ha)
    · exact h.snoc (l := [_]) hi rfl (by simp) rfl (by simp) (by simp) (by simp) (by simp [State.note, State.cont])
        (by simp) (hr _) ⟨c, hstart⟩
    · exact h.snoc (l := [_]) hi rfl (by simp) rfl (by simp) (by simp) (by simp) (Nat.le_refl _)
        (by simp) (hr _) ⟨c, hstart⟩
  | newObj ob k =>
    injection ha with ha; subst ha; cases hx
    exact h.snoc (l := [_]) hi rfl (by simp) rfl (by simp) (by simp) (by simp +contextual)
      (by simp [State.note, State.cont]) (by simp [State.note, State.cont]) (by simp [Access.loc]) ⟨c, hstart⟩

theorem Trace.inv {good gval : View α D → Obj D → Prop} {fr : L.Call → OldRoots α D}
    {Q : L.Call → List (Event D) → L.Val → View α D → Prop} (ok : LibOk L good gval fr Q)
    {T : History L.Call L.Val} {s : State L} (h : Trace T s) : SInv T s := by
  induction h with
  | init => exact .init
  | spawn c _ _ ih => exact ih.spawn c
  | act hT hi hx ha ih =>
    obtain ⟨g, m⟩ := hT.reach.inv ok
    exact ih.act m hi hx ha

end
end Addrs

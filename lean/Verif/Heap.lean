import Verif.Table
/-
  Layer 4: memory.  Go code as a program over a heap of `trieNode` structs, with pointers, nil, in-place
  writes and panics.

  A program (`Prog`) is a tree of primitive actions on the heap.  Run alone it follows `Solo` (Verif/Exec.lean); it can also be
  interleaved, action by action, with other programs (Verif/Machine.lean).  `wp` is a program logic
  that is sound for both: it speaks only about the nodes the program may rely on (its `View`) and
  lets the addresses of new nodes be arbitrary.
-/
set_option linter.unusedSectionVars false
namespace Addrs
open GoWord

/-- a `*trieNode`: nil or an address -/
abbrev Ptr := Option Nat

/-- ipv4/node.go:8-15 `type trieNode struct`.  `data = none` is the nil interface. -/
structure Cell (α D : Type) where
  pfx : Prefix α
  data : Option D
  size : Nat
  h : Nat
  active : Bool
  l : Ptr
  r : Ptr
deriving DecidableEq, Repr

/-- A comparison function stored in a table: nil, ipv4/tablex.go:20-22 `defaultComparator`, or the closure
    of ipv4/table.go:29-33 around a function `cmp` of the user. -/
inductive EqFn (D : Type) where
  | nil
  | dflt
  | custom (cmp : D → D → Bool)

/-- ipv4/tablex.go:219-222 `type tableX struct`, the value inside a `Table` and the object a `Table_`
    points to; and ipv4/set.go:149-151 `type Set struct`, which has no `eq` (`nil` here) -/
structure Obj (D : Type) where
  trie : Ptr
  eq : EqFn D

/-- Go code that works on `trieNode`s and on the roots of mutable tables or sets.  `panic` is a panic; `stuck` means that the bound on the depth of
    recursion, which the model needs and Go does not have, is used up. -/
inductive Prog (α D β : Type) where
  | ret (b : β)
  | panic
  | stuck
  /-- `&trieNode{…}` -/
  | alloc (c : Cell α D) (k : Nat → Prog α D β)
  /-- read of a node.  Go reads single fields; all of them are read here at once. -/
  | read (p : Nat) (k : Cell α D → Prog α D β)
  /-- assignment to (fields of) a node -/
  | write (p : Nat) (c : Cell α D) (k : Prog α D β)
  /-- read of the object `o` that a `Table_` or `Set_` points to.  (The fields are read at once; `eq` never
      changes after the object was made.) -/
  | load (o : Nat) (k : Obj D → Prog α D β)
  /-- ipv4/unsafe_atomic.go `swapTrieNodePtr(&o.trie, old, new)` -/
  | cas (o : Nat) (old new : Ptr) (k : Bool → Prog α D β)
  /-- `&tableX{…}`, `&Set{…}` -/
  | newObj (ob : Obj D) (k : Nat → Prog α D β)

namespace Prog
variable {α D β γ : Type}

/-- sequencing -/
def bind : Prog α D β → (β → Prog α D γ) → Prog α D γ
  | ret b, f => f b
  | panic, _ => panic
  | stuck, _ => stuck
  | alloc c k, f => alloc c fun n => (k n).bind f
  | read p k, f => read p fun c => (k c).bind f
  | write p c k, f => write p c (k.bind f)
  | load o k, f => load o fun p => (k p).bind f
  | cas o old new k, f => cas o old new fun b => (k b).bind f
  | newObj ob k, f => newObj ob fun o => (k o).bind f

instance : Monad (Prog α D) where
  pure := ret
  bind := bind

@[simp] theorem bind_ret (b : β) (f : β → Prog α D γ) : (ret b >>= f) = f b := rfl
@[simp] theorem bind_pure' (b : β) (f : β → Prog α D γ) : ((pure b : Prog α D β) >>= f) = f b := rfl
@[simp] theorem bind_panic (f : β → Prog α D γ) : ((panic : Prog α D β) >>= f) = panic := rfl
@[simp] theorem bind_stuck (f : β → Prog α D γ) : ((stuck : Prog α D β) >>= f) = stuck := rfl

theorem bind_assoc {δ : Type} (x : Prog α D β) (f : β → Prog α D γ) (g : γ → Prog α D δ) :
    (x >>= f) >>= g = x >>= fun b => f b >>= g := by
  show (x.bind f).bind g = x.bind fun b => (f b).bind g
  induction x with
  | ret => rfl
  | panic => rfl
  | stuck => rfl
  | alloc c k ih => simp only [bind, ih]
  | read p k ih => simp only [bind, ih]
  | write p c k ih => simp only [bind, ih]
  | load o k ih => simp only [bind, ih]
  | cas o old new k ih => simp only [bind, ih]
  | newObj ob k ih => simp only [bind, ih]

/-- `&trieNode{…}` -/
def new (c : Cell α D) : Prog α D Nat := alloc c ret
/-- `*p`; a nil pointer panics -/
def deref : Ptr → Prog α D (Cell α D)
  | none => panic
  | some p => read p ret
/-- assignment to a node -/
def store (p : Nat) (c : Cell α D) : Prog α D Unit := write p c (ret ())
/-- a value that may be missing because computing it panicked -/
def orPanic : Option β → Prog α D β
  | none => panic
  | some b => ret b

/-- `&tableX{…}`, `&Set{…}` -/
def newObject (ob : Obj D) : Prog α D Nat := newObj ob ret
/-- `*o` -/
def readObj (o : Nat) : Prog α D (Obj D) := load o ret
/-- `swapTrieNodePtr(&o.trie, old, new)`, `swapSetNodePtr` (ipv4/unsafe_atomic.go:8-16, 18-26) -/
def swap (o : Nat) (old new : Ptr) : Prog α D Bool := cas o old new ret

end Prog

/-! ### The logic -/

/-- the nodes a program may rely on -/
abbrev View (α D : Type) := Nat → Option (Cell α D)

namespace View
variable {α D : Type}
def set (v : View α D) (n : Nat) (c : Cell α D) : View α D := fun m => if m = n then some c else v m
/-- every node of `v` is in `v'`, with the same contents -/
def le (v v' : View α D) : Prop := ∀ n c, v n = some c → v' n = some c
instance : LE (View α D) := ⟨le⟩
theorem le_refl (v : View α D) : v ≤ v := fun _ _ h => h
theorem le_trans {u v w : View α D} (h : u ≤ v) (h' : v ≤ w) : u ≤ w := fun n c e => h' n c (h n c e)
theorem le_set_fresh {v : View α D} {n : Nat} {c : Cell α D} (h : v n = none) : v ≤ v.set n c := by
  intro m d e
  unfold set
  split
  · next e' => rw [e', h] at e; cases e
  · exact e
@[simp] theorem set_same (v : View α D) (n : Nat) (c : Cell α D) : v.set n c n = some c := by simp [set]
theorem set_ne (v : View α D) {n m : Nat} (c : Cell α D) (h : m ≠ n) : v.set n c m = v m := by
  simp [set, h]
/-- the view of the whole heap -/
def ofHeap (h : List (Cell α D)) : View α D := fun n => h[n]?
end View

namespace Prog
variable {α D β γ : Type}

/-- Weakest precondition for code that only works on nodes.  `W` are the nodes the program may write to besides the ones it allocates.
    `st` says whether running out of the recursion bound is acceptable. -/
def wp (st : Prop) (Q : β → View α D → Prop) : Prog α D β → View α D → (Nat → Prop) → Prop
  | ret b, v, _ => Q b v
  | panic, _, _ => False
  | stuck, _, _ => st
  | alloc c k, v, W => ∀ n, v n = none → wp st Q (k n) (v.set n c) (fun m => m = n ∨ W m)
  | read p k, v, W => ∃ c, v p = some c ∧ wp st Q (k c) v W
  | write p c k, v, W => W p ∧ (∃ c0, v p = some c0) ∧ wp st Q k (v.set p c) W
  | load _ _, _, _ => False
  | cas _ _ _ _, _, _ => False
  | newObj _ _, _, _ => False

/-- no node but the program's own new ones may be written -/
abbrev Nowhere : Nat → Prop := fun _ => False

theorem wp_mono {st : Prop} {Q Q' : β → View α D → Prop} {P : Prog α D β} {v : View α D}
    {W W' : Nat → Prop} (hW : ∀ n, W n → W' n) (hQ : ∀ b v', Q b v' → Q' b v')
    (h : wp st Q P v W) : wp st Q' P v W' := by
  induction P generalizing v W W' with
  | ret b => exact hQ _ _ h
  | panic => exact h
  | stuck => exact h
  | alloc c k ih =>
    intro n hn
    exact ih n (fun m hm => hm.imp id (hW m)) (h n hn)
  | read p k ih =>
    obtain ⟨c, hc, h⟩ := h
    exact ⟨c, hc, ih c hW h⟩
  | write p c k ih =>
    obtain ⟨h1, h2, h3⟩ := h
    exact ⟨hW _ h1, h2, ih hW h3⟩
  | load o k ih => exact h.elim
  | cas o old new k ih => exact h.elim
  | newObj ob k ih => exact h.elim

/-- a program changes only what it may write -/
theorem wp_frame {st : Prop} {Q : β → View α D → Prop} {P : Prog α D β} {v : View α D}
    {W : Nat → Prop} (h : wp st Q P v W) :
    wp st (fun b v' => Q b v' ∧ ∀ n c, ¬ W n → v n = some c → v' n = some c) P v W := by
  induction P generalizing v W with
  | ret b => exact ⟨h, fun _ _ _ e => e⟩
  | panic => exact h
  | stuck => exact h
  | alloc c k ih =>
    intro n hn
    refine wp_mono (fun _ h => h) ?_ (ih n (h n hn))
    intro b v' hq
    refine ⟨hq.1, fun m d hm e => hq.2 m d ?_ ?_⟩
    · intro hc
      rcases hc with rfl | hc
      · rw [hn] at e; cases e
      · exact hm hc
    · exact View.le_set_fresh hn m d e
  | read p k ih =>
    obtain ⟨c, hc, h⟩ := h
    exact ⟨c, hc, ih c h⟩
  | write p c k ih =>
    obtain ⟨h1, h2, h3⟩ := h
    refine ⟨h1, h2, wp_mono (fun _ h => h) ?_ (ih h3)⟩
    intro b v' hq
    refine ⟨hq.1, fun m d hm e => hq.2 m d hm ?_⟩
    rw [View.set_ne]
    · exact e
    · rintro rfl; exact hm h1
  | load o k ih => exact h.elim
  | cas o old new k ih => exact h.elim
  | newObj ob k ih => exact h.elim

theorem wp_bind {st : Prop} {Q : γ → View α D → Prop} {P : Prog α D β} {f : β → Prog α D γ}
    {v : View α D} {W : Nat → Prop}
    (h : wp st (fun b v' => wp st Q (f b) v' W) P v W) : wp st Q (P >>= f) v W := by
  suffices H : ∀ W', (∀ n, W' n → W n) →
      wp st (fun b v' => wp st Q (f b) v' W') P v W → wp st Q (P.bind f) v W from
    H W (fun _ h => h) h
  clear h
  intro W' hW h
  induction P generalizing v W with
  | ret b => exact wp_mono hW (fun _ _ h => h) h
  | panic => exact h
  | stuck => exact h
  | alloc c k ih =>
    intro n hn
    exact ih n (fun m hm => Or.inr (hW m hm)) (h n hn)
  | read p k ih =>
    obtain ⟨c, hc, h⟩ := h
    exact ⟨c, hc, ih c hW h⟩
  | write p c k ih =>
    obtain ⟨h1, h2, h3⟩ := h
    exact ⟨h1, h2, ih hW h3⟩
  | load o k ih => exact h.elim
  | cas o old new k ih => exact h.elim
  | newObj ob k ih => exact h.elim

/-- Calling a function that writes only to nodes it allocates. -/
theorem wp_call {st : Prop} {Q0 : β → View α D → Prop} {Q : γ → View α D → Prop} {P : Prog α D β}
    {f : β → Prog α D γ} {v : View α D} {W : Nat → Prop} (h : wp st Q0 P v Nowhere)
    (hf : ∀ b v', v ≤ v' → Q0 b v' → wp st Q (f b) v' W) : wp st Q (P >>= f) v W := by
  apply wp_bind
  refine wp_mono (W := Nowhere) (fun _ h => h.elim) ?_ (wp_frame h)
  intro b v' hq
  exact hf b v' (fun n c e => hq.2 n c id e) hq.1

theorem wp_call' {st : Prop} {Q0 Q : β → View α D → Prop} {P : Prog α D β}
    {v : View α D} {W : Nat → Prop} (h : wp st Q0 P v Nowhere)
    (hf : ∀ b v', v ≤ v' → Q0 b v' → Q b v') : wp st Q P v W := by
  refine wp_mono (W := Nowhere) (fun _ h => h.elim) ?_ (wp_frame h)
  intro b v' hq
  exact hf b v' (fun n c e => hq.2 n c id e) hq.1

@[simp] theorem wp_ret {st : Prop} {Q : β → View α D → Prop} {b : β} {v : View α D} {W : Nat → Prop} :
    wp st Q (ret b) v W = Q b v := rfl
@[simp] theorem wp_pure {st : Prop} {Q : β → View α D → Prop} {b : β} {v : View α D} {W : Nat → Prop} :
    wp st Q (pure b) v W = Q b v := rfl

theorem wp_new {st : Prop} {Q : γ → View α D → Prop} {c : Cell α D} {f : Nat → Prog α D γ}
    {v : View α D} {W : Nat → Prop}
    (h : ∀ n, v n = none → wp st Q (f n) (v.set n c) (fun m => m = n ∨ W m)) :
    wp st Q (new c >>= f) v W := h

theorem wp_deref {st : Prop} {Q : γ → View α D → Prop} {p : Nat} {c : Cell α D}
    {f : Cell α D → Prog α D γ} {v : View α D} {W : Nat → Prop} (hp : v p = some c)
    (h : wp st Q (f c) v W) : wp st Q (deref (some p) >>= f) v W := ⟨c, hp, h⟩

theorem wp_store {st : Prop} {Q : γ → View α D → Prop} {p : Nat} {c c0 : Cell α D}
    {f : Unit → Prog α D γ} {v : View α D} {W : Nat → Prop} (hW : W p) (hp : v p = some c0)
    (h : wp st Q (f ()) (v.set p c) W) : wp st Q (store p c >>= f) v W := ⟨hW, ⟨c0, hp⟩, h⟩

/-! ### Views of the heap -/

theorem ofHeap_alloc (h : List (Cell α D)) (c : Cell α D) :
    View.ofHeap (h ++ [c]) = (View.ofHeap h).set h.length c := by
  funext n
  unfold View.ofHeap View.set
  by_cases e : n = h.length
  · subst e; simp
  · simp only [e, if_false]
    by_cases hn : n < h.length
    · rw [List.getElem?_append_left hn]
    · have h1 : h.length ≤ n := by omega
      rw [List.getElem?_append_right h1]
      have h2 : 1 ≤ n - h.length := by omega
      rw [List.getElem?_eq_none (l := [c]) (by simpa using h2), List.getElem?_eq_none h1]

theorem ofHeap_write {h : List (Cell α D)} {p : Nat} {c : Cell α D} (hp : p < h.length) :
    View.ofHeap (h.set p c) = (View.ofHeap h).set p c := by
  funext n
  unfold View.ofHeap View.set
  by_cases e : n = p
  · subst e; simp [hp]
  · simp only [e, if_false]
    rw [List.getElem?_set_ne (fun h => e h.symm)]

end Prog

/-! ### What a pointer denotes -/

section
variable {α D : Type}

/-- the pointer is the root of a tree of nodes of the view whose value is the trie -/
inductive Den (v : View α D) : Ptr → Trie α D → Prop
  | nil : Den v none .nil
  | node {a : Nat} {c : Cell α D} {l r : Trie α D} (h : v a = some c) (hl : Den v c.l l)
      (hr : Den v c.r r) : Den v (some a) (.node c.pfx c.data c.size c.h c.active l r)

theorem Den.mono {v v' : View α D} (h : v ≤ v') {p : Ptr} {t : Trie α D} (hd : Den v p t) :
    Den v' p t := by
  induction hd with
  | nil => exact .nil
  | node hc _ _ ihl ihr => exact .node (h _ _ hc) ihl ihr

theorem Den.functional {v : View α D} {p : Ptr} {t t' : Trie α D} (h : Den v p t) (h' : Den v p t') :
    t = t' := by
  induction h generalizing t' with
  | nil => cases h'; rfl
  | node hc _ _ ihl ihr =>
    cases h' with
    | node hc' hl' hr' =>
      rw [hc] at hc'
      injection hc' with e
      subst e
      rw [ihl hl', ihr hr']

theorem Den.nil_iff {v : View α D} {p : Ptr} {t : Trie α D} (h : Den v p t) :
    p = none ↔ t = .nil := by
  cases h <;> simp

theorem Den.none_inv {v : View α D} {t : Trie α D} (h : Den v none t) : t = .nil := by cases h; rfl

theorem Den.some_inv {v : View α D} {a : Nat} {t : Trie α D} (h : Den v (some a) t) :
    ∃ c l r, v a = some c ∧ Den v c.l l ∧ Den v c.r r ∧
      t = .node c.pfx c.data c.size c.h c.active l r := by
  cases h with
  | node hc hl hr => exact ⟨_, _, _, hc, hl, hr, rfl⟩

theorem Den.node_inv {v : View α D} {p : Ptr} {q d n m act} {l r : Trie α D}
    (h : Den v p (.node q d n m act l r)) :
    ∃ a pl pr, p = some a ∧ v a = some ⟨q, d, n, m, act, pl, pr⟩ ∧ Den v pl l ∧ Den v pr r := by
  generalize ht : Trie.node q d n m act l r = t at h
  cases h with
  | nil => cases ht
  | node hc hl hr =>
    injection ht with e1 e2 e3 e4 e5 e6 e7
    subst e1 e2 e3 e4 e5 e6 e7
    exact ⟨_, _, _, rfl, hc, hl, hr⟩

theorem Den.nil_inv {v : View α D} {p : Ptr} (h : Den v p (.nil : Trie α D)) : p = none := by
  cases h; rfl

end
end Addrs

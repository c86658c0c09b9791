import Verif.Reenter
/-
  `Walk` and `Diff` with callbacks that are programs.
-/
set_option linter.unusedSectionVars false
namespace Addrs
open GoWord LawfulGoWord

/-- "calls `callback` for each element in this order and stops at the first `false`" (`visit` of Spec.lean) for a
    callback that is a program -/
def visitM {α D β σ : Type} (cb : β → σ → Prog α D (σ × Bool)) : List β → σ → Prog α D (σ × Bool)
  | [], s => pure (s, true)
  | x :: xs, s => do
    let y ← cb x s
    if y.2 then visitM cb xs y.1 else pure (y.1, false)

/-- the callbacks of `Diff`, ipv4/node.go:562-570, as programs; `none` is nil -/
structure DiffCbs (α D σ : Type) where
  removed : Option (Prefix α → Option D → σ → Prog α D (σ × Bool))
  added : Option (Prefix α → Option D → σ → Prog α D (σ × Bool))
  modified : Option (Prefix α → Option D → Option D → σ → Prog α D (σ × Bool))
  same : Option (Prefix α → Option D → σ → Prog α D (σ × Bool))

/-- the callbacks of `Table.Diff`, ipv4/table.go:241-256, as programs; `none` is nil -/
structure TableDiffCbs (α D σ : Type) where
  changed : Option (Prefix α → D → D → σ → Prog α D (σ × Bool))
  left : Option (Prefix α → D → σ → Prog α D (σ × Bool))
  right : Option (Prefix α → D → σ → Prog α D (σ × Bool))
  unchanged : Option (Prefix α → D → σ → Prog α D (σ × Bool))

namespace Heap
open Prog
variable {α D σ : Type}

/-- ipv4/node.go:697-703: a nil callback is replaced by one that returns true -/
def orNoop1R : Option (Prefix α → Option D → σ → Prog α D (σ × Bool)) → Prefix α → Option D → σ → Prog α D (σ × Bool)
  | some f => f
  | none => fun _ _ s => pure (s, true)
/-- the same for `Modified` -/
def orNoop2R : Option (Prefix α → Option D → Option D → σ → Prog α D (σ × Bool)) →
    Prefix α → Option D → Option D → σ → Prog α D (σ × Bool)
  | some f => f
  | none => fun _ _ _ s => pure (s, true)

variable [GoWord α]

/-- ipv4/node.go:692-745 `Diff`, callbacks being programs -/
def DiffR (fuel : Nat) (cb : DiffCbs α D σ) (eq : Comparator D) (a b : Ptr) (s : σ) : Prog α D (σ × Bool) :=
  let removed := orNoop1R cb.removed
  let added := orNoop1R cb.added
  let modified := orNoop2R cb.modified
  let common := orNoop1R cb.same
  diff
    { removed := fun n s => if n.active then removed n.pfx n.data s else pure (s, true)
      added := fun n s => if n.active then added n.pfx n.data s else pure (s, true)
      modified := fun l r s =>
        if l.active && r.active then do
          let e ← orPanic (eq l.data r.data)
          if !e then modified l.pfx l.data r.data s else common l.pfx l.data s
        else if l.active then removed l.pfx l.data s
        else if r.active then added r.pfx r.data s
        else pure (s, true)
      sameNil := cb.same.isNone }
    fuel a b s

/-- ipv4/node.go:574-590 `Walk`, the callback being a program -/
def walkR (fuel : Nat) (cb : Prefix α → Option D → σ → Prog α D (σ × Bool)) (t : Ptr) (s : σ) : Prog α D (σ × Bool) :=
  DiffR fuel { removed := none, added := some cb, modified := none, same := none } (fun _ _ => some false) none t s

/-- ipv4/table.go:233-239 `Walk`, the callback being a program -/
def xWalkR [Inhabited D] (F : Nat) (m : Obj D) (cb : Prefix α → D → σ → Prog α D (σ × Bool)) (s : σ) : Prog α D (σ × Bool) :=
  walkR F (fun p d => cb p (Table.unbox d)) m.trie s

/-- ipv4/table.go:257-289 `Diff`, the callbacks being programs -/
def xDiffR [GoType D] [Inhabited D] (F : Nat) (m other : Obj D) (cb : TableDiffCbs α D σ) (s : σ) : Prog α D (σ × Bool) :=
  DiffR F
    { removed := cb.left.map fun f p d => f p (Table.unbox d)
      added := cb.right.map fun f p d => f p (Table.unbox d)
      modified := cb.changed.map fun f p d e => f p (Table.unbox d) (Table.unbox e)
      same := cb.unchanged.map fun f p d => f p (Table.unbox d) }
    m.eq.call m.trie other.trie s

/-- ipv4/set.go:212-216 `WalkPrefixes`, the callback being a program -/
def sWalkR (F : Nat) (t : Obj Empty) (cb : Prefix α → σ → SProg α (σ × Bool)) (s : σ) : SProg α (σ × Bool) :=
  walkR F (fun p _ => cb p) t.trie s

/-- Callbacks without effects on the memory give the `Diff` of Verif/HeapNode.lean. -/
theorem DiffR_pure (F : Nat) (cb : Trie.DiffCallbacks α D σ) (eq : Comparator D) (a b : Ptr) (s : σ) :
    DiffR F ⟨cb.removed.map fun f p d s => pure (f p d s), cb.added.map fun f p d s => pure (f p d s),
      cb.modified.map fun f p d e s => pure (f p d e s), cb.same.map fun f p d s => pure (f p d s)⟩ eq a b s =
    Diff F cb eq a b s := by
  obtain ⟨f1, f2, f3, f4⟩ := cb
  cases f1 <;> cases f2 <;> cases f3 <;> cases f4 <;> rfl

/-! ### the iteration -/

theorem visitM_append {β : Type} (cb : β → σ → Prog α D (σ × Bool)) (xs ys : List β) (s : σ) :
    visitM cb (xs ++ ys) s = andThen (visitM cb xs s) (visitM cb ys) := by
  induction xs generalizing s with
  | nil => rfl
  | cons x xs ih =>
    simp only [List.cons_append, visitM, andThen]
    rw [bind_assoc]
    congr 1
    funext y
    cases y.2 with
    | false => rfl
    | true => simp only [if_true, ih]; rfl

theorem visitM_one {β : Type} (cb : β → σ → Prog α D (σ × Bool)) (x : β) (s : σ) (m : Mem α D) :
    (visitM cb [x] s).run m = (cb x s).run m := by
  simp only [visitM, run_bind]
  cases h : (cb x s).run m with
  | mk e m' =>
    cases e with
    | ret y =>
      obtain ⟨s', b⟩ := y
      cases b <;> rfl
    | panic => rfl
    | stuck => rfl

theorem tame_visitM {β : Type} {cb : β → σ → Prog α D (σ × Bool)} (h : ∀ x s, TameIn (cb x s) Nowhere) {xs : List β} {s : σ}
    {W : Nat → Prop} : TameIn (visitM cb xs s) W := by
  induction xs generalizing s W with
  | nil => trivial
  | cons x xs ih =>
    refine Tame.seq (h x s).wider fun y W1 _ => ?_
    exact tame_ite ih trivial

theorem run_andThen {x y : Prog α D (σ × Bool)} {k k' : σ → Prog α D (σ × Bool)} {m : Mem α D} (hx : x.run m = y.run m)
    (hy : TameIn y Nowhere) (hk : ∀ s m', m.nodes ≤ m'.nodes → (k s).run m' = (k' s).run m') :
    (andThen x k).run m = (andThen y k').run m := by
  simp only [andThen, run_bind, hx]
  have hle := run_le hy m
  cases h : y.run m with
  | mk e m' =>
    rw [h] at hle
    cases e with
    | ret z =>
      obtain ⟨s', b⟩ := z
      cases b with
      | false => rfl
      | true => exact hk _ _ hle
    | panic => rfl
    | stuck => rfl

/-- a part of the events satisfies what all of them satisfy -/
local macro "sub_ok" h:ident : tactic => `(tactic| (intro v hv; exact $h v (by simp [hv])))

/-- `diff` is the iteration over the events, whatever the callbacks do, if all events satisfy `ok`. -/
theorem run_diff_on {ok : Trie.Event α D → Prop} {hh : Handler α D σ} {g : Trie.Event α D → σ → Prog α D (σ × Bool)}
    (h1 : ∀ c s m, (hh.removed c s).run m = (visitM g (Trie.ev1 c.active (c.pfx, c.data)) s).run m)
    (h2 : ∀ c s m, (hh.added c s).run m = (visitM g (Trie.ev2 c.active (c.pfx, c.data)) s).run m)
    (h3 : ∀ c d s m, (c.active = true → c.data.isSome = true) → (d.active = true → d.data.isSome = true) →
      (hh.modified c d s).run m = (visitM g (Trie.ev c.active d.active (c.pfx, c.data) (d.pfx, d.data)) s).run m)
    (hg : ∀ x s, TameIn (g x s) Nowhere)
    (hs : hh.sameNil = true → ∀ (t : Trie α D) s m, t.Boxed → (∀ v ∈ Trie.events t t, ok v) →
      (visitM g (Trie.events t t) s).run m = (.ret (s, true), m)) :
    ∀ (F : Nat) {t u : Trie α D}, t.deep + u.deep < F → t.Boxed → u.Boxed → (∀ v ∈ Trie.events t u, ok v) → ∀ {p q : Ptr} {s : σ} {m : Mem α D},
      Den m.nodes p t → Den m.nodes q u → (diff hh F p q s).run m = (visitM g (Trie.events t u) s).run m := by
  have bn : (Trie.nil : Trie α D).Boxed := trivial
  intro F
  induction F with
  | zero => intro t u h; omega
  | succ F ih =>
    intro t u hF bt bu ho p q s m dt du
    unfold diff
    split
    · next he =>
      simp only [Bool.and_eq_true, decide_eq_true_eq] at he
      obtain ⟨rfl, hn⟩ := he
      have e := dt.functional du
      subst e
      rw [hs hn _ _ _ bt ho]
      rfl
    · next hne =>
      clear hne
      cases dt with
      | nil =>
        cases du with
        | nil => rw [Trie.events]; rfl
        | @node b d l' r' hb dl' dr' =>
          simp only [Trie.deep] at hF
          obtain ⟨_, kd, bl', br'⟩ := bu
          have hb' : m.heap[b]? = some d := hb
          simp only [deref, run_bind, run]
          simp only [hb', Trie.events, visitM_append]
          simp only [Trie.events, List.mem_append] at ho
          refine run_andThen (h2 _ _ _) (tame_visitM hg) fun s m1 le1 => ?_
          rw [visitM_append]
          refine run_andThen (ih (by simp only [Trie.deep]; omega) bn bl' (by sub_ok ho) .nil (dl'.mono le1)) (tame_visitM hg)
            fun s m2 le2 => ?_
          exact ih (by simp only [Trie.deep]; omega) bn br' (by sub_ok ho) .nil (dr'.mono (View.le_trans le1 le2))
      | @node a c l r ha dl dr =>
        have ha' : m.heap[a]? = some c := ha
        obtain ⟨wc, kc, bl, br⟩ := bt
        simp only [Trie.deep] at hF
        cases du with
        | nil =>
          simp only [deref, run_bind, run, ha', Trie.events, visitM_append]
          simp only [Trie.events, List.mem_append] at ho
          refine run_andThen (h1 _ _ _) (tame_visitM hg) fun s m1 le1 => ?_
          rw [visitM_append]
          refine run_andThen (ih (by simp only [Trie.deep] at hF ⊢; omega) bl bn (by sub_ok ho) (dl.mono le1) .nil) (tame_visitM hg)
            fun s m2 le2 => ?_
          exact ih (by simp only [Trie.deep] at hF ⊢; omega) br bn (by sub_ok ho) (dr.mono (View.le_trans le1 le2)) .nil
        | @node b d l' r' hb dl' dr' =>
          have hb' : m.heap[b]? = some d := hb
          have bu' := bu
          obtain ⟨_, kd, bl', br'⟩ := bu'
          simp only [Trie.deep] at hF
          simp only [deref, run_bind, run, ha', hb']
          have bt : (Trie.node c.pfx c.data c.size c.h c.active l r).Boxed := ⟨wc, kc, bl, br⟩
          have dt : Den m.nodes (some a) (.node c.pfx c.data c.size c.h c.active l r) := .node ha dl dr
          have du : Den m.nodes (some b) (.node d.pfx d.data d.size d.h d.active l' r') := .node hb dl' dr'
          split
          · next hc =>
            rw [Trie.events, hc] at ho ⊢
            simp only [List.mem_append] at ho
            simp only [visitM_append]
            refine run_andThen (h3 _ _ _ _ kc kd) (tame_visitM hg) fun s m1 le1 => ?_
            rw [visitM_append]
            refine run_andThen (ih (by omega) bl bl' (by sub_ok ho) (dl.mono le1) (dl'.mono le1)) (tame_visitM hg) fun s m2 le2 => ?_
            have le := View.le_trans le1 le2
            exact ih (by omega) br br' (by sub_ok ho) (dr.mono le) (dr'.mono le)
          · next child hc =>
            rw [Trie.events, hc] at ho ⊢
            simp only [List.mem_append] at ho
            simp only [visitM_append]
            refine run_andThen (h1 _ _ _) (tame_visitM hg) fun s m1 le1 => ?_
            cases child with
            | true =>
              simp only [if_true, List.mem_append] at ho
              simp only [if_true]
              rw [visitM_append]
              refine run_andThen (ih (by simp only [Trie.deep]; omega) bl bn (by sub_ok ho) (dl.mono le1) .nil) (tame_visitM hg) fun s m2 le2 => ?_
              have le := View.le_trans le1 le2
              exact ih (by simp only [Trie.deep]; omega) br bu (by sub_ok ho) (dr.mono le) (du.mono le)
            | false =>
              simp only [Bool.false_eq_true, if_false, List.mem_append] at ho
              simp only [Bool.false_eq_true, if_false]
              rw [visitM_append]
              refine run_andThen (ih (by simp only [Trie.deep]; omega) bl bu (by sub_ok ho) (dl.mono le1) (du.mono le1)) (tame_visitM hg) fun s m2 le2 => ?_
              have le := View.le_trans le1 le2
              exact ih (by simp only [Trie.deep]; omega) br bn (by sub_ok ho) (dr.mono le) .nil
          · next child hc =>
            rw [Trie.events, hc] at ho ⊢
            simp only [List.mem_append] at ho
            simp only [visitM_append]
            refine run_andThen (h2 _ _ _) (tame_visitM hg) fun s m1 le1 => ?_
            cases child with
            | true =>
              simp only [if_true, List.mem_append] at ho
              simp only [if_true]
              rw [visitM_append]
              refine run_andThen (ih (by simp only [Trie.deep]; omega) bn bl' (by sub_ok ho) .nil (dl'.mono le1)) (tame_visitM hg) fun s m2 le2 => ?_
              have le := View.le_trans le1 le2
              exact ih (by simp only [Trie.deep]; omega) bt br' (by sub_ok ho) (dt.mono le) (dr'.mono le)
            | false =>
              simp only [Bool.false_eq_true, if_false, List.mem_append] at ho
              simp only [Bool.false_eq_true, if_false]
              rw [visitM_append]
              refine run_andThen (ih (by simp only [Trie.deep]; omega) bt bl' (by sub_ok ho) (dt.mono le1) (dl'.mono le1)) (tame_visitM hg) fun s m2 le2 => ?_
              have le := View.le_trans le1 le2
              exact ih (by simp only [Trie.deep]; omega) bn br' (by sub_ok ho) .nil (dr'.mono le)
          · next child hc =>
            rw [Trie.events, hc] at ho ⊢
            simp only [List.mem_append] at ho
            cases child with
            | true =>
              simp only [if_true, List.mem_append] at ho
              simp only [if_true, visitM_append]
              refine run_andThen (ih (by simp only [Trie.deep]; omega) bt bn (by sub_ok ho) dt .nil) (tame_visitM hg) fun s m2 le => ?_
              exact ih (by simp only [Trie.deep]; omega) bn bu (by sub_ok ho) .nil (du.mono le)
            | false =>
              simp only [Bool.false_eq_true, if_false, List.mem_append] at ho
              simp only [Bool.false_eq_true, if_false, visitM_append]
              refine run_andThen (ih (by simp only [Trie.deep]; omega) bn bu (by sub_ok ho) .nil du) (tame_visitM hg) fun s m2 le => ?_
              exact ih (by simp only [Trie.deep]; omega) bt bn (by sub_ok ho) (dt.mono le) .nil


/-- `diff` is the iteration over the events, whatever the callbacks do. -/
theorem run_diff {hh : Handler α D σ} {g : Trie.Event α D → σ → Prog α D (σ × Bool)}
    (h1 : ∀ c s m, (hh.removed c s).run m = (visitM g (Trie.ev1 c.active (c.pfx, c.data)) s).run m)
    (h2 : ∀ c s m, (hh.added c s).run m = (visitM g (Trie.ev2 c.active (c.pfx, c.data)) s).run m)
    (h3 : ∀ c d s m, (c.active = true → c.data.isSome = true) → (d.active = true → d.data.isSome = true) →
      (hh.modified c d s).run m = (visitM g (Trie.ev c.active d.active (c.pfx, c.data) (d.pfx, d.data)) s).run m)
    (hg : ∀ x s, TameIn (g x s) Nowhere)
    (hs : hh.sameNil = true → ∀ (t : Trie α D) s m, t.Boxed → (visitM g (Trie.events t t) s).run m = (.ret (s, true), m))
    (F : Nat) {t u : Trie α D} (hF : t.deep + u.deep < F) (bt : t.Boxed) (bu : u.Boxed) {p q : Ptr} {s : σ} {m : Mem α D}
    (dt : Den m.nodes p t) (du : Den m.nodes q u) : (diff hh F p q s).run m = (visitM g (Trie.events t u) s).run m :=
  run_diff_on (ok := fun _ => True) h1 h2 h3 hg (fun hn t s m hb _ => hs hn t s m hb) F hF bt bu (fun _ _ => trivial) dt du

/-- how `Diff` hands an event to the callbacks -/
def dispatchR (cb : DiffCbs α D σ) (ve : Option D → Option D → Bool) : Trie.Event α D → σ → Prog α D (σ × Bool)
  | .removed x => orNoop1R cb.removed x.1 x.2
  | .added y => orNoop1R cb.added y.1 y.2
  | .both x y => if ve x.2 y.2 then orNoop1R cb.same x.1 x.2 else orNoop2R cb.modified x.1 x.2 y.2

/-- callbacks that write only to new nodes -/
structure _root_.Addrs.DiffCbs.Tame (cb : DiffCbs α D σ) : Prop where
  removed : ∀ f, cb.removed = some f → ∀ p d s, TameIn (f p d s) Nowhere
  added : ∀ f, cb.added = some f → ∀ p d s, TameIn (f p d s) Nowhere
  modified : ∀ f, cb.modified = some f → ∀ p d e s, TameIn (f p d e s) Nowhere
  same : ∀ f, cb.same = some f → ∀ p d s, TameIn (f p d s) Nowhere

theorem tame_noop1 {f : Option (Prefix α → Option D → σ → Prog α D (σ × Bool))}
    (h : ∀ g, f = some g → ∀ p d s, TameIn (g p d s) Nowhere) {p : Prefix α} {d : Option D} {s : σ} {W : Nat → Prop} :
    TameIn (orNoop1R f p d s) W := by
  cases f with
  | none => trivial
  | some g => exact (h g rfl p d s).wider

theorem tame_noop2 {f : Option (Prefix α → Option D → Option D → σ → Prog α D (σ × Bool))}
    (h : ∀ g, f = some g → ∀ p d e s, TameIn (g p d e s) Nowhere) {p : Prefix α} {d e : Option D} {s : σ} {W : Nat → Prop} :
    TameIn (orNoop2R f p d e s) W := by
  cases f with
  | none => trivial
  | some g => exact (h g rfl p d e s).wider

theorem tame_dispatchR {cb : DiffCbs α D σ} (h : cb.Tame) {ve : Option D → Option D → Bool} {x : Trie.Event α D} {s : σ}
    {W : Nat → Prop} : TameIn (dispatchR cb ve x s) W := by
  cases x with
  | removed x => exact tame_noop1 h.removed
  | added x => exact tame_noop1 h.added
  | both x y =>
    simp only [dispatchR]
    split
    · exact tame_noop1 h.same
    · exact tame_noop2 h.modified

theorem tame_DiffR {cb : DiffCbs α D σ} (h : cb.Tame) {eq : Comparator D} {F : Nat} {p q : Ptr} {s : σ} {W : Nat → Prop} :
    TameIn (DiffR F cb eq p q s) W := by
  unfold DiffR
  refine tame_diff ?_ ?_ ?_
  · intro c s; exact tame_ite (tame_noop1 h.removed) trivial
  · intro c s; exact tame_ite (tame_noop1 h.added) trivial
  · intro c d s
    refine tame_ite (Tame.seq tame_orPanic fun e W1 _ => tame_ite (tame_noop2 h.modified) (tame_noop1 h.same)) ?_
    exact tame_ite (tame_noop1 h.removed) (tame_ite (tame_noop1 h.added) trivial)

theorem tame_walkR {cb : Prefix α → Option D → σ → Prog α D (σ × Bool)} (h : ∀ p d s, TameIn (cb p d s) Nowhere) {F : Nat}
    {p : Ptr} {s : σ} {W : Nat → Prop} : TameIn (walkR F cb p s) W := by
  refine tame_DiffR ⟨?_, ?_, ?_, ?_⟩
  · intro f hf; cases hf
  · intro f hf; cases hf; exact h
  · intro f hf; cases hf
  · intro f hf; cases hf

theorem visitM_noop {β : Type} {g : β → σ → Prog α D (σ × Bool)} {xs : List β} (h : ∀ x ∈ xs, ∀ s, g x s = pure (s, true))
    (s : σ) : visitM g xs s = pure (s, true) := by
  induction xs generalizing s with
  | nil => rfl
  | cons x xs ih =>
    simp only [visitM, h x (List.mem_cons_self ..), bind_pure', if_true]
    exact ih (fun y hy => h y (List.mem_cons_of_mem _ hy)) s

theorem visitM_congr {β : Type} {g g' : β → σ → Prog α D (σ × Bool)} {xs : List β} (h : ∀ x ∈ xs, ∀ s, g x s = g' x s)
    (s : σ) : visitM g xs s = visitM g' xs s := by
  induction xs generalizing s with
  | nil => rfl
  | cons x xs ih =>
    simp only [visitM, h x (List.mem_cons_self ..)]
    congr 1
    funext y
    split
    · exact ih (fun y hy => h y (List.mem_cons_of_mem _ hy)) _
    · rfl

theorem visitM_map {β γ : Type} (f : β → γ) (g : γ → σ → Prog α D (σ × Bool)) (xs : List β) (s : σ) :
    visitM g (xs.map f) s = visitM (fun x => g (f x)) xs s := by
  induction xs generalizing s with
  | nil => rfl
  | cons x xs ih =>
    simp only [List.map_cons, visitM]
    congr 1
    funext y
    split
    · exact ih _
    · rfl

end Heap

theorem Trie.events_self {α D : Type} [LawfulGoWord α] {t : Trie α D} (hb : t.Boxed) :
    ∀ v ∈ Trie.events t t, ∃ x, v = .both x x ∧ x.2.isSome = true := by
  induction t with
  | nil => intro v hv; rw [Trie.events] at hv; cases hv
  | node p d n m act l r ihl ihr =>
    obtain ⟨h1, h2, h3, h4⟩ := hb
    intro v hv
    rw [Trie.events, SetNode.compareP_self h1] at hv
    simp only [List.mem_append] at hv
    rcases hv with hv | hv | hv
    · cases act with
      | false => simp [Trie.ev] at hv
      | true =>
        simp only [Trie.ev, Bool.and_self, if_true, List.mem_singleton] at hv
        exact ⟨_, hv, h2 rfl⟩
    · exact ihl h3 v hv
    · exact ihr h4 v hv

namespace Heap
open Prog
variable {α D σ : Type} [LawfulGoWord α]

/-- `Diff` calls the callbacks for the events of the two tries as they are when it is called, whatever the
    callbacks do -/
theorem run_DiffR {cb : DiffCbs α D σ} (hcb : cb.Tame) {eq : Comparator D} {ve : Option D → Option D → Bool}
    (hEq : ∀ a b, eq (some a) (some b) = some (ve (some a) (some b)))
    (hr : cb.same = none → (∀ d, ve (some d) (some d) = true) ∨ cb.modified = none) {F : Nat} {t u : Trie α D}
    (hF : t.deep + u.deep < F) (bt : t.Boxed) (bu : u.Boxed) {p q : Ptr} {s : σ} {m : Mem α D}
    (dt : Den m.nodes p t) (du : Den m.nodes q u) :
    (DiffR F cb eq p q s).run m = (visitM (dispatchR cb ve) (Trie.events t u) s).run m := by
  unfold DiffR
  refine run_diff ?_ ?_ ?_ (fun x s => tame_dispatchR hcb) ?_ F hF bt bu dt du
  · intro c s m
    simp only [Trie.ev1]
    cases c.active with
    | false => rfl
    | true => simp only [if_true, visitM_one, dispatchR]
  · intro c s m
    simp only [Trie.ev2]
    cases c.active with
    | false => rfl
    | true => simp only [if_true, visitM_one, dispatchR]
  · intro c d s m hc hd
    simp only [Trie.ev]
    cases ha : c.active <;> cases hb : d.active
    · rfl
    · simp [visitM_one, dispatchR]
    · simp [visitM_one, dispatchR]
    · obtain ⟨x, hx⟩ := Option.isSome_iff_exists.mp (hc ha)
      obtain ⟨y, hy⟩ := Option.isSome_iff_exists.mp (hd hb)
      simp only [Bool.and_self, if_true, hx, hy, hEq, orPanic, bind_ret, visitM_one, dispatchR]
      cases ve (some x) (some y) <;> rfl
  · intro hn t s m hb
    have hn' : cb.same = none := Option.isNone_iff_eq_none.mp hn
    rw [visitM_noop]
    · rfl
    · intro v hv s
      obtain ⟨x, rfl, hx⟩ := Trie.events_self hb v hv
      obtain ⟨y, hy⟩ := Option.isSome_iff_exists.mp hx
      simp only [dispatchR, hy, hn']
      rcases hr hn' with h | h
      · rw [h y]; rfl
      · rw [h]; split <;> rfl

/-- `Walk` -/
theorem run_walkR {cb : Prefix α → Option D → σ → Prog α D (σ × Bool)} (hcb : ∀ p d s, TameIn (cb p d s) Nowhere) {F : Nat}
    {u : Trie α D} (hF : u.deep < F) {q : Ptr} {s : σ} {m : Mem α D} (du : Den m.nodes q u) :
    (walkR F cb q s).run m = (visitM (fun x => cb x.1 x.2) u.entries s).run m := by
  unfold walkR DiffR
  dsimp only
  have hg : ∀ (x : Prefix α × Option D) s, TameIn (cb x.1 x.2 s) Nowhere := fun x s => hcb _ _ _
  induction F generalizing u q s m with
  | zero => omega
  | succ F ih =>
    unfold diff
    cases du with
    | nil =>
      rfl
    | @node b d l r hb dl dr =>
      have hb' : m.heap[b]? = some d := hb
      simp only [Trie.deep] at hF
      simp only [reduceCtorEq, decide_false, Bool.false_and, Bool.false_eq_true, if_false, deref, run_bind, run, hb', Trie.entries, visitM_append]
      refine run_andThen ?_ (tame_visitM hg) fun s m1 le1 => ?_
      · cases d.active with
        | false => rfl
        | true => simp only [if_true, visitM_one]; rfl
      rw [visitM_append]
      refine run_andThen (ih (by omega) (dl.mono le1)) (tame_visitM hg) fun s m2 le2 => ?_
      exact ih (by omega) (dr.mono (View.le_trans le1 le2))

/-! ### WalkRanges -/

/-- the step function of `WalkRanges` (ipv4/set.go:270-283), the callback being a program -/
def rangeStepM (cb : Range α → σ → SProg α (σ × Bool)) (p : Prefix α) (x : List (Range α) × σ) :
    SProg α ((List (Range α) × σ) × Bool) :=
  let ranges := match x.1 with
    | [] => [p.range]
    | r :: _ => p.range.plus r
  match ranges with
  | [a, b] => cb a x.2 >>= fun y => if y.2 then pure (([b], y.1), true) else pure ((ranges, y.1), false)
  | _ => pure ((ranges, x.2), true)

/-- the end of `WalkRanges` (ipv4/set.go:284-292), the callback being a program -/
def rangeEndM (cb : Range α → σ → SProg α (σ × Bool)) (x : (List (Range α) × σ) × Bool) : SProg α (σ × Bool) :=
  if x.2 then
    match x.1.1 with
    | [a] => cb a x.1.2 >>= fun y => if y.2 then pure (y.1, true) else pure (y.1, false)
    | _ => pure (x.1.2, true)
  else pure (x.1.2, false)

/-- ipv4/set.go:268-293 `WalkRanges`, the callback being a program -/
def sWalkRangesR (F : Nat) (t : Obj Empty) (cb : Range α → σ → SProg α (σ × Bool)) (s : σ) : SProg α (σ × Bool) :=
  sWalkR F t (rangeStepM cb) ([], s) >>= rangeEndM cb

theorem tame_rangeStepM {cb : Range α → σ → SProg α (σ × Bool)} (h : ∀ r s, TameIn (cb r s) Nowhere) {p : Prefix α}
    {x : List (Range α) × σ} {W : Nat → Prop} : TameIn (rangeStepM cb p x) W := by
  unfold rangeStepM
  dsimp only
  split
  · exact Tame.seq (h _ _).wider fun y W1 _ => tame_ite trivial trivial
  · trivial

theorem tame_rangeEndM {cb : Range α → σ → SProg α (σ × Bool)} (h : ∀ r s, TameIn (cb r s) Nowhere)
    {x : (List (Range α) × σ) × Bool} {W : Nat → Prop} : TameIn (rangeEndM cb x) W := by
  unfold rangeEndM
  refine tame_ite ?_ trivial
  split
  · exact Tame.seq (h _ _).wider fun y W1 _ => tame_ite trivial trivial
  · trivial

theorem tame_sWalkRangesR {cb : Range α → σ → SProg α (σ × Bool)} (h : ∀ r s, TameIn (cb r s) Nowhere) {F : Nat}
    {t : Obj Empty} {s : σ} {W : Nat → Prop} : TameIn (sWalkRangesR F t cb s) W :=
  Tame.seq (tame_walkR fun _ _ _ => tame_rangeStepM h) fun _ _ _ => tame_rangeEndM h

theorem visitM_rangeStep (cb : Range α → σ → SProg α (σ × Bool)) (ps : List (Prefix α)) :
    ∀ (cur : Range α) (st : σ), cur.Valid → (∀ p ∈ ps, p.WF) → After cur ps → Ascending ps →
    visitM (rangeStepM cb) ps ([cur], st) >>= rangeEndM cb = visitM cb (mergeFrom cur ps) st := by
  induction ps with
  | nil => intro cur st _ _ _ _; rfl
  | cons p ps ih =>
    intro cur st hv hw haf has
    have hp : p.WF := hw p (List.mem_cons_self ..)
    have hap := haf p (List.mem_cons_self ..)
    obtain ⟨e1, e2, e3, e4⟩ := plus_step hv hp hap
    rw [Ascending, List.pairwise_cons] at has
    have hpv : p.range.Valid := by rw [e4]; exact (Prefix.range_eq hp).2
    have haf' : After p.range ps := by
      intro q hq x hx
      rw [e4]
      exact has.1 q hq _ x (covers_broadcast_addr hp) hx
    have hw' : ∀ q ∈ ps, q.WF := fun q hq => hw q (List.mem_cons_of_mem _ hq)
    simp only [visitM, mergeFrom]
    by_cases hc : lt cur.next p.range.first = true
    · simp only [rangeStepM, e1, Range.plusAux, hc, if_true]
      simp only [visitM, bind_assoc]
      congr 1
      funext y
      obtain ⟨s', b⟩ := y
      cases b with
      | true =>
        simp only [if_true, bind_pure']
        exact ih p.range s' hpv hw' haf' has.2
      | false => rfl
    · simp only [rangeStepM, e1, Range.plusAux, hc, e3]
      have := ih ⟨cur.first, p.range.last⟩ st (by
        have h1 : toNat cur.first ≤ toNat cur.last := hv
        have h2 := hap _ (covers_broadcast_addr hp)
        rw [e4]; show toNat cur.first ≤ toNat p.broadcast.addr; omega) hw' haf' has.2
      simpa using this

theorem run_sWalkRangesR {cb : Range α → σ → SProg α (σ × Bool)} (hcb : ∀ r s, TameIn (cb r s) Nowhere) {F : Nat}
    {u : SetNode α} (hi : SetNode.Inv u) (hF : u.deep < F) {t : Obj Empty} {s : σ} {m : Mem α Empty} (du : Den m.nodes t.trie u) :
    (sWalkRangesR F t cb s).run m = (visitM cb (mergeAll u.prefixes) s).run m := by
  have e : visitM cb (mergeAll u.prefixes) s = visitM (rangeStepM cb) u.prefixes ([], s) >>= rangeEndM cb := by
    have hw := hi.prefixes_wf
    have has : Ascending u.prefixes := hi.sorted
    cases hps : u.prefixes with
    | nil => rfl
    | cons p ps =>
      rw [hps] at hw has
      have hp : p.WF := hw p (List.mem_cons_self ..)
      rw [Ascending, List.pairwise_cons] at has
      refine (visitM_rangeStep cb ps p.range s ?_ ?_ ?_ ?_).symm
      · rw [(Prefix.range_eq hp).1]; exact (Prefix.range_eq hp).2
      · exact fun q hq => hw q (List.mem_cons_of_mem _ hq)
      · intro q hq x hx
        rw [(Prefix.range_eq hp).1]
        exact has.1 q hq _ x (covers_broadcast_addr hp) hx
      · exact has.2
  rw [e, sWalkRangesR, run_bind, run_bind, sWalkR, run_walkR (fun _ _ _ => tame_rangeStepM hcb) hF du]
  congr 1
  rw [Trie.prefixes, visitM_map]

/-! ### WalkAddresses (ipv4) -/

/-- ipv4/prefix.go:213-220 `walkAddresses`, the callback being a program: the loop `for a := lo; a <= hi; a++` -/
def walkAddrLoopR (cb : BitVec 32 → σ → SProg (BitVec 32) (σ × Bool)) (hi : BitVec 32) :
    Nat → BitVec 32 → σ → SProg (BitVec 32) (σ × Bool)
  | 0, _, _ => stuck
  | fuel + 1, a, st =>
    if hi.toNat < a.toNat then pure (st, true)
    else cb a st >>= fun y => if y.2 then walkAddrLoopR cb hi fuel (a + 1#32) y.1 else pure (y.1, false)

/-- ipv4/set.go:242-246 `WalkAddresses`, the callback being a program; `fuel` bounds the iterations of each
    prefix's loop -/
def sWalkAddressesR (F fuel : Nat) (t : Obj Empty) (cb : BitVec 32 → σ → SProg (BitVec 32) (σ × Bool)) (s : σ) :
    SProg (BitVec 32) (σ × Bool) :=
  sWalkR F t (fun p s => walkAddrLoopR cb p.broadcast.addr fuel p.network.addr s) s

theorem tame_walkAddrLoopR {cb : BitVec 32 → σ → SProg (BitVec 32) (σ × Bool)} (h : ∀ a s, TameIn (cb a s) Nowhere)
    {hi : BitVec 32} {fuel : Nat} {a : BitVec 32} {s : σ} {W : Nat → Prop} : TameIn (walkAddrLoopR cb hi fuel a s) W := by
  induction fuel generalizing a s W with
  | zero => trivial
  | succ fuel ih =>
    unfold walkAddrLoopR
    exact tame_ite trivial (Tame.seq (h _ _).wider fun y W1 _ => tame_ite ih trivial)

theorem tame_sWalkAddressesR {cb : BitVec 32 → σ → SProg (BitVec 32) (σ × Bool)} (h : ∀ r s, TameIn (cb r s) Nowhere) {F fuel : Nat}
    {t : Obj Empty} {s : σ} {W : Nat → Prop} : TameIn (sWalkAddressesR F fuel t cb s) W :=
  tame_walkR fun _ _ _ => tame_walkAddrLoopR h

theorem walkAddrLoopR_eq (cb : BitVec 32 → σ → SProg (BitVec 32) (σ × Bool)) (hi : BitVec 32)
    (hmax : hi.toNat < 2 ^ 32 - 1) (n : Nat) : ∀ (fuel : Nat) (a : BitVec 32) (st : σ), n < fuel →
    hi.toNat + 1 = a.toNat + n →
    walkAddrLoopR cb hi fuel a st = visitM cb ((List.range' a.toNat n).map (BitVec.ofNat 32)) st := by
  induction n with
  | zero =>
    intro fuel a st hf hn
    cases fuel with
    | zero => omega
    | succ fuel =>
      rw [walkAddrLoopR]
      have : hi.toNat < a.toNat := by omega
      simp [this, visitM]
  | succ n ih =>
    intro fuel a st hf hn
    cases fuel with
    | zero => omega
    | succ fuel =>
      rw [walkAddrLoopR]
      have h1 : ¬ hi.toNat < a.toNat := by omega
      have ha : BitVec.ofNat 32 a.toNat = a := by simp
      simp only [h1, if_false, List.range'_succ, List.map_cons, visitM, ha]
      congr 1
      funext y
      have ea : (a + 1#32).toNat = a.toNat + 1 := by
        rw [BitVec.toNat_add]; simp; omega
      rw [ih fuel (a + 1#32) y.1 (by omega) (by omega), ea]

theorem visitM_flatMap {β γ : Type} (f : β → List γ) (cb : γ → σ → Prog α D (σ × Bool)) (xs : List β) (s : σ) :
    visitM cb (xs.flatMap f) s = visitM (fun x => visitM cb (f x)) xs s := by
  induction xs generalizing s with
  | nil => rfl
  | cons x xs ih =>
    rw [List.flatMap_cons, visitM_append]
    simp only [visitM, andThen]
    congr 1
    funext y
    rw [ih]

theorem run_sWalkAddressesR {cb : BitVec 32 → σ → SProg (BitVec 32) (σ × Bool)} (hcb : ∀ a s, TameIn (cb a s) Nowhere) {F fuel : Nat}
    {u : SetNode (BitVec 32)} (hi : SetNode.Inv u) (hF : u.deep < F) (hf : 2 ^ 32 < fuel)
    (hmax : ∀ p ∈ u.prefixes, p.broadcast.addr.toNat < 2 ^ 32 - 1) {t : Obj Empty} {s : σ} {m : Mem (BitVec 32) Empty}
    (du : Den m.nodes t.trie u) :
    (sWalkAddressesR F fuel t cb s).run m = (visitM cb (u.prefixes.flatMap Prefix.addresses) s).run m := by
  unfold sWalkAddressesR sWalkR
  rw [run_walkR (fun _ _ _ => tame_walkAddrLoopR hcb) hF du, visitM_flatMap, Trie.prefixes, visitM_map]
  congr 1
  refine visitM_congr (α := BitVec 32) (fun x hx s => ?_) _
  have hx' : x.1 ∈ u.prefixes := List.mem_map_of_mem hx
  have hp := hi.prefixes_wf _ hx'
  have h1 := toNat_network hp
  have h2 := toNat_broadcast hp
  have e1 : toNat x.1.network.addr = x.1.network.addr.toNat := rfl
  have e2 : toNat x.1.broadcast.addr = x.1.broadcast.addr.toNat := rfl
  have ew : width (BitVec 32) = 32 := rfl
  rw [ew] at h1 h2
  have hpow : 2 ^ (32 - x.1.len) ≤ 2 ^ 32 := Nat.pow_le_pow_right (by omega) (by omega)
  have hpos : 0 < 2 ^ (32 - x.1.len) := Nat.pow_pos (by omega)
  exact walkAddrLoopR_eq cb _ (hmax _ hx') (2 ^ (32 - x.1.len)) fuel _ s (by omega) (by omega)

end Heap
end Addrs

import Verif.PropCode
/-
  Callbacks that use the library.  In Verif/HeapNode.lean and Verif/HeapTable.lean a callback is a function on
  the caller's own state.  Here it is a program: it may read and modify mutable tables and sets, take
  snapshots, start walks of its own, and panic.
-/
set_option linter.unusedSectionVars false
namespace Addrs
open GoWord

/-- the memory: nodes and mutable objects -/
structure Mem (α D : Type) where
  heap : List (Cell α D)
  objs : List (Obj D)

/-- how a program ends -/
inductive End (β : Type) where
  | ret (b : β)
  | panic
  | stuck

namespace Prog
variable {α D β γ : Type}

/-- a program running alone; the actions are those of the machine (Verif/Machine.lean `State.actP`, see
    `State.runs_alone`) -/
def run : Prog α D β → Mem α D → End β × Mem α D
  | ret b, m => (.ret b, m)
  | panic, m => (.panic, m)
  | stuck, m => (.stuck, m)
  | alloc c k, m => (k m.heap.length).run { m with heap := m.heap ++ [c] }
  | read p k, m =>
    match m.heap[p]? with
    | some c => (k c).run m
    | none => (.panic, m)
  | write p c k, m => if p < m.heap.length then k.run { m with heap := m.heap.set p c } else (.panic, m)
  | load o k, m =>
    match m.objs[o]? with
    | some ob => (k ob).run m
    | none => (.panic, m)
  | cas o old new k, m =>
    match m.objs[o]? with
    | some ob =>
      if ob.trie = old then (k true).run { m with objs := m.objs.set o { ob with trie := new } }
      else (k false).run m
    | none => (.panic, m)
  | newObj ob k, m => (k m.objs.length).run { m with objs := m.objs ++ [ob] }

theorem run_bind (P : Prog α D β) (f : β → Prog α D γ) (m : Mem α D) :
    (P >>= f).run m = match P.run m with
      | (.ret b, m') => (f b).run m'
      | (.panic, m') => (.panic, m')
      | (.stuck, m') => (.stuck, m') := by
  show (P.bind f).run m = _
  induction P generalizing m with
  | ret b => rfl
  | panic => rfl
  | stuck => rfl
  | alloc c k ih => simp only [bind, run, ih]
  | read p k ih => simp only [bind, run]; cases m.heap[p]? <;> simp only [ih]
  | write p c k ih => simp only [bind, run]; split <;> simp only [ih]
  | load o k ih => simp only [bind, run]; cases m.objs[o]? <;> simp only [ih]
  | cas o old new k ih =>
    simp only [bind, run]
    cases m.objs[o]? with
    | none => rfl
    | some ob => simp only; split <;> simp only [ih]
  | newObj ob k ih => simp only [bind, run, ih]

/-- The program writes only to nodes of `W` and to nodes it allocates, whatever it reads; `Q` holds of the
    result and of the nodes it may write to at the end. -/
def Tame (Q : β → (Nat → Prop) → Prop) : Prog α D β → (Nat → Prop) → Prop
  | ret b, W => Q b W
  | panic, _ => True
  | stuck, _ => True
  | alloc _ k, W => ∀ n, Tame Q (k n) (fun m => m = n ∨ W m)
  | read _ k, W => ∀ c, Tame Q (k c) W
  | write p _ k, W => W p ∧ Tame Q k W
  | load _ k, W => ∀ ob, Tame Q (k ob) W
  | cas _ _ _ k, W => ∀ b, Tame Q (k b) W
  | newObj _ k, W => ∀ o, Tame Q (k o) W

theorem Tame.mono {Q Q' : β → (Nat → Prop) → Prop} {P : Prog α D β} {W W' : Nat → Prop} (h : Tame Q P W)
    (hW : ∀ n, W n → W' n) (hQ : ∀ b (V V' : Nat → Prop), (∀ n, V n → V' n) → Q b V → Q' b V') : Tame Q' P W' := by
  induction P generalizing W W' with
  | ret b => exact hQ _ _ _ hW h
  | panic => trivial
  | stuck => trivial
  | alloc c k ih => intro n; exact ih n (h n) fun m hm => hm.imp id (hW m)
  | read p k ih => intro c; exact ih c (h c) hW
  | write p c k ih => exact ⟨hW _ h.1, ih h.2 hW⟩
  | load o k ih => intro c; exact ih c (h c) hW
  | cas o old new k ih => intro c; exact ih c (h c) hW
  | newObj ob k ih => intro c; exact ih c (h c) hW

theorem Tame.bind {Q : γ → (Nat → Prop) → Prop} {P : Prog α D β} {f : β → Prog α D γ} {W : Nat → Prop}
    (h : Tame (fun b W' => Tame Q (f b) W') P W) : Tame Q (P >>= f) W := by
  show Tame Q (P.bind f) W
  induction P generalizing W with
  | ret b => exact h
  | panic => trivial
  | stuck => trivial
  | alloc c k ih => intro n; exact ih n (h n)
  | read p k ih => intro c; exact ih c (h c)
  | write p c k ih => exact ⟨h.1, ih h.2⟩
  | load o k ih => intro c; exact ih c (h c)
  | cas o old new k ih => intro c; exact ih c (h c)
  | newObj ob k ih => intro c; exact ih c (h c)

theorem Tame.frame {Q : β → (Nat → Prop) → Prop} {P : Prog α D β} {W : Nat → Prop} (h : Tame Q P W) :
    Tame (fun b W' => Q b W' ∧ ∀ n, W n → W' n) P W := by
  suffices H : ∀ V : Nat → Prop, (∀ n, V n → W n) → Tame (fun b W' => Q b W' ∧ ∀ n, V n → W' n) P W from
    H W fun _ h => h
  intro V hV
  induction P generalizing W with
  | ret b => exact ⟨h, hV⟩
  | panic => trivial
  | stuck => trivial
  | alloc c k ih => intro n; exact ih n (h n) fun m hm => Or.inr (hV m hm)
  | read p k ih => intro c; exact ih c (h c) hV
  | write p c k ih => exact ⟨h.1, ih h.2 hV⟩
  | load o k ih => intro c; exact ih c (h c) hV
  | cas o old new k ih => intro c; exact ih c (h c) hV
  | newObj ob k ih => intro c; exact ih c (h c) hV

/-- the program writes only to nodes of `W` and to nodes it allocates -/
abbrev TameIn (P : Prog α D β) (W : Nat → Prop) : Prop := Tame (fun _ _ => True) P W

/-- one program after another -/
theorem Tame.seq {P : Prog α D β} {f : β → Prog α D γ} {W : Nat → Prop} {Q : γ → (Nat → Prop) → Prop}
    (h : TameIn P W) (hf : ∀ b (W' : Nat → Prop), (∀ n, W n → W' n) → Tame Q (f b) W') : Tame Q (P >>= f) W :=
  Tame.bind (h.frame.mono (fun _ h => h) fun b _ V' hV hq => hf b V' fun n hn => hV n (hq.2 n hn))

theorem TameIn.mono {P : Prog α D β} {W W' : Nat → Prop} (h : TameIn P W) (hW : ∀ n, W n → W' n) : TameIn P W' :=
  Tame.mono h hW fun _ _ _ _ _ => trivial

theorem TameIn.wider {P : Prog α D β} {W : Nat → Prop} (h : TameIn P Nowhere) : TameIn P W := h.mono fun _ h => h.elim

/-- A program that writes only to new nodes leaves the nodes that were there as they are. -/
theorem run_keeps {Q : β → (Nat → Prop) → Prop} {P : Prog α D β} {W : Nat → Prop} (h : Tame Q P W) {m : Mem α D} {N : Nat}
    (hW : ∀ n, W n → N ≤ n) (hN : N ≤ m.heap.length) :
    N ≤ (P.run m).2.heap.length ∧ ∀ n, n < N → (P.run m).2.heap[n]? = m.heap[n]? := by
  induction P generalizing W m with
  | ret b => exact ⟨hN, fun _ _ => rfl⟩
  | panic => exact ⟨hN, fun _ _ => rfl⟩
  | stuck => exact ⟨hN, fun _ _ => rfl⟩
  | alloc c k ih =>
    have := ih m.heap.length (h _) (m := { m with heap := m.heap ++ [c] }) (by
      rintro n (rfl | hn)
      · exact hN
      · exact hW n hn) (by simp only [List.length_append, List.length_cons, List.length_nil]; omega)
    refine ⟨this.1, fun n hn => (this.2 n hn).trans ?_⟩
    exact List.getElem?_append_left (by omega)
  | read p k ih =>
    simp only [run]
    cases m.heap[p]? with
    | none => exact ⟨hN, fun _ _ => rfl⟩
    | some c => exact ih c (h c) hW hN
  | write p c k ih =>
    simp only [run]
    split
    · have := ih h.2 (m := { m with heap := m.heap.set p c }) hW (by simpa using hN)
      refine ⟨this.1, fun n hn => (this.2 n hn).trans ?_⟩
      have := hW p h.1
      exact List.getElem?_set_ne (by omega)
    · exact ⟨hN, fun _ _ => rfl⟩
  | load o k ih =>
    simp only [run]
    cases m.objs[o]? with
    | none => exact ⟨hN, fun _ _ => rfl⟩
    | some c => exact ih c (h c) hW hN
  | cas o old new k ih =>
    simp only [run]
    cases m.objs[o]? with
    | none => exact ⟨hN, fun _ _ => rfl⟩
    | some ob =>
      simp only
      split
      · exact ih true (h true) (m := { m with objs := _ }) hW hN
      · exact ih false (h false) hW hN
  | newObj ob k ih => exact ih _ (h _) (m := { m with objs := _ }) hW hN

/-- the nodes of a memory -/
abbrev _root_.Addrs.Mem.nodes (m : Mem α D) : View α D := View.ofHeap m.heap

theorem run_le {P : Prog α D β} (h : TameIn P Nowhere) (m : Mem α D) : m.nodes ≤ (P.run m).2.nodes := by
  intro n c hc
  have hn : n < m.heap.length := (List.getElem?_eq_some_iff.mp hc).1
  exact ((run_keeps h (fun _ h => h.elim) (Nat.le_refl _)).2 n hn).trans hc

end Prog

/-! ### The code of the library writes only to new nodes -/
namespace Heap
open Prog
variable {α D β γ σ : Type}

theorem tame_pure {W : Nat → Prop} {b : β} : TameIn (pure b : Prog α D β) W := trivial

theorem tame_deref {W : Nat → Prop} {p : Ptr} : TameIn (deref p : Prog α D (Cell α D)) W := by
  cases p with
  | none => trivial
  | some a => intro c; trivial

theorem tame_orPanic {W : Nat → Prop} {x : Option β} : TameIn (orPanic x : Prog α D β) W := by cases x <;> trivial

theorem tame_numNodes {W : Nat → Prop} {p : Ptr} : TameIn (numNodes p : Prog α D Nat) W := by
  cases p with
  | none => trivial
  | some a => intro c; trivial

theorem tame_height {W : Nat → Prop} {p : Ptr} : TameIn (height p : Prog α D Nat) W := by
  cases p with
  | none => trivial
  | some a => intro c; trivial

theorem tame_store {W : Nat → Prop} {p : Nat} {c : Cell α D} (h : W p) : TameIn (store p c) W := ⟨h, trivial⟩

theorem tame_new {W : Nat → Prop} {c : Cell α D} {f : Nat → Prog α D β} {Q : β → (Nat → Prop) → Prop}
    (h : ∀ n, Tame Q (f n) (fun m => m = n ∨ W m)) : Tame Q (new c >>= f) W := h

theorem tame_load {W : Nat → Prop} {o : Nat} {f : Obj D → Prog α D β} {Q : β → (Nat → Prop) → Prop}
    (h : ∀ n, Tame Q (f n) W) : Tame Q (readObj o >>= f) W := h

theorem tame_swap {W : Nat → Prop} {o : Nat} {p q : Ptr} {f : Bool → Prog α D β} {Q : β → (Nat → Prop) → Prop}
    (h : ∀ n, Tame Q (f n) W) : Tame Q (swap o p q >>= f) W := h

theorem tame_newObject {W : Nat → Prop} {ob : Obj D} {f : Nat → Prog α D β} {Q : β → (Nat → Prop) → Prop}
    (h : ∀ n, Tame Q (f n) W) : Tame Q (newObject ob >>= f) W := h

theorem tame_ite {W : Nat → Prop} {c : Prop} [Decidable c] {x y : Prog α D β} {Q : β → (Nat → Prop) → Prop}
    (h : Tame Q x W) (h' : Tame Q y W) : Tame Q (if c then x else y) W := by split <;> assumption

theorem tame_mutate {τ : Type} {me : Nat} {f : Cell α D → Prog α D (Cell α D × τ)} {W : Nat → Prop} (hW : W me)
    (hf : ∀ c, TameIn (f c) W) : TameIn (mutate me f) W := by
  unfold mutate
  refine Tame.seq tame_deref fun c W1 h1 => Tame.seq ((hf c).mono h1) fun x W2 h2 => ?_
  refine Tame.seq (tame_store (h2 _ (h1 _ hW))) fun _ W7 h7 => ?_
  refine Tame.seq tame_numNodes fun n0 W3 h3 => Tame.seq tame_numNodes fun n1 W4 h4 =>
    Tame.seq tame_height fun n2 W5 h5 => Tame.seq tame_height fun n3 W6 h6 => Tame.seq (tame_store ?_) fun _ _ _ => trivial
  exact h6 _ (h5 _ (h4 _ (h3 _ (h7 _ (h2 _ (h1 _ hW))))))

variable [GoWord α]

theorem tame_structEq [GoType D] {a b : Cell α D} {W : Nat → Prop} : TameIn (structEq a b) W := by
  unfold structEq
  split
  · trivial
  · exact Tame.seq tame_orPanic fun _ _ _ => trivial

theorem tame_copyMutate {τ : Type} [GoType D] {me : Nat} {f : Cell α D → Prog α D (Cell α D × τ)} {W : Nat → Prop}
    (hf : ∀ c, TameIn (f c) Nowhere) : TameIn (copyMutate me f) W := by
  unfold copyMutate
  refine Tame.seq tame_deref fun c W1 h1 => tame_new fun n => ?_
  refine Tame.seq (tame_mutate (Or.inl rfl) fun c => (hf c).wider) fun x W2 h2 => ?_
  exact Tame.seq tame_deref fun c W3 h3 => Tame.seq tame_deref fun d W4 h4 => Tame.seq tame_structEq fun b W5 h5 => trivial

theorem tame_equal {eq : Comparator D} {F : Nat} {p q : Ptr} {W : Nat → Prop} : TameIn (α := α) (equal eq F p q) W := by
  induction F generalizing p q W with
  | zero => trivial
  | succ F ih =>
    unfold equal
    split
    · trivial
    · split
      · trivial
      · trivial
      · refine Tame.seq tame_deref fun c W1 _ => Tame.seq tame_deref fun d W2 _ => ?_
        split
        · trivial
        · split
          · trivial
          · have tail : ∀ (e : Bool) (W : Nat → Prop), TameIn (α := α) (D := D) (if (!e) = true then pure false else do
                let x ← equal eq F c.l d.l
                if (!x) = true then pure false else do
                  let y ← equal eq F c.r d.r
                  if (!y) = true then pure false else pure true) W := by
              intro e W
              split
              · trivial
              · refine Tame.seq ih fun x W4 _ => ?_
                split
                · trivial
                · refine Tame.seq ih fun y W5 _ => ?_
                  split <;> trivial
            dsimp only
            split
            · exact Tame.seq tame_orPanic fun e W3 _ => tail e W3
            · exact tail true _

theorem tame_match {k : Prefix α} {F : Nat} {p : Ptr} {W : Nat → Prop} : TameIn (D := D) («match» k F p) W := by
  induction F generalizing p W with
  | zero => trivial
  | succ F ih =>
    cases p with
    | none => trivial
    | some a =>
      unfold «match»
      refine Tame.seq tame_deref fun c W1 _ => ?_
      split
      · trivial
      · simp only
        split
        · trivial
        · have tail : ∀ (b : Ptr) (W : Nat → Prop), TameIn (α := α) (D := D) (match b with
              | some b => pure (some b)
              | none => if (!c.active) = true then pure none else pure (some a)) W := by
            intro b W
            split
            · trivial
            · split <;> trivial
          split
          · exact Tame.seq ih fun b W2 _ => tail b W2
          · exact tail none _

variable [GoType D]

theorem tame_insert {o : InsertOpts D} {node : Nat} {F : Nat} {p : Ptr} {W : Nat → Prop} (hW : W node) :
    TameIn (α := α) (insert o node F p) W := by
  induction F generalizing p W with
  | zero => trivial
  | succ F ih =>
    cases p with
    | none =>
      unfold insert
      split
      · trivial
      · exact Tame.seq (tame_mutate hW fun c => trivial) fun _ _ _ => trivial
    | some a =>
      unfold insert
      refine Tame.seq tame_deref fun me W1 h1 => Tame.seq tame_deref fun nd W2 h2 => ?_
      have hW2 : W2 node := h2 _ (h1 _ hW)
      split
      · split
        · trivial
        · split
          · trivial
          · refine Tame.seq (tame_mutate hW2 fun c => ?_) fun _ _ _ => trivial
            dsimp only
            split
            · exact Tame.seq tame_orPanic fun _ _ _ => trivial
            · trivial
      · refine Tame.seq (ih hW2) fun x W3 h3 => ?_
        obtain ⟨x1, x2⟩ := x
        dsimp only
        split
        · trivial
        · exact Tame.seq (tame_copyMutate fun c => trivial) fun _ _ _ => trivial
      · split
        · trivial
        · exact Tame.seq (tame_mutate hW2 fun c => trivial) fun _ _ _ => trivial
      · refine Tame.seq (ih hW2) fun x W3 h3 => ?_
        obtain ⟨x1, x2⟩ := x
        dsimp only
        split
        · trivial
        · refine tame_new fun n => ?_
          exact Tame.seq (tame_mutate (Or.inl rfl) fun c => trivial) fun _ _ _ => trivial

theorem tame_Insert {F : Nat} {p : Ptr} {k : Prefix α} {d : Option D} {W : Nat → Prop} : TameIn (Insert F p k d) W := by
  exact tame_new fun n => tame_insert (Or.inl rfl)

theorem tame_Update {F : Nat} {eq : Comparator D} {p : Ptr} {k : Prefix α} {d : Option D} {W : Nat → Prop} :
    TameIn (Update F eq p k d) W := by
  exact tame_new fun n => tame_insert (Or.inl rfl)

theorem tame_InsertOrUpdate {F : Nat} {eq : Comparator D} {p : Ptr} {k : Prefix α} {d : Option D} {W : Nat → Prop} :
    TameIn (InsertOrUpdate F eq p k d) W := by
  refine tame_new fun n => Tame.seq (tame_insert (Or.inl rfl)) fun x W1 _ => ?_
  obtain ⟨x1, x2⟩ := x
  dsimp only
  split <;> trivial

theorem tame_getOrInsert {k : Prefix α} {d : Option D} {F : Nat} {p : Ptr} {W : Nat → Prop} :
    TameIn (getOrInsert k d F p) W := by
  induction F generalizing p W with
  | zero => trivial
  | succ F ih =>
    unfold getOrInsert
    have tail : ∀ (x : Ptr × Ptr) (W : Nat → Prop), TameIn (α := α) (D := D) (match x with
        | (head, result) => match result with
          | some r => pure (head, some r)
          | none => do
            let node ← new (freshCell k d)
            let (head, err) ← insert ⟨true, false, nilComparator⟩ node F p
            if err then panic else pure (head, some node)) W := by
      rintro ⟨x1, x2⟩ W
      cases x2 with
      | some r => trivial
      | none =>
        refine tame_new fun n => Tame.seq (tame_insert (Or.inl rfl)) fun y W2 _ => ?_
        obtain ⟨y1, y2⟩ := y
        dsimp only
        split <;> trivial
    dsimp only at tail ⊢
    split
    · exact tail (none, none) _
    · refine Tame.seq tame_deref fun c W1 _ => ?_
      split
      · exact tail (none, none) _
      · split
        · exact tail (none, none) _
        · split
          · refine Tame.seq ih fun x W2 _ => ?_
            obtain ⟨x1, x2⟩ := x
            exact Tame.seq (tame_copyMutate fun c => trivial) fun y W3 _ => tail (y.1, x2) _
          · split
            · exact tail (none, none) _
            · exact tail (some _, some _) _

theorem tame_del {k : Prefix α} {F : Nat} {p : Ptr} {W : Nat → Prop} : TameIn (D := D) (del k F p) W := by
  induction F generalizing p W with
  | zero => trivial
  | succ F ih =>
    cases p with
    | none => trivial
    | some a =>
      unfold del
      refine Tame.seq tame_deref fun me W1 _ => ?_
      split
      · split
        · trivial
        · split
          · trivial
          · exact Tame.seq (tame_copyMutate fun c => trivial) fun _ _ _ => trivial
      · refine Tame.seq ih fun x W2 _ => ?_
        obtain ⟨x1, x2⟩ := x
        dsimp only
        split
        · trivial
        · split
          · trivial
          · exact Tame.seq (tame_copyMutate fun c => trivial) fun _ _ _ => trivial
      · trivial
      · trivial

omit [GoType D] in
theorem tame_andThen {x : Prog α D (σ × Bool)} {k : σ → Prog α D (σ × Bool)} {W : Nat → Prop} (hx : TameIn x W)
    (hk : ∀ s, TameIn (k s) W) : TameIn (andThen x k) W := by
  unfold andThen
  refine Tame.seq hx fun y W1 h1 => ?_
  split
  · exact (hk _).mono h1
  · trivial

omit [GoType D] in
theorem tame_diff {h : Handler α D σ} (h1 : ∀ c s, TameIn (h.removed c s) Nowhere) (h2 : ∀ c s, TameIn (h.added c s) Nowhere)
    (h3 : ∀ c d s, TameIn (h.modified c d s) Nowhere) {F : Nat} {p q : Ptr} {s : σ} {W : Nat → Prop} :
    TameIn (diff h F p q s) W := by
  induction F generalizing p q s W with
  | zero => trivial
  | succ F ih =>
    unfold diff
    split
    · trivial
    · split
      · trivial
      · exact Tame.seq tame_deref fun c W1 _ => tame_andThen (h1 _ _).wider fun s => tame_andThen ih fun s => ih
      · exact Tame.seq tame_deref fun c W1 _ => tame_andThen (h2 _ _).wider fun s => tame_andThen ih fun s => ih
      · refine Tame.seq tame_deref fun c W1 _ => Tame.seq tame_deref fun d W2 _ => ?_
        split
        · exact tame_andThen (h3 _ _ _).wider fun s => tame_andThen ih fun s => ih
        · exact tame_andThen (h1 _ _).wider fun s => tame_andThen ih fun s => ih
        · exact tame_andThen (h2 _ _).wider fun s => tame_andThen ih fun s => ih
        · split
          · exact tame_andThen ih fun s => ih
          · exact tame_andThen ih fun s => ih

omit [GoType D] in
theorem tame_Diff {cb : Trie.DiffCallbacks α D σ} {eq : Comparator D} {F : Nat} {p q : Ptr} {s : σ} {W : Nat → Prop} :
    TameIn (Diff F cb eq p q s) W := by
  unfold Diff
  refine tame_diff ?_ ?_ ?_
  · intro c s; dsimp only; split <;> trivial
  · intro c s; dsimp only; split <;> trivial
  · intro c d s
    dsimp only
    split
    · refine Tame.seq tame_orPanic fun e W1 _ => ?_
      split <;> trivial
    · split
      · trivial
      · split <;> trivial

theorem tame_walk {cb : Prefix α → Option D → σ → σ × Bool} {F : Nat} {p : Ptr} {s : σ} {W : Nat → Prop} :
    TameIn (walk F cb p s) W := tame_Diff

theorem tame_createReturnValue {eq : Comparator D} {me : Nat} {c : Cell α D} {act : Bool} {d : Option D} {l r : Ptr}
    {W : Nat → Prop} : TameIn (createReturnValue eq me c act d l r) W := by
  unfold createReturnValue
  have hcm : ∀ W, TameIn (do
      let (x, _) ← copyMutate me fun n => do
        let d ← if act then do
            let same ← if n.data.isNone then pure false else orPanic (eq n.data d)
            if !same then pure d else pure n.data
          else pure none
        pure ({ n with active := act, data := d, l := l, r := r }, ())
      pure x : Prog α D Ptr) W := by
    intro W
    refine Tame.seq (tame_copyMutate fun c => ?_) fun _ _ _ => trivial
    dsimp only
    split
    · split
      · trivial
      · refine Tame.seq tame_orPanic fun e W2 _ => ?_
        split <;> trivial
    · trivial
  have tail : ∀ (keep : Bool) W, TameIn (if keep then pure (some me) else (do
      let (x, _) ← copyMutate me fun n => do
        let d ← if act then do
            let same ← if n.data.isNone then pure false else orPanic (eq n.data d)
            if !same then pure d else pure n.data
          else pure none
        pure ({ n with active := act, data := d, l := l, r := r }, ())
      pure x : Prog α D Ptr)) W := by
    intro keep W
    split
    · trivial
    · exact hcm W
  dsimp only at tail ⊢
  split
  · exact Tame.seq tame_orPanic fun e W2 _ => tail e W2
  · exact tail false W

theorem tame_childrenAggregate {eq : Comparator D} {p : Prefix α} {a b : Ptr} {W : Nat → Prop} :
    TameIn (childrenAggregate eq p a b) W := by
  unfold childrenAggregate
  split
  · refine Tame.seq tame_deref fun c W1 _ => Tame.seq tame_deref fun d W2 _ => ?_
    split
    · split
      · split
        · exact tame_orPanic
        · trivial
      · trivial
    · trivial
  · trivial

theorem tame_aggregate {eq : Comparator D} {F : Nat} {u : Option (Option D)} {p : Ptr} {W : Nat → Prop} :
    TameIn (α := α) (aggregate eq F u p) W := by
  induction F generalizing u p W with
  | zero => trivial
  | succ F ih =>
    cases p with
    | none => trivial
    | some me =>
      unfold aggregate
      refine Tame.seq tame_deref fun c W1 _ => ?_
      have tail : ∀ (redundant : Bool) (W : Nat → Prop), TameIn (do
          let isActive := c.active && !redundant
          let data := if redundant then none else c.data
          let u' := if isActive then some c.data else u
          let l ← aggregate eq F u' c.l
          let r ← aggregate eq F u' c.r
          let agg ← childrenAggregate eq c.pfx l r
          if agg then do
            let lc ← deref l
            createReturnValue eq me c true lc.data none none
          else if isActive then createReturnValue eq me c isActive data l r
          else if l = none then pure r
          else if r = none then pure l
          else createReturnValue eq me c isActive data l r) W := by
        intro redundant W
        refine Tame.seq ih fun l W3 _ => Tame.seq ih fun r W4 _ => Tame.seq tame_childrenAggregate fun agg W5 _ => ?_
        split
        · exact Tame.seq tame_deref fun c W6 _ => tame_createReturnValue
        · split
          · exact tame_createReturnValue
          · split
            · trivial
            · split
              · trivial
              · exact tame_createReturnValue
      dsimp only at tail ⊢
      split
      · split
        · exact Tame.seq tame_orPanic fun e W2 _ => tail e W2
        · exact tail false W1
      · exact tail false W1

theorem tame_map {f : Prefix α → Option D → σ → Option D × σ} {eq : Comparator D} {F : Nat} {p : Ptr} {s : σ}
    {W : Nat → Prop} : TameIn (map f eq F p s) W := by
  induction F generalizing p s W with
  | zero => trivial
  | succ F ih =>
    cases p with
    | none => trivial
    | some me =>
      unfold map
      refine tame_copyMutate fun n => ?_
      refine Tame.seq tame_deref fun c W1 _ => Tame.seq tame_orPanic fun e W2 _ => Tame.seq ih fun l W3 _ => ?_
      obtain ⟨l1, l2⟩ := l
      exact Tame.seq ih fun r W4 _ => trivial

theorem tame_tmutate {τ : Type} {o : Nat} {x : Prog α D ((Bool × Ptr) × τ)} {W : Nat → Prop} (hx : TameIn x Nowhere) :
    TameIn (tmutate o x) W := by
  unfold tmutate
  refine tame_load fun old => Tame.seq hx.wider fun y W1 _ => ?_
  split
  · exact tame_swap fun ok => tame_ite trivial trivial
  · trivial

theorem tame_xLongestMatch {F : Nat} {m : Obj D} {k : PrefixI α} {W : Nat → Prop} : TameIn (xLongestMatch F m k) W := by
  unfold xLongestMatch
  refine Tame.seq tame_match fun x W1 _ => ?_
  split
  · trivial
  · exact Tame.seq tame_deref fun _ _ _ => trivial

theorem tame_xGet [Inhabited D] {F : Nat} {m : Obj D} {k : PrefixI α} {W : Nat → Prop} : TameIn (xGet F m k) W := by
  unfold xGet
  refine Tame.seq tame_xLongestMatch fun x W1 _ => ?_
  split <;> trivial

theorem tame_xLongest [Inhabited D] {F : Nat} {m : Obj D} {k : PrefixI α} {W : Nat → Prop} : TameIn (xLongest F m k) W := by
  unfold xLongest
  refine Tame.seq tame_xLongestMatch fun x W1 _ => ?_
  split <;> trivial

/-! sets -/

theorem tame_fromPrefix {p : Prefix α} {W : Nat → Prop} : TameIn (fromPrefix p) W := tame_new fun _ => trivial

theorem tame_flatten {c : Cell α Empty} {W : Nat → Prop} : TameIn (flatten c) W := by
  unfold flatten
  split
  · trivial
  · split
    · refine Tame.seq tame_deref fun x W1 _ => Tame.seq tame_deref fun y W2 _ => ?_
      exact tame_ite trivial (tame_ite trivial (tame_ite trivial trivial))
    · trivial

theorem tame_newFlat {p : Prefix α} {l r : Ptr} {W : Nat → Prop} : TameIn (newFlat p l r) W := by
  unfold newFlat
  refine tame_new fun n => Tame.seq (tame_mutate (Or.inl rfl) fun c => ?_) fun _ _ _ => trivial
  exact Tame.seq tame_flatten fun _ _ _ => trivial

theorem tame_union {F : Nat} {p q : Ptr} {W : Nat → Prop} : TameIn (α := α) (union F p q) W := by
  induction F generalizing p q W with
  | zero => trivial
  | succ F ih =>
    unfold union
    refine tame_ite trivial ?_
    split
    · trivial
    · trivial
    · refine Tame.seq tame_deref fun c W1 _ => Tame.seq tame_deref fun d W2 _ => ?_
      split
      · refine tame_ite trivial (tame_ite trivial ?_)
        exact Tame.seq ih fun x W3 _ => Tame.seq ih fun y W4 _ => tame_ite trivial tame_newFlat
      · exact tame_ite tame_newFlat tame_newFlat
      · dsimp only
        refine tame_ite trivial (tame_ite ?_ ?_)
        · exact Tame.seq ih fun x W3 _ => tame_newFlat
        · exact Tame.seq ih fun x W3 _ => tame_newFlat

theorem tame_fromRange {F : Nat} {r : Range α} {W : Nat → Prop} : TameIn (fromRange F r) W := by
  induction F generalizing r W with
  | zero => trivial
  | succ F ih =>
    unfold fromRange
    refine tame_ite tame_fromPrefix ?_
    exact Tame.seq ih fun x W3 _ => Tame.seq ih fun y W4 _ => tame_union

theorem tame_difference {F : Nat} {p q : Ptr} {W : Nat → Prop} : TameIn (α := α) (difference F p q) W := by
  induction F generalizing p q W with
  | zero => trivial
  | succ F ih =>
    unfold difference
    split
    · trivial
    · trivial
    · refine Tame.seq tame_deref fun c W1 _ => Tame.seq tame_deref fun d W2 _ => ?_
      have inner : ∀ (a b : Nat) (W : Nat → Prop), TameIn (α := α) (D := Empty) (do
          let left ← difference F c.l (some b)
          let right ← difference F c.r (some b)
          if left = c.l && right = c.r then pure (some a) else union F left right) W := fun a b W =>
        Tame.seq ih fun x W3 _ => Tame.seq ih fun y W4 _ => tame_ite trivial tame_union
      dsimp only
      split
      · exact tame_ite trivial ih
      · trivial
      · refine tame_ite (inner _ _ _) (tame_ite trivial ?_)
        exact Tame.seq tame_fromPrefix fun x W3 _ => Tame.seq tame_fromPrefix fun y W4 _ =>
          Tame.seq ih fun x W5 _ => Tame.seq ih fun y W6 _ => tame_union
      · refine tame_ite (inner _ _ _) ?_
        exact Tame.seq tame_fromPrefix fun x W3 _ => Tame.seq tame_fromPrefix fun y W4 _ =>
          Tame.seq ih fun x W5 _ => tame_union

theorem tame_intersect {F : Nat} {p q : Ptr} {W : Nat → Prop} : TameIn (α := α) (intersect F p q) W := by
  induction F generalizing p q W with
  | zero => trivial
  | succ F ih =>
    unfold intersect
    split
    · trivial
    · trivial
    · refine Tame.seq tame_deref fun c W1 _ => Tame.seq tame_deref fun d W2 _ => ?_
      split
      · trivial
      · refine tame_ite ?_ (tame_ite ?_ (tame_ite trivial trivial))
        · exact Tame.seq ih fun x W3 _ => Tame.seq ih fun y W4 _ => tame_union
        · exact Tame.seq ih fun x W3 _ => Tame.seq ih fun y W4 _ => tame_union

theorem tame_numAddresses {F : Nat} {p : Ptr} {W : Nat → Prop} : TameIn (numAddresses F p) W := by
  induction F generalizing p W with
  | zero => trivial
  | succ F ih =>
    cases p with
    | none => trivial
    | some a =>
      unfold numAddresses
      refine Tame.seq tame_deref fun c W1 _ => tame_ite trivial ?_
      exact Tame.seq ih fun x W3 _ => Tame.seq ih fun y W4 _ => trivial

theorem tame_isEmpty {F : Nat} {p : Ptr} {W : Nat → Prop} : TameIn (α := α) (isEmpty F p) W := by
  induction F generalizing p W with
  | zero => trivial
  | succ F ih =>
    cases p with
    | none => trivial
    | some a =>
      unfold isEmpty
      refine Tame.seq tame_deref fun c W1 _ => tame_ite trivial ?_
      exact Tame.seq ih fun x W3 _ => tame_ite trivial ih

theorem tame_best {l r : SProg α (Option (Prefix α))} {n : Nat} {W : Nat → Prop} (hl : TameIn l Nowhere)
    (hr : TameIn r Nowhere) : TameIn (best l r n) W := by
  unfold best
  refine Tame.seq hl.wider fun x W1 _ => ?_
  split
  · refine tame_ite trivial (Tame.seq hr.wider fun y W2 _ => ?_)
    split
    · exact tame_ite trivial trivial
    · trivial
  · refine Tame.seq hr.wider fun y W2 _ => ?_
    split <;> trivial

theorem tame_findSmallest {n F : Nat} {p : Ptr} {W : Nat → Prop} : TameIn (α := α) (findSmallest n F p) W := by
  induction F generalizing p W with
  | zero => trivial
  | succ F ih =>
    cases p with
    | none => trivial
    | some a =>
      unfold findSmallest
      refine Tame.seq tame_deref fun c W1 _ => tame_ite trivial (tame_ite trivial ?_)
      refine Tame.seq (tame_best ih ih) fun x W3 _ => ?_
      split
      · trivial
      · exact tame_ite trivial trivial

theorem tame_findSmallestReserved {n F : Nat} {p q : Ptr} {W : Nat → Prop} :
    TameIn (α := α) (findSmallestReserved n F p q) W := by
  induction F generalizing p q W with
  | zero => trivial
  | succ F ih =>
    cases p with
    | none => trivial
    | some a =>
      unfold findSmallestReserved
      refine Tame.seq tame_deref fun c W1 _ => tame_ite trivial ?_
      split
      · exact tame_findSmallest
      · refine Tame.seq tame_deref fun d W2 _ => ?_
        dsimp only
        split
        · exact tame_ite trivial ih
        · exact tame_findSmallest
        · refine tame_ite (tame_best ih ih) (tame_ite trivial ?_)
          exact Tame.seq tame_fromPrefix fun x W3 _ => Tame.seq tame_fromPrefix fun y W4 _ => tame_best ih ih
        · refine tame_ite (tame_best ih ih) ?_
          exact Tame.seq tame_fromPrefix fun x W3 _ => Tame.seq tame_fromPrefix fun y W4 _ =>
            tame_best tame_findSmallest ih

end Heap

/-- the code that measures a set writes to no node -/
class ReadFamily (α : Type) extends HeapFamily α where
  tame : ∀ {F : Nat} {p : Ptr} {W : Nat → Prop}, Prog.TameIn (HeapFamily.sizeCode (α := α) F p) W

instance : ReadFamily (BitVec 32) where
  tame := Heap.tame_numAddresses
instance : ReadFamily U128 where
  tame := Heap.tame_isEmpty

namespace Heap
open Prog
variable {α : Type} [ReadFamily α]

theorem tame_argSet {F : Nat} {a : SetArg α} {W : Nat → Prop} : TameIn (argSet F a) W := by
  cases a with
  | nil => trivial
  | address a => exact tame_fromPrefix
  | «prefix» p => exact tame_fromPrefix
  | range r => exact tame_fromRange
  | set t => trivial
  | obj h =>
    cases h with
    | none => trivial
    | some o => exact tame_load fun m => trivial

theorem tame_smutate {F : Nat} {o : Nat} {f : Ptr → Ptr → SProg α Ptr} (hf : ∀ (p q : Ptr) (W : Nat → Prop), TameIn (f p q) W)
    {a : SetArg α} {late : Bool} {W : Nat → Prop} : TameIn (smutate F o f a late) W := by
  unfold smutate
  refine tame_load fun m => Tame.seq (tame_ite ?_ ?_) fun x W1 _ => tame_ite (tame_swap fun b => tame_ite trivial trivial) trivial
  · exact Tame.seq tame_argSet fun x _ _ => tame_load fun m => hf _ _ _
  · exact tame_load fun m => Tame.seq tame_argSet fun x _ _ => hf _ _ _

theorem tame_sSize {F : Nat} {r : SetRecv} {W : Nat → Prop} : TameIn (sSize (α := α) F r) W := by
  unfold sSize
  split
  · exact ReadFamily.tame
  · trivial
  · exact tame_load fun m => ReadFamily.tame

theorem tame_xContains {F : Nat} {t : Ptr} {a : SetArg α} {W : Nat → Prop} : TameIn (xContains F t a) W :=
  Tame.seq tame_argSet fun _ _ _ => Tame.seq tame_difference fun _ _ _ => Tame.seq ReadFamily.tame fun _ _ _ => trivial

theorem tame_xBin {F : Nat} {f : Ptr → Ptr → SProg α Ptr} (hf : ∀ (p q : Ptr) (W : Nat → Prop), TameIn (f p q) W)
    {t : Ptr} {a : SetArg α} {W : Nat → Prop} : TameIn (xBin F f t a) W :=
  Tame.seq tame_argSet fun _ _ _ => Tame.seq (hf _ _ _) fun _ _ _ => trivial

theorem tame_sBin {F : Nat} {f : Ptr → Ptr → SProg α Ptr} (hf : ∀ (p q : Ptr) (W : Nat → Prop), TameIn (f p q) W)
    {r : SetRecv} {a : SetArg α} {W : Nat → Prop} : TameIn (sBin F f r a) W := by
  unfold sBin
  split
  · exact tame_xBin hf
  · exact tame_load fun m => tame_xBin hf
  · trivial

end Heap

/-! ### The calls -/
section
open Heap Prog
variable {α D σ : Type}

theorem Heap.tame_opCode [GoWord α] [GoType D] [Inhabited D] {F : Nat} {h : Option Nat} {o : TableOp α D} {W : Nat → Prop} :
    TameIn (opCode F h o) W := by
  cases o with
  | insert k v =>
    refine Tame.seq ?_ fun _ _ _ => trivial
    cases h with
    | none => trivial
    | some o => exact tame_tmutate (tame_load fun m => Tame.seq tame_Insert fun _ _ _ => trivial)
  | update k v =>
    refine Tame.seq ?_ fun _ _ _ => trivial
    cases h with
    | none => trivial
    | some o => exact tame_tmutate (tame_load fun m => Tame.seq tame_Update fun _ _ _ => trivial)
  | insertOrUpdate k v =>
    refine Tame.seq ?_ fun _ _ _ => trivial
    cases h with
    | none => trivial
    | some o => exact tame_tmutate (tame_load fun m => Tame.seq tame_InsertOrUpdate fun _ _ _ => trivial)
  | get k =>
    refine Tame.seq ?_ fun _ _ _ => trivial
    cases h with
    | none => trivial
    | some o => exact tame_load fun m => tame_xGet
  | getOrInsert k v =>
    refine Tame.seq ?_ fun _ _ _ => trivial
    cases h with
    | none => trivial
    | some o =>
      refine Tame.seq (tame_tmutate (tame_load fun m => Tame.seq tame_getOrInsert fun _ _ _ => trivial)) fun _ W1 _ => ?_
      exact Tame.seq tame_deref fun _ _ _ => trivial
  | remove k =>
    refine Tame.seq ?_ fun _ _ _ => trivial
    cases h with
    | none => trivial
    | some o => exact tame_tmutate (tame_load fun m => Tame.seq tame_del fun _ _ _ => trivial)

/-- every call of the table API writes only to new nodes -/
theorem TCall.tame [GoWord α] [GoType D] [Inhabited D] {F : Nat} (c : TCall α D σ) {W : Nat → Prop} : TameIn (c.code F) W := by
  cases c with
  | new_ => exact tame_newObject fun _ => trivial
  | newCustom cmp => exact tame_newObject fun _ => trivial
  | op h o => exact Tame.seq tame_opCode fun _ _ _ => trivial
  | longest h k =>
    refine Tame.seq ?_ fun _ _ _ => trivial
    cases h with
    | none => trivial
    | some o => exact tame_load fun m => tame_xLongest
  | num h =>
    refine Tame.seq ?_ fun _ _ _ => trivial
    cases h with
    | none => trivial
    | some o => exact tame_load fun m => tame_numNodes
  | freeze h =>
    refine Tame.seq ?_ fun _ _ _ => trivial
    cases h with
    | none => trivial
    | some o => intro m; trivial
  | thaw t => exact Tame.seq (fun _ => trivial) fun _ _ _ => trivial
  | xget t k => exact Tame.seq tame_xGet fun _ _ _ => trivial
  | xlongest t k => exact Tame.seq tame_xLongest fun _ _ _ => trivial
  | xnum t => exact Tame.seq tame_numNodes fun _ _ _ => trivial
  | walk t cb s => exact Tame.seq (P := xWalk F t cb s) tame_walk fun _ _ _ => trivial
  | diff t u cb s => exact Tame.seq tame_Diff fun _ _ _ => trivial
  | map t f s =>
    refine Tame.seq ?_ fun _ _ _ => trivial
    cases f with
    | none => trivial
    | some f => exact Tame.seq tame_map fun _ _ _ => trivial
  | aggregate t => exact Tame.seq (Tame.seq tame_aggregate fun _ _ _ => trivial) fun _ _ _ => trivial

/-- every call of the set API writes only to new nodes -/
theorem SCall.tame [ReadFamily α] {F : Nat} (c : SCall α σ) {W : Nat → Prop} : TameIn (c.code F) W := by
  cases c with
  | new_ => exact tame_newObject fun _ => trivial
  | freeze h =>
    refine Tame.seq ?_ fun _ _ _ => trivial
    cases h with
    | none => trivial
    | some o => exact tame_load fun m => trivial
  | thaw t => exact Tame.seq (fun _ => trivial) fun _ _ _ => trivial
  | insert h a late =>
    refine Tame.seq ?_ fun _ _ _ => trivial
    cases h with
    | none => trivial
    | some o => exact tame_smutate (f := Heap.union F) fun _ _ _ => tame_union
  | remove h a late =>
    refine Tame.seq ?_ fun _ _ _ => trivial
    cases h with
    | none => trivial
    | some o => exact tame_smutate (f := Heap.difference F) fun _ _ _ => tame_difference
  | size r => exact Tame.seq tame_sSize fun _ _ _ => trivial
  | isEmpty r => exact Tame.seq (Tame.seq tame_sSize fun _ _ _ => trivial) fun _ _ _ => trivial
  | contains r a =>
    refine Tame.seq ?_ fun _ _ _ => trivial
    unfold sContains
    split
    · exact tame_xContains
    · exact tame_load fun m => tame_xContains
    · trivial
    · exact Tame.seq tame_argSet fun _ _ _ => Tame.seq ReadFamily.tame fun _ _ _ => trivial
  | equal_ h h' late =>
    refine Tame.seq ?_ fun _ _ _ => trivial
    unfold sEqual_
    split
    · exact Tame.seq tame_sSize fun _ _ _ => trivial
    · refine tame_ite ?_ ?_
      · exact Tame.seq tame_argSet fun x _ _ => tame_load fun m => tame_equal
      · exact tame_load fun m => Tame.seq tame_argSet fun x _ _ => tame_equal
  | equal t u => exact Tame.seq tame_equal fun _ _ _ => trivial
  | union r a =>
    refine Tame.seq ?_ fun _ _ _ => trivial
    unfold sUnion
    split
    · exact tame_xBin fun _ _ _ => tame_union
    · exact tame_load fun m => tame_xBin fun _ _ _ => tame_union
    · exact Tame.seq tame_argSet fun _ _ _ => trivial
  | intersection r a => exact Tame.seq (tame_sBin fun _ _ _ => tame_intersect) fun _ _ _ => trivial
  | difference r a => exact Tame.seq (tame_sBin fun _ _ _ => tame_difference) fun _ _ _ => trivial
  | walk t cb s => exact Tame.seq tame_walk fun _ _ _ => trivial
  | find t a n =>
    refine Tame.seq ?_ fun _ _ _ => trivial
    unfold sFind
    split
    · trivial
    · exact Tame.seq tame_argSet fun _ _ _ => Tame.seq tame_findSmallestReserved fun _ _ _ => trivial

end
end Addrs

import Verif.HeapTable
import Verif.ConcProps
/-
  How many actions a program takes and how many nodes it allocates, at most, on every path: whatever the
  reads return and whatever other goroutines do in between.
-/
set_option linter.unusedSectionVars false
namespace Addrs
open GoWord

namespace Prog
variable {α D β γ : Type}

/-- On every path the program takes at most `n` actions, allocates at most `a` nodes, and what it returns
    satisfies `Q`. -/
def AtMost : Prog α D β → Nat → Nat → (β → Prop) → Prop
  | ret b, _, _, Q => Q b
  | panic, _, _, _ => True
  | stuck, _, _, _ => True
  | alloc _ k, n, a, Q => 1 ≤ n ∧ 1 ≤ a ∧ ∀ x, (k x).AtMost (n - 1) (a - 1) Q
  | read _ k, n, a, Q => 1 ≤ n ∧ ∀ x, (k x).AtMost (n - 1) a Q
  | write _ _ k, n, a, Q => 1 ≤ n ∧ k.AtMost (n - 1) a Q
  | load _ k, n, a, Q => 1 ≤ n ∧ ∀ x, (k x).AtMost (n - 1) a Q
  | cas _ _ _ k, n, a, Q => 1 ≤ n ∧ ∀ x, (k x).AtMost (n - 1) a Q
  | newObj _ k, n, a, Q => 1 ≤ n ∧ ∀ x, (k x).AtMost (n - 1) a Q

theorem AtMost.mono {p : Prog α D β} : ∀ {n m a b : Nat} {Q R : β → Prop}, p.AtMost n a Q → n ≤ m → a ≤ b →
    (∀ x, Q x → R x) → p.AtMost m b R := by
  induction p with
  | ret b => intro n m a b' Q R h _ _ hQ; exact hQ _ h
  | panic => intros; trivial
  | stuck => intros; trivial
  | alloc c k ih =>
    intro n m a b Q R h h1 h2 hQ
    exact ⟨by have := h.1; omega, by have := h.2.1; omega, fun x => ih x (h.2.2 x) (by omega) (by omega) hQ⟩
  | read p k ih => intro n m a b Q R h h1 h2 hQ; exact ⟨by have := h.1; omega, fun x => ih x (h.2 x) (by omega) h2 hQ⟩
  | write p c k ih => intro n m a b Q R h h1 h2 hQ; exact ⟨by have := h.1; omega, ih h.2 (by omega) h2 hQ⟩
  | load p k ih => intro n m a b Q R h h1 h2 hQ; exact ⟨by have := h.1; omega, fun x => ih x (h.2 x) (by omega) h2 hQ⟩
  | cas p x y k ih => intro n m a b Q R h h1 h2 hQ; exact ⟨by have := h.1; omega, fun x => ih x (h.2 x) (by omega) h2 hQ⟩
  | newObj p k ih => intro n m a b Q R h h1 h2 hQ; exact ⟨by have := h.1; omega, fun x => ih x (h.2 x) (by omega) h2 hQ⟩

theorem AtMost.bind {p : Prog α D β} {f : β → Prog α D γ} : ∀ {n m a b : Nat} {Q : β → Prop} {R : γ → Prop}, p.AtMost n a Q →
    (∀ x, Q x → (f x).AtMost m b R) → (p >>= f).AtMost (n + m) (a + b) R := by
  show ∀ {n m a b : Nat} {Q : β → Prop} {R : γ → Prop}, p.AtMost n a Q →
    (∀ x, Q x → (f x).AtMost m b R) → (p.bind f).AtMost (n + m) (a + b) R
  induction p with
  | ret x => intro n m a b Q R h hf; exact (hf x h).mono (by omega) (by omega) fun _ h => h
  | panic => intros; trivial
  | stuck => intros; trivial
  | alloc c k ih =>
    intro n m a b Q R h hf
    refine ⟨by have := h.1; omega, by have := h.2.1; omega, fun x => ?_⟩
    have := h.1; have := h.2.1
    exact (ih x (h.2.2 x) hf).mono (by omega) (by omega) fun _ h => h
  | read p k ih =>
    intro n m a b Q R h hf; have := h.1
    exact ⟨by omega, fun x => (ih x (h.2 x) hf).mono (by omega) (by omega) fun _ h => h⟩
  | write p c k ih =>
    intro n m a b Q R h hf; have := h.1
    exact ⟨by omega, (ih h.2 hf).mono (by omega) (by omega) fun _ h => h⟩
  | load p k ih =>
    intro n m a b Q R h hf; have := h.1
    exact ⟨by omega, fun x => (ih x (h.2 x) hf).mono (by omega) (by omega) fun _ h => h⟩
  | cas p x y k ih =>
    intro n m a b Q R h hf; have := h.1
    exact ⟨by omega, fun x => (ih x (h.2 x) hf).mono (by omega) (by omega) fun _ h => h⟩
  | newObj p k ih =>
    intro n m a b Q R h hf; have := h.1
    exact ⟨by omega, fun x => (ih x (h.2 x) hf).mono (by omega) (by omega) fun _ h => h⟩

/-- `bind` with the numbers chosen by the caller -/
theorem AtMost.bind' {p : Prog α D β} {f : β → Prog α D γ} {n m a b N A : Nat} (Q : β → Prop) {R : γ → Prop}
    (h : p.AtMost n a Q) (hN : n + m ≤ N) (hA : a + b ≤ A) (hf : ∀ x, Q x → (f x).AtMost m b R) :
    (p >>= f).AtMost N A R := (h.bind hf).mono hN hA fun _ h => h

theorem atMost_pure {b : β} {n a : Nat} {Q : β → Prop} (h : Q b) : (pure b : Prog α D β).AtMost n a Q := h
theorem atMost_panic {n a : Nat} {Q : β → Prop} : (panic : Prog α D β).AtMost n a Q := trivial
theorem atMost_deref (p : Ptr) {n a : Nat} (h : 1 ≤ n) : (deref p : Prog α D (Cell α D)).AtMost n a fun _ => True := by
  cases p with
  | none => trivial
  | some q => exact ⟨h, fun _ => trivial⟩
theorem atMost_new (c : Cell α D) {n a : Nat} (h : 1 ≤ n) (ha : 1 ≤ a) : (new c).AtMost n a fun _ => True :=
  ⟨h, ha, fun _ => trivial⟩
theorem atMost_store (p : Nat) (c : Cell α D) {n a : Nat} (h : 1 ≤ n) : (store p c).AtMost n a fun _ => True :=
  ⟨h, trivial⟩
theorem atMost_orPanic (o : Option β) {n a : Nat} : (orPanic o : Prog α D β).AtMost n a fun _ => True := by
  cases o <;> trivial
theorem atMost_readObj (o : Nat) {n a : Nat} (h : 1 ≤ n) : (readObj o : Prog α D (Obj D)).AtMost n a fun _ => True :=
  ⟨h, fun _ => trivial⟩
theorem atMost_newObject (ob : Obj D) {n a : Nat} (h : 1 ≤ n) : (newObject ob : Prog α D Nat).AtMost n a fun _ => True :=
  ⟨h, fun _ => trivial⟩
theorem atMost_swap (o : Nat) (x y : Ptr) {n a : Nat} (h : 1 ≤ n) : (swap o x y : Prog α D Bool).AtMost n a fun _ => True :=
  ⟨h, fun _ => trivial⟩

end Prog

namespace Heap
open Prog
section
variable {α D : Type}

theorem atMost_numNodes (p : Ptr) {n a : Nat} (h : 1 ≤ n) : (numNodes p : Prog α D Nat).AtMost n a fun _ => True := by
  cases p with
  | none => trivial
  | some q => exact ⟨h, fun _ => trivial⟩
theorem atMost_height (p : Ptr) {n a : Nat} (h : 1 ≤ n) : (height p : Prog α D Nat).AtMost n a fun _ => True := by
  cases p with
  | none => trivial
  | some q => exact ⟨h, fun _ => trivial⟩

theorem atMost_mutate {τ : Type} {me : Nat} {f : Cell α D → Prog α D (Cell α D × τ)} {n a : Nat}
    (h : ∀ c, (f c).AtMost n a fun _ => True) : (mutate me f).AtMost (n + 7) a fun _ => True := by
  unfold mutate
  refine .bind' (n := 1) (m := n + 6) (a := 0) (b := a) _ (atMost_deref _ (by omega)) (by omega) (by omega) fun c _ => ?_
  refine .bind' (n := n) (m := 6) (a := a) (b := 0) _ (h c) (by omega) (by omega) fun x _ => ?_
  refine .bind' (n := 1) (m := 5) (a := 0) (b := 0) _ (atMost_store _ _ (by omega)) (by omega) (by omega) fun _ _ => ?_
  refine .bind' (n := 1) (m := 4) (a := 0) (b := 0) _ (atMost_numNodes _ (by omega)) (by omega) (by omega) fun _ _ => ?_
  refine .bind' (n := 1) (m := 3) (a := 0) (b := 0) _ (atMost_numNodes _ (by omega)) (by omega) (by omega) fun _ _ => ?_
  refine .bind' (n := 1) (m := 2) (a := 0) (b := 0) _ (atMost_height _ (by omega)) (by omega) (by omega) fun _ _ => ?_
  refine .bind' (n := 1) (m := 1) (a := 0) (b := 0) _ (atMost_height _ (by omega)) (by omega) (by omega) fun _ _ => ?_
  refine .bind' (n := 1) (m := 0) (a := 0) (b := 0) _ (atMost_store _ _ (by omega)) (by omega) (by omega) fun _ _ => trivial

variable [GoWord α] [GoType D]

theorem atMost_structEq (c d : Cell α D) {n a : Nat} : (structEq c d).AtMost n a fun _ => True := by
  unfold structEq
  split
  · trivial
  · exact .bind' (n := 0) (m := 0) (a := 0) (b := 0) _ (atMost_orPanic _) (by omega) (by omega) fun _ _ => trivial

theorem atMost_copyMutate {τ : Type} {me : Nat} {f : Cell α D → Prog α D (Cell α D × τ)} {n a : Nat}
    (h : ∀ c, (f c).AtMost n a fun _ => True) : (copyMutate me f).AtMost (n + 11) (a + 1) fun _ => True := by
  unfold copyMutate
  refine .bind' (n := 1) (m := n + 10) (a := 0) (b := a + 1) _ (atMost_deref _ (by omega)) (by omega) (by omega) fun c _ => ?_
  refine .bind' (n := 1) (m := n + 9) (a := 1) (b := a) _ (atMost_new _ (by omega) (by omega)) (by omega) (by omega) fun d _ => ?_
  refine .bind' (n := n + 7) (m := 2) (a := a) (b := 0) _ (atMost_mutate h) (by omega) (by omega) fun x _ => ?_
  refine .bind' (n := 1) (m := 1) (a := 0) (b := 0) _ (atMost_deref _ (by omega)) (by omega) (by omega) fun _ _ => ?_
  refine .bind' (n := 1) (m := 0) (a := 0) (b := 0) _ (atMost_deref _ (by omega)) (by omega) (by omega) fun _ _ => ?_
  exact .bind' (n := 0) (m := 0) (a := 0) (b := 0) _ (atMost_structEq _ _) (by omega) (by omega) fun _ _ => trivial

/-- `Match` reads one node per level. -/
theorem atMost_match (key : Prefix α) : ∀ (F : Nat) (p : Ptr), («match» (D := D) key F p).AtMost F 0 fun _ => True := by
  intro F
  induction F with
  | zero => intro p; trivial
  | succ F ih =>
    intro p
    cases p with
    | none => trivial
    | some q =>
      unfold «match»
      refine .bind' (n := 1) (m := F) (a := 0) (b := 0) _ (atMost_deref _ (by omega)) (by omega) (by omega) fun c _ => ?_
      split
      · trivial
      · dsimp only
        split
        · trivial
        · split
          · refine .bind' (n := F) (m := 0) (a := 0) (b := 0) _ (ih _) (by omega) (by omega) fun b _ => ?_
            split
            · trivial
            · split <;> trivial
          · refine .bind' (n := 0) (m := 0) (a := 0) (b := 0) (fun _ => True) trivial (by omega) (by omega) fun b _ => ?_
            split
            · trivial
            · split <;> trivial

theorem atMost_insert_none (o : InsertOpts D) (node : Nat) (F : Nat) :
    (insert (α := α) o node F none).AtMost 7 0 fun _ => True := by
  cases F with
  | zero => trivial
  | succ F =>
    unfold insert
    split
    · trivial
    · exact .bind' (n := 7) (m := 0) (a := 0) (b := 0) _ (atMost_mutate (n := 0) fun _ => atMost_pure trivial)
        (by omega) (by omega) fun _ _ => trivial

/-- `insert` copies one node per level. -/
theorem atMost_insert (o : InsertOpts D) (node : Nat) : ∀ (F : Nat) (p : Ptr),
    (insert (α := α) o node F p).AtMost (13 * F + 15) (F + 1) fun _ => True := by
  intro F
  induction F with
  | zero => intro p; trivial
  | succ F ih =>
    intro p
    cases p with
    | none => exact (atMost_insert_none o node _).mono (by omega) (by omega) fun _ h => h
    | some q =>
      unfold insert
      refine .bind' (n := 1) (m := 13 * F + 27) (a := 0) (b := F + 2) _ (atMost_deref _ (by omega)) (by omega) (by omega) fun me _ => ?_
      refine .bind' (n := 1) (m := 13 * F + 26) (a := 0) (b := F + 2) _ (atMost_deref _ (by omega)) (by omega) (by omega) fun nd _ => ?_
      split
      · split
        · trivial
        · split
          · trivial
          · refine .bind' (n := 7) (m := 0) (a := 0) (b := 0) _ (atMost_mutate (n := 0) fun _ => ?_)
              (by omega) (by omega) fun _ _ => trivial
            split
            · exact .bind' (n := 0) (m := 0) (a := 0) (b := 0) _ (atMost_orPanic _) (by omega) (by omega) fun _ _ => trivial
            · trivial
      · refine .bind' (n := 13 * F + 15) (m := 11) (a := F + 1) (b := 1) _ (ih _) (by omega) (by omega) fun x _ => ?_
        obtain ⟨c, e⟩ := x
        dsimp only
        split
        · trivial
        · exact .bind' (n := 11) (m := 0) (a := 1) (b := 0) _ (atMost_copyMutate (n := 0) (a := 0) fun _ => atMost_pure trivial)
            (by omega) (by omega) fun _ _ => trivial
      · split
        · trivial
        · exact .bind' (n := 7) (m := 0) (a := 0) (b := 0) _ (atMost_mutate (n := 0) fun _ => atMost_pure trivial)
            (by omega) (by omega) fun _ _ => trivial
      · refine .bind' (n := 7) (m := 8) (a := 0) (b := 1) _ (atMost_insert_none o node F) (by omega) (by omega) fun x _ => ?_
        obtain ⟨c, e⟩ := x
        dsimp only
        split
        · trivial
        · split
          all_goals
            refine .bind' (n := 1) (m := 7) (a := 1) (b := 0) _ (atMost_new _ (by omega) (by omega)) (by omega) (by omega) fun _ _ => ?_
            exact .bind' (n := 7) (m := 0) (a := 0) (b := 0) _ (atMost_mutate (n := 0) fun _ => atMost_pure trivial)
              (by omega) (by omega) fun _ _ => trivial

theorem atMost_del (key : Prefix α) : ∀ (F : Nat) (p : Ptr),
    (del (D := D) key F p).AtMost (12 * F) F fun _ => True := by
  intro F
  induction F with
  | zero => intro p; trivial
  | succ F ih =>
    intro p
    cases p with
    | none => trivial
    | some q =>
      unfold del
      refine .bind' (n := 1) (m := 12 * F + 11) (a := 0) (b := F + 1) _ (atMost_deref _ (by omega)) (by omega) (by omega) fun me _ => ?_
      split
      · split
        · trivial
        · split
          · trivial
          · exact .bind' (n := 11) (m := 0) (a := 1) (b := 0) _ (atMost_copyMutate (n := 0) (a := 0) fun _ => atMost_pure trivial)
              (by omega) (by omega) fun _ _ => trivial
      · refine .bind' (n := 12 * F) (m := 11) (a := F) (b := 1) _ (ih _) (by omega) (by omega) fun x _ => ?_
        obtain ⟨c, e⟩ := x
        dsimp only
        split
        · trivial
        · split
          · trivial
          · exact .bind' (n := 11) (m := 0) (a := 1) (b := 0) _ (atMost_copyMutate (n := 0) (a := 0) fun _ => atMost_pure trivial)
              (by omega) (by omega) fun _ _ => trivial
      · trivial
      · trivial

/-- `GetOrInsert` calls `insert` only on the lowest level it reaches. -/
theorem atMost_getOrInsert (key : Prefix α) (data : Option D) : ∀ (F : Nat) (p : Ptr),
    (getOrInsert key data F p).AtMost (25 * F + 16) (2 * F + 2) fun x => x.2.isSome = true := by
  intro F
  induction F with
  | zero => intro p; trivial
  | succ F ih =>
    intro p
    unfold getOrInsert
    have hins : ∀ m, (do
        let node ← new (freshCell key data)
        let x ← insert (α := α) ⟨true, false, nilComparator⟩ node F m
        if x.2 then panic else pure (x.1, some node) : Prog α D (Ptr × Ptr)).AtMost (13 * F + 16) (F + 2)
        fun x => x.2.isSome = true := by
      intro m
      refine .bind' (n := 1) (m := 13 * F + 15) (a := 1) (b := F + 1) _ (atMost_new _ (by omega) (by omega)) (by omega) (by omega) fun node _ => ?_
      refine .bind' (n := 13 * F + 15) (m := 0) (a := F + 1) (b := 0) _ (atMost_insert _ _ _ _) (by omega) (by omega) fun x _ => ?_
      split
      · trivial
      · exact atMost_pure rfl
    have hins' : ∀ m, (do
        let node ← new (freshCell key data)
        let x ← insert (α := α) ⟨true, false, nilComparator⟩ node F m
        if x.2 then panic else pure (x.1, some node) : Prog α D (Ptr × Ptr)).AtMost (25 * F + 40) (2 * F + 4)
        fun x => x.2.isSome = true := fun m => (hins m).mono (by omega) (by omega) fun _ h => h
    cases p with
    | none => exact (hins' none).mono (by omega) (by omega) fun _ h => h
    | some q =>
      refine .bind' (n := 1) (m := 25 * F + 40) (a := 0) (b := 2 * F + 4) _ (atMost_deref _ (by omega)) (by omega) (by omega) fun c _ => ?_
      dsimp only
      split
      · exact hins' (some q)
      · split
        · exact hins' (some q)
        · split
          · refine .bind' (n := 25 * F + 16) (m := 11) (a := 2 * F + 2) (b := 1) _ (ih _) (by omega) (by omega) fun x hx => ?_
            refine .bind' (n := 11) (m := 0) (a := 1) (b := 0) _ (atMost_copyMutate (n := 0) (a := 0) fun _ => atMost_pure trivial)
              (by omega) (by omega) fun y _ => ?_
            obtain ⟨a, b⟩ := x
            cases b with
            | none => cases hx
            | some r => exact atMost_pure rfl
          · split
            · exact hins' (some q)
            · exact atMost_pure rfl

/-! ### tablex.go, table.go -/

theorem atMost_tmutate {τ : Type} {o : Nat} {f : Prog α D ((Bool × Ptr) × τ)} {n a : Nat} {Q : τ → Prop}
    (h : f.AtMost n a fun x => Q x.2) : (tmutate o f).AtMost (n + 2) a Q := by
  unfold tmutate
  refine .bind' (n := 1) (m := n + 1) (a := 0) (b := a) _ (atMost_readObj _ (by omega)) (by omega) (by omega) fun old _ => ?_
  refine .bind' (n := n) (m := 1) (a := a) (b := 0) _ h (by omega) (by omega) fun x hx => ?_
  split
  · refine .bind' (n := 1) (m := 0) (a := 0) (b := 0) _ (atMost_swap _ _ _ (by omega)) (by omega) (by omega) fun ok _ => ?_
    split
    · trivial
    · exact atMost_pure hx
  · exact atMost_pure hx

theorem atMost_tInsert (F : Nat) (h : Option Nat) (k : PrefixI α) (v : D) :
    (tInsert F h k v).AtMost (13 * F + 19) (F + 2) fun _ => True := by
  cases h with
  | none => trivial
  | some o =>
    refine (atMost_tmutate (n := 13 * F + 17) (a := F + 2) ?_).mono (by omega) (by omega) fun _ h => h
    refine .bind' (n := 1) (m := 13 * F + 16) (a := 0) (b := F + 2) _ (atMost_readObj _ (by omega)) (by omega) (by omega) fun m _ => ?_
    refine .bind' (n := 13 * F + 16) (m := 0) (a := F + 2) (b := 0) (fun _ => True) ?_ (by omega) (by omega) fun x _ => atMost_pure trivial
    exact .bind' (n := 1) (m := 13 * F + 15) (a := 1) (b := F + 1) _ (atMost_new _ (by omega) (by omega)) (by omega) (by omega) fun x _ => atMost_insert _ _ _ _

theorem atMost_tUpdate (F : Nat) (h : Option Nat) (k : PrefixI α) (v : D) :
    (tUpdate F h k v).AtMost (13 * F + 19) (F + 2) fun _ => True := by
  cases h with
  | none => trivial
  | some o =>
    refine (atMost_tmutate (n := 13 * F + 17) (a := F + 2) ?_).mono (by omega) (by omega) fun _ h => h
    refine .bind' (n := 1) (m := 13 * F + 16) (a := 0) (b := F + 2) _ (atMost_readObj _ (by omega)) (by omega) (by omega) fun m _ => ?_
    refine .bind' (n := 13 * F + 16) (m := 0) (a := F + 2) (b := 0) (fun _ => True) ?_ (by omega) (by omega) fun x _ => atMost_pure trivial
    exact .bind' (n := 1) (m := 13 * F + 15) (a := 1) (b := F + 1) _ (atMost_new _ (by omega) (by omega)) (by omega) (by omega) fun x _ => atMost_insert _ _ _ _

theorem atMost_tInsertOrUpdate (F : Nat) (h : Option Nat) (k : PrefixI α) (v : D) :
    (tInsertOrUpdate F h k v).AtMost (13 * F + 19) (F + 2) fun _ => True := by
  cases h with
  | none => trivial
  | some o =>
    refine (atMost_tmutate (n := 13 * F + 17) (a := F + 2) ?_).mono (by omega) (by omega) fun _ h => h
    refine .bind' (n := 1) (m := 13 * F + 16) (a := 0) (b := F + 2) _ (atMost_readObj _ (by omega)) (by omega) (by omega) fun m _ => ?_
    refine .bind' (n := 13 * F + 16) (m := 0) (a := F + 2) (b := 0) (fun _ => True) ?_ (by omega) (by omega) fun x _ => atMost_pure trivial
    refine .bind' (n := 1) (m := 13 * F + 15) (a := 1) (b := F + 1) _ (atMost_new _ (by omega) (by omega)) (by omega) (by omega) fun x _ => ?_
    refine .bind' (n := 13 * F + 15) (m := 0) (a := F + 1) (b := 0) _ (atMost_insert _ _ _ _) (by omega) (by omega) fun x _ => ?_
    obtain ⟨y, e⟩ := x
    dsimp only
    split <;> trivial

theorem atMost_tRemove (F : Nat) (h : Option Nat) (k : PrefixI α) :
    (tRemove (D := D) F h k).AtMost (12 * F + 3) F fun _ => True := by
  cases h with
  | none => trivial
  | some o =>
    refine (atMost_tmutate (n := 12 * F + 1) (a := F) ?_).mono (by omega) (by omega) fun _ h => h
    refine .bind' (n := 1) (m := 12 * F) (a := 0) (b := F) _ (atMost_readObj _ (by omega)) (by omega) (by omega) fun m _ => ?_
    exact .bind' (n := 12 * F) (m := 0) (a := F) (b := 0) _ (atMost_del _ _ _) (by omega) (by omega) fun x _ => atMost_pure trivial

theorem atMost_xLongestMatch (F : Nat) (m : Obj D) (k : PrefixI α) :
    (xLongestMatch F m k).AtMost (F + 1) 0 fun _ => True := by
  unfold xLongestMatch
  refine .bind' (n := F) (m := 1) (a := 0) (b := 0) _ (atMost_match _ _ _) (by omega) (by omega) fun x _ => ?_
  cases x with
  | none => trivial
  | some a => exact .bind' (n := 1) (m := 0) (a := 0) (b := 0) _ (atMost_deref _ (by omega)) (by omega) (by omega) fun x _ => trivial

variable [Inhabited D]

theorem atMost_xGet (F : Nat) (m : Obj D) (k : PrefixI α) : (xGet F m k).AtMost (F + 1) 0 fun _ => True := by
  unfold xGet
  refine .bind' (n := F + 1) (m := 0) (a := 0) (b := 0) _ (atMost_xLongestMatch _ _ _) (by omega) (by omega) fun x _ => ?_
  split <;> trivial

theorem atMost_xLongest (F : Nat) (m : Obj D) (k : PrefixI α) : (xLongest F m k).AtMost (F + 1) 0 fun _ => True := by
  unfold xLongest
  refine .bind' (n := F + 1) (m := 0) (a := 0) (b := 0) _ (atMost_xLongestMatch _ _ _) (by omega) (by omega) fun x _ => ?_
  split <;> trivial

theorem atMost_tGet (F : Nat) (h : Option Nat) (k : PrefixI α) : (tGet (D := D) F h k).AtMost (F + 2) 0 fun _ => True := by
  cases h with
  | none => trivial
  | some o => exact .bind' (n := 1) (m := F + 1) (a := 0) (b := 0) _ (atMost_readObj _ (by omega)) (by omega) (by omega) fun m _ => atMost_xGet _ _ _

theorem atMost_tLongest (F : Nat) (h : Option Nat) (k : PrefixI α) : (tLongest (D := D) F h k).AtMost (F + 2) 0 fun _ => True := by
  cases h with
  | none => trivial
  | some o => exact .bind' (n := 1) (m := F + 1) (a := 0) (b := 0) _ (atMost_readObj _ (by omega)) (by omega) (by omega) fun m _ => atMost_xLongest _ _ _

theorem atMost_tNumEntries (h : Option Nat) : (tNumEntries h : Prog α D Nat).AtMost 2 0 fun _ => True := by
  cases h with
  | none => trivial
  | some o => exact .bind' (n := 1) (m := 1) (a := 0) (b := 0) _ (atMost_readObj _ (by omega)) (by omega) (by omega) fun m _ => atMost_numNodes _ (by omega)

theorem atMost_tGetOrInsert (F : Nat) (h : Option Nat) (k : PrefixI α) (v : D) :
    (tGetOrInsert F h k v).AtMost (25 * F + 20) (2 * F + 2) fun _ => True := by
  cases h with
  | none => trivial
  | some o =>
    refine .bind' (n := 25 * F + 19) (m := 1) (a := 2 * F + 2) (b := 0) (fun _ => True) ?_ (by omega) (by omega) fun m _ =>
      .bind' (n := 1) (m := 0) (a := 0) (b := 0) _ (atMost_deref _ (by omega)) (by omega) (by omega) fun x _ => trivial
    refine (atMost_tmutate (n := 25 * F + 17) (a := 2 * F + 2) ?_).mono (by omega) (by omega) fun _ h => h
    refine .bind' (n := 1) (m := 25 * F + 16) (a := 0) (b := 2 * F + 2) _ (atMost_readObj _ (by omega)) (by omega) (by omega) fun m _ => ?_
    exact .bind' (n := 25 * F + 16) (m := 0) (a := 2 * F + 2) (b := 0) _ (atMost_getOrInsert _ _ _ _) (by omega) (by omega) fun x _ => atMost_pure trivial

theorem atMost_tFreeze (h : Option Nat) : (tFreeze h : Prog α D (Obj D)).AtMost 1 0 fun _ => True := by
  cases h with
  | none => trivial
  | some o => exact atMost_readObj _ (by omega)

theorem atMost_xThaw (m : Obj D) : (xThaw m : Prog α D Nat).AtMost 1 0 fun _ => True := atMost_newObject _ (by omega)

end
end Heap

/-! ### the machine -/

section
variable {α D : Type} {L : Lib α D}

/-- A finite part of an execution: the labels of its steps, each with the number of nodes that were
    allocated in it. -/
inductive Run : State L → List (Label L × Nat) → State L → Prop
  | nil (s : State L) : Run s [] s
  | spawn {s t : State L} {r : List (Label L × Nat)} (h : Run s r t) (c : L.Call) (hc : t.CanStart c) :
      Run s (r ++ [(.spawn c, 0)]) (t.spawn c)
  | act {s t t' : State L} {r : List (Label L × Nat)} (h : Run s r t) (i : Nat) (hs : t.act i = some t') :
      Run s (r ++ [(.act i, t'.heap.length - t.heap.length)]) t'

/-- the steps of thread `i` -/
def ownSteps (i : Nat) (r : List (Label L × Nat)) : List (Label L × Nat) :=
  r.filter fun x => match x.1 with
    | .act j => j == i
    | _ => false

/-- how often thread `i` acts -/
def numSteps (i : Nat) (r : List (Label L × Nat)) : Nat := (ownSteps i r).length

/-- how many nodes thread `i` allocates -/
def numNew (i : Nat) (r : List (Label L × Nat)) : Nat := ((ownSteps i r).map (·.2)).sum

theorem ownSteps_spawn (i : Nat) (r : List (Label L × Nat)) (c : L.Call) :
    ownSteps i (r ++ [(.spawn c, 0)]) = ownSteps i r := by simp [ownSteps]
theorem ownSteps_other {i j : Nat} (h : j ≠ i) (r : List (Label L × Nat)) (n : Nat) :
    ownSteps i (r ++ [(.act j, n)]) = ownSteps i r := by simp [ownSteps, h]
theorem ownSteps_self (i : Nat) (r : List (Label L × Nat)) (n : Nat) :
    ownSteps i (r ++ [(.act i, n)]) = ownSteps i r ++ [(.act i, n)] := by simp [ownSteps]

/-- a step uses up one action, and one allocation if the heap grows -/
theorem act_atMost {s s' : State L} {i : Nat} {P : Prog α D L.Val} (hi : s.threads[i]? = some (some P))
    (h : s.act i = some s') {n a : Nat} {Q : L.Val → Prop} (hP : P.AtMost n a Q) :
    ((∃ v, P = .ret v) ∧ s'.heap.length = s.heap.length ∧ s'.threads[i]? = some none) ∨
    ∃ P' m b, s'.threads[i]? = some (some P') ∧ P'.AtMost m b Q ∧ m + 1 ≤ n ∧
      b + (s'.heap.length - s.heap.length) ≤ a := by
  have hlt := (List.getElem?_eq_some_iff.mp hi).1
  unfold State.act at h
  rw [hi] at h
  have hset : ∀ x, (s.threads.set i x)[i]? = some x := fun x => List.getElem?_set_self hlt
  cases P with
  | ret x => cases h; exact Or.inl ⟨⟨_, rfl⟩, rfl, hset _⟩
  | panic => cases h
  | stuck => cases h
  | alloc c k =>
    cases h
    obtain ⟨h1, h2, h3⟩ := hP
    exact Or.inr ⟨_, _, _, hset _, h3 _, by omega, by simp; omega⟩
  | read p k =>
    obtain ⟨h1, h3⟩ := hP
    simp only [State.actP] at h
    split at h <;> cases h
    · exact Or.inr ⟨_, _, a, hset _, h3 _, by omega, by simp [State.cont]⟩
    · exact Or.inr ⟨_, 0, 0, hset _, trivial, by omega, by simp [State.cont]⟩
  | write p c k =>
    obtain ⟨h1, h3⟩ := hP
    simp only [State.actP] at h
    split at h <;> cases h
    · exact Or.inr ⟨_, _, a, hset _, h3, by omega, by simp⟩
    · exact Or.inr ⟨_, 0, 0, hset _, trivial, by omega, by simp [State.cont]⟩
  | load o k =>
    obtain ⟨h1, h3⟩ := hP
    simp only [State.actP] at h
    split at h <;> cases h
    · exact Or.inr ⟨_, _, a, hset _, h3 _, by omega, by simp [State.cont, State.note]⟩
    · exact Or.inr ⟨_, 0, 0, hset _, trivial, by omega, by simp [State.cont]⟩
  | newObj ob k =>
    obtain ⟨h1, h3⟩ := hP
    cases h
    exact Or.inr ⟨_, _, a, hset _, h3 _, by omega, by simp [State.cont, State.note]⟩
  | cas o x y k =>
    obtain ⟨h1, h3⟩ := hP
    simp only [State.actP] at h
    split at h
    · split at h <;> cases h <;> exact Or.inr ⟨_, _, a, hset _, h3 _, by omega, by simp [State.cont, State.note]⟩
    · cases h; exact Or.inr ⟨_, 0, 0, hset _, trivial, by omega, by simp [State.cont]⟩

/-- what is left of the budget of thread `i` -/
def Left (i : Nat) (r : List (Label L × Nat)) (n a : Nat) (Q : L.Val → Prop) : Option (Prog α D L.Val) → Prop
  | none => numSteps i r ≤ n + 1 ∧ numNew i r ≤ a
  | some P => ∃ m b, P.AtMost m b Q ∧ numSteps i r + m ≤ n ∧ numNew i r + b ≤ a

theorem Run.left {r : List (Label L × Nat)} {s : State L} (h : Run .init r s) :
    (∀ i, s.threads.length ≤ i → numSteps i r = 0 ∧ numNew i r = 0) ∧
    (∀ i c, .start i c ∈ s.log → i < s.threads.length) ∧
    ∀ i c x n a Q, .start i c ∈ s.log → s.threads[i]? = some x → (L.code c).AtMost n a Q → Left i r n a Q x := by
  induction h with
  | nil =>
    exact ⟨fun i _ => ⟨rfl, rfl⟩, fun i c h => (by cases h), fun i c x n a Q h => (by cases h)⟩
  | @spawn t r h c hc ih =>
    obtain ⟨i1, i2, i3⟩ := ih
    refine ⟨fun i hi => ?_, fun i c' hs => ?_, fun i c' x n a Q hs hx hP => ?_⟩
    · simp only [State.spawn, List.length_append, List.length_singleton] at hi
      simpa [numSteps, numNew, ownSteps_spawn] using i1 i (by omega)
    · simp only [State.spawn, List.mem_append, List.mem_singleton, Entry.start.injEq] at hs ⊢
      simp only [List.length_append, List.length_singleton]
      rcases hs with hs | ⟨rfl, rfl⟩
      · have := i2 _ _ hs; omega
      · omega
    · simp only [State.spawn, List.mem_append, List.mem_singleton, Entry.start.injEq] at hs hx
      have e : Left i (r ++ [(.spawn c, 0)]) n a Q x ↔ Left i r n a Q x := by
        cases x <;> simp [Left, numSteps, numNew, ownSteps_spawn]
      rw [e]
      rcases hs with hs | ⟨rfl, rfl⟩
      · have hlt := i2 _ _ hs
        rw [List.getElem?_append_left hlt] at hx
        exact i3 i c' x n a Q hs hx hP
      · simp at hx
        subst hx
        have := i1 _ (Nat.le_refl _)
        exact ⟨n, a, hP, by omega, by omega⟩
  | @act t t' r h j hs ih =>
    obtain ⟨i1, i2, i3⟩ := ih
    obtain ⟨P, hj, hlen, hlog, hoth⟩ : ∃ P, t.threads[j]? = some (some P) ∧ t'.threads.length = t.threads.length ∧
        (∀ i c, .start i c ∈ t'.log ↔ .start i c ∈ t.log) ∧ ∀ i, i ≠ j → t'.threads[i]? = t.threads[i]? := by
      obtain ⟨P, h1, _, h3, h4, h5, _⟩ := State.act_log hs
      refine ⟨P, h1, h5, fun i c => ?_, h4⟩
      rcases h3 with h3 | ⟨e, h3, _, h6⟩
      · rw [h3]
      · rw [h3, List.mem_append, List.mem_singleton]
        exact ⟨fun h => h.resolve_right fun h => h6 _ _ h.symm, Or.inl⟩
    have hjlt := (List.getElem?_eq_some_iff.mp hj).1
    refine ⟨fun i hi => ?_, fun i c h => ?_, fun i c x n a Q hst hx hP => ?_⟩
    · rw [hlen] at hi
      have hji : j ≠ i := by omega
      simpa [numSteps, numNew, ownSteps_other hji] using i1 i hi
    · rw [hlen]; exact i2 i c ((hlog i c).mp h)
    · have hst := (hlog i c).mp hst
      by_cases hji : j = i
      · subst hji
        obtain ⟨m, b, h1, h2, h3⟩ := i3 j c _ n a Q hst hj hP
        have en : numSteps j (r ++ [(.act j, t'.heap.length - t.heap.length)]) = numSteps j r + 1 := by
          simp [numSteps, ownSteps_self]
        have ea : numNew j (r ++ [(.act j, t'.heap.length - t.heap.length)]) =
            numNew j r + (t'.heap.length - t.heap.length) := by
          simp [numNew, ownSteps_self]
        rcases act_atMost hj hs h1 with ⟨_, h4, h5⟩ | ⟨P', m', b', h4, h5, h6, h7⟩
        · rw [h5] at hx
          cases hx
          exact ⟨by rw [en]; omega, by rw [ea]; omega⟩
        · rw [h4] at hx
          cases hx
          exact ⟨m', b', h5, by rw [en]; omega, by rw [ea]; omega⟩
      · rw [hoth i (Ne.symm hji)] at hx
        have e : Left i (r ++ [(.act j, t'.heap.length - t.heap.length)]) n a Q x ↔ Left i r n a Q x := by
          cases x <;> simp [Left, numSteps, numNew, ownSteps_other hji]
        rw [e]
        exact i3 i c x n a Q hst hx hP

/-- the whole cost of a call, in every execution -/
theorem Run.cost {r : List (Label L × Nat)} {s : State L} (h : Run .init r s) {i : Nat} {c : L.Call}
    (hs : .start i c ∈ s.log) {n a : Nat} {Q : L.Val → Prop} (hc : (L.code c).AtMost n a Q) :
    numSteps i r ≤ n + 1 ∧ numNew i r ≤ a := by
  obtain ⟨_, h2, h3⟩ := h.left
  have hlt := h2 i c hs
  have := h3 i c _ n a Q hs (List.getElem?_eq_getElem hlt) hc
  revert this
  cases s.threads[i] with
  | none => exact id
  | some P => rintro ⟨m, b, _, h4, h5⟩; exact ⟨by omega, by omega⟩

/-- a run from the beginning ends in a reachable state, and every reachable state is the end of one -/
theorem Run.reach {r : List (Label L × Nat)} {s : State L} (h : Run .init r s) : s.Reach := by
  induction h with
  | nil => exact .init
  | spawn _ c hc ih => exact .step _ _ ih (.spawn c hc)
  | act _ i hs ih => exact .step _ _ ih (.act i _ hs)

theorem State.Reach.run {s : State L} (h : s.Reach) : ∃ r, Run .init r s := by
  induction h with
  | init => exact ⟨_, .nil _⟩
  | step s s' _ hs ih =>
    obtain ⟨r, hr⟩ := ih
    cases hs with
    | spawn c hc => exact ⟨_, .spawn hr c hc⟩
    | act i _ ha => exact ⟨_, .act hr i ha⟩

end
end Addrs

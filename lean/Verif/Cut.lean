import Verif.TableLib
/-
  Values that `==` cannot compare.

  For slices, maps and functions `==` on interfaces panics.  The code uses it in `copyMutate` and in the default
  comparison function.  Here: a program over such values takes the same actions as the same program over
  values that can be compared, up to the point where it panics.
-/
set_option linter.unusedSectionVars false
namespace Addrs
open GoWord

/-- What the model asks of the type of values of a table: on any two values `==` tells whether they are the same, or it
    panics.  (Not so for floating point numbers: NaN ≠ NaN, and -0.0 == 0.0.) -/
class Storable (D : Type) extends GoType D where
  dec : DecidableEq D
  eqq_eq : ∀ a b x, eqq a b = some x → x = decide (a = b)

instance (priority := low) {D : Type} [Comparable D] : Storable D where
  dec := Comparable.dec
  eqq_eq a b x h := by rw [Comparable.eqq_eq] at h; exact (Option.some.inj h).symm

instance : Storable GoSlice where
  dec := inferInstance
  eqq_eq _ _ _ h := by cases h

/-- the same values, if `==` never panicked -/
@[reducible] def Storable.total (D : Type) [Storable D] : Comparable D where
  eqq a b := some (@decide (a = b) (Storable.dec a b))
  dec := Storable.dec
  eqq_eq _ _ := rfl

/-- where the first `==` does not panic it is the second -/
def GoType.Le {D : Type} (A B : GoType D) : Prop := ∀ a b x, A.eqq a b = some x → B.eqq a b = some x

theorem Storable.le {D : Type} [Storable D] : GoType.Le (D := D) Storable.toGoType (Storable.total D).toGoType :=
  fun a b _ h => congrArg some (Storable.eqq_eq a b _ h).symm

namespace Prog
variable {α D β γ : Type}

/-- the first program is the second one, but it may panic where the second goes on -/
inductive Cut : Prog α D β → Prog α D β → Prop
  | panic (P : Prog α D β) : Cut .panic P
  | ret (b : β) : Cut (.ret b) (.ret b)
  | stuck : Cut .stuck .stuck
  | alloc {c : Cell α D} {k k' : Nat → Prog α D β} (h : ∀ n, Cut (k n) (k' n)) : Cut (.alloc c k) (.alloc c k')
  | read {p : Nat} {k k' : Cell α D → Prog α D β} (h : ∀ c, Cut (k c) (k' c)) : Cut (.read p k) (.read p k')
  | write {p : Nat} {c : Cell α D} {k k' : Prog α D β} (h : Cut k k') : Cut (.write p c k) (.write p c k')
  | load {o : Nat} {k k' : Obj D → Prog α D β} (h : ∀ ob, Cut (k ob) (k' ob)) : Cut (.load o k) (.load o k')
  | cas {o : Nat} {old new : Ptr} {k k' : Bool → Prog α D β} (h : ∀ b, Cut (k b) (k' b)) : Cut (.cas o old new k) (.cas o old new k')
  | newObj {ob : Obj D} {k k' : Nat → Prog α D β} (h : ∀ o, Cut (k o) (k' o)) : Cut (.newObj ob k) (.newObj ob k')

namespace Cut

theorem refl (P : Prog α D β) : Cut P P := by
  induction P with
  | ret b => exact .ret b
  | panic => exact .panic _
  | stuck => exact .stuck
  | alloc c k ih => exact .alloc ih
  | read p k ih => exact .read ih
  | write p c k ih => exact .write ih
  | load o k ih => exact .load ih
  | cas o old new k ih => exact .cas ih
  | newObj ob k ih => exact .newObj ih

theorem bind {P Q : Prog α D β} {f g : β → Prog α D γ} (h : Cut P Q) (hf : ∀ b, Cut (f b) (g b)) : Cut (P >>= f) (Q >>= g) := by
  show Cut (P.bind f) (Q.bind g)
  induction h with
  | panic P => exact .panic _
  | ret b => exact hf b
  | stuck => exact .stuck
  | alloc _ ih => exact .alloc ih
  | read _ ih => exact .read ih
  | write _ ih => exact .write ih
  | load _ ih => exact .load ih
  | cas _ ih => exact .cas ih
  | newObj _ ih => exact .newObj ih

theorem next {P : Prog α D β} {f g : β → Prog α D γ} (hf : ∀ b, Cut (f b) (g b)) : Cut (P >>= f) (P >>= g) := bind (refl P) hf

theorem ite {c : Prop} [Decidable c] {P P' Q Q' : Prog α D β} (h : c → Cut P P') (h' : ¬ c → Cut Q Q') :
    Cut (if c then P else Q) (if c then P' else Q') := by
  by_cases hc : c
  · simp only [hc, if_true]; exact h hc
  · simp only [hc, if_false]; exact h' hc

theorem orPanic {x y : Option β} (h : ∀ b, x = some b → y = some b) : Cut (orPanic x : Prog α D β) (Prog.orPanic y) := by
  cases x with
  | none => exact .panic _
  | some b => rw [h b rfl]; exact refl _

end Cut
end Prog

/-- where the first comparison function does not panic it is the second -/
def CmpLe {D : Type} (c c' : Comparator D) : Prop := ∀ a b x, c a b = some x → c' a b = some x

theorem CmpLe.refl {D : Type} (c : Comparator D) : CmpLe c c := fun _ _ _ h => h

theorem ifaceEq_le {D : Type} {A B : GoType D} (h : A.Le B) : CmpLe (@ifaceEq D A) (@ifaceEq D B) := by
  intro a b x hx
  cases a <;> cases b <;> first | exact hx | exact h _ _ _ hx

theorem call_le {D : Type} {A B : GoType D} (h : A.Le B) (e : EqFn D) : CmpLe (@EqFn.call D A e) (@EqFn.call D B e) := by
  cases e with
  | nil => exact CmpLe.refl _
  | dflt => exact ifaceEq_le h
  | custom c => exact CmpLe.refl _

namespace Heap
open Prog
variable {α D : Type} [GoWord α] {A B : GoType D}

theorem cut_structEq (h : A.Le B) (a b : Cell α D) : Cut (@structEq α D _ A a b) (@structEq α D _ B a b) := by
  unfold structEq
  exact .ite (fun _ => .refl _) fun _ => .bind (.orPanic (ifaceEq_le h _ _)) fun _ => .refl _

theorem cut_mutate {τ : Type} {me : Nat} {f g : Cell α D → Prog α D (Cell α D × τ)} (h : ∀ c, Cut (f c) (g c)) :
    Cut (mutate me f) (mutate me g) := by
  unfold mutate
  exact .next fun c => .bind (h c) fun _ => .refl _

theorem cut_copyMutate (h : A.Le B) {τ : Type} {me : Nat} {f g : Cell α D → Prog α D (Cell α D × τ)} (hf : ∀ c, Cut (f c) (g c)) :
    Cut (@copyMutate α D _ τ A me f) (@copyMutate α D _ τ B me g) := by
  unfold copyMutate
  exact .next fun c => .next fun n => .bind (cut_mutate hf) fun x => .next fun m => .next fun c => .bind (cut_structEq h _ _) fun _ => .refl _

theorem cut_insert (h : A.Le B) {i u : Bool} {c c' : Comparator D} (hc : CmpLe c c') (node : Nat) : ∀ (F : Nat) (p : Ptr),
    Cut (@insert α D _ A ⟨i, u, c⟩ node F p) (@insert α D _ B ⟨i, u, c'⟩ node F p)
  | 0, _ => .stuck
  | F + 1, none => .refl _
  | F + 1, some a => by
    unfold insert
    refine .next fun me => .next fun nd => ?_
    rcases compareP me.pfx nd.pfx with ⟨res, rev, common, child⟩
    cases res with
    | same =>
      refine .ite (fun _ => .refl _) fun _ => .ite (fun _ => .refl _) fun _ => ?_
      exact .bind (cut_mutate fun n => .ite (fun _ => .bind (.orPanic (hc _ _)) fun _ => .refl _) fun _ => .refl _) fun _ => .refl _
    | contains =>
      refine .bind (cut_insert h hc node F _) fun x => ?_
      exact .ite (fun _ => .refl _) fun _ => .bind (cut_copyMutate h fun _ => .refl _) fun _ => .refl _
    | isContained => exact .refl _
    | disjoint =>
      refine .bind (cut_insert h hc node F _) fun x => ?_
      exact .refl _

theorem cut_getOrInsert (h : A.Le B) (key : Prefix α) (d : Option D) : ∀ (F : Nat) (p : Ptr),
    Cut (@getOrInsert α D _ A key d F p) (@getOrInsert α D _ B key d F p)
  | 0, _ => .stuck
  | F + 1, p => by
    have last : Cut (new (freshCell key d) >>= fun n => @insert α D _ A ⟨true, false, nilComparator⟩ n F p >>= fun x =>
        if x.2 then Prog.panic else pure (x.1, some n))
      (new (freshCell key d) >>= fun n => @insert α D _ B ⟨true, false, nilComparator⟩ n F p >>= fun x =>
        if x.2 then Prog.panic else pure (x.1, some n)) := .next fun n => .bind (cut_insert h (CmpLe.refl _) n F p) fun _ => .refl _
    unfold getOrInsert
    dsimp only
    cases p with
    | none => exact last
    | some a =>
      refine .next fun c => .ite (fun _ => last) fun _ => ?_
      rcases containsP c.pfx key with ⟨m, exact', common, child⟩
      refine .ite (fun _ => last) fun _ => .ite (fun _ => ?_) fun _ => .ite (fun _ => last) fun _ => .refl _
      refine .bind (cut_getOrInsert h key d F _) fun x => .bind (cut_copyMutate h fun _ => .refl _) fun _ => ?_
      rcases x with ⟨x, _ | y⟩
      · exact last
      · exact .refl _

theorem cut_del (h : A.Le B) (key : Prefix α) : ∀ (F : Nat) (p : Ptr), Cut (@del α D _ A key F p) (@del α D _ B key F p)
  | 0, _ => .stuck
  | F + 1, none => .refl _
  | F + 1, some a => by
    unfold del
    refine .next fun me => ?_
    rcases compareP me.pfx key with ⟨res, rev, common, child⟩
    cases res with
    | same =>
      refine .ite (fun _ => .refl _) fun _ => .ite (fun _ => .refl _) fun _ => ?_
      exact .bind (cut_copyMutate h fun _ => .refl _) fun _ => .refl _
    | contains =>
      refine .bind (cut_del h key F _) fun x => .ite (fun _ => .refl _) fun _ => .ite (fun _ => .refl _) fun _ => ?_
      exact .bind (cut_copyMutate h fun _ => .refl _) fun _ => .refl _
    | isContained => exact .refl _
    | disjoint => exact .refl _

theorem cut_createReturnValue (h : A.Le B) {c c' : Comparator D} (hc : CmpLe c c') (me : Nat) (x : Cell α D) (act : Bool) (d : Option D) (l r : Ptr) :
    Cut (@createReturnValue α D _ A c me x act d l r) (@createReturnValue α D _ B c' me x act d l r) := by
  have last : Cut (@copyMutate α D _ _ A me (fun n => do
        let d ← if act then do
            let same ← if n.data.isNone then pure false else Prog.orPanic (c n.data d)
            if !same then pure d else pure n.data
          else pure none
        pure ({ n with active := act, data := d, l := l, r := r }, ())) >>= fun x => pure x.1)
      (@copyMutate α D _ _ B me (fun n => do
        let d ← if act then do
            let same ← if n.data.isNone then pure false else Prog.orPanic (c' n.data d)
            if !same then pure d else pure n.data
          else pure none
        pure ({ n with active := act, data := d, l := l, r := r }, ())) >>= fun x => pure x.1) := by
    refine .bind (cut_copyMutate h fun n => .ite (fun _ => .ite (fun _ => .refl _) fun _ => ?_) fun _ => .refl _) fun _ => .refl _
    exact .bind (.orPanic (hc _ _)) fun _ => .refl _
  unfold createReturnValue
  dsimp only
  refine .ite (fun _ => .bind (.orPanic (hc _ _)) fun keep => ?_) fun _ => last
  cases keep with
  | true => exact .refl _
  | false => exact last

theorem cut_childrenAggregate {c c' : Comparator D} (hc : CmpLe c c') (p : Prefix α) (a b : Ptr) :
    Cut (childrenAggregate c p a b) (childrenAggregate c' p a b) := by
  unfold childrenAggregate
  cases a with
  | none => exact .refl _
  | some a =>
    cases b with
    | none => exact .refl _
    | some b =>
      refine .next fun x => .next fun y => .ite (fun _ => .ite (fun _ => .ite (fun _ => .orPanic (hc _ _)) fun _ => .refl _) fun _ => .refl _) fun _ => .refl _

theorem cut_aggregate (h : A.Le B) {c c' : Comparator D} (hc : CmpLe c c') : ∀ (F : Nat) (u : Option (Option D)) (p : Ptr),
    Cut (@aggregate α D _ A c F u p) (@aggregate α D _ B c' F u p)
  | 0, _, _ => .stuck
  | F + 1, _, none => .refl _
  | F + 1, u, some a => by
    have rest : ∀ (x : Cell α D) (red : Bool), Cut
        (@aggregate α D _ A c F (if (x.active && !red) = true then some x.data else u) x.l >>= fun l =>
          @aggregate α D _ A c F (if (x.active && !red) = true then some x.data else u) x.r >>= fun r =>
          childrenAggregate c x.pfx l r >>= fun agg =>
          if agg = true then deref l >>= fun lc => @createReturnValue α D _ A c a x true lc.data none none
          else if (x.active && !red) = true then @createReturnValue α D _ A c a x (x.active && !red) (if red = true then none else x.data) l r
          else if l = none then pure r else if r = none then pure l
          else @createReturnValue α D _ A c a x (x.active && !red) (if red = true then none else x.data) l r)
        (@aggregate α D _ B c' F (if (x.active && !red) = true then some x.data else u) x.l >>= fun l =>
          @aggregate α D _ B c' F (if (x.active && !red) = true then some x.data else u) x.r >>= fun r =>
          childrenAggregate c' x.pfx l r >>= fun agg =>
          if agg = true then deref l >>= fun lc => @createReturnValue α D _ B c' a x true lc.data none none
          else if (x.active && !red) = true then @createReturnValue α D _ B c' a x (x.active && !red) (if red = true then none else x.data) l r
          else if l = none then pure r else if r = none then pure l
          else @createReturnValue α D _ B c' a x (x.active && !red) (if red = true then none else x.data) l r) := by
      intro x red
      refine .bind (cut_aggregate h hc F _ _) fun l => .bind (cut_aggregate h hc F _ _) fun r => ?_
      refine .bind (cut_childrenAggregate hc _ _ _) fun agg => .ite (fun _ => .next fun _ => cut_createReturnValue h hc _ _ _ _ _ _) fun _ => ?_
      exact .ite (fun _ => cut_createReturnValue h hc _ _ _ _ _ _) fun _ => .ite (fun _ => .refl _) fun _ => .ite (fun _ => .refl _)
        fun _ => cut_createReturnValue h hc _ _ _ _ _ _
    unfold aggregate
    dsimp only
    refine .next fun x => .ite (fun _ => ?_) fun _ => rest x false
    cases u with
    | none => exact rest x false
    | some v => exact .bind (.orPanic (hc _ _)) fun red => rest x red

theorem cut_map (h : A.Le B) {c c' : Comparator D} (hc : CmpLe c c') {σ : Type} (f : Prefix α → Option D → σ → Option D × σ) :
    ∀ (F : Nat) (p : Ptr) (s : σ), Cut (@map α D _ A σ f c F p s) (@map α D _ B σ f c' F p s)
  | 0, _, _ => .stuck
  | F + 1, none, _ => .refl _
  | F + 1, some a, s => by
    unfold map
    refine cut_copyMutate h fun n => .next fun x => .bind (.orPanic (hc _ _)) fun e => ?_
    exact .bind (cut_map h hc f F _ _) fun _ => .bind (cut_map h hc f F _ _) fun _ => .refl _

theorem cut_andThen {σ : Type} {x x' : Prog α D (σ × Bool)} {k k' : σ → Prog α D (σ × Bool)} (h : Cut x x') (hk : ∀ s, Cut (k s) (k' s)) :
    Cut (andThen x k) (andThen x' k') := by
  unfold andThen
  exact .bind h fun _ => .ite (fun _ => hk _) fun _ => .refl _

theorem cut_diff {σ : Type} {hl hl' : Handler α D σ} (h1 : hl.removed = hl'.removed) (h2 : hl.added = hl'.added) (h3 : hl.sameNil = hl'.sameNil)
    (hm : ∀ c d s, Cut (hl.modified c d s) (hl'.modified c d s)) : ∀ (F : Nat) (p q : Ptr) (s : σ),
    Cut (@diff α D _ σ hl F p q s) (@diff α D _ σ hl' F p q s)
  | 0, _, _, _ => .stuck
  | F + 1, p, q, s => by
    have ih := cut_diff h1 h2 h3 hm F
    unfold diff
    rw [h1, h2, h3]
    refine .ite (fun _ => .refl _) fun _ => ?_
    cases p with
    | none =>
      cases q with
      | none => exact .refl _
      | some b => exact .next fun d => cut_andThen (.refl _) fun _ => cut_andThen (ih _ _ _) fun _ => ih _ _ _
    | some a =>
      cases q with
      | none => exact .next fun d => cut_andThen (.refl _) fun _ => cut_andThen (ih _ _ _) fun _ => ih _ _ _
      | some b =>
        refine .next fun c => .next fun d => ?_
        rcases compareP c.pfx d.pfx with ⟨res, rev, common, child⟩
        cases res with
        | same => exact cut_andThen (hm _ _ _) fun _ => cut_andThen (ih _ _ _) fun _ => ih _ _ _
        | contains => exact cut_andThen (.refl _) fun _ => cut_andThen (ih _ _ _) fun _ => ih _ _ _
        | isContained => exact cut_andThen (.refl _) fun _ => cut_andThen (ih _ _ _) fun _ => ih _ _ _
        | disjoint => exact .ite (fun _ => cut_andThen (ih _ _ _) fun _ => ih _ _ _) fun _ => cut_andThen (ih _ _ _) fun _ => ih _ _ _

theorem cut_Diff {σ : Type} {c c' : Comparator D} (hc : CmpLe c c') (F : Nat) (cb : Trie.DiffCallbacks α D σ) (p q : Ptr) (s : σ) :
    Cut (@Diff α D _ σ F cb c p q s) (@Diff α D _ σ F cb c' p q s) := by
  unfold Diff
  dsimp only
  apply cut_diff <;> try rfl
  intro x y s
  refine .ite (fun _ => .bind (.orPanic (hc _ _)) fun _ => .refl _) fun _ => .refl _

theorem cut_tmutate {τ : Type} {o : Nat} {m m' : Prog α D ((Bool × Ptr) × τ)} (h : Cut m m') : Cut (tmutate o m) (tmutate o m') := by
  unfold tmutate
  exact .next fun _ => .bind h fun _ => .refl _

end Heap

section
open Heap Prog
variable {α D σ : Type} [GoWord α] [Inhabited D] {A B : GoType D}

theorem cut_op (h : A.Le B) (F : Nat) (r : Option Nat) (o : TableOp α D) : Cut (@opCode α D _ A _ F r o) (@opCode α D _ B _ F r o) := by
  cases r with
  | none => cases o <;> exact .refl _
  | some i =>
    cases o with
    | insert k v => exact .bind (cut_tmutate (.next fun m => .bind (.next fun n => cut_insert h (CmpLe.refl _) n F _) fun _ => .refl _)) fun _ => .refl _
    | update k v => exact .bind (cut_tmutate (.next fun m => .bind (.next fun n => cut_insert h (call_le h _) n F _) fun _ => .refl _)) fun _ => .refl _
    | insertOrUpdate k v =>
      exact .bind (cut_tmutate (.next fun m => .bind (.next fun n => .bind (cut_insert h (call_le h _) n F _) fun _ => .refl _) fun _ => .refl _)) fun _ => .refl _
    | get k => exact .refl _
    | getOrInsert k v =>
      exact .bind (.bind (cut_tmutate (.next fun m => .bind (cut_getOrInsert h _ _ F _) fun _ => .refl _)) fun _ => .refl _) fun _ => .refl _
    | remove k => exact .bind (cut_tmutate (.next fun m => .bind (cut_del h _ F _) fun _ => .refl _)) fun _ => .refl _

theorem cut_code (h : A.Le B) (F : Nat) (c : TCall α D σ) : Cut (@TCall.code α D σ _ A _ F c) (@TCall.code α D σ _ B _ F c) := by
  cases c with
  | new_ => exact .refl _
  | newCustom cmp => exact .refl _
  | op r o => exact .bind (cut_op h F r o) fun _ => .refl _
  | longest r k => cases r <;> exact .refl _
  | num r => cases r <;> exact .refl _
  | freeze r => exact .refl _
  | thaw t => exact .refl _
  | xget t k => exact .refl _
  | xlongest t k => exact .refl _
  | xnum t => exact .refl _
  | walk t cb s => exact .refl _
  | diff t u cb s => exact .bind (cut_Diff (call_le h _) F _ _ _ _) fun _ => .refl _
  | map t f s =>
    cases f with
    | none => exact .refl _
    | some f => exact .bind (.bind (cut_map h (call_le h _) _ F _ _) fun _ => .refl _) fun _ => .refl _
  | aggregate t => exact .bind (.bind (cut_aggregate h (call_le h _) F _ _) fun _ => .refl _) fun _ => .refl _

end
end Addrs

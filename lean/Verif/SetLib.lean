import Verif.HeapSetApi
import Verif.HeapSetProofs2
import Verif.HeapRoots
import Verif.ConcInv
/-
  What each call of the set API does, on the machine.
-/
set_option linter.unusedSectionVars false
namespace Addrs
open GoWord LawfulGoWord

section
variable {α σ : Type} [HeapFamily α]

/-- the `Set` value or object `ob`, with the nodes in `v`, is the set `S` -/
def Obj.Holds (v : View α Empty) (ob : Obj Empty) (S : IPSet α) : Prop :=
  Den v ob.trie S.trie ∧ S.Reachable ∧ ob.eq = .nil

theorem Obj.Holds.mono {v v' : View α Empty} (h : v ≤ v') {ob : Obj Empty} {S : IPSet α} (hi : ob.Holds v S) :
    ob.Holds v' S := ⟨hi.1.mono h, hi.2⟩

theorem Obj.Holds.functional {v : View α Empty} {ob : Obj Empty} {S S' : IPSet α} (h : ob.Holds v S)
    (h' : ob.Holds v S') : S = S' := by
  cases S; cases S'
  have := h.1.functional h'.1
  simp only at this
  rw [this]

/-- what holds of every `Set` and every mutable set -/
def sval (v : View α Empty) (ob : Obj Empty) : Prop := ∃ S : IPSet α, ob.Holds v S

theorem sval.mono {v v' : View α Empty} (h : v ≤ v') {ob : Obj Empty} (hi : sval v ob) : sval v' ob := by
  obtain ⟨S, h1⟩ := hi
  exact ⟨S, h1.mono h⟩

/-- the argument, read with the accesses `evs`, is the set `A` -/
def SetArg.Is (v : View α Empty) (a : SetArg α) (evs : List (Event Empty)) (A : IPSet α) : Prop :=
  match a with
  | .nil => evs = [] ∧ A = IPSet.empty
  | .address x => evs = [] ∧ A = (SetI.address x).toSet
  | .prefix p => evs = [] ∧ A = (SetI.prefix p).toSet ∧ p.WF
  | .range r => evs = [] ∧ A = (SetI.range r).toSet ∧ r.Valid
  | .set t => evs = [] ∧ t.Holds v A
  | .obj none => evs = [] ∧ A = IPSet.empty
  | .obj (some o) => ∃ ob, evs = [.load o ob] ∧ ob.Holds v A

/-- the receiver, read with the accesses `evs`, is the set `S` -/
def SetRecv.Is (v : View α Empty) (r : SetRecv) (evs : List (Event Empty)) (S : IPSet α) : Prop :=
  match r with
  | .set t => evs = [] ∧ t.Holds v S
  | .obj none => evs = [] ∧ S = IPSet.empty
  | .obj (some o) => ∃ ob, evs = [.load o ob] ∧ ob.Holds v S

theorem SetArg.Is.mono {v v' : View α Empty} (le : v ≤ v') {a : SetArg α} {evs : List (Event Empty)} {A : IPSet α}
    (h : a.Is v evs A) : a.Is v' evs A := by
  cases a with
  | set t => exact ⟨h.1, h.2.mono le⟩
  | obj o => cases o with
    | none => exact h
    | some o => obtain ⟨ob, h1, h2⟩ := h; exact ⟨ob, h1, h2.mono le⟩
  | _ => exact h

theorem SetRecv.Is.mono {v v' : View α Empty} (le : v ≤ v') {a : SetRecv} {evs : List (Event Empty)} {A : IPSet α}
    (h : a.Is v evs A) : a.Is v' evs A := by
  cases a with
  | set t => exact ⟨h.1, h.2.mono le⟩
  | obj o => cases o with
    | none => exact h
    | some o => obtain ⟨ob, h1, h2⟩ := h; exact ⟨ob, h1, h2.mono le⟩

theorem SetArg.Is.reachable {v : View α Empty} {a : SetArg α} {evs : List (Event Empty)} {A : IPSet α}
    (h : a.Is v evs A) : A.Reachable := by
  cases a with
  | nil => rw [h.2]; exact .empty
  | address x => rw [h.2]; exact .address x
  | «prefix» p => rw [h.2.1]; exact .prefix p h.2.2
  | range r => rw [h.2.1]; exact .range r h.2.2
  | set t => exact h.2.2.1
  | obj o => cases o with
    | none => rw [h.2]; exact .empty
    | some o => obtain ⟨ob, h1, h2⟩ := h; exact h2.2.1

theorem SetArg.Is.no_swap {v : View α Empty} {a : SetArg α} {evs : List (Event Empty)} {A : IPSet α}
    (h : a.Is v evs A) : ∀ o x y, (.swap o x y : Event Empty) ∉ evs := by
  intro o x y hm
  cases a with
  | obj o => cases o with
    | none => rw [h.1] at hm; cases hm
    | some o => obtain ⟨ob, h1, h2⟩ := h; rw [h1] at hm; simp at hm
  | _ => rw [h.1] at hm; cases hm

theorem SetRecv.Is.no_swap {v : View α Empty} {a : SetRecv} {evs : List (Event Empty)} {A : IPSet α}
    (h : a.Is v evs A) : ∀ o x y, (.swap o x y : Event Empty) ∉ evs := by
  intro o x y hm
  cases a with
  | obj o => cases o with
    | none => rw [h.1] at hm; cases hm
    | some o => obtain ⟨ob, h1, h2⟩ := h; rw [h1] at hm; simp at hm
  | set t => rw [h.1] at hm; cases hm

theorem SetRecv.Is.reachable {v : View α Empty} {a : SetRecv} {evs : List (Event Empty)} {A : IPSet α}
    (h : a.Is v evs A) : A.Reachable := by
  cases a with
  | set t => exact h.2.2.1
  | obj o => cases o with
    | none => rw [h.2]; exact .empty
    | some o => obtain ⟨ob, h1, h2⟩ := h; exact h2.2.1

/-- an argument whose nodes are made by the call -/
def SetArg.Lit : SetArg α → Bool
  | .set _ => false
  | .obj (some _) => false
  | _ => true

/-- The roots that are not new that `Insert` of `a` can put in: one that it has read, or, if the argument is a set, any. -/
def SetArg.insOlds (a : SetArg α) : OldRoots α Empty := fun _ tr o q =>
  a.Lit = true → ∃ ob, .load o ob ∈ tr ∧ ob.trie = q

/-- The same for `Remove`: nil, one that it has read or one below that. -/
def remOlds : OldRoots α Empty := fun v tr o q => ∃ ob, .load o ob ∈ tr ∧ Heap.Desc v ob.trie q

theorem remOlds.mono {v v' : View α Empty} (le : v ≤ v') {tr : List (Event Empty)} {o : Nat} {q : Ptr}
    (h : remOlds v tr o q) : remOlds v' tr o q := by
  obtain ⟨ob, h1, h2⟩ := h
  exact ⟨ob, h1, h2.mono le⟩

/-- the same for all calls; the others put in no roots -/
def SCall.olds : SCall α σ → OldRoots α Empty
  | insert _ a _ => a.insOlds
  | remove _ _ _ => remOlds
  | _ => fun _ _ _ _ => False

/-- A write on `o`: it read the object twice and the argument after the first time; the new contents are
    computed from what it read the second time; if the new root differs from the root it read first, it was
    swapped in. -/
def SWriteSpec (o : Nat) (a : SetArg α) (f : IPSet α → SetI α → IPSet α) (fr : OldRoots α Empty) (tr : List (Event Empty))
    (v : View α Empty) : Prop :=
  ∃ (ob1 ob2 : Obj Empty) (S2 A : IPSet α) (evs pre post : List (Event Empty)), sval v ob1 ∧ ob2.Holds v S2 ∧
    a.Is v evs A ∧ ((pre = [] ∧ post = evs) ∨ (pre = evs ∧ post = [])) ∧
    ((tr = .load o ob1 :: pre ++ .load o ob2 :: post ∧ ob1.Holds v (f S2 (.set A)) ∧
        fr v [.load o ob2] o ob1.trie) ∨
      ∃ new, tr = (.load o ob1 :: pre ++ .load o ob2 :: post) ++ [.swap o ob1.trie new] ∧ new ≠ ob1.trie ∧
        Obj.Holds v ⟨new, .nil⟩ (f S2 (.set A)))

/-- a function of the receiver -/
def SRead (r : SetRecv) (P : IPSet α → Prop) (tr : List (Event Empty)) (v : View α Empty) : Prop :=
  ∃ S, r.Is v tr S ∧ P S

/-- a function of the receiver and the argument, which are read in this or the other order -/
def SRead2 (r : SetRecv) (a : SetArg α) (P : IPSet α → IPSet α → Prop) (tr : List (Event Empty))
    (v : View α Empty) : Prop :=
  ∃ S A tr1 tr2, r.Is v tr1 S ∧ a.Is v tr2 A ∧ (tr = tr1 ++ tr2 ∨ tr = tr2 ++ tr1) ∧ P S A

/-- the result is a `Set` -/
def IsSet (x : SVal α σ) (v : View α Empty) (S : IPSet α) : Prop := ∃ t, x = .set t ∧ t.Holds v S

/-- what a measurement gives -/
def IPSet.size (S : IPSet α) : HeapFamily.Size α := HeapFamily.size S.trie

/-- What the call does: `tr` are its accesses to mutable sets, `x` is its result. -/
def SCall.spec : SCall α σ → List (Event Empty) → SVal α σ → View α Empty → Prop
  | new_, tr, x, _ => ∃ o, tr = [.made o ⟨none, .nil⟩] ∧ x = .handle o
  | freeze h, tr, x, v => SRead (.obj h) (IsSet x v) tr v
  | thaw t, tr, x, v => ∃ o S, tr = [.made o ⟨t.trie, .nil⟩] ∧ x = .handle o ∧ t.Holds v S
  | insert h a _, tr, x, v => ∃ o, h = some o ∧ x = .unit ∧ SWriteSpec o a IPSet.union a.insOlds tr v
  | remove h a _, tr, x, v => ∃ o, h = some o ∧ x = .unit ∧ SWriteSpec o a IPSet.difference remOlds tr v
  | size r, tr, x, v => SRead r (fun S => x = .size S.size) tr v
  | isEmpty r, tr, x, v => SRead r (fun S => x = .bool S.isEmpty) tr v
  | contains r a, tr, x, v => SRead2 r a (fun S A => x = .bool (S.contains (.set A))) tr v
  | equal_ h h' _, tr, x, v => SRead2 (.obj h) (.obj h') (fun S A => x = .bool (S.equal A)) tr v
  | equal t u, tr, x, v => SRead2 (.set t) (.set u) (fun S A => x = .bool (S.equal A)) tr v
  | union r a, tr, x, v => SRead2 r a (fun S A => IsSet x v (S.union (.set A))) tr v
  | intersection r a, tr, x, v => (r = .obj none ∧ tr = [] ∧ x = .set .zero) ∨
    SRead2 r a (fun S A => IsSet x v (S.intersection (.set A))) tr v
  | difference r a, tr, x, v => (r = .obj none ∧ tr = [] ∧ x = .set .zero) ∨
    SRead2 r a (fun S A => IsSet x v (S.difference (.set A))) tr v
  | walk t cb s, tr, x, v => SRead (.set t) (fun S => x = .walked (S.walkPrefixes cb s)) tr v
  | find t a length, tr, x, v =>
    SRead2 (.set t) a (fun S A => x = .found (S.findAvailablePrefix (.set A) length)) tr v

open Prog Heap SetNode

theorem IPSet.Reachable.deep {S : IPSet α} (h : S.Reachable) : S.trie.deep ≤ width α + 1 := h.inv.deep_le

/-- a recursion bound for all calls -/
def setBound (α : Type) [GoWord α] : Nat := 5 * (width α + 2)

theorem room_le (t : SetNode α) : room t ≤ width α := by
  cases t with
  | nil => exact Nat.zero_le _
  | node p _ _ _ _ _ _ => rw [room_node]; omega

theorem wp_union' {F : Nat} (hF : setBound α ≤ F) {S A : IPSet α} (hS : S.Reachable) (hA : A.Reachable)
    {v : View α Empty} {p q : Ptr} {W : Nat → Prop} (d : Den v p S.trie) (e : Den v q A.trie) :
    wp False (fun x v' => Den v' x (S.union (.set A)).trie) (Heap.union F p q) v W :=
  computes_union hS.inv hA.inv F (by unfold uB; unfold setBound at hF; omega) v p q W d e

theorem wp_difference' {F : Nat} (hF : setBound α ≤ F) {S A : IPSet α} (hS : S.Reachable) (hA : A.Reachable)
    {v : View α Empty} {p q : Ptr} {W : Nat → Prop} (d : Den v p S.trie) (e : Den v q A.trie) :
    wp False (fun x v' => Den v' x (S.difference (.set A)).trie) (Heap.difference F p q) v W := by
  have h1 := hS.deep
  have h2 := hA.deep
  have h3 := room_le S.trie
  exact computes_difference _ (Nat.le_refl _) hS.inv hA.inv F (by unfold uB; unfold setBound at hF; omega) v p q W d e

theorem wp_intersect' {F : Nat} (hF : setBound α ≤ F) {S A : IPSet α} (hS : S.Reachable) (hA : A.Reachable)
    {v : View α Empty} {p q : Ptr} {W : Nat → Prop} (d : Den v p S.trie) (e : Den v q A.trie) :
    wp False (fun x v' => Den v' x (S.intersection (.set A)).trie) (Heap.intersect F p q) v W := by
  have h1 := hS.deep
  have h2 := hA.deep
  exact computes_intersect _ (Nat.le_refl _) hS.inv hA.inv F (by unfold uB; unfold setBound at hF; omega) v p q W d e

theorem wp_size' {F : Nat} (hF : setBound α ≤ F) {S : IPSet α} (hS : S.Reachable)
    {v : View α Empty} {p : Ptr} {W : Nat → Prop} (d : Den v p S.trie) :
    wp False (fun x _ => x = S.size) (HeapFamily.sizeCode (α := α) F p) v W := by
  have h1 := hS.deep
  exact HeapFamily.size_ok (by unfold setBound at hF; omega) d

theorem wp_equal' {F : Nat} (hF : setBound α ≤ F) {S A : IPSet α} (hS : S.Reachable) (hA : A.Reachable)
    {v : View α Empty} {p q : Ptr} {W : Nat → Prop} (d : Den v p S.trie) (e : Den v q A.trie) :
    wp False (fun x _ => x = S.equal A) (setEqual F p q) v W := by
  have h1 := hS.deep
  have h2 := hA.deep
  exact wp_equal (eq := fun _ _ => true) (fun _ => rfl) F (by unfold setBound at hF; omega) d e

theorem wp_find' {F : Nat} (hF : setBound α ≤ F) {S A : IPSet α} (hS : S.Reachable) (hA : A.Reachable) (length : Nat)
    {v : View α Empty} {p q : Ptr} {W : Nat → Prop} (d : Den v p S.trie) (e : Den v q A.trie) :
    wp False (fun x _ => x = SetNode.findSmallestReserved length S.trie A.trie)
      (Heap.findSmallestReserved length F p q) v W := by
  have h1 := hS.deep
  have h2 := hA.deep
  have h3 := room_le S.trie
  exact computes_findSmallestReserved length _ (Nat.le_refl _) hS.inv hA.inv F (by unfold setBound at hF; omega) v p q W d e

theorem IPSet.isEmpty_size (S : IPSet α) : HeapFamily.isZero S.size = S.isEmpty := (HeapFamily.isEmpty_eq S.trie).symm

/-! ### Threads -/

abbrev SQ (α σ : Type) [HeapFamily α] := List (Event Empty) → SVal α σ → View α Empty → Prop

/-- the nodes of an argument that is not a set are new and private -/
def NewArg (a : SetArg α) (v base v' base' : View α Empty) (p : Ptr) : Prop :=
  base ≤ v → base' ≤ v' ∧ (a.Lit = true → p = none ∨ ∃ x, p = some x ∧ v x = none ∧ v' x ≠ none ∧ base' x = none)

theorem newArg {a : SetArg α} {v base v' : View α Empty} {p : Ptr} {t : SetNode α} (le : v ≤ v') (d : Den v' p t)
    (h : a.Lit = true → p = none ∨ Fresh v p) : NewArg a v base v' base p := by
  intro hb
  refine ⟨View.le_trans hb le, fun hl => (h hl).imp id ?_⟩
  rintro ⟨x, rfl, hx⟩
  obtain ⟨c, _, _, hc, _⟩ := d.some_inv
  refine ⟨x, rfl, hx, by rw [hc]; simp, ?_⟩
  cases e : base x with
  | none => rfl
  | some c => rw [hb _ _ e] at hx; cases hx

/-- reading an argument -/
theorem cwp_arg {β : Type} {fr : OldRoots α Empty} {F : Nat} (hF : setBound α ≤ F) {Q : List (Event Empty) → β → View α Empty → Prop} {a : SetArg α}
    (ha : a.Ok) {f : Ptr → SProg α β} {v base : View α Empty} {W : Nat → Prop} {n : Nat → Prop} {tr : List (Event Empty)}
    (hv : ∀ x ∈ a.vals, sval v x) (hr : ∀ o ∈ a.refs, n o)
    (h : ∀ v' base' p evs A, v ≤ v' → a.Is v' evs A → Den v' p A.trie → NewArg a v base v' base' p →
      cwp sval fr Q (f p) v' base' W n (tr ++ evs)) :
    cwp sval fr Q (argSet F a >>= f) v base W n tr := by
  have nil : ∀ v' p A, v ≤ v' → a.Is v' [] A → Den v' p A.trie → (a.Lit = true → p = none ∨ Fresh v p) →
      cwp sval fr Q (f p) v' base W n tr := by
    intro v' p A le h1 h2 h3
    have := h v' base p [] A le h1 h2 (newArg le h2 h3)
    rwa [List.append_nil] at this
  cases a with
  | nil => exact nil _ _ IPSet.empty (View.le_refl _) ⟨rfl, rfl⟩ .nil fun _ => Or.inl rfl
  | address x =>
    refine cwp_call (P := argSet F (.address x)) (Q0 := fun p v' => Den v' p (SetNode.fromPrefix (Prefix.ofAddress x)) ∧ Fresh v p) ?_ ?_
    · refine wp_mono (fun _ h => h) ?_ (wp_wlp (wp_fromPrefix (Q := fun p v' => Den v' p _) fun n v' _ h => h) wlp_fromPrefix)
      exact fun _ _ h => ⟨h.1, h.2.2.1⟩
    · intro p v' le d; exact nil _ _ (SetI.address x).toSet le ⟨rfl, rfl⟩ d.1 fun _ => Or.inr d.2
  | «prefix» q =>
    refine cwp_call (P := argSet F (.prefix q)) (Q0 := fun p v' => Den v' p (SetNode.fromPrefix q) ∧ Fresh v p) ?_ ?_
    · refine wp_mono (fun _ h => h) ?_ (wp_wlp (wp_fromPrefix (Q := fun p v' => Den v' p _) fun n v' _ h => h) wlp_fromPrefix)
      exact fun _ _ h => ⟨h.1, h.2.2.1⟩
    · intro p v' le d; exact nil _ _ (SetI.prefix q).toSet le ⟨rfl, rfl, ha⟩ d.1 fun _ => Or.inr d.2
  | range r =>
    refine cwp_call (P := argSet F (.range r)) (Q0 := fun p v' => Den v' p (SetNode.fromRange r) ∧ Fresh v p) ?_ ?_
    · refine wp_mono (fun _ h => h) ?_ (wp_wlp (wp_fromRange ha F (by unfold setBound at hF; omega) _ _) (wlp_fromRange _ _ _ _))
      exact fun _ _ h => ⟨h.1, h.2.2⟩
    · intro p v' le d; exact nil _ _ (SetI.range r).toSet le ⟨rfl, rfl, ha⟩ d.1 fun _ => Or.inr d.2
  | set t =>
    obtain ⟨S, hS⟩ := hv t (by simp [SetArg.vals])
    exact nil _ _ S (View.le_refl _) ⟨rfl, hS⟩ hS.1 fun h => by cases h
  | obj o =>
    cases o with
    | none => exact nil _ _ IPSet.empty (View.le_refl _) ⟨rfl, rfl⟩ .nil fun _ => Or.inl rfl
    | some o =>
      refine cwp_load (f := fun m => f m.trie) (hr o (by simp [SetArg.refs])) ?_
      rintro v' base' ob le _ hb ⟨S, hS⟩ _
      exact h v' base' _ [.load o ob] S le ⟨ob, rfl, hS⟩ hS.1 fun _ => ⟨hb.1, fun h => by cases h⟩

/-- reading a receiver -/
theorem cwp_recv {β : Type} {fr : OldRoots α Empty} {Q : List (Event Empty) → β → View α Empty → Prop} {r : SetRecv}
    {f : Ptr → SProg α β} {v base : View α Empty} {W : Nat → Prop} {n : Nat → Prop} {tr : List (Event Empty)}
    (hv : ∀ x ∈ r.vals, sval v x) (hr : ∀ o ∈ r.refs, n o)
    (h : ∀ v' base' p evs S, v ≤ v' → r.Is v' evs S → Den v' p S.trie →
      cwp sval fr Q (f p) v' base' W n (tr ++ evs)) :
    (match r with
     | .set t => cwp sval fr Q (f t.trie) v base W n tr
     | .obj none => True
     | .obj (some o) => cwp sval fr Q (readObj o >>= fun m => f m.trie) v base W n tr) := by
  cases r with
  | set t =>
    obtain ⟨S, hS⟩ := hv t (by simp [SetRecv.vals])
    have := h v base t.trie [] S (View.le_refl _) ⟨rfl, hS⟩ hS.1
    rwa [List.append_nil] at this
  | obj o =>
    cases o with
    | none => trivial
    | some o =>
      refine cwp_load (hr o (by simp [SetRecv.refs])) ?_
      rintro v' base' ob le _ _ ⟨S, hS⟩ _
      exact h v' base' _ [.load o ob] S le ⟨ob, rfl, hS⟩ hS.1

/-- `mutate` -/
theorem cwp_smutate {β : Type} {fr : OldRoots α Empty} {F : Nat} (hF : setBound α ≤ F) {Q : List (Event Empty) → β → View α Empty → Prop}
    {a : SetArg α} (ha : a.Ok) {g : IPSet α → SetI α → IPSet α} {gc : Ptr → Ptr → SProg α Ptr}
    (hg : ∀ S A : IPSet α, S.Reachable → A.Reachable → (g S (.set A)).Reachable)
    (hgc : ∀ S A : IPSet α, S.Reachable → A.Reachable → ∀ v p q W, Den v p S.trie → Den v q A.trie →
      wp False (fun x v' => Den v' x (g S (.set A)).trie) (gc p q) v W)
    {R : View α Empty → Ptr → Ptr → Ptr → Prop}
    (hroot : ∀ p q v t, Den v p t → wlp (fun x _ => R v p q x ∨ Fresh v x) (gc p q) v Nowhere)
    {late : Bool} {k : Unit → SProg α β} {o : Nat} {v base : View α Empty} {W : Nat → Prop} {n : Nat → Prop} (ho : n o)
    (hv : ∀ x ∈ a.vals, sval v x) (hr : ∀ o ∈ a.refs, n o)
    (hfr : ∀ (P : Nat → Prop) {v v' : View α Empty} {tr : List (Event Empty)} {ob : Obj Empty} {q x : Ptr}, v ≤ v' →
      .load o ob ∈ tr → R v ob.trie q x → (a.Lit = true → q = none ∨ ∃ y, q = some y ∧ P y) →
      (∃ y, x = some y ∧ P y) ∨ fr v' tr o x)
    (hk : ∀ tr v' base W, SWriteSpec o a g fr tr v' → cwp sval fr Q (k ()) v' base W n tr) :
    cwp sval fr Q (smutate F o gc a late >>= k) v base W n [] := by
  unfold smutate
  rw [Prog.bind_assoc]
  refine cwp_load ho fun v1 base1 ob1 le1 _ hb1 g1 _ => ?_
  rw [Prog.bind_assoc]
  have old : ∀ x, v1 x = none → ob1.trie ≠ some x := by
    intro x hx e
    obtain ⟨S1, d1, _⟩ := g1
    rw [e] at d1
    obtain ⟨c, _, _, hc, _⟩ := d1.some_inv
    rw [hx] at hc; cases hc
  -- what follows the mutator
  have tail : ∀ v2 base2 p q S A (ob2 : Obj Empty) (evs pre post : List (Event Empty)), sval v2 ob1 → ob2.Holds v2 S → a.Is v2 evs A →
      p = ob2.trie → Den v2 q A.trie → base2 ≤ v2 →
      (a.Lit = true → q = none ∨ ∃ y, q = some y ∧ (base2 y = none ∧ ob1.trie ≠ some y)) → ((pre = [] ∧ post = evs) ∨ (pre = evs ∧ post = [])) →
      cwp sval fr Q (gc p q >>= fun new => (if decide (ob1.trie ≠ new) then
        swap o ob1.trie new >>= fun ok => if !ok then panic else pure () else pure ()) >>= k) v2 base2 W n
        (.load o ob1 :: pre ++ .load o ob2 :: post) := by
    rintro v2 base2 p q S A ob2 evs pre post s1 h2 hA rfl dA hb2 hq hp
    have dS := h2.1
    have hAr := hA.reachable
    refine cwp_call (wp_wlp (hgc S A h2.2.1 hAr _ _ _ _ dS dA) (hroot _ _ _ _ dS)) ?_
    rintro new v3 le3 ⟨dn, hR⟩
    have hnew' : ∀ tr : List (Event Empty), .load o ob2 ∈ tr →
        (∃ y, new = some y ∧ base2 y = none ∧ ob1.trie ≠ some y) ∨ fr v3 tr o new := by
      intro tr htr
      rcases hR with hR | ⟨y, rfl, hy⟩
      · exact hfr (fun y => base2 y = none ∧ ob1.trie ≠ some y) le3 htr hR hq
      · refine Or.inl ⟨y, rfl, ?_, ?_⟩
        · cases e : base2 y with
          | none => rfl
          | some c => rw [hb2 _ _ e] at hy; cases hy
        · intro e
          obtain ⟨S1, d1, _⟩ := s1
          rw [e] at d1
          obtain ⟨c, _, _, hc, _⟩ := d1.some_inv
          rw [hy] at hc; cases hc
    have hns : ∀ o' x y, (.swap o' x y : Event Empty) ∉ .load o ob1 :: pre ++ .load o ob2 :: post := by
      intro o' x y hm
      have := hA.no_swap o' x y
      simp only [List.cons_append, List.mem_cons, List.mem_append] at hm
      rcases hp with ⟨rfl, rfl⟩ | ⟨rfl, rfl⟩ <;> rcases hm with hm | hm | hm | hm <;> first | exact this hm | cases hm
    have hnew : Obj.Holds v3 ⟨new, .nil⟩ (g S (.set A)) := ⟨dn, hg S A h2.2.1 hAr, rfl⟩
    have heq : ob1.eq = .nil := s1.choose_spec.2.2
    by_cases hc : ob1.trie = new
    · simp only [hc, ne_eq, not_true_eq_false, decide_false]
      refine hk _ _ _ _ ⟨ob1, ob2, S, A, evs, pre, post, s1.mono le3, h2.mono le3, hA.mono le3, hp, Or.inl ⟨rfl, ?_⟩⟩
      refine ⟨⟨by rw [hc]; exact dn, hnew.2.1, heq⟩, ?_⟩
      rcases hnew' [.load o ob2] (List.mem_singleton.mpr rfl) with ⟨y, h1, _, h2⟩ | h
      · exact (h2 (hc.trans h1)).elim
      · rw [hc]; exact h
    · simp only [ne_eq, hc, not_false_eq_true, decide_true, if_true]
      refine ⟨ho, ⟨ob1, by simp, rfl, ⟨g S (.set A), dn, hnew.2.1, heq⟩⟩, hns,
        (hnew' _ (by simp)).imp (fun ⟨y, h1, h2, _⟩ => ⟨y, h1, h2⟩) id, rfl, ?_⟩
      intro v4 le4
      exact hk _ _ _ _ ⟨ob1, ob2, S, A, evs, pre, post, (s1.mono le3).mono le4, (h2.mono le3).mono le4,
        (hA.mono le3).mono le4, hp, Or.inr ⟨new, rfl, Ne.symm hc, hnew.mono le4⟩⟩
  cases late with
  | true =>
    simp only [if_true]
    rw [Prog.bind_assoc]
    refine cwp_arg hF ha (fun x hx => (hv x hx).mono le1) hr ?_
    intro v2 base2 q evs A le2 hA dA hna
    rw [Prog.bind_assoc]
    refine cwp_load ho ?_
    rintro v3 base3 ob2 le3 _ hb3 ⟨S, hS⟩ _
    have := tail v3 base3 ob2.trie q S A ob2 evs evs [] ((g1.mono le2).mono le3) hS (hA.mono le3) rfl (dA.mono le3) hb3.1
      (fun hl => ((hna hb1.1).2 hl).imp id fun ⟨x, h1, h2, h3, h4⟩ => ⟨x, h1, hb3.2 x h3 h4, old x h2⟩) (Or.inr ⟨rfl, rfl⟩)
    simpa using this
  | false =>
    simp only [Bool.false_eq_true, if_false]
    rw [Prog.bind_assoc]
    refine cwp_load ho ?_
    rintro v2 base2 ob2 le2 _ hb2 ⟨S, hS⟩ _
    rw [Prog.bind_assoc]
    refine cwp_arg hF ha (fun x hx => ((hv x hx).mono le1).mono le2) hr ?_
    intro v3 base3 q evs A le3 hA dA hna
    have := tail v3 base3 ob2.trie q S A ob2 evs [] evs ((g1.mono le2).mono le3) (hS.mono le3) hA rfl dA (hna hb2.1).1
      (fun hl => ((hna hb2.1).2 hl).imp id fun ⟨x, h1, h2, h3, h4⟩ => ⟨x, h1, h4, old x ((Fresh.anti le2 ⟨x, rfl, h2⟩).elim
        fun y hy => by cases hy.1; exact hy.2)⟩) (Or.inl ⟨rfl, rfl⟩)
    simpa using this

theorem SRead.mono {r : SetRecv} {P P' : IPSet α → Prop} {tr : List (Event Empty)} {v v' : View α Empty} (le : v ≤ v')
    (h : SRead r P tr v) (hP : ∀ S, P S → P' S) : SRead r P' tr v' := by
  obtain ⟨S, h1, h2⟩ := h
  exact ⟨S, h1.mono le, hP _ h2⟩

theorem SRead2.mono {r : SetRecv} {a : SetArg α} {P P' : IPSet α → IPSet α → Prop} {tr : List (Event Empty)}
    {v v' : View α Empty} (le : v ≤ v') (h : SRead2 r a P tr v) (hP : ∀ S A, P S A → P' S A) : SRead2 r a P' tr v' := by
  obtain ⟨S, A, tr1, tr2, h1, h2, h3, h4⟩ := h
  exact ⟨S, A, tr1, tr2, h1.mono le, h2.mono le, h3, hP _ _ h4⟩

theorem IsSet.mono {x : SVal α σ} {v v' : View α Empty} (le : v ≤ v') {S : IPSet α} (h : IsSet x v S) : IsSet x v' S := by
  obtain ⟨t, h1, h2⟩ := h
  exact ⟨t, h1, h2.mono le⟩

theorem SWriteSpec.mono {o : Nat} {a : SetArg α} {f : IPSet α → SetI α → IPSet α} {fr : OldRoots α Empty}
    {tr : List (Event Empty)} {v v' : View α Empty} (hf : ∀ {tr x}, fr v tr o x → fr v' tr o x) (le : v ≤ v')
    (h : SWriteSpec o a f fr tr v) : SWriteSpec o a f fr tr v' := by
  obtain ⟨ob1, ob2, S2, A, evs, pre, post, h1, h2, h3, h4, h5⟩ := h
  refine ⟨ob1, ob2, S2, A, evs, pre, post, h1.mono le, h2.mono le, h3.mono le, h4, ?_⟩
  rcases h5 with ⟨h5, h6, h7⟩ | ⟨new, h5, h6, h7⟩
  · exact Or.inl ⟨h5, h6.mono le, hf h7⟩
  · exact Or.inr ⟨new, h5, h6, h7.mono le⟩

theorem SCall.spec_mono {c : SCall α σ} {tr : List (Event Empty)} {x : SVal α σ} {v v' : View α Empty} (le : v ≤ v')
    (h : c.spec tr x v) : c.spec tr x v' := by
  cases c with
  | new_ => exact h
  | freeze hd => exact SRead.mono le h fun _ h => h.mono le
  | thaw t => obtain ⟨o, S, h1, h2, h3⟩ := h; exact ⟨o, S, h1, h2, h3.mono le⟩
  | insert hd a l => obtain ⟨o, h1, h2, h3⟩ := h; exact ⟨o, h1, h2, SWriteSpec.mono (v := v) (fun {_ _} h => (h : a.insOlds v _ _ _)) le h3⟩
  | remove hd a l => obtain ⟨o, h1, h2, h3⟩ := h; exact ⟨o, h1, h2, h3.mono (remOlds.mono le) le⟩
  | size r => exact SRead.mono le h fun _ h => h
  | isEmpty r => exact SRead.mono le h fun _ h => h
  | contains r a => exact SRead2.mono le h fun _ _ h => h
  | equal_ hd hd' l => exact SRead2.mono le h fun _ _ h => h
  | equal t u => exact SRead2.mono le h fun _ _ h => h
  | union r a => exact SRead2.mono le h fun _ _ h => h.mono le
  | intersection r a => exact h.imp id fun h => SRead2.mono le h fun _ _ h => h.mono le
  | difference r a => exact h.imp id fun h => SRead2.mono le h fun _ _ h => h.mono le
  | walk t cb s => exact SRead.mono le h fun _ h => h
  | find t a n => exact SRead2.mono le h fun _ _ h => h

theorem sval_zero (v : View α Empty) : sval v .zero := ⟨IPSet.empty, .nil, .empty, rfl⟩

theorem IsSet.outs {x : SVal α σ} {v : View α Empty} {S : IPSet α} (h : IsSet x v S) : ∀ y ∈ x.outs, sval v y := by
  obtain ⟨t, rfl, h⟩ := h
  intro y hy
  simp only [SVal.outs, List.mem_singleton] at hy
  subst hy
  exact ⟨S, h⟩

theorem SCall.spec_outs {c : SCall α σ} {tr : List (Event Empty)} {x : SVal α σ} {v : View α Empty}
    (h : c.spec tr x v) : ∀ y ∈ x.outs, sval v y := by
  have zero : x = .set .zero → ∀ y ∈ x.outs, sval v y := by
    rintro rfl y hy
    simp only [SVal.outs, List.mem_singleton] at hy
    subst hy
    exact sval_zero v
  cases c with
  | new_ => obtain ⟨_, _, rfl⟩ := h; intro y hy; cases hy
  | freeze hd => obtain ⟨S, _, h⟩ := h; exact h.outs
  | thaw t => obtain ⟨_, _, _, rfl, _⟩ := h; intro y hy; cases hy
  | insert hd a l => obtain ⟨_, _, rfl, _⟩ := h; intro y hy; cases hy
  | remove hd a l => obtain ⟨_, _, rfl, _⟩ := h; intro y hy; cases hy
  | size r => obtain ⟨_, _, rfl⟩ := h; intro y hy; cases hy
  | isEmpty r => obtain ⟨_, _, rfl⟩ := h; intro y hy; cases hy
  | contains r a => obtain ⟨_, _, _, _, _, _, _, rfl⟩ := h; intro y hy; cases hy
  | equal_ hd hd' l => obtain ⟨_, _, _, _, _, _, _, rfl⟩ := h; intro y hy; cases hy
  | equal t u => obtain ⟨_, _, _, _, _, _, _, rfl⟩ := h; intro y hy; cases hy
  | union r a => obtain ⟨_, _, _, _, _, _, _, h⟩ := h; exact h.outs
  | intersection r a =>
    rcases h with ⟨_, _, h⟩ | h
    · exact zero h
    · obtain ⟨_, _, _, _, _, _, _, h⟩ := h; exact h.outs
  | difference r a =>
    rcases h with ⟨_, _, h⟩ | h
    · exact zero h
    · obtain ⟨_, _, _, _, _, _, _, h⟩ := h; exact h.outs
  | walk t cb s => obtain ⟨_, _, rfl⟩ := h; intro y hy; cases hy
  | find t a n => obtain ⟨_, _, _, _, _, _, _, rfl⟩ := h; intro y hy; cases hy

/-- code of a binary operation after the receiver was read -/
theorem cwp_xBin {fr : OldRoots α Empty} {F : Nat} (hF : setBound α ≤ F) {a : SetArg α} (ha : a.Ok) {g : IPSet α → SetI α → IPSet α}
    {gc : Ptr → Ptr → SProg α Ptr}
    (hg : ∀ S A : IPSet α, S.Reachable → A.Reachable → (g S (.set A)).Reachable)
    (hgc : ∀ S A : IPSet α, S.Reachable → A.Reachable → ∀ v p q W, Den v p S.trie → Den v q A.trie →
      wp False (fun x v' => Den v' x (g S (.set A)).trie) (gc p q) v W)
    {r : SetRecv} {p : Ptr} {v base : View α Empty} {W : Nat → Prop} {n : Nat → Prop} {tr : List (Event Empty)} {S : IPSet α}
    (hv : ∀ x ∈ a.vals, sval v x) (hr : ∀ o ∈ a.refs, n o) (hS : r.Is v tr S) (dS : Den v p S.trie) :
    cwp sval fr (fun tr (x : SVal α σ) v => SRead2 r a (fun S A => IsSet x v (g S (.set A))) tr v)
      (xBin F gc p a >>= fun t => pure (.set t)) v base W n tr := by
  unfold xBin
  rw [Prog.bind_assoc]
  refine cwp_arg hF ha hv hr ?_
  intro v1 base1 q evs A le1 hA dA _
  rw [Prog.bind_assoc]
  refine cwp_call (hgc S A hS.reachable hA.reachable _ _ _ _ (dS.mono le1) dA) ?_
  intro x v2 le2 d
  exact ⟨S, A, tr, evs, (hS.mono le1).mono le2, hA.mono le2, Or.inl rfl, _, rfl, d, hg S A hS.reachable hA.reachable, rfl⟩

/-- code of `Contains` after the receiver was read -/
theorem cwp_xContains {fr : OldRoots α Empty} {F : Nat} (hF : setBound α ≤ F) {a : SetArg α} (ha : a.Ok)
    {r : SetRecv} {p : Ptr} {v base : View α Empty} {W : Nat → Prop} {n : Nat → Prop} {tr : List (Event Empty)} {S : IPSet α}
    (hv : ∀ x ∈ a.vals, sval v x) (hr : ∀ o ∈ a.refs, n o) (hS : r.Is v tr S) (dS : Den v p S.trie) :
    cwp sval fr (fun tr (x : SVal α σ) v => SRead2 r a (fun S A => x = .bool (S.contains (.set A))) tr v)
      (xContains F p a >>= fun t => pure (.bool t)) v base W n tr := by
  unfold xContains
  rw [Prog.bind_assoc]
  refine cwp_arg hF ha hv hr ?_
  intro v1 base1 q evs A le1 hA dA _
  have hAr := hA.reachable
  rw [Prog.bind_assoc]
  refine cwp_call (wp_difference' hF hAr hS.reachable dA (dS.mono le1)) ?_
  intro x v2 le2 d
  rw [Prog.bind_assoc]
  refine cwp_call (wp_size' hF (.difference A S hAr hS.reachable) d) ?_
  rintro y v3 le3 rfl
  refine ⟨S, A, tr, evs, ((hS.mono le1).mono le2).mono le3, (hA.mono le2).mono le3, Or.inl rfl, ?_⟩
  rw [IPSet.isEmpty_size]
  rfl

theorem IPSet.empty_none (x : α) : ¬ Mem (IPSet.empty : IPSet α).trie x := by
  intro h; cases h

/-- the empty set contains exactly the empty sets, whichever way this is computed -/
theorem IPSet.empty_contains {A : IPSet α} (hA : A.Reachable) : (IPSet.empty : IPSet α).contains (.set A) = A.isEmpty := by
  rw [Bool.eq_iff_iff, IPSet.contains_iff (s := IPSet.empty) (o := .set A) .nil hA.inv, IPSet.isEmpty_iff hA.inv]
  constructor
  · intro h x hx; exact IPSet.empty_none _ (h x hx)
  · intro h x hx; exact (h x hx).elim

theorem IPSet.empty_equal {A : IPSet α} (hA : A.Reachable) : (IPSet.empty : IPSet α).equal A = A.isEmpty := by
  rw [Bool.eq_iff_iff, IPSet.isEmpty_iff hA.inv]
  cases e : A.trie with
  | nil =>
    constructor
    · intro _ x hx; cases hx
    · intro _
      show Trie.equal _ _ A.trie = true
      rw [e]; rfl
  | node p d s h act l r =>
    constructor
    · intro h
      have h' : Trie.equal _ _ A.trie = true := h
      rw [e] at h'
      cases h'
    · intro h
      obtain ⟨x, hx⟩ := hA.inv.exists_mem (by rw [e]; simp)
      rw [e] at hx
      exact (h x hx).elim

/-- The package satisfies its specification, whatever else runs, with a depth of recursion that depends
    only on the width of addresses. -/
theorem setLib_ok {F : Nat} (hF : setBound α ≤ F) :
    LibOk (setLib α σ F) sval sval SCall.olds SCall.spec where
  fr_mono {c _ _ _ _ _} le h := by
    cases c with
    | remove => exact remOlds.mono le h
    | _ => exact h
  good_mono h g := g.mono h
  good_dom := by
    rintro v ob p ⟨S, h, _⟩ hp
    rw [hp] at h
    obtain ⟨c, _, _, hc, _⟩ := h.some_inv
    rw [hc]; simp
  gval_zero v := sval_zero v
  spec_mono := SCall.spec_mono
  outs := SCall.spec_outs
  code := by
    intro c hpre v n hvals hrefs
    cases c with
    | new_ => exact ⟨sval_zero v, fun v' o _ _ => ⟨o, rfl, rfl⟩⟩
    | freeze hd =>
      cases hd with
      | none => exact ⟨IPSet.empty, ⟨rfl, rfl⟩, _, rfl, .nil, .empty, rfl⟩
      | some o =>
        refine cwp_load (f := fun m => pure (SVal.set ⟨m.trie, .nil⟩)) (hrefs o (by simp [setLib, SCall.refs])) ?_
        rintro v' base' ob le _ _ ⟨S, hS⟩ _
        exact ⟨S, ⟨ob, rfl, hS⟩, _, rfl, hS.1, hS.2.1, rfl⟩
    | thaw t =>
      obtain ⟨S, hS⟩ := hvals t (by simp [setLib, SCall.vals])
      exact ⟨⟨S, hS.1, hS.2.1, rfl⟩, fun v' o le _ => ⟨o, S, rfl, rfl, hS.mono le⟩⟩
    | insert hd a late =>
      obtain ⟨h1, h2⟩ := hpre
      obtain ⟨o, rfl⟩ := Option.ne_none_iff_exists'.mp h1
      refine cwp_smutate hF h2 (fun S A hS hA => .union S A hS hA) (fun S A hS hA v p q W d e => wp_union' hF hS hA d e)
        (R := fun _ p q x => x = p ∨ (x = q ∧ ∃ b, q = some b))
        (fun p q v t _ => wlp_mono (wlp_union _ _ _ _ _) fun x v' h => by
          rcases h.2 with h | h | h
          · exact Or.inl (Or.inl h)
          · exact Or.inl (Or.inr h)
          · exact Or.inr h)
        (hrefs o (by simp [setLib, SCall.refs])) (fun x hx => hvals x hx)
        (fun o ho => hrefs o (by simp [setLib, SCall.refs, ho]))
        (by
          intro P v v' tr ob q x _ hl hx hq
          rcases hx with rfl | ⟨rfl, b, hb⟩
          · exact Or.inr fun _ => ⟨ob, hl, rfl⟩
          · by_cases hlit : a.Lit = true
            · rcases hq hlit with h | h
              · rw [hb] at h; cases h
              · exact Or.inl h
            · exact Or.inr fun h => (hlit h).elim)
        ?_
      intro tr v' base W hw
      exact ⟨o, rfl, rfl, hw⟩
    | remove hd a late =>
      obtain ⟨h1, h2⟩ := hpre
      obtain ⟨o, rfl⟩ := Option.ne_none_iff_exists'.mp h1
      refine cwp_smutate hF h2 (fun S A hS hA => .difference S A hS hA) (fun S A hS hA v p q W d e => wp_difference' hF hS hA d e)
        (R := fun v p _ x => Desc v p x)
        (fun p q v t d => wlp_mono (wlp_difference _ _ _ _ _ _ (Desc.closed d) .self) fun x v' h => h.2)
        (hrefs o (by simp [setLib, SCall.refs])) (fun x hx => hvals x hx)
        (fun o ho => hrefs o (by simp [setLib, SCall.refs, ho]))
        (fun P v v' tr ob q x le hl hx _ => Or.inr ⟨ob, hl, hx.mono le⟩)
        ?_
      intro tr v' base W hw
      exact ⟨o, rfl, rfl, hw⟩
    | size r =>
      have key := cwp_recv (fr := fun _ _ _ _ => False) (r := r) (v := v) (base := v) (W := Nowhere) (n := n) (tr := [])
        (f := fun p => HeapFamily.sizeCode F p >>= fun x => pure (SVal.size (σ := σ) x))
        (Q := SCall.spec (.size r)) (fun x hx => hvals x hx) (fun o ho => hrefs o ho) (by
          intro v' base' p evs S le hS d
          refine cwp_call (wp_size' hF hS.reachable d) ?_
          rintro x v'' le' rfl
          exact ⟨S, hS.mono le', rfl⟩)
      cases r with
      | set t => exact key
      | obj o => cases o with
        | none => exact ⟨IPSet.empty, ⟨rfl, rfl⟩, rfl⟩
        | some o => exact key
    | isEmpty r =>
      have key := cwp_recv (fr := fun _ _ _ _ => False) (r := r) (v := v) (base := v) (W := Nowhere) (n := n) (tr := [])
        (f := fun p => HeapFamily.sizeCode F p >>= fun x => pure (SVal.bool (σ := σ) (HeapFamily.isZero x)))
        (Q := SCall.spec (.isEmpty r)) (fun x hx => hvals x hx) (fun o ho => hrefs o ho) (by
          intro v' base' p evs S le hS d
          refine cwp_call (wp_size' hF hS.reachable d) ?_
          rintro x v'' le' rfl
          exact ⟨S, hS.mono le', by rw [IPSet.isEmpty_size]⟩)
      show cwp _ _ _ ((sSize F r >>= fun n => pure (HeapFamily.isZero n)) >>= fun b => pure (SVal.bool b)) _ _ _ _ _
      rw [Prog.bind_assoc]
      cases r with
      | set t => exact key
      | obj o => cases o with
        | none => exact ⟨IPSet.empty, ⟨rfl, rfl⟩, congrArg SVal.bool (IPSet.isEmpty_size IPSet.empty)⟩
        | some o => exact key
    | contains r a =>
      have key := cwp_recv (fr := fun _ _ _ _ => False) (r := r) (v := v) (base := v) (W := Nowhere) (n := n) (tr := [])
        (f := fun p => xContains F p a >>= fun x => pure (SVal.bool (σ := σ) x))
        (Q := SCall.spec (.contains r a)) (fun x hx => hvals x (by simp [setLib, SCall.vals, hx]))
        (fun o ho => hrefs o (by simp [setLib, SCall.refs, ho])) (by
          intro v' base' p evs S le hS d
          exact cwp_xContains hF hpre (fun x hx => (hvals x (by simp [setLib, SCall.vals, hx])).mono le)
            (fun o ho => hrefs o (by simp [setLib, SCall.refs, ho])) hS d)
      cases r with
      | set t => exact key
      | obj o => cases o with
        | none =>
          have hne : ∀ (h : a ≠ .nil), sContains F (.obj none) a = argSet F a >>= fun x => HeapFamily.sizeCode F x >>= fun n => pure (HeapFamily.isZero n) := by
            intro h
            cases a <;> first | rfl | exact (h rfl).elim
          by_cases ha : a = .nil
          · subst ha
            refine ⟨IPSet.empty, IPSet.empty, [], [], ⟨rfl, rfl⟩, ⟨rfl, rfl⟩, Or.inl rfl, ?_⟩
            show SVal.bool true = SVal.bool (IPSet.empty.contains (.set IPSet.empty))
            rw [IPSet.empty_contains .empty, (IPSet.isEmpty_iff (s := IPSet.empty) .nil).mpr IPSet.empty_none]
          · show cwp _ _ _ (sContains F (.obj none) a >>= fun b => pure (SVal.bool b)) _ _ _ _ _
            rw [hne ha, Prog.bind_assoc]
            refine cwp_arg hF hpre (fun x hx => hvals x (by simp [setLib, SCall.vals, hx]))
              (fun o ho => hrefs o (by simp [setLib, SCall.refs, ho])) ?_
            intro v1 base1 p evs A le1 hA dA _
            rw [Prog.bind_assoc]
            refine cwp_call (wp_size' hF hA.reachable dA) ?_
            rintro x v2 le2 rfl
            refine ⟨IPSet.empty, A, [], evs, ⟨rfl, rfl⟩, hA.mono le2, Or.inl rfl, ?_⟩
            show SVal.bool _ = SVal.bool (IPSet.empty.contains (.set A))
            rw [IPSet.empty_contains hA.reachable, IPSet.isEmpty_size]
        | some o => 
          show cwp _ _ _ ((readObj o >>= fun m => xContains F m.trie a) >>= fun b => pure (SVal.bool b)) _ _ _ _ _
          rw [Prog.bind_assoc]
          exact key
    | equal_ h1 h2 late =>
      cases h1 with
      | none =>
        have key := cwp_recv (fr := fun _ _ _ _ => False) (r := .obj h2) (v := v) (base := v) (W := Nowhere) (n := n) (tr := [])
          (f := fun p => HeapFamily.sizeCode F p >>= fun x => pure (SVal.bool (σ := σ) (HeapFamily.isZero x)))
          (Q := SCall.spec (.equal_ none h2 late)) (fun x hx => by cases hx) (fun o ho => hrefs o ho) (by
            intro v' base' p evs S le hS d
            refine cwp_call (wp_size' hF hS.reachable d) ?_
            rintro x v'' le' rfl
            refine ⟨IPSet.empty, S, [], evs, ⟨rfl, rfl⟩, ?_, Or.inl rfl, ?_⟩
            · cases h2 <;> exact hS.mono le'
            · show SVal.bool _ = SVal.bool (IPSet.empty.equal S)
              rw [IPSet.isEmpty_size, IPSet.empty_equal hS.reachable])
        show cwp _ _ _ ((sSize F (.obj h2) >>= fun n => pure (HeapFamily.isZero n)) >>= fun b => pure (SVal.bool b)) _ _ _ _ _
        rw [Prog.bind_assoc]
        cases h2 with
        | none =>
          refine ⟨IPSet.empty, IPSet.empty, [], [], ⟨rfl, rfl⟩, ⟨rfl, rfl⟩, Or.inl rfl, ?_⟩
          show SVal.bool _ = SVal.bool (IPSet.empty.equal IPSet.empty)
          rw [IPSet.empty_equal .empty]
          exact congrArg SVal.bool (IPSet.isEmpty_size IPSet.empty)
        | some o => exact key
      | some o =>
        have ho : n o := hrefs o (by simp [setLib, SCall.refs])
        have hr : ∀ i ∈ (SetArg.obj h2 : SetArg α).refs, n i := fun i hi => hrefs i (by
          simp [setLib, SCall.refs, SetArg.refs] at hi ⊢; exact Or.inr hi)
        cases late with
        | true =>
          show cwp _ _ _ ((argSet F (.obj h2) >>= fun x => readObj o >>= fun m => setEqual F m.trie x) >>= fun b => pure (SVal.bool b)) _ _ _ _ _
          rw [Prog.bind_assoc]
          refine cwp_arg (a := .obj h2) hF trivial (fun x hx => by cases hx) hr ?_
          intro v1 base1 p evs A le1 hA dA _
          rw [Prog.bind_assoc]
          refine cwp_load ho ?_
          rintro v2 base2 ob le2 _ _ ⟨S, hS⟩ _
          refine cwp_call (wp_equal' hF hS.2.1 hA.reachable hS.1 (dA.mono le2)) ?_
          rintro x v3 le3 rfl
          exact ⟨S, A, [.load o ob], evs, ⟨ob, rfl, hS.mono le3⟩, (hA.mono le2).mono le3, Or.inr rfl, rfl⟩
        | false =>
          show cwp _ _ _ ((readObj o >>= fun m => argSet F (.obj h2) >>= fun x => setEqual F m.trie x) >>= fun b => pure (SVal.bool b)) _ _ _ _ _
          rw [Prog.bind_assoc]
          refine cwp_load ho ?_
          rintro v2 base2 ob le2 _ _ ⟨S, hS⟩ _
          rw [Prog.bind_assoc]
          refine cwp_arg (a := .obj h2) hF trivial (fun x hx => by cases hx) hr ?_
          intro v1 base1 p evs A le1 hA dA _
          refine cwp_call (wp_equal' hF hS.2.1 hA.reachable (hS.1.mono le1) dA) ?_
          rintro x v3 le3 rfl
          exact ⟨S, A, [.load o ob], evs, ⟨ob, rfl, (hS.mono le1).mono le3⟩, hA.mono le3, Or.inl rfl, rfl⟩
    | equal t u =>
      obtain ⟨S, hS⟩ := hvals t (by simp [setLib, SCall.vals])
      obtain ⟨A, hA⟩ := hvals u (by simp [setLib, SCall.vals])
      refine cwp_call (wp_equal' hF hS.2.1 hA.2.1 hS.1 hA.1) ?_
      rintro x v3 le3 rfl
      exact ⟨S, A, [], [], ⟨rfl, hS.mono le3⟩, ⟨rfl, hA.mono le3⟩, Or.inl rfl, rfl⟩
    | union r a =>
      have hv' : ∀ x ∈ a.vals, sval v x := fun x hx => hvals x (by simp [setLib, SCall.vals, hx])
      have hr' : ∀ o ∈ a.refs, n o := fun o ho => hrefs o (by simp [setLib, SCall.refs, ho])
      have key := cwp_recv (fr := fun _ _ _ _ => False) (r := r) (v := v) (base := v) (W := Nowhere) (n := n) (tr := [])
        (f := fun p => xBin F (Heap.union F) p a >>= fun x => pure (SVal.set (σ := σ) x))
        (Q := SCall.spec (.union r a)) (fun x hx => hvals x (by simp [setLib, SCall.vals, hx]))
        (fun o ho => hrefs o (by simp [setLib, SCall.refs, ho])) (by
          intro v' base' p evs S le hS d
          exact cwp_xBin hF hpre (fun S A hS hA => .union S A hS hA)
            (fun S A hS hA v p q W d e => wp_union' hF hS hA d e) (fun x hx => (hv' x hx).mono le) hr' hS d)
      cases r with
      | set t => exact key
      | obj o => cases o with
        | none =>
          show cwp _ _ _ ((argSet F a >>= fun p => pure ⟨p, .nil⟩) >>= fun b => pure (SVal.set b)) _ _ _ _ _
          rw [Prog.bind_assoc]
          refine cwp_arg hF hpre hv' hr' ?_
          intro v1 base1 p evs A le1 hA dA _
          refine ⟨IPSet.empty, A, [], evs, ⟨rfl, rfl⟩, hA, Or.inl rfl, _, rfl, ?_, ?_, rfl⟩
          · show Den v1 p (SetNode.union .nil A.trie)
            rw [union_nil_left]; exact dA
          · exact .union _ _ .empty hA.reachable
        | some o =>
          show cwp _ _ _ ((readObj o >>= fun m => xBin F (Heap.union F) m.trie a) >>= fun b => pure (SVal.set b)) _ _ _ _ _
          rw [Prog.bind_assoc]
          exact key
    | intersection r a =>
      have hv' : ∀ x ∈ a.vals, sval v x := fun x hx => hvals x (by simp [setLib, SCall.vals, hx])
      have hr' : ∀ o ∈ a.refs, n o := fun o ho => hrefs o (by simp [setLib, SCall.refs, ho])
      have key := cwp_recv (fr := fun _ _ _ _ => False) (r := r) (v := v) (base := v) (W := Nowhere) (n := n) (tr := [])
        (f := fun p => xBin F (Heap.intersect F) p a >>= fun x => pure (SVal.set (σ := σ) x))
        (Q := SCall.spec (.intersection r a)) (fun x hx => hvals x (by simp [setLib, SCall.vals, hx]))
        (fun o ho => hrefs o (by simp [setLib, SCall.refs, ho])) (by
          intro v' base' p evs S le hS d
          refine cwp_mono (fun _ _ _ h => Or.inr h) (fun _ h => h) (fun _ h => h) ?_
          exact cwp_xBin hF hpre (fun S A hS hA => .intersection S A hS hA)
            (fun S A hS hA v p q W d e => wp_intersect' hF hS hA d e) (fun x hx => (hv' x hx).mono le) hr' hS d)
      cases r with
      | set t => exact key
      | obj o => cases o with
        | none => exact Or.inl ⟨rfl, rfl, rfl⟩
        | some o =>
          show cwp _ _ _ ((readObj o >>= fun m => xBin F (Heap.intersect F) m.trie a) >>= fun b => pure (SVal.set b)) _ _ _ _ _
          rw [Prog.bind_assoc]
          exact key
    | difference r a =>
      have hv' : ∀ x ∈ a.vals, sval v x := fun x hx => hvals x (by simp [setLib, SCall.vals, hx])
      have hr' : ∀ o ∈ a.refs, n o := fun o ho => hrefs o (by simp [setLib, SCall.refs, ho])
      have key := cwp_recv (fr := fun _ _ _ _ => False) (r := r) (v := v) (base := v) (W := Nowhere) (n := n) (tr := [])
        (f := fun p => xBin F (Heap.difference F) p a >>= fun x => pure (SVal.set (σ := σ) x))
        (Q := SCall.spec (.difference r a)) (fun x hx => hvals x (by simp [setLib, SCall.vals, hx]))
        (fun o ho => hrefs o (by simp [setLib, SCall.refs, ho])) (by
          intro v' base' p evs S le hS d
          refine cwp_mono (fun _ _ _ h => Or.inr h) (fun _ h => h) (fun _ h => h) ?_
          exact cwp_xBin hF hpre (fun S A hS hA => .difference S A hS hA)
            (fun S A hS hA v p q W d e => wp_difference' hF hS hA d e) (fun x hx => (hv' x hx).mono le) hr' hS d)
      cases r with
      | set t => exact key
      | obj o => cases o with
        | none => exact Or.inl ⟨rfl, rfl, rfl⟩
        | some o =>
          show cwp _ _ _ ((readObj o >>= fun m => xBin F (Heap.difference F) m.trie a) >>= fun b => pure (SVal.set b)) _ _ _ _ _
          rw [Prog.bind_assoc]
          exact key
    | walk t cb s =>
      obtain ⟨S, hS⟩ := hvals t (by simp [setLib, SCall.vals])
      have hd := hS.2.1.deep
      refine cwp_call (wp_walk (by unfold setBound at hF; omega) hS.1) ?_
      rintro x v' le rfl
      exact ⟨S, ⟨rfl, hS.mono le⟩, rfl⟩
    | find t a length =>
      obtain ⟨hne, ha⟩ := hpre
      obtain ⟨S, hS⟩ := hvals t (by simp [setLib, SCall.vals])
      have e : sFind F t a length = argSet F a >>= fun x => Heap.findSmallestReserved length F t.trie x >>= fun p =>
          pure (match p with
            | none => .err
            | some p => .ok ⟨p.network.addr, length⟩) := by
        cases a <;> first | rfl | exact (hne rfl).elim
      show cwp _ _ _ (sFind F t a length >>= fun x => pure (SVal.found x)) _ _ _ _ _
      rw [e, Prog.bind_assoc]
      refine cwp_arg hF ha (fun x hx => hvals x (by simp [setLib, SCall.vals, hx]))
        (fun o ho => hrefs o (by simp [setLib, SCall.refs, ho])) ?_
      intro v1 base1 p evs A le1 hA dA _
      rw [Prog.bind_assoc]
      refine cwp_call (wp_find' hF hS.2.1 hA.reachable length (hS.1.mono le1) dA) ?_
      rintro x v2 le2 rfl
      exact ⟨S, A, [], evs, ⟨rfl, (hS.mono le1).mono le2⟩, hA.mono le2, Or.inl rfl, rfl⟩

end
end Addrs

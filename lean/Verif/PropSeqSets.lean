import Verif.PropDiffOrder
import Verif.PropSeq
import Verif.PropSetCount
/-
  Property C59: a sequential program that uses sets sees mathematical sets.
-/
set_option linter.unusedSectionVars false
set_option linter.unusedSimpArgs false
namespace Addrs
open GoWord LawfulGoWord Heap

/-- what measuring a set gives: in ipv4 `NumAddresses`, the number of its addresses; in ipv6 `IsEmpty` -/
class Measured (α : Type) extends HeapFamily α where
  Measures : (α → Prop) → HeapFamily.Size α → Prop
  measures : ∀ {S : IPSet α}, S.Reachable → Measures S.has S.size

open Classical in
/-- the number of addresses, as an int64 that is not negative -/
instance : Measured (BitVec 32) where
  Measures A n := BitVec.toNat n = (List.range (2 ^ 32)).countP (fun k => decide (A (BitVec.ofNat 32 k))) ∧ BitVec.toInt n = BitVec.toNat n
  measures h := C15_numAddresses _ h

instance : Measured U128 where
  Measures A b := b = true ↔ ∀ a, ¬ A a
  measures h := C12_isEmpty_v6 _ h

section
variable {α σ : Type} [Measured α]

/-- `L` lists the addresses of `A` as `WalkPrefixes` should: in order, without overlap, no prefix could be
    larger, no host bits. -/
structure Listing (A : α → Prop) (L : List (Prefix α)) : Prop where
  valid : ∀ p ∈ L, p.WF ∧ NoHostBits p
  sorted : L.Pairwise fun p q => ∀ x y, InPrefix p x → InPrefix q y → toNat x < toNat y
  exact : ∀ a, A a ↔ ∃ p ∈ L, InPrefix p a
  maximal : ∀ p ∈ L, ∀ P : Prefix α, P.WF → P.len < p.len → InPrefix P p.addr → ∃ a, InPrefix P a ∧ ¬ A a

/-- all addresses of `P` are in `A` -/
def Within (A : α → Prop) (P : Prefix α) : Prop := ∀ a, InPrefix P a → A a

/-- a prefix in `A` that is not contained in a larger one -/
def LargestIn (A : α → Prop) (P : Prefix α) : Prop :=
  P.WF ∧ Within A P ∧ ∀ Q : Prefix α, Q.WF → Q.len < P.len → InPrefix Q P.addr → ¬ Within A Q

/-- What `FindAvailablePrefix` should give when `A` are the free addresses: an error if no prefix of that
    length is free, otherwise the first prefix of that length of a smallest largest free block that has one. -/
def Fits (A : α → Prop) (n : Nat) (r : Out (Prefix α)) : Prop :=
  (r = .err ∧ ∀ P : Prefix α, P.WF → P.len = n → ¬ Within A P) ∨
  ∃ p B : Prefix α, r = .ok p ∧ LargestIn A B ∧ B.len ≤ n ∧ p.len = n ∧
    toNat p.addr = toNat B.addr / blockSize α B.len * blockSize α B.len ∧ ∀ B' : Prefix α, LargestIn A B' → B'.len ≤ n → B'.len ≤ B.len

instance : Inhabited (α → Prop) := ⟨fun _ => False⟩

/-- the addresses that an argument stands for -/
def SWorld.addrs (w : SWorld (α → Prop)) : SArg α → α → Prop
  | .nil => fun _ => False
  | .address a => fun x => x = a
  | .prefix p => InPrefix p
  | .range r => InRange r
  | .set t => w.val t
  | .obj h => w.var h

/-- What the program should see (`o`) and what the world should be afterwards (`w'`), if `Set_` is a variable
    that holds a set of addresses and `Set` is a set of addresses. -/
def SCmd.Explained (w : SWorld (α → Prop)) (c : SCmd α σ) (o : SSeen α σ) (w' : SWorld (α → Prop)) : Prop :=
  match c with
  | .new_ => o = .handle w.vars.length ∧ w' = w.declare fun _ => False
  | .freeze h => o = .set ∧ w' = w.got (w.var h)
  | .thaw t => o = .handle w.vars.length ∧ w' = w.declare (w.val t)
  | .insert h a _ => o = .unit ∧ w' = w.assign h fun x => w.var h x ∨ w.addrs a x
  | .remove h a _ => o = .unit ∧ w' = w.assign h fun x => w.var h x ∧ ¬ w.addrs a x
  | .size r => (∃ n, o = .size n ∧ Measured.Measures (w.recv r) n) ∧ w' = w
  | .isEmpty r => (∃ b, o = .bool b ∧ (b = true ↔ ∀ x, ¬ w.recv r x)) ∧ w' = w
  | .contains r a => (∃ b, o = .bool b ∧ (b = true ↔ ∀ x, w.addrs a x → w.recv r x)) ∧ w' = w
  | .equal_ h h' _ => (∃ b, o = .bool b ∧ (b = true ↔ ∀ x, w.var h x ↔ w.var h' x)) ∧ w' = w
  | .equal t u => (∃ b, o = .bool b ∧ (b = true ↔ ∀ x, w.val t x ↔ w.val u x)) ∧ w' = w
  | .union r a => o = .set ∧ w' = w.got fun x => w.recv r x ∨ w.addrs a x
  | .intersection r a => o = .set ∧ w' = w.got fun x => w.recv r x ∧ w.addrs a x
  | .difference r a => o = .set ∧ w' = w.got fun x => w.recv r x ∧ ¬ w.addrs a x
  | .walk t cb s => (∃ L, Listing (w.val t) L ∧ o = .walked (visit cb L s)) ∧ w' = w
  | .find t a n => (∃ r, o = .found r ∧ Fits (fun x => w.val t x ∧ ¬ w.addrs a x) n r) ∧ w' = w

/-- no prefix with host bits (C13) and no range that gives a wrong set (C08) -/
def SArg.Plain : SArg α → Prop
  | «prefix» p => NoHostBits p
  | range r => ¬ SetNode.BadRange r
  | _ => True

/-- the same for the arguments of a call; the length asked for is at most the width of addresses (C21) -/
def SCmd.Plain : SCmd α σ → Prop
  | insert _ a _ | remove _ a _ | contains _ a | union _ a | intersection _ a | difference _ a => a.Plain
  | find _ a n => a.Plain ∧ n ≤ width α
  | _ => True

/-- After `n` calls the program can have seen `h`, and the world can be `w`, if sets are mathematical sets. -/
inductive SProgram.Sees (p : SProgram α σ) : Nat → SWorld (α → Prop) → List (SSeen α σ) → Prop
  | init : Sees p 0 ⟨[], [fun _ => False]⟩ []
  | call {n : Nat} {w w' : SWorld (α → Prop)} {h : List (SSeen α σ)} {c : SCmd α σ} {o : SSeen α σ} (hs : Sees p n w h)
      (hc : p h = some c) (he : c.Explained w o w') : Sees p (n + 1) w' (h ++ [o])
  | done {n : Nat} {w : SWorld (α → Prop)} {h : List (SSeen α σ)} (hs : Sees p n w h) (hc : p h = none) : Sees p (n + 1) w h

/-- whatever the program sees, it makes only calls that are legal and plain -/
def SProgram.Proper (p : SProgram α σ) : Prop :=
  ∀ n w h c, SProgram.Sees p n w h → p h = some c → c.Legal w ∧ c.Plain

/-! ### the world of `Set`s stands for the world of sets of addresses -/

structure SWorld.Stands (w : SWorld (IPSet α)) (u : SWorld (α → Prop)) : Prop where
  vars : u.vars = w.vars.map IPSet.has
  vals : u.vals = w.vals.map IPSet.has
  tvars : ∀ S ∈ w.vars, S.Tidy
  tvals : ∀ S ∈ w.vals, S.Tidy

theorem IPSet.has_empty : (IPSet.empty : IPSet α).has = fun _ => False := by
  funext a
  exact propext ⟨fun h => C12_nil a h, False.elim⟩

namespace SWorld.Stands
variable {w : SWorld (IPSet α)} {u : SWorld (α → Prop)}

theorem var (M : w.Stands u) (h : Option Nat) : u.var h = (w.var h).has ∧ (w.var h).Tidy := by
  cases h with
  | none => exact ⟨IPSet.has_empty.symm, .empty⟩
  | some o =>
    simp only [SWorld.var, M.vars, List.getElem?_map]
    cases e : w.vars[o]? with
    | none => exact ⟨IPSet.has_empty.symm, .empty⟩
    | some S => exact ⟨rfl, M.tvars _ (List.mem_of_getElem? e)⟩

theorem val (M : w.Stands u) (t : Nat) : u.val t = (w.val t).has ∧ (w.val t).Tidy := by
  simp only [SWorld.val, M.vals, List.getElem?_map]
  cases e : w.vals[t]? with
  | none => exact ⟨IPSet.has_empty.symm, .empty⟩
  | some S => exact ⟨rfl, M.tvals _ (List.mem_of_getElem? e)⟩

theorem recv (M : w.Stands u) (r : SRecv) : u.recv r = (w.recv r).has ∧ (w.recv r).Tidy := by
  cases r with
  | obj h => exact M.var h
  | set t => exact M.val t

theorem arg (M : w.Stands u) {a : SArg α} (h1 : a.Ok) (h2 : a.Plain) : u.addrs a = (w.arg a).has ∧ (w.arg a).Tidy := by
  cases a with
  | nil => exact ⟨IPSet.has_empty.symm, .empty⟩
  | address a => exact ⟨funext fun x => propext (eq_comm.trans (C08_address a x).symm), .address a⟩
  | «prefix» p => exact ⟨funext fun x => propext (C08_prefix p h1 x).symm, .prefix p h1 h2⟩
  | range r => exact ⟨funext fun x => propext (C08_range_partial r h1 h2 x).symm, .range r h1 h2⟩
  | set t => exact M.val t
  | obj h => exact M.var h

theorem declare (M : w.Stands u) {A : α → Prop} {S : IPSet α} (h : A = S.has) (t : S.Tidy) : (w.declare S).Stands (u.declare A) where
  vars := by simp [SWorld.declare, M.vars, h]
  vals := M.vals
  tvars := fun X hX => by
    rcases List.mem_append.mp hX with hX | hX
    · exact M.tvars X hX
    · rw [List.mem_singleton.mp hX]; exact t
  tvals := M.tvals

theorem got (M : w.Stands u) {A : α → Prop} {S : IPSet α} (h : A = S.has) (t : S.Tidy) : (w.got S).Stands (u.got A) where
  vals := by simp [SWorld.got, M.vals, h]
  vars := M.vars
  tvals := fun X hX => by
    rcases List.mem_append.mp hX with hX | hX
    · exact M.tvals X hX
    · rw [List.mem_singleton.mp hX]; exact t
  tvars := M.tvars

theorem assign (M : w.Stands u) (o : Option Nat) {A : α → Prop} {S : IPSet α} (h : A = S.has) (t : S.Tidy) :
    (w.assign o S).Stands (u.assign o A) := by
  cases o with
  | none => exact M
  | some o =>
    refine ⟨?_, M.vals, ?_, M.tvals⟩
    · simp [SWorld.assign, M.vars, h, List.map_set]
    · intro X hX
      rcases List.mem_or_eq_of_mem_set hX with hX | rfl
      · exact M.tvars X hX
      · exact t

theorem legal (M : w.Stands u) {c : SCmd α σ} (h : c.Legal u) : c.Legal w := by
  have l1 : u.vars.length = w.vars.length := by rw [M.vars, List.length_map]
  have l2 : u.vals.length = w.vals.length := by rw [M.vals, List.length_map]
  have v : ∀ {h}, u.HasVar h → w.HasVar h := fun h i e => l1 ▸ h i e
  have t : ∀ {h}, u.HasVal h → w.HasVal h := fun {x} (h : x < u.vals.length) => (show x < w.vals.length from l2 ▸ h)
  have r : ∀ {x}, u.HasRecv x → w.HasRecv x := by
    intro x h; cases x with
    | obj o => exact v h
    | set s => exact t h
  have a : ∀ {x : SArg α}, u.HasArg x → w.HasArg x := by
    intro x h; cases x with
    | obj o => exact v h
    | set s => exact t h
    | _ => trivial
  cases c with
  | new_ => trivial
  | freeze _ => exact v h
  | thaw _ => exact t h
  | insert _ _ _ => exact ⟨h.1, v h.2.1, a h.2.2.1, h.2.2.2⟩
  | remove _ _ _ => exact ⟨h.1, v h.2.1, a h.2.2.1, h.2.2.2⟩
  | size _ => exact r h
  | isEmpty _ => exact r h
  | contains _ _ => exact ⟨r h.1, a h.2.1, h.2.2⟩
  | equal_ _ _ _ => exact ⟨v h.1, v h.2⟩
  | equal _ _ => exact ⟨t h.1, t h.2⟩
  | union _ _ => exact ⟨r h.1, a h.2.1, h.2.2⟩
  | intersection _ _ => exact ⟨r h.1, a h.2.1, h.2.2⟩
  | difference _ _ => exact ⟨r h.1, a h.2.1, h.2.2⟩
  | walk _ _ _ => exact t h
  | find _ _ _ => exact ⟨t h.1, a h.2.1, h.2.2⟩

end SWorld.Stands

theorem IPSet.Tidy.listing {S : IPSet α} (h : S.Tidy) : Listing S.has S.trie.prefixes := by
  have hw := h.reachable.inv.prefixes_wf
  refine ⟨fun p hp => ⟨hw p hp, h.noHostBits p hp⟩, ?_, fun a => ?_, fun p hp P hP hl ha => ?_⟩
  · refine h.reachable.inv.sorted.imp_of_mem fun {p q} hp hq h x y hx hy => ?_
    exact h x y ((inPrefix_iff (hw p hp)).mp hx) ((inPrefix_iff (hw q hq)).mp hy)
  · rw [h.reachable.has_iff, h.reachable.inv.mem_iff]
    constructor
    · rintro ⟨p, hp, h⟩; exact ⟨p, hp, (inPrefix_iff (hw p hp)).mpr h⟩
    · rintro ⟨p, hp, h⟩; exact ⟨p, hp, (inPrefix_iff (hw p hp)).mp h⟩
  · obtain ⟨x, h1, h2⟩ := h.reachable.inv.maximal p hp P hl ((inPrefix_iff hP).mp ha)
    exact ⟨x, (inPrefix_iff hP).mpr h1, fun h' => h2 (h.reachable.has_iff.mp h')⟩

/-- one call -/
theorem SCmd.explained {w : SWorld (IPSet α)} {u : SWorld (α → Prop)} (M : w.Stands u) {c : SCmd α σ} (h1 : c.Legal u) (h2 : c.Plain) :
    ∃ u', c.Explained u (c.ideal w).1 u' ∧ (c.ideal w).2.Stands u' := by
  have l1 : u.vars.length = w.vars.length := by rw [M.vars, List.length_map]
  cases c with
  | new_ => exact ⟨_, ⟨congrArg _ l1.symm, rfl⟩, M.declare IPSet.has_empty.symm .empty⟩
  | freeze h => exact ⟨_, ⟨rfl, rfl⟩, M.got (M.var h).1 (M.var h).2⟩
  | thaw t => exact ⟨_, ⟨congrArg _ l1.symm, rfl⟩, M.declare (M.val t).1 (M.val t).2⟩
  | insert h a late =>
    obtain ⟨e1, t1⟩ := M.var h
    obtain ⟨e2, t2⟩ := M.arg h1.2.2.2 h2
    refine ⟨_, ⟨rfl, rfl⟩, M.assign h ?_ (.union _ _ t1 t2)⟩
    funext x
    rw [e1, e2]
    exact propext (C09_union _ (.set _) t1.reachable t2.reachable x).symm
  | remove h a late =>
    obtain ⟨e1, t1⟩ := M.var h
    obtain ⟨e2, t2⟩ := M.arg h1.2.2.2 h2
    refine ⟨_, ⟨rfl, rfl⟩, M.assign h ?_ (.difference _ _ t1 t2)⟩
    funext x
    rw [e1, e2]
    exact propext (C11_difference _ (.set _) t1.reachable t2.reachable x).symm
  | size r =>
    obtain ⟨e1, t1⟩ := M.recv r
    refine ⟨u, ⟨⟨_, rfl, ?_⟩, rfl⟩, M⟩
    rw [e1]; exact Measured.measures t1.reachable
  | isEmpty r =>
    obtain ⟨e1, t1⟩ := M.recv r
    refine ⟨u, ⟨⟨_, rfl, ?_⟩, rfl⟩, M⟩
    rw [e1]; exact C12_isEmpty _ t1.reachable
  | contains r a =>
    obtain ⟨e1, t1⟩ := M.recv r
    obtain ⟨e2, t2⟩ := M.arg h1.2.2 h2
    refine ⟨u, ⟨⟨_, rfl, ?_⟩, rfl⟩, M⟩
    rw [e1, e2]; exact C12_contains _ (.set _) t1.reachable t2.reachable
  | equal_ h h' late =>
    obtain ⟨e1, t1⟩ := M.var h
    obtain ⟨e2, t2⟩ := M.var h'
    refine ⟨u, ⟨⟨_, rfl, ?_⟩, rfl⟩, M⟩
    rw [e1, e2]; exact C13_equal_tidy_partial _ _ t1 t2
  | equal h h' =>
    obtain ⟨e1, t1⟩ := M.val h
    obtain ⟨e2, t2⟩ := M.val h'
    refine ⟨u, ⟨⟨_, rfl, ?_⟩, rfl⟩, M⟩
    rw [e1, e2]; exact C13_equal_tidy_partial _ _ t1 t2
  | union r a =>
    obtain ⟨e1, t1⟩ := M.recv r
    obtain ⟨e2, t2⟩ := M.arg h1.2.2 h2
    refine ⟨_, ⟨rfl, rfl⟩, M.got ?_ (.union _ _ t1 t2)⟩
    funext x
    rw [e1, e2]
    exact propext (C09_union _ (.set _) t1.reachable t2.reachable x).symm
  | intersection r a =>
    obtain ⟨e1, t1⟩ := M.recv r
    obtain ⟨e2, t2⟩ := M.arg h1.2.2 h2
    refine ⟨_, ⟨rfl, rfl⟩, M.got ?_ (.intersection _ _ t1 t2)⟩
    funext x
    rw [e1, e2]
    exact propext (C10_intersection _ (.set _) t1.reachable t2.reachable x).symm
  | difference r a =>
    obtain ⟨e1, t1⟩ := M.recv r
    obtain ⟨e2, t2⟩ := M.arg h1.2.2 h2
    refine ⟨_, ⟨rfl, rfl⟩, M.got ?_ (.difference _ _ t1 t2)⟩
    funext x
    rw [e1, e2]
    exact propext (C11_difference _ (.set _) t1.reachable t2.reachable x).symm
  | walk t cb s =>
    obtain ⟨e1, t1⟩ := M.val t
    refine ⟨u, ⟨⟨_, ?_, congrArg _ (IPSet.walkPrefixes_eq ..)⟩, rfl⟩, M⟩
    rw [e1]; exact t1.listing
  | find t a n =>
    obtain ⟨e1, t1⟩ := M.val t
    obtain ⟨e2, t2⟩ := M.arg h1.2.2.1 h2.1
    refine ⟨u, ⟨⟨_, rfl, ?_⟩, rfl⟩, M⟩
    rw [e1, e2]
    exact C22_bestFit _ (.set _) n t1.reachable t2.reachable h2.2 (by simp)

theorem SProgram.sees (p : SProgram α σ) (hp : SProgram.Proper p) (n : Nat) :
    ∃ u, (SProgram.ideally p n).1.Stands u ∧ SProgram.Sees p n u (SProgram.ideally p n).2 := by
  induction n with
  | zero =>
    refine ⟨_, { vars := rfl, vals := ?_, tvars := fun S h => by simp [SProgram.ideally] at h, tvals := ?_ }, .init⟩
    · simp [SProgram.ideally, IPSet.has_empty]
    · intro S hS
      rw [List.mem_singleton.mp hS]; exact .empty
  | succ n ih =>
    obtain ⟨u, h1, h2⟩ := ih
    simp only [SProgram.ideally]
    cases hc : p (SProgram.ideally p n).2 with
    | none => exact ⟨u, h1, .done h2 hc⟩
    | some c =>
      obtain ⟨hl, hpl⟩ := hp n u _ c h2 hc
      obtain ⟨u', e1, e2⟩ := SCmd.explained h1 hl hpl
      exact ⟨u', e2, .call h2 hc e1⟩

theorem SProgram.Proper.legal {p : SProgram α σ} (hp : SProgram.Proper p) : SProgram.Legal p := by
  intro n c hc
  obtain ⟨u, h1, h2⟩ := SProgram.sees p hp n
  exact h1.legal (hp n u _ c h2 hc).1

/-- On the heap, a sequential program sees what it would see if `Set_` were a variable that holds a mathematical
    set of addresses and `Set` a mathematical set of addresses; no call panics or runs for ever. -/
theorem C59_sets {F : Nat} (hF : setBound α ≤ F) (p : SProgram α σ) (hp : SProgram.Proper p) (n : Nat) :
    ∃ r w, SProgram.onHeap F p n = some r ∧ SProgram.Sees p n w r.seen := by
  obtain ⟨r, h1, h2, _⟩ := C58_sets hF p hp.legal n
  obtain ⟨w, _, h3⟩ := SProgram.sees p hp n
  exact ⟨r, w, h1, h2 ▸ h3⟩

end
/-! ### the listing of a set of addresses is unique -/

section
variable {α : Type} [Measured α]

theorem InPrefix.turn {p q : Prefix α} (hp : p.WF) (hq : q.WF) (hl : p.len ≤ q.len) (h : InPrefix q p.addr) : InPrefix p q.addr := by
  rw [inPrefix_iff hp]
  have := (inPrefix_iff hq).mp h
  exact (Agree.mono this hl).symm

/-- There is only one such listing, so what `WalkPrefixes` does is determined by the addresses of the set. -/
theorem C59_listing_unique {A : α → Prop} {L L' : List (Prefix α)} (h : Listing A L) (h' : Listing A L') : L = L' := by
  have sub : ∀ {L L' : List (Prefix α)}, Listing A L → Listing A L' → ∀ p, p ∈ L → p ∈ L' := by
    intro L L' h h' p hp
    obtain ⟨q, hq, hin⟩ := (h'.exact p.addr).mp ((h.exact p.addr).mpr ⟨p, hp, rfl⟩)
    have wp := (h.valid p hp).1
    have wq := (h'.valid q hq).1
    have np := (h.valid p hp).2
    have nq := (h'.valid q hq).2
    have hlen : p.len = q.len := by
      rcases Nat.lt_trichotomy p.len q.len with hl | hl | hl
      · obtain ⟨a, h1, h2⟩ := h'.maximal q hq p wp hl (InPrefix.turn wp wq (by omega) hin)
        exact (h2 ((h.exact a).mpr ⟨p, hp, h1⟩)).elim
      · exact hl
      · obtain ⟨a, h1, h2⟩ := h.maximal p hp q wq hl hin
        exact (h2 ((h'.exact a).mpr ⟨q, hq, h1⟩)).elim
    have : p = q := by
      cases p with | mk pa pl => ?_
      cases q with | mk qa ql => ?_
      simp only at hlen
      subst hlen
      have e : toNat pa = toNat qa := by
        simp only [NoHostBits] at np nq
        simp only [InPrefix] at hin
        rw [← Nat.div_add_mod (toNat pa) (blockSize α pl), ← Nat.div_add_mod (toNat qa) (blockSize α pl), np, nq, hin]
      rw [toNat_inj e]
    exact this ▸ hq
  refine eq_of_sorted ?_ h.sorted h'.sorted fun p => ⟨sub h h' p, sub h' h p⟩
  intro p q h1 h2
  have a1 := h1 p.addr q.addr rfl rfl
  have a2 := h2 q.addr p.addr rfl rfl
  omega

end

/-! ### a concrete program -/
namespace Sample

/-- It fills a set, freezes it, asks for a free prefix, takes what it gets, and walks the difference. -/
def sprog2 : SProgram (BitVec 32) (List (Prefix (BitVec 32))) := fun h =>
  match h with
  | [] => some .new_
  | [_] => some (.insert (some 0) (.prefix p8) false)
  | [_, _] => some (.remove (some 0) (.range r) true)
  | [_, _, _] => some (.freeze (some 0))
  | [_, _, _, _] => some (.find 1 (.prefix p16) 24)
  -- what it does next depends on what it has seen
  | [_, _, _, _, .found (.ok p)] => if p.len ≤ 32 ∧ toNat p.addr % blockSize (BitVec 32) p.len = 0 then some (.remove (some 0) (.prefix p) false) else none
  | [_, _, _, _, _, _] => some (.difference (.set 1) (.obj (some 0)))
  | [_, _, _, _, _, _, _] => some (.walk 2 (fun p s => (s ++ [p], true)) [])
  | _ => none

theorem sprog2_proper : SProgram.Proper sprog2 := by
  -- what can have been seen after `n` calls
  have inv : ∀ n w h, SProgram.Sees sprog2 n w h →
      h.length ≤ 8 ∧ w.vars.length = min h.length 1 ∧ w.vals.length = 1 + (if 4 ≤ h.length then 1 else 0) + (if 7 ≤ h.length then 1 else 0) := by
    intro n w h hs
    induction hs with
    | init => simp
    | done hs hc ih => exact ih
    | @call n w w' h c o hs hc he ih =>
      obtain ⟨i1, i2, i3⟩ := ih
      simp only [sprog2] at hc
      split at hc <;> first
        | (cases hc; simp only [SCmd.Explained] at he; rw [he.2]; simp_all [SWorld.declare, SWorld.got, SWorld.assign]; done)
        | (split at hc <;> cases hc; simp only [SCmd.Explained] at he; rw [he.2]; simp_all [SWorld.declare, SWorld.got, SWorld.assign]; done)
        | cases hc
  intro n w h c hs hc
  obtain ⟨i1, i2, i3⟩ := inv n w h hs
  have v : w.vars.length = 1 → w.HasVar (some 0) := fun e i hi => by cases hi; omega
  simp only [sprog2] at hc
  split at hc
  · cases hc; exact ⟨trivial, trivial⟩
  · cases hc; exact ⟨⟨by simp, v i2, trivial, by show p8.WF; decide⟩, by show NoHostBits p8; unfold NoHostBits; decide⟩
  · cases hc; exact ⟨⟨by simp, v i2, trivial, r_valid⟩, r_good⟩
  · cases hc; exact ⟨v i2, trivial⟩
  · cases hc
    exact ⟨⟨by show 1 < w.vals.length; rw [i3]; simp, trivial, by show p16.WF; decide, by simp⟩, by show NoHostBits p16; unfold NoHostBits; decide, by decide⟩
  · split at hc
    · next hp => cases hc; exact ⟨⟨by simp, v i2, trivial, hp.1⟩, hp.2⟩
    · cases hc
  · cases hc; exact ⟨⟨by show 1 < w.vals.length; rw [i3]; simp, v i2, trivial⟩, trivial⟩
  · cases hc; exact ⟨by show 2 < w.vals.length; rw [i3]; simp, trivial⟩
  · cases hc

/-- it runs to its end on the heap -/
example : ∃ r w, SProgram.onHeap 170 sprog2 8 = some r ∧ SProgram.Sees sprog2 8 w r.seen :=
  C59_sets (by decide) sprog2 sprog2_proper 8

end Sample
end Addrs

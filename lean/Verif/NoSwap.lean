import Verif.Race
import Verif.TableLib
import Verif.SetLib
/-
  Calls that only read have no compare-and-swap in their code.
-/
set_option linter.unusedSectionVars false
namespace Addrs
open GoWord

namespace Prog
variable {α D β γ : Type}

/-- there is no path to a compare-and-swap -/
def NoSwap : Prog α D β → Prop
  | ret _ => True
  | panic => True
  | stuck => True
  | alloc _ k => ∀ n, NoSwap (k n)
  | read _ k => ∀ c, NoSwap (k c)
  | write _ _ k => NoSwap k
  | load _ k => ∀ ob, NoSwap (k ob)
  | cas _ _ _ _ => False
  | newObj _ k => ∀ o, NoSwap (k o)

theorem NoSwap.bind {P : Prog α D β} {f : β → Prog α D γ} (h : NoSwap P) (hf : ∀ b, NoSwap (f b)) : NoSwap (P >>= f) := by
  show NoSwap (P.bind f)
  induction P with
  | ret b => exact hf b
  | panic => trivial
  | stuck => trivial
  | alloc c k ih => exact fun n => ih n (h n)
  | read p k ih => exact fun n => ih n (h n)
  | write p c k ih => exact ih h
  | load o k ih => exact fun n => ih n (h n)
  | cas o x y k ih => exact h.elim
  | newObj ob k ih => exact fun n => ih n (h n)

theorem noSwap_pure {b : β} : NoSwap (pure b : Prog α D β) := trivial
theorem noSwap_deref {p : Ptr} : NoSwap (deref p : Prog α D (Cell α D)) := by
  cases p with
  | none => trivial
  | some q => exact fun _ => trivial
theorem noSwap_orPanic {x : Option β} : NoSwap (orPanic x : Prog α D β) := by cases x <;> trivial
theorem noSwap_new {c : Cell α D} : NoSwap (new c) := fun _ => trivial
theorem noSwap_store {p : Nat} {c : Cell α D} : NoSwap (store p c) := trivial
theorem noSwap_readObj {o : Nat} : NoSwap (readObj o : Prog α D (Obj D)) := fun _ => trivial
theorem noSwap_newObject {ob : Obj D} : NoSwap (newObject ob : Prog α D Nat) := fun _ => trivial

end Prog

open Prog

/-- takes a program apart -/
local macro "quiet" l:term,* : tactic => do
  let alts ← l.getElems.mapM fun t => `(tactic| exact $t)
  `(tactic| repeat' first
    | assumption
    | exact noSwap_pure | exact noSwap_deref | exact noSwap_orPanic | exact noSwap_new | exact noSwap_store
    | exact noSwap_readObj | exact noSwap_newObject
    $[| $alts:tactic]*
    | refine NoSwap.bind ?_ fun _ => ?_
    | split
    | trivial
    | intro _
    | dsimp only)

namespace Heap
section
variable {α D σ τ : Type}

theorem noSwap_numNodes {p : Ptr} : NoSwap (numNodes p : Prog α D Nat) := by unfold numNodes; quiet
theorem noSwap_height {p : Ptr} : NoSwap (height p : Prog α D Nat) := by unfold height; quiet

theorem noSwap_mutate {me : Nat} {f : Cell α D → Prog α D (Cell α D × τ)} (hf : ∀ c, NoSwap (f c)) : NoSwap (mutate me f) := by
  unfold mutate; quiet hf _, noSwap_numNodes, noSwap_height

variable [GoWord α]

theorem noSwap_equal {eq : Comparator D} {F : Nat} {p q : Ptr} : NoSwap (α := α) (equal eq F p q) := by
  induction F generalizing p q with
  | zero => trivial
  | succ F ih => unfold equal; quiet ih

theorem noSwap_match {k : Prefix α} {F : Nat} {p : Ptr} : NoSwap (D := D) («match» k F p) := by
  induction F generalizing p with
  | zero => trivial
  | succ F ih =>
    cases p with
    | none => trivial
    | some a => unfold «match»; quiet ih

variable [GoType D]

theorem noSwap_structEq {a b : Cell α D} : NoSwap (structEq a b) := by unfold structEq; quiet

theorem noSwap_copyMutate {me : Nat} {f : Cell α D → Prog α D (Cell α D × τ)} (hf : ∀ c, NoSwap (f c)) : NoSwap (copyMutate me f) := by
  unfold copyMutate; quiet noSwap_mutate hf, noSwap_structEq

theorem noSwap_andThen {x : Prog α D (σ × Bool)} {k : σ → Prog α D (σ × Bool)} (hx : NoSwap x) (hk : ∀ s, NoSwap (k s)) :
    NoSwap (andThen x k) := by
  unfold andThen; quiet hk _

theorem noSwap_diff {h : Handler α D σ} (h1 : ∀ c s, NoSwap (h.removed c s)) (h2 : ∀ c s, NoSwap (h.added c s))
    (h3 : ∀ c d s, NoSwap (h.modified c d s)) {F : Nat} {p q : Ptr} {s : σ} : NoSwap (diff h F p q s) := by
  induction F generalizing p q s with
  | zero => trivial
  | succ F ih =>
    unfold diff
    quiet ih, h1 _ _, h2 _ _, h3 _ _ _, noSwap_andThen (h1 _ _) fun _ => noSwap_andThen ih fun _ => ih,
      noSwap_andThen (h2 _ _) fun _ => noSwap_andThen ih fun _ => ih, noSwap_andThen (h3 _ _ _) fun _ => noSwap_andThen ih fun _ => ih,
      noSwap_andThen ih fun _ => ih

theorem noSwap_Diff {cb : Trie.DiffCallbacks α D σ} {eq : Comparator D} {F : Nat} {p q : Ptr} {s : σ} :
    NoSwap (Diff F cb eq p q s) := by
  unfold Diff
  refine noSwap_diff ?_ ?_ ?_ <;> quiet

theorem noSwap_walk {cb : Prefix α → Option D → σ → σ × Bool} {F : Nat} {p : Ptr} {s : σ} : NoSwap (walk F cb p s) := noSwap_Diff

theorem noSwap_createReturnValue {eq : Comparator D} {me : Nat} {c : Cell α D} {act : Bool} {d : Option D} {l r : Ptr} :
    NoSwap (createReturnValue eq me c act d l r) := by
  unfold createReturnValue
  quiet noSwap_copyMutate (by quiet)

theorem noSwap_childrenAggregate {eq : Comparator D} {p : Prefix α} {a b : Ptr} : NoSwap (childrenAggregate eq p a b) := by
  unfold childrenAggregate; quiet

theorem noSwap_aggregate {eq : Comparator D} {F : Nat} {u : Option (Option D)} {p : Ptr} : NoSwap (α := α) (aggregate eq F u p) := by
  induction F generalizing u p with
  | zero => trivial
  | succ F ih =>
    cases p with
    | none => trivial
    | some a => unfold aggregate; quiet ih, noSwap_childrenAggregate, noSwap_createReturnValue

theorem noSwap_map {f : Prefix α → Option D → σ → Option D × σ} {eq : Comparator D} {F : Nat} {p : Ptr} {s : σ} :
    NoSwap (map f eq F p s) := by
  induction F generalizing p s with
  | zero => trivial
  | succ F ih =>
    cases p with
    | none => trivial
    | some a => unfold map; quiet ih, noSwap_copyMutate (by quiet ih), noSwap_createReturnValue

theorem noSwap_xLongestMatch {F : Nat} {m : Obj D} {k : PrefixI α} : NoSwap (xLongestMatch F m k) := by
  unfold xLongestMatch; quiet noSwap_match
theorem noSwap_xGet [Inhabited D] {F : Nat} {m : Obj D} {k : PrefixI α} : NoSwap (xGet F m k) := by
  unfold xGet; quiet noSwap_xLongestMatch
theorem noSwap_xLongest [Inhabited D] {F : Nat} {m : Obj D} {k : PrefixI α} : NoSwap (xLongest F m k) := by
  unfold xLongest; quiet noSwap_xLongestMatch

end

section
variable {α : Type} [GoWord α]

theorem noSwap_fromPrefix {p : Prefix α} : NoSwap (fromPrefix p) := by unfold fromPrefix; quiet
theorem noSwap_flatten {c : Cell α Empty} : NoSwap (flatten c) := by unfold flatten; quiet
theorem noSwap_newFlat {p : Prefix α} {l r : Ptr} : NoSwap (newFlat p l r) := by
  unfold newFlat
  quiet noSwap_mutate fun _ => NoSwap.bind noSwap_flatten fun _ => trivial

theorem noSwap_union {F : Nat} {p q : Ptr} : NoSwap (α := α) (union F p q) := by
  induction F generalizing p q with
  | zero => trivial
  | succ F ih => unfold union; quiet ih, noSwap_newFlat

theorem noSwap_fromRange {F : Nat} {r : Range α} : NoSwap (fromRange F r) := by
  induction F generalizing r with
  | zero => trivial
  | succ F ih => unfold fromRange; quiet ih, noSwap_fromPrefix, noSwap_union

theorem noSwap_difference {F : Nat} {p q : Ptr} : NoSwap (α := α) (difference F p q) := by
  induction F generalizing p q with
  | zero => trivial
  | succ F ih => unfold difference; quiet ih, noSwap_fromPrefix, noSwap_union

theorem noSwap_intersect {F : Nat} {p q : Ptr} : NoSwap (α := α) (intersect F p q) := by
  induction F generalizing p q with
  | zero => trivial
  | succ F ih => unfold intersect; quiet ih, noSwap_union

theorem noSwap_numAddresses {F : Nat} {p : Ptr} : NoSwap (numAddresses F p) := by
  induction F generalizing p with
  | zero => trivial
  | succ F ih =>
    cases p with
    | none => trivial
    | some a => unfold numAddresses; quiet ih

theorem noSwap_isEmpty {F : Nat} {p : Ptr} : NoSwap (α := α) (isEmpty F p) := by
  induction F generalizing p with
  | zero => trivial
  | succ F ih =>
    cases p with
    | none => trivial
    | some a => unfold isEmpty; quiet ih

theorem noSwap_best {l r : SProg α (Option (Prefix α))} {n : Nat} (hl : NoSwap l) (hr : NoSwap r) : NoSwap (best l r n) := by
  unfold best; quiet

theorem noSwap_findSmallest {n F : Nat} {p : Ptr} : NoSwap (α := α) (findSmallest n F p) := by
  induction F generalizing p with
  | zero => trivial
  | succ F ih =>
    cases p with
    | none => trivial
    | some a => unfold findSmallest; quiet noSwap_best ih ih

theorem noSwap_findSmallestReserved {n F : Nat} {p q : Ptr} : NoSwap (α := α) (findSmallestReserved n F p q) := by
  induction F generalizing p q with
  | zero => trivial
  | succ F ih =>
    cases p with
    | none => trivial
    | some a => unfold findSmallestReserved; quiet noSwap_best ih ih, noSwap_best noSwap_findSmallest ih, noSwap_findSmallest, noSwap_fromPrefix, ih

end
end Heap

/-- the code that measures a set swaps no root -/
class QuietFamily (α : Type) extends HeapFamily α where
  quiet : ∀ {F : Nat} {p : Ptr}, NoSwap (HeapFamily.sizeCode (α := α) F p)

instance : QuietFamily (BitVec 32) where
  quiet := Heap.noSwap_numAddresses
instance : QuietFamily U128 where
  quiet := Heap.noSwap_isEmpty

namespace Heap
variable {α : Type} [QuietFamily α]

theorem noSwap_argSet {F : Nat} {a : SetArg α} : NoSwap (argSet F a) := by
  unfold argSet; quiet noSwap_fromPrefix, noSwap_fromRange
theorem noSwap_sSize {F : Nat} {r : SetRecv} : NoSwap (sSize (α := α) F r) := by
  unfold sSize; quiet QuietFamily.quiet
theorem noSwap_xContains {F : Nat} {t : Ptr} {a : SetArg α} : NoSwap (xContains F t a) := by
  unfold xContains; quiet QuietFamily.quiet, noSwap_argSet, noSwap_difference
theorem noSwap_xBin {F : Nat} {f : Ptr → Ptr → SProg α Ptr} (hf : ∀ p q, NoSwap (f p q)) {t : Ptr} {a : SetArg α} : NoSwap (xBin F f t a) := by
  unfold xBin; quiet hf _ _, noSwap_argSet
theorem noSwap_sBin {F : Nat} {f : Ptr → Ptr → SProg α Ptr} (hf : ∀ p q, NoSwap (f p q)) {r : SetRecv} {a : SetArg α} : NoSwap (sBin F f r a) := by
  unfold sBin; quiet noSwap_xBin hf

end Heap

section
open Heap
variable {α D σ : Type}

/-- the methods of `Table_` that change it -/
def TCall.writes : TCall α D σ → Bool
  | op _ o => o.writes
  | _ => false

/-- the methods of `Set_` that change it -/
def SCall.writes : SCall α σ → Bool
  | insert _ _ _ | remove _ _ _ => true
  | _ => false

theorem TCall.noSwap [GoWord α] [GoType D] [Inhabited D] {F : Nat} (c : TCall α D σ) (h : c.writes = false) : NoSwap (c.code F) := by
  cases c with
  | op h o =>
    cases o with
    | get k => unfold TCall.code opCode tGet; quiet noSwap_xGet
    | _ => cases h
  | longest h k => unfold TCall.code tLongest; quiet noSwap_xLongest
  | num h => unfold TCall.code tNumEntries xNumEntries; quiet noSwap_numNodes
  | freeze h => unfold TCall.code tFreeze; quiet
  | thaw t => unfold TCall.code xThaw; quiet
  | xget t k => unfold TCall.code; quiet noSwap_xGet
  | xlongest t k => unfold TCall.code; quiet noSwap_xLongest
  | xnum t => unfold TCall.code xNumEntries; quiet noSwap_numNodes
  | walk t cb s => unfold TCall.code xWalk; quiet noSwap_walk
  | diff t u cb s => unfold TCall.code xDiff; quiet noSwap_Diff
  | map t f s => unfold TCall.code xMap; quiet noSwap_map
  | aggregate t => unfold TCall.code xAggregate; quiet noSwap_aggregate
  | _ => unfold TCall.code; quiet

theorem SCall.noSwap [QuietFamily α] {F : Nat} (c : SCall α σ) (h : c.writes = false) : NoSwap (c.code F) := by
  cases c with
  | insert h a late => cases h
  | remove h a late => cases h
  | freeze h => unfold SCall.code sFreeze; quiet
  | thaw t => unfold SCall.code sThaw; quiet
  | size r => unfold SCall.code; quiet noSwap_sSize
  | isEmpty r => unfold SCall.code sIsEmpty; quiet noSwap_sSize
  | contains r a => unfold SCall.code sContains; quiet noSwap_xContains, noSwap_argSet, QuietFamily.quiet
  | equal_ h h' late => unfold SCall.code sEqual_ sIsEmpty setEqual; quiet noSwap_sSize, noSwap_argSet, noSwap_equal
  | equal t u => unfold SCall.code setEqual; quiet noSwap_equal
  | union r a => unfold SCall.code sUnion; quiet noSwap_argSet, noSwap_xBin fun _ _ => noSwap_union
  | intersection r a => unfold SCall.code; quiet noSwap_sBin fun _ _ => noSwap_intersect
  | difference r a => unfold SCall.code; quiet noSwap_sBin fun _ _ => noSwap_difference
  | walk t cb s => unfold SCall.code; quiet noSwap_walk
  | find t a length => unfold SCall.code sFind; quiet noSwap_argSet, noSwap_findSmallestReserved
  | _ => unfold SCall.code; quiet

end

/-! ### Executions -/

section
variable {α D : Type} {L : Lib α D}

/-- the code of a thread whose call does not write has no swap -/
theorem Trace.quiet {T : History L.Call L.Val} {s : State L} (h : Trace T s) {w : L.Call → Bool}
    (hw : ∀ c, w c = false → NoSwap (L.code c)) :
    (∀ i P, s.threads[i]? = some (some P) → ∃ c, (∃ p, StepAt T p i (.start c)) ∧ (w c = false → NoSwap P)) ∧
    ∀ p i o ok, StepAt T p i (.cas o ok) → ∃ c q, StepAt T q i (.start c) ∧ w c = true := by
  induction h with
  | init => exact ⟨by simp [State.init], by simp [StepAt]⟩
  | @spawn T s c hT _ ih =>
    obtain ⟨ih1, ih2⟩ := ih
    refine ⟨?_, ?_⟩
    · intro i P hP
      simp only [State.spawn] at hP
      rcases Nat.lt_trichotomy i s.threads.length with h | h | h
      · rw [List.getElem?_append_left h] at hP
        obtain ⟨c', ⟨p, h1⟩, h2⟩ := ih1 i P hP
        exact ⟨c', ⟨p, stepAt_snoc.mpr (Or.inl h1)⟩, h2⟩
      · subst h
        simp at hP
        subst hP
        exact ⟨c, ⟨_, stepAt_snoc.mpr (Or.inr ⟨rfl, rfl, rfl⟩)⟩, hw c⟩
      · rw [List.getElem?_eq_none (by simp; omega)] at hP; cases hP
    · intro p i o ok hp
      rcases stepAt_snoc.mp hp with hp | ⟨_, _, hp⟩
      · obtain ⟨c', q, h1, h2⟩ := ih2 p i o ok hp
        exact ⟨c', q, stepAt_snoc.mpr (Or.inl h1), h2⟩
      · cases hp
  | @act T s s' i P x hT hi hx ha ih =>
    obtain ⟨ih1, ih2⟩ := ih
    obtain ⟨c, ⟨p0, hp0⟩, hq⟩ := ih1 i P hi
    refine ⟨?_, ?_⟩
    · have key : ∀ P', s'.threads = s.threads.set i P' → (∀ P1, P' = some P1 → NoSwap P → NoSwap P1) →
          ∀ j R, s'.threads[j]? = some (some R) → ∃ c, (∃ p, StepAt (T ++ [(i, x)]) p j (.start c)) ∧ (w c = false → NoSwap R) := by
        intro P' hthr hP' j R hR
        rw [hthr] at hR
        by_cases e : j = i
        · subst e
          rw [List.getElem?_set_self (List.getElem?_eq_some_iff.mp hi).1] at hR
          exact ⟨c, ⟨p0, stepAt_snoc.mpr (Or.inl hp0)⟩, fun h => hP' R (Option.some.inj hR) (hq h)⟩
        · rw [List.getElem?_set_ne (Ne.symm e)] at hR
          obtain ⟨c', ⟨p, h1⟩, h2⟩ := ih1 j R hR
          exact ⟨c', ⟨p, stepAt_snoc.mpr (Or.inl h1)⟩, h2⟩
      cases P with
      | ret v => injection ha with ha; subst ha; exact key none rfl (by simp)
      | panic => cases ha
      | stuck => cases ha
      | alloc d k => injection ha with ha; subst ha; exact key _ rfl (by rintro _ ⟨⟩ h; exact h _)
      | read p k =>
        simp only [State.actP] at ha
        split at ha <;> (injection ha with ha; subst ha)
        · exact key _ rfl (by rintro _ ⟨⟩ h; exact h _)
        · exact key _ rfl (by rintro _ ⟨⟩ h; trivial)
      | write p d k =>
        simp only [State.actP] at ha
        split at ha <;> (injection ha with ha; subst ha)
        · exact key _ rfl (by rintro _ ⟨⟩ h; exact h)
        · exact key _ rfl (by rintro _ ⟨⟩ h; trivial)
      | load o k =>
        simp only [State.actP] at ha
        split at ha <;> (injection ha with ha; subst ha)
        · exact key _ rfl (by rintro _ ⟨⟩ h; exact h _)
        · exact key _ rfl (by rintro _ ⟨⟩ h; trivial)
      | cas o old new k =>
        simp only [State.actP] at ha
        split at ha
        · split at ha <;> (injection ha with ha; subst ha)
          · exact key _ rfl (by rintro _ ⟨⟩ h; exact h.elim)
          · exact key _ rfl (by rintro _ ⟨⟩ h; exact h.elim)
        · injection ha with ha; subst ha
          exact key _ rfl (by rintro _ ⟨⟩ h; exact h.elim)
      | newObj ob k => injection ha with ha; subst ha; exact key _ rfl (by rintro _ ⟨⟩ h; exact h _)
    · intro p j o ok hp
      rcases stepAt_snoc.mp hp with hp1 | ⟨_, rfl, hp1⟩
      · obtain ⟨c', q, h1, h2⟩ := ih2 p j o ok hp1
        exact ⟨c', q, stepAt_snoc.mpr (Or.inl h1), h2⟩
      · refine ⟨c, p0, stepAt_snoc.mpr (Or.inl hp0), ?_⟩
        cases hc : w c with
        | true => rfl
        | false =>
          have := hq hc
          cases P with
          | cas o' old new k => exact this.elim
          | ret v => subst hp1; cases hx
          | panic => cases hx
          | stuck => cases hx
          | alloc d k => subst hp1; cases hx
          | read p k => subst hp1; cases hx
          | write p d k => subst hp1; cases hx
          | load o' k => subst hp1; cases hx
          | newObj ob k => subst hp1; cases hx

/-- if calls that write do not overlap with others on the same object, their accesses do not -/
theorem SInv.alone {T : History L.Call L.Val} {s : State L} (hs : SInv T s) (h : Trace T s) {al : Bool} {S : Nat → Nat → Prop}
    {w : L.Call → Bool} (hw : ∀ c, w c = false → NoSwap (L.code c)) (ho : HandedOver al T S) (ha : WritersAlone w al T S) :
    WritesAlone al T S := by
  intro p q i j o ok y hij hp hq hy hm
  obtain ⟨c, p0, hc, hwc⟩ := (h.quiet hw).2 p i o ok hp
  have hmade : ∀ {a b : Nat} {m w' : Nat} {c' : L.Call}, StepAt T m a (.made o) → StepAt T w' b (.start c') → o ∈ L.refs c' →
      NoOverlap al T S a b := by
    intro a b m w' c' h1 h2 h3
    obtain ⟨m', p', i', v, h4, h5, h6⟩ := (ho w' b c' h2).2 o h3
    have := hs.made_uniq _ _ _ _ _ h4 h1
    subst this
    obtain ⟨rfl, _⟩ := h4.uniq h1
    exact ⟨p', w', v, c', h6, Or.inl ⟨h5, h2⟩⟩
  rcases (hs.roots p i _ o hp rfl).2 with ⟨w1, c1, h1, h2⟩ | ⟨m1, h1⟩
  · have e1 : c1 = c := by
      have := hs.first w1 i c1 h1 p0 _ hc
      have := hs.first p0 i c hc w1 _ h1
      have e : w1 = p0 := by omega
      subst e
      exact Access.start.inj (h1.uniq hc).2
    subst e1
    rcases (hs.roots q j y o hq hy).2 with ⟨w2, c2, h3, h4⟩ | ⟨m2, h3⟩
    · exact ha _ _ _ _ _ _ o hij h1 h3 h2 h4 hwc
    · obtain ⟨p', q', v, c', h5, h6⟩ := hmade h3 h1 h2
      exact ⟨p', q', v, c', h5, h6.symm⟩
  · rcases (hs.roots q j y o hq hy).2 with ⟨w2, c2, h3, h4⟩ | ⟨m2, h3⟩
    · exact hmade h1 h3 h4
    · have := hs.made_uniq _ _ _ _ _ h1 h3
      subst this
      exact (hij (h1.uniq h3).1).elim

end
end Addrs

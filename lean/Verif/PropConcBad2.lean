import Verif.PropConcSteady2
import Verif.PropConcBad
/-
  C36 for sets that always have a member in each half of the address space (`C36_set_halves_partial`): that theorem asks
  that `Insert` be called only with addresses, prefixes and ranges.  Here is an execution that shows that this is needed:
  `Insert` of a `Set` that was taken from the same `Set_` before stores the node of that `Set` as the root again, and an
  overlapping `Remove` that has seen that root twice does not notice what happened in between.
-/
set_option linter.unusedSectionVars false
namespace Addrs
open GoWord LawfulGoWord
namespace SetAba
open Bad (SL)

/-- 0.0.0.0/0 -/
def whole : SetArg (BitVec 32) := .prefix ⟨0#32, 0⟩
/-- 64.0.0.0/3 -/
def rx : SetArg (BitVec 32) := .prefix ⟨0x40000000#32, 3⟩
/-- 96.0.0.0/3 -/
def ry : SetArg (BitVec 32) := .prefix ⟨0x60000000#32, 3⟩
/-- the `Set` that `Set()` returns while the set has all addresses -/
def snap : Obj Empty := ⟨some 0, .nil⟩

/-- all addresses are inserted into a new set, and `Set()` is called -/
def run1 : List (Sched SL) :=
  [.call .new_, .finish 0, .call (.insert (some 0) whole false), .finish 1, .call (.freeze (some 0)), .finish 2]
/-- `Remove(rx)` has read the root once when `Remove(ry)` begins and returns; then it reads the root again; then the
    `Set` is inserted; then `Remove(rx)` goes on, and returns. -/
def run2 : List (Sched SL) :=
  [.call (.remove (some 0) rx false), .step 3, .call (.remove (some 0) ry false), .finish 4, .step 3,
   .call (.insert (some 0) (.set snap) false), .finish 5, .finish 3, .call (.contains (.obj (some 0)) ry), .finish 6]

def log1 : List (Entry Empty SL.Call SL.Val) :=
  [.start 0 .new_, .act 0 (.made 0 ⟨none, .nil⟩), .done 0 (.handle 0),
   .start 1 (.insert (some 0) whole false), .act 1 (.load 0 ⟨none, .nil⟩), .act 1 (.load 0 ⟨none, .nil⟩),
   .act 1 (.swap 0 none (some 0)), .done 1 .unit,
   .start 2 (.freeze (some 0)), .act 2 (.load 0 snap), .done 2 (.set snap)]
def log2 : List (Entry Empty SL.Call SL.Val) :=
  [.start 3 (.remove (some 0) rx false), .act 3 (.load 0 snap),
   .start 4 (.remove (some 0) ry false), .act 4 (.load 0 snap), .act 4 (.load 0 snap),
   .act 4 (.swap 0 (some 0) (some 9)), .done 4 .unit, .act 3 (.load 0 ⟨some 9, .nil⟩),
   .start 5 (.insert (some 0) (.set snap) false), .act 5 (.load 0 ⟨some 9, .nil⟩), .act 5 (.load 0 ⟨some 9, .nil⟩),
   .act 5 (.swap 0 (some 9) (some 0)), .done 5 .unit,
   .act 3 (.swap 0 (some 0) (some 11)), .done 3 .unit,
   .start 6 (.contains (.obj (some 0)) ry), .act 6 (.load 0 ⟨some 11, .nil⟩), .done 6 (.bool false)]

set_option maxRecDepth 100000 in
theorem run1_ok : (exec State.init run1).isSome := rfl
/-- the state after `run1` -/
def s1 : State SL := final run1 run1_ok
set_option maxRecDepth 100000 in
theorem s1_log : s1.log = log1 := rfl
set_option maxRecDepth 100000 in
theorem run2_ok : (exec s1 run2).isSome := rfl
/-- the state after `run1` and `run2` -/
def s2 : State SL := after s1 run2 run2_ok
set_option maxRecDepth 100000 in
theorem s2_log : s2.log = log1 ++ log2 := rfl

theorem s1_reach : s1.Reach := by
  refine final_reach run1_ok ?_
  intro c hc
  simp only [run1, List.mem_cons, reduceCtorEq, List.not_mem_nil, or_false, false_or] at hc
  rcases hc with h | h | h <;> cases h
  · exact ⟨trivial, rfl⟩
  · exact ⟨⟨by simp, by show (Prefix.WF _); decide⟩, rfl⟩
  · exact ⟨trivial, rfl⟩

theorem snap_known : s1.Known snap := Or.inr ⟨2, .set snap, by rw [s1_log]; simp [log1], List.mem_singleton_self _⟩

theorem s2_reach : s2.Reach := by
  refine s1_reach.steps (after_steps run2_ok ?_)
  have hx : ∀ x ∈ [snap], s1.Known x := by intro x hx; cases List.mem_singleton.mp hx; exact snap_known
  have no : ∀ x ∈ ([] : List (Obj Empty)), s1.Known x := by intro x hx; cases hx
  intro c hc
  simp only [run2, List.mem_cons, reduceCtorEq, List.not_mem_nil, or_false, false_or] at hc
  rcases hc with h | h | h | h <;> cases h
  · exact ⟨⟨by simp, by show (Prefix.WF _); decide⟩, no⟩
  · exact ⟨⟨by simp, by show (Prefix.WF _); decide⟩, no⟩
  · exact ⟨⟨by simp, trivial⟩, hx⟩
  · exact ⟨by show (Prefix.WF _); decide, no⟩

/-- the node that holds all addresses -/
def all : SetNode (BitVec 32) := .node ⟨0#32, 0⟩ none 1 1 true .nil .nil

set_option maxRecDepth 100000 in
theorem snap_den : Den s2.mem snap.trie all :=
  .node (c := ⟨⟨0#32, 0⟩, none, 1, 1, true, none, none⟩) rfl .nil .nil

theorem snap_has {S : IPSet (BitVec 32)} (h : snap.Holds s2.mem S) (x : BitVec 32) : S.has x := by
  rw [h.2.1.has_iff, h.1.functional snap_den]
  exact .inl ⟨rfl, fun i hi => absurd hi (by show ¬ i < 0; omega)⟩

theorem start_cases {b i : Nat} {c : SL.Call} (h : s2.log[b]? = some (.start i c)) :
    (i = 0 ∧ c = .new_) ∨ (i = 1 ∧ c = .insert (some 0) whole false) ∨ (i = 2 ∧ c = .freeze (some 0)) ∨
      (i = 3 ∧ c = .remove (some 0) rx false) ∨ (i = 4 ∧ c = .remove (some 0) ry false) ∨
      (i = 5 ∧ c = .insert (some 0) (.set snap) false) ∨ (i = 6 ∧ c = .contains (.obj (some 0)) ry) := by
  have h := List.mem_of_getElem? h
  rw [s2_log] at h
  simp only [log1, log2, List.mem_append, List.mem_cons, reduceCtorEq, List.not_mem_nil, or_false, false_or] at h
  rcases h with (h | h | h) | h | h | h | h <;> cases h <;>
    repeat (first | exact ⟨rfl, rfl⟩ | exact Or.inl ⟨rfl, rfl⟩ | apply Or.inr)

theorem has_prefix {v : View (BitVec 32) Empty} {p : Prefix (BitVec 32)} (hp : p.WF) {tr : List (Event Empty)}
    {B : BitVec 32 → Prop} (h : SetArg.Has v (.prefix p) tr B) (y : BitVec 32) : B y ↔ InPrefix p y := by
  obtain ⟨evs, A, _, ⟨_, rfl, _⟩, _, rfl⟩ := h
  exact C08_prefix p hp y

theorem not_atomic : ¬ SetAtomic s2 0 := by
  rintro ⟨order, ob0, ob, m0, m', mk, hnd, hall, hin, hrt, hmade, habs, _, _, hrun⟩
  have in4 : 4 ∈ order := hall 4 (.remove (some 0) ry false) .unit _
    (by rw [s2_log]; simp [log1, log2]) (by rw [s2_log]; simp [log1, log2]) rfl
  have in5 : 5 ∈ order := hall 5 (.insert (some 0) (.set snap) false) .unit _
    (by rw [s2_log]; simp [log1, log2]) (by rw [s2_log]; simp [log1, log2]) rfl
  have in6 : 6 ∈ order := hall 6 (.contains (.obj (some 0)) ry) (.bool false) _
    (by rw [s2_log]; simp [log1, log2]) (by rw [s2_log]; simp [log1, log2]) rfl
  have prec45 : Precedes s2.log 4 5 := ⟨17, 19, .unit, .insert (some 0) (.set snap) false, by decide, by rw [s2_log]; rfl,
    by rw [s2_log]; rfl⟩
  have prec56 : Precedes s2.log 5 6 := ⟨23, 26, .unit, .contains (.obj (some 0)) ry, by decide, by rw [s2_log]; rfl,
    by rw [s2_log]; rfl⟩
  have key : ∀ {a b : BitVec 32 → Prop} {is : List Nat}, SeqRun SCall.eff s2 a is b → is.Nodup →
      is.Pairwise (fun i j => ¬ Precedes s2.log j i) →
      (5 ∈ is → ∀ y, InPrefix ⟨0x60000000#32, 3⟩ y → b y) ∧ (6 ∈ is → 5 ∉ is) := by
    intro a b is hr
    induction hr with
    | nil => intro _ _; simp
    | snoc b b' is i c z v hrun hs he hd ih =>
      intro hn hp
      rw [List.nodup_append] at hn
      rw [List.pairwise_append] at hp
      obtain ⟨h1, h2⟩ := ih hn.1 hp.1
      have hpr : ∀ j ∈ is, ¬ Precedes s2.log i j := fun j hj => hp.2.2 j hj i (by simp)
      obtain ⟨k, hk⟩ := List.mem_iff_getElem?.mp hs
      rcases start_cases hk with ⟨rfl, rfl⟩ | ⟨rfl, rfl⟩ | ⟨rfl, rfl⟩ | ⟨rfl, rfl⟩ | ⟨rfl, rfl⟩ | ⟨rfl, rfl⟩ | ⟨rfl, rfl⟩
      · exact he.elim
      · -- Insert(whole)
        obtain ⟨B, hB, _, rfl⟩ := he
        exact ⟨fun h y hy => .inl (h1 (by simpa using h) y hy), fun h => by have := h2 (by simpa using h); simp [this]⟩
      · -- Set()
        obtain ⟨_, rfl⟩ := he
        exact ⟨fun h y hy => h1 (by simpa using h) y hy, fun h => by have := h2 (by simpa using h); simp [this]⟩
      · -- Remove(rx)
        obtain ⟨B, hB, _, rfl⟩ := he
        refine ⟨fun h y hy => ⟨h1 (by simpa using h) y hy, fun hb => ?_⟩,
          fun h => by have := h2 (by simpa using h); simp [this]⟩
        have e := (has_prefix (by decide) hB y).mp hb
        unfold InPrefix at hy e
        revert e; rw [← show _ = toNat y / blockSize (BitVec 32) 3 from hy]; decide
      · -- Remove(ry)
        have h5 : 5 ∉ is := fun h => hpr 5 h prec45
        exact ⟨fun h => by simp [h5] at h, fun _ => by simp [h5]⟩
      · -- Insert(snap)
        obtain ⟨B, ⟨evs, A, _, hA, _, rfl⟩, _, rfl⟩ := he
        obtain ⟨_, rfl⟩ := hd .unit (by rw [s2_log]; simp [log1, log2])
        refine ⟨fun _ y _ => .inr (snap_has hA.2 y), fun h => ?_⟩
        have : 6 ∈ is := by simpa using h
        exact (hpr 6 this prec56).elim
      · -- Contains(ry)
        obtain ⟨⟨B, b, hB, rfl, hb⟩, rfl⟩ := he
        have hz := (hd (.bool false) (by rw [s2_log]; simp [log1, log2])).1
        cases hz
        have h5 : 5 ∉ is := fun h =>
          Bool.false_ne_true (hb.mpr fun y hy => h1 h y ((has_prefix (by decide) hB y).mp hy))
        exact ⟨fun h => by simp [h5] at h, fun _ => by simp [h5]⟩
  exact (key hrun hnd hrt).2 in6 in5

end SetAba

/-- The condition on the arguments of `Insert` in `C36_set_halves_partial` is needed: an execution in which every other
    hypothesis of that theorem holds (since `t`, when no write was in progress, a member in the lower half of the
    addresses and one in the upper half have never been removed), nothing panics, and yet an `Insert` that returned
    before `Contains(96.0.0.0/3)` was called has been forgotten: `Insert` was given a `Set` made by `Set()`. -/
theorem C36_set_halves_needs_plain : ∃ s : SState (BitVec 32) Unit 170, s.Reach ∧ ∃ (o t : Nat) (ob : Obj Empty)
    (S : IPSet (BitVec 32)) (x y : BitVec 32), toNat x < 2 ^ (width (BitVec 32) - 1) ∧
    2 ^ (width (BitVec 32) - 1) ≤ toNat y ∧ Quiet SCall.role s.log o t ∧ DisciplinedUntil SCall.role s.log o t ∧
    objAt s.log t o = some ob ∧ ob.Holds s.mem S ∧ S.has x ∧ S.has y ∧
    (∀ b i c arg A, t ≤ b → s.log[b]? = some (.start i c) → c.Removes o arg →
      arg.During s b s.log.length A → ¬ A.has x ∧ ¬ A.has y) ∧
    (∀ i o q, .fail i o q ∉ s.log) ∧ ¬ SetAtomic s o := by
  have h1 : objAt SetAba.s2.log 8 0 = some SetAba.snap := by rw [SetAba.s2_log]; rfl
  obtain ⟨S, hS⟩ := set_at (by decide) SetAba.s2_reach h1
  refine ⟨SetAba.s2, SetAba.s2_reach, 0, 8, SetAba.snap, S, 0x00000001#32, 0x81000001#32, by decide, by decide, ?_, ?_,
    h1, hS, SetAba.snap_has hS _, SetAba.snap_has hS _, ?_, ?_, SetAba.not_atomic⟩
  · intro i c κ h hr
    rw [SetAba.s2_log] at h ⊢
    simp only [SetAba.log1, SetAba.log2, List.cons_append, List.nil_append, List.take, List.mem_cons, reduceCtorEq,
      List.not_mem_nil, or_false, false_or] at h
    rcases h with h | h <;> cases h
    · cases hr
    · exact Or.inl ⟨.unit, by simp [SetAba.log1]⟩
  · intro i j ci cj κ k p l ob x y e hji hk hkp hpl g1 g2 g3 hsi hsj hr
    exfalso
    rw [SetAba.s2_log] at g1 g2
    unfold At at g1 g2
    have a1 : .act i (.load 0 ob) ∈ (SetAba.log1 ++ SetAba.log2).take 8 :=
      List.mem_of_getElem? (i := k) (by rw [List.getElem?_take_of_lt hk]; exact g1)
    simp [SetAba.log1, SetAba.log2] at a1
    have hi1 : i = 1 := a1.1
    subst hi1
    have hl : l < 8 := by
      apply Nat.lt_of_not_le
      intro hl
      have : .act 1 e ∈ (SetAba.log1 ++ SetAba.log2).drop 8 := by
        refine List.mem_of_getElem? (i := l - 8) ?_
        rw [List.getElem?_drop, Nat.add_sub_cancel' hl, ← SetAba.s2_log]; exact g3
      simp [SetAba.log1, SetAba.log2] at this
    have : .act j (.swap 0 x y) ∈ (SetAba.log1 ++ SetAba.log2).take 8 :=
      List.mem_of_getElem? (i := p) (by rw [List.getElem?_take_of_lt (by omega)]; exact g2)
    simp [SetAba.log1, SetAba.log2] at this
    exact hji this.1
  · intro b i c arg A hb hs hc hA
    rcases SetAba.start_cases hs with ⟨rfl, rfl⟩ | ⟨rfl, rfl⟩ | ⟨rfl, rfl⟩ | ⟨rfl, rfl⟩ | ⟨rfl, rfl⟩ | ⟨rfl, rfl⟩ | ⟨rfl, rfl⟩ <;>
      obtain ⟨l, hl⟩ := hc <;> cases hl
    · cases hA
      exact ⟨fun h => absurd ((C08_prefix _ (by decide) _).mp h) (by unfold InPrefix; decide), fun h => absurd ((C08_prefix _ (by decide) _).mp h) (by unfold InPrefix; decide)⟩
    · cases hA
      exact ⟨fun h => absurd ((C08_prefix _ (by decide) _).mp h) (by unfold InPrefix; decide), fun h => absurd ((C08_prefix _ (by decide) _).mp h) (by unfold InPrefix; decide)⟩
  · rw [SetAba.s2_log]; simp [SetAba.log1, SetAba.log2]

end Addrs

import Verif.Exec
import Verif.PropConcTables
import Verif.PropConcSets
/-
  C36 is false of the code: executions in which an acknowledged write is lost although nothing panics.
-/
set_option linter.unusedSectionVars false
namespace Addrs
open GoWord LawfulGoWord

/-- Going through the calls of a sequential explanation. -/
theorem SeqRun.induct {α D A : Type} {L : Lib α D}
    {eff : L.Call → List (Event D) → View α D → A → L.Val → A → Prop} {s : State L} (P : A → List Nat → Prop)
    {a : A} (h0 : P a [])
    (hstep : ∀ b b' is i c z v, P b is → i ∉ is → (∀ j ∈ is, ¬ Precedes s.log i j) → .start i c ∈ s.log →
      eff c (own i s.log) v b z b' → (∀ z', .done i z' ∈ s.log → z' = z) → P b' (is ++ [i]))
    {order : List Nat} {b : A} (hr : SeqRun eff s a order b) (hn : order.Nodup)
    (hp : order.Pairwise fun i j => ¬ Precedes s.log j i) : P b order := by
  induction hr with
  | nil => exact h0
  | snoc b b' is i c z v hrun hs he hd ih =>
    rw [List.nodup_append] at hn
    rw [List.pairwise_append] at hp
    exact hstep _ _ _ _ _ _ _ (ih hn.1 hp.1) (fun hi => hn.2.2 i hi i (by simp) rfl)
      (fun j hj => hp.2.2 j hj i (by simp)) hs he fun z' hz => (hd z' hz).1

namespace Bad

/-- 10.0.0.0/8 -/
def k1 : PrefixI (BitVec 32) := .prefix ⟨0x0a000000#32, 8⟩
/-- 11.0.0.0/8 -/
def k2 : PrefixI (BitVec 32) := .prefix ⟨0x0b000000#32, 8⟩

/-- tables of numbers with IPv4 prefixes -/
abbrev TL := tableLib (BitVec 32) Nat Unit 67

/-- One goroutine calls `Remove(k1)` on an empty table and has read the root once when another one inserts
    `k1`; then the first one goes on, and later `k1` is looked up. -/
def lost : List (Sched TL) :=
  [.call .new_, .finish 0, .call (.op (some 0) (.remove k1)), .step 1, .call (.op (some 0) (.insert k1 7)),
   .finish 2, .finish 1, .call (.op (some 0) (.get k1)), .finish 3]

def lostLog : List (Entry Nat TL.Call TL.Val) :=
  [.start 0 .new_, .act 0 (.made 0 ⟨none, .dflt⟩), .done 0 (.handle 0),
   .start 1 (.op (some 0) (.remove k1)), .act 1 (.load 0 ⟨none, .dflt⟩),
   .start 2 (.op (some 0) (.insert k1 7)), .act 2 (.load 0 ⟨none, .dflt⟩), .act 2 (.load 0 ⟨none, .dflt⟩),
   .act 2 (.swap 0 none (some 0)), .done 2 (.result (.bool true)),
   .act 1 (.load 0 ⟨some 0, .dflt⟩), .done 1 (.result (.removed true)),
   .start 3 (.op (some 0) (.get k1)), .act 3 (.load 0 ⟨some 0, .dflt⟩), .done 3 (.result (.found 7 true))]

/-- One goroutine calls `Insert(k2)` on an empty table and has read the root once; another one inserts `k1`;
    the first reads the root again; the other removes `k1`, so that the table is empty again; the first goes
    on, and later `k1` is looked up. -/
def back : List (Sched TL) :=
  [.call .new_, .finish 0, .call (.op (some 0) (.insert k2 5)), .step 1, .call (.op (some 0) (.insert k1 7)),
   .finish 2, .step 1, .call (.op (some 0) (.remove k1)), .finish 3, .finish 1,
   .call (.op (some 0) (.get k1)), .finish 4]

def backLog : List (Entry Nat TL.Call TL.Val) :=
  [.start 0 .new_, .act 0 (.made 0 ⟨none, .dflt⟩), .done 0 (.handle 0),
   .start 1 (.op (some 0) (.insert k2 5)), .act 1 (.load 0 ⟨none, .dflt⟩),
   .start 2 (.op (some 0) (.insert k1 7)), .act 2 (.load 0 ⟨none, .dflt⟩), .act 2 (.load 0 ⟨none, .dflt⟩),
   .act 2 (.swap 0 none (some 0)), .done 2 (.result (.bool true)),
   .act 1 (.load 0 ⟨some 0, .dflt⟩),
   .start 3 (.op (some 0) (.remove k1)), .act 3 (.load 0 ⟨some 0, .dflt⟩), .act 3 (.load 0 ⟨some 0, .dflt⟩),
   .act 3 (.swap 0 (some 0) none), .done 3 (.result (.removed true)),
   .act 1 (.swap 0 none (some 2)), .done 1 (.result (.bool true)),
   .start 4 (.op (some 0) (.get k1)), .act 4 (.load 0 ⟨some 2, .dflt⟩), .done 4 (.result (.found 7 true))]

set_option maxRecDepth 100000 in
theorem lost_ok : (exec State.init lost).isSome := rfl
set_option maxRecDepth 100000 in
theorem lost_log : (final lost lost_ok).log = lostLog := rfl
set_option maxRecDepth 100000 in
theorem back_ok : (exec State.init back).isSome := rfl
set_option maxRecDepth 100000 in
theorem back_log : (final back back_ok).log = backLog := rfl

theorem wf1 : k1.toPrefix.WF := by decide
theorem wf2 : k2.toPrefix.WF := by decide

theorem lost_reach : (final lost lost_ok).Reach := by
  refine final_reach lost_ok ?_
  intro c hc
  simp only [lost, List.mem_cons, reduceCtorEq, List.not_mem_nil, or_false, false_or] at hc
  rcases hc with h | h | h | h <;> cases h
  · exact ⟨trivial, rfl⟩
  · exact ⟨fun _ => ⟨wf1, by simp⟩, rfl⟩
  · exact ⟨fun _ => ⟨wf1, by simp⟩, rfl⟩
  · exact ⟨fun _ => ⟨wf1, by simp⟩, rfl⟩

theorem back_reach : (final back back_ok).Reach := by
  refine final_reach back_ok ?_
  intro c hc
  simp only [back, List.mem_cons, reduceCtorEq, List.not_mem_nil, or_false, false_or] at hc
  rcases hc with h | h | h | h | h <;> cases h
  · exact ⟨trivial, rfl⟩
  · exact ⟨fun _ => ⟨wf2, by simp⟩, rfl⟩
  · exact ⟨fun _ => ⟨wf1, by simp⟩, rfl⟩
  · exact ⟨fun _ => ⟨wf1, by simp⟩, rfl⟩
  · exact ⟨fun _ => ⟨wf1, by simp⟩, rfl⟩

/-- the map of a new table has no entries -/
theorem empty_map {e : Nat → Nat → Bool} {v : View (BitVec 32) Nat} {m : PMap Nat}
    (h : mapAbs e v ⟨none, .dflt⟩ m) {p : Prefix (BitVec 32)} (hp : p.WF) : m (keyOf p) = none := by
  obtain ⟨T, ⟨h1, _⟩, _, _, h4⟩ := h
  have h2 := h4 (.prefix p) hp
  have h3 : T.get (.prefix p) = (default, false) := by
    have : T.trie = .nil := h1.none_inv
    simp [Table.get, Table.longestMatch', this, Trie.match]
  rw [h3] at h2
  cases hm : m (keyOf p) with
  | none => rfl
  | some v =>
    have : (PrefixI.prefix p).toPrefix = p := rfl
    rw [this, hm] at h2
    cases h2

/-- the calls of the first execution -/
theorem lost_start {i : Nat} {c : TL.Call} (h : .start i c ∈ (final lost lost_ok).log) :
    (i = 0 ∧ c = .new_) ∨ (i = 1 ∧ c = .op (some 0) (.remove k1)) ∨ (i = 2 ∧ c = .op (some 0) (.insert k1 7)) ∨
      (i = 3 ∧ c = .op (some 0) (.get k1)) := by
  rw [lost_log] at h
  simp only [lostLog, List.mem_cons, reduceCtorEq, List.not_mem_nil, or_false, false_or] at h
  rcases h with h | h | h | h <;> cases h
  · exact Or.inl ⟨rfl, rfl⟩
  · exact Or.inr (Or.inl ⟨rfl, rfl⟩)
  · exact Or.inr (Or.inr (Or.inl ⟨rfl, rfl⟩))
  · exact Or.inr (Or.inr (Or.inr ⟨rfl, rfl⟩))

/-- the calls of the second execution -/
theorem back_start {i : Nat} {c : TL.Call} (h : .start i c ∈ (final back back_ok).log) :
    (i = 0 ∧ c = .new_) ∨ (i = 1 ∧ c = .op (some 0) (.insert k2 5)) ∨ (i = 2 ∧ c = .op (some 0) (.insert k1 7)) ∨
      (i = 3 ∧ c = .op (some 0) (.remove k1)) ∨ (i = 4 ∧ c = .op (some 0) (.get k1)) := by
  rw [back_log] at h
  simp only [backLog, List.mem_cons, reduceCtorEq, List.not_mem_nil, or_false, false_or] at h
  rcases h with h | h | h | h | h <;> cases h
  · exact Or.inl ⟨rfl, rfl⟩
  · exact Or.inr (Or.inl ⟨rfl, rfl⟩)
  · exact Or.inr (Or.inr (Or.inl ⟨rfl, rfl⟩))
  · exact Or.inr (Or.inr (Or.inr (Or.inl ⟨rfl, rfl⟩)))
  · exact Or.inr (Or.inr (Or.inr (Or.inr ⟨rfl, rfl⟩)))

theorem lost_not_atomic : ¬ TableAtomic (final lost lost_ok) 0 := by
  rintro ⟨_, e, order, ob0, ob, m0, m', mk, hnd, hall, hin, hrt, hmade, habs, _, _, hrun⟩
  have hob0 : ob0 = ⟨none, .dflt⟩ := by
    rw [lost_log] at hmade
    simp only [lostLog, List.mem_cons, reduceCtorEq, List.not_mem_nil, or_false, false_or, Entry.act.injEq,
      Event.made.injEq, and_false] at hmade
    exact hmade.2.2
  subst hob0
  have in1 : 1 ∈ order := hall 1 (.op (some 0) (.remove k1)) (.result (.removed true)) _
    (by rw [lost_log]; simp [lostLog]) (by rw [lost_log]; simp [lostLog]) rfl
  have in3 : 3 ∈ order := hall 3 (.op (some 0) (.get k1)) (.result (.found 7 true)) _
    (by rw [lost_log]; simp [lostLog]) (by rw [lost_log]; simp [lostLog]) rfl
  have prec : Precedes (final lost lost_ok).log 1 3 :=
    ⟨11, 12, .result (.removed true), .op (some 0) (.get k1), by decide, by rw [lost_log]; rfl, by rw [lost_log]; rfl⟩
  have key := hrun.induct (fun (m : PMap Nat) is =>
      (2 ∉ is → 1 ∉ is ∧ ∀ p : Prefix (BitVec 32), p.WF → m (keyOf p) = none) ∧
      (1 ∈ is → m (keyOf k1.toPrefix) = none) ∧ (3 ∈ is → 1 ∉ is))
    ⟨fun _ => ⟨by simp, fun p hp => empty_map habs hp⟩, by simp, by simp⟩ ?_ hnd hrt
  · exact key.2.2 in3 in1
  · rintro m m' is i c z v ⟨h1, h2, h3⟩ hi hpr hs he hd
    rcases lost_start hs with ⟨rfl, rfl⟩ | ⟨rfl, rfl⟩ | ⟨rfl, rfl⟩ | ⟨rfl, rfl⟩
    · exact he.elim
    · -- Remove(k1), which returned true
      obtain ⟨rfl, r, rfl, hr⟩ := he
      have hz := hd (.result (.removed true)) (by rw [lost_log]; simp [lostLog])
      cases hz
      have hr := hr wf1
      by_cases h2i : 2 ∈ is
      · refine ⟨fun h => (h (by simp [h2i])).elim, fun _ => by simp [PMap.stepExact, PMap.erase], ?_⟩
        intro h
        have : 3 ∈ is := by simpa using h
        exact (hpr 3 this prec).elim
      · exfalso
        simp only [PMap.stepExact, Result.removed.injEq, Bool.true_eq, decide_eq_true_eq] at hr
        rcases hr with hr | ⟨p, q, hp, _, hp', _⟩
        · exact hr ((h1 h2i).2 _ wf1)
        · exact hp' ((h1 h2i).2 _ hp)
    · -- Insert(k1)
      have h1i := (h1 hi).1
      refine ⟨fun h => (h (by simp)).elim, fun h => ?_, fun h => ?_⟩
      · simp [h1i] at h
      · simp [h1i]
    · -- Get(k1), which found it
      obtain ⟨hm, r, rfl, hr⟩ := he
      have hz := hd (.result (.found 7 true)) (by rw [lost_log]; simp [lostLog])
      cases hz
      have hr := hr wf1
      have hm' : m' = m := by
        rw [hm]
        simp only [PMap.stepExact, PMap.step]
        cases m (keyOf k1.toPrefix) <;> rfl
      have h1i : 1 ∉ is := by
        intro h
        simp only [PMap.stepExact, PMap.step, h2 h] at hr
        cases hr
      rw [hm']
      refine ⟨fun h => ?_, fun h => ?_, fun _ => ?_⟩
      · have := h1 (by simpa using h)
        exact ⟨by simp [h1i], this.2⟩
      · simp [h1i] at h
      · simp [h1i]

theorem key_ne : keyOf k1.toPrefix ≠ keyOf k2.toPrefix := by decide

theorem back_not_atomic : ¬ TableAtomic (final back back_ok) 0 := by
  rintro ⟨_, e, order, ob0, ob, m0, m', mk, hnd, hall, hin, hrt, hmade, habs, _, _, hrun⟩
  have in3 : 3 ∈ order := hall 3 (.op (some 0) (.remove k1)) (.result (.removed true)) _
    (by rw [back_log]; simp [backLog]) (by rw [back_log]; simp [backLog]) rfl
  have in4 : 4 ∈ order := hall 4 (.op (some 0) (.get k1)) (.result (.found 7 true)) _
    (by rw [back_log]; simp [backLog]) (by rw [back_log]; simp [backLog]) rfl
  have prec34 : Precedes (final back back_ok).log 3 4 :=
    ⟨15, 18, .result (.removed true), .op (some 0) (.get k1), by decide, by rw [back_log]; rfl, by rw [back_log]; rfl⟩
  have prec23 : Precedes (final back back_ok).log 2 3 :=
    ⟨9, 11, .result (.bool true), .op (some 0) (.remove k1), by decide, by rw [back_log]; rfl, by rw [back_log]; rfl⟩
  have key := hrun.induct (fun (m : PMap Nat) is =>
      (3 ∈ is → m (keyOf k1.toPrefix) = none) ∧ (4 ∈ is → 3 ∉ is)) ⟨by simp, by simp⟩ ?_ hnd hrt
  · exact key.2 in4 in3
  · rintro m m' is i c z v ⟨h1, h2⟩ hi hpr hs he hd
    rcases back_start hs with ⟨rfl, rfl⟩ | ⟨rfl, rfl⟩ | ⟨rfl, rfl⟩ | ⟨rfl, rfl⟩ | ⟨rfl, rfl⟩
    · exact he.elim
    · -- Insert(k2)
      obtain ⟨rfl, _⟩ := he
      refine ⟨fun h => ?_, fun h => ?_⟩
      · have h' := h1 (by simpa using h)
        simp only [PMap.stepExact, PMap.step]
        cases m (keyOf k2.toPrefix) with
        | some w => exact h'
        | none => simp only [PMap.set]; rw [if_neg key_ne]; exact h'
      · have := h2 (by simpa using h)
        simp [this]
    · -- Insert(k1)
      have h3 : 3 ∉ is := fun h => hpr 3 h prec23
      exact ⟨fun h => by simp [h3] at h, fun _ => by simp [h3]⟩
    · -- Remove(k1)
      obtain ⟨rfl, _⟩ := he
      refine ⟨fun _ => by simp [PMap.stepExact, PMap.erase], fun h => ?_⟩
      have : 4 ∈ is := by simpa using h
      exact (hpr 4 this prec34).elim
    · -- Get(k1)
      obtain ⟨hm, r, rfl, hr⟩ := he
      have hz := hd (.result (.found 7 true)) (by rw [back_log]; simp [backLog])
      cases hz
      have hr := hr wf1
      have h3 : 3 ∉ is := by
        intro h
        simp only [PMap.stepExact, PMap.step, h1 h] at hr
        cases hr
      exact ⟨fun h => by simp [h3] at h, fun _ => by simp [h3]⟩

end Bad

/-- A removal is lost: `Insert(k1)` returned true, then `Remove(k1)` returned true, nothing panicked and no other
    call was made, but a `Get(k1)` that was started after both had returned finds the entry.  No order of the
    three calls explains this. -/
theorem C36_lost_remove : ∃ s : TState (BitVec 32) Nat Unit 67, s.Reach ∧
    .done 1 (.result (.removed true)) ∈ s.log ∧ .done 2 (.result (.bool true)) ∈ s.log ∧
    .done 3 (.result (.found 7 true)) ∈ s.log ∧ (∀ i o q, .fail i o q ∉ s.log) ∧ ¬ TableAtomic s 0 := by
  refine ⟨final Bad.lost Bad.lost_ok, Bad.lost_reach, ?_, ?_, ?_, ?_, Bad.lost_not_atomic⟩ <;>
    rw [Bad.lost_log] <;> simp [Bad.lostLog]

/-- An entry comes back: `Insert(k1)` and then `Remove(k1)` returned true while `Insert(k2)` was running, nothing
    panicked, but a `Get(k1)` that was started after all had returned finds the entry. -/
theorem C36_resurrected_insert : ∃ s : TState (BitVec 32) Nat Unit 67, s.Reach ∧
    .done 1 (.result (.bool true)) ∈ s.log ∧ .done 2 (.result (.bool true)) ∈ s.log ∧
    .done 3 (.result (.removed true)) ∈ s.log ∧ .done 4 (.result (.found 7 true)) ∈ s.log ∧
    (∀ i o q, .fail i o q ∉ s.log) ∧ ¬ TableAtomic s 0 := by
  refine ⟨final Bad.back Bad.back_ok, Bad.back_reach, ?_, ?_, ?_, ?_, ?_, Bad.back_not_atomic⟩ <;>
    rw [Bad.back_log] <;> simp [Bad.backLog]

namespace Bad

/-- sets of IPv4 addresses -/
abbrev SL := setLib (BitVec 32) Unit 170

/-- 10.0.0.1 -/
def a1 : SetArg (BitVec 32) := .address 0x0a000001#32
/-- 11.0.0.1 -/
def a2 : SetArg (BitVec 32) := .address 0x0b000001#32

/-- As `back`, with sets: `Insert(a2)` has read the root twice, before and after `Insert(a1)`; then `a1` is removed,
    so that the root is nil again. -/
def sback : List (Sched SL) :=
  [.call .new_, .finish 0, .call (.insert (some 0) a2 false), .step 1, .call (.insert (some 0) a1 false), .finish 2,
   .step 1, .call (.remove (some 0) a1 false), .finish 3, .finish 1, .call (.contains (.obj (some 0)) a1), .finish 4]

def sbackLog : List (Entry Empty SL.Call SL.Val) :=
  [.start 0 .new_, .act 0 (.made 0 ⟨none, .nil⟩), .done 0 (.handle 0),
   .start 1 (.insert (some 0) a2 false), .act 1 (.load 0 ⟨none, .nil⟩),
   .start 2 (.insert (some 0) a1 false), .act 2 (.load 0 ⟨none, .nil⟩), .act 2 (.load 0 ⟨none, .nil⟩),
   .act 2 (.swap 0 none (some 0)), .done 2 .unit, .act 1 (.load 0 ⟨some 0, .nil⟩),
   .start 3 (.remove (some 0) a1 false), .act 3 (.load 0 ⟨some 0, .nil⟩), .act 3 (.load 0 ⟨some 0, .nil⟩),
   .act 3 (.swap 0 (some 0) none), .done 3 .unit, .act 1 (.swap 0 none (some 3)), .done 1 .unit,
   .start 4 (.contains (.obj (some 0)) a1), .act 4 (.load 0 ⟨some 3, .nil⟩), .done 4 (.bool true)]

set_option maxRecDepth 100000 in
theorem sback_ok : (exec State.init sback).isSome := rfl
set_option maxRecDepth 100000 in
theorem sback_log : (final sback sback_ok).log = sbackLog := rfl

theorem sback_reach : (final sback sback_ok).Reach := by
  refine final_reach sback_ok ?_
  intro c hc
  simp only [sback, List.mem_cons, reduceCtorEq, List.not_mem_nil, or_false, false_or] at hc
  rcases hc with h | h | h | h | h <;> cases h
  · exact ⟨trivial, rfl⟩
  · exact ⟨⟨by simp, trivial⟩, rfl⟩
  · exact ⟨⟨by simp, trivial⟩, rfl⟩
  · exact ⟨⟨by simp, trivial⟩, rfl⟩
  · exact ⟨trivial, rfl⟩

theorem sback_start {i : Nat} {c : SL.Call} (h : .start i c ∈ (final sback sback_ok).log) :
    (i = 0 ∧ c = .new_) ∨ (i = 1 ∧ c = .insert (some 0) a2 false) ∨ (i = 2 ∧ c = .insert (some 0) a1 false) ∨
      (i = 3 ∧ c = .remove (some 0) a1 false) ∨ (i = 4 ∧ c = .contains (.obj (some 0)) a1) := by
  rw [sback_log] at h
  simp only [sbackLog, List.mem_cons, reduceCtorEq, List.not_mem_nil, or_false, false_or] at h
  rcases h with h | h | h | h | h <;> cases h
  · exact Or.inl ⟨rfl, rfl⟩
  · exact Or.inr (Or.inl ⟨rfl, rfl⟩)
  · exact Or.inr (Or.inr (Or.inl ⟨rfl, rfl⟩))
  · exact Or.inr (Or.inr (Or.inr (Or.inl ⟨rfl, rfl⟩)))
  · exact Or.inr (Or.inr (Or.inr (Or.inr ⟨rfl, rfl⟩)))

theorem has_address {v : View (BitVec 32) Empty} {x : BitVec 32} {tr : List (Event Empty)} {B : BitVec 32 → Prop}
    (h : SetArg.Has v (.address x) tr B) (y : BitVec 32) : B y ↔ x = y := by
  obtain ⟨evs, A, _, ⟨_, rfl⟩, _, rfl⟩ := h
  exact C08_address x y

theorem sback_not_atomic : ¬ SetAtomic (final sback sback_ok) 0 := by
  rintro ⟨order, ob0, ob, m0, m', mk, hnd, hall, hin, hrt, hmade, habs, _, _, hrun⟩
  have in3 : 3 ∈ order := hall 3 (.remove (some 0) a1 false) .unit _
    (by rw [sback_log]; simp [sbackLog]) (by rw [sback_log]; simp [sbackLog]) rfl
  have in4 : 4 ∈ order := hall 4 (.contains (.obj (some 0)) a1) (.bool true) _
    (by rw [sback_log]; simp [sbackLog]) (by rw [sback_log]; simp [sbackLog]) rfl
  have prec34 : Precedes (final sback sback_ok).log 3 4 :=
    ⟨15, 18, .unit, .contains (.obj (some 0)) a1, by decide, by rw [sback_log]; rfl, by rw [sback_log]; rfl⟩
  have prec23 : Precedes (final sback sback_ok).log 2 3 :=
    ⟨9, 11, .unit, .remove (some 0) a1 false, by decide, by rw [sback_log]; rfl, by rw [sback_log]; rfl⟩
  have key := hrun.induct (fun (m : BitVec 32 → Prop) is =>
      (3 ∈ is → ¬ m 0x0a000001#32) ∧ (4 ∈ is → 3 ∉ is)) ⟨by simp, by simp⟩ ?_ hnd hrt
  · exact key.2 in4 in3
  · rintro m m' is i c z v ⟨h1, h2⟩ hi hpr hs he hd
    rcases sback_start hs with ⟨rfl, rfl⟩ | ⟨rfl, rfl⟩ | ⟨rfl, rfl⟩ | ⟨rfl, rfl⟩ | ⟨rfl, rfl⟩
    · exact he.elim
    · -- Insert(a2)
      obtain ⟨B, hB, _, rfl⟩ := he
      refine ⟨fun h => ?_, fun h => ?_⟩
      · have h' := h1 (by simpa using h)
        rintro (h3 | h3)
        · exact h' h3
        · exact absurd ((has_address hB _).mp h3) (by decide)
      · have := h2 (by simpa using h)
        simp [this]
    · -- Insert(a1)
      have h3 : 3 ∉ is := fun h => hpr 3 h prec23
      exact ⟨fun h => by simp [h3] at h, fun _ => by simp [h3]⟩
    · -- Remove(a1)
      obtain ⟨B, hB, _, rfl⟩ := he
      refine ⟨fun _ h => h.2 ((has_address hB _).mpr rfl), fun h => ?_⟩
      have : 4 ∈ is := by simpa using h
      exact (hpr 4 this prec34).elim
    · -- Contains(a1)
      obtain ⟨⟨B, b, hB, rfl, hb⟩, _⟩ := he
      have hz := hd (.bool true) (by rw [sback_log]; simp [sbackLog])
      cases hz
      have h3 : 3 ∉ is := fun h => h1 h (hb.mp rfl _ ((has_address hB _).mpr rfl))
      exact ⟨fun h => by simp [h3] at h, fun _ => by simp [h3]⟩

end Bad

/-- Addresses come back: `Insert(10.0.0.1)` and then `Remove(10.0.0.1)` returned while `Insert(11.0.0.1)` was running,
    nothing panicked, but a `Contains(10.0.0.1)` that was started after all had returned says yes. -/
theorem C36_set_resurrected_insert : ∃ s : SState (BitVec 32) Unit 170, s.Reach ∧
    .done 1 .unit ∈ s.log ∧ .done 2 .unit ∈ s.log ∧ .done 3 .unit ∈ s.log ∧ .done 4 (.bool true) ∈ s.log ∧
    (∀ i o q, .fail i o q ∉ s.log) ∧ ¬ SetAtomic s 0 := by
  refine ⟨final Bad.sback Bad.sback_ok, Bad.sback_reach, ?_, ?_, ?_, ?_, ?_, Bad.sback_not_atomic⟩ <;>
    rw [Bad.sback_log] <;> simp [Bad.sbackLog]

end Addrs

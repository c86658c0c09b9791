import Verif.PropCode
import Verif.PropSetText
import Verif.PropWalkAddr
/-
  C14, C16–C20 and C22 for the code on pointers.  `WalkRanges`, `WalkAddresses`, `NumPrefixes` and `String` are
  `WalkPrefixes` with a certain callback (ipv4/set.go:220-293); the machine has `WalkPrefixes` with any callback, so
  these theorems say what comes out of that callback in every execution of the machine.
-/
set_option linter.unusedSectionVars false
namespace Addrs
open GoWord LawfulGoWord

section
variable {α σ : Type} [HeapFamily α] {F : Nat}

/-- what a finished `WalkPrefixes` has done -/
theorem walk_done (hF : setBound α ≤ F) {s : SState α σ F} (h : s.Reach) {i : Nat} {t : Obj Empty}
    {cb : Prefix α → σ → σ × Bool} {st : σ} {z : SVal α σ} (hs : .start i (SCall.walk t cb st) ∈ s.log)
    (hd : .done i z ∈ s.log) : ∃ S : IPSet α, t.Holds s.mem S ∧ S.Reachable ∧ z = .walked (S.walkPrefixes cb st) := by
  obtain ⟨S, h1, h2, h3⟩ := sread (done_spec' (setLib_ok hF) h hs hd)
  exact ⟨S, h1, h2, h3⟩

/-- Two walks in one execution, over sets with the same addresses, by a callback that ignores host bits. -/
theorem C14_code (hF : setBound α ≤ F) {s : SState α σ F} (h : s.Reach) {i j : Nat} {t u : Obj Empty}
    {cb : Prefix α → σ → σ × Bool} {st : σ} {y z : SVal α σ}
    (hs : .start i (SCall.walk t (fun p => cb p.network) st) ∈ s.log) (hd : .done i y ∈ s.log)
    (hs' : .start j (SCall.walk u (fun p => cb p.network) st) ∈ s.log) (hd' : .done j z ∈ s.log)
    (e : ∀ a, t.Members s.mem a ↔ u.Members s.mem a) : y = z := by
  obtain ⟨S, h1, h2, rfl⟩ := walk_done hF h hs hd
  obtain ⟨T, g1, g2, rfl⟩ := walk_done hF h hs' hd'
  rw [C14_walk S T h2 g2 (fun a => by rw [← h1.members, ← g1.members]; exact e a)]

/-- `t.WalkPrefixes(cb)`: the prefixes are maximal -/
theorem C16_code_maximal (hF : setBound α ≤ F) {s : SState α σ F} (h : s.Reach) {i : Nat} {t : Obj Empty}
    {cb : Prefix α → σ → σ × Bool} {st : σ} {z : SVal α σ} (hs : .start i (SCall.walk t cb st) ∈ s.log)
    (hd : .done i z ∈ s.log) :
    ∃ L : List (Prefix α), z = .walked (visit cb L st) ∧
      (L.Pairwise fun p q => ∀ x y, InPrefix p x → InPrefix q y → toNat x < toNat y) ∧
      (∀ a, t.Members s.mem a ↔ ∃ p ∈ L, InPrefix p a) ∧
      (∀ p ∈ L, p.WF ∧ ∀ P : Prefix α, P.WF → P.len < p.len → InPrefix P p.addr → ∃ a, InPrefix P a ∧ ¬ t.Members s.mem a) := by
  obtain ⟨S, h1, h2, rfl⟩ := walk_done hF h hs hd
  obtain ⟨L, e1, e2, e3, e4⟩ := C16_walkPrefixes S h2
  refine ⟨L, by rw [e1], e2, fun a => by rw [h1.members, e3], fun p hp => ⟨(e4 p hp).1, fun P hP hl hi => ?_⟩⟩
  obtain ⟨a, ha, hn⟩ := (e4 p hp).2 P hP hl hi
  exact ⟨a, ha, fun hm => hn ((h1.members a).mp hm)⟩

/-- `t.WalkRanges(cb)` -/
theorem C18_code {τ : Type} (hF : setBound α ≤ F) {s : SState α (List (Range α) × τ) F} (h : s.Reach) {i : Nat} {t : Obj Empty}
    {cb : Range α → τ → τ × Bool} {st : τ} {z : SVal α (List (Range α) × τ)}
    (hs : .start i (SCall.walk t (rangeStep cb) ([], st)) ∈ s.log) (hd : .done i z ∈ s.log) :
    ∃ (x : (List (Range α) × τ) × Bool) (L : List (Range α)), z = .walked x ∧ rangeEnd cb x = visit cb L st ∧
      (∀ r ∈ L, r.Valid) ∧ (L.Pairwise fun r r' => toNat r.last + 1 < toNat r'.first) ∧
      (∀ a, t.Members s.mem a ↔ ∃ r ∈ L, InRange r a) := by
  obtain ⟨S, h1, h2, rfl⟩ := walk_done hF h hs hd
  obtain ⟨L, e1, e2, e3, e4⟩ := C18_walkRanges S h2
  refine ⟨_, L, rfl, ?_, e2, e3, fun a => by rw [h1.members, e4]⟩
  rw [← e1]
  rfl

/-- the callback of `Set.String` (ipv4/set.go:224-232) -/
def stringStep (str : Prefix α → Str) (p : Prefix α) (x : Str × Bool) : (Str × Bool) × Bool :=
  ((if x.2 then (x.1 ++ [',', ' '] ++ str p, true) else (x.1 ++ str p, true)), true)

/-- `t.FindAvailablePrefix(arg, n)` cuts from a smallest maximal free block that fits -/
theorem C22_code (hF : setBound α ≤ F) {s : SState α σ F} (h : s.Reach) {i n : Nat} {t : Obj Empty} {arg : SetArg α}
    {z : SVal α σ} (hs : .start i (SCall.find t arg n) ∈ s.log) (hd : .done i z ∈ s.log) (hv : arg.Value) (hn : n ≤ width α) :
    let free (P : Prefix α) : Prop := ∀ a, InPrefix P a → t.Members s.mem a ∧ ¬ arg.Members s.mem a
    let maxFree (B : Prefix α) : Prop := B.WF ∧ free B ∧ ∀ P : Prefix α, P.WF → P.len < B.len → InPrefix P B.addr → ¬ free P
    (z = .found .err ∧ ∀ P : Prefix α, P.WF → P.len = n → ¬ free P) ∨
    (∃ p B : Prefix α, z = .found (.ok p) ∧ maxFree B ∧ B.len ≤ n ∧ p.len = n ∧
      toNat p.addr = toNat B.addr / blockSize α B.len * blockSize α B.len ∧
      ∀ B' : Prefix α, maxFree B' → B'.len ≤ n → B'.len ≤ B.len) := by
  obtain ⟨S, A, h1, h2, h3, h4, h5⟩ := sread2 hv (done_spec' (setLib_ok hF) h hs hd)
  intro free maxFree
  have hf : ∀ P, free P ↔ Free S (.set A) P := fun P => by
    constructor
    · exact fun f a ha => ⟨(h1.members a).mp (f a ha).1, fun x => (f a ha).2 ((h4 a).mpr x)⟩
    · exact fun f a ha => ⟨(h1.members a).mpr (f a ha).1, fun x => (f a ha).2 ((h4 a).mp x)⟩
  have hm : ∀ B, maxFree B ↔ MaxFree S (.set A) B := fun B => by
    constructor
    · exact fun ⟨f1, f2, f3⟩ => ⟨f1, (hf B).mp f2, fun P a b c d => f3 P a b c ((hf P).mpr d)⟩
    · exact fun ⟨f1, f2, f3⟩ => ⟨f1, (hf B).mpr f2, fun P a b c d => f3 P a b c ((hf P).mp d)⟩
  rcases C22_bestFit S (.set A) n h2 h3 hn (by simp) with ⟨g1, g2⟩ | ⟨p, B, g1, g2, g3, g4, g5, g6⟩
  · exact Or.inl ⟨by rw [h5, g1], fun P hP hl x => g2 P hP hl ((hf P).mp x)⟩
  · exact Or.inr ⟨p, B, by rw [h5, g1], (hm B).mpr g2, g3, g4, g5, fun B' hB hl => g6 B' ((hm B').mp hB) hl⟩

/-- `t.String()`, `str` being `Prefix.String` -/
theorem C47_code (hF : setBound α ≤ F) (str : Prefix α → Str) {s : SState α (Str × Bool) F} (h : s.Reach) {i : Nat} {t : Obj Empty}
    {z : SVal α (Str × Bool)} (hs : .start i (SCall.walk t (stringStep str) (['['], false)) ∈ s.log) (hd : .done i z ∈ s.log) :
    ∃ (x : Str) (b c : Bool) (L : List (Prefix α)), z = .walked ((x, b), c) ∧
      x ++ [']'] = ['['] ++ commaSep (L.map str) ++ [']'] ∧
      (L.Pairwise fun p q => ∀ x y, InPrefix p x → InPrefix q y → toNat x < toNat y) ∧
      (∀ a, t.Members s.mem a ↔ ∃ p ∈ L, InPrefix p a) := by
  obtain ⟨S, h1, h2, rfl⟩ := walk_done hF h hs hd
  obtain ⟨L, e1, e2, e3, _⟩ := C16_walkPrefixes S h2
  refine ⟨_, _, _, L, rfl, ?_, e2, fun a => by rw [h1.members, e3]⟩
  show S.stringWith str = _
  rw [IPSet.stringWith_eq, prefixes_of_walk e1]

end

section
variable {F : Nat}

/-- the callback of `Set.NumPrefixes` of ipv4 (ipv4/set.go:253-257) -/
def countStep4 (length : Nat) (p : Prefix (BitVec 32)) (count : BitVec 64) : BitVec 64 × Bool :=
  (count + (p.numPrefixes4 length).1, true)

open Classical in
/-- `t.NumPrefixes(n)` of ipv4 -/
theorem C20_code4 (hF : setBound (BitVec 32) ≤ F) {s : SState (BitVec 32) (BitVec 64) F} (h : s.Reach) {i n : Nat} {t : Obj Empty}
    {z : SVal (BitVec 32) (BitVec 64)} (hs : .start i (SCall.walk t (countStep4 n) 0#64) ∈ s.log) (hd : .done i z ∈ s.log)
    (hn : n ≤ 32) :
    ∃ (c : BitVec 64) (b : Bool), z = .walked (c, b) ∧ c.toNat = (List.range (2 ^ n)).countP (fun k =>
      decide (∀ a, InPrefix (⟨BitVec.ofNat 32 (k * 2 ^ (32 - n)), n⟩ : Prefix (BitVec 32)) a → t.Members s.mem a)) := by
  obtain ⟨S, h1, h2, rfl⟩ := walk_done hF h hs hd
  refine ⟨_, _, rfl, (C20_numPrefixes4 S h2 n hn).2.trans (List.countP_congr fun k _ => ?_)⟩
  have hv : (SetI.prefix (⟨BitVec.ofNat 32 (k * 2 ^ (32 - n)), n⟩ : Prefix (BitVec 32))).Valid := hn
  rw [C12_contains S _ h2 hv, decide_eq_true_eq]
  refine forall_congr' fun a => ?_
  rw [C08_prefix _ hv, h1.members]

/-- the callback of `Set.NumPrefixes` of ipv6 (ipv6/set.go:233-244) -/
def countStep6 (length : Nat) (p : Prefix U128) (x : BitVec 64 × Bool) : (BitVec 64 × Bool) × Bool :=
  let c := p.numPrefixes6 length
  if c.2 then ((x.1, true), false)
  else if (BitVec.allOnes 64 - c.1).toNat < x.1.toNat then ((x.1, true), false)
  else ((x.1 + c.1, x.2), true)

open Classical in
/-- `t.NumPrefixes(n)` of ipv6; the second part of the result is whether there is an error -/
theorem C20_code6 (hF : setBound U128 ≤ F) {s : SState U128 (BitVec 64 × Bool) F} (h : s.Reach) {i n : Nat} {t : Obj Empty}
    {z : SVal U128 (BitVec 64 × Bool)} (hs : .start i (SCall.walk t (countStep6 n) (0#64, false)) ∈ s.log) (hd : .done i z ∈ s.log)
    (hn : n ≤ 128) :
    let N := (List.range (2 ^ n)).countP fun k =>
      decide (∀ a, InPrefix (⟨ofNat U128 (k * 2 ^ (128 - n)), n⟩ : Prefix U128) a → t.Members s.mem a)
    ∃ (c : BitVec 64) (e b : Bool), z = .walked ((c, e), b) ∧ (e = true ↔ 2 ^ 64 ≤ N) ∧ (e = false → c.toNat = N) := by
  obtain ⟨S, h1, h2, rfl⟩ := walk_done hF h hs hd
  intro N
  have hN : N = (List.range (2 ^ n)).countP (fun k => S.contains (.prefix ⟨ofNat U128 (k * 2 ^ (128 - n)), n⟩)) := by
    refine List.countP_congr fun k _ => ?_
    have hv : (SetI.prefix (⟨ofNat U128 (k * 2 ^ (128 - n)), n⟩ : Prefix U128)).Valid := hn
    rw [C12_contains S _ h2 hv, decide_eq_true_eq]
    refine forall_congr' fun a => ?_
    rw [C08_prefix _ hv, h1.members]
  have hx := C20_numPrefixes6 S h2 n hn
  simp only [← hN] at hx
  refine ⟨(S.numPrefixes6 n).1, (S.numPrefixes6 n).2, _, rfl, ?_, ?_⟩
  · constructor
    · intro he
      refine Nat.le_of_not_lt fun hl => ?_
      rw [(hx.1 hl).1] at he; cases he
    · exact hx.2
  · intro he
    refine (hx.1 (Nat.lt_of_not_le fun hl => ?_)).2
    rw [hx.2 hl] at he; cases he

/-- the callback that `Set.WalkAddresses` gives to `WalkPrefixes` (ipv4/set.go:243-245), the loops being cut off after `fuel`
    iterations; the Boolean in the state is whether one was -/
def addrStep {τ : Type} (fuel : Nat) (cb : BitVec 32 → τ → τ × Bool) (p : Prefix (BitVec 32)) (x : τ × Bool) : (τ × Bool) × Bool :=
  match p.walkAddresses fuel cb x.1 with
  | (st', none) => ((st', true), false)
  | (st', some b) => ((st', false), b)

/-- `t.WalkAddresses(cb)`.  Full statement: without `hmax`; that is false (`C19_never_ends_any`). -/
theorem C19_code_partial {τ : Type} (hF : setBound (BitVec 32) ≤ F) {s : SState (BitVec 32) (τ × Bool) F} (h : s.Reach) {i fuel : Nat}
    {t : Obj Empty} {cb : BitVec 32 → τ → τ × Bool} {st : τ} {z : SVal (BitVec 32) (τ × Bool)}
    (hs : .start i (SCall.walk t (addrStep fuel cb) (st, false)) ∈ s.log) (hd : .done i z ∈ s.log)
    (hmax : ¬ t.Members s.mem (BitVec.allOnes 32)) (hf : 2 ^ 32 < fuel) :
    ∃ L : List (BitVec 32), z = .walked (((visit cb L st).1, false), (visit cb L st).2) ∧
      (L.Pairwise fun a b => a.toNat < b.toNat) ∧ (∀ a, a ∈ L ↔ t.Members s.mem a) := by
  obtain ⟨S, h1, h2, rfl⟩ := walk_done hF h hs hd
  obtain ⟨L, e1, e2, e3⟩ := C19_walkAddresses_partial S h2 (fun hm => hmax ((h1.members _).mpr hm))
  refine ⟨L, ?_, e2, fun a => by rw [e3, h1.members]⟩
  have e := e1 τ cb st fuel hf
  have e' : S.walkAddresses fuel cb st = match S.walkPrefixes (addrStep fuel cb) (st, false) with
    | ((st', true), _) => (st', none)
    | ((st', false), b) => (st', some b) := rfl
  rw [e'] at e
  rcases hw : S.walkPrefixes (addrStep fuel cb) (st, false) with ⟨⟨x, b⟩, c⟩
  rw [hw] at e
  cases b with
  | true => simp at e
  | false =>
    injection e with e3 e4
    injection e4 with e4
    rw [← e3, ← e4]

end

/-! ### the hypotheses are met -/

section
variable {α D : Type} {L : Lib α D}

/-- call `i` has returned -/
def State.isDone (i : Nat) (s : State L) : Bool := s.log.any fun e =>
  match e with
  | .done j _ => j == i
  | _ => false

/-- a call made after an execution, and finished -/
theorem exec_one {s0 : State L} (hr : s0.Reach) {c : L.Call} (hp : L.pre c) (hv : ∀ x ∈ L.vals c, s0.Known x) {n : Nat}
    (hn : s0.threads.length = n) (hd : (exec s0 [.call c, .finish n]).any (State.isDone n) = true) :
    ∃ s z, State.Reach s ∧ .start n c ∈ s.log ∧ .done n z ∈ s.log := by
  cases he : exec s0 [.call c, .finish n] with
  | none => rw [he] at hd; cases hd
  | some s =>
    have h1 : s0.Steps s := exec_steps .refl (fun c' hc => by
      simp only [List.mem_cons, Sched.call.injEq, reduceCtorEq, List.not_mem_nil, or_false] at hc
      subst hc
      exact ⟨hp, hv⟩) he
    have h2 : (s0.spawn c).Steps s := by
      simp only [exec] at he
      split at he
      · simp only [Option.some.injEq] at he
        subst he
        exact State.steps_solo _ _ _
      · cases he
    rw [he] at hd
    obtain ⟨e, h3, h4⟩ := List.any_eq_true.mp hd
    obtain ⟨b, hb⟩ := h2.log
    have h5 : Entry.start n c ∈ s.log := by
      rw [hb]
      refine List.mem_append.mpr (Or.inl ?_)
      rw [← hn]
      exact List.mem_append.mpr (Or.inr (List.mem_singleton_self _))
    cases e with
    | done j z =>
      have : j = n := by simpa using h4
      subst this
      exact ⟨s, z, hr.steps h1, h5, h3⟩
    | _ => cases h4

end

namespace Sample
open GoWord

/-- 10.0.0.0/25 and 10.0.0.192/26 are put into a new set of IPv4 addresses -/
def wrun (σ : Type) : List (Sched (setLib (BitVec 32) σ 170)) :=
  [.call .new_, .finish 0, .call (.insert (some 0) (.prefix ⟨0x0a000000#32, 25⟩) false), .finish 1,
   .call (.insert (some 0) (.prefix ⟨0x0a0000c0#32, 26⟩) false), .finish 2, .call (.freeze (some 0)), .finish 3]
/-- the `Set` that it is then -/
def wv : Obj Empty := ⟨some 2, .nil⟩
/-- call 3 returned `wv` -/
def gotWv {α σ : Type} [HeapFamily α] {F : Nat} (s : State (setLib α σ F)) : Bool := s.log.any fun e =>
  match e with
  | .done 3 (.set ⟨some 2, .nil⟩) => true
  | _ => false
theorem gotWv_known {α σ : Type} [HeapFamily α] {F : Nat} {s : State (setLib α σ F)} (h : gotWv s = true) : s.Known wv := by
  obtain ⟨e, h1, h2⟩ := List.any_eq_true.mp h
  revert h1 h2
  split
  · intro h1 _
    exact Or.inr ⟨3, _, h1, List.mem_singleton_self _⟩
  · intro _ h2; cases h2

/-- walks over that set -/
theorem wrun_walk {σ : Type} {cb : Prefix (BitVec 32) → σ → σ × Bool} {st : σ} (hk : (exec State.init (wrun σ)).any (fun s =>
      gotWv s && s.threads.length == 4 && (exec s [.call (.walk wv cb st), .finish 4]).any (State.isDone 4)) = true) :
    ∃ (s : SState (BitVec 32) σ 170) (z : SVal (BitVec 32) σ), s.Reach ∧ .start 4 (SCall.walk wv cb st) ∈ s.log ∧ .done 4 z ∈ s.log := by
  cases he : exec State.init (wrun σ) with
  | none => rw [he] at hk; cases hk
  | some s =>
    rw [he] at hk
    simp only [Option.any, Bool.and_eq_true, beq_iff_eq] at hk
    have hr : s.Reach := State.Reach.steps .init (exec_steps .refl (fun c hc => by
      simp only [wrun, List.mem_cons, reduceCtorEq, List.not_mem_nil, or_false, false_or] at hc
      rcases hc with h | h | h | h <;> cases h
      · exact ⟨trivial, fun x hx => nomatch hx⟩
      · exact ⟨⟨by simp, by show Prefix.WF _; decide⟩, fun x hx => nomatch hx⟩
      · exact ⟨⟨by simp, by show Prefix.WF _; decide⟩, fun x hx => nomatch hx⟩
      · exact ⟨trivial, fun x hx => nomatch hx⟩) he)
    exact exec_one (L := setLib (BitVec 32) σ 170) hr (c := .walk wv cb st) trivial
      (fun x hx => by cases List.mem_singleton.mp hx; exact gotWv_known hk.1.1) hk.1.2 hk.2

/-- `WalkRanges`, with a callback that lists the ranges -/
example : ∃ (s : SState (BitVec 32) (List (Range (BitVec 32)) × List (Range (BitVec 32))) 170) (z : _), s.Reach ∧
    .start 4 (SCall.walk wv (rangeStep fun r l => (r :: l, true)) ([], [])) ∈ s.log ∧ .done 4 z ∈ s.log :=
  wrun_walk (by decide +kernel)
/-- `NumPrefixes(28)` -/
example : ∃ (s : SState (BitVec 32) (BitVec 64) 170) (z : _), s.Reach ∧
    .start 4 (SCall.walk wv (countStep4 28) 0#64) ∈ s.log ∧ .done 4 z ∈ s.log := wrun_walk (by decide +kernel)
/-- `String` -/
example : ∃ (s : SState (BitVec 32) (Str × Bool) 170) (z : _), s.Reach ∧
    .start 4 (SCall.walk wv (stringStep V4.prefixString) (['['], false)) ∈ s.log ∧ .done 4 z ∈ s.log := wrun_walk (by decide +kernel)

/-- `WalkAddresses` -/
example : ∃ (s : SState (BitVec 32) (Nat × Bool) 170) (z : _), s.Reach ∧
    .start 4 (SCall.walk wv (addrStep (2 ^ 32 + 1) fun _ n => (n + 1, true)) (0, false)) ∈ s.log ∧ .done 4 z ∈ s.log :=
  wrun_walk (by decide +kernel)

/-- 2001:db8::/33 and 2001:db8:c000::/34 are put into a new set of IPv6 addresses -/
def wrun6 : List (Sched (setLib U128 (BitVec 64 × Bool) 650)) :=
  [.call .new_, .finish 0, .call (.insert (some 0) (.prefix ⟨⟨0x20010db800000000#64, 0#64⟩, 33⟩) false), .finish 1,
   .call (.insert (some 0) (.prefix ⟨⟨0x20010db8c0000000#64, 0#64⟩, 34⟩) false), .finish 2, .call (.freeze (some 0)), .finish 3]
/-- `NumPrefixes(96)` of IPv6 -/
example : ∃ (s : SState U128 (BitVec 64 × Bool) 650) (z : _), s.Reach ∧
    .start 4 (SCall.walk wv (countStep6 96) (0#64, false)) ∈ s.log ∧ .done 4 z ∈ s.log := by
  have hk : (exec State.init wrun6).any (fun s => gotWv s && s.threads.length == 4 &&
      (exec s [.call (.walk wv (countStep6 96) (0#64, false)), .finish 4]).any (State.isDone 4)) = true := by decide +kernel
  cases he : exec State.init wrun6 with
  | none => rw [he] at hk; cases hk
  | some s =>
    rw [he] at hk
    simp only [Option.any, Bool.and_eq_true, beq_iff_eq] at hk
    have hr : s.Reach := State.Reach.steps .init (exec_steps .refl (fun c hc => by
      simp only [wrun6, List.mem_cons, reduceCtorEq, List.not_mem_nil, or_false, false_or] at hc
      rcases hc with h | h | h | h <;> cases h
      · exact ⟨trivial, fun x hx => nomatch hx⟩
      · exact ⟨⟨by simp, by show Prefix.WF _; decide⟩, fun x hx => nomatch hx⟩
      · exact ⟨⟨by simp, by show Prefix.WF _; decide⟩, fun x hx => nomatch hx⟩
      · exact ⟨trivial, fun x hx => nomatch hx⟩) he)
    exact exec_one (L := setLib U128 (BitVec 64 × Bool) 650) hr (c := .walk wv (countStep6 96) (0#64, false)) trivial
      (fun x hx => by cases List.mem_singleton.mp hx; exact gotWv_known hk.1.1) hk.1.2 hk.2

example := C14_code (by decide) t3_reach (t3_at 12 rfl) (t3_at 13 rfl) (cb := fun _ u => (u, true)) (t3_at 12 rfl) (t3_at 13 rfl) fun _ => Iff.rfl
example := C16_code_maximal (by decide) t3_reach (t3_at 12 rfl) (t3_at 13 rfl)
example := C22_code (by decide) t3_reach (t3_at 14 rfl) (t3_at 15 rfl) trivial (by decide)

end Sample
end Addrs

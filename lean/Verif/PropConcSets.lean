import Verif.SetLin
import Verif.ConcProps
import Verif.PropConcTables
/-
  Properties C34–C38, C41 and C42 for sets: statements about every execution of the machine of
  `Verif/Machine.lean` running the calls of `Verif/HeapSetApi.lean`, with any number of goroutines and any
  interleaving.  `F` is the recursion depth that is available.
-/
set_option linter.unusedSectionVars false
namespace Addrs
open GoWord LawfulGoWord

section
variable {α σ : Type} [HeapFamily α] {F : Nat}

/-- the states of the machine for sets -/
abbrev SState (α σ : Type) [HeapFamily α] (F : Nat) := State (setLib α σ F)

/-! ### C37 -/

/-- The receiver of a call that ran from time `p` to time `q` was the set `S`: the set that a mutable set was
    at some time in between, the empty set if it is uninitialised, and what it is if it is a `Set`. -/
def SetRecv.During (s : SState α σ F) (p q : Nat) (r : SetRecv) (S : IPSet α) : Prop :=
  match r with
  | .set t => t.Holds s.mem S
  | .obj none => S = IPSet.empty
  | .obj (some o) => ∃ k ob, p < k ∧ k < q ∧ objAt s.log k o = some ob ∧ ob.Holds s.mem S

/-- the same for an argument -/
def SetArg.During (s : SState α σ F) (p q : Nat) (a : SetArg α) (A : IPSet α) : Prop :=
  match a with
  | .nil => A = IPSet.empty
  | .address x => A = (SetI.address x).toSet
  | .prefix x => A = (SetI.prefix x).toSet
  | .range r => A = (SetI.range r).toSet
  | .set t => t.Holds s.mem A
  | .obj none => A = IPSet.empty
  | .obj (some o) => ∃ k ob, p < k ∧ k < q ∧ objAt s.log k o = some ob ∧ ob.Holds s.mem A

/-- What a read returns, when its operands are the sets that `recv` and `arg` say. -/
def SCall.Reads (v : View α Empty) (recv : SetRecv → IPSet α → Prop) (arg : SetArg α → IPSet α → Prop)
    (z : SVal α σ) : SCall α σ → Prop
  | freeze h => ∃ S, recv (.obj h) S ∧ IsSet z v S
  | size r => ∃ S, recv r S ∧ z = .size S.size
  | isEmpty r => ∃ S, recv r S ∧ z = .bool S.isEmpty
  | contains r a => ∃ S A, recv r S ∧ arg a A ∧ z = .bool (S.contains (.set A))
  | equal_ h h' _ => ∃ S A, recv (.obj h) S ∧ arg (.obj h') A ∧ z = .bool (S.equal A)
  | equal t u => ∃ S A, recv (.set t) S ∧ arg (.set u) A ∧ z = .bool (S.equal A)
  | union r a => ∃ S A, recv r S ∧ arg a A ∧ IsSet z v (S.union (.set A))
  | intersection r a => ∃ S A, recv r S ∧ (arg a A ∨ r = .obj none) ∧ IsSet z v (S.intersection (.set A))
  | difference r a => ∃ S A, recv r S ∧ (arg a A ∨ r = .obj none) ∧ IsSet z v (S.difference (.set A))
  | walk t cb st => ∃ S, recv (.set t) S ∧ z = .walked (S.walkPrefixes cb st)
  | find t a n => ∃ S A, recv (.set t) S ∧ arg a A ∧ z = .found (S.findAvailablePrefix (.set A) n)
  | thaw t => ∃ S o, recv (.set t) S ∧ z = .handle o
  | _ => True

theorem SetRecv.Is.during (hF : setBound α ≤ F) {s : SState α σ F} (h : s.Reach) {i p q : Nat} {c : SCall α σ}
    {z : SVal α σ} (hp : s.log[p]? = some (.start i c)) (hq : s.log[q]? = some (.done i z)) {r : SetRecv}
    {evs : List (Event Empty)} {S : IPSet α} (hi : r.Is s.mem evs S) (he : ∀ e ∈ evs, e ∈ own i s.log) :
    r.During s p q S := by
  rcases r with (_ | o) | t
  · exact hi.2
  · obtain ⟨ob, rfl, h1⟩ := hi
    obtain ⟨k, h2, h3, h4⟩ := load_between (setLib_ok hF) h hp hq (he (.load o ob) (by simp))
    exact ⟨k, ob, h2, h3, h4, h1⟩
  · exact hi.2

theorem SetArg.Is.during (hF : setBound α ≤ F) {s : SState α σ F} (h : s.Reach) {i p q : Nat} {c : SCall α σ}
    {z : SVal α σ} (hp : s.log[p]? = some (.start i c)) (hq : s.log[q]? = some (.done i z)) {a : SetArg α}
    {evs : List (Event Empty)} {A : IPSet α} (hi : a.Is s.mem evs A) (he : ∀ e ∈ evs, e ∈ own i s.log) :
    a.During s p q A := by
  cases a with
  | obj o =>
    cases o with
    | none => exact hi.2
    | some o =>
      obtain ⟨ob, rfl, h1⟩ := hi
      obtain ⟨k, h2, h3, h4⟩ := load_between (setLib_ok hF) h hp hq (he (.load o ob) (by simp))
      exact ⟨k, ob, h2, h3, h4, h1⟩
  | nil => exact hi.2
  | address x => exact hi.2
  | «prefix» x => exact hi.2.1
  | range x => exact hi.2.1
  | set t => exact hi.2

theorem IPSet.empty_intersection (A : IPSet α) : IPSet.empty.intersection (.set A) = IPSet.empty := by
  show (⟨SetNode.intersect .nil A.trie⟩ : IPSet α) = ⟨.nil⟩
  rw [show SetNode.intersect .nil A.trie = .nil by cases A.trie <;> simp [SetNode.intersect]]

theorem IPSet.empty_difference (A : IPSet α) : IPSet.empty.difference (.set A) = IPSet.empty := by
  show (⟨SetNode.difference .nil A.trie⟩ : IPSet α) = ⟨.nil⟩
  rw [SetNode.difference_nil_left]

/-- what each read returned -/
theorem SCall.spec_reads {c : SCall α σ} {tr : List (Event Empty)} {z : SVal α σ} {v : View α Empty}
    (h : c.spec tr z v) : c.Reads v (fun r S => ∃ evs, (∀ e ∈ evs, e ∈ tr) ∧ r.Is v evs S)
      (fun a A => ∃ evs, (∀ e ∈ evs, e ∈ tr) ∧ a.Is v evs A) z := by
  have one : ∀ {r : SetRecv} {P : IPSet α → Prop}, SRead r P tr v →
      ∃ S, (∃ evs, (∀ e ∈ evs, e ∈ tr) ∧ r.Is v evs S) ∧ P S := by
    rintro r P ⟨S, h1, h2⟩
    exact ⟨S, ⟨tr, fun _ h => h, h1⟩, h2⟩
  have two : ∀ {r : SetRecv} {a : SetArg α} {P : IPSet α → IPSet α → Prop}, SRead2 r a P tr v →
      ∃ S A, (∃ evs, (∀ e ∈ evs, e ∈ tr) ∧ r.Is v evs S) ∧ (∃ evs, (∀ e ∈ evs, e ∈ tr) ∧ a.Is v evs A) ∧ P S A := by
    rintro r a P ⟨S, A, tr1, tr2, h1, h2, h3, h4⟩
    refine ⟨S, A, ⟨tr1, ?_, h1⟩, ⟨tr2, ?_, h2⟩, h4⟩ <;> intro e he <;> rcases h3 with rfl | rfl <;> simp [he]
  cases c with
  | new_ => trivial
  | insert hd a l => trivial
  | remove hd a l => trivial
  | freeze hd => exact one h
  | size r => exact one h
  | isEmpty r => exact one h
  | walk t cb st => exact one h
  | contains r a => exact two h
  | equal_ hd hd' l => exact two h
  | equal t u => exact two h
  | union r a => exact two h
  | find t a n => exact two h
  | thaw t =>
    obtain ⟨o, S, _, h2, h3⟩ := h
    exact ⟨S, o, ⟨[], by simp, rfl, h3⟩, h2⟩
  | intersection r a =>
    rcases h with ⟨rfl, rfl, rfl⟩ | h
    · exact ⟨IPSet.empty, IPSet.empty, ⟨[], by simp, rfl, rfl⟩, Or.inr rfl, .zero, rfl, by
        rw [IPSet.empty_intersection]
        exact ⟨.nil, .empty, rfl⟩⟩
    · obtain ⟨S, A, h1, h2, h3⟩ := two h
      exact ⟨S, A, h1, Or.inl h2, h3⟩
  | difference r a =>
    rcases h with ⟨rfl, rfl, rfl⟩ | h
    · exact ⟨IPSet.empty, IPSet.empty, ⟨[], by simp, rfl, rfl⟩, Or.inr rfl, .zero, rfl, by
        rw [IPSet.empty_difference]
        exact ⟨.nil, .empty, rfl⟩⟩
    · obtain ⟨S, A, h1, h2, h3⟩ := two h
      exact ⟨S, A, h1, Or.inl h2, h3⟩

theorem SCall.Reads.mono {c : SCall α σ} {v : View α Empty} {z : SVal α σ} {R R' : SetRecv → IPSet α → Prop}
    {A A' : SetArg α → IPSet α → Prop} (h : c.Reads v R A z) (hR : ∀ r S, R r S → R' r S)
    (hA : ∀ a S, A a S → A' a S) : c.Reads v R' A' z := by
  cases c with
  | new_ => trivial
  | insert hd a l => trivial
  | remove hd a l => trivial
  | freeze hd => obtain ⟨S, h1, h2⟩ := h; exact ⟨S, hR _ _ h1, h2⟩
  | size r => obtain ⟨S, h1, h2⟩ := h; exact ⟨S, hR _ _ h1, h2⟩
  | isEmpty r => obtain ⟨S, h1, h2⟩ := h; exact ⟨S, hR _ _ h1, h2⟩
  | walk t cb st => obtain ⟨S, h1, h2⟩ := h; exact ⟨S, hR _ _ h1, h2⟩
  | thaw t => obtain ⟨S, o, h1, h2⟩ := h; exact ⟨S, o, hR _ _ h1, h2⟩
  | contains r a => obtain ⟨S, A, h1, h2, h3⟩ := h; exact ⟨S, A, hR _ _ h1, hA _ _ h2, h3⟩
  | equal_ hd hd' l => obtain ⟨S, A, h1, h2, h3⟩ := h; exact ⟨S, A, hR _ _ h1, hA _ _ h2, h3⟩
  | equal t u => obtain ⟨S, A, h1, h2, h3⟩ := h; exact ⟨S, A, hR _ _ h1, hA _ _ h2, h3⟩
  | union r a => obtain ⟨S, A, h1, h2, h3⟩ := h; exact ⟨S, A, hR _ _ h1, hA _ _ h2, h3⟩
  | find t a n => obtain ⟨S, A, h1, h2, h3⟩ := h; exact ⟨S, A, hR _ _ h1, hA _ _ h2, h3⟩
  | intersection r a => obtain ⟨S, A, h1, h2, h3⟩ := h; exact ⟨S, A, hR _ _ h1, h2.imp (hA _ _) id, h3⟩
  | difference r a => obtain ⟨S, A, h1, h2, h3⟩ := h; exact ⟨S, A, hR _ _ h1, h2.imp (hA _ _) id, h3⟩

/-- Every read on sets (`Set()`, `NumAddresses`/`IsEmpty`, `Contains`, `Equal`, `Union`, …) that ran from time
    `p` to time `q` returns the answer for one set that each of its mutable operands was at some time in
    between. -/
theorem C37_set (hF : setBound α ≤ F) {s : SState α σ F} (h : s.Reach) {i p q : Nat} {c : SCall α σ} {z : SVal α σ}
    (hp : s.log[p]? = some (.start i c)) (hq : s.log[q]? = some (.done i z)) :
    c.Reads s.mem (SetRecv.During s p q) (SetArg.During s p q) z := by
  have hQ : c.spec (own i s.log) z s.mem :=
    done_spec' (setLib_ok hF) h (List.mem_of_getElem? hp) (List.mem_of_getElem? hq)
  exact (SCall.spec_reads hQ).mono (fun r S h1 => h1.choose_spec.2.during hF h hp hq h1.choose_spec.1)
    (fun a A h1 => h1.choose_spec.2.during hF h hp hq h1.choose_spec.1)

example := C37_set (by decide) Sample.t1_reach (i := 5) (p := 20) (q := 22) (by rw [Sample.t1_log]; rfl)
  (by rw [Sample.t1_log]; rfl)

/-! ### C34 -/

/-- Every `Set` that a program has stands for one set `S`, now and forever, and every read of it, made at any
    time, by any goroutine, whatever else has happened or is happening, returns what `S` says: nothing but `S`
    can be taken for it, as receiver or as argument. -/
theorem C34_set (hF : setBound α ≤ F) {s : SState α σ F} (h : s.Reach) {x : Obj Empty} (hx : s.Known x) :
    ∃ S : IPSet α, S.Reachable ∧ ∀ t, s.Steps t → x.Holds t.mem S ∧
      ∀ i (c : SCall α σ) z, .start i c ∈ t.log → .done i z ∈ t.log →
        c.Reads t.mem (fun r R => r = .set x → R = S) (fun a A => a = .set x → A = S) z := by
  have ok := setLib_ok (α := α) (σ := σ) hF
  obtain ⟨v, ⟨S, h1⟩, h3⟩ := known_good ok h hx
  refine ⟨S, h1.2.1, fun t ht => ⟨h1.mono (h3 t ht), ?_⟩⟩
  have hT := h1.mono (h3 t ht)
  intro i c z hs hd
  have hQ : c.spec (own i t.log) z t.mem := done_spec' ok (h.steps ht) hs hd
  refine (SCall.spec_reads hQ).mono ?_ ?_
  · rintro r R ⟨evs, _, h5⟩ rfl
    exact h5.2.functional hT
  · rintro a A ⟨evs, _, h5⟩ rfl
    exact h5.2.functional hT

/-- a snapshot that was taken, then its set was modified, cloned and the clone modified -/
example := C34_set (by decide) Sample.t1_reach Sample.y1_known

/-! ### C35 -/

/-- only `Insert` and `Remove` on a mutable set change it -/
theorem set_swap (hF : setBound α ≤ F) {s : SState α σ F} (h : s.Reach) {o m i : Nat} {x y : Ptr}
    (hm : At s.log m i (.swap o x y)) :
    ∃ a l, .start i (SCall.insert (some o) a l) ∈ s.log ∨ .start i (SCall.remove (some o) a l) ∈ s.log := by
  have ok := setLib_ok (α := α) (σ := σ) hF
  obtain ⟨g, inv, hist⟩ := h.inv' ok
  obtain ⟨c, κ, _, _, _, _, _, _, _, _, F⟩ := swap_facts ok setLin ⟨h, inv, hist⟩ hm
  have hr := F.role_
  have hs := F.start
  cases c with
  | insert hd a l =>
    cases hd <;> cases hr
    exact ⟨a, l, Or.inl hs⟩
  | remove hd a l =>
    cases hd <;> cases hr
    exact ⟨a, l, Or.inr hs⟩
  | freeze hd => cases hd <;> cases hr
  | size r => rcases r with (_ | o') | t <;> cases hr
  | isEmpty r => rcases r with (_ | o') | t <;> cases hr
  | contains r arg => rcases r with (_ | o') | t <;> cases hr
  | equal_ hd hd' l => cases hd <;> cases hr
  | union r arg => rcases r with (_ | o') | t <;> cases hr
  | intersection r arg => rcases r with (_ | o') | t <;> cases hr
  | difference r arg => rcases r with (_ | o') | t <;> cases hr
  | _ => cases hr

/-- A mutable set changes only through `Insert` and `Remove` on that very set. -/
theorem C35_set_own_writes (hF : setBound α ≤ F) {s : SState α σ F} (h : s.Reach) {o k l : Nat} {ob ob' : Obj Empty}
    (hkl : k ≤ l) (h1 : objAt s.log k o = some ob) (h2 : objAt s.log l o = some ob') (hne : ob ≠ ob') :
    ∃ m i x y a e, k ≤ m ∧ m < l ∧ At s.log m i (.swap o x y) ∧
      (.start i (SCall.insert (some o) a e) ∈ s.log ∨ .start i (SCall.remove (some o) a e) ∈ s.log) := by
  have ok := setLib_ok (α := α) (σ := σ) hF
  obtain ⟨g, inv, hist⟩ := h.inv' ok
  rcases last_swap inv.entryOk hkl h1 with h3 | ⟨p, j, x', y', ob'', h3, h4, h5, h6, h7, _⟩
  · rw [h2] at h3; cases h3; exact (hne rfl).elim
  · obtain ⟨a, e, hs⟩ := set_swap hF h h5
    exact ⟨p, j, x', y', a, e, h3, h4, h5, hs⟩

example := C35_set_own_writes (by decide) Sample.t1_reach (o := 0) (k := 9) (l := 20) (by decide)
  (by rw [Sample.t1_log]; rfl) (by rw [Sample.t1_log]; rfl) (ob := Sample.y1) (ob' := ⟨some 2, .nil⟩)
  (by intro h; cases h)

/-- `Set_()` and `NewSet_` return a new mutable set each time. -/
theorem C35_set_fresh (hF : setBound α ≤ F) {s : SState α σ F} (h : s.Reach) {i j o : Nat}
    (hi : .done i (.handle o) ∈ s.log) (hj : .done j (.handle o) ∈ s.log) : i = j := by
  have ok := setLib_ok (α := α) (σ := σ) hF
  obtain ⟨g, inv⟩ := h.inv ok
  have made : ∀ i, .done i (.handle o) ∈ s.log → ∃ ob, .act i (.made o ob) ∈ s.log := by
    intro i hi
    obtain ⟨c, h1, h2⟩ := inv.done_spec i _ hi
    have h2 : c.spec _ _ _ := h2
    have one : ∀ {r : SetRecv} {P : IPSet α → Prop}, SRead r P (own i s.log) g.fz → ∃ S, P S :=
      fun ⟨S, _, h⟩ => ⟨S, h⟩
    have two : ∀ {r : SetRecv} {a : SetArg α} {P : IPSet α → IPSet α → Prop}, SRead2 r a P (own i s.log) g.fz →
        ∃ S A, P S A := fun ⟨S, A, _, _, _, _, _, h⟩ => ⟨S, A, h⟩
    cases c with
    | new_ => obtain ⟨o', h3, h4⟩ := h2; cases h4; exact ⟨_, mem_own.mp (by rw [h3]; exact List.mem_singleton_self _)⟩
    | thaw t => obtain ⟨o', _, h3, h4, _⟩ := h2; cases h4; exact ⟨_, mem_own.mp (by rw [h3]; exact List.mem_singleton_self _)⟩
    | insert hd a l => obtain ⟨_, _, h3, _⟩ := h2; cases h3
    | remove hd a l => obtain ⟨_, _, h3, _⟩ := h2; cases h3
    | freeze hd => obtain ⟨_, _, h3, _⟩ := one h2; cases h3
    | size r => obtain ⟨_, h3⟩ := one h2; cases h3
    | isEmpty r => obtain ⟨_, h3⟩ := one h2; cases h3
    | walk t cb st => obtain ⟨_, h3⟩ := one h2; cases h3
    | contains r a => obtain ⟨_, _, h3⟩ := two h2; cases h3
    | equal_ hd hd' l => obtain ⟨_, _, h3⟩ := two h2; cases h3
    | equal t u => obtain ⟨_, _, h3⟩ := two h2; cases h3
    | find t a n => obtain ⟨_, _, h3⟩ := two h2; cases h3
    | union r a => obtain ⟨_, _, _, h3, _⟩ := two h2; cases h3
    | intersection r a =>
      rcases h2 with ⟨_, _, h3⟩ | h2
      · cases h3
      · obtain ⟨_, _, _, h3, _⟩ := two h2; cases h3
    | difference r a =>
      rcases h2 with ⟨_, _, h3⟩ | h2
      · cases h3
      · obtain ⟨_, _, _, h3, _⟩ := two h2; cases h3
  obtain ⟨ob, h1⟩ := made i hi
  obtain ⟨ob', h2⟩ := made j hj
  exact (made_once inv.entryOk h1 h2).1

example := C35_set_fresh (by decide) Sample.t2_reach (i := 7) (j := 7) (o := 1)
  (by rw [Sample.t2_log]; simp [Sample.slog2]) (by rw [Sample.t2_log]; simp [Sample.slog2])

/-- `t.Set_()` returns a mutable set `o` with the members of `t`. -/
theorem C35_set_clone (hF : setBound α ≤ F) {s : SState α σ F} (h : s.Reach) {i o : Nat} {t : Obj Empty}
    (hs : .start i (SCall.thaw t) ∈ s.log) (hd : .done i (.handle o) ∈ s.log) :
    ∃ m ob S, At s.log m i (.made o ob) ∧ objAt s.log m o = none ∧ objAt s.log (m + 1) o = some ob ∧
      t.Holds s.mem S ∧ ob.Holds s.mem S := by
  have ok := setLib_ok (α := α) (σ := σ) hF
  obtain ⟨g, inv⟩ := h.inv ok
  obtain ⟨o', S, h1, h2, h3⟩ := done_spec' ok h hs hd
  cases h2
  obtain ⟨m, hm⟩ := List.mem_iff_getElem?.mp (mem_own.mp (by rw [h1]; exact List.mem_singleton_self _))
  exact ⟨m, _, S, hm, (objAt_made inv.entryOk hm).1, (objAt_made inv.entryOk hm).2, h3, h3.1, h3.2.1, rfl⟩

example := C35_set_clone (by decide) Sample.t2_reach (i := 7) (o := 1) (t := Sample.y1)
  (by rw [Sample.t2_log]; simp [Sample.slog2]) (by rw [Sample.t2_log]; simp [Sample.slog2])

/-! ### C38 -/

/-- A call on sets panics only if another goroutine's write on the same mutable set took effect between two
    actions of the call; then the call itself has changed nothing. -/
theorem C38_set_panics (hF : setBound α ≤ F) {s : SState α σ F} (h : s.Reach) {i : Nat}
    (hp : s.threads[i]? = some (some .panic)) :
    (∃ o j k l m ob x y q a e, j ≠ i ∧ k < l ∧ l < m ∧ At s.log k i (.load o ob) ∧ At s.log l j (.swap o x y) ∧
      s.log[m]? = some (.fail i o q) ∧
      (.start j (SCall.insert (some o) a e) ∈ s.log ∨ .start j (SCall.remove (some o) a e) ∈ s.log)) ∧
    ∀ o x y, .act i (.swap o x y) ∉ s.log := by
  obtain ⟨o, j, k, l, m, ob, x, y, q, h1, h2, h3, h4, h5, h6, h7⟩ := panic_only_on_race (setLib_ok hF) h hp
  obtain ⟨a, e, h8⟩ := set_swap hF h h5
  exact ⟨⟨o, j, k, l, m, ob, x, y, q, a, e, h1, h2, h3, h4, h5, h6, h8⟩, h7⟩

/-- thread 3 has panicked -/
example := C38_set_panics (by decide) Sample.t1_reach Sample.t1_panic

/-- A call that has neither returned nor panicked can take a step, and never exceeds the available depth of
    recursion. -/
theorem C38_set_progress (hF : setBound α ≤ F) {s : SState α σ F} (h : s.Reach) {i : Nat}
    {P : Prog α Empty (SVal α σ)} (hi : s.threads[i]? = some (some P)) :
    P ≠ .stuck ∧ (P ≠ .panic → ∃ s', s.act i = some s') :=
  ⟨fun e => never_stuck (setLib_ok (σ := σ) hF) h (e ▸ hi), can_go_on (setLib_ok hF) h hi⟩

example := C38_set_progress (by decide) Sample.t1_reach Sample.t1_panic

/-- In every infinite execution, every call takes only finitely many steps. -/
theorem C38_set_terminates {f : Nat → SState α σ F} {lab : Nat → Label (setLib α σ F)} (h : Execution f lab)
    (i : Nat) : ∃ N, ∀ n, N ≤ n → lab n ≠ .act i := finitely_many_steps h i

/-- From every state, a call that runs alone returns or panics. -/
theorem C38_set_returns (hF : setBound α ≤ F) {s : SState α σ F} (h : s.Reach) {i : Nat}
    {P : Prog α Empty (SVal α σ)} (hi : s.threads[i]? = some (some P)) :
    ∃ t, State.Solo i s t ∧ ((∃ z, .done i z ∈ t.log) ∨ ∃ o q, .fail i o q ∈ t.log) :=
  run_to_end (setLib_ok hF) P h hi

example := C38_set_returns (by decide) Sample.t1_reach Sample.t1_panic

/-! ### C36 -/

/-- The calls on the mutable set `o` can be put in one order that contains every call that has returned and no
    call that has panicked, that respects real time, in which every call has the effect and the result on a
    plain set of addresses that it would have if the calls were made one after the other, and that ends with
    the present members. -/
def SetAtomic (s : SState α σ F) (o : Nat) : Prop := Linearizable SCall.role setAbs SCall.eff s o

/-- Full statement: `SetAtomic s o` for every reachable `s`.  It is false of the code (see
    `C36_set_resurrected_insert`); it holds if no `Remove` on the set overlaps an `Insert`: then every write takes
    effect atomically or panics. -/
theorem C36_set_partial (hF : setBound α ≤ F) {s : SState α σ F} (h : s.Reach) {o : Nat} (ho : o < s.objs.length)
    (disc : Disciplined SCall.role s.log o) : SetAtomic s o := linearizable (setLib_ok hF) setLin h ho disc

/-- any number of concurrent `Insert` calls (or any number of concurrent `Remove` calls) and any number of
    readers -/
theorem C36_set_oneKind_partial (hF : setBound α ≤ F) {s : SState α σ F} (h : s.Reach) {o : Nat}
    (ho : o < s.objs.length) (one : OneKind SCall.role s.log o) : SetAtomic s o :=
  C36_set_partial hF h ho (one.disciplined (setLib_ok hF) setLin h)

/-- two overlapping insertions, of which one panics, and readers -/
example := C36_set_oneKind_partial (by decide) Sample.t1_reach (o := 0) (by rw [Sample.t1_objs]; decide)
  Sample.t1_oneKind

/-- one writer at a time, and any number of readers -/
theorem C36_set_oneWriter_partial (hF : setBound α ≤ F) {s : SState α σ F} (h : s.Reach) {o : Nat}
    (ho : o < s.objs.length) (one : WritesApart SCall.role s.log o) : SetAtomic s o :=
  C36_set_partial hF h ho (one.disciplined (setLib_ok hF) setLin h)

/-- a removal and an insertion, one after the other -/
example := C36_set_oneWriter_partial (by decide) Sample.t2_reach (o := 1) (by rw [Sample.t2_objs]; decide)
  Sample.t2_apart

/-! ### C41 -/

/-- modifying an uninitialised `Set_` panics -/
theorem C41_set_write (a : SetArg α) (l : Bool) :
    (setLib α σ F).code (.insert none a l) = .panic ∧ (setLib α σ F).code (.remove none a l) = .panic :=
  ⟨rfl, rfl⟩

/-- an uninitialised `Set_` reads as empty -/
theorem C41_set_read (hF : setBound α ≤ F) {s : SState α σ F} (h : s.Reach) {i p q : Nat} {c : SCall α σ}
    {z : SVal α σ} (hp : s.log[p]? = some (.start i c)) (hq : s.log[q]? = some (.done i z)) :
    (c = .freeze none → IsSet z s.mem IPSet.empty) ∧
    (c = .size (.obj none) → z = .size (IPSet.empty (α := α)).size) ∧
    (c = .isEmpty (.obj none) → z = .bool true) ∧
    (∀ a, c = .contains (.obj none) a → ∃ A, a.During s p q A ∧ z = .bool (IPSet.empty.contains (.set A))) ∧
    (∀ a, c = .union (.obj none) a → ∃ A, a.During s p q A ∧ IsSet z s.mem (IPSet.empty.union (.set A))) ∧
    (∀ a, c = .intersection (.obj none) a → IsSet z s.mem IPSet.empty) ∧
    (∀ a, c = .difference (.obj none) a → IsSet z s.mem IPSet.empty) := by
  have hR := C37_set hF h hp hq
  refine ⟨?_, ?_, ?_, ?_, ?_, ?_, ?_⟩
  · rintro rfl; obtain ⟨_, rfl, h2⟩ := hR; exact h2
  · rintro rfl; obtain ⟨_, rfl, h2⟩ := hR; exact h2
  · rintro rfl
    obtain ⟨_, rfl, h2⟩ := hR
    rw [h2, (C12_isEmpty IPSet.empty .empty).mpr (by intro a; exact C12_nil a)]
  · rintro a rfl; obtain ⟨_, A, rfl, h2, h3⟩ := hR; exact ⟨A, h2, h3⟩
  · rintro a rfl; obtain ⟨_, A, rfl, h2, h3⟩ := hR; exact ⟨A, h2, h3⟩
  · rintro a rfl; obtain ⟨_, A, rfl, h2, h3⟩ := hR; exact IPSet.empty_intersection A ▸ h3
  · rintro a rfl; obtain ⟨_, A, rfl, h2, h3⟩ := hR; exact IPSet.empty_difference A ▸ h3

/-- nil as a `SetI` is the empty set `Set{}`, in every method except `FindAvailablePrefix`, which panics (see also
    `C41_findAvailable_nil`) -/
theorem C41_set_nil (h : Option Nat) (r : SetRecv) (t : Obj Empty) (l : Bool) (n : Nat) (hr : r ≠ .obj none) :
    let code := (setLib α σ F).code
    code (.insert h .nil l) = code (.insert h (.set .zero) l) ∧
    code (.remove h .nil l) = code (.remove h (.set .zero) l) ∧
    code (.contains r .nil) = code (.contains r (.set .zero)) ∧
    code (.union r .nil) = code (.union r (.set .zero)) ∧
    code (.intersection r .nil) = code (.intersection r (.set .zero)) ∧
    code (.difference r .nil) = code (.difference r (.set .zero)) ∧
    code (.contains (.obj none) .nil) = pure (.bool true) ∧
    code (.union (.obj none) .nil) = pure (.set .zero) ∧
    code (.find t .nil n) = .panic := by
  refine ⟨?_, ?_, ?_, ?_, ?_, ?_, rfl, rfl, rfl⟩
  · cases h <;> cases l <;> rfl
  · cases h <;> cases l <;> rfl
  · rcases r with (_ | o) | t
    · exact (hr rfl).elim
    · rfl
    · rfl
  · rcases r with (_ | o) | t <;> rfl
  · rcases r with (_ | o) | t <;> rfl
  · rcases r with (_ | o) | t <;> rfl

/-! ### C42 -/

/-- `t.Build(builder)` returned `x` (ipv4/set.go:182-188): goroutine `i` cloned `t` as `o`, the builder did
    whatever it did and returned `b`; if that was true, goroutine `j` then took the snapshot `x` of `o` between
    times `p` and `q`. -/
def SetBuildReturns (s : SState α σ F) (t x : Obj Empty) (b : Bool) (i o j p q : Nat) : Prop :=
  .start i (SCall.thaw t) ∈ s.log ∧ .done i (.handle o) ∈ s.log ∧
    if b then s.log[p]? = some (.start j (SCall.freeze (some o))) ∧ s.log[q]? = some (.done j (.set x))
    else x = t

/-- Whatever the builder and the rest of the program do: the original is the same set `S` before, during and
    after; the builder works on a new mutable set that starts with the members of `S` and changes only through
    writes on it (`C35_set_own_writes`); `Build` returns the original if the builder returns false, and
    otherwise the set that the mutable set was when the snapshot was taken. -/
theorem C42_set (hF : setBound α ≤ F) {s : SState α σ F} (h : s.Reach) {t x : Obj Empty} {b : Bool} {i o j p q : Nat}
    (hb : SetBuildReturns s t x b i o j p q) :
    ∃ S : IPSet α, S.Reachable ∧ (∀ s', s.Steps s' → t.Holds s'.mem S) ∧
      (∃ m ob, At s.log m i (.made o ob) ∧ objAt s.log m o = none ∧ objAt s.log (m + 1) o = some ob ∧
        ob.Holds s.mem S) ∧
      (b = false → x = t) ∧
      (b = true → ∃ k ob S', p < k ∧ k < q ∧ objAt s.log k o = some ob ∧ ob.Holds s.mem S' ∧ x.Holds s.mem S') := by
  obtain ⟨h1, h2, h3⟩ := hb
  have ok := setLib_ok (α := α) (σ := σ) hF
  obtain ⟨m, ob, S, g1, g2, g3, g5, g6⟩ := C35_set_clone hF h h1 h2
  have hk : ∃ v : View α Empty, t.Holds v S ∧ ∀ s', s.Steps s' → v ≤ s'.mem := by
    obtain ⟨g, inv⟩ := h.inv ok
    obtain ⟨c, hc, hQ⟩ := inv.done_spec i _ h2
    cases inv.start_uniq i _ _ h1 hc
    obtain ⟨_, S', _, _, e1⟩ := hQ
    cases (e1.mono inv.mem.fz_le).functional g5
    refine ⟨g.fz, e1, fun s' hs' => ?_⟩
    obtain ⟨g', inv', le⟩ := inv.steps ok hs'
    exact View.le_trans le inv'.mem.fz_le
  obtain ⟨v, hv, hle⟩ := hk
  refine ⟨S, g5.2.1, fun s' hs' => hv.mono (hle s' hs'), ⟨m, ob, g1, g2, g3, g6⟩, ?_, ?_⟩
  · rintro rfl; exact h3
  · rintro rfl
    obtain ⟨S', ⟨k, ob', k1, k2, k3, k4⟩, t', k5, k6⟩ := C37_set hF h h3.1 h3.2
    cases k5
    exact ⟨k, ob', S', k1, k2, k3, k4, k6⟩

example := C42_set (by decide) Sample.t2_reach (t := Sample.y1) (x := Sample.y2) (b := true) (i := 7) (o := 1)
  (j := 10) (p := 37) (q := 39) ⟨by rw [Sample.t2_log]; simp [Sample.slog2], by rw [Sample.t2_log]; simp [Sample.slog2],
    by rw [Sample.t2_log]; rfl, by rw [Sample.t2_log]; rfl⟩

end
end Addrs

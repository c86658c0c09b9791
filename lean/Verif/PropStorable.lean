import Verif.CutMachine
import Verif.ReadsCalm
import Verif.PropConcTables
import Verif.PropCode
import Verif.PropTableCustom
/-
  Property C69: tables of values that `==` cannot compare.
-/
set_option linter.unusedSectionVars false
namespace Addrs
open GoWord LawfulGoWord Prog

section
variable {α D σ : Type} [LawfulGoWord α] [Inhabited D] [Storable D] {F : Nat}

/-- the machine with tables of values of any type that can be stored -/
abbrev AState (α D σ : Type) [LawfulGoWord α] [Inhabited D] [Storable D] (F : Nat) :=
  State (@tableLib α D σ _ Storable.toGoType _ F)

/-- `TState α D σ F` is the machine with the same values if `==` never panicked. -/
local instance (priority := low) totalValues : Comparable D := Storable.total D

/-- the code of the calls if `==` never panicked -/
abbrev totalCode (c : TCall α D σ) : Prog α D (TVal α D σ) := @TCall.code α D σ _ (totalValues (D := D)).toGoType _ F c

theorem simCut {s : AState α D σ F} (h : s.Reach) :
    ∃ s' : TState α D σ F, s'.Reach ∧ SimCut (L := @tableLib α D σ _ Storable.toGoType _ F) (code := totalCode) s s' :=
  SimCut.reach (L := @tableLib α D σ _ Storable.toGoType _ F) (code := totalCode) (fun c => scut_code Storable.le F c) h

/-- Everything that happens with values that cannot be compared, all results of all calls and all changes of tables,
    can happen with values that can be compared: what is proved of the results and of the memory for these holds for
    those. -/
theorem C69_history {s : AState α D σ F} (h : s.Reach) :
    ∃ s' : TState α D σ F, s'.Reach ∧ s'.log = s.log ∧ s'.heap = s.heap ∧ s'.objs = s.objs := by
  obtain ⟨s', h1, m⟩ := simCut h
  exact ⟨s', h1, m.log, m.heap, m.objs⟩

/-- Every `Table` that a program has stands for one table, now and forever, and every read of it returns what that
    table says. -/
theorem C69_snapshots (hF : 2 * width α + 3 ≤ F) {s : AState α D σ F} (h : s.Reach) {x : Obj D} (hx : s.Known x) :
    ∃ T : Table α D, T.Reachable ∧ ∀ t, s.Steps t → x.Is t.mem T ∧
      ∀ i c z, .start i c ∈ t.log → .done i z ∈ t.log → TCall.ReadsAs x T t.mem z c := by
  obtain ⟨s', h1, m⟩ := simCut h
  obtain ⟨T, h2, h3⟩ := C34_table hF h1 (m.known.mpr hx)
  refine ⟨T, h2, fun t ht => ?_⟩
  obtain ⟨t', h4, m'⟩ := m.steps (L := @tableLib α D σ _ Storable.toGoType _ F) (fun c => scut_code Storable.le F c) ht
  have := h3 t' h4
  have e : State.mem t' = State.mem t := congrArg View.ofHeap m'.heap
  rw [e, m'.log] at this
  exact this

/-- A mutable table changes only through writes on that very table. -/
theorem C69_own_writes (hF : 2 * width α + 3 ≤ F) {s : AState α D σ F} (h : s.Reach) {o k l : Nat} {ob ob' : Obj D}
    (hkl : k ≤ l) (h1 : objAt s.log k o = some ob) (h2 : objAt s.log l o = some ob') (hne : ob ≠ ob') :
    ∃ m i x y p, k ≤ m ∧ m < l ∧ At s.log m i (.swap o x y) ∧ .start i (.op (some o) p) ∈ s.log ∧
      TableOp.writes p = true := by
  obtain ⟨s', h', m⟩ := simCut h
  rw [← m.log] at h1 h2 ⊢
  exact C35_table_own_writes hF h' hkl h1 h2 hne

/-- If no `Remove` on a mutable table overlaps a write of another kind, then every write on it takes effect
    atomically or panics, and reads see the table at one moment. -/
theorem C69_atomic (hF : 2 * width α + 3 ≤ F) {s : AState α D σ F} (h : s.Reach) {o : Nat} (ho : o < s.objs.length)
    (disc : Disciplined TCall.role s.log o) : Linearizable TCall.role tableAbs TCall.eff s o := by
  obtain ⟨s', h', m⟩ := simCut h
  rw [← m.log] at disc
  rw [← m.objs] at ho
  exact m.linearizable (C36_table_partial hF h' ho disc).1

/-- A call that has neither returned nor panicked can take a step, and never exceeds the available depth of
    recursion. -/
theorem C69_progress (hF : 2 * width α + 3 ≤ F) {s : AState α D σ F} (h : s.Reach) {i : Nat}
    {P : Prog α D (TVal α D σ)} (hi : s.threads[i]? = some (some P)) :
    P ≠ .stuck ∧ (P ≠ .panic → ∃ s', s.act i = some s') := by
  obtain ⟨s', h', m⟩ := simCut h
  obtain ⟨Q, hi', hc, _, _⟩ := m.runs i P hi
  obtain ⟨h1, h2⟩ := C38_table_progress hF h' hi'
  refine ⟨?_, fun hp => ?_⟩
  · rintro rfl
    cases hc
    exact h1 rfl
  · have hact : s.act i = s.actP i P := by unfold State.act; rw [hi]
    rw [hact]
    cases hc with
    | panic Q => exact (hp rfl).elim
    | stuck => exact (h1 rfl).elim
    | ret v => exact ⟨_, rfl⟩
    | alloc _ => exact ⟨_, rfl⟩
    | read _ => simp only [State.actP]; split <;> exact ⟨_, rfl⟩
    | write _ => simp only [State.actP]; split <;> exact ⟨_, rfl⟩
    | load _ => simp only [State.actP]; split <;> exact ⟨_, rfl⟩
    | cas _ _ => simp only [State.actP]; split <;> (try split) <;> exact ⟨_, rfl⟩
    | newObj _ => exact ⟨_, rfl⟩

/-- the calls that may compare values: writes, `Diff`, `Map` with a mapper, and `Aggregate` -/
def TCall.Compares : TCall α D σ → Prop
  | op _ o => o.writes = true
  | diff _ _ _ _ => True
  | map _ f _ => f ≠ none
  | aggregate _ => True
  | _ => False

theorem code_eq_of_some (hs : ∀ a b : D, (GoType.eqq a b).isSome = true) :
    (Storable.toGoType : GoType D) = (totalValues (D := D)).toGoType := by
  have : ∀ A B : GoType D, (∀ a b, A.eqq a b = B.eqq a b) → A = B := by
    rintro ⟨f⟩ ⟨g⟩ h
    have : f = g := funext fun a => funext fun b => h a b
    rw [this]
  refine this _ _ fun a b => ?_
  obtain ⟨x, hx⟩ := Option.isSome_iff_exists.mp (hs a b)
  exact hx.trans (Storable.le a b x hx).symm

/-- A call panics only if it lost a race, or if it is a call that may compare values and there are values that cannot
    be compared; and then the call itself has changed nothing. -/
theorem C69_panics (hF : 2 * width α + 3 ≤ F) {s : AState α D σ F} (h : s.Reach) {i : Nat}
    (hp : s.threads[i]? = some (some .panic)) :
    ((∃ o q, .fail i o q ∈ s.log) ∨ ((∃ c : TCall α D σ, .start i c ∈ s.log ∧ c.Compares) ∧ ∃ a b : D, GoType.eqq a b = none)) ∧
    ∀ o x y, .act i (.swap o x y) ∉ s.log := by
  obtain ⟨s', h', m⟩ := simCut h
  obtain ⟨Q, hi', hc, hsw, c, hs, hcode⟩ := m.runs i _ hp
  have bad : Q = .panic → (∃ o q, .fail i o q ∈ s.log) ∧ ∀ o x y, .act i (.swap o x y) ∉ s.log := by
    rintro rfl
    obtain ⟨⟨o, j, k, l, m', ob, x, y, q, p, h1, h2, h3, h4, h5, h6, h7, h8⟩, h9⟩ := C38_table_panics hF h' hi'
    rw [m.log] at h6 h9
    exact ⟨⟨o, q, List.mem_of_getElem? h6⟩, h9⟩
  constructor
  · by_cases hq : Q = .panic
    · exact Or.inl (bad hq).1
    · refine Or.inr ⟨⟨c, hs, ?_⟩, ?_⟩
      · apply Classical.byContradiction
        intro hn
        refine hq (hcode ?_).symm
        refine code_eq F ?_ ?_ ?_ ?_
        · cases c with
          | op r o =>
            cases e : o.writes with
            | true => exact (hn e).elim
            | false => exact e
          | _ => rfl
        · rintro t u cb s rfl; exact hn trivial
        · rintro t f s rfl; exact hn (by simp [TCall.Compares])
        · rintro t rfl; exact hn trivial
      · apply Classical.byContradiction
        intro hn
        refine hq (hcode ?_).symm
        have : ∀ a b : D, (GoType.eqq a b).isSome = true := fun a b => by
          cases e : (GoType.eqq a b : Option Bool) with
          | none => exact (hn ⟨a, b, e⟩).elim
          | some x => rfl
        have e := code_eq_of_some this
        show @TCall.code α D σ _ Storable.toGoType _ F c = @TCall.code α D σ _ (totalValues (D := D)).toGoType _ F c
        rw [e]
  · intro o x y hx
    exact (bad (hsw ⟨o, x, y, hx⟩).symm).2 o x y hx

/-- Calls that compare no values never panic. -/
theorem C69_reads (hF : 2 * width α + 3 ≤ F) {s : AState α D σ F} (h : s.Reach) {i : Nat} {c : TCall α D σ} (hs : .start i c ∈ s.log)
    (hc : ¬ c.Compares) : s.threads[i]? ≠ some (some .panic) := by
  intro hp
  have hw : c.writes = false := by
    cases c with
    | op r o =>
      cases e : o.writes with
      | true => exact (hc e).elim
      | false => exact e
    | _ => rfl
  rcases (C69_panics hF h hp).1 with ⟨o, q, hf⟩ | ⟨⟨c', hs', hc'⟩, _⟩
  · exact h.no_fail hs (c.noSwap hw) o q hf
  · have e : c' = c := h.failsOk.once i c' c hs' hs
    exact hc (e ▸ hc')

end

/-! ### A table of slices -/

namespace Slices
open Sample (c1 c2 c1_wf c2_wf)
open Custom (sliceEq snap)

/-- tables of slices with IPv4 prefixes -/
abbrev GLib := @tableLib (BitVec 32) GoSlice Unit _ Storable.toGoType _ 67

/-- A table of slices gets an entry for 10.0.0.0/8, a snapshot is taken, then an entry for 10.1.0.0/16 is to be inserted,
    which panics; then the snapshot is read. -/
def prog : List (Sched GLib) :=
  [.call (.newCustom sliceEq), .finish 0, .call (.op (some 0) (.insert c1 ⟨[1]⟩)), .finish 1,
   .call (.freeze (some 0)), .finish 2, .call (.op (some 0) (.insert c2 ⟨[2]⟩)), .finish 3]

set_option maxRecDepth 100000 in
theorem prog_ok : (exec State.init prog).isSome := rfl
def before : AState (BitVec 32) GoSlice Unit 67 := final prog prog_ok
theorem before_panic : before.threads[3]? = some (some .panic) := by
  set_option maxRecDepth 100000 in rfl
def beforeLog : List (Entry GoSlice GLib.Call GLib.Val) :=
  [.start 0 (.newCustom sliceEq), .act 0 (.made 0 ⟨none, .custom sliceEq⟩), .done 0 (.handle 0),
   .start 1 (.op (some 0) (.insert c1 ⟨[1]⟩)), .act 1 (.load 0 ⟨none, .custom sliceEq⟩),
   .act 1 (.load 0 ⟨none, .custom sliceEq⟩), .act 1 (.swap 0 none (some 0)), .done 1 (.result (.bool true)),
   .start 2 (.freeze (some 0)), .act 2 (.load 0 snap), .done 2 (.table snap),
   .start 3 (.op (some 0) (.insert c2 ⟨[2]⟩)), .act 3 (.load 0 snap), .act 3 (.load 0 snap)]
set_option maxRecDepth 100000 in
theorem before_log : before.log = beforeLog := rfl
theorem before_objs : before.objs = [snap] := by
  set_option maxRecDepth 100000 in rfl
theorem before_reach : before.Reach := by
  refine final_reach prog_ok ?_
  intro c hc
  simp only [prog, List.mem_cons, reduceCtorEq, List.not_mem_nil, or_false, false_or] at hc
  rcases hc with h | h | h | h <;> cases h
  · exact ⟨trivial, rfl⟩
  · exact ⟨fun _ => ⟨c1_wf, by simp⟩, rfl⟩
  · exact ⟨trivial, rfl⟩
  · exact ⟨fun _ => ⟨c2_wf, by simp⟩, rfl⟩
theorem snap_known : before.Known snap :=
  Or.inr ⟨2, .table snap, by rw [before_log]; simp [beforeLog], List.mem_singleton_self _⟩

example := C69_history before_reach
example := C69_snapshots (by decide) before_reach snap_known
/-- between the start and the end the first `Insert` took effect -/
example := C69_own_writes (by decide) before_reach (o := 0) (k := 2) (l := 14) (ob := ⟨none, .custom sliceEq⟩) (ob' := snap)
  (by decide) (by rw [before_log]; rfl) (by rw [before_log]; rfl) (by simp [snap])
/-- no call is a `Remove` -/
example := C69_atomic (by decide) before_reach (o := 0) (by rw [before_objs]; decide)
  (by
    intro i j c d κ hx hi hj hc
    obtain ⟨_, k, p, l, ob, x, y, e, _, _, _, hp, _⟩ := hx
    have hp : Entry.act j (.swap 0 x y) ∈ before.log := List.mem_of_getElem? hp
    rw [before_log] at hi hj hp
    simp only [beforeLog, List.mem_cons, reduceCtorEq, List.not_mem_nil, or_false, false_or, Entry.act.injEq,
      Event.swap.injEq, and_false] at hp
    obtain ⟨rfl, _⟩ := hp
    have hj := (List.mem_filter (p := fun e : Entry GoSlice GLib.Call GLib.Val => match e with | .start _ _ => true | _ => false)).mpr ⟨hj, rfl⟩
    have hi := (List.mem_filter (p := fun e : Entry GoSlice GLib.Call GLib.Val => match e with | .start _ _ => true | _ => false)).mpr ⟨hi, rfl⟩
    rcases List.mem_cons.mp hj with h | hj
    · cases h
    rcases List.mem_cons.mp hj with h | hj
    · cases h
      rcases List.mem_cons.mp hi with h | hi
      · cases h; cases hc
      rcases List.mem_cons.mp hi with h | hi
      · cases h; exact hc
      rcases List.mem_cons.mp hi with h | hi
      · cases h; cases hc
      rcases List.mem_cons.mp hi with h | hi
      · cases h; exact hc
      · cases hi
    rcases List.mem_cons.mp hj with h | hj
    · cases h
    rcases List.mem_cons.mp hj with h | hj
    · cases h
    · cases hj)
example := C69_progress (by decide) before_reach before_panic
/-- the `Insert` below 10.0.0.0/8 -/
example := C69_panics (by decide) before_reach before_panic

/-- the snapshot -/
example := C69_reads (by decide) before_reach (i := 2) (c := .freeze (some 0)) (by rw [before_log]; simp [beforeLog]) (fun h => h)

end Slices
end Addrs

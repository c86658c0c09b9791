import Verif.RaceInv
import Verif.NoSwap
import Verif.ConcSamples
/-
  C61: data races.
-/
set_option linter.unusedSectionVars false
namespace Addrs
open GoWord LawfulGoWord

/-! ### Running the machine, with the accesses -/

section
variable {α D : Type} {L : Lib α D}

/-- execute a schedule of calls and single steps, recording the accesses -/
def execT (s : State L) : List (Sched L) → Option (History L.Call L.Val × State L)
  | [] => some ([], s)
  | .call c :: r =>
    if (L.refs c).all (fun o => decide (o < s.objs.length)) then
      (execT (s.spawn c) r).map fun x => ((s.threads.length, .start c) :: x.1, x.2)
    else none
  | .step i :: r =>
    match s.threads[i]? with
    | some (some P) =>
      match s.label P, s.actP i P with
      | some a, some s' => (execT s' r).map fun x => ((i, a) :: x.1, x.2)
      | _, _ => none
    | _ => none
  | .finish _ :: _ => none

theorem execT_trace {l : List (Sched L)} {s : State L} {T U : History L.Call L.Val} {t : State L} (h : Trace T s)
    (hl : ∀ c, .call c ∈ l → L.pre c ∧ ∀ x ∈ L.vals c, s.Known x) (he : execT s l = some (U, t)) : Trace (T ++ U) t := by
  induction l generalizing s T U with
  | nil => cases he; rwa [List.append_nil]
  | cons x l ih =>
    have hl' : ∀ s', s.Steps s' → ∀ c, .call c ∈ l → L.pre c ∧ ∀ x ∈ L.vals c, s'.Known x := fun s' hs c hc => by
      obtain ⟨h1, h2⟩ := hl c (List.mem_cons_of_mem _ hc)
      exact ⟨h1, fun x hx => hs.known (h2 x hx)⟩
    cases x with
    | call c =>
      simp only [execT] at he
      split at he
      · next hr =>
        obtain ⟨⟨U', t'⟩, h1, h2⟩ := Option.map_eq_some_iff.mp he
        cases h2
        obtain ⟨h3, h4⟩ := hl c (List.mem_cons_self ..)
        have hc : s.CanStart c := ⟨h3, fun o ho => of_decide_eq_true (List.all_eq_true.mp hr o ho), h4⟩
        have := ih (.spawn c h hc) (hl' _ (.step _ _ .refl (.spawn c hc))) h1
        rwa [List.append_assoc] at this
      · cases he
    | step i =>
      simp only [execT] at he
      split at he
      · next P hP =>
        split at he
        · next a s' ha hs' =>
          obtain ⟨⟨U', t'⟩, h1, h2⟩ := Option.map_eq_some_iff.mp he
          cases h2
          have hact : s.act i = some s' := by unfold State.act; rw [hP]; exact hs'
          have := ih (.act h hP ha hs') (hl' _ (.step _ _ .refl (.act i s' hact))) h1
          rwa [List.append_assoc] at this
        · cases he
      · cases he
    | finish i => cases he

end

/-! ### Tables -/

section
variable {α D σ : Type} [LawfulGoWord α] [Inhabited D] [Comparable D] {F : Nat}

/-- If the arguments of the calls were handed over and a write to a `Table_` does not overlap with another call
    on the same `Table_`, there is no data race.  Nothing is asked of calls on `Table` values, which any number of
    goroutines can use at once, also while the `Table_` they come from is being written. -/
theorem C61_tables_partial (hF : 2 * width α + 3 ≤ F) {T : History (tableLib α D σ F).Call (tableLib α D σ F).Val}
    {s : State (tableLib α D σ F)} {S : Nat → Nat → Prop} (h : Trace T s) (ho : HandedOver false T S)
    (hw : WritersAlone TCall.writes false T S) (p q : Nat) : ¬ Race false T S p q :=
  no_race (tableLib_ok (α := α) (D := D) (σ := σ) hF) h ho
    ((h.inv (tableLib_ok (α := α) (D := D) (σ := σ) hF)).alone h (w := TCall.writes) (fun c hc => TCall.noSwap c hc) ho hw) p q

/-- If the code read the roots of `Table_` with atomic operations, there would be no data race in any execution. -/
theorem C61_tables_atomic_partial (hF : 2 * width α + 3 ≤ F) {T : History (tableLib α D σ F).Call (tableLib α D σ F).Val}
    {s : State (tableLib α D σ F)} {S : Nat → Nat → Prop} (h : Trace T s) (ho : HandedOver true T S)
    (p q : Nat) : ¬ Race true T S p q :=
  no_race_atomic (tableLib_ok (α := α) (D := D) (σ := σ) hF) h ho p q

end

/-! ### Sets -/

section
variable {α σ : Type} [QuietFamily α] {F : Nat}

/-- If the arguments of the calls were handed over and a write to a `Set_` does not overlap with another call
    on the same `Set_`, there is no data race.  Nothing is asked of calls on `Set` values. -/
theorem C61_sets_partial (hF : setBound α ≤ F) {T : History (setLib α σ F).Call (setLib α σ F).Val}
    {s : State (setLib α σ F)} {S : Nat → Nat → Prop} (h : Trace T s) (ho : HandedOver false T S)
    (hw : WritersAlone SCall.writes false T S) (p q : Nat) : ¬ Race false T S p q :=
  no_race (setLib_ok (α := α) (σ := σ) hF) h ho
    ((h.inv (setLib_ok (α := α) (σ := σ) hF)).alone h (w := SCall.writes) (fun c hc => SCall.noSwap c hc) ho hw) p q

/-- If the code read the roots of `Set_` with atomic operations, there would be no data race in any execution. -/
theorem C61_sets_atomic_partial (hF : setBound α ≤ F) {T : History (setLib α σ F).Call (setLib α σ F).Val}
    {s : State (setLib α σ F)} {S : Nat → Nat → Prop} (h : Trace T s) (ho : HandedOver true T S)
    (p q : Nat) : ¬ Race true T S p q :=
  no_race_atomic (setLib_ok (α := α) (σ := σ) hF) h ho p q

end

/-! ### Races -/

namespace Sample

/-- a `Table_` is made; then one goroutine inserts while another one reads -/
def raceRun : List (Sched TL) :=
  [.call .new_, .step 0, .step 0, .call (.op (some 0) (.insert c1 7)), .call (.op (some 0) (.get c1)),
   .step 2, .step 1, .step 1, .step 1, .step 1, .step 1, .step 1, .step 1]
def raceT : History TL.Call TL.Val :=
  [(0, .start .new_), (0, .made 0), (0, .done (.handle 0)), (1, .start (.op (some 0) (.insert c1 7))),
   (2, .start (.op (some 0) (.get c1))), (2, .load 0), (1, .load 0), (1, .load 0), (1, .alloc 0), (1, .read 0),
   (1, .write 0), (1, .write 0), (1, .cas 0 true)]
set_option maxRecDepth 100000 in
theorem raceT_ok : (execT State.init raceRun).map Prod.fst = some raceT := rfl

/-- a `Set_` is made; then one goroutine inserts while another one reads -/
def raceRunS : List (Sched SL) :=
  [.call .new_, .step 0, .step 0, .call (.insert (some 0) b1 false), .call (.contains (.obj (some 0)) b1),
   .step 2, .step 1, .step 1, .step 1, .step 1]
def raceTS : History SL.Call SL.Val :=
  [(0, .start .new_), (0, .made 0), (0, .done (.handle 0)), (1, .start (.insert (some 0) b1 false)),
   (2, .start (.contains (.obj (some 0)) b1)), (2, .load 0), (1, .load 0), (1, .load 0), (1, .alloc 0), (1, .cas 0 true)]
set_option maxRecDepth 100000 in
theorem raceTS_ok : (execT State.init raceRunS).map Prod.fst = some raceTS := rfl

/-- the making of the object happens before both calls -/
def raceS (p q : Nat) : Prop := p = 2 ∧ (q = 3 ∨ q = 4)

theorem trace_of {α D : Type} {L : Lib α D} {l : List (Sched L)} {T : History L.Call L.Val}
    (hl : ∀ c, .call c ∈ l → L.pre c ∧ L.vals c = []) (h : (execT State.init l).map Prod.fst = some T) : ∃ s, Trace (L := L) T s := by
  obtain ⟨⟨U, t⟩, h1, h2⟩ := Option.map_eq_some_iff.mp h
  cases h2
  exact ⟨t, execT_trace (T := []) .init (fun c hc => ⟨(hl c hc).1, by rw [(hl c hc).2]; simp⟩) h1⟩

/-- thread 2 has synchronised with no other -/
theorem from2 {C V : Type} {T : History C V} (h1 : ∀ p v, ¬ StepAt T p 2 (.done v)) (h2 : ∀ p o ok, ¬ StepAt T p 2 (.cas o ok))
    {S : Nat → Nat → Prop} {p q : Nat} (h : HB false T S p q) : (∃ x, StepAt T p 2 x) → ∃ y, StepAt T q 2 y := by
  induction h with
  | po _ h3 h4 =>
    rintro ⟨x, hx⟩
    obtain ⟨rfl, _⟩ := hx.uniq h3
    exact ⟨_, h4⟩
  | sync _ h3 _ _ =>
    rintro ⟨x, hx⟩
    obtain ⟨rfl, _⟩ := hx.uniq h3
    exact (h1 _ _ h3).elim
  | atomic _ h3 _ _ _ =>
    rintro ⟨x, hx⟩
    obtain ⟨rfl, _⟩ := hx.uniq h3
    exact (h2 _ _ _ h3).elim
  | trans _ _ ih1 ih2 => exact fun h => ih2 (ih1 h)


theorem raceT_handed : HandedOver (L := TL) false raceT raceS := by
  intro q j c h
  have hd : StepAt raceT 2 0 (.done (.handle 0)) := rfl
  have hm : StepAt raceT 1 0 (.made 0) := rfl
  rcases q with _ | _ | _ | _ | _ | _ | _ | _ | _ | _ | _ | _ | _ | q <;> simp [StepAt, raceT] at h
  · obtain ⟨rfl, h⟩ := h; cases h
    exact ⟨(by intro x hx; cases hx), (by intro o ho; cases ho)⟩
  · obtain ⟨rfl, h⟩ := h; cases h
    refine ⟨(by intro x hx; cases hx), ?_⟩
    intro o ho
    cases List.mem_singleton.mp ho
    exact ⟨1, 2, 0, _, hm, hd, .sync (by decide) hd (rfl : StepAt raceT 3 1 (.start _)) ⟨rfl, by simp⟩⟩
  · obtain ⟨rfl, h⟩ := h; cases h
    refine ⟨(by intro x hx; cases hx), ?_⟩
    intro o ho
    cases List.mem_singleton.mp ho
    exact ⟨1, 2, 0, _, hm, hd, .sync (by decide) hd (rfl : StepAt raceT 4 2 (.start _)) ⟨rfl, by simp⟩⟩

theorem raceT_race : Race false raceT raceS 5 12 := by
  refine ⟨by decide, 2, 1, .load 0, .cas 0 true, .root 0, rfl, rfl, by decide, rfl, rfl, Or.inr rfl, by simp [Access.atomic], ?_⟩
  intro h
  have h1 : ∀ p v, ¬ StepAt raceT p 2 (.done v) := by
    intro p v h
    have := List.mem_of_getElem? h
    simp [raceT] at this
  have h2 : ∀ p o ok, ¬ StepAt raceT p 2 (.cas o ok) := by
    intro p o ok h
    have := List.mem_of_getElem? h
    simp [raceT] at this
  obtain ⟨y, hy⟩ := from2 h1 h2 h ⟨.load 0, rfl⟩
  simp [StepAt, raceT] at hy

theorem raceT_trace : ∃ s, Trace (L := TL) raceT s := by
  refine trace_of (l := raceRun) ?_ raceT_ok
  intro c hc
  simp only [raceRun, List.mem_cons, reduceCtorEq, List.not_mem_nil, or_false, false_or] at hc
  rcases hc with h | h | h <;> cases h
  · exact ⟨trivial, rfl⟩
  · exact ⟨fun _ => ⟨c1_wf, by simp⟩, rfl⟩
  · exact ⟨fun _ => ⟨c1_wf, by simp⟩, rfl⟩

theorem raceTS_handed : HandedOver (L := SL) false raceTS raceS := by
  intro q j c h
  have hd : StepAt raceTS 2 0 (.done (.handle 0)) := rfl
  have hm : StepAt raceTS 1 0 (.made 0) := rfl
  rcases q with _ | _ | _ | _ | _ | _ | _ | _ | _ | _ | q <;> simp [StepAt, raceTS] at h
  · obtain ⟨rfl, h⟩ := h; cases h
    exact ⟨(by intro x hx; cases hx), (by intro o ho; cases ho)⟩
  · obtain ⟨rfl, h⟩ := h; cases h
    refine ⟨(by intro x hx; cases hx), ?_⟩
    intro o ho
    cases List.mem_singleton.mp ho
    exact ⟨1, 2, 0, _, hm, hd, .sync (by decide) hd (rfl : StepAt raceTS 3 1 (.start _)) ⟨rfl, by simp⟩⟩
  · obtain ⟨rfl, h⟩ := h; cases h
    refine ⟨(by intro x hx; cases hx), ?_⟩
    intro o ho
    cases List.mem_singleton.mp ho
    exact ⟨1, 2, 0, _, hm, hd, .sync (by decide) hd (rfl : StepAt raceTS 4 2 (.start _)) ⟨rfl, by simp⟩⟩

theorem raceTS_race : Race false raceTS raceS 5 9 := by
  refine ⟨by decide, 2, 1, .load 0, .cas 0 true, .root 0, rfl, rfl, by decide, rfl, rfl, Or.inr rfl, by simp [Access.atomic], ?_⟩
  intro h
  have h1 : ∀ p v, ¬ StepAt raceTS p 2 (.done v) := by
    intro p v h
    have := List.mem_of_getElem? h
    simp [raceTS] at this
  have h2 : ∀ p o ok, ¬ StepAt raceTS p 2 (.cas o ok) := by
    intro p o ok h
    have := List.mem_of_getElem? h
    simp [raceTS] at this
  obtain ⟨y, hy⟩ := from2 h1 h2 h ⟨.load 0, rfl⟩
  simp [StepAt, raceTS] at hy

theorem raceTS_trace : ∃ s, Trace (L := SL) raceTS s := by
  refine trace_of (l := raceRunS) ?_ raceTS_ok
  intro c hc
  simp only [raceRunS, List.mem_cons, reduceCtorEq, List.not_mem_nil, or_false, false_or] at hc
  rcases hc with h | h | h <;> cases h
  · exact ⟨trivial, rfl⟩
  · exact ⟨⟨by simp, trivial⟩, rfl⟩
  · exact ⟨trivial, rfl⟩

/-- a `Table_` is made and an entry inserted; then two goroutines read at the same time -/
def calmRun : List (Sched TL) :=
  [.call .new_, .step 0, .step 0, .call (.op (some 0) (.insert c1 7)), .step 1, .step 1, .step 1, .step 1, .step 1, .step 1, .step 1, .step 1,
   .call (.op (some 0) (.get c1)), .call (.longest (some 0) c1), .step 2, .step 2, .step 3, .step 3]
def calmT : History TL.Call TL.Val :=
  [(0, .start .new_), (0, .made 0), (0, .done (.handle 0)), (1, .start (.op (some 0) (.insert c1 7))),
   (1, .load 0), (1, .load 0), (1, .alloc 0), (1, .read 0), (1, .write 0), (1, .write 0), (1, .cas 0 true),
   (1, .done (.result (.bool true))), (2, .start (.op (some 0) (.get c1))), (3, .start (.longest (some 0) c1)),
   (2, .load 0), (2, .read 0), (3, .load 0), (3, .read 0)]
set_option maxRecDepth 100000 in
theorem calmT_ok : (execT State.init calmRun).map Prod.fst = some calmT := rfl
/-- the calls follow each other, but for the two reads -/
def calmS (p q : Nat) : Prop := (p = 2 ∧ q = 3) ∨ (p = 11 ∧ (q = 12 ∨ q = 13))

theorem calmT_trace : ∃ s, Trace (L := TL) calmT s := by
  refine trace_of (l := calmRun) ?_ calmT_ok
  intro c hc
  simp only [calmRun, List.mem_cons, reduceCtorEq, List.not_mem_nil, or_false, false_or] at hc
  rcases hc with h | h | h | h <;> cases h
  · exact ⟨trivial, rfl⟩
  · exact ⟨fun _ => ⟨c1_wf, by simp⟩, rfl⟩
  · exact ⟨fun _ => ⟨c1_wf, by simp⟩, rfl⟩
  · exact ⟨trivial, rfl⟩

theorem calm_hb (q : Nat) (hq : q = 12 ∨ q = 13) : HB false calmT calmS 11 q := by
  have hd : StepAt calmT 11 1 (.done (.result (.bool true))) := rfl
  rcases hq with rfl | rfl
  · exact .sync (by decide) hd (rfl : StepAt calmT 12 2 (.start _)) (Or.inr ⟨rfl, by simp⟩)
  · exact .sync (by decide) hd (rfl : StepAt calmT 13 3 (.start _)) (Or.inr ⟨rfl, by simp⟩)

theorem calmT_handed : HandedOver (L := TL) false calmT calmS := by
  intro q j c h
  have hd : StepAt calmT 2 0 (.done (.handle 0)) := rfl
  have hm : StepAt calmT 1 0 (.made 0) := rfl
  have h3 : HB false calmT calmS 2 3 := .sync (by decide) hd (rfl : StepAt calmT 3 1 (.start _)) (Or.inl ⟨rfl, rfl⟩)
  have h11 : HB false calmT calmS 2 11 :=
    .trans h3 (.po (by decide) (rfl : StepAt calmT 3 1 (.start _)) (rfl : StepAt calmT 11 1 (.done _)))
  rcases q with _ | _ | _ | _ | _ | _ | _ | _ | _ | _ | _ | _ | _ | _ | _ | _ | _ | _ | q <;> simp [StepAt, calmT] at h
  · obtain ⟨rfl, h⟩ := h; cases h
    exact ⟨(by intro x hx; cases hx), (by intro o ho; cases ho)⟩
  · obtain ⟨rfl, h⟩ := h; cases h
    refine ⟨(by intro x hx; cases hx), ?_⟩
    intro o ho
    cases List.mem_singleton.mp ho
    exact ⟨1, 2, 0, _, hm, hd, h3⟩
  · obtain ⟨rfl, h⟩ := h; cases h
    refine ⟨(by intro x hx; cases hx), ?_⟩
    intro o ho
    cases List.mem_singleton.mp ho
    exact ⟨1, 2, 0, _, hm, hd, .trans h11 (calm_hb 12 (by simp))⟩
  · obtain ⟨rfl, h⟩ := h; cases h
    refine ⟨(by intro x hx; cases hx), ?_⟩
    intro o ho
    cases List.mem_singleton.mp ho
    exact ⟨1, 2, 0, _, hm, hd, .trans h11 (calm_hb 13 (by simp))⟩

theorem calmT_starts {q j : Nat} {c : TL.Call} (h : StepAt calmT q j (.start c)) :
    (j = 0 ∧ c = .new_) ∨ (j = 1 ∧ c = .op (some 0) (.insert c1 7)) ∨ (j = 2 ∧ c = .op (some 0) (.get c1)) ∨
      (j = 3 ∧ c = .longest (some 0) c1) := by
  have hlt := h.lt
  rw [show calmT.length = 18 from rfl] at hlt
  unfold StepAt at h
  iterate 18 rcases q with _ | q; · simp [calmT] at h <;> (obtain ⟨rfl, h⟩ := h; cases h; simp; rfl)
  omega

theorem calmT_alone : WritersAlone (L := TL) TCall.writes false calmT calmS := by
  intro p q i j c c' o hij hp hq ho ho' hw
  rcases calmT_starts hp with ⟨rfl, rfl⟩ | ⟨rfl, rfl⟩ | ⟨rfl, rfl⟩ | ⟨rfl, rfl⟩ <;> first | (cases hw; done) | skip
  rcases calmT_starts hq with ⟨rfl, rfl⟩ | ⟨rfl, rfl⟩ | ⟨rfl, rfl⟩ | ⟨rfl, rfl⟩
  · cases ho'
  · exact (hij rfl).elim
  · exact ⟨11, 12, _, _, calm_hb 12 (by simp), Or.inl ⟨rfl, rfl⟩⟩
  · exact ⟨11, 13, _, _, calm_hb 13 (by simp), Or.inl ⟨rfl, rfl⟩⟩

/-- two goroutines read at the same time what a third one has written -/
example : ∃ s, Trace (L := TL) calmT s ∧ HandedOver (L := TL) false calmT calmS ∧ WritersAlone (L := TL) TCall.writes false calmT calmS ∧
    StepAt calmT 8 1 (.write 0) ∧ StepAt calmT 15 2 (.read 0) ∧ StepAt calmT 17 3 (.read 0) := by
  obtain ⟨s, hs⟩ := calmT_trace
  exact ⟨s, hs, calmT_handed, calmT_alone, rfl, rfl, rfl⟩

/-- a `Table_` is made, an entry inserted and a `Table` taken -/
def mixRun1 : List (Sched TL) :=
  [.call .new_, .step 0, .step 0, .call (.op (some 0) (.insert c1 7)), .step 1, .step 1, .step 1, .step 1, .step 1, .step 1, .step 1, .step 1,
   .call (.freeze (some 0)), .step 2, .step 2]
/-- then one goroutine inserts into the `Table_` while another one reads the `Table` -/
def mixRun2 : List (Sched TL) :=
  [.call (.op (some 0) (.insert c2 8)), .call (.xget x1 c1), .step 3, .step 3, .step 3, .step 3, .step 3, .step 4, .step 3, .step 3, .step 3,
   .step 3, .step 3, .step 3, .step 3, .step 3, .step 3, .step 3, .step 3, .step 3, .step 3]
def mixT1 : History TL.Call TL.Val :=
  [(0, .start .new_), (0, .made 0), (0, .done (.handle 0)), (1, .start (.op (some 0) (.insert c1 7))),
   (1, .load 0), (1, .load 0), (1, .alloc 0), (1, .read 0), (1, .write 0), (1, .write 0), (1, .cas 0 true),
   (1, .done (.result (.bool true))), (2, .start (.freeze (some 0))), (2, .load 0), (2, .done (.table x1))]
def mixT2 : History TL.Call TL.Val :=
  [(3, .start (.op (some 0) (.insert c2 8))), (4, .start (.xget x1 c1)), (3, .load 0), (3, .load 0), (3, .alloc 1), (3, .read 0),
   (3, .read 1), (4, .read 0), (3, .read 1), (3, .write 1), (3, .write 1), (3, .read 0), (3, .alloc 2), (3, .read 2), (3, .write 2),
   (3, .read 1), (3, .read 1), (3, .write 2), (3, .read 2), (3, .read 0), (3, .cas 0 true)]
def mixT : History TL.Call TL.Val := mixT1 ++ mixT2
set_option maxRecDepth 100000 in
theorem mixT1_ok : (execT State.init mixRun1).map Prod.fst = some mixT1 := rfl
set_option maxRecDepth 100000 in
theorem mixT2_ok : ((execT State.init mixRun1).bind fun x => (execT x.2 mixRun2).map Prod.fst) = some mixT2 := rfl
set_option maxRecDepth 100000 in
theorem mix_known : (execT State.init mixRun1).map (fun x => x.2.log.filter fun e => match e with | .done 2 _ => true | _ => false) =
    some [.done 2 (.table x1)] := rfl

theorem mixT_trace : ∃ s, Trace (L := TL) mixT s := by
  obtain ⟨⟨U, t⟩, h1, h2⟩ := Option.map_eq_some_iff.mp mixT1_ok
  cases h2
  have hT1 : Trace (L := TL) mixT1 t := by
    refine execT_trace (T := []) .init ?_ h1
    intro c hc
    simp only [mixRun1, List.mem_cons, reduceCtorEq, List.not_mem_nil, or_false, false_or] at hc
    have no : ∀ x ∈ ([] : List (Obj Nat)), (State.init : State TL).Known x := by simp
    rcases hc with h | h | h <;> cases h
    · exact ⟨trivial, no⟩
    · exact ⟨fun _ => ⟨c1_wf, by simp⟩, no⟩
    · exact ⟨trivial, no⟩
  have h3 := mixT2_ok
  have h4 := mix_known
  rw [h1] at h3 h4
  simp only [Option.bind_some, Option.map_some] at h3 h4
  obtain ⟨⟨U2, t2⟩, h5, h6⟩ := Option.map_eq_some_iff.mp h3
  cases h6
  have hk : t.Known x1 := by
    have : Entry.done 2 (.table x1) ∈ t.log.filter fun e => match e with | .done 2 _ => true | _ => false := by
      have := Option.some.inj h4
      rw [this]; simp
    exact Or.inr ⟨2, _, (List.mem_filter.mp this).1, List.mem_singleton_self _⟩
  refine ⟨t2, execT_trace hT1 ?_ h5⟩
  intro c hc
  simp only [mixRun2, List.mem_cons, reduceCtorEq, List.not_mem_nil, or_false] at hc
  have no : ∀ x ∈ ([] : List (Obj Nat)), t.Known x := by simp
  rcases hc with h | h <;> cases h
  · exact ⟨fun _ => ⟨c2_wf, by simp⟩, no⟩
  · refine ⟨trivial, ?_⟩
    intro x hx
    cases List.mem_singleton.mp hx
    exact hk

/-- the calls follow each other, but for the last two -/
def mixS (p q : Nat) : Prop := (p = 2 ∧ q = 3) ∨ (p = 11 ∧ q = 12) ∨ (p = 14 ∧ (q = 15 ∨ q = 16))

theorem mix_hb : HB false mixT mixS 2 3 ∧ HB false mixT mixS 11 12 ∧ HB false mixT mixS 14 15 ∧ HB false mixT mixS 14 16 ∧
    HB false mixT mixS 2 12 ∧ HB false mixT mixS 2 15 ∧ HB false mixT mixS 11 15 := by
  have h1 : HB false mixT mixS 2 3 := .sync (by decide) (rfl : StepAt mixT 2 0 (.done _)) (rfl : StepAt mixT 3 1 (.start _)) (Or.inl ⟨rfl, rfl⟩)
  have h2 : HB false mixT mixS 11 12 :=
    .sync (by decide) (rfl : StepAt mixT 11 1 (.done _)) (rfl : StepAt mixT 12 2 (.start _)) (Or.inr (Or.inl ⟨rfl, rfl⟩))
  have h3 : HB false mixT mixS 14 15 :=
    .sync (by decide) (rfl : StepAt mixT 14 2 (.done _)) (rfl : StepAt mixT 15 3 (.start _)) (Or.inr (Or.inr ⟨rfl, Or.inl rfl⟩))
  have h4 : HB false mixT mixS 14 16 :=
    .sync (by decide) (rfl : StepAt mixT 14 2 (.done _)) (rfl : StepAt mixT 16 4 (.start _)) (Or.inr (Or.inr ⟨rfl, Or.inr rfl⟩))
  have h5 : HB false mixT mixS 3 11 := .po (by decide) (rfl : StepAt mixT 3 1 (.start _)) (rfl : StepAt mixT 11 1 (.done _))
  have h6 : HB false mixT mixS 12 14 := .po (by decide) (rfl : StepAt mixT 12 2 (.start _)) (rfl : StepAt mixT 14 2 (.done _))
  exact ⟨h1, h2, h3, h4, .trans h1 (.trans h5 h2), .trans h1 (.trans h5 (.trans h2 (.trans h6 h3))), .trans h2 (.trans h6 h3)⟩

theorem mixT_starts {q j : Nat} {c : TL.Call} (h : StepAt mixT q j (.start c)) :
    (q = 0 ∧ j = 0 ∧ c = .new_) ∨ (q = 3 ∧ j = 1 ∧ c = .op (some 0) (.insert c1 7)) ∨ (q = 12 ∧ j = 2 ∧ c = .freeze (some 0)) ∨
      (q = 15 ∧ j = 3 ∧ c = .op (some 0) (.insert c2 8)) ∨ (q = 16 ∧ j = 4 ∧ c = .xget x1 c1) := by
  have hlt := h.lt
  rw [show mixT.length = 36 from rfl] at hlt
  unfold StepAt at h
  iterate 36 rcases q with _ | q; · simp [mixT, mixT1, mixT2] at h <;> (obtain ⟨rfl, h⟩ := h; cases h; simp; rfl)
  omega

theorem mixT_handed : HandedOver (L := TL) false mixT mixS := by
  intro q j c h
  have hd : StepAt mixT 2 0 (.done (.handle 0)) := rfl
  have hm : StepAt mixT 1 0 (.made 0) := rfl
  obtain ⟨h1, h2, h3, h4, h5, h6, h7⟩ := mix_hb
  rcases mixT_starts h with ⟨rfl, _, rfl⟩ | ⟨rfl, _, rfl⟩ | ⟨rfl, _, rfl⟩ | ⟨rfl, _, rfl⟩ | ⟨rfl, _, rfl⟩
  · exact ⟨(by intro x hx; cases hx), (by intro o ho; cases ho)⟩
  · exact ⟨(by intro x hx; cases hx), fun o ho => by cases List.mem_singleton.mp ho; exact ⟨1, 2, 0, _, hm, hd, h1⟩⟩
  · exact ⟨(by intro x hx; cases hx), fun o ho => by cases List.mem_singleton.mp ho; exact ⟨1, 2, 0, _, hm, hd, h5⟩⟩
  · exact ⟨(by intro x hx; cases hx), fun o ho => by cases List.mem_singleton.mp ho; exact ⟨1, 2, 0, _, hm, hd, h6⟩⟩
  · refine ⟨fun x hx => ?_, (by intro o ho; cases ho)⟩
    cases List.mem_singleton.mp hx
    exact Or.inr ⟨14, 2, .table x1, rfl, List.mem_singleton_self _, h4⟩

theorem mixT_alone : WritersAlone (L := TL) TCall.writes false mixT mixS := by
  intro p q i j c c' o hij hp hq ho ho' hw
  obtain ⟨h1, h2, h3, h4, h5, h6, h7⟩ := mix_hb
  rcases mixT_starts hp with ⟨_, rfl, rfl⟩ | ⟨_, rfl, rfl⟩ | ⟨_, rfl, rfl⟩ | ⟨_, rfl, rfl⟩ | ⟨_, rfl, rfl⟩ <;> first | (cases hw; done) | skip
  · rcases mixT_starts hq with ⟨_, rfl, rfl⟩ | ⟨_, rfl, rfl⟩ | ⟨_, rfl, rfl⟩ | ⟨_, rfl, rfl⟩ | ⟨_, rfl, rfl⟩ <;>
      first | (cases ho'; done) | exact (hij rfl).elim | skip
    · exact ⟨11, 12, _, _, h2, Or.inl ⟨rfl, rfl⟩⟩
    · exact ⟨11, 15, _, _, h7, Or.inl ⟨rfl, rfl⟩⟩
  · rcases mixT_starts hq with ⟨_, rfl, rfl⟩ | ⟨_, rfl, rfl⟩ | ⟨_, rfl, rfl⟩ | ⟨_, rfl, rfl⟩ | ⟨_, rfl, rfl⟩ <;>
      first | (cases ho'; done) | exact (hij rfl).elim | skip
    · exact ⟨11, 15, _, _, h7, Or.inr ⟨rfl, rfl⟩⟩
    · exact ⟨14, 15, _, _, h3, Or.inr ⟨rfl, rfl⟩⟩

/-- a goroutine reads a `Table` while another writes to the `Table_` it was taken from -/
example : ∃ s, Trace (L := TL) mixT s ∧ HandedOver (L := TL) false mixT mixS ∧ WritersAlone (L := TL) TCall.writes false mixT mixS ∧
    StepAt mixT 16 4 (.start (.xget x1 c1)) ∧ StepAt mixT 20 3 (.read 0) ∧ StepAt mixT 22 4 (.read 0) ∧ StepAt mixT 24 3 (.write 1) ∧
    StepAt mixT 35 3 (.cas 0 true) := by
  obtain ⟨s, hs⟩ := mixT_trace
  exact ⟨s, hs, mixT_handed, mixT_alone, rfl, rfl, rfl, rfl, rfl⟩

theorem hb_mono {C V : Type} {T : History C V} {S : Nat → Nat → Prop} {p q : Nat} (h : HB false T S p q) : HB true T S p q := by
  induction h with
  | po h1 h2 h3 => exact .po h1 h2 h3
  | sync h1 h2 h3 h4 => exact .sync h1 h2 h3 h4
  | atomic h1 h2 h3 h4 h5 =>
    refine .atomic h1 h2 h3 h4 ?_
    revert h5
    cases ‹Access C V› <;> simp [Access.atomic]
  | trans _ _ h1 h2 => exact .trans h1 h2

theorem handed_mono {α D : Type} {L : Lib α D} {T : History L.Call L.Val} {S : Nat → Nat → Prop} (h : HandedOver (L := L) false T S) :
    HandedOver (L := L) true T S := by
  intro q j c hq
  obtain ⟨h1, h2⟩ := h q j c hq
  refine ⟨fun x hx => (h1 x hx).imp id ?_, fun o ho => ?_⟩
  · rintro ⟨p, i, v, h3, h4, h5⟩; exact ⟨p, i, v, h3, h4, hb_mono h5⟩
  · obtain ⟨m, p, i, v, h3, h4, h5⟩ := h2 o ho; exact ⟨m, p, i, v, h3, h4, hb_mono h5⟩

/-- the executions with races satisfy what is assumed if roots are read atomically -/
example : ∃ s, Trace (L := TL) raceT s ∧ HandedOver (L := TL) true raceT raceS := by
  obtain ⟨s, hs⟩ := raceT_trace
  exact ⟨s, hs, handed_mono raceT_handed⟩
example : ∃ s, Trace (L := SL) raceTS s ∧ HandedOver (L := SL) true raceTS raceS := by
  obtain ⟨s, hs⟩ := raceTS_trace
  exact ⟨s, hs, handed_mono raceTS_handed⟩

end Sample

/-- C61 is false: there is an execution in which one goroutine calls `Insert` on a `Table_` while another calls
    `Get` on it, and the read of the root by `Get` races with the write by `Insert`. -/
theorem C61_tables_false : ∃ (T : History Sample.TL.Call Sample.TL.Val) (s : State Sample.TL) (S : Nat → Nat → Prop) (p q : Nat),
    Trace T s ∧ HandedOver (L := Sample.TL) false T S ∧ Race false T S p q ∧
    (∃ k, StepAt T 4 2 (.start (.op (some 0) (.get k))) ∧ StepAt T p 2 (.load 0)) ∧
    (∃ k d, StepAt T 3 1 (.start (.op (some 0) (.insert k d))) ∧ StepAt T q 1 (.cas 0 true)) := by
  obtain ⟨s, hs⟩ := Sample.raceT_trace
  exact ⟨_, s, _, _, _, hs, Sample.raceT_handed, Sample.raceT_race, ⟨_, rfl, rfl⟩, _, _, rfl, rfl⟩

/-- The same for `Insert` and `Contains` on a `Set_`. -/
theorem C61_sets_false : ∃ (T : History Sample.SL.Call Sample.SL.Val) (s : State Sample.SL) (S : Nat → Nat → Prop) (p q : Nat),
    Trace T s ∧ HandedOver (L := Sample.SL) false T S ∧ Race false T S p q ∧
    (∃ a, StepAt T 4 2 (.start (.contains (.obj (some 0)) a)) ∧ StepAt T p 2 (.load 0)) ∧
    (∃ a b, StepAt T 3 1 (.start (.insert (some 0) a b)) ∧ StepAt T q 1 (.cas 0 true)) := by
  obtain ⟨s, hs⟩ := Sample.raceTS_trace
  exact ⟨_, s, _, _, _, hs, Sample.raceTS_handed, Sample.raceTS_race, ⟨_, rfl, rfl⟩, _, _, rfl, rfl⟩

end Addrs

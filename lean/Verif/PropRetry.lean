import Verif.PropConcSets
/-
  Property C71: a writer that is told about a concurrent modification and tries again succeeds as soon as there are no
  more other writes; of several writes that overlap at least one succeeds.
-/
set_option linter.unusedSectionVars false
namespace Addrs
open GoWord LawfulGoWord

/-! ### Any package -/

section
variable {α D A K : Type} {L : Lib α D} {good gval : View α D → Obj D → Prop} {fr : L.Call → OldRoots α D}
  {Q : L.Call → List (Event D) → L.Val → View α D → Prop} {role : L.Call → Option (Nat × Option K)}
  {abs : View α D → Obj D → A → Prop} {eff : L.Call → List (Event D) → View α D → A → L.Val → A → Prop}
  {frc : K → Bool} {le : K → A → A → Prop}

/-- an attempt that panicked: the thread, when it was started, and when it panicked -/
structure Attempt where
  thread : Nat
  start : Nat
  panic : Nat

/-- The attempt is a call on the object `o` that panicked because of a concurrent modification. -/
def Attempt.Of (s : State L) (o : Nat) (a : Attempt) : Prop :=
  (∃ c, s.log[a.start]? = some (.start a.thread c)) ∧ ∃ q, s.log[a.panic]? = some (.fail a.thread o q)

/-- each attempt is made after the one before it has panicked -/
def InTurn (as : List Attempt) : Prop := as.Pairwise fun a b => a.panic < b.start

/-- During the attempt, a write by the thread `j` took effect on the object `o`. -/
def Attempt.HitBy (s : State L) (o : Nat) (a : Attempt) (j : Nat) : Prop :=
  ∃ l x y, a.start < l ∧ l < a.panic ∧ At s.log l j (.swap o x y)

/-- a call whose compare-and-swap failed has panicked -/
theorem fail_panics (ok : LibOk L good gval fr Q) {s : State L} (h : s.Reach) {i o : Nat} {q : Ptr} (hf : .fail i o q ∈ s.log) :
    s.threads[i]? = some (some .panic) := by
  induction h with
  | init => cases hf
  | step s s' h hs ih =>
    cases hs with
    | spawn c _ =>
      have hf' : .fail i o q ∈ s.log := by
        rcases List.mem_append.mp (show .fail i o q ∈ s.log ++ [_] from hf) with h | h
        · exact h
        · simp at h
      have := ih hf'
      show (s.threads ++ [_])[i]? = _
      rw [List.getElem?_append_left (List.getElem?_eq_some_iff.mp this).1]; exact this
    | act j _ hact =>
      obtain ⟨P, h1, h2, h3, h4, _⟩ := State.act_log hact
      by_cases hold : .fail i o q ∈ s.log
      · have := ih hold
        have hne : i ≠ j := by
          rintro rfl
          rw [this] at h1; cases h1; exact h2 rfl
        rw [h4 i hne]; exact this
      · rcases h3 with h3 | ⟨e, h3, h5, _⟩
        · rw [h3] at hf; exact (hold hf).elim
        · have he : e = .fail i o q := by
            rw [h3] at hf
            rcases List.mem_append.mp hf with h | h
            · exact (hold h).elim
            · exact (List.mem_singleton.mp h).symm
          subst he
          have h5 : i = j := h5
          subst h5
          have hlt := (List.getElem?_eq_some_iff.mp h1).1
          obtain ⟨g, inv⟩ := h.inv ok
          obtain ⟨c, _, ⟨n, _, _, hcw⟩ | ⟨hp, _⟩⟩ := inv.thr i _ h1
          · unfold State.act at hact
            rw [h1] at hact
            simp only at hact
            cases P with
            | ret x =>
              cases hact
              have := List.append_cancel_left h3
              simp at this
            | panic => cases hact
            | stuck => cases hact
            | alloc c k =>
              cases hact
              simp [State.cont] at h3
            | read p k =>
              simp only [State.actP] at hact
              split at hact <;> (cases hact; simp [State.cont] at h3)
            | write p c k =>
              simp only [State.actP] at hact
              split at hact <;> (cases hact; simp [State.cont] at h3)
            | load o' k =>
              simp only [State.actP] at hact
              split at hact <;> (cases hact; simp [State.cont, State.note] at h3)
            | cas o' old new k =>
              simp only [State.actP] at hact
              split at hact
              · split at hact
                · cases hact; simp [State.cont, State.note] at h3
                · cases hact
                  show (s.threads.set i (some (k false)))[i]? = _
                  rw [List.getElem?_set_self hlt, hcw.2.2.2.2.1]
              · cases hact; simp [State.cont] at h3
            | newObj ob k =>
              cases hact
              simp [State.cont, State.note] at h3
          · exact (h2 hp).elim

theorem fail_race (ok : LibOk L good gval fr Q) {s : State L} (h : s.Reach) {o : Nat} {a : Attempt} (ha : a.Of s o) :
    ∃ j, a.HitBy s o j := by
  obtain ⟨⟨c, hc⟩, q, hm⟩ := ha
  obtain ⟨g, inv⟩ := h.inv ok
  obtain ⟨h1, h2⟩ := inv.ok _ _ _ (at_split hm)
  obtain ⟨⟨ob, hl, hq⟩, hns⟩ := h2 a.thread o q (Or.inr rfl)
  obtain ⟨k, hk⟩ := List.mem_iff_getElem?.mp hl
  have hkm : k < a.panic := by
    have := (List.getElem?_eq_some_iff.mp hk).1
    rw [List.length_take] at this; omega
  have hk' : At s.log k a.thread (.load o ob) := by unfold At; rw [← hk, List.getElem?_take_of_lt hkm]
  obtain ⟨cur, hcur, hne⟩ := h1
  have hcur : objAt s.log a.panic o = some cur := hcur
  have hlog := inv.entryOk
  have hsk := start_first ok h hc hk' rfl (by intros; simp)
  rcases last_swap hlog (Nat.le_of_lt hkm) (objAt_load hlog hk') with h3 | ⟨p, j, x', y', ob', h3, h4, h5, h6, h7, _⟩
  · rw [h3] at hcur
    cases hcur
    exact (hne hq).elim
  · exact ⟨j, p, x', y', by omega, h4, h5⟩

theorem retry (ok : LibOk L good gval fr Q) (lin : LinOk good fr Q role abs eff frc le) {s : State L} (h : s.Reach) {o : Nat} :
    ∀ {as : List Attempt}, InTurn as → (∀ a ∈ as, a.Of s o) →
    ∃ js : List Nat, js.length = as.length ∧ js.Nodup ∧ ∀ j ∈ js, ∃ a ∈ as, a.HitBy s o j := by
  intro as
  induction as with
  | nil => intro _ _; exact ⟨[], rfl, List.nodup_nil, by simp⟩
  | cons a as ih =>
    intro ht ha
    obtain ⟨ht1, ht2⟩ := List.pairwise_cons.mp ht
    obtain ⟨js, h1, h2, h3⟩ := ih ht2 fun b hb => ha b (List.mem_cons_of_mem _ hb)
    obtain ⟨j, hj⟩ := fail_race ok h (ha a (List.mem_cons_self ..))
    refine ⟨j :: js, by simp [h1], List.nodup_cons.mpr ⟨?_, h2⟩, ?_⟩
    · intro hmem
      obtain ⟨b, hb, l', x', y', g1, g2, g3⟩ := h3 j hmem
      obtain ⟨l, x, y, f1, f2, f3⟩ := hj
      obtain ⟨g, inv, hist⟩ := h.inv' ok
      obtain ⟨c, κ, _, _, _, _, _, _, _, _, F⟩ := swap_facts ok lin ⟨h, inv, hist⟩ f3
      have := F.once _ _ _ _ g3
      have := ht1 b hb
      omega
    · intro i hi
      rcases List.mem_cons.mp hi with rfl | hi
      · exact ⟨a, List.mem_cons_self .., hj⟩
      · obtain ⟨b, hb, hb'⟩ := h3 i hi
        exact ⟨b, List.mem_cons_of_mem _ hb, hb'⟩

/-- a write that took effect returns -/
theorem swapped_returns (ok : LibOk L good gval fr Q) {s : State L} (h : s.Reach) {j o l : Nat} {x y : Ptr}
    (hs : At s.log l j (.swap o x y)) : ∃ t, State.Solo j s t ∧ ∃ z, .done j z ∈ t.log := by
  obtain ⟨g, inv⟩ := h.inv ok
  rcases inv.thread_cases hs.mem with hn | ⟨P, hP⟩
  · exact ⟨s, .refl, h.none_done hn⟩
  · obtain ⟨t, h1, h2⟩ := run_to_end ok P h hP
    obtain ⟨b, hb, _⟩ := h1.log
    rcases h2 with h2 | ⟨o', q, hf⟩
    · exact ⟨t, h1, h2⟩
    · exact (no_fail_swap ok (h.steps h1.steps) (s := t) (by rw [hb]; exact List.mem_append.mpr (Or.inl hs.mem)) hf).elim

theorem length_le_of_nodup {l l' : List Nat} (hn : l.Nodup) (hs : ∀ x ∈ l, x ∈ l') : l.length ≤ l'.length := by
  induction l generalizing l' with
  | nil => simp
  | cons x l ih =>
    obtain ⟨h1, h2⟩ := List.nodup_cons.mp hn
    have hx := hs x (List.mem_cons_self ..)
    have := ih (l' := l'.erase x) h2 fun y hy => by
      refine (List.mem_erase_of_ne ?_).mpr (hs y (List.mem_cons_of_mem _ hy))
      rintro rfl; exact h1 hy
    rw [List.length_erase_of_mem hx] at this
    have := List.length_pos_of_mem hx
    simp only [List.length_cons]
    omega

end

/-! ### Tables -/

section
variable {α D σ : Type} [LawfulGoWord α] [Inhabited D] [Comparable D] {F : Nat}

/-- A call on tables whose compare-and-swap finds another root panics. -/
theorem C71_table_detected (hF : 2 * width α + 3 ≤ F) {s : TState α D σ F} (h : s.Reach) {i o : Nat} {q : Ptr}
    (hf : .fail i o q ∈ s.log) : s.threads[i]? = some (some .panic) := fail_panics (tableLib_ok hF) h hf

/-- A write on a table panics for concurrent modification only if another write on it takes effect during the call; that
    one does not panic: however the execution goes on, it returns (it does if it runs alone), unless it already has. -/
theorem C71_table_winner (hF : 2 * width α + 3 ≤ F) {s : TState α D σ F} (h : s.Reach) {i o p m : Nat} {w : TableOp α D}
    {q : Ptr} (hp : s.log[p]? = some (.start i (.op (some o) w))) (hm : s.log[m]? = some (.fail i o q)) :
    ∃ j w' l x y, j ≠ i ∧ .start j (.op (some o) w') ∈ s.log ∧ w'.writes = true ∧ p < l ∧ l < m ∧
      At s.log l j (.swap o x y) ∧ (∀ s', s.Steps s' → s'.threads[j]? ≠ some (some .panic)) ∧
      ∃ t, State.Solo j s t ∧ ∃ z, .done j z ∈ t.log := by
  have ok := tableLib_ok (α := α) (D := D) (σ := σ) hF
  obtain ⟨j, l, x, y, h1, h2, h3⟩ := fail_race ok h (a := ⟨i, p, m⟩) ⟨⟨_, hp⟩, _, hm⟩
  obtain ⟨w', h4, h5⟩ := table_swap hF h h3
  refine ⟨j, w', l, x, y, ?_, h4, h5, h1, h2, h3, ?_, swapped_returns ok h h3⟩
  · rintro rfl
    exact no_fail_swap ok h h3.mem (List.mem_of_getElem? hm)
  · intro s' hs hpn
    obtain ⟨b, hb⟩ := hs.log
    exact (C38_table_panics hF (h.steps hs) hpn).2 o x y (by rw [hb]; exact List.mem_append.mpr (Or.inl h3.mem))

/-- If `n` writes that are made one after the other on a table all panic, then at least `n` other writes on it, all
    different, took effect meanwhile. -/
theorem C71_table_retry (hF : 2 * width α + 3 ≤ F) {s : TState α D σ F} (h : s.Reach) {o : Nat} {as : List Attempt}
    (ht : InTurn as) (ha : ∀ a ∈ as, a.Of s o) :
    ∃ js : List Nat, js.length = as.length ∧ js.Nodup ∧ ∀ j ∈ js, j ∉ as.map Attempt.thread ∧
      (∃ w, .start j (.op (some o) w) ∈ s.log ∧ w.writes = true) ∧ ∃ a ∈ as, a.HitBy s o j := by
  have ok := tableLib_ok (α := α) (D := D) (σ := σ) hF
  obtain ⟨js, h1, h2, h3⟩ := retry ok tableLin h ht ha
  refine ⟨js, h1, h2, fun j hj => ?_⟩
  obtain ⟨a, h4, h5⟩ := h3 j hj
  have h5' := h5
  obtain ⟨l, x, y, _, _, h6⟩ := h5'
  refine ⟨?_, table_swap hF h h6, a, h4, h5⟩
  intro hmem
  obtain ⟨b, hb, rfl⟩ := List.mem_map.mp hmem
  obtain ⟨_, q, hq⟩ := ha b hb
  exact no_fail_swap ok h h6.mem (List.mem_of_getElem? hq)

/-- Trying again works: if at most `others.length` other writes on the table are ever started, then of the writes that
    are made one after the other at most that many panic. -/
theorem C71_table_succeeds (hF : 2 * width α + 3 ≤ F) {s : TState α D σ F} (h : s.Reach) {o : Nat} {as : List Attempt}
    (ht : InTurn as) (ha : ∀ a ∈ as, a.Of s o) (others : List Nat)
    (ho : ∀ j w b, s.log[b]? = some (.start j (.op (some o) w)) → w.writes = true → (∃ a ∈ as, b < a.panic) →
      j ∈ as.map Attempt.thread ∨ j ∈ others) : as.length ≤ others.length := by
  obtain ⟨js, h1, h2, h3⟩ := C71_table_retry hF h ht ha
  rw [← h1]
  refine length_le_of_nodup h2 fun j hj => ?_
  obtain ⟨h4, ⟨w, h5, h6⟩, a, h7, l, x, y, _, h8, h9⟩ := h3 j hj
  obtain ⟨b, hb⟩ := List.mem_iff_getElem?.mp h5
  have := start_first (tableLib_ok hF) h hb h9 rfl (by intros; simp)
  exact (ho j w b hb h6 ⟨a, h7, by omega⟩).resolve_left h4

end

/-! ### Sets -/

section
variable {α σ : Type} [HeapFamily α] {F : Nat}

/-- A call on sets whose compare-and-swap finds another root panics. -/
theorem C71_set_detected (hF : setBound α ≤ F) {s : SState α σ F} (h : s.Reach) {i o : Nat} {q : Ptr}
    (hf : .fail i o q ∈ s.log) : s.threads[i]? = some (some .panic) := fail_panics (setLib_ok hF) h hf

/-- A write on a set panics for concurrent modification only if another `Insert` or `Remove` on it takes effect during the
    call; that one does not panic: however the execution goes on, it returns (it does if it runs alone), unless it
    already has. -/
theorem C71_set_winner (hF : setBound α ≤ F) {s : SState α σ F} (h : s.Reach) {i o p m : Nat} {c : SCall α σ}
    {q : Ptr} (hp : s.log[p]? = some (.start i c)) (hm : s.log[m]? = some (.fail i o q)) :
    ∃ j a late l x y, j ≠ i ∧ (.start j (SCall.insert (some o) a late) ∈ s.log ∨ .start j (SCall.remove (some o) a late) ∈ s.log) ∧
      p < l ∧ l < m ∧ At s.log l j (.swap o x y) ∧ (∀ s', s.Steps s' → s'.threads[j]? ≠ some (some .panic)) ∧
      ∃ t, State.Solo j s t ∧ ∃ z, .done j z ∈ t.log := by
  have ok := setLib_ok (α := α) (σ := σ) hF
  obtain ⟨j, l, x, y, h1, h2, h3⟩ := fail_race ok h (a := ⟨i, p, m⟩) ⟨⟨_, hp⟩, _, hm⟩
  obtain ⟨a, late, h4⟩ := set_swap hF h h3
  refine ⟨j, a, late, l, x, y, ?_, h4, h1, h2, h3, ?_, swapped_returns ok h h3⟩
  · rintro rfl
    exact no_fail_swap ok h h3.mem (List.mem_of_getElem? hm)
  · intro s' hs hpn
    obtain ⟨b, hb⟩ := hs.log
    exact (C38_set_panics hF (h.steps hs) hpn).2 o x y (by rw [hb]; exact List.mem_append.mpr (Or.inl h3.mem))

/-- If `n` writes that are made one after the other on a set all panic, then at least `n` other writes on it, all
    different, took effect meanwhile. -/
theorem C71_set_retry (hF : setBound α ≤ F) {s : SState α σ F} (h : s.Reach) {o : Nat} {as : List Attempt}
    (ht : InTurn as) (ha : ∀ a ∈ as, a.Of s o) :
    ∃ js : List Nat, js.length = as.length ∧ js.Nodup ∧ ∀ j ∈ js, j ∉ as.map Attempt.thread ∧
      (∃ a late, .start j (SCall.insert (some o) a late) ∈ s.log ∨ .start j (SCall.remove (some o) a late) ∈ s.log) ∧
      ∃ a ∈ as, a.HitBy s o j := by
  have ok := setLib_ok (α := α) (σ := σ) hF
  obtain ⟨js, h1, h2, h3⟩ := retry ok setLin h ht ha
  refine ⟨js, h1, h2, fun j hj => ?_⟩
  obtain ⟨a, h4, h5⟩ := h3 j hj
  have h5' := h5
  obtain ⟨l, x, y, _, _, h6⟩ := h5'
  refine ⟨?_, set_swap hF h h6, a, h4, h5⟩
  intro hmem
  obtain ⟨b, hb, rfl⟩ := List.mem_map.mp hmem
  obtain ⟨_, q, hq⟩ := ha b hb
  exact no_fail_swap ok h h6.mem (List.mem_of_getElem? hq)

/-- Trying again works: if at most `others.length` other writes on the set are ever started, then of the writes that are
    made one after the other at most that many panic. -/
theorem C71_set_succeeds (hF : setBound α ≤ F) {s : SState α σ F} (h : s.Reach) {o : Nat} {as : List Attempt}
    (ht : InTurn as) (ha : ∀ a ∈ as, a.Of s o) (others : List Nat)
    (ho : ∀ j c b arg, s.log[b]? = some (.start j c) → (∃ late, c = .insert (some o) arg late ∨ c = .remove (some o) arg late) →
      (∃ a ∈ as, b < a.panic) → j ∈ as.map Attempt.thread ∨ j ∈ others) : as.length ≤ others.length := by
  obtain ⟨js, h1, h2, h3⟩ := C71_set_retry hF h ht ha
  rw [← h1]
  refine length_le_of_nodup h2 fun j hj => ?_
  obtain ⟨h4, ⟨arg, late, h5⟩, a, h7, l, x, y, _, h8, h9⟩ := h3 j hj
  have key : ∀ c, .start j c ∈ s.log → (∃ late, c = .insert (some o) arg late ∨ c = .remove (some o) arg late) → j ∈ others := by
    intro c hc h6
    obtain ⟨b, hb⟩ := List.mem_iff_getElem?.mp hc
    have := start_first (setLib_ok hF) h hb h9 rfl (by intros; simp)
    exact (ho j c b arg hb h6 ⟨a, h7, by omega⟩).resolve_left h4
  rcases h5 with h5 | h5
  · exact key _ h5 ⟨_, Or.inl rfl⟩
  · exact key _ h5 ⟨_, Or.inr rfl⟩

end

/-! ### Examples -/

namespace Retry
open Sample (TL c1 c2 c3 c1_wf c2_wf c3_wf)

/-- `Insert(c1)` is tried three times.  The first time somebody inserts `c2` meanwhile, the second time somebody removes
    it. -/
def run : List (Sched TL) :=
  [.call .new_, .finish 0, .call (.op (some 0) (.insert c1 7)), .step 1, .call (.op (some 0) (.insert c2 8)), .finish 2,
   .finish 1, .call (.op (some 0) (.insert c1 7)), .step 3, .call (.op (some 0) (.remove c2)), .finish 4, .finish 3,
   .call (.op (some 0) (.insert c1 7)), .finish 5]

def log : List (Entry Nat TL.Call TL.Val) :=
  [.start 0 .new_, .act 0 (.made 0 ⟨none, .dflt⟩), .done 0 (.handle 0),
   .start 1 (.op (some 0) (.insert c1 7)), .act 1 (.load 0 ⟨none, .dflt⟩),
   .start 2 (.op (some 0) (.insert c2 8)), .act 2 (.load 0 ⟨none, .dflt⟩), .act 2 (.load 0 ⟨none, .dflt⟩),
   .act 2 (.swap 0 none (some 0)), .done 2 (.result (.bool true)), .act 1 (.load 0 ⟨some 0, .dflt⟩), .fail 1 0 none,
   .start 3 (.op (some 0) (.insert c1 7)), .act 3 (.load 0 ⟨some 0, .dflt⟩),
   .start 4 (.op (some 0) (.remove c2)), .act 4 (.load 0 ⟨some 0, .dflt⟩), .act 4 (.load 0 ⟨some 0, .dflt⟩),
   .act 4 (.swap 0 (some 0) none), .done 4 (.result (.removed true)), .act 3 (.load 0 ⟨none, .dflt⟩),
   .fail 3 0 (some 0),
   .start 5 (.op (some 0) (.insert c1 7)), .act 5 (.load 0 ⟨none, .dflt⟩), .act 5 (.load 0 ⟨none, .dflt⟩),
   .act 5 (.swap 0 none (some 3)), .done 5 (.result (.bool true))]

set_option maxRecDepth 100000 in
theorem run_ok : (exec State.init run).isSome := rfl
set_option maxRecDepth 100000 in
theorem run_log : (final run run_ok).log = log := rfl

theorem run_reach : (final run run_ok).Reach := by
  refine final_reach run_ok ?_
  intro c hc
  simp only [run, List.mem_cons, reduceCtorEq, List.not_mem_nil, or_false, false_or] at hc
  rcases hc with h | h | h | h | h | h <;> cases h
  · exact ⟨trivial, rfl⟩
  · exact ⟨fun _ => ⟨c1_wf, by simp⟩, rfl⟩
  · exact ⟨fun _ => ⟨c2_wf, by simp⟩, rfl⟩
  · exact ⟨fun _ => ⟨c1_wf, by simp⟩, rfl⟩
  · exact ⟨fun _ => ⟨c2_wf, by simp⟩, rfl⟩
  · exact ⟨fun _ => ⟨c1_wf, by simp⟩, rfl⟩

/-- the two attempts that panicked -/
def attempts : List Attempt := [⟨1, 3, 11⟩, ⟨3, 12, 20⟩]

theorem attempts_inTurn : InTurn attempts := by simp [InTurn, attempts]

theorem attempts_of : ∀ a ∈ attempts, a.Of (final run run_ok) 0 := by
  intro a ha
  simp only [attempts, List.mem_cons, List.not_mem_nil, or_false] at ha
  rcases ha with rfl | rfl
  · exact ⟨⟨_, by rw [run_log]; rfl⟩, _, by rw [run_log]; rfl⟩
  · exact ⟨⟨_, by rw [run_log]; rfl⟩, _, by rw [run_log]; rfl⟩

example := C71_table_detected (by decide) run_reach (i := 3) (o := 0) (q := some 0) (by rw [run_log]; simp [log])

example := C71_table_winner (by decide) run_reach (i := 3) (o := 0) (p := 12) (m := 20) (by rw [run_log]; rfl) (by rw [run_log]; rfl)

example := C71_table_retry (by decide) run_reach attempts_inTurn attempts_of

/-- two attempts panicked, there were two other writes until then -/
example : attempts.length ≤ [2, 4].length :=
  C71_table_succeeds (by decide) run_reach attempts_inTurn attempts_of [2, 4] (by
    intro j w b hs _ hb
    have hb : b < 20 := by
      obtain ⟨a, ha, hb⟩ := hb
      simp only [attempts, List.mem_cons, List.not_mem_nil, or_false] at ha
      rcases ha with rfl | rfl <;> simp only at hb <;> omega
    rw [run_log] at hs
    have hs : .start j (.op (some 0) w) ∈ log.take 20 := List.mem_of_getElem? (i := b) (by rw [List.getElem?_take_of_lt hb]; exact hs)
    simp only [log, List.take, List.mem_cons, reduceCtorEq, List.not_mem_nil, or_false, false_or] at hs
    rcases hs with h | h | h | h | h <;> cases h <;> simp [attempts])

theorem attempt_set : ∀ a ∈ [(⟨3, 11, 19⟩ : Attempt)], a.Of Sample.t1 0 := by
  intro a ha
  cases List.mem_singleton.mp ha
  exact ⟨⟨_, by rw [Sample.t1_log]; rfl⟩, _, by rw [Sample.t1_log]; rfl⟩

example := C71_set_detected (by decide) Sample.t1_reach (i := 3) (o := 0) (q := some 0) (by rw [Sample.t1_log]; simp [Sample.slog1])

example := C71_set_winner (by decide) Sample.t1_reach (i := 3) (o := 0) (p := 11) (m := 19) (by rw [Sample.t1_log]; rfl)
  (by rw [Sample.t1_log]; rfl)

example := C71_set_retry (by decide) Sample.t1_reach (as := [⟨3, 11, 19⟩]) (by simp [InTurn]) attempt_set

example : [(⟨3, 11, 19⟩ : Attempt)].length ≤ [1, 4].length :=
  C71_set_succeeds (by decide) Sample.t1_reach (by simp [InTurn]) attempt_set [1, 4] (by
    intro j c b arg hs hc _
    have hs := List.mem_of_getElem? hs
    rw [Sample.t1_log] at hs
    simp only [Sample.slog1, List.mem_cons, reduceCtorEq, List.not_mem_nil, or_false, false_or] at hs
    obtain ⟨late, rfl | rfl⟩ := hc <;> rcases hs with h | h | h | h | h | h <;> cases h <;> simp)

end Retry
end Addrs

import Verif.ConcInv
/-
  What the invariant says about whole executions: every prefix of the log is the log of an earlier state,
  accesses of a call lie between its start and its end, every call can be run to its end.
-/
set_option linter.unusedSectionVars false
namespace Addrs
open GoWord Prog

namespace State
variable {α D : Type} {L : Lib α D}

/-- any number of steps -/
inductive Steps (s : State L) : State L → Prop
  | refl : Steps s s
  | step (t u : State L) (h : Steps s t) (hs : t.Step u) : Steps s u

theorem Steps.trans {s t u : State L} (h : s.Steps t) (h' : t.Steps u) : s.Steps u := by
  induction h' with
  | refl => exact h
  | step x y _ hs ih => exact .step _ _ ih hs

theorem Reach.steps {s t : State L} (h : s.Reach) (h' : s.Steps t) : t.Reach := by
  induction h' with
  | refl => exact h
  | step x y _ hs ih => exact .step _ _ ih hs

/-- one action of one thread: what it adds to the log, and that other threads are not touched -/
theorem act_log {s s' : State L} {i : Nat} (h : s.act i = some s') :
    ∃ P, s.threads[i]? = some (some P) ∧ P ≠ .panic ∧
    (s'.log = s.log ∨ ∃ e, s'.log = s.log ++ [e] ∧ e.tid = i ∧ ∀ j c, e ≠ .start j c) ∧
    (∀ j, j ≠ i → s'.threads[j]? = s.threads[j]?) ∧ s'.threads.length = s.threads.length ∧
    (s'.threads[i]? = some none → ∃ x, s'.log = s.log ++ [.done i x]) := by
  unfold act at h
  split at h
  case h_2 => cases h
  case h_1 P hi =>
  refine ⟨P, hi, ?_, ?_⟩
  · rintro rfl; cases h
  have key : ∀ (Q : Option (Prog α D L.Val)) j, j ≠ i → (s.threads.set i Q)[j]? = s.threads[j]? :=
    fun Q j hj => List.getElem?_set_ne (Ne.symm hj)
  have hlt : i < s.threads.length := (List.getElem?_eq_some_iff.mp hi).1
  have nn : ∀ (R : Prog α D L.Val), (s.threads.set i (some R))[i]? ≠ some none := by
    intro R; rw [List.getElem?_set_self hlt]; simp
  cases P with
  | ret x => injection h with h; subst h; exact ⟨Or.inr ⟨_, rfl, rfl, by intros; simp⟩, key _, by simp, fun _ => ⟨x, rfl⟩⟩
  | panic => cases h
  | stuck => cases h
  | alloc c k => injection h with h; subst h; exact ⟨Or.inl rfl, key _, by simp [cont], fun h => (nn _ h).elim⟩
  | read p k =>
    simp only [actP] at h
    split at h <;> (injection h with h; subst h; exact ⟨Or.inl rfl, key _, by simp [cont], fun h => (nn _ h).elim⟩)
  | write p c k =>
    simp only [actP] at h
    split at h <;> (injection h with h; subst h; exact ⟨Or.inl rfl, key _, by simp [cont], fun h => (nn _ h).elim⟩)
  | load o k =>
    simp only [actP] at h
    split at h
    · injection h with h; subst h; exact ⟨Or.inr ⟨_, rfl, rfl, by intros; simp⟩, key _, by simp [cont, note], fun h => (nn _ h).elim⟩
    · injection h with h; subst h; exact ⟨Or.inl rfl, key _, by simp [cont], fun h => (nn _ h).elim⟩
  | cas o old new k =>
    simp only [actP] at h
    split at h
    · split at h <;>
        (injection h with h; subst h; exact ⟨Or.inr ⟨_, rfl, rfl, by intros; simp⟩, key _, by simp [cont, note], fun h => (nn _ h).elim⟩)
    · injection h with h; subst h; exact ⟨Or.inl rfl, key _, by simp [cont], fun h => (nn _ h).elim⟩
  | newObj ob k =>
    injection h with h; subst h; exact ⟨Or.inr ⟨_, rfl, rfl, by intros; simp⟩, key _, by simp [cont, note], fun h => (nn _ h).elim⟩

/-- a step adds at most one entry to the log -/
theorem Step.log {s s' : State L} (h : s.Step s') : s'.log = s.log ∨ ∃ e, s'.log = s.log ++ [e] := by
  cases h with
  | spawn c h => exact Or.inr ⟨_, rfl⟩
  | act i _ h =>
    obtain ⟨_, _, _, h | ⟨e, h, _⟩, _⟩ := act_log h
    · exact Or.inl h
    · exact Or.inr ⟨e, h⟩

theorem Steps.log {s t : State L} (h : s.Steps t) : ∃ b, t.log = s.log ++ b := by
  induction h with
  | refl => exact ⟨[], by simp⟩
  | step x y _ hs ih =>
    obtain ⟨b, hb⟩ := ih
    rcases hs.log with h | ⟨e, h⟩
    · exact ⟨b, by rw [h, hb]⟩
    · exact ⟨b ++ [e], by rw [h, hb, List.append_assoc]⟩

/-- Every entry of the log was added by one step between two states of the execution. -/
theorem Reach.split {s : State L} (h : s.Reach) {a b : List (Entry D L.Call L.Val)} {e : Entry D L.Call L.Val}
    (hl : s.log = a ++ e :: b) :
    ∃ s0 s1 : State L, s0.Reach ∧ s0.Step s1 ∧ s1.Steps s ∧ s0.log = a ∧ s1.log = a ++ [e] := by
  induction h generalizing a b e with
  | init => simp [State.init] at hl
  | step s s' h hs ih =>
    rcases hs.log with h' | ⟨e', h'⟩
    · rw [h'] at hl
      obtain ⟨s0, s1, h1, h2, h3, h4, h5⟩ := ih hl
      exact ⟨s0, s1, h1, h2, .step _ _ h3 hs, h4, h5⟩
    · rw [h'] at hl
      rcases List.eq_nil_or_concat b with rfl | ⟨b', y, rfl⟩
      · obtain ⟨h1, h2⟩ := List.append_inj' hl rfl
        cases h2
        exact ⟨s, s', h, hs, .refl, h1, by rw [h', h1]⟩
      · have hl' : s.log ++ [e'] = (a ++ e :: b') ++ [y] := by simpa using hl
        obtain ⟨h1, _⟩ := List.append_inj' hl' rfl
        obtain ⟨s0, s1, h2, h3, h4, h5, h6⟩ := ih h1
        exact ⟨s0, s1, h2, h3, .step _ _ h4 hs, h5, h6⟩

/-- every prefix of the log is the log of an earlier state -/
theorem Reach.prefix {s : State L} (h : s.Reach) {a b : List (Entry D L.Call L.Val)} (hl : s.log = a ++ b) :
    ∃ s0 : State L, s0.Reach ∧ s0.Steps s ∧ s0.log = a := by
  cases b with
  | nil => exact ⟨s, h, .refl, by simpa using hl⟩
  | cons e b =>
    obtain ⟨s0, s1, h1, h2, h3, h4, _⟩ := h.split hl
    exact ⟨s0, h1, Steps.trans (.step _ _ .refl h2) h3, h4⟩

/-- the thread of an entry other than `start` was running before it -/
theorem Step.running {s s' : State L} (h : s.Step s') {e : Entry D L.Call L.Val} (he : s'.log = s.log ++ [e])
    (hs : ∀ j c, e ≠ .start j c) : ∃ P, s.threads[e.tid]? = some (some P) ∧ P ≠ .panic := by
  cases h with
  | spawn c h =>
    have := List.append_cancel_left he
    cases this
    exact (hs _ _ rfl).elim
  | act i _ h =>
    obtain ⟨P, h1, h2, h3 | ⟨e', h3, h4, _⟩, _⟩ := act_log h
    · rw [h3] at he; simp at he
    · rw [h3] at he
      have := List.append_cancel_left he
      cases this
      exact ⟨P, by rw [h4]; exact h1, h2⟩

/-- a thread that has ended stays as it is -/
theorem Steps.ended {s t : State L} (h : s.Steps t) {i : Nat} (hi : s.threads[i]? = some none ∨ s.threads[i]? = some (some .panic)) :
    t.threads[i]? = s.threads[i]? ∧ ∀ e, e ∈ t.log → e ∈ s.log ∨ e.tid ≠ i := by
  induction h with
  | refl => exact ⟨rfl, fun e h => Or.inl h⟩
  | step t u _ hs ih =>
    obtain ⟨h1, h2⟩ := ih
    have hlt : i < t.threads.length := by
      apply Classical.byContradiction
      intro hn
      rw [List.getElem?_eq_none (by omega)] at h1
      rcases hi with hi | hi <;> (rw [hi] at h1; cases h1)
    cases hs with
    | spawn c h =>
      refine ⟨?_, ?_⟩
      · show (t.threads ++ [_])[i]? = _
        rw [List.getElem?_append_left hlt]; exact h1
      · intro e he
        simp only [spawn, List.mem_append, List.mem_singleton] at he
        rcases he with he | rfl
        · exact h2 e he
        · right; simp only [Entry.tid]; omega
    | act j _ h =>
      obtain ⟨P, h3, h4, h5, h6, _⟩ := act_log h
      have hj : i ≠ j := by
        rintro rfl
        rw [h3] at h1
        rcases hi with hi | hi <;> (rw [hi] at h1; cases h1)
        exact h4 rfl
      refine ⟨by rw [h6 i hj]; exact h1, ?_⟩
      intro e he
      rcases h5 with h5 | ⟨e', h5, h6, _⟩
      · rw [h5] at he; exact h2 e he
      · rw [h5] at he
        simp only [List.mem_append, List.mem_singleton] at he
        rcases he with he | rfl
        · exact h2 e he
        · right; rw [h6]; exact Ne.symm hj

end State

section
variable {α D : Type} {L : Lib α D} {good gval : View α D → Obj D → Prop} {fr : L.Call → OldRoots α D}
  {Q : L.Call → List (Event D) → L.Val → View α D → Prop}

/-- frozen nodes stay frozen -/
theorem MInv.steps (ok : LibOk L good gval fr Q) {s t : State L} {g : Ghost α D} (m : MInv good fr Q s g)
    (h : s.Steps t) : ∃ g', MInv good fr Q t g' ∧ g.fz ≤ g'.fz := by
  induction h with
  | refl => exact ⟨g, m, View.le_refl _⟩
  | step x y _ hs ih =>
    obtain ⟨g', m', h'⟩ := ih
    obtain ⟨g'', m'', h''⟩ := m'.step ok hs
    exact ⟨g'', m'', View.le_trans h' h''⟩

/-- objects at all times were good -/
theorem State.Reach.inv' (ok : LibOk L good gval fr Q) {s : State L} (h : s.Reach) :
    ∃ g, MInv good fr Q s g ∧ ∀ a b, s.log = a ++ b → ∀ ob ∈ replay a, good g.fz ob := by
  induction h with
  | init =>
    refine ⟨_, MInv.init, ?_⟩
    intro a b hl ob hob
    have : a = [] := by
      have := congrArg List.length hl
      simp [State.init] at this
      exact List.eq_nil_of_length_eq_zero (by omega)
    subst this
    simp [replay] at hob
  | step s s' h hs ih =>
    obtain ⟨g, m, hg⟩ := ih
    obtain ⟨g', m', hle⟩ := m.step ok hs
    refine ⟨g', m', ?_⟩
    intro a b hl ob hob
    have hfull : replay s'.log = s'.objs := m'.replayed
    have old : ∀ b', s.log = a ++ b' → good g'.fz ob := fun b' hb => ok.good_mono hle (hg a b' hb ob hob)
    rcases hs.log with h' | ⟨e, h'⟩
    · exact old b (by rw [← h', hl])
    · rcases List.eq_nil_or_concat b with rfl | ⟨b', y, rfl⟩
      · rw [List.append_nil] at hl
        rw [← hl, hfull] at hob
        exact m'.objs_good ob hob
      · have hl' : s.log ++ [e] = (a ++ b') ++ [y] := by rw [← h', hl]; simp
        obtain ⟨h1, _⟩ := List.append_inj' hl' rfl
        exact old b' h1

/-- the call of a thread whose entry follows was started before and has not ended -/
theorem started_before (ok : LibOk L good gval fr Q) {s : State L} (h : s.Reach)
    {a b : List (Entry D L.Call L.Val)} {e : Entry D L.Call L.Val} (hl : s.log = a ++ e :: b)
    (hs : ∀ j c, e ≠ .start j c) : (∃ c, .start e.tid c ∈ a) ∧ (∀ x, .done e.tid x ∉ a) ∧
      ∀ o q, .fail e.tid o q ∉ a := by
  obtain ⟨s0, s1, h1, h2, h3, h4, h5⟩ := h.split hl
  obtain ⟨P, h6, h7⟩ := h2.running (e := e) (by rw [h5, h4]) hs
  obtain ⟨g, m⟩ := h1.inv ok
  subst h4
  obtain ⟨c, hc, hP⟩ := m.thr _ _ h6
  refine ⟨⟨c, hc⟩, fun x hx => ?_, fun o q hf => ?_⟩
  · have := m.done_none _ _ hx; rw [h6] at this; cases this
  · obtain ⟨a, b, hab⟩ := List.append_of_mem hf
    obtain ⟨t0, t1, k1, k2, k3, k4, k5⟩ := h1.split hab
    have hp : t1.threads[e.tid]? = some (some .panic) := by
      cases k2 with
      | spawn c h => rw [← k4] at k5; have := List.append_cancel_left k5; cases this
      | act i _ hact =>
        obtain ⟨g0, m0⟩ := k1.inv ok
        unfold State.act at hact
        split at hact
        case h_2 => cases hact
        case h_1 R hi =>
        have hlt : i < t0.threads.length := (List.getElem?_eq_some_iff.mp hi).1
        obtain ⟨c', _, hcw | ⟨rfl, _⟩⟩ := m0.thr i R hi
        case inr => cases hact
        obtain ⟨n, hn, _, hcw⟩ := hcw
        rw [← k4] at k5
        cases R with
        | ret x => injection hact with hact; subst hact; have := List.append_cancel_left k5; cases this
        | panic => cases hact
        | stuck => cases hact
        | alloc c k => injection hact with hact; subst hact; simp [State.cont] at k5
        | read p k =>
          simp only [State.actP] at hact
          split at hact <;> (injection hact with hact; subst hact; simp [State.cont] at k5)
        | write p c k =>
          simp only [State.actP] at hact
          split at hact <;> (injection hact with hact; subst hact; simp [State.cont] at k5)
        | load o k =>
          simp only [State.actP] at hact
          split at hact <;> (injection hact with hact; subst hact; simp [State.cont, State.note] at k5)
        | newObj ob k => injection hact with hact; subst hact; have := List.append_cancel_left k5; cases this
        | cas o' old new k =>
          obtain ⟨_, _, _, _, hkf, _⟩ := hcw
          simp only [State.actP] at hact
          split at hact
          · split at hact
            · injection hact with hact; subst hact; have := List.append_cancel_left k5; cases this
            · injection hact with hact; subst hact
              have := List.append_cancel_left k5
              injection this with this
              injection this with h1' h2'
              rw [← h1']
              show (t0.threads.set i _)[i]? = _
              rw [List.getElem?_set_self hlt, hkf]
          · injection hact with hact; subst hact; simp [State.cont] at k5
    have := (k3.ended (Or.inr hp)).1
    rw [hp, h6] at this
    cases this
    exact h7 rfl

end

/-! ### Every call can be run to its end -/

namespace State
variable {α D : Type} {L : Lib α D}
/-- steps of one thread only -/
inductive Solo (i : Nat) (s : State L) : State L → Prop
  | refl : Solo i s s
  | act (t u : State L) (h : Solo i s t) (hs : t.act i = some u) : Solo i s u

theorem Solo.steps {i : Nat} {s t : State L} (h : Solo i s t) : s.Steps t := by
  induction h with
  | refl => exact .refl
  | act t u _ hs ih => exact .step _ _ ih (.act i _ hs)

theorem Solo.head {i : Nat} {s t u : State L} (h : s.act i = some t) (h' : Solo i t u) : Solo i s u := by
  induction h' with
  | refl => exact .act _ _ .refl h
  | act x y _ hs ih => exact .act _ _ ih hs

/-- the log grows by entries of the thread -/
theorem Solo.log {i : Nat} {s t : State L} (h : Solo i s t) :
    ∃ b, t.log = s.log ++ b ∧ ∀ e ∈ b, e.tid = i ∧ ∀ j c, e ≠ .start j c := by
  induction h with
  | refl => exact ⟨[], by simp, by simp⟩
  | act t u _ hs ih =>
    obtain ⟨b, hb, hb'⟩ := ih
    obtain ⟨_, _, _, h | ⟨e, h, h', h''⟩, _⟩ := act_log hs
    · exact ⟨b, by rw [h, hb], hb'⟩
    · refine ⟨b ++ [e], by rw [h, hb, List.append_assoc], ?_⟩
      intro x hx
      simp only [List.mem_append, List.mem_singleton] at hx
      rcases hx with hx | rfl
      · exact hb' x hx
      · exact ⟨h', h''⟩

end State

section
variable {α D : Type} {L : Lib α D} {good gval : View α D → Obj D → Prop} {fr : L.Call → OldRoots α D}
  {Q : L.Call → List (Event D) → L.Val → View α D → Prop}

theorem run_to_end (ok : LibOk L good gval fr Q) {i : Nat} : ∀ (P : Prog α D L.Val) {s : State L}, s.Reach →
    s.threads[i]? = some (some P) →
    ∃ t, State.Solo i s t ∧ ((∃ x, .done i x ∈ t.log) ∨ ∃ o q, .fail i o q ∈ t.log) := by
  intro P
  induction P with
  | ret x =>
    intro s h hi
    exact ⟨_, .act _ _ .refl (by unfold State.act; rw [hi]; rfl), Or.inl ⟨x, by simp⟩⟩
  | panic =>
    intro s h hi
    obtain ⟨g, m⟩ := h.inv ok
    obtain ⟨c, _, ⟨n, _, _, hcw⟩ | ⟨_, hf⟩⟩ := m.thr i _ hi
    · exact hcw.elim
    · exact ⟨s, .refl, Or.inr hf⟩
  | stuck =>
    intro s h hi
    obtain ⟨g, m⟩ := h.inv ok
    obtain ⟨c, _, ⟨n, _, _, hcw⟩ | ⟨h, _⟩⟩ := m.thr i _ hi
    · exact hcw.elim
    · cases h
  | alloc c k ih =>
    intro s h hi
    have ha : s.act i = some { s.cont i (k s.heap.length) with heap := s.heap ++ [c] } := by
      unfold State.act; rw [hi]; rfl
    have hlt := (List.getElem?_eq_some_iff.mp hi).1
    obtain ⟨t, h1, h2⟩ := ih _ (.step _ _ h (.act i _ ha)) (List.getElem?_set_self hlt)
    exact ⟨t, h1.head ha, h2⟩
  | read p k ih =>
    intro s h hi
    obtain ⟨g, m⟩ := h.inv ok
    obtain ⟨c, _, ⟨n, _, _, hcw⟩ | ⟨h', _⟩⟩ := m.thr i _ hi
    case inr => cases h'
    obtain ⟨d, hd, _⟩ := hcw
    have hh : s.heap[p]? = some d := m.mem.v_le i _ _ hd
    have ha : s.act i = some (s.cont i (k d)) := by
      unfold State.act; rw [hi]; simp only [State.actP, hh]
    have hlt := (List.getElem?_eq_some_iff.mp hi).1
    obtain ⟨t, h1, h2⟩ := ih _ (.step _ _ h (.act i _ ha)) (List.getElem?_set_self hlt)
    exact ⟨t, h1.head ha, h2⟩
  | write p d k ih =>
    intro s h hi
    obtain ⟨g, m⟩ := h.inv ok
    obtain ⟨c, _, ⟨n, _, _, hcw⟩ | ⟨h', _⟩⟩ := m.thr i _ hi
    case inr => cases h'
    obtain ⟨hW, ⟨d0, hd0⟩, _⟩ := hcw
    have hh : p < s.heap.length := (List.getElem?_eq_some_iff.mp (m.mem.v_le i _ _ hd0)).1
    have ha : s.act i = some { s.cont i k with heap := s.heap.set p d } := by
      unfold State.act; rw [hi]; simp only [State.actP, hh, if_true]
    have hlt := (List.getElem?_eq_some_iff.mp hi).1
    obtain ⟨t, h1, h2⟩ := ih (.step _ _ h (.act i _ ha)) (List.getElem?_set_self hlt)
    exact ⟨t, h1.head ha, h2⟩
  | load o k ih =>
    intro s h hi
    obtain ⟨g, m⟩ := h.inv ok
    obtain ⟨c, _, ⟨n, hn, _, hcw⟩ | ⟨h', _⟩⟩ := m.thr i _ hi
    case inr => cases h'
    have ho := hcw.1
    have hol : o < s.objs.length := hn o ho
    obtain ⟨ob, hob⟩ : ∃ ob, s.objs[o]? = some ob := ⟨_, List.getElem?_eq_getElem hol⟩
    have ha : s.act i = some ((s.cont i (k ob)).note (.act i (.load o ob))) := by
      unfold State.act; rw [hi]; simp only [State.actP, hob]
    have hlt := (List.getElem?_eq_some_iff.mp hi).1
    obtain ⟨t, h1, h2⟩ := ih _ (.step _ _ h (.act i _ ha)) (List.getElem?_set_self hlt)
    exact ⟨t, h1.head ha, h2⟩
  | cas o old new k ih =>
    intro s h hi
    obtain ⟨g, m⟩ := h.inv ok
    obtain ⟨c, _, ⟨n, hn, _, hcw⟩ | ⟨h', _⟩⟩ := m.thr i _ hi
    case inr => cases h'
    have ho := hcw.1
    have hol : o < s.objs.length := hn o ho
    obtain ⟨ob, hob⟩ : ∃ ob, s.objs[o]? = some ob := ⟨_, List.getElem?_eq_getElem hol⟩
    have hlt := (List.getElem?_eq_some_iff.mp hi).1
    by_cases hold : ob.trie = old
    · have ha : s.act i = some ({ s.cont i (k true) with objs := s.objs.set o { ob with trie := new } }.note
          (.act i (.swap o old new))) := by
        unfold State.act; rw [hi]; simp only [State.actP, hob, hold, if_true]
      obtain ⟨t, h1, h2⟩ := ih _ (.step _ _ h (.act i _ ha)) (List.getElem?_set_self hlt)
      exact ⟨t, h1.head ha, h2⟩
    · have ha : s.act i = some ((s.cont i (k false)).note (.fail i o old)) := by
        unfold State.act; rw [hi]; simp only [State.actP, hob, hold, if_false]
      exact ⟨_, .act _ _ .refl ha, Or.inr ⟨o, old, by simp [State.note]⟩⟩
  | newObj ob k ih =>
    intro s h hi
    have ha : s.act i = some ({ s.cont i (k s.objs.length) with objs := s.objs ++ [ob] }.note
      (.act i (.made s.objs.length ob))) := by
      unfold State.act; rw [hi]; rfl
    have hlt := (List.getElem?_eq_some_iff.mp hi).1
    obtain ⟨t, h1, h2⟩ := ih _ (.step _ _ h (.act i _ ha)) (List.getElem?_set_self hlt)
    exact ⟨t, h1.head ha, h2⟩

/-- a thread that has returned has an entry for it -/
theorem State.Reach.none_done {s : State L} (h : s.Reach) {i : Nat} (hi : s.threads[i]? = some none) :
    ∃ x, .done i x ∈ s.log := by
  induction h with
  | init => simp [State.init] at hi
  | step s s' h hs ih =>
    cases hs with
    | spawn c h =>
      have hi' : (s.threads ++ [some (L.code c)])[i]? = some none := hi
      by_cases hlt : i < s.threads.length
      · rw [List.getElem?_append_left hlt] at hi'
        obtain ⟨x, hx⟩ := ih hi'
        exact ⟨x, by simp [State.spawn, hx]⟩
      · rw [List.getElem?_append_right (by omega)] at hi'
        rw [List.getElem?_singleton] at hi'
        split at hi' <;> cases hi'
    | act j _ hact =>
      obtain ⟨P, h3, h4, h5, h6, _, h7⟩ := State.act_log hact
      by_cases hj : i = j
      · subst hj
        obtain ⟨x, hx⟩ := h7 hi
        exact ⟨x, by rw [hx]; simp⟩
      · rw [h6 i hj] at hi
        obtain ⟨x, hx⟩ := ih hi
        rcases h5 with h5 | ⟨e, h5, _⟩
        · exact ⟨x, by rw [h5]; exact hx⟩
        · exact ⟨x, by rw [h5]; simp [hx]⟩

/-- a thread has started iff it is in the list of threads -/
theorem MInv.thread_cases {s : State L} {g : Ghost α D} (m : MInv good fr Q s g) {e : Entry D L.Call L.Val} (he : e ∈ s.log) :
    s.threads[e.tid]? = some none ∨ ∃ P, s.threads[e.tid]? = some (some P) := by
  have := m.tid e he
  rw [List.getElem?_eq_getElem this]
  cases s.threads[e.tid] with
  | none => exact Or.inl rfl
  | some P => exact Or.inr ⟨P, rfl⟩

end
end Addrs

import Verif.NoSwap
/-
  Calls without a compare-and-swap never lose a race.
-/
set_option linter.unusedSectionVars false
namespace Addrs
open GoWord Prog

variable {α D : Type} {L : Lib α D}

/-- a failed compare-and-swap belongs to a call that has one -/
structure FailsOk (s : State L) : Prop where
  tid : ∀ e ∈ s.log, e.tid < s.threads.length
  once : ∀ i c c', .start i c ∈ s.log → .start i c' ∈ s.log → c = c'
  runs : ∀ (i : Nat) (P : Prog α D L.Val), s.threads[i]? = some (some P) → ∃ c, .start i c ∈ s.log ∧ (NoSwap (L.code c) → NoSwap P)
  fails : ∀ i o q, .fail i o q ∈ s.log → ∃ c, .start i c ∈ s.log ∧ ¬ NoSwap (L.code c)

theorem FailsOk.replace {s t : State L} (h : FailsOk s) {i : Nat} {P : Prog α D L.Val} {P' : Option (Prog α D L.Val)} (hi : s.threads[i]? = some (some P))
    (th : t.threads = s.threads.set i P') {x : List (Entry D L.Call L.Val)} (hl : t.log = s.log ++ x) (hx : ∀ e ∈ x, e.tid = i)
    (hs : ∀ e ∈ x, ∀ j c, e ≠ .start j c) (hP : ∀ R, P' = some R → NoSwap P → NoSwap R)
    (hf : ∀ o q, .fail i o q ∈ x → ¬ NoSwap P) : FailsOk t := by
  have li : i < s.threads.length := (List.getElem?_eq_some_iff.mp hi).1
  have st : ∀ j c, .start j c ∈ t.log ↔ .start j c ∈ s.log := by
    intro j c
    rw [hl, List.mem_append]
    exact ⟨fun h => h.elim id fun h => (hs _ h j c rfl).elim, Or.inl⟩
  refine ⟨?_, ?_, ?_, ?_⟩
  · intro e he
    rw [th, List.length_set]
    rw [hl] at he
    rcases List.mem_append.mp he with he | he
    · exact h.tid e he
    · rw [hx e he]; exact li
  · intro j c c' h1 h2
    exact h.once j c c' ((st _ _).mp h1) ((st _ _).mp h2)
  · intro j R hj
    rw [th] at hj
    by_cases e : i = j
    · subst e
      rw [List.getElem?_set_self li] at hj
      obtain ⟨c, h1, h2⟩ := h.runs i P hi
      exact ⟨c, (st _ _).mpr h1, fun hc => hP R (Option.some.inj hj) (h2 hc)⟩
    · rw [List.getElem?_set_ne e] at hj
      obtain ⟨c, h1, h2⟩ := h.runs j R hj
      exact ⟨c, (st _ _).mpr h1, h2⟩
  · intro j o q hj
    rw [hl] at hj
    rcases List.mem_append.mp hj with hj | hj
    · obtain ⟨c, h1, h2⟩ := h.fails j o q hj
      exact ⟨c, (st _ _).mpr h1, h2⟩
    · have e : j = i := hx _ hj
      subst e
      obtain ⟨c, h1, h2⟩ := h.runs j P hi
      exact ⟨c, (st _ _).mpr h1, fun hc => hf o q hj (h2 hc)⟩

theorem State.Reach.failsOk {s : State L} (h : s.Reach) : FailsOk s := by
  induction h with
  | init => exact ⟨by simp [State.init], by simp [State.init], by simp [State.init], by simp [State.init]⟩
  | step s t _ hs ih =>
    cases hs with
    | spawn c hc =>
      refine ⟨?_, ?_, ?_, ?_⟩
      · intro e he
        simp only [State.spawn, List.length_append, List.length_singleton] at he ⊢
        rcases List.mem_append.mp he with he | he
        · exact Nat.lt_succ_of_lt (ih.tid e he)
        · rw [List.mem_singleton.mp he]; exact Nat.lt_succ_self _
      · intro i c1 c2 h1 h2
        simp only [State.spawn, List.mem_append, List.mem_singleton, Entry.start.injEq] at h1 h2
        rcases h1 with h1 | ⟨h1, e1⟩ <;> rcases h2 with h2 | ⟨h2, e2⟩
        · exact ih.once i c1 c2 h1 h2
        · have := ih.tid _ h1; simp only [Entry.tid] at this; omega
        · have := ih.tid _ h2; simp only [Entry.tid] at this; omega
        · rw [e1, e2]
      · intro i P hi
        simp only [State.spawn] at hi ⊢
        rcases Nat.lt_trichotomy i s.threads.length with h | h | h
        · rw [List.getElem?_append_left h] at hi
          obtain ⟨c', h1, h2⟩ := ih.runs i P hi
          exact ⟨c', List.mem_append_left _ h1, h2⟩
        · subst h
          simp at hi
          subst hi
          exact ⟨c, by simp, id⟩
        · rw [List.getElem?_eq_none (by simp; omega)] at hi; cases hi
      · intro i o q hi
        simp only [State.spawn, List.mem_append, List.mem_singleton, reduceCtorEq, or_false] at hi
        obtain ⟨c', h1, h2⟩ := ih.fails i o q hi
        exact ⟨c', List.mem_append_left _ h1, h2⟩
    | act i _ h =>
      unfold State.act at h
      split at h
      next P hi =>
        cases P with
        | ret v => injection h with h; subst h; exact ih.replace hi rfl rfl (by simp [Entry.tid]) (by simp) (by simp) (by simp)
        | panic => cases h
        | stuck => cases h
        | alloc d k =>
          injection h with h; subst h
          exact ih.replace hi rfl (x := []) (by simp [State.cont]) (by simp) (by simp) (by rintro _ ⟨⟩ h; exact h _) (by simp)
        | read p k =>
          simp only [State.actP] at h
          split at h <;> (injection h with h; subst h)
          · exact ih.replace hi rfl (x := []) (by simp [State.cont]) (by simp) (by simp) (by rintro _ ⟨⟩ h; exact h _) (by simp)
          · exact ih.replace hi rfl (x := []) (by simp [State.cont]) (by simp) (by simp) (by rintro _ ⟨⟩ h; trivial) (by simp)
        | write p d k =>
          simp only [State.actP] at h
          split at h <;> (injection h with h; subst h)
          · exact ih.replace hi rfl (x := []) (by simp [State.cont]) (by simp) (by simp) (by rintro _ ⟨⟩ h; exact h) (by simp)
          · exact ih.replace hi rfl (x := []) (by simp [State.cont]) (by simp) (by simp) (by rintro _ ⟨⟩ h; trivial) (by simp)
        | load o k =>
          simp only [State.actP] at h
          split at h <;> (injection h with h; subst h)
          · exact ih.replace hi rfl rfl (by simp [Entry.tid]) (by simp) (by rintro _ ⟨⟩ h; exact h _) (by simp)
          · exact ih.replace hi rfl (x := []) (by simp [State.cont]) (by simp) (by simp) (by rintro _ ⟨⟩ h; trivial) (by simp)
        | cas o old new k =>
          simp only [State.actP] at h
          split at h
          · split at h <;> (injection h with h; subst h)
            · exact ih.replace hi rfl rfl (by simp [Entry.tid]) (by simp) (by rintro _ ⟨⟩ h; exact h.elim) (by simp)
            · exact ih.replace hi rfl rfl (by simp [Entry.tid]) (by simp) (by rintro _ ⟨⟩ h; exact h.elim) (fun _ _ _ h => h)
          · injection h with h; subst h
            exact ih.replace hi rfl (x := []) (by simp [State.cont]) (by simp) (by simp) (by rintro _ ⟨⟩ h; trivial) (by simp)
        | newObj ob k =>
          injection h with h; subst h
          exact ih.replace hi rfl rfl (by simp [Entry.tid]) (by simp) (by rintro _ ⟨⟩ h; exact h _) (by simp)
      next => cases h

/-- a call that has no compare-and-swap in its code never fails to make one -/
theorem State.Reach.no_fail {s : State L} (h : s.Reach) {i : Nat} {c : L.Call} (hs : .start i c ∈ s.log) (hc : NoSwap (L.code c)) (o : Nat) (q : Ptr) :
    .fail i o q ∉ s.log := by
  intro hf
  obtain ⟨c', h1, h2⟩ := h.failsOk.fails i o q hf
  rw [h.failsOk.once i c' c h1 hs] at h2
  exact h2 hc

end Addrs

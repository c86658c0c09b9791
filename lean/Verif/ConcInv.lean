import Verif.Conc
/-
  The invariant of the machine and its preservation by every step.
-/
set_option linter.unusedSectionVars false
namespace Addrs
open GoWord

section
variable {D C V : Type}

/-- `q` was the root of some object at some time covered by the log -/
def Seen (log : List (Entry D C V)) (q : Ptr) : Prop :=
  ∃ (a b : List (Entry D C V)) (o : Nat) (ob : Obj D), log = a ++ b ∧ (replay a)[o]? = some ob ∧ ob.trie = q

/-- The entry agrees with the log before it; what a compare-and-swap expects was read before by the same
    thread, which has not swapped before. -/
def FullOk (a : List (Entry D C V)) (e : Entry D C V) : Prop :=
  EntryOk a e ∧ (∀ i o old, ((∃ new, e = .act i (.swap o old new)) ∨ e = .fail i o old) →
    (∃ ob, .act i (.load o ob) ∈ a ∧ ob.trie = old) ∧ ∀ o' x y, .act i (.swap o' x y) ∉ a)

/-- a root that is swapped in was not there before or is allowed by `fr` -/
def RootOk {α : Type} (fr : C → OldRoots α D) (v : View α D) (a : List (Entry D C V)) (e : Entry D C V) : Prop :=
  ∀ i o x y c, e = .act i (.swap o x y) → .start i c ∈ a →
    (∃ p, y = some p ∧ ¬ Seen a (some p)) ∨ fr c v (own i a) o y

theorem Seen.snoc {log : List (Entry D C V)} {e : Entry D C V} {q : Ptr} (h : Seen (log ++ [e]) q) :
    Seen log q ∨ ∃ (o : Nat) (ob : Obj D), (replay1 (replay log) e)[o]? = some ob ∧ ob.trie = q := by
  obtain ⟨a, b, o, ob, h1, h2, h3⟩ := h
  rcases List.eq_nil_or_concat b with rfl | ⟨b', y, rfl⟩
  · rw [List.append_nil] at h1
    subst h1
    rw [replay_snoc] at h2
    exact Or.inr ⟨o, ob, h2, h3⟩
  · have hx : log ++ [e] = (a ++ b') ++ [y] := by simpa using h1
    obtain ⟨h4, _⟩ := List.append_inj' hx rfl
    exact Or.inl ⟨a, b', o, ob, h4, h2, h3⟩

end

open Prog

/-- the invariant -/
structure MInv {α D : Type} {L : Lib α D} (good : View α D → Obj D → Prop) (fr : L.Call → OldRoots α D)
    (Q : L.Call → List (Event D) → L.Val → View α D → Prop) (s : State L) (g : Ghost α D) : Prop where
  mem : g.Mem s.heap
  objs_good : ∀ ob, ob ∈ s.objs → good g.fz ob
  log_good : ∀ i o ob, .act i (.load o ob) ∈ s.log →
    good g.fz ob ∧ ∃ cur, s.objs[o]? = some cur ∧ cur.eq = ob.eq
  tid : ∀ e, e ∈ s.log → e.tid < s.threads.length
  done_none : ∀ i x, .done i x ∈ s.log → s.threads[i]? = some none
  done_spec : ∀ i x, .done i x ∈ s.log → ∃ c, .start i c ∈ s.log ∧ Q c (own i s.log) x g.fz
  start_uniq : ∀ i c c', .start i c ∈ s.log → .start i c' ∈ s.log → c = c'
  thr : ∀ i P, s.threads[i]? = some (some P) → ∃ c, .start i c ∈ s.log ∧
    ((∃ n : Nat → Prop, (∀ o, n o → o < s.objs.length) ∧
        (∀ o, n o → o ∈ L.refs c ∨ ∃ ob, .act i (.made o ob) ∈ s.log) ∧
        cwp good (fr c) (Q c) P (g.views i) (g.bases i) (g.ws i) n (own i s.log)) ∨
      (P = .panic ∧ ∃ o q, .fail i o q ∈ s.log))
  seen : ∀ p, Seen s.log (some p) → g.fz p ≠ none
  ok : LogOk FullOk s.log
  roots : LogOk (RootOk fr g.fz) s.log
  replayed : replay s.log = s.objs

section
variable {α D : Type} {L : Lib α D} {good gval : View α D → Obj D → Prop} {fr : L.Call → OldRoots α D}
  {Q : L.Call → List (Event D) → L.Val → View α D → Prop}

theorem MInv.init : MInv (L := L) good fr Q State.init
    ⟨fun _ => none, fun _ _ => none, fun _ _ => none, fun _ => Nowhere⟩ := by
  refine ⟨⟨?_, ?_, ?_, ?_, ?_⟩, ?_, ?_, ?_, ?_, ?_, ?_, ?_, ?_, LogOk.nil _, LogOk.nil _, rfl⟩
  all_goals simp [State.init, Nowhere]
  · intro a c h; cases h
  · intro a c h; cases h
  · exact View.le_refl _
  · rintro p ⟨a, b, o, ob, h1, h2, _⟩
    have : a = [] := by
      have := congrArg List.length h1; simp at this; exact List.eq_nil_of_length_eq_zero (by omega)
    subst this
    simp [replay] at h2

theorem MInv.known (ok : LibOk L good gval fr Q) {s : State L} {g : Ghost α D} (m : MInv good fr Q s g) {x : Obj D}
    (h : s.Known x) : gval g.fz x := by
  rcases h with rfl | ⟨i, v, h1, h2⟩
  · exact ok.gval_zero _
  · obtain ⟨c, _, h3⟩ := m.done_spec i v h1
    exact ok.outs h3 x h2

theorem MInv.spawn (ok : LibOk L good gval fr Q) {s : State L} {g : Ghost α D} (m : MInv good fr Q s g) {c : L.Call}
    (h : s.CanStart c) : MInv good fr Q (s.spawn c) (g.spawn s.threads.length) := by
  obtain ⟨hp, hr, hv⟩ := h
  have hnot : ∀ e, e ∈ s.log → e.tid ≠ s.threads.length := fun e he => Nat.ne_of_lt (m.tid e he)
  refine ⟨m.mem.spawn _, m.objs_good, ?_, ?_, ?_, ?_, ?_, ?_, ?_, ?_, ?_, ?_⟩
  · intro i o ob h
    simp [State.spawn] at h
    exact m.log_good i o ob h
  · intro e he
    simp only [State.spawn, List.mem_append, List.mem_singleton, List.length_append, List.length_singleton] at he ⊢
    rcases he with he | rfl
    · have := m.tid e he; omega
    · simp [Entry.tid]
  · intro i x h
    simp [State.spawn] at h
    have h1 := m.done_none i x h
    have : i < s.threads.length := m.tid _ h
    simp only [State.spawn]
    rw [List.getElem?_append_left this]; exact h1
  · intro i x h
    simp [State.spawn] at h
    obtain ⟨c', h1, h2⟩ := m.done_spec i x h
    exact ⟨c', by simp [State.spawn, h1], by simpa [State.spawn, Ghost.spawn] using h2⟩
  · intro i c1 c2 h1 h2
    simp [State.spawn] at h1 h2
    rcases h1 with h1 | ⟨rfl, rfl⟩ <;> rcases h2 with h2 | ⟨h3, h4⟩
    · exact m.start_uniq i _ _ h1 h2
    · exact (hnot _ h1 h3).elim
    · exact (hnot _ h2 rfl).elim
    · exact h4.symm
  · intro i P h
    simp only [State.spawn] at h ⊢
    by_cases e : i = s.threads.length
    · subst e
      simp at h
      subst h
      refine ⟨c, by simp, Or.inl ⟨fun o => o ∈ L.refs c, hr, fun _ h => Or.inl h, ?_⟩⟩
      have h0 : own s.threads.length s.log = [] := by
        rw [List.eq_nil_iff_forall_not_mem]
        intro e he
        exact hnot _ (mem_own.mp he) rfl
      simp only [Ghost.spawn, upd_same, own_snoc_start, h0]
      exact ok.code c hp _ _ (fun x hx => m.known ok (hv x hx)) fun _ h => h
    · have hi : i < s.threads.length := by
        have := (List.getElem?_eq_some_iff.mp h).1
        simp at this; omega
      rw [List.getElem?_append_left hi] at h
      obtain ⟨c', h1, h2⟩ := m.thr i P h
      refine ⟨c', by simp [h1], ?_⟩
      simpa [Ghost.spawn, upd_ne _ _ e] using h2
  · intro p hp
    rcases hp.snoc with hp | ⟨o, ob, h1, h2⟩
    · exact m.seen p hp
    · refine m.seen p ⟨s.log, [], o, ob, by simp, ?_, h2⟩
      exact h1
  · exact m.ok.snoc ⟨trivial, (by rintro _ _ _ (⟨_, h⟩ | h) <;> cases h)⟩
  · exact m.roots.snoc (by intro _ _ _ _ _ h; cases h)
  · simp only [State.spawn, replay_snoc, replay1]
    exact m.replayed

/-- a step of thread `i` that is not logged -/
theorem MInv.quiet {s : State L} {g g' : Ghost α D} (m : MInv good fr Q s g) {i : Nat}
    {P P' : Prog α D L.Val} {h' : List (Cell α D)} (hi : s.threads[i]? = some (some P)) (mem : g'.Mem h')
    (hfz : g'.fz = g.fz)
    (hother : ∀ j, j ≠ i → g'.views j = g.views j ∧ g'.bases j = g.bases j ∧ g'.ws j = g.ws j)
    (hc : ∀ c, .start i c ∈ s.log → ∀ n,
      cwp good (fr c) (Q c) P (g.views i) (g.bases i) (g.ws i) n (own i s.log) →
      cwp good (fr c) (Q c) P' (g'.views i) (g'.bases i) (g'.ws i) n (own i s.log)) (hp : P ≠ .panic) :
    MInv good fr Q { s.cont i P' with heap := h' } g' := by
  have hlt : i < s.threads.length := (List.getElem?_eq_some_iff.mp hi).1
  refine ⟨mem, ?_, ?_, ?_, ?_, ?_, m.start_uniq, ?_, ?_, m.ok, hfz ▸ m.roots, m.replayed⟩
  · rw [hfz]; exact m.objs_good
  · rw [hfz]; exact m.log_good
  · intro e he; simpa [State.cont] using m.tid e he
  · intro j x h
    have h1 := m.done_none j x h
    have e : i ≠ j := by rintro rfl; rw [hi] at h1; cases h1
    simp only [State.cont]
    rw [List.getElem?_set_ne e]; exact h1
  · rw [hfz]; exact m.done_spec
  · intro j R h
    simp only [State.cont] at h ⊢
    by_cases e : i = j
    · subst e
      rw [List.getElem?_set_self hlt] at h
      cases h
      obtain ⟨c, h1, ⟨n, h2, h4, h3⟩ | ⟨h2, _⟩⟩ := m.thr i P hi
      · exact ⟨c, h1, Or.inl ⟨n, h2, h4, hc c h1 n h3⟩⟩
      · exact (hp h2).elim
    · rw [List.getElem?_set_ne e] at h
      obtain ⟨c, h1, h2⟩ := m.thr j R h
      obtain ⟨e1, e2, e3⟩ := hother j (Ne.symm e)
      exact ⟨c, h1, by rw [e1, e2, e3]; exact h2⟩
  · rw [hfz]; exact m.seen

/-- a logged step of thread `i` -/
theorem MInv.logged (ok : LibOk L good gval fr Q) {s : State L} {g g' : Ghost α D} (m : MInv good fr Q s g) {i : Nat}
    {P : Prog α D L.Val} {P' : Option (Prog α D L.Val)} {e : Entry D L.Call L.Val} {objs' : List (Obj D)}
    (hi : s.threads[i]? = some (some P)) (hs : ∀ j c, e ≠ .start j c)
    (hd : ∀ j x, e = .done j x → P' = none)
    (he : e.tid = i) (mem : g'.Mem s.heap) (hfz : g.fz ≤ g'.fz)
    (hother : ∀ j, j ≠ i → g'.views j = g.views j ∧ g'.bases j = g.bases j ∧ g'.ws j = g.ws j)
    (hgood : ∀ ob, ob ∈ objs' → good g'.fz ob) (hlen : s.objs.length ≤ objs'.length)
    (heq : ∀ (o : Nat) (cur : Obj D), s.objs[o]? = some cur → ∃ cur', objs'[o]? = some cur' ∧ cur'.eq = cur.eq)
    (hload : ∀ o ob, e = .act i (.load o ob) → s.objs[o]? = some ob)
    (hdone : ∀ x, e = .done i x → ∃ c, .start i c ∈ s.log ∧ Q c (own i s.log) x g'.fz)
    (hc : ∀ P'', P' = some P'' → ∃ c, .start i c ∈ s.log ∧
      ((∃ n : Nat → Prop, (∀ o, n o → o < objs'.length) ∧
        (∀ o, n o → o ∈ L.refs c ∨ ∃ ob, .act i (.made o ob) ∈ s.log ++ [e]) ∧
        cwp good (fr c) (Q c) P'' (g'.views i) (g'.bases i) (g'.ws i) n (own i (s.log ++ [e]))) ∨
      (P'' = .panic ∧ ∃ o q, e = .fail i o q)))
    (hok : FullOk s.log e)
    (hroot : RootOk fr g'.fz s.log e) (hrep : replay1 s.objs e = objs') :
    MInv good fr Q { heap := s.heap, objs := objs', threads := s.threads.set i P', log := s.log ++ [e] } g' := by
  have hlt : i < s.threads.length := (List.getElem?_eq_some_iff.mp hi).1
  have hown : ∀ j, j ≠ i → own j (s.log ++ [e]) = own j s.log := by
    intro j hj
    cases e with
    | act k x => simp only [Entry.tid] at he; subst he; exact own_snoc_other (Ne.symm hj) _ _
    | _ => simp
  have hstart : ∀ j c, .start j c ∈ s.log ++ [e] ↔ .start j c ∈ s.log := by
    intro j c
    simp only [List.mem_append, List.mem_singleton]
    exact ⟨fun h => h.elim id fun h => (hs _ _ h.symm).elim, Or.inl⟩
  refine ⟨mem, hgood, ?_, ?_, ?_, ?_, ?_, ?_, ?_, m.ok.snoc hok,
    LogOk.snoc (fun a x b hx i o p q c h1 h2 => (m.roots a x b hx i o p q c h1 h2).imp id (ok.fr_mono hfz)) hroot, ?_⟩
  · intro j o ob h
    simp only [List.mem_append, List.mem_singleton] at h
    rcases h with h | h
    · obtain ⟨h1, cur, h2, h3⟩ := m.log_good j o ob h
      obtain ⟨cur', h4, h5⟩ := heq o cur h2
      exact ⟨ok.good_mono hfz h1, cur', h4, h5.trans h3⟩
    · subst h
      simp only [Entry.tid] at he
      subst he
      have h1 := hload o ob rfl
      obtain ⟨cur', h4, h5⟩ := heq o ob h1
      exact ⟨ok.good_mono hfz (m.objs_good ob (List.mem_of_getElem? h1)), cur', h4, h5⟩
  · intro x hx
    simp only [List.mem_append, List.mem_singleton, List.length_set] at hx ⊢
    rcases hx with hx | rfl
    · exact m.tid x hx
    · rw [he]; exact hlt
  · intro j x h
    simp only [List.mem_append, List.mem_singleton] at h
    rcases h with h | h
    · have h1 := m.done_none j x h
      have e : i ≠ j := by rintro rfl; rw [hi] at h1; cases h1
      show (s.threads.set i P')[j]? = _
      rw [List.getElem?_set_ne e]; exact h1
    · have h2 := hd j x h.symm
      subst h h2
      simp only [Entry.tid] at he
      subst he
      show (s.threads.set j none)[j]? = _
      rw [List.getElem?_set_self hlt]
  · intro j x h
    simp only [List.mem_append, List.mem_singleton] at h
    rcases h with h | h
    · obtain ⟨c, h1, h2⟩ := m.done_spec j x h
      have e : j ≠ i := by
        rintro rfl
        have h1 := m.done_none j x h
        rw [hi] at h1; cases h1
      exact ⟨c, (hstart j c).mpr h1, by
        show Q c (own j (s.log ++ [_])) x g'.fz
        rw [hown j e]; exact ok.spec_mono hfz h2⟩
    · subst h
      simp only [Entry.tid] at he
      subst he
      obtain ⟨c, h1, h2⟩ := hdone x rfl
      exact ⟨c, (hstart j c).mpr h1, by
        show Q c (own j (s.log ++ [_])) x g'.fz
        rw [own_snoc_done]; exact h2⟩
  · intro j c c' h1 h2
    exact m.start_uniq j c c' ((hstart j c).mp h1) ((hstart j c').mp h2)
  · intro j R h
    by_cases ej : i = j
    · subst ej
      have h' : (s.threads.set i P')[i]? = some (some R) := h
      rw [List.getElem?_set_self hlt] at h'
      cases h'
      obtain ⟨c, h1, h2⟩ := hc R rfl
      refine ⟨c, (hstart i c).mpr h1, ?_⟩
      rcases h2 with h2 | ⟨h2, o, q, h3⟩
      · exact Or.inl h2
      · exact Or.inr ⟨h2, o, q, by simp [h3]⟩
    · have h' : (s.threads.set i P')[j]? = some (some R) := h
      rw [List.getElem?_set_ne ej] at h'
      obtain ⟨c, h1, h2⟩ := m.thr j R h'
      obtain ⟨e1, e2, e3⟩ := hother j (Ne.symm ej)
      refine ⟨c, (hstart j c).mpr h1, ?_⟩
      rcases h2 with ⟨n, h2, h4, h3⟩ | ⟨h2, o, q, h3⟩
      · refine Or.inl ⟨n, fun o ho => Nat.lt_of_lt_of_le (h2 o ho) hlen,
          fun o ho => (h4 o ho).imp id fun ⟨ob, h⟩ => ⟨ob, List.mem_append_left _ h⟩, ?_⟩
        show cwp good (fr c) (Q c) R (g'.views j) (g'.bases j) (g'.ws j) n (own j (s.log ++ [e]))
        rw [e1, e2, e3, hown j (Ne.symm ej)]; exact h3
      · exact Or.inr ⟨h2, o, q, List.mem_append.mpr (Or.inl h3)⟩
  · intro p hp
    rcases hp.snoc with hp | ⟨o, ob, h1, h2⟩
    · have := m.seen p hp
      obtain ⟨c, hc⟩ := Option.ne_none_iff_exists'.mp this
      rw [hfz _ _ hc]; simp
    · rw [m.replayed, hrep] at h1
      exact ok.good_dom (hgood ob (List.mem_of_getElem? h1)) h2
  · show replay (s.log ++ [e]) = objs'
    rw [replay_snoc, m.replayed, hrep]

/-- What a step of thread `i`, which is to continue with `P`, does to what the threads rely on. -/
def Ghost.Next (s : State L) (i : Nat) (g g' : Ghost α D) (P : Prog α D L.Val) : Prop :=
  (∀ j, j ≠ i → g'.views j = g.views j) ∧
  match P with
  | .alloc c _ => g.views i s.heap.length = none ∧ g'.views i = (g.views i).set s.heap.length c
  | .read p _ => (∃ c, g.views i p = some c ∧ s.heap[p]? = some c) ∧ g'.views i = g.views i
  | .write p c _ => p < s.heap.length ∧ g'.views i = (g.views i).set p c
  | .load o _ => ∃ ob, s.objs[o]? = some ob ∧ g.views i ≤ g'.views i ∧ g.fz ≤ g'.views i
  | .cas o _ _ _ => (∃ ob, s.objs[o]? = some ob) ∧ g'.views i = g.views i
  | _ => g'.views i = g.views i

theorem MInv.act_next (ok : LibOk L good gval fr Q) {s s' : State L} {g : Ghost α D} (m : MInv good fr Q s g) {i : Nat}
    (h : s.act i = some s') : ∃ g', MInv good fr Q s' g' ∧ g.fz ≤ g'.fz ∧
      ∀ P, s.threads[i]? = some (some P) → g.Next s i g' P := by
  unfold State.act at h
  split at h
  case h_2 => cases h
  case h_1 P hi =>
  obtain ⟨c, hstart, hcw | ⟨rfl, _⟩⟩ := m.thr i P hi
  case inr => cases h
  obtain ⟨n, hn, hnr, hcw⟩ := hcw
  have hnr' : ∀ e o, n o → o ∈ L.refs c ∨ ∃ ob, .act i (.made o ob) ∈ s.log ++ [e] :=
    fun e o ho => (hnr o ho).imp id fun ⟨ob, h⟩ => ⟨ob, List.mem_append_left _ h⟩
  have huniq : ∀ c', .start i c' ∈ s.log → c' = c := fun c' h' => m.start_uniq i c' c h' hstart
  have hone : ∀ {g' : Ghost α D}, g.Next s i g' P → ∀ P', s.threads[i]? = some (some P') → g.Next s i g' P' := by
    intro g' h P' h'; rw [hi] at h'; cases h'; exact h
  cases P with
  | ret x =>
    injection h with h; subst h
    refine ⟨g.freeze i, ?_, View.le_join_left _ _, hone ⟨fun _ _ => rfl, rfl⟩⟩
    refine m.logged ok hi (e := .done i x) (by intros; simp) (by intros; rfl) rfl (m.mem.freeze i)
      (View.le_join_left _ _) ?_ ?_ (Nat.le_refl _) (fun o cur h => ⟨cur, h, rfl⟩) (by intros _ _ h; cases h) ?_ ?_ ⟨trivial, (by rintro _ _ _ (⟨_, h⟩ | h) <;> cases h)⟩
      (by intro _ _ _ _ _ h; cases h) rfl
    · intro j hj; simp [Ghost.freeze, upd_ne _ _ hj]
    · intro ob hob; exact ok.good_mono (View.le_join_left _ _) (m.objs_good ob hob)
    · intro y hy; injection hy with _ hy; subst hy
      exact ⟨c, hstart, ok.spec_mono (View.le_join_right m.mem.fz_le (m.mem.v_le i)) hcw⟩
    · intro _ h; cases h
  | panic => exact hcw.elim
  | stuck => exact hcw.elim
  | alloc d k =>
    injection h with h; subst h
    refine ⟨g.alloc i s.heap.length d, ?_, View.le_refl _, hone ⟨fun j hj => by simp [Ghost.alloc, upd_ne _ _ hj],
      Ghost.none_at_end (m.mem.v_le i), by simp [Ghost.alloc]⟩⟩
    refine m.quiet hi (m.mem.alloc i d) rfl ?_ ?_ (by simp)
    · intro j hj; simp [Ghost.alloc, upd_ne _ _ hj]
    · intro c' hc' n' hw
      simpa [Ghost.alloc] using hw _ (Ghost.none_at_end (m.mem.v_le i))
  | read p k =>
    obtain ⟨d, hd, hcw⟩ := hcw
    have hh : s.heap[p]? = some d := m.mem.v_le i _ _ hd
    simp only [State.actP, hh] at h
    injection h with h; subst h
    refine ⟨g, ?_, View.le_refl _, hone ⟨fun _ _ => rfl, ⟨d, hd, hh⟩, rfl⟩⟩
    refine m.quiet (h' := s.heap) hi m.mem rfl (fun _ _ => ⟨rfl, rfl, rfl⟩) ?_ (by simp)
    intro c' hc' n' hw
    obtain ⟨d', hd', hw⟩ := hw
    rw [hd] at hd'
    cases hd'
    exact hw
  | write p d k =>
    obtain ⟨hW, ⟨d0, hd0⟩, hcw⟩ := hcw
    have hh : p < s.heap.length := (List.getElem?_eq_some_iff.mp (m.mem.v_le i _ _ hd0)).1
    simp only [State.actP, hh, if_true] at h
    injection h with h; subst h
    refine ⟨g.write i p d, ?_, View.le_refl _, hone ⟨fun j hj => by simp [Ghost.write, upd_ne _ _ hj], hh, by simp [Ghost.write]⟩⟩
    refine m.quiet hi (m.mem.write hW d) rfl ?_ ?_ (by simp)
    · intro j hj; simp [Ghost.write, upd_ne _ _ hj]
    · intro c' hc' n' hw
      simpa [Ghost.write] using hw.2.2
  | load o k =>
    obtain ⟨ho, hcw⟩ := hcw
    have hol : o < s.objs.length := hn o ho
    obtain ⟨ob, hob⟩ : ∃ ob, s.objs[o]? = some ob := ⟨_, List.getElem?_eq_getElem hol⟩
    simp only [State.actP, hob] at h
    injection h with h; subst h
    refine ⟨g.load i, ?_, View.le_refl _, hone ⟨fun j hj => by simp [Ghost.load, upd_ne _ _ hj], ob, hob, by
      simp only [Ghost.load, upd_same]
      exact ⟨View.le_join_left _ _, View.le_join_right (m.mem.v_le i) m.mem.fz_le⟩⟩⟩
    refine m.logged ok hi (e := .act i (.load o ob)) (by intros; simp) (by intros _ _ h; cases h) rfl (m.mem.load i)
      (View.le_refl _) ?_ m.objs_good (Nat.le_refl _) (fun o cur h => ⟨cur, h, rfl⟩) ?_ (by intro _ h; cases h) ?_
      ⟨?_, (by rintro _ _ _ (⟨_, h⟩ | h) <;> cases h)⟩ (by intro _ _ _ _ _ h; cases h) rfl
    · intro j hj; simp [Ghost.load, upd_ne _ _ hj]
    · intro o' ob' h; injection h with _ h; injection h with h1 h2; subst h1 h2; exact hob
    · intro P'' h; injection h with h; subst h
      refine ⟨c, hstart, Or.inl ⟨n, hn, hnr' _, ?_⟩⟩
      simp only [own_snoc_act, Ghost.load, upd_same]
      refine hcw _ _ ob (View.le_join_left _ _) (m.mem.base_le i)
        ⟨View.le_join_right (m.mem.v_le i) m.mem.fz_le, fun a h1 h2 => (m.mem.priv i a h1 h2).1⟩ ?_ ?_
      · exact ok.good_mono (View.le_join_right (m.mem.v_le i) m.mem.fz_le) (m.objs_good ob (List.mem_of_getElem? hob))
      · intro ob' h'
        obtain ⟨_, cur, h1, h2⟩ := m.log_good i o ob' (mem_own.mp h')
        rw [hob] at h1
        cases h1
        exact h2.symm
    · show (replay s.log)[o]? = some ob
      rw [m.replayed]; exact hob
  | cas o old new k =>
    obtain ⟨ho, ⟨ob0, hl0, he0, hg0⟩, hns, hfr, hkf, hcw⟩ := hcw
    obtain ⟨_, cur, hcur, hceq⟩ := m.log_good i o ob0 (mem_own.mp hl0)
    have hol : o < s.objs.length := hn o ho
    simp only [State.actP, hcur] at h
    split at h
    · next hold =>
      injection h with h; subst h
      have hgn : good (g.freeze i).fz { cur with trie := new } := by
        have : ({ cur with trie := new } : Obj D) = { ob0 with trie := new } := by
          cases cur; cases ob0; simp only at hceq; subst hceq; rfl
        rw [this]
        exact ok.good_mono (View.le_join_right m.mem.fz_le (m.mem.v_le i)) hg0
      refine ⟨g.freeze i, ?_, View.le_join_left _ _, hone ⟨fun _ _ => rfl, ⟨cur, hcur⟩, rfl⟩⟩
      refine m.logged ok hi (e := .act i (.swap o old new)) (by intros; simp) (by intros _ _ h; cases h) rfl
        (m.mem.freeze i) (View.le_join_left _ _) ?_ ?_ (by simp) ?_ (by intros _ _ h; cases h) (by intro _ h; cases h) ?_
        ⟨?_, ?_⟩ ?_ ?_
      · intro j hj; simp [Ghost.freeze, upd_ne _ _ hj]
      · intro ob hob
        rcases List.mem_or_eq_of_mem_set hob with hob | rfl
        · exact ok.good_mono (View.le_join_left _ _) (m.objs_good ob hob)
        · exact hgn
      · intro o' cur' h'
        by_cases e : o = o'
        · subst e
          rw [hcur] at h'
          cases h'
          exact ⟨_, List.getElem?_set_self hol, rfl⟩
        · exact ⟨cur', by rw [List.getElem?_set_ne e]; exact h', rfl⟩
      · intro P'' h; injection h with h; subst h
        refine ⟨c, hstart, Or.inl ⟨n, by simpa using hn, hnr' _, ?_⟩⟩
        simp only [own_snoc_act, Ghost.freeze, upd_same]
        exact hcw _ (View.le_refl _)
      · exact ⟨cur, by rw [m.replayed]; exact hcur, hold⟩
      · rintro i' o' old' (⟨new', h'⟩ | h')
        · cases h'; exact ⟨⟨ob0, mem_own.mp hl0, he0⟩, fun o' x y h => hns o' x y (mem_own.mpr h)⟩
        · cases h'
      · intro i' o' old' new' c' h' hc'
        injection h' with h1 h2
        injection h2 with h2 h3 h4
        subst h1 h2 h3 h4
        have := huniq c' hc'
        subst this
        rcases hfr with ⟨a, rfl, ha⟩ | h5
        · refine Or.inl ⟨a, rfl, fun hs => ?_⟩
          have hva : g.views i a ≠ none := by
            have := ok.good_dom hg0 rfl
            exact this
          exact m.seen a hs (m.mem.priv i a hva ha).1
        · exact Or.inr (ok.fr_mono (View.le_join_right m.mem.fz_le (m.mem.v_le i)) h5)
      · simp only [replay1, hcur]
    · next hold =>
      injection h with h; subst h
      refine ⟨g, ?_, View.le_refl _, hone ⟨fun _ _ => rfl, ⟨cur, hcur⟩, rfl⟩⟩
      rw [hkf]
      refine m.logged ok hi (e := .fail i o old) (by intros; simp) (by intros _ _ h; cases h) rfl m.mem
        (View.le_refl _) (fun _ _ => ⟨rfl, rfl, rfl⟩) m.objs_good (Nat.le_refl _) (fun o cur h => ⟨cur, h, rfl⟩)
        (by intros _ _ h; cases h) (by intro _ h; cases h) ?_ ⟨?_, ?_⟩
        (by intro _ _ _ _ _ h; cases h) rfl
      · intro P'' h; injection h with h; subst h
        exact ⟨c, hstart, Or.inr ⟨rfl, o, old, rfl⟩⟩
      · exact ⟨cur, by rw [m.replayed]; exact hcur, hold⟩
      · rintro i' o' old' (⟨new', h'⟩ | h')
        · cases h'
        · cases h'; exact ⟨⟨ob0, mem_own.mp hl0, he0⟩, fun o' x y h => hns o' x y (mem_own.mpr h)⟩
  | newObj ob k =>
    injection h with h; subst h
    obtain ⟨hgo, hcw⟩ := hcw
    refine ⟨g.freeze i, ?_, View.le_join_left _ _, hone ⟨fun _ _ => rfl, rfl⟩⟩
    refine m.logged ok hi (e := .act i (.made s.objs.length ob)) (by intros; simp) (by intros _ _ h; cases h) rfl
      (m.mem.freeze i) (View.le_join_left _ _) ?_ ?_ (by simp) ?_ (by intros _ _ h; cases h) (by intro _ h; cases h) ?_
      ⟨?_, (by rintro _ _ _ (⟨_, h⟩ | h) <;> cases h)⟩ (by intro _ _ _ _ _ h; cases h) rfl
    · intro j hj; simp [Ghost.freeze, upd_ne _ _ hj]
    · intro ob' hob
      simp only [List.mem_append, List.mem_singleton] at hob
      rcases hob with hob | rfl
      · exact ok.good_mono (View.le_join_left _ _) (m.objs_good ob' hob)
      · exact ok.good_mono (View.le_join_right m.mem.fz_le (m.mem.v_le i)) hgo
    · intro o' cur' h'
      refine ⟨cur', ?_, rfl⟩
      show (s.objs ++ [ob])[o']? = _
      rw [List.getElem?_append_left (List.getElem?_eq_some_iff.mp h').1]; exact h'
    · intro P'' h; injection h with h; subst h
      refine ⟨c, hstart, Or.inl ⟨fun m => m = s.objs.length ∨ n m, ?_, ?_, ?_⟩⟩
      · rintro m (rfl | hm)
        · simp
        · have := hn m hm; simp; omega
      · rintro m (rfl | hm)
        · exact Or.inr ⟨ob, by simp⟩
        · exact hnr' _ m hm
      simp only [own_snoc_act, Ghost.freeze, upd_same]
      exact hcw _ _ (View.le_refl _) fun h => Nat.lt_irrefl _ (hn _ h)
    · show s.objs.length = (replay s.log).length
      rw [m.replayed]

theorem MInv.act (ok : LibOk L good gval fr Q) {s s' : State L} {g : Ghost α D} (m : MInv good fr Q s g) {i : Nat}
    (h : s.act i = some s') : ∃ g', MInv good fr Q s' g' ∧ g.fz ≤ g'.fz := by
  obtain ⟨g', h1, h2, _⟩ := m.act_next ok h
  exact ⟨g', h1, h2⟩

theorem MInv.step (ok : LibOk L good gval fr Q) {s s' : State L} {g : Ghost α D} (m : MInv good fr Q s g)
    (h : s.Step s') : ∃ g', MInv good fr Q s' g' ∧ g.fz ≤ g'.fz := by
  cases h with
  | spawn c h => exact ⟨_, m.spawn ok h, View.le_refl _⟩
  | act i _ h => exact m.act ok h

/-- Every reachable state satisfies the invariant. -/
theorem State.Reach.inv (ok : LibOk L good gval fr Q) {s : State L} (h : s.Reach) : ∃ g, MInv good fr Q s g := by
  induction h with
  | init => exact ⟨_, MInv.init⟩
  | step s s' _ hs ih =>
    obtain ⟨g, m⟩ := ih
    obtain ⟨g', m', _⟩ := m.step ok hs
    exact ⟨g', m'⟩

end
end Addrs

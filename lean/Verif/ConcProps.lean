import Verif.ConcLin
/-
  Consequences of the machine's invariant, for any package: panics, termination, reads, overlapping writes.
-/
set_option linter.unusedSectionVars false
namespace Addrs
open GoWord Prog

section
variable {D C V : Type}

/-- a new object -/
theorem objAt_made {log : List (Entry D C V)} (ok : LogOk EntryOk log) {k i o : Nat} {ob : Obj D}
    (h : At log k i (.made o ob)) : objAt log k o = none ∧ objAt log (k + 1) o = some ob := by
  have h1 : o = (replay (log.take k)).length := ok _ _ _ (at_split h)
  refine ⟨?_, ?_⟩
  · unfold objAt
    rw [List.getElem?_eq_none (by omega)]
  · rw [objAt_succ h]
    simp only [replay1]
    rw [h1, List.getElem?_append_right (Nat.le_refl _)]
    simp

/-- an object is made once -/
theorem made_once {log : List (Entry D C V)} (ok : LogOk EntryOk log) {i j o : Nat} {ob ob' : Obj D}
    (h : .act i (.made o ob) ∈ log) (h' : .act j (.made o ob') ∈ log) : i = j ∧ ob = ob' := by
  obtain ⟨k, hk⟩ := List.mem_iff_getElem?.mp h
  obtain ⟨l, hl⟩ := List.mem_iff_getElem?.mp h'
  have key : ∀ {k l i j ob ob'}, At log k i (.made o ob) → At log l j (.made o ob') → ¬ k < l := by
    intro k l i j ob ob' h1 h2 hlt
    obtain ⟨x, h3, _⟩ := objAt_later ok (show k + 1 ≤ l by omega) (objAt_made ok h1).2
    rw [(objAt_made ok h2).1] at h3
    cases h3
  have h1 := key hk hl
  have h2 := key hl hk
  have : k = l := by omega
  subst this
  rw [hk] at hl
  cases hl
  exact ⟨rfl, rfl⟩

end

section
variable {α D : Type} {L : Lib α D}

/-- arguments of started calls satisfy the precondition -/
theorem State.Reach.pre {s : State L} (h : s.Reach) {i : Nat} {c : L.Call} (hs : .start i c ∈ s.log) : L.pre c := by
  induction h with
  | init => cases hs
  | step s s' _ hst ih =>
    cases hst with
    | spawn c' hc =>
      rcases List.mem_append.mp hs with h | h
      · exact ih h
      · simp only [List.mem_singleton, Entry.start.injEq] at h
        rw [h.2]; exact hc.1
    | act j _ ha =>
      obtain ⟨_, _, _, h5 | ⟨e, h5, _, h6⟩, _⟩ := State.act_log ha
      · rw [h5] at hs; exact ih hs
      · rw [h5] at hs
        rcases List.mem_append.mp hs with h | h
        · exact ih h
        · simp only [List.mem_singleton] at h
          exact (h6 _ _ h.symm).elim

/-- what a step does -/
inductive Label (L : Lib α D) where
  | spawn (c : L.Call)
  | act (i : Nat)

/-- an infinite execution: `f n` is the state after `n` steps, `lab n` the next step -/
def Execution (f : Nat → State L) (lab : Nat → Label L) : Prop :=
  ∀ n, match lab n with
    | .spawn c => (f n).CanStart c ∧ f (n + 1) = (f n).spawn c
    | .act i => (f n).act i = some (f (n + 1))

/-- a state of a thread stays while others act -/
theorem Execution.other {f : Nat → State L} {lab : Nat → Label L} (h : Execution f lab) {n i : Nat} {x : Option (Prog α D L.Val)}
    (hx : (f n).threads[i]? = some x) (hl : lab n ≠ .act i) : (f (n + 1)).threads[i]? = some x := by
  have hn := h n
  cases e : lab n with
  | spawn c =>
    rw [e] at hn
    rw [hn.2]
    have hlt := (List.getElem?_eq_some_iff.mp hx).1
    show (_ ++ _)[i]? = _
    rw [List.getElem?_append_left hlt]; exact hx
  | act j =>
    rw [e] at hn hl
    have hji : i ≠ j := fun e => hl (by rw [e])
    obtain ⟨_, _, _, _, h6, _⟩ := State.act_log hn
    rw [h6 i hji]; exact hx

theorem Execution.until {f : Nat → State L} {lab : Nat → Label L} (h : Execution f lab) {n i : Nat} {x : Option (Prog α D L.Val)}
    (hx : (f n).threads[i]? = some x) (d : Nat) (hl : ∀ m, n ≤ m → m < n + d → lab m ≠ .act i) :
    (f (n + d)).threads[i]? = some x := by
  induction d with
  | zero => exact hx
  | succ d ih => exact h.other (ih fun m h1 h2 => hl m h1 (by omega)) (hl (n + d) (by omega) (by omega))

/-- where a thread is after one action of its own: it has ended or continues with a smaller program -/
theorem act_next {s s' : State L} {i : Nat} {P : Prog α D L.Val} (hi : s.threads[i]? = some (some P))
    (h : s.act i = some s') (C : Option (Prog α D L.Val) → Prop) (hn : C none) (hp : C (some .panic))
    (hP : match P with
      | .alloc _ k => ∀ a, C (some (k a))
      | .read _ k => ∀ a, C (some (k a))
      | .write _ _ k => C (some k)
      | .load _ k => ∀ a, C (some (k a))
      | .cas _ _ _ k => ∀ a, C (some (k a))
      | .newObj _ k => ∀ a, C (some (k a))
      | _ => True) : ∃ x, s'.threads[i]? = some x ∧ C x := by
  have hlt := (List.getElem?_eq_some_iff.mp hi).1
  unfold State.act at h
  rw [hi] at h
  have hset : ∀ x, (s.threads.set i x)[i]? = some x := fun x => List.getElem?_set_self hlt
  cases P with
  | ret x => cases h; exact ⟨_, hset _, hn⟩
  | panic => cases h
  | stuck => cases h
  | alloc c k => cases h; exact ⟨_, hset _, hP _⟩
  | read p k =>
    simp only [State.actP] at h
    split at h <;> cases h
    · exact ⟨_, hset _, hP _⟩
    · exact ⟨_, hset _, hp⟩
  | write p c k =>
    simp only [State.actP] at h
    split at h <;> cases h
    · exact ⟨_, hset _, hP⟩
    · exact ⟨_, hset _, hp⟩
  | load o k =>
    simp only [State.actP] at h
    split at h <;> cases h
    · exact ⟨_, hset _, hP _⟩
    · exact ⟨_, hset _, hp⟩
  | newObj ob k => cases h; exact ⟨_, hset _, hP _⟩
  | cas o x y k =>
    simp only [State.actP] at h
    split at h
    · split at h <;> cases h <;> exact ⟨_, hset _, hP _⟩
    · cases h; exact ⟨_, hset _, hp⟩

/-- In every execution, a call takes only finitely many steps, whatever the other goroutines do. -/
theorem finitely_many_steps {f : Nat → State L} {lab : Nat → Label L} (h : Execution f lab) (i : Nat) :
    ∃ N, ∀ n, N ≤ n → lab n ≠ .act i := by
  open Classical in
  -- if a thread is at `x` at time `n`, it acts only finitely often from then on
  have step : ∀ (x : Option (Prog α D L.Val)) n, (f n).threads[i]? = some x →
      (∀ m s', (f m).threads[i]? = some x → (f m).act i = some s' → ∃ y, s'.threads[i]? = some y ∧
        ∀ k, (f k).threads[i]? = some y → ∃ N, ∀ n, N ≤ n → lab n ≠ .act i) →
      ∃ N, ∀ n, N ≤ n → lab n ≠ .act i := by
    intro x n hx hy
    by_cases ha : ∃ m, n ≤ m ∧ lab m = .act i
    · have hfirst : ∃ d, lab (n + d) = .act i ∧ ∀ m, n ≤ m → m < n + d → lab m ≠ .act i := by
        obtain ⟨m, hm⟩ := ha
        have : ∀ d m, n ≤ m → m ≤ n + d → lab m = .act i → ∃ d, lab (n + d) = .act i ∧ ∀ m, n ≤ m → m < n + d → lab m ≠ .act i := by
          intro d
          induction d with
          | zero =>
            intro m h1 h2 h3
            refine ⟨0, ?_, fun m h1 h2 => by omega⟩
            rw [show n + 0 = m by omega]; exact h3
          | succ d ih =>
            intro m h1 h2 h3
            by_cases hex : ∃ m', n ≤ m' ∧ m' ≤ n + d ∧ lab m' = .act i
            · obtain ⟨m', h4, h5, h6⟩ := hex
              exact ih m' h4 h5 h6
            · refine ⟨d + 1, ?_, ?_⟩
              · by_cases hmd : m ≤ n + d
                · exact (hex ⟨m, h1, hmd, h3⟩).elim
                · rw [show n + (d + 1) = m by omega]; exact h3
              · intro m' h4 h5 h6
                exact hex ⟨m', h4, by omega, h6⟩
        exact this (m - n) m hm.1 (by omega) hm.2
      obtain ⟨d, h1, h2⟩ := hfirst
      have hx' := h.until hx d h2
      have hn := h (n + d)
      rw [h1] at hn
      obtain ⟨y, h3, h4⟩ := hy _ _ hx' hn
      exact h4 _ h3
    · exact ⟨n, fun m h1 h2 => ha ⟨m, h1, h2⟩⟩
  have dead : ∀ x : Option (Prog α D L.Val), (x = none ∨ x = some .panic) → ∀ k, (f k).threads[i]? = some x →
      ∃ N, ∀ n, N ≤ n → lab n ≠ .act i := by
    intro x hx k hk
    refine step x k hk ?_
    intro m s' hm ha
    unfold State.act at ha
    rw [hm] at ha
    rcases hx with rfl | rfl <;> cases ha
  have main : ∀ (P : Prog α D L.Val) n, (f n).threads[i]? = some (some P) → ∃ N, ∀ n, N ≤ n → lab n ≠ .act i := by
    intro P
    induction P with
    | ret x =>
      intro n hn
      refine step _ n hn fun m s' hm ha => act_next hm ha (fun y => ∀ k, (f k).threads[i]? = some y → _)
        (dead _ (Or.inl rfl)) (dead _ (Or.inr rfl)) trivial
    | panic => exact dead _ (Or.inr rfl)
    | stuck =>
      intro n hn
      refine step _ n hn fun m s' hm ha => act_next hm ha (fun y => ∀ k, (f k).threads[i]? = some y → _)
        (dead _ (Or.inl rfl)) (dead _ (Or.inr rfl)) trivial
    | alloc c k ih =>
      intro n hn
      exact step _ n hn fun m s' hm ha => act_next hm ha (fun y => ∀ k, (f k).threads[i]? = some y → _)
        (dead _ (Or.inl rfl)) (dead _ (Or.inr rfl)) fun a n => ih a n
    | read c k ih =>
      intro n hn
      exact step _ n hn fun m s' hm ha => act_next hm ha (fun y => ∀ k, (f k).threads[i]? = some y → _)
        (dead _ (Or.inl rfl)) (dead _ (Or.inr rfl)) fun a n => ih a n
    | write p c k ih =>
      intro n hn
      exact step _ n hn fun m s' hm ha => act_next hm ha (fun y => ∀ k, (f k).threads[i]? = some y → _)
        (dead _ (Or.inl rfl)) (dead _ (Or.inr rfl)) fun n => ih n
    | load c k ih =>
      intro n hn
      exact step _ n hn fun m s' hm ha => act_next hm ha (fun y => ∀ k, (f k).threads[i]? = some y → _)
        (dead _ (Or.inl rfl)) (dead _ (Or.inr rfl)) fun a n => ih a n
    | cas o x y k ih =>
      intro n hn
      exact step _ n hn fun m s' hm ha => act_next hm ha (fun y => ∀ k, (f k).threads[i]? = some y → _)
        (dead _ (Or.inl rfl)) (dead _ (Or.inr rfl)) fun a n => ih a n
    | newObj c k ih =>
      intro n hn
      exact step _ n hn fun m s' hm ha => act_next hm ha (fun y => ∀ k, (f k).threads[i]? = some y → _)
        (dead _ (Or.inl rfl)) (dead _ (Or.inr rfl)) fun a n => ih a n
  by_cases hex : ∃ n x, (f n).threads[i]? = some x
  · obtain ⟨n, x, hx⟩ := hex
    cases x with
    | none => exact dead _ (Or.inl rfl) n hx
    | some P => exact main P n hx
  · refine ⟨0, fun n _ hl => ?_⟩
    have hn := h n
    rw [hl] at hn
    obtain ⟨P, h3, _⟩ := State.act_log hn
    exact hex ⟨n, _, h3⟩

variable {good gval : View α D → Obj D → Prop} {fr : L.Call → OldRoots α D}
  {Q : L.Call → List (Event D) → L.Val → View α D → Prop}

/-- A goroutine panics only if another one has changed the object in between. -/
theorem panic_only_on_race (ok : LibOk L good gval fr Q) {s : State L} (h : s.Reach) {i : Nat}
    (hp : s.threads[i]? = some (some .panic)) :
    ∃ o j k l m ob x y q, j ≠ i ∧ k < l ∧ l < m ∧ At s.log k i (.load o ob) ∧ At s.log l j (.swap o x y) ∧
      s.log[m]? = some (.fail i o q) ∧ ∀ o' x y, .act i (.swap o' x y) ∉ s.log := by
  obtain ⟨g, inv⟩ := h.inv ok
  obtain ⟨c, hc, ⟨n, _, _, hcw⟩ | ⟨_, o, q, hf⟩⟩ := inv.thr i _ hp
  · exact hcw.elim
  obtain ⟨m, hm⟩ := List.mem_iff_getElem?.mp hf
  have hsplit := at_split hm
  obtain ⟨h1, h2⟩ := inv.ok _ _ _ hsplit
  obtain ⟨⟨ob, hl, hq⟩, hns⟩ := h2 i o q (Or.inr rfl)
  obtain ⟨k, hk⟩ := List.mem_iff_getElem?.mp hl
  have hkm : k < m := by
    have := (List.getElem?_eq_some_iff.mp hk).1
    rw [List.length_take] at this; omega
  have hk' : At s.log k i (.load o ob) := by unfold At; rw [← hk, List.getElem?_take_of_lt hkm]
  obtain ⟨cur, hcur, hne⟩ := h1
  have hcur : objAt s.log m o = some cur := hcur
  have hlog := inv.entryOk
  have hnone : ∀ o' x y, .act i (.swap o' x y) ∉ s.log := fun o' x y hsw => no_fail_swap ok h hsw hf
  rcases last_swap hlog (Nat.le_of_lt hkm) (objAt_load hlog hk') with h3 | ⟨p, j, x', y', ob', h3, h4, h5, h6, h7, _⟩
  · rw [h3] at hcur
    cases hcur
    exact (hne hq).elim
  · have hpk : k ≠ p := by rintro rfl; rw [At, hk'] at h5; cases h5
    refine ⟨o, j, k, p, m, ob, x', y', q, ?_, by omega, h4, hk', h5, hm, hnone⟩
    rintro rfl
    exact hnone _ _ _ h5.mem

/-- No call ever exceeds the given depth of recursion. -/
theorem never_stuck (ok : LibOk L good gval fr Q) {s : State L} (h : s.Reach) {i : Nat} :
    s.threads[i]? ≠ some (some .stuck) := by
  intro hp
  obtain ⟨g, inv⟩ := h.inv ok
  obtain ⟨c, hc, ⟨n, _, _, hcw⟩ | ⟨h, _⟩⟩ := inv.thr i _ hp
  · exact hcw.elim
  · cases h

/-- a call that has neither returned nor panicked can go on -/
theorem can_go_on (ok : LibOk L good gval fr Q) {s : State L} (h : s.Reach) {i : Nat} {P : Prog α D L.Val}
    (hi : s.threads[i]? = some (some P)) (hp : P ≠ .panic) : ∃ s', s.act i = some s' := by
  have hst := never_stuck ok h (i := i)
  unfold State.act
  rw [hi]
  cases P with
  | panic => exact (hp rfl).elim
  | stuck => exact (hst hi).elim
  | ret x => exact ⟨_, rfl⟩
  | alloc c k => exact ⟨_, rfl⟩
  | newObj ob k => exact ⟨_, rfl⟩
  | read p k => simp only [State.actP]; split <;> exact ⟨_, rfl⟩
  | write p c k => simp only [State.actP]; split <;> exact ⟨_, rfl⟩
  | load o k => simp only [State.actP]; split <;> exact ⟨_, rfl⟩
  | cas o x y k => simp only [State.actP]; split <;> (try split) <;> exact ⟨_, rfl⟩

/-- a thread that has panicked never continues -/
theorem panicked_stays {s t : State L} (h : s.Steps t) {i : Nat} (hi : s.threads[i]? = some (some .panic)) :
    t.threads[i]? = some (some .panic) := by
  rw [(h.ended (Or.inr hi)).1]; exact hi

/-- a value that a program has: what it is in the machine's memory, now and at all later times -/
theorem known_good (ok : LibOk L good gval fr Q) {s : State L} (h : s.Reach) {x : Obj D} (hx : s.Known x) :
    ∃ v : View α D, gval v x ∧ ∀ t, s.Steps t → v ≤ View.ofHeap t.heap := by
  obtain ⟨g, m⟩ := h.inv ok
  refine ⟨g.fz, m.known ok hx, fun t ht => ?_⟩
  obtain ⟨g', m', le⟩ := m.steps ok ht
  exact View.le_trans le m'.mem.fz_le

/-- what a call that has returned did -/
theorem done_spec' (ok : LibOk L good gval fr Q) {s : State L} (h : s.Reach) {i : Nat} {c : L.Call} {z : L.Val}
    (hs : .start i c ∈ s.log) (hd : .done i z ∈ s.log) : Q c (own i s.log) z (View.ofHeap s.heap) := by
  obtain ⟨g, m⟩ := h.inv ok
  obtain ⟨c', h1, h2⟩ := m.done_spec i z hd
  rw [m.start_uniq i c c' hs h1]
  exact ok.spec_mono m.mem.fz_le h2

/-- An access of a call that has returned happened between its start and its end, and found the object as it
    was at that time. -/
theorem load_between (ok : LibOk L good gval fr Q) {s : State L} (h : s.Reach) {i : Nat} {c : L.Call} {z : L.Val}
    {a b : Nat} (ha : s.log[a]? = some (.start i c)) (hb : s.log[b]? = some (.done i z)) {o : Nat} {ob : Obj D}
    (hl : (.load o ob : Event D) ∈ own i s.log) : ∃ k, a < k ∧ k < b ∧ objAt s.log k o = some ob := by
  obtain ⟨g, m⟩ := h.inv ok
  obtain ⟨k, hk⟩ := List.mem_iff_getElem?.mp (mem_own.mp hl)
  refine ⟨k, start_first ok h ha hk rfl (by intros; simp), before_done ok h hb hk, objAt_load m.entryOk hk⟩

variable {A K : Type} {role : L.Call → Option (Nat × Option K)}
  {abs : View α D → Obj D → A → Prop} {eff : L.Call → List (Event D) → View α D → A → L.Val → A → Prop}
  {frc : K → Bool} {le : K → A → A → Prop}

/-- A read that has returned takes effect on a state that the object had between its start and its end. -/
theorem read_consistent (ok : LibOk L good gval fr Q) (lin : LinOk good fr Q role abs eff frc le) {s : State L}
    (h : s.Reach) {i o : Nat} {c : L.Call} {z : L.Val} {p q : Nat} (hp : s.log[p]? = some (.start i c))
    (hq : s.log[q]? = some (.done i z)) (hr : role c = some (o, none)) :
    ∃ k ob a, p < k ∧ k < q ∧ objAt s.log k o = some ob ∧ abs (View.ofHeap s.heap) ob a ∧
      eff c (own i s.log) (View.ofHeap s.heap) a z a := by
  have hQ := done_spec' ok h (List.mem_of_getElem? hp) (List.mem_of_getElem? hq)
  obtain ⟨_, pre, ob, post, a, h1, h2, h3⟩ := lin.read hQ hr
  obtain ⟨k, h4, h5, h6⟩ := load_between ok h hp hq (o := o) (ob := ob) (by rw [h1]; simp)
  exact ⟨k, ob, a, h4, h5, h6, h2, h3⟩

/-- Of any two writes on `o`, one had ended before the other was started. -/
def WritesApart (role : L.Call → Option (Nat × Option K)) (log : List (Entry D L.Call L.Val)) (o : Nat) : Prop :=
  ∀ i j ci cj κ κ', i ≠ j → .start i ci ∈ log → .start j cj ∈ log → role ci = some (o, some κ) →
    role cj = some (o, some κ') → Precedes log i j ∨ Precedes log j i

/-- All writes on `o` are of the same kind. -/
def OneKind (role : L.Call → Option (Nat × Option K)) (log : List (Entry D L.Call L.Val)) (o : Nat) : Prop :=
  ∃ κ, ∀ i c κ', .start i c ∈ log → role c = some (o, some κ') → κ' = κ

theorem OneKind.disciplined (ok : LibOk L good gval fr Q) (lin : LinOk good fr Q role abs eff frc le) {s : State L}
    (h : s.Reach) {o : Nat} (hk : OneKind role s.log o) : Disciplined role s.log o := by
  obtain ⟨g, inv, hist⟩ := h.inv' ok
  obtain ⟨κ0, hk⟩ := hk
  intro i j ci cj κ hI hi hj hr
  obtain ⟨_, k, p, l, ob, x, y, e, _, _, _, hsw, _⟩ := hI
  obtain ⟨c', κ', _, _, _, _, _, _, _, _, F⟩ := swap_facts ok lin ⟨h, inv, hist⟩ hsw
  have hc := inv.start_uniq j cj c' hj F.start
  subst hc
  rw [F.role_, hk i ci κ hi hr, hk j cj κ' hj F.role_]

theorem WritesApart.disciplined (ok : LibOk L good gval fr Q) (lin : LinOk good fr Q role abs eff frc le) {s : State L}
    (h : s.Reach) {o : Nat} (hk : WritesApart role s.log o) : Disciplined role s.log o := by
  obtain ⟨g, inv, hist⟩ := h.inv' ok
  intro i j ci cj κ hI hi hj hr
  exfalso
  obtain ⟨hne, k, p, l, ob, x, y, e, hkp, hpl, h1, hsw, h2⟩ := hI
  obtain ⟨c', κ', _, _, _, _, _, _, _, _, F⟩ := swap_facts ok lin ⟨h, inv, hist⟩ hsw
  have hc := inv.start_uniq j cj c' hj F.start
  subst hc
  rcases hk i j ci cj κ κ' (Ne.symm hne) hi hj hr F.role_ with ⟨a, b, z, c, hab, ha, hb⟩ | ⟨a, b, z, c, hab, ha, hb⟩
  · have := before_done ok h ha h2
    have := start_first ok h hb hsw rfl (by intros; simp)
    omega
  · have := before_done ok h ha hsw
    have := start_first ok h hb h1 rfl (by intros; simp)
    omega

/-- Changing what is observed of the states of an object. -/
theorem Linearizable.simulate (ok : LibOk L good gval fr Q) {B : Type} {abs' : View α D → Obj D → B → Prop}
    {eff' : L.Call → List (Event D) → View α D → B → L.Val → B → Prop} {s : State L} {o : Nat}
    (hreach : s.Reach) (R : A → B → Prop) (h : Linearizable role abs eff s o)
    (h0 : ∀ m ob0 a0, .act m (.made o ob0) ∈ s.log → abs (View.ofHeap s.heap) ob0 a0 →
      ∃ b0, R a0 b0 ∧ abs' (View.ofHeap s.heap) ob0 b0)
    (h1 : ∀ ob a b, s.objs[o]? = some ob → abs (View.ofHeap s.heap) ob a → R a b → abs' (View.ofHeap s.heap) ob b)
    (hstep : ∀ i c v a z a' b, .start i c ∈ s.log → (∃ κ, role c = some (o, κ)) → R a b →
      eff c (own i s.log) v a z a' → ∃ b', R a' b' ∧ eff' c (own i s.log) v b z b') :
    Linearizable role abs' eff' s o := by
  obtain ⟨order, ob0, ob, a0, a, m, k1, k2, k3, k4, k5, k6, k7, k8, k9⟩ := h
  obtain ⟨b0, r0, k6'⟩ := h0 m ob0 a0 k5 k6
  have key : ∀ is a, SeqRun eff s a0 is a → (∀ i ∈ is, ∃ c κ, .start i c ∈ s.log ∧ role c = some (o, κ)) →
      (∀ i c c', .start i c ∈ s.log → .start i c' ∈ s.log → c = c') → ∃ b, R a b ∧ SeqRun eff' s b0 is b := by
    intro is a hrun
    induction hrun with
    | nil => intro _ _; exact ⟨b0, r0, .nil _⟩
    | snoc x x' is i c z v hrun hs he hd ih =>
      intro hro hu
      obtain ⟨b, rb, hb⟩ := ih (fun j hj => hro j (List.mem_append.mpr (Or.inl hj))) hu
      obtain ⟨c', κ, hs', hr⟩ := hro i (by simp)
      have := hu i c c' hs hs'
      subst this
      obtain ⟨b', rb', he'⟩ := hstep i c v x z x' b hs ⟨κ, hr⟩ rb he
      exact ⟨b', rb', .snoc _ b b' is i c z v hb hs he' hd⟩
  obtain ⟨g, inv⟩ := hreach.inv ok
  obtain ⟨b, rb, hb⟩ := key order a k9 (fun i hi => (k3 i hi).1) inv.start_uniq
  exact ⟨order, ob0, ob, b0, b, m, k1, k2, k3, k4, k5, k6', k7, h1 ob a b k7 k8 rb, hb⟩

end
end Addrs

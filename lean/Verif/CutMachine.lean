import Verif.Cut
import Verif.NoSwap
import Verif.ConcLin
/-
  Executions of a package whose calls may panic early: they are executions of the package whose calls do not.
-/
set_option linter.unusedSectionVars false
namespace Addrs
open GoWord

namespace Prog
variable {α D β γ : Type}

/-- the first program is the second one, but it may panic where the second goes on, though not after a
    compare-and-swap that took effect -/
inductive SCut : Prog α D β → Prog α D β → Prop
  | panic (P : Prog α D β) : SCut .panic P
  | ret (b : β) : SCut (.ret b) (.ret b)
  | stuck : SCut .stuck .stuck
  | alloc {c : Cell α D} {k k' : Nat → Prog α D β} (h : ∀ n, SCut (k n) (k' n)) : SCut (.alloc c k) (.alloc c k')
  | read {p : Nat} {k k' : Cell α D → Prog α D β} (h : ∀ c, SCut (k c) (k' c)) : SCut (.read p k) (.read p k')
  | write {p : Nat} {c : Cell α D} {k k' : Prog α D β} (h : SCut k k') : SCut (.write p c k) (.write p c k')
  | load {o : Nat} {k k' : Obj D → Prog α D β} (h : ∀ ob, SCut (k ob) (k' ob)) : SCut (.load o k) (.load o k')
  | cas {o : Nat} {old new : Ptr} {k k' : Bool → Prog α D β} (h : SCut (k false) (k' false)) (ht : k true = k' true) :
      SCut (.cas o old new k) (.cas o old new k')
  | newObj {ob : Obj D} {k k' : Nat → Prog α D β} (h : ∀ o, SCut (k o) (k' o)) : SCut (.newObj ob k) (.newObj ob k')

namespace SCut

theorem refl (P : Prog α D β) : SCut P P := by
  induction P with
  | ret b => exact .ret b
  | panic => exact .panic _
  | stuck => exact .stuck
  | alloc c k ih => exact .alloc ih
  | read p k ih => exact .read ih
  | write p c k ih => exact .write ih
  | load o k ih => exact .load ih
  | cas o old new k ih => exact .cas (ih _) rfl
  | newObj ob k ih => exact .newObj ih

/-- both go on in the same way -/
theorem bind {P Q : Prog α D β} (h : SCut P Q) (f : β → Prog α D γ) : SCut (P >>= f) (Q >>= f) := by
  show SCut (P.bind f) (Q.bind f)
  induction h with
  | panic P => exact .panic _
  | ret b => exact refl _
  | stuck => exact .stuck
  | alloc _ ih => exact .alloc ih
  | read _ ih => exact .read ih
  | write _ ih => exact .write ih
  | load _ ih => exact .load ih
  | cas _ ht ih => exact .cas ih (congrArg (Prog.bind · f) ht)
  | newObj _ ih => exact .newObj ih

theorem of_cut {P Q : Prog α D β} (h : Cut P Q) (hq : NoSwap Q) : SCut P Q := by
  induction h with
  | panic P => exact .panic _
  | ret b => exact refl _
  | stuck => exact .stuck
  | alloc _ ih => exact .alloc fun n => ih n (hq n)
  | read _ ih => exact .read fun n => ih n (hq n)
  | write _ ih => exact .write (ih hq)
  | load _ ih => exact .load fun n => ih n (hq n)
  | cas _ ih => exact hq.elim
  | newObj _ ih => exact .newObj fun n => ih n (hq n)

end SCut
end Prog

open Prog

/-! ### Executions -/

section
variable {α D : Type}

/-- the package with other code -/
@[reducible] def Lib.recode (L : Lib α D) (code : L.Call → Prog α D L.Val) : Lib α D := { L with code := code }

variable {L : Lib α D} {code : L.Call → Prog α D L.Val}

/-- The two states are alike, but in the first some threads have panicked or will panic earlier. -/
structure SimCut (s : State L) (s' : State (L.recode code)) : Prop where
  heap : s'.heap = s.heap
  objs : s'.objs = s.objs
  log : s'.log = s.log
  length : s'.threads.length = s.threads.length
  tid : ∀ e ∈ s.log, e.tid < s.threads.length
  /-- threads that have returned -/
  over : ∀ i : Nat, s.threads[i]? = some none → s'.threads[i]? = some none
  /-- threads that go on -/
  runs : ∀ (i : Nat) (P : Prog α D L.Val), s.threads[i]? = some (some P) → ∃ Q, s'.threads[i]? = some (some Q) ∧ SCut P Q ∧
    ((∃ o x y, .act i (.swap o x y) ∈ s.log) → P = Q) ∧ ∃ c, .start i c ∈ s.log ∧ (L.code c = code c → P = Q)

theorem SimCut.init : SimCut (State.init : State L) (State.init : State (L.recode code)) :=
  ⟨rfl, rfl, rfl, rfl, by simp [State.init], by simp [State.init], by simp [State.init]⟩

theorem SimCut.spawn {s : State L} {s' : State (L.recode code)} (m : SimCut s s') (c : L.Call) (hc : SCut (L.code c) (code c)) : SimCut (s.spawn c) (s'.spawn c) := by
  have fresh : ∀ o x y, .act s.threads.length (.swap o x y) ∉ s.log := fun o x y h => Nat.lt_irrefl _ (m.tid _ h)
  refine ⟨m.heap, m.objs, ?_, ?_, ?_, ?_, ?_⟩
  · simp only [State.spawn, m.log, m.length]
  · simp only [State.spawn, List.length_append, m.length]; rfl
  · intro e he
    simp only [State.spawn, List.length_append, List.length_singleton] at he ⊢
    rcases List.mem_append.mp he with he | he
    · exact Nat.lt_succ_of_lt (m.tid e he)
    · rw [List.mem_singleton.mp he]; exact Nat.lt_succ_self _
  · intro i hi
    simp only [State.spawn] at hi ⊢
    rcases Nat.lt_trichotomy i s.threads.length with h | h | h
    · rw [List.getElem?_append_left h] at hi
      rw [List.getElem?_append_left (m.length ▸ h)]
      exact m.over i hi
    · subst h; simp at hi
    · rw [List.getElem?_eq_none (by simp; omega)] at hi; cases hi
  · intro i P hi
    simp only [State.spawn] at hi ⊢
    rcases Nat.lt_trichotomy i s.threads.length with h | h | h
    · rw [List.getElem?_append_left h] at hi
      rw [List.getElem?_append_left (m.length ▸ h)]
      obtain ⟨Q, h1, h2, h3, c', h4, h5⟩ := m.runs i P hi
      refine ⟨Q, h1, h2, ?_, c', List.mem_append_left _ h4, h5⟩
      rintro ⟨o, x, y, hx⟩
      rcases List.mem_append.mp hx with hx | hx
      · exact h3 ⟨o, x, y, hx⟩
      · simp at hx
    · subst h
      simp only [List.getElem?_append_right (Nat.le_refl _), Nat.sub_self, List.getElem?_cons_zero, Option.some.injEq] at hi
      subst hi
      refine ⟨code c, ?_, hc, ?_, c, by simp, id⟩
      · rw [← m.length, List.getElem?_append_right (Nat.le_refl _)]; simp [Lib.recode]
      · rintro ⟨o, x, y, hx⟩
        rcases List.mem_append.mp hx with hx | hx
        · exact (fresh o x y hx).elim
        · simp at hx
    · rw [List.getElem?_eq_none (by simp; omega)] at hi; cases hi

/-- the thread is replaced, and something may be appended to the log -/
theorem SimCut.replace {s : State L} {s' : State (L.recode code)} (m : SimCut s s') {i : Nat} {P Q : Prog α D L.Val}
    {P' Q' : Option (Prog α D L.Val)} {t : State L} {t' : State (L.recode code)}
    (hi : s.threads[i]? = some (some P)) (hi' : s'.threads[i]? = some (some Q))
    (heap : t'.heap = t.heap) (objs : t'.objs = t.objs) (log : t'.log = t.log) (hl : ∃ x, t.log = s.log ++ x ∧ ∀ e ∈ x, e.tid = i)
    (th : t.threads = s.threads.set i P') (th' : t'.threads = s'.threads.set i Q')
    (h : (P' = none ∧ Q' = none) ∨ ∃ R R', P' = some R ∧ Q' = some R' ∧ SCut R R' ∧ ((∃ o x y, .act i (.swap o x y) ∈ t.log) → R = R') ∧ (P = Q → R = R')) :
    SimCut t t' := by
  obtain ⟨x, hx, hxi⟩ := hl
  have li : i < s.threads.length := (List.getElem?_eq_some_iff.mp hi).1
  have li' : i < s'.threads.length := m.length ▸ li
  refine ⟨heap, objs, log, ?_, ?_, ?_, ?_⟩
  · rw [th, th', List.length_set, List.length_set]; exact m.length
  · intro e he
    rw [th, List.length_set]
    rw [hx] at he
    rcases List.mem_append.mp he with he | he
    · exact m.tid e he
    · rw [hxi e he]; exact li
  · intro j hj
    rw [th] at hj
    rw [th']
    by_cases e : i = j
    · subst e
      rw [List.getElem?_set_self li] at hj
      rw [List.getElem?_set_self li']
      rcases h with ⟨_, h⟩ | ⟨R, R', h, _⟩
      · rw [h]
      · rw [h] at hj; simp at hj
    · rw [List.getElem?_set_ne e] at hj ⊢
      exact m.over j hj
  · intro j R hj
    rw [th] at hj
    rw [th']
    by_cases e : i = j
    · subst e
      rw [List.getElem?_set_self li] at hj
      rw [List.getElem?_set_self li']
      rcases h with ⟨h, _⟩ | ⟨R1, R', h, h', h1, h2, h3⟩
      · rw [h] at hj; simp at hj
      · rw [h] at hj
        cases hj
        obtain ⟨Q0, g1, g2, g3, c, g4, g5⟩ := m.runs i P hi
        rw [hi'] at g1
        cases g1
        exact ⟨R', by rw [h'], h1, h2, c, by rw [hx]; exact List.mem_append_left _ g4, fun hc => h3 (g5 hc)⟩
    · rw [List.getElem?_set_ne e] at hj ⊢
      obtain ⟨Q0, g1, g2, g3, c, g4, g5⟩ := m.runs j R hj
      refine ⟨Q0, g1, g2, ?_, c, by rw [hx]; exact List.mem_append_left _ g4, g5⟩
      rintro ⟨o, p, q, hm⟩
      rw [hx] at hm
      rcases List.mem_append.mp hm with hm | hm
      · exact g3 ⟨o, p, q, hm⟩
      · exact (e (hxi _ hm).symm).elim

theorem SimCut.act {s t : State L} {s' : State (L.recode code)} (m : SimCut s s') {i : Nat} (h : s.act i = some t) :
    ∃ t', s'.act i = some t' ∧ SimCut t t' := by
  unfold State.act at h
  split at h
  next P hi =>
    obtain ⟨Q, hi', hc, hs, _⟩ := m.runs i P hi
    have e : s'.act i = s'.actP i Q := by unfold State.act; rw [hi']
    rw [e]
    cases hc with
    | panic P => cases h
    | stuck => cases h
    | ret v =>
      injection h with h; subst h
      refine ⟨_, rfl, m.replace hi hi' m.heap m.objs (congrArg (· ++ [.done i v]) m.log) ⟨_, rfl, by simp [Entry.tid]⟩ rfl rfl (Or.inl ⟨rfl, rfl⟩)⟩
    | @alloc c k k' hk =>
      injection h with h; subst h
      refine ⟨_, rfl, m.replace hi hi' (congrArg (· ++ [c]) m.heap) m.objs m.log ⟨[], by simp [State.cont], by simp⟩ rfl rfl
        (Or.inr ⟨_, _, rfl, rfl, ?_, ?_, ?_⟩)⟩
      · rw [m.heap]; exact hk _
      · intro hx; have := Prog.alloc.inj (hs hx); rw [this.2, m.heap]
      · intro hx; have := Prog.alloc.inj hx; rw [this.2, m.heap]
    | @read p k k' hk =>
      simp only [State.actP] at h ⊢
      rw [m.heap]
      split at h <;> (injection h with h; subst h)
      next c hp =>
        refine ⟨_, rfl, m.replace hi hi' m.heap m.objs m.log ⟨[], by simp [State.cont], by simp⟩ rfl rfl (Or.inr ⟨_, _, rfl, rfl, hk _, ?_, ?_⟩)⟩
        · intro hx; have := Prog.read.inj (hs hx); rw [this.2]
        · intro hx; have := Prog.read.inj hx; rw [this.2]
      next hp =>
        exact ⟨_, rfl, m.replace hi hi' m.heap m.objs m.log ⟨[], by simp [State.cont], by simp⟩ rfl rfl
          (Or.inr ⟨_, _, rfl, rfl, .refl _, fun _ => rfl, fun _ => rfl⟩)⟩
    | @write p c k k' hk =>
      simp only [State.actP] at h ⊢
      rw [m.heap]
      split at h <;> (injection h with h; subst h)
      next hp =>
        rw [if_pos hp]
        refine ⟨_, rfl, m.replace hi hi' rfl m.objs m.log ⟨[], by simp [State.cont], by simp⟩ rfl rfl
          (Or.inr ⟨_, _, rfl, rfl, hk, ?_, ?_⟩)⟩
        · intro hx; have := Prog.write.inj (hs hx); rw [this.2.2]
        · intro hx; have := Prog.write.inj hx; rw [this.2.2]
      next hp =>
        rw [if_neg hp]
        exact ⟨_, rfl, m.replace hi hi' m.heap m.objs m.log ⟨[], by simp [State.cont], by simp⟩ rfl rfl
          (Or.inr ⟨_, _, rfl, rfl, .refl _, fun _ => rfl, fun _ => rfl⟩)⟩
    | @load o k k' hk =>
      simp only [State.actP] at h ⊢
      rw [m.objs]
      split at h <;> (injection h with h; subst h)
      next ob hp =>
        refine ⟨_, rfl, m.replace hi hi' m.heap m.objs (congrArg (· ++ [Entry.act i (Event.load o ob)]) m.log) ⟨_, rfl, by simp [Entry.tid]⟩ rfl rfl
          (Or.inr ⟨_, _, rfl, rfl, hk _, ?_, ?_⟩)⟩
        · rintro ⟨o', x, y, hx⟩
          have hx : Entry.act i (.swap o' x y) ∈ s.log := by
            rcases List.mem_append.mp hx with hx | hx
            · exact hx
            · simp at hx
          have := Prog.load.inj (hs ⟨o', x, y, hx⟩); rw [this.2]
        · intro hx; have := Prog.load.inj hx; rw [this.2]
      next hp =>
        exact ⟨_, rfl, m.replace hi hi' m.heap m.objs m.log ⟨[], by simp [State.cont], by simp⟩ rfl rfl
          (Or.inr ⟨_, _, rfl, rfl, .refl _, fun _ => rfl, fun _ => rfl⟩)⟩
    | @cas o old new k k' hk ht =>
      simp only [State.actP] at h ⊢
      rw [m.objs]
      split at h
      next ob hp =>
        split at h <;> (injection h with h; subst h)
        next he =>
          rw [if_pos he]
          refine ⟨_, rfl, m.replace hi hi' m.heap rfl (congrArg (· ++ [Entry.act i (Event.swap o old new)]) m.log)
            ⟨_, rfl, by simp [Entry.tid]⟩ rfl rfl (Or.inr ⟨_, _, rfl, rfl, ?_, fun _ => ht, fun _ => ht⟩)⟩
          rw [ht]; exact .refl _
        next he =>
          rw [if_neg he]
          refine ⟨_, rfl, m.replace hi hi' m.heap m.objs (congrArg (· ++ [Entry.fail i o old]) m.log) ⟨_, rfl, by simp [Entry.tid]⟩ rfl rfl
            (Or.inr ⟨_, _, rfl, rfl, hk, ?_, ?_⟩)⟩
          · rintro ⟨o', x, y, hx⟩
            have hx : Entry.act i (.swap o' x y) ∈ s.log := by
              rcases List.mem_append.mp hx with hx | hx
              · exact hx
              · simp at hx
            have := Prog.cas.inj (hs ⟨o', x, y, hx⟩); rw [this.2.2.2]
          · intro hx; have := Prog.cas.inj hx; rw [this.2.2.2]
      next hp =>
        injection h with h; subst h
        exact ⟨_, rfl, m.replace hi hi' m.heap m.objs m.log ⟨[], by simp [State.cont], by simp⟩ rfl rfl
          (Or.inr ⟨_, _, rfl, rfl, .refl _, fun _ => rfl, fun _ => rfl⟩)⟩
    | @newObj ob k k' hk =>
      injection h with h; subst h
      refine ⟨_, rfl, m.replace hi hi' m.heap (congrArg (· ++ [ob]) m.objs) ?_ ⟨_, rfl, by simp [Entry.tid]⟩ rfl rfl
        (Or.inr ⟨_, _, rfl, rfl, ?_, ?_, ?_⟩)⟩
      · simp only [State.note, State.cont, m.log, m.objs]
      · rw [m.objs]; exact hk _
      · rintro ⟨o', x, y, hx⟩
        have hx : Entry.act i (.swap o' x y) ∈ s.log := by
          rcases List.mem_append.mp hx with hx | hx
          · exact hx
          · simp at hx
        have := Prog.newObj.inj (hs ⟨o', x, y, hx⟩); rw [this.2, m.objs]
      · intro hx; have := Prog.newObj.inj hx; rw [this.2, m.objs]
  next => cases h

theorem SimCut.known {s : State L} {s' : State (L.recode code)} (m : SimCut s s') {x : Obj D} : s'.Known x ↔ s.Known x := by
  unfold State.Known
  rw [m.log]

theorem SimCut.step (hc : ∀ c, SCut (L.code c) (code c)) {s t : State L} {s' : State (L.recode code)} (m : SimCut s s') (h : s.Step t) :
    ∃ t', s'.Step t' ∧ SimCut t t' := by
  cases h with
  | spawn c h =>
    have hs : s'.CanStart c := ⟨h.1, by rw [m.objs]; exact h.2.1, fun x hx => m.known.mpr (h.2.2 x hx)⟩
    exact ⟨s'.spawn c, .spawn (s := s') c hs, m.spawn c (hc c)⟩
  | act i _ h =>
    obtain ⟨t', h1, h2⟩ := m.act h
    exact ⟨t', .act i t' h1, h2⟩

theorem SimCut.steps (hc : ∀ c, SCut (L.code c) (code c)) {s t : State L} {s' : State (L.recode code)} (m : SimCut s s') (h : s.Steps t) :
    ∃ t', s'.Steps t' ∧ SimCut t t' := by
  induction h with
  | refl => exact ⟨s', .refl, m⟩
  | step t u _ hs ih =>
    obtain ⟨t', h1, m1⟩ := ih
    obtain ⟨u', h2, m2⟩ := m1.step hc hs
    exact ⟨u', .step _ _ h1 h2, m2⟩

theorem SimCut.reach (hc : ∀ c, SCut (L.code c) (code c)) {s : State L} (h : s.Reach) :
    ∃ s' : State (L.recode code), s'.Reach ∧ SimCut s s' := by
  induction h with
  | init => exact ⟨_, .init, .init⟩
  | step s t _ hs ih =>
    obtain ⟨s', h1, m1⟩ := ih
    obtain ⟨t', h2, m2⟩ := m1.step hc hs
    exact ⟨t', .step _ _ h1 h2, m2⟩

theorem SimCut.seqRun {A : Type} {s : State L} {s' : State (L.recode code)} (m : SimCut s s')
    {eff : L.Call → List (Event D) → View α D → A → L.Val → A → Prop} {a b : A} {is : List Nat}
    (h : SeqRun (L := L.recode code) eff s' a is b) : SeqRun eff s a is b := by
  induction h with
  | nil => exact .nil _
  | snoc b b' is i c z v hr hs he hd ih =>
    rw [m.log] at hs he hd
    rw [m.heap] at hd
    exact .snoc _ _ _ _ i c z v ih hs he hd

theorem SimCut.linearizable {A K : Type} {s : State L} {s' : State (L.recode code)} (m : SimCut s s')
    {role : L.Call → Option (Nat × Option K)} {abs : View α D → Obj D → A → Prop}
    {eff : L.Call → List (Event D) → View α D → A → L.Val → A → Prop} {o : Nat}
    (h : Linearizable (L := L.recode code) role abs eff s' o) : Linearizable role abs eff s o := by
  obtain ⟨order, ob0, ob, a0, a, k, h1, h2, h3, h4, h5, h6, h7, h8, h9⟩ := h
  rw [m.log] at h2 h3 h4 h5
  rw [m.heap] at h6 h8
  rw [m.objs] at h7
  exact ⟨order, ob0, ob, a0, a, k, h1, h2, h3, h4, h5, h6, h7, h8, m.seqRun h9⟩

end

/-! ### Tables -/

namespace Heap
variable {α D : Type} [GoWord α] [GoType D]

/-- takes a program apart -/
local macro "quiet" l:term,* : tactic => do
  let alts ← l.getElems.mapM fun t => `(tactic| exact $t)
  `(tactic| repeat' first
    | assumption
    | exact noSwap_pure | exact noSwap_deref | exact noSwap_orPanic | exact noSwap_new | exact noSwap_store
    | exact noSwap_readObj | exact noSwap_newObject
    $[| $alts:tactic]*
    | refine NoSwap.bind ?_ fun _ => ?_
    | split
    | trivial
    | intro _
    | dsimp only)

theorem noSwap_insert {o : InsertOpts D} {n F : Nat} {p : Ptr} : NoSwap (α := α) (insert o n F p) := by
  induction F generalizing p with
  | zero => trivial
  | succ F ih =>
    cases p with
    | none => unfold insert; quiet noSwap_mutate (by quiet)
    | some a => unfold insert; quiet ih, noSwap_mutate (by quiet), noSwap_copyMutate (by quiet)

theorem noSwap_getOrInsert {k : Prefix α} {d : Option D} {F : Nat} {p : Ptr} : NoSwap (getOrInsert k d F p) := by
  induction F generalizing p with
  | zero => trivial
  | succ F ih => unfold getOrInsert; quiet ih, noSwap_insert, noSwap_copyMutate (by quiet)

theorem noSwap_del {k : Prefix α} {F : Nat} {p : Ptr} : NoSwap (D := D) (del k F p) := by
  induction F generalizing p with
  | zero => trivial
  | succ F ih =>
    cases p with
    | none => trivial
    | some a => unfold del; quiet ih, noSwap_copyMutate (by quiet)

theorem scut_tmutate {τ : Type} {o : Nat} {m m' : Prog α D ((Bool × Ptr) × τ)} (h : Cut m m') (hm : NoSwap m') : SCut (tmutate o m) (tmutate o m') :=
  .load fun _ => (SCut.of_cut h hm).bind _

theorem scut_op {A B : GoType D} [Inhabited D] (h : A.Le B) (F : Nat) (r : Option Nat) (o : TableOp α D) :
    SCut (@opCode α D _ A _ F r o) (@opCode α D _ B _ F r o) := by
  cases r with
  | none => cases o <;> exact .refl _
  | some i =>
    cases o with
    | insert k v =>
      refine (scut_tmutate (.next fun m => .bind (.next fun n => cut_insert h (CmpLe.refl _) n F _) fun _ => .refl _) ?_).bind _
      quiet noSwap_insert
    | update k v =>
      refine (scut_tmutate (.next fun m => .bind (.next fun n => cut_insert h (call_le h _) n F _) fun _ => .refl _) ?_).bind _
      quiet noSwap_insert
    | insertOrUpdate k v =>
      refine (scut_tmutate (.next fun m => .bind (.next fun n => .bind (cut_insert h (call_le h _) n F _) fun _ => .refl _) fun _ => .refl _) ?_).bind _
      quiet noSwap_insert
    | get k => exact .refl _
    | getOrInsert k v =>
      refine ((scut_tmutate (.next fun m => .bind (cut_getOrInsert h _ _ F _) fun _ => .refl _) ?_).bind _).bind _
      quiet noSwap_getOrInsert
    | remove k =>
      refine (scut_tmutate (.next fun m => .bind (cut_del h _ F _) fun _ => .refl _) ?_).bind _
      quiet noSwap_del

end Heap

section
open Heap
variable {α D σ : Type} [GoWord α] [Inhabited D] {A B : GoType D}

theorem scut_code (h : A.Le B) (F : Nat) (c : TCall α D σ) : SCut (@TCall.code α D σ _ A _ F c) (@TCall.code α D σ _ B _ F c) := by
  cases hw : c.writes with
  | false => exact .of_cut (cut_code h F c) (c.noSwap hw)
  | true =>
    cases c with
    | op r o => exact (scut_op h F r o).bind _
    | _ => cases hw

/-- the calls that neither compare values nor change tables have the same code -/
theorem code_eq (F : Nat) {c : TCall α D σ} (hc : c.writes = false) (h : ∀ t u cb s, c ≠ .diff t u cb s) (h' : ∀ t f s, c ≠ .map t (some f) s)
    (h'' : ∀ t, c ≠ .aggregate t) : @TCall.code α D σ _ A _ F c = @TCall.code α D σ _ B _ F c := by
  cases c with
  | op r o =>
    cases o with
    | get k => cases r <;> rfl
    | _ => cases hc
  | diff t u cb s => exact (h _ _ _ _ rfl).elim
  | map t f s =>
    cases f with
    | none => rfl
    | some f => exact (h' _ _ _ rfl).elim
  | aggregate t => exact (h'' _ rfl).elim
  | longest r k => cases r <;> rfl
  | num r => cases r <;> rfl
  | _ => rfl

end
end Addrs

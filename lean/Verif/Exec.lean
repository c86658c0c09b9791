import Verif.ConcProps
/-
  Running the machine with a given schedule, to exhibit concrete executions.
-/
set_option linter.unusedSectionVars false
namespace Addrs

/-- what a schedule does next -/
inductive Sched {α D : Type} (L : Lib α D) where
  /-- start a call -/
  | call (c : L.Call)
  /-- thread `i` takes one action -/
  | step (i : Nat)
  /-- thread `i` acts until it has ended, at most 300 times -/
  | finish (i : Nat)

section
variable {α D : Type} {L : Lib α D}

/-- thread `i` takes at most `n` actions -/
def State.solo (i : Nat) : Nat → State L → State L
  | 0, s => s
  | n + 1, s =>
    match s.act i with
    | some s' => State.solo i n s'
    | none => s

/-- execute a schedule; calls get only mutable objects that exist -/
def exec (s : State L) : List (Sched L) → Option (State L)
  | [] => some s
  | .call c :: r => if (L.refs c).all (fun o => decide (o < s.objs.length)) then exec (s.spawn c) r else none
  | .step i :: r =>
    match s.act i with
    | some s' => exec s' r
    | none => none
  | .finish i :: r => exec (s.solo i 300) r

theorem State.Steps.known {s t : State L} (h : s.Steps t) {x : Obj D} (hx : s.Known x) : t.Known x := by
  rcases hx with hx | ⟨i, v, h1, h2⟩
  · exact Or.inl hx
  · obtain ⟨b, hb⟩ := h.log
    exact Or.inr ⟨i, v, by rw [hb]; exact List.mem_append.mpr (Or.inl h1), h2⟩

theorem State.steps_solo (s : State L) (i n : Nat) : s.Steps (State.solo i n s) := by
  induction n generalizing s with
  | zero => exact .refl
  | succ n ih =>
    unfold State.solo
    split
    · next s' hs => exact Steps.trans (.step _ _ .refl (.act i s' hs)) (ih s')
    · exact .refl

/-- what a schedule leads to is reachable, if the calls satisfy their preconditions and are given only
    immutable values that were known at the beginning -/
theorem exec_steps {s0 s t : State L} (h : s0.Steps s) {l : List (Sched L)}
    (hl : ∀ c, .call c ∈ l → L.pre c ∧ ∀ x ∈ L.vals c, s0.Known x) (he : exec s l = some t) : s0.Steps t := by
  induction l generalizing s with
  | nil => cases he; exact h
  | cons x l ih =>
    have hl' : ∀ c, .call c ∈ l → L.pre c ∧ ∀ x ∈ L.vals c, s0.Known x := fun c hc => hl c (List.mem_cons_of_mem _ hc)
    cases x with
    | call c =>
      simp only [exec] at he
      split at he
      · next hr =>
        refine ih (.step _ _ h (.spawn c ?_)) hl' he
        obtain ⟨h1, h2⟩ := hl c (List.mem_cons_self ..)
        refine ⟨h1, ?_, ?_⟩
        · intro o ho
          exact of_decide_eq_true (List.all_eq_true.mp hr o ho)
        · intro x hx; exact h.known (h2 x hx)
      · cases he
    | step i =>
      simp only [exec] at he
      split at he
      · next s' hs => exact ih (.step _ _ h (.act i s' hs)) hl' he
      · cases he
    | finish i => exact ih (h.trans (s.steps_solo i 300)) hl' he

/-- the final state of a schedule -/
def after (s : State L) (l : List (Sched L)) (h : (exec s l).isSome) : State L := (exec s l).get h

theorem after_steps {s : State L} {l : List (Sched L)} (h : (exec s l).isSome)
    (hl : ∀ c, .call c ∈ l → L.pre c ∧ ∀ x ∈ L.vals c, s.Known x) : s.Steps (after s l h) :=
  exec_steps .refl hl (Option.some_get h).symm

/-- the final state of a schedule, from the beginning -/
def final (l : List (Sched L)) (h : (exec State.init l).isSome) : State L := after State.init l h

theorem final_reach {l : List (Sched L)} (h : (exec State.init l).isSome)
    (hl : ∀ c, .call c ∈ l → L.pre c ∧ L.vals c = []) : (final l h).Reach :=
  State.Reach.steps .init (after_steps h fun c hc => ⟨(hl c hc).1, by rw [(hl c hc).2]; intro x hx; cases hx⟩)

end
end Addrs

import Verif.Cost
/-
  How many actions a program takes and how many nodes it allocates on memory that agrees with a view: the
  bounds may depend on the trees in it, unlike those of Verif/Cost.lean.
-/
set_option linter.unusedSectionVars false
namespace Addrs
open GoWord

namespace Prog
variable {α D β γ : Type}

/-- On memory that agrees with `v` the program takes at most `n` actions and allocates at most `a` nodes, if
    the objects it loads satisfy `ld`. -/
def Takes (ld : View α D → Obj D → Prop) : Prog α D β → View α D → Nat → Nat → Prop
  | ret _, _, _, _ => True
  | panic, _, _, _ => True
  | stuck, _, _, _ => True
  | alloc c k, v, n, a => 1 ≤ n ∧ 1 ≤ a ∧ ∀ m, v m = none → (k m).Takes ld (v.set m c) (n - 1) (a - 1)
  | read p k, v, n, a => 1 ≤ n ∧ ∀ c, v p = some c → (k c).Takes ld v (n - 1) a
  | write p c k, v, n, a => 1 ≤ n ∧ k.Takes ld (v.set p c) (n - 1) a
  | load _ k, v, n, a => 1 ≤ n ∧ ∀ ob v', v ≤ v' → ld v' ob → (k ob).Takes ld v' (n - 1) a
  | cas _ _ _ k, v, n, a => 1 ≤ n ∧ ∀ b, (k b).Takes ld v (n - 1) a
  | newObj _ k, v, n, a => 1 ≤ n ∧ ∀ o, (k o).Takes ld v (n - 1) a

variable {ld : View α D → Obj D → Prop}

theorem Takes.mono {P : Prog α D β} : ∀ {v : View α D} {n m a b : Nat}, P.Takes ld v n a → n ≤ m → a ≤ b →
    P.Takes ld v m b := by
  induction P with
  | ret b => intros; trivial
  | panic => intros; trivial
  | stuck => intros; trivial
  | alloc c k ih =>
    rintro v n m a b ⟨h1, h2, h3⟩ hn ha
    exact ⟨by omega, by omega, fun x hx => ih x (h3 x hx) (by omega) (by omega)⟩
  | read p k ih =>
    rintro v n m a b ⟨h1, h2⟩ hn ha
    exact ⟨by omega, fun c hc => ih c (h2 c hc) (by omega) ha⟩
  | write p c k ih =>
    rintro v n m a b ⟨h1, h2⟩ hn ha
    exact ⟨by omega, ih h2 (by omega) ha⟩
  | load o k ih =>
    rintro v n m a b ⟨h1, h2⟩ hn ha
    exact ⟨by omega, fun ob v' hv h => ih ob (h2 ob v' hv h) (by omega) ha⟩
  | cas o x y k ih =>
    rintro v n m a b ⟨h1, h2⟩ hn ha
    exact ⟨by omega, fun x => ih x (h2 x) (by omega) ha⟩
  | newObj o k ih =>
    rintro v n m a b ⟨h1, h2⟩ hn ha
    exact ⟨by omega, fun x => ih x (h2 x) (by omega) ha⟩

/-- a bound that does not depend on the memory -/
theorem AtMost.takes {P : Prog α D β} {Q : β → Prop} : ∀ {v : View α D} {n a : Nat}, P.AtMost n a Q → P.Takes ld v n a := by
  induction P with
  | ret b => intros; trivial
  | panic => intros; trivial
  | stuck => intros; trivial
  | alloc c k ih => rintro v n a ⟨h1, h2, h3⟩; exact ⟨h1, h2, fun x _ => ih x (h3 x)⟩
  | read p k ih => rintro v n a ⟨h1, h2⟩; exact ⟨h1, fun x _ => ih x (h2 x)⟩
  | write p c k ih => rintro v n a ⟨h1, h2⟩; exact ⟨h1, ih h2⟩
  | load o k ih => rintro v n a ⟨h1, h2⟩; exact ⟨h1, fun x _ _ _ => ih x (h2 x)⟩
  | cas o x y k ih => rintro v n a ⟨h1, h2⟩; exact ⟨h1, fun x => ih x (h2 x)⟩
  | newObj o k ih => rintro v n a ⟨h1, h2⟩; exact ⟨h1, fun x => ih x (h2 x)⟩

theorem Takes.bind_aux {P : Prog α D β} {f : β → Prog α D γ} {st : Prop} {Q : β → View α D → Prop} {m b : Nat}
    (hf : ∀ x v', Q x v' → (f x).Takes ld v' m b) :
    ∀ {v : View α D} {W : Nat → Prop} {n a : Nat}, P.Takes ld v n a → wp st Q P v W → (P.bind f).Takes ld v (n + m) (a + b) := by
  induction P with
  | ret x => intro v W n a _ hq; exact (hf x v hq).mono (by omega) (by omega)
  | panic => intros; trivial
  | stuck => intros; trivial
  | alloc c k ih =>
    rintro v W n a ⟨h1, h2, h3⟩ hq
    exact ⟨by omega, by omega, fun x hx => (ih x (h3 x hx) (hq x hx)).mono (by omega) (by omega)⟩
  | read p k ih =>
    rintro v W n a ⟨h1, h2⟩ ⟨c, hc, hq⟩
    refine ⟨by omega, fun c' hc' => ?_⟩
    rw [hc] at hc'; cases hc'
    exact (ih c (h2 c hc) hq).mono (by omega) (by omega)
  | write p c k ih =>
    rintro v W n a ⟨h1, h2⟩ ⟨_, _, hq⟩
    exact ⟨by omega, (ih h2 hq).mono (by omega) (by omega)⟩
  | load o k ih => intro v W n a _ hq; exact hq.elim
  | cas o x y k ih => intro v W n a _ hq; exact hq.elim
  | newObj o k ih => intro v W n a _ hq; exact hq.elim

/-- call a function that writes only to nodes it allocates -/
theorem Takes.call {P : Prog α D β} {f : β → Prog α D γ} {st : Prop} {Q : β → View α D → Prop} {n m a b N A : Nat}
    {v : View α D} (h : P.Takes ld v n a) (hw : wp st Q P v Nowhere) (hN : n + m ≤ N) (hA : a + b ≤ A)
    (hf : ∀ x v', v ≤ v' → Q x v' → (f x).Takes ld v' m b) : (P >>= f).Takes ld v N A := by
  have hw' : wp st (fun x v' => Q x v' ∧ v ≤ v') P v Nowhere :=
    wp_mono (fun _ h => h) (fun b v' h => ⟨h.1, fun n c e => h.2 n c id e⟩) (wp_frame hw)
  exact Takes.mono (Takes.bind_aux (fun x v' hx => hf x v' hx.2 hx.1) h hw') hN hA

/-- the last call of a function, whose result is only repackaged -/
theorem Takes.last {P : Prog α D β} {f : β → γ} : ∀ {v : View α D} {n a : Nat}, P.Takes ld v n a →
    (P >>= fun x => pure (f x)).Takes ld v n a := by
  show ∀ {v : View α D} {n a : Nat}, P.Takes ld v n a → (P.bind fun x => ret (f x)).Takes ld v n a
  induction P with
  | ret x => intros; trivial
  | panic => intros; trivial
  | stuck => intros; trivial
  | alloc c k ih => rintro v n a ⟨h1, h2, h3⟩; exact ⟨h1, h2, fun x hx => ih x (h3 x hx)⟩
  | read p k ih => rintro v n a ⟨h1, h2⟩; exact ⟨h1, fun c hc => ih c (h2 c hc)⟩
  | write p c k ih => rintro v n a ⟨h1, h2⟩; exact ⟨h1, ih h2⟩
  | load o k ih => rintro v n a ⟨h1, h2⟩; exact ⟨h1, fun ob v' hv h => ih ob (h2 ob v' hv h)⟩
  | cas o x y k ih => rintro v n a ⟨h1, h2⟩; exact ⟨h1, fun x => ih x (h2 x)⟩
  | newObj o k ih => rintro v n a ⟨h1, h2⟩; exact ⟨h1, fun x => ih x (h2 x)⟩

theorem Takes.deref {v : View α D} {p : Nat} {c : Cell α D} (h : v p = some c) {f : Cell α D → Prog α D γ} {n a N : Nat}
    (hN : n + 1 ≤ N) (hf : (f c).Takes ld v n a) : (Prog.deref (some p) >>= f).Takes ld v N a := by
  refine ⟨by omega, fun c' h' => ?_⟩
  rw [h] at h'; cases h'
  exact hf.mono (by omega) (Nat.le_refl _)

theorem Takes.readObj {v : View α D} {o : Nat} {f : Obj D → Prog α D γ} {n a N : Nat} (hN : n + 1 ≤ N)
    (hf : ∀ ob v', v ≤ v' → ld v' ob → (f ob).Takes ld v' n a) : (Prog.readObj o >>= f).Takes ld v N a :=
  ⟨by omega, fun ob v' hv h => (hf ob v' hv h).mono (by omega) (Nat.le_refl _)⟩

theorem Takes.pure {v : View α D} {x : β} {n a : Nat} : (Pure.pure x : Prog α D β).Takes ld v n a := trivial

end Prog

section
variable {α D : Type} {L : Lib α D} {good gval : View α D → Obj D → Prop} {fr : L.Call → OldRoots α D}
  {Q : L.Call → List (Event D) → L.Val → View α D → Prop} {ld : View α D → Obj D → Prop}
open Prog

/-- a step uses up one action, and one allocation if the heap grows -/
theorem act_takes {s s' : State L} {g g' : Ghost α D} {i : Nat} {P : Prog α D L.Val}
    (hi : s.threads[i]? = some (some P)) (h : s.act i = some s') (hn : g.Next s i g' P)
    (hld : ∀ o ob v', s.objs[o]? = some ob → .act i (.load o ob) ∈ s'.log → g.fz ≤ v' → ld v' ob)
    {n a : Nat} (hP : P.Takes ld (g.views i) n a) :
    (s'.heap.length = s.heap.length ∧ s'.threads[i]? = some none) ∨
    ∃ P' k b, s'.threads[i]? = some (some P') ∧ P'.Takes ld (g'.views i) k b ∧ k + 1 ≤ n ∧
      b + (s'.heap.length - s.heap.length) ≤ a := by
  have hlt := (List.getElem?_eq_some_iff.mp hi).1
  unfold State.act at h
  rw [hi] at h
  have hset : ∀ x, (s.threads.set i x)[i]? = some x := fun x => List.getElem?_set_self hlt
  cases P with
  | ret x => cases h; exact Or.inl ⟨rfl, hset _⟩
  | panic => cases h
  | stuck => cases h
  | alloc c k =>
    cases h
    obtain ⟨h1, h2, h3⟩ := hP
    obtain ⟨_, n1, n2⟩ := hn
    exact Or.inr ⟨_, _, _, hset _, by rw [n2]; exact h3 _ n1, by omega, by simp; omega⟩
  | read p k =>
    obtain ⟨h1, h3⟩ := hP
    obtain ⟨_, ⟨c, n1, n2⟩, n3⟩ := hn
    simp only [State.actP, n2] at h
    cases h
    exact Or.inr ⟨_, _, a, hset _, by rw [n3]; exact h3 _ n1, by omega, by simp [State.cont]⟩
  | write p c k =>
    obtain ⟨h1, h3⟩ := hP
    obtain ⟨_, n1, n2⟩ := hn
    simp only [State.actP, n1, if_true] at h
    cases h
    exact Or.inr ⟨_, _, a, hset _, by rw [n2]; exact h3, by omega, by simp⟩
  | load o k =>
    obtain ⟨h1, h3⟩ := hP
    obtain ⟨_, ob, n1, n2, n3⟩ := hn
    simp only [State.actP, n1] at h
    cases h
    exact Or.inr ⟨_, _, a, hset _, h3 _ _ n2 (hld o ob _ n1 (by simp [State.note]) n3), by omega, by simp [State.cont, State.note]⟩
  | newObj ob k =>
    obtain ⟨h1, h3⟩ := hP
    obtain ⟨_, n1⟩ := hn
    cases h
    exact Or.inr ⟨_, _, a, hset _, by rw [n1]; exact h3 _, by omega, by simp [State.cont, State.note]⟩
  | cas o x y k =>
    obtain ⟨h1, h3⟩ := hP
    obtain ⟨_, ⟨ob, n1⟩, n2⟩ := hn
    simp only [State.actP, n1] at h
    split at h <;> cases h <;> exact Or.inr ⟨_, _, a, hset _, by rw [n2]; exact h3 _, by omega, by simp [State.cont, State.note]⟩

/-- what is left of the budget of thread `i`, which relies on `v` -/
def LeftT (ld : View α D → Obj D → Prop) (i : Nat) (r : List (Label L × Nat)) (n a : Nat) (v : View α D) :
    Option (Prog α D L.Val) → Prop
  | none => numSteps i r ≤ n + 1 ∧ numNew i r ≤ a
  | some P => ∃ m b, P.Takes ld v m b ∧ numSteps i r + m ≤ n ∧ numNew i r + b ≤ a

theorem Run.leftT (ok : LibOk L good gval fr Q) (mono : ∀ v v' ob, v ≤ v' → ld v ob → ld v' ob)
    {r : List (Label L × Nat)} {s : State L} (h : Run .init r s) {i n a : Nat} {c : L.Call} :
    ∃ g, MInv good fr Q s g ∧ ∀ X : View α D, g.fz ≤ X → .start i c ∈ s.log →
      (∀ o ob, .act i (.load o ob) ∈ s.log → ∀ v, v ≤ X → good v ob → ld v ob) →
      (∀ v, v ≤ X → L.pre c → (∀ x ∈ L.vals c, gval v x) → (L.code c).Takes ld v n a) →
      ∀ x, s.threads[i]? = some x → LeftT ld i r n a (g.views i) x := by
  induction h with
  | nil => exact ⟨_, MInv.init, fun X _ h => (by cases h)⟩
  | @spawn t r h c' hc ih =>
    obtain ⟨g, m, ih⟩ := ih
    refine ⟨_, m.spawn ok hc, fun X hX hs hl hcode x hx => ?_⟩
    have e : ∀ v, LeftT ld i (r ++ [(.spawn c', 0)]) n a v x ↔ LeftT ld i r n a v x := by
      intro v; cases x <;> simp [LeftT, numSteps, numNew, ownSteps_spawn]
    rw [e]
    simp only [State.spawn, List.mem_append, List.mem_singleton, Entry.start.injEq] at hs hx hl
    rcases hs with hs | ⟨rfl, rfl⟩
    · have hlt : i < t.threads.length := m.tid _ hs
      rw [List.getElem?_append_left hlt] at hx
      have : (g.spawn t.threads.length).views i = g.views i := by
        simp [Ghost.spawn, upd_ne _ _ (Nat.ne_of_lt hlt)]
      rw [this]
      exact ih X hX hs (fun o ob ho => hl o ob (Or.inl ho)) hcode x hx
    · simp at hx
      subst hx
      have h0 := h.left.1 _ (Nat.le_refl _)
      refine ⟨n, a, ?_, by omega, by omega⟩
      simp only [Ghost.spawn, upd_same]
      exact hcode _ hX hc.1 fun x hx => m.known ok (hc.2.2 x hx)
  | @act t t' r h j hs ih =>
    obtain ⟨g, m, ih⟩ := ih
    obtain ⟨g', m', hfz, hnext⟩ := m.act_next ok hs
    refine ⟨g', m', fun X hX hst hl hcode x hx => ?_⟩
    obtain ⟨P, hj, hpre, hlog, hoth, hlen, _⟩ := State.act_log hs
    have hsub : ∀ e, e ∈ t.log → e ∈ t'.log := by
      intro e he
      rcases hlog with h | ⟨e', h, _⟩
      · rw [h]; exact he
      · rw [h]; exact List.mem_append_left _ he
    have hst' : .start i c ∈ t.log := by
      rcases hlog with h | ⟨e', h, _, h6⟩
      · rw [h] at hst; exact hst
      · rw [h, List.mem_append, List.mem_singleton] at hst
        exact hst.resolve_right fun h => h6 _ _ h.symm
    have ih := ih X (View.le_trans hfz hX) hst' (fun o ob ho => hl o ob (hsub _ ho)) hcode
    have hnx := hnext P hj
    by_cases hji : j = i
    · subst hji
      obtain ⟨k, b, h1, h2, h3⟩ := ih _ hj
      have en : numSteps j (r ++ [(.act j, t'.heap.length - t.heap.length)]) = numSteps j r + 1 := by
        simp [numSteps, ownSteps_self]
      have ea : numNew j (r ++ [(.act j, t'.heap.length - t.heap.length)]) =
          numNew j r + (t'.heap.length - t.heap.length) := by
        simp [numNew, ownSteps_self]
      have hld : ∀ o ob v', t.objs[o]? = some ob → .act j (.load o ob) ∈ t'.log → g.fz ≤ v' → ld v' ob :=
        fun o ob v' ho hm hv => mono _ _ _ hv (hl o ob hm _ (View.le_trans hfz hX) (m.objs_good ob (List.mem_of_getElem? ho)))
      rcases act_takes hj hs hnx hld h1 with ⟨h4, h5⟩ | ⟨P', m', b', h4, h5, h6, h7⟩
      · rw [h5] at hx
        cases hx
        exact ⟨by rw [en]; omega, by rw [ea]; omega⟩
      · rw [h4] at hx
        cases hx
        exact ⟨m', b', h5, by rw [en]; omega, by rw [ea]; omega⟩
    · rw [hoth i (Ne.symm hji)] at hx
      have e : ∀ v, LeftT ld i (r ++ [(.act j, t'.heap.length - t.heap.length)]) n a v x ↔ LeftT ld i r n a v x := by
        intro v; cases x <;> simp [LeftT, numSteps, numNew, ownSteps_other hji]
      rw [e, hnx.1 i (Ne.symm hji)]
      exact ih x hx

/-- The whole cost of a call, in every execution: `ld` holds of what it loads. -/
theorem Run.takes (ok : LibOk L good gval fr Q) (mono : ∀ v v' ob, v ≤ v' → ld v ob → ld v' ob)
    {r : List (Label L × Nat)} {s : State L} (h : Run .init r s) {i n a : Nat} {c : L.Call} (hs : .start i c ∈ s.log)
    (hl : ∀ o ob, .act i (.load o ob) ∈ s.log → ∀ v, v ≤ View.ofHeap s.heap → good v ob → ld v ob)
    (hc : ∀ v, v ≤ View.ofHeap s.heap → L.pre c → (∀ x ∈ L.vals c, gval v x) → (L.code c).Takes ld v n a) :
    numSteps i r ≤ n + 1 ∧ numNew i r ≤ a := by
  obtain ⟨g, m, key⟩ := h.leftT ok mono (i := i) (n := n) (a := a) (c := c)
  have hlt : i < s.threads.length := m.tid _ hs
  have := key _ m.mem.fz_le hs hl hc _ (List.getElem?_eq_getElem hlt)
  revert this
  cases s.threads[i] with
  | none => exact id
  | some P => rintro ⟨m, b, _, h4, h5⟩; exact ⟨by omega, by omega⟩

end
end Addrs

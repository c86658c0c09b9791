import Verif.Machine
/-
  A program logic for the machine.  A thread relies only on nodes that no other thread can change: nodes
  that are frozen (reachable from some root or returned value) and its own new ones.
-/
set_option linter.unusedSectionVars false
namespace Addrs
open GoWord

namespace View
variable {α D : Type}
/-- union of two views of one heap -/
def join (u v : View α D) : View α D := fun a => match u a with
  | some c => some c
  | none => v a
theorem le_join_left (u v : View α D) : u ≤ join u v := by
  intro a c h; unfold join; rw [h]
theorem le_join_right {u v h : View α D} (hu : u ≤ h) (hv : v ≤ h) : v ≤ join u v := by
  intro a c e
  unfold join
  split
  · next d hd => have := hv _ _ e; rw [hu _ _ hd] at this; exact this
  · exact e
theorem join_le {u v h : View α D} (hu : u ≤ h) (hv : v ≤ h) : join u v ≤ h := by
  intro a c e
  unfold join at e
  split at e
  · next d hd => cases e; exact hu _ _ hd
  · exact hv _ _ e
theorem join_none {u v : View α D} {a : Nat} : join u v a = none ↔ u a = none ∧ v a = none := by
  unfold join
  split
  · next h => simp [h]
  · next h => simp [h]
end View

namespace Prog
variable {α D β γ : Type}

/-- which roots that are not new a thread may swap into an object, after the given accesses to objects -/
abbrev _root_.Addrs.OldRoots (α D : Type) := View α D → List (Event D) → Nat → Ptr → Prop

/-- Weakest precondition of a thread.  `v` are the nodes it relies on, those not in `base` are private to
    it, `W` are the ones it may write to; `n` are the objects it knows; `tr` are its root accesses so
    far.  Only roots that are new or are allowed by `fr` may be swapped in. -/
def cwp (good : View α D → Obj D → Prop) (fr : OldRoots α D) (Q : List (Event D) → β → View α D → Prop) :
    Prog α D β → View α D → View α D → (Nat → Prop) → (Nat → Prop) → List (Event D) → Prop
  | ret b, v, _, _, _, tr => Q tr b v
  | panic, _, _, _, _, _ => False
  | stuck, _, _, _, _, _ => False
  | alloc c k, v, base, W, n, tr =>
    ∀ a, v a = none → cwp good fr Q (k a) (v.set a c) base (fun m => m = a ∨ W m) n tr
  | read p k, v, base, W, n, tr => ∃ c, v p = some c ∧ cwp good fr Q (k c) v base W n tr
  | write p c k, v, base, W, n, tr =>
    W p ∧ (∃ c0, v p = some c0) ∧ cwp good fr Q k (v.set p c) base W n tr
  | load o k, v, base, W, n, tr =>
    n o ∧ ∀ v' base' ob, v ≤ v' → base ≤ base' →
      (base' ≤ v' ∧ ∀ a, v a ≠ none → base a = none → base' a = none) → good v' ob →
      (∀ ob', .load o ob' ∈ tr → ob'.eq = ob.eq) → cwp good fr Q (k ob) v' base' W n (tr ++ [.load o ob])
  | cas o old new k, v, base, _, n, tr =>
    n o ∧ (∃ ob, .load o ob ∈ tr ∧ ob.trie = old ∧ good v { ob with trie := new }) ∧
    (∀ o' x y, .swap o' x y ∉ tr) ∧
    ((∃ a, new = some a ∧ base a = none) ∨ fr v tr o new) ∧
    k false = panic ∧
    ∀ v', v ≤ v' → cwp good fr Q (k true) v' v' Nowhere n (tr ++ [.swap o old new])
  | newObj ob k, v, _, _, n, tr =>
    good v ob ∧ ∀ v' o, v ≤ v' → ¬ n o → cwp good fr Q (k o) v' v' Nowhere (fun m => m = o ∨ n m) (tr ++ [.made o ob])

variable {good : View α D → Obj D → Prop} {fr : OldRoots α D}

theorem cwp_mono {Q Q' : List (Event D) → β → View α D → Prop} (hQ : ∀ tr b v, Q tr b v → Q' tr b v)
    {P : Prog α D β} {v base : View α D} {W W' : Nat → Prop} (hW : ∀ a, W a → W' a) {n n' : Nat → Prop}
    (hn : ∀ o, n o → n' o) {tr : List (Event D)} (h : cwp good fr Q P v base W n tr) :
    cwp good fr Q' P v base W' n' tr := by
  induction P generalizing v base W W' n n' tr with
  | ret b => exact hQ _ _ _ h
  | panic => exact h
  | stuck => exact h
  | alloc c k ih => intro a ha; exact ih a (fun m hm => hm.imp id (hW m)) hn (h a ha)
  | read p k ih => obtain ⟨c, hc, h⟩ := h; exact ⟨c, hc, ih c hW hn h⟩
  | write p c k ih => obtain ⟨h1, h2, h3⟩ := h; exact ⟨hW _ h1, h2, ih hW hn h3⟩
  | load o k ih =>
    exact ⟨hn _ h.1, fun v' base' ob h1 h2 h3 h4 h5 =>
      ih ob hW hn (h.2 v' base' ob h1 h2 h3 h4 h5)⟩
  | cas o old new k ih =>
    obtain ⟨h1, h2, h3, h4, h5, h6⟩ := h
    exact ⟨hn _ h1, h2, h3, h4, h5, fun v' hv => ih true (fun _ h => h) hn (h6 v' hv)⟩
  | newObj ob k ih =>
    exact ⟨h.1, fun v' o hv ho => ih o (fun _ h => h) (fun m hm => hm.imp id (hn m)) (h.2 v' o hv fun h => ho (hn o h))⟩

/-- code on nodes inside a thread -/
theorem cwp_bind {Q : List (Event D) → γ → View α D → Prop} {P : Prog α D β} {f : β → Prog α D γ}
    {v base : View α D} {W : Nat → Prop} {n : Nat → Prop} {tr : List (Event D)}
    (h : wp False (fun b v' => cwp good fr Q (f b) v' base W n tr) P v W) :
    cwp good fr Q (P >>= f) v base W n tr := by
  suffices H : ∀ W', (∀ a, W' a → W a) →
      wp False (fun b v' => cwp good fr Q (f b) v' base W' n tr) P v W → cwp good fr Q (P.bind f) v base W n tr from
    H W (fun _ h => h) h
  clear h
  intro W' hW h
  induction P generalizing v W with
  | ret b => exact cwp_mono (fun _ _ _ h => h) hW (fun _ h => h) h
  | panic => exact h
  | stuck => exact h
  | alloc c k ih => intro a ha; exact ih a (fun m hm => Or.inr (hW m hm)) (h a ha)
  | read p k ih => obtain ⟨c, hc, h⟩ := h; exact ⟨c, hc, ih c hW h⟩
  | write p c k ih => obtain ⟨h1, h2, h3⟩ := h; exact ⟨h1, h2, ih hW h3⟩
  | load o k ih => exact h.elim
  | cas o old new k ih => exact h.elim
  | newObj ob k ih => exact h.elim

/-- calling a function on nodes that writes only to nodes it allocates -/
theorem cwp_call {Q0 : β → View α D → Prop} {Q : List (Event D) → γ → View α D → Prop} {P : Prog α D β}
    {f : β → Prog α D γ} {v base : View α D} {W : Nat → Prop} {n : Nat → Prop} {tr : List (Event D)}
    (h : wp False Q0 P v Nowhere)
    (hf : ∀ b v', v ≤ v' → Q0 b v' → cwp good fr Q (f b) v' base W n tr) :
    cwp good fr Q (P >>= f) v base W n tr := by
  apply cwp_bind
  refine wp_mono (W := Nowhere) (fun _ h => h.elim) ?_ (wp_frame h)
  intro b v' hq
  exact hf b v' (fun n c e => hq.2 n c id e) hq.1

/-- reading a mutable object -/
theorem cwp_load {Q : List (Event D) → γ → View α D → Prop}
    {o : Nat} {f : Obj D → Prog α D γ} {v base : View α D} {W : Nat → Prop} {n : Nat → Prop} {tr : List (Event D)}
    (ho : n o) (h : ∀ v' base' ob, v ≤ v' → base ≤ base' →
      (base' ≤ v' ∧ ∀ a, v a ≠ none → base a = none → base' a = none) → good v' ob →
      (∀ ob', .load o ob' ∈ tr → ob'.eq = ob.eq) → cwp good fr Q (f ob) v' base' W n (tr ++ [.load o ob])) :
    cwp good fr Q (readObj o >>= f) v base W n tr := ⟨ho, h⟩

end Prog

/-! ### The invariant of the machine -/

/-- What is true of a package: `good` of mutable objects, `gval` of immutable values. -/
structure LibOk {α D : Type} (L : Lib α D) (good gval : View α D → Obj D → Prop) (fr : L.Call → OldRoots α D)
    (Q : L.Call → List (Event D) → L.Val → View α D → Prop) : Prop where
  fr_mono : ∀ {c v v' tr o q}, v ≤ v' → fr c v tr o q → fr c v' tr o q
  good_mono : ∀ {v v' ob}, v ≤ v' → good v ob → good v' ob
  good_dom : ∀ {v : View α D} {ob p}, good v ob → ob.trie = some p → v p ≠ none
  gval_zero : ∀ v, gval v .zero
  spec_mono : ∀ {c tr x v v'}, v ≤ v' → Q c tr x v → Q c tr x v'
  outs : ∀ {c tr x v}, Q c tr x v → ∀ y ∈ L.outs x, gval v y
  code : ∀ c, L.pre c → ∀ v (n : Nat → Prop), (∀ x ∈ L.vals c, gval v x) → (∀ o ∈ L.refs c, n o) →
    Prog.cwp good (fr c) (Q c) (L.code c) v v Prog.Nowhere n []

/-- who owns which nodes -/
structure Ghost (α D : Type) where
  /-- frozen nodes: never written again -/
  fz : View α D
  /-- the nodes a thread relies on -/
  views : Nat → View α D
  /-- those of them that are not private to it -/
  bases : Nat → View α D
  /-- the nodes a thread may write to -/
  ws : Nat → Nat → Prop

/-- change a function at one point -/
def upd {β : Type} (f : Nat → β) (i : Nat) (x : β) : Nat → β := fun j => if j = i then x else f j
@[simp] theorem upd_same {β : Type} (f : Nat → β) (i : Nat) (x : β) : upd f i x i = x := by simp [upd]
theorem upd_ne {β : Type} (f : Nat → β) {i j : Nat} (x : β) (h : j ≠ i) : upd f i x j = f j := by simp [upd, h]

namespace Ghost
variable {α D : Type}

/-- the nodes are owned consistently -/
structure Mem (g : Ghost α D) (h : List (Cell α D)) : Prop where
  fz_le : g.fz ≤ View.ofHeap h
  v_le : ∀ i, g.views i ≤ View.ofHeap h
  base_le : ∀ i, g.bases i ≤ g.fz
  priv : ∀ i a, g.views i a ≠ none → g.bases i a = none → g.fz a = none ∧ ∀ j, j ≠ i → g.views j a = none
  wsub : ∀ i a, g.ws i a → g.views i a ≠ none ∧ g.bases i a = none

def spawn (g : Ghost α D) (i : Nat) : Ghost α D :=
  { g with views := upd g.views i g.fz, bases := upd g.bases i g.fz, ws := upd g.ws i Prog.Nowhere }
def alloc (g : Ghost α D) (i a : Nat) (c : Cell α D) : Ghost α D :=
  { g with views := upd g.views i ((g.views i).set a c), ws := upd g.ws i fun m => m = a ∨ g.ws i m }
def write (g : Ghost α D) (i a : Nat) (c : Cell α D) : Ghost α D :=
  { g with views := upd g.views i ((g.views i).set a c) }
def load (g : Ghost α D) (i : Nat) : Ghost α D :=
  { g with views := upd g.views i (View.join (g.views i) g.fz), bases := upd g.bases i g.fz }
def freeze (g : Ghost α D) (i : Nat) : Ghost α D :=
  { g with fz := View.join g.fz (g.views i), bases := upd g.bases i (g.views i), ws := upd g.ws i Prog.Nowhere }

theorem Mem.spawn {g : Ghost α D} {h : List (Cell α D)} (m : g.Mem h) (i : Nat) : (g.spawn i).Mem h where
  fz_le := m.fz_le
  v_le j := by
    by_cases e : j = i
    · subst e; simpa [Ghost.spawn] using m.fz_le
    · simpa [Ghost.spawn, upd_ne _ _ e] using m.v_le j
  base_le j := by
    by_cases e : j = i
    · subst e; simpa [Ghost.spawn] using View.le_refl g.fz
    · simpa [Ghost.spawn, upd_ne _ _ e] using m.base_le j
  priv j a h1 h2 := by
    by_cases e : j = i
    · subst e; simp [Ghost.spawn] at h1 h2; exact (h1 h2).elim
    · simp [Ghost.spawn, upd_ne _ _ e] at h1 h2 ⊢
      obtain ⟨h3, h4⟩ := m.priv j a h1 h2
      refine ⟨h3, fun k hk => ?_⟩
      by_cases e' : k = i
      · subst e'; simpa using h3
      · simpa [upd_ne _ _ e'] using h4 k hk
  wsub j a hw := by
    by_cases e : j = i
    · subst e; simp [Ghost.spawn, Prog.Nowhere] at hw
    · simp [Ghost.spawn, upd_ne _ _ e] at hw ⊢; exact m.wsub j a hw

theorem none_at_end {v : View α D} {h : List (Cell α D)} (hv : v ≤ View.ofHeap h) : v h.length = none := by
  cases e : v h.length with
  | none => rfl
  | some c => have := hv _ _ e; simp [View.ofHeap] at this

theorem Mem.alloc {g : Ghost α D} {h : List (Cell α D)} (m : g.Mem h) (i : Nat) (c : Cell α D) :
    (g.alloc i h.length c).Mem (h ++ [c]) := by
  have hle : View.ofHeap h ≤ View.ofHeap (h ++ [c]) := by
    rw [Prog.ofHeap_alloc]
    exact View.le_set_fresh (by simp [View.ofHeap])
  have hn : ∀ j, g.views j h.length = none := fun j => none_at_end (m.v_le j)
  have hf : g.fz h.length = none := none_at_end m.fz_le
  refine ⟨View.le_trans m.fz_le hle, ?_, m.base_le, ?_, ?_⟩
  · intro j
    by_cases e : j = i
    · subst e
      simp only [Ghost.alloc, upd_same]
      intro a d hd
      rw [Prog.ofHeap_alloc]
      unfold View.set at hd ⊢
      split
      · next e => rw [if_pos e] at hd; exact hd
      · next e => rw [if_neg e] at hd; exact m.v_le j _ _ hd
    · simp only [Ghost.alloc, upd_ne _ _ e]
      exact View.le_trans (m.v_le j) hle
  · intro j a h1 h2
    by_cases ea : a = h.length
    · subst ea
      refine ⟨hf, fun k hk => ?_⟩
      by_cases e : k = i
      · subst e
        by_cases e' : j = k
        · exact (hk e'.symm).elim
        · simp only [Ghost.alloc, upd_ne _ _ e'] at h1; exact (h1 (hn j)).elim
      · simpa only [Ghost.alloc, upd_ne _ _ e] using hn k
    · have hv : ∀ k, (g.alloc i h.length c).views k a = g.views k a := by
        intro k
        by_cases e : k = i
        · subst e; simp only [Ghost.alloc, upd_same, View.set_ne _ _ ea]
        · simp only [Ghost.alloc, upd_ne _ _ e]
      rw [hv] at h1
      obtain ⟨h3, h4⟩ := m.priv j a h1 h2
      exact ⟨h3, fun k hk => by rw [hv]; exact h4 k hk⟩
  · intro j a hw
    by_cases e : j = i
    · subst e
      simp only [Ghost.alloc, upd_same] at hw ⊢
      rcases hw with rfl | hw
      · refine ⟨by simp, ?_⟩
        cases e : g.bases j h.length with
        | none => rfl
        | some c => rw [m.base_le j _ _ e] at hf; cases hf
      · obtain ⟨h1, h2⟩ := m.wsub j a hw
        refine ⟨?_, h2⟩
        rw [View.set_ne]
        · exact h1
        · rintro rfl; exact h1 (hn j)
    · simp only [Ghost.alloc, upd_ne _ _ e] at hw ⊢
      exact m.wsub j a hw

theorem Mem.write {g : Ghost α D} {h : List (Cell α D)} (m : g.Mem h) {i p : Nat} (hw : g.ws i p)
    (c : Cell α D) : (g.write i p c).Mem (h.set p c) := by
  obtain ⟨hv, hb⟩ := m.wsub i p hw
  obtain ⟨hf, ho⟩ := m.priv i p hv hb
  have hp : p < h.length := by
    obtain ⟨d, hd⟩ := Option.ne_none_iff_exists'.mp hv
    have := m.v_le i _ _ hd
    exact (List.getElem?_eq_some_iff.mp this).1
  have key : ∀ {v : View α D}, v ≤ View.ofHeap h → v p = none → v ≤ View.ofHeap (h.set p c) := by
    intro v hle hn a d hd
    rw [Prog.ofHeap_write hp, View.set_ne]
    · exact hle _ _ hd
    · rintro rfl; rw [hn] at hd; cases hd
  have hv' : ∀ k a, a ≠ p → (g.write i p c).views k a = g.views k a := by
    intro k a ha
    by_cases e : k = i
    · subst e; simp only [Ghost.write, upd_same, View.set_ne _ _ ha]
    · simp only [Ghost.write, upd_ne _ _ e]
  refine ⟨key m.fz_le hf, ?_, m.base_le, ?_, ?_⟩
  · intro j
    by_cases e : j = i
    · subst e
      simp only [Ghost.write, upd_same]
      intro a d hd
      rw [Prog.ofHeap_write hp]
      unfold View.set at hd ⊢
      split
      · next e => rw [if_pos e] at hd; exact hd
      · next e => rw [if_neg e] at hd; exact m.v_le j _ _ hd
    · simp only [Ghost.write, upd_ne _ _ e]
      exact key (m.v_le j) (ho j e)
  · intro j a h1 h2
    by_cases ea : a = p
    · subst ea
      refine ⟨hf, fun k hk => ?_⟩
      by_cases e : k = i
      · subst e
        simp only [Ghost.write, upd_ne _ _ (Ne.symm hk)] at h1
        exact (h1 (ho j (Ne.symm hk))).elim
      · simpa only [Ghost.write, upd_ne _ _ e] using ho k e
    · rw [hv' _ _ ea] at h1
      obtain ⟨h3, h4⟩ := m.priv j a h1 h2
      exact ⟨h3, fun k hk => by rw [hv' _ _ ea]; exact h4 k hk⟩
  · intro j a hw'
    obtain ⟨h1, h2⟩ := m.wsub j a hw'
    refine ⟨?_, h2⟩
    by_cases ea : a = p
    · subst ea
      by_cases e : j = i
      · subst e; simp [Ghost.write]
      · exact (h1 (ho j e)).elim
    · rw [hv' _ _ ea]; exact h1

theorem Mem.load {g : Ghost α D} {h : List (Cell α D)} (m : g.Mem h) (i : Nat) : (g.load i).Mem h := by
  refine ⟨m.fz_le, ?_, ?_, ?_, ?_⟩
  · intro j
    by_cases e : j = i
    · subst e; simpa only [Ghost.load, upd_same] using View.join_le (m.v_le j) m.fz_le
    · simpa only [Ghost.load, upd_ne _ _ e] using m.v_le j
  · intro j
    by_cases e : j = i
    · subst e; simpa only [Ghost.load, upd_same] using View.le_refl _
    · simpa only [Ghost.load, upd_ne _ _ e] using m.base_le j
  · intro j a h1 h2
    have hk : ∀ k, k ≠ j → g.fz a = none → g.views k a = none → (g.load i).views k a = none := by
      intro k _ h3 h4
      by_cases e : k = i
      · subst e; simp only [Ghost.load, upd_same]; exact View.join_none.mpr ⟨h4, h3⟩
      · simpa only [Ghost.load, upd_ne _ _ e] using h4
    by_cases e : j = i
    · subst e
      simp only [Ghost.load, upd_same] at h1 h2
      have h3 : g.views j a ≠ none := fun h => h1 (View.join_none.mpr ⟨h, h2⟩)
      have h4 : g.bases j a = none := by
        cases e : g.bases j a with
        | none => rfl
        | some c => rw [m.base_le j _ _ e] at h2; cases h2
      obtain ⟨h5, h6⟩ := m.priv j a h3 h4
      exact ⟨h5, fun k hk' => hk k hk' h5 (h6 k hk')⟩
    · simp only [Ghost.load, upd_ne _ _ e] at h1 h2
      obtain ⟨h5, h6⟩ := m.priv j a h1 h2
      exact ⟨h5, fun k hk' => hk k hk' h5 (h6 k hk')⟩
  · intro j a hw
    obtain ⟨h1, h2⟩ := m.wsub j a hw
    by_cases e : j = i
    · subst e
      simp only [Ghost.load, upd_same]
      exact ⟨fun h => h1 (View.join_none.mp h).1, (m.priv j a h1 h2).1⟩
    · simp only [Ghost.load, upd_ne _ _ e]
      exact ⟨h1, h2⟩

theorem Mem.freeze {g : Ghost α D} {h : List (Cell α D)} (m : g.Mem h) (i : Nat) : (g.freeze i).Mem h := by
  refine ⟨View.join_le m.fz_le (m.v_le i), m.v_le, ?_, ?_, ?_⟩
  · intro j
    by_cases e : j = i
    · subst e; simpa only [Ghost.freeze, upd_same] using View.le_join_right m.fz_le (m.v_le j)
    · simpa only [Ghost.freeze, upd_ne _ _ e] using View.le_trans (m.base_le j) (View.le_join_left _ _)
  · intro j a h1 h2
    by_cases e : j = i
    · subst e
      simp only [Ghost.freeze, upd_same] at h1 h2
      exact (h1 h2).elim
    · simp only [Ghost.freeze, upd_ne _ _ e] at h1 h2 ⊢
      obtain ⟨h5, h6⟩ := m.priv j a h1 h2
      exact ⟨View.join_none.mpr ⟨h5, h6 i (Ne.symm e)⟩, h6⟩
  · intro j a hw
    by_cases e : j = i
    · subst e; simp [Ghost.freeze, Prog.Nowhere] at hw
    · simp only [Ghost.freeze, upd_ne _ _ e] at hw ⊢
      exact m.wsub j a hw

end Ghost
end Addrs

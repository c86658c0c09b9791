import Verif.Takes
import Verif.HeapDiffCost
import Verif.HeapSetApi
import Verif.SetCost2
import Verif.HeapSetCost
/-
  What the functions that only read cost, and the functions of setnode.go that depend on them.
-/
set_option linter.unusedSectionVars false
namespace Addrs
open GoWord LawfulGoWord

theorem Prog.ReadsAtMost.takes {α D β : Type} {ld : View α D → Obj D → Prop} {v : View α D} {P : Prog α D β} :
    ∀ {n : Nat}, P.ReadsAtMost v n → P.Takes ld v n 0 := by
  induction P with
  | ret b => intros; trivial
  | panic => intros; trivial
  | stuck => intros; trivial
  | read p k ih =>
    rintro n ⟨h1, c, h2, h3⟩
    refine ⟨h1, fun c' hc => ?_⟩
    rw [h2] at hc; cases hc
    exact ih c h3
  | _ => intro n h; exact h.elim

namespace Heap
open Prog
section
variable {α D : Type} [LawfulGoWord α] [GoType D]

theorem reads_nil {σ : Type} {h : Handler α D σ} (hq : h.Quiet) {v : View α D} :
    ∀ (F : Nat) {p : Ptr} {t : Trie α D}, Den v p t → ∀ s,
      (diff h F p none s).ReadsAtMost v t.nodes ∧ (diff h F none p s).ReadsAtMost v t.nodes := by
  intro F
  induction F with
  | zero => intros; exact ⟨trivial, trivial⟩
  | succ F ih =>
    intro p t d s
    cases d with
    | nil => constructor <;> (unfold diff; split <;> exact trivial)
    | @node a c l r ha dl dr =>
      have e : Trie.nodes (.node c.pfx c.data c.size c.h c.active l r) = (0 + (l.nodes + r.nodes)) + 1 := by
        simp only [Trie.nodes]; omega
      rw [e]
      constructor
      · unfold diff
        simp only [reduceCtorEq, decide_false, Bool.false_and, Bool.false_eq_true, if_false]
        exact ReadsAtMost.deref ha (reads_andThen (hq.removed _ _ _) fun s =>
          reads_andThen (ih dl s).1 fun s => (ih dr s).1)
      · unfold diff
        simp only [reduceCtorEq, decide_false, Bool.false_and, Bool.false_eq_true, if_false]
        exact ReadsAtMost.deref ha (reads_andThen (hq.added _ _ _) fun s =>
          reads_andThen (ih dl s).2 fun s => (ih dr s).2)

/-- `Diff` reads each node at most twice -/
theorem reads_all {σ : Type} {h : Handler α D σ} (hq : h.Quiet) {v : View α D} :
    ∀ (F : Nat) {p q : Ptr} {t u : Trie α D}, Den v p t → Den v q u → ∀ s,
      (diff h F p q s).ReadsAtMost v (2 * (t.nodes + u.nodes)) := by
  intro F
  induction F with
  | zero => intros; trivial
  | succ F ih =>
    intro p q t u dt du s
    cases p with
    | none =>
      refine ((reads_nil hq (F + 1) du s).2).weaken ?_
      omega
    | some a =>
    cases q with
    | none =>
      refine ((reads_nil hq (F + 1) dt s).1).weaken ?_
      omega
    | some b =>
    obtain ⟨c, l, r, ha, dl, dr, rfl⟩ := dt.some_inv
    obtain ⟨d, l', r', hb, dl', dr', rfl⟩ := du.some_inv
    unfold diff
    split
    · trivial
    · have e : 2 * (Trie.nodes (.node c.pfx c.data c.size c.h c.active l r) + Trie.nodes (.node d.pfx d.data d.size d.h d.active l' r')) =
          (2 * (l.nodes + r.nodes + l'.nodes + r'.nodes) + 2) + 1 + 1 := by simp only [Trie.nodes]; omega
      rw [e]
      refine ReadsAtMost.deref ha (ReadsAtMost.deref hb ?_)
      have e2 : 2 * Trie.nodes (.node c.pfx c.data c.size c.h c.active l r) = 2 * (l.nodes + r.nodes) + 2 := by simp only [Trie.nodes]; omega
      have e3 : 2 * Trie.nodes (.node d.pfx d.data d.size d.h d.active l' r') = 2 * (l'.nodes + r'.nodes) + 2 := by simp only [Trie.nodes]; omega
      split
      · refine (reads_andThen (hq.modified _ _ _ _) fun s => reads_andThen (ih dl dl' s) fun s => ih dr dr' s).weaken ?_
        omega
      · next child _ =>
        cases child
        · refine (reads_andThen (hq.removed _ _ _) fun s => reads_andThen (ih dl du s) fun s => (reads_nil hq F dr s).1).weaken ?_
          omega
        · refine (reads_andThen (hq.removed _ _ _) fun s => reads_andThen (reads_nil hq F dl s).1 fun s => ih dr du s).weaken ?_
          omega
      · next child _ =>
        cases child
        · refine (reads_andThen (hq.added _ _ _) fun s => reads_andThen (ih dt dl' s) fun s => (reads_nil hq F dr' s).2).weaken ?_
          omega
        · refine (reads_andThen (hq.added _ _ _) fun s => reads_andThen (reads_nil hq F dl' s).2 fun s => ih dt dr' s).weaken ?_
          omega
      · split
        · refine (reads_andThen (reads_nil hq F dt s).1 fun s => (reads_nil hq F du s).2).weaken ?_
          omega
        · refine (reads_andThen (reads_nil hq F du s).2 fun s => (reads_nil hq F dt s).1).weaken ?_
          omega

/-- the callbacks of the caller read nothing -/
theorem quiet_Diff {σ : Type} (cb : Trie.DiffCallbacks α D σ) (eq : Comparator D) :
    Handler.Quiet (α := α) (D := D)
    { removed := fun n s => if n.active then pure (Trie.orNoop1 cb.removed n.pfx n.data s) else pure (s, true)
      added := fun n s => if n.active then pure (Trie.orNoop1 cb.added n.pfx n.data s) else pure (s, true)
      modified := fun l r s =>
        if l.active && r.active then do
          let e ← orPanic (eq l.data r.data)
          if !e then pure (Trie.orNoop2 cb.modified l.pfx l.data r.data s) else pure (Trie.orNoop1 cb.same l.pfx l.data s)
        else if l.active then pure (Trie.orNoop1 cb.removed l.pfx l.data s)
        else if r.active then pure (Trie.orNoop1 cb.added r.pfx r.data s)
        else pure (s, true)
      sameNil := cb.same.isNone } := by
  refine ⟨?_, ?_, ?_⟩
  · intro v c s; dsimp only; split <;> trivial
  · intro v c s; dsimp only; split <;> trivial
  · intro v c d s
    dsimp only
    split
    · cases eq c.data d.data with
      | none => trivial
      | some b => cases b <;> trivial
    · split
      · trivial
      · split <;> trivial

theorem reads_walk {σ : Type} (F : Nat) (cb : Prefix α → Option D → σ → σ × Bool) {v : View α D} {p : Ptr} {t : Trie α D}
    (d : Den v p t) (s : σ) : (walk F cb p s).ReadsAtMost v t.nodes := by
  unfold walk Diff
  exact (reads_nil (quiet_Diff { removed := none, added := some cb, modified := none, same := none } (fun _ _ => some false)) F d s).2

theorem reads_Diff {σ : Type} (F : Nat) (cb : Trie.DiffCallbacks α D σ) (eq : Comparator D) {v : View α D} {p q : Ptr}
    {t u : Trie α D} (d : Den v p t) (d' : Den v q u) (s : σ) :
    (Diff F cb eq p q s).ReadsAtMost v (2 * (t.nodes + u.nodes)) :=
  reads_all (quiet_Diff _ _) F d d' s

theorem reads_equal (eq : Comparator D) {v : View α D} : ∀ (F : Nat) {p q : Ptr} {t u : Trie α D}, Den v p t → Den v q u →
    (equal eq F p q).ReadsAtMost v (t.nodes + u.nodes) := by
  intro F
  induction F with
  | zero => intros; trivial
  | succ F ih =>
    intro p q t u dt du
    unfold equal
    split
    · trivial
    split
    · trivial
    · trivial
    next a b =>
    obtain ⟨c, l, r, ha, dl, dr, rfl⟩ := dt.some_inv
    obtain ⟨d, l', r', hb, dl', dr', rfl⟩ := du.some_inv
    have e : Trie.nodes (.node c.pfx c.data c.size c.h c.active l r) + Trie.nodes (.node d.pfx d.data d.size d.h d.active l' r') =
        (0 + ((l.nodes + l'.nodes) + ((r.nodes + r'.nodes) + 0))) + 1 + 1 := by simp only [Trie.nodes]; omega
    rw [e]
    refine ReadsAtMost.deref ha (ReadsAtMost.deref hb ?_)
    split
    · trivial
    split
    · trivial
    have hk : ∀ e : Bool, (if !e then pure false
          else do
            let x ← equal eq F c.l d.l
            if !x then pure false
            else do
              let y ← equal eq F c.r d.r
              if !y then pure false else pure true : Prog α D Bool).ReadsAtMost v ((l.nodes + l'.nodes) + ((r.nodes + r'.nodes) + 0)) := by
      intro e
      split
      · trivial
      refine (ih dl dl').bind ?_
      intro x
      split
      · trivial
      refine (ih dr dr').bind ?_
      intro y
      split <;> trivial
    dsimp only
    split
    · refine ReadsAtMost.bind (n := 0) ?_ hk
      cases eq c.data d.data <;> trivial
    · exact ReadsAtMost.bind (n := 0) (P := pure true) trivial hk

end

section
variable {α : Type} [LawfulGoWord α]

theorem reads_numAddresses {v : View (BitVec 32) Empty} : ∀ (F : Nat) {p : Ptr} {t : SetNode (BitVec 32)}, Den v p t →
    (numAddresses F p).ReadsAtMost v t.nodes := by
  intro F
  induction F with
  | zero => intros; trivial
  | succ F ih =>
    intro p t d
    cases d with
    | nil => trivial
    | @node a c l r ha dl dr =>
      have e : Trie.nodes (.node c.pfx c.data c.size c.h c.active l r) = (l.nodes + (r.nodes + 0)) + 1 := by
        simp only [Trie.nodes]; omega
      rw [e]
      unfold numAddresses
      refine ReadsAtMost.deref ha ?_
      split
      · trivial
      · exact (ih dl).bind fun x => (ih dr).bind fun y => trivial

theorem reads_isEmpty {v : View α Empty} : ∀ (F : Nat) {p : Ptr} {t : SetNode α}, Den v p t →
    (isEmpty F p).ReadsAtMost v t.nodes := by
  intro F
  induction F with
  | zero => intros; trivial
  | succ F ih =>
    intro p t d
    cases d with
    | nil => trivial
    | @node a c l r ha dl dr =>
      have e : Trie.nodes (.node c.pfx c.data c.size c.h c.active l r) = (l.nodes + r.nodes) + 1 := by
        simp only [Trie.nodes]
      rw [e]
      unfold isEmpty
      refine ReadsAtMost.deref ha ?_
      split
      · trivial
      · refine (ih dl).bind fun x => ?_
        split
        · trivial
        · exact ih dr

theorem reads_best {v : View α Empty} {l r : SProg α (Option (Prefix α))} {len n m : Nat} (hl : l.ReadsAtMost v n)
    (hr : r.ReadsAtMost v m) : (best l r len).ReadsAtMost v (n + m) := by
  unfold best
  refine hl.bind fun lp => ?_
  split
  · split
    · trivial
    · refine hr.bind (m := 0) fun rp => ?_
      split
      · split <;> trivial
      · trivial
  · refine (hr.bind (m := 0) fun rp => ?_)
    split <;> trivial

theorem reads_findSmallest (len : Nat) {v : View α Empty} : ∀ (F : Nat) {p : Ptr} {t : SetNode α}, Den v p t →
    (findSmallest len F p).ReadsAtMost v t.nodes := by
  intro F
  induction F with
  | zero => intros; trivial
  | succ F ih =>
    intro p t d
    cases d with
    | nil => trivial
    | @node a c l r ha dl dr =>
      have e : Trie.nodes (.node c.pfx c.data c.size c.h c.active l r) = (l.nodes + r.nodes + 0) + 1 := by
        simp only [Trie.nodes]
      rw [e]
      unfold findSmallest
      refine ReadsAtMost.deref ha ?_
      split
      · trivial
      split
      · trivial
      refine (reads_best (ih dl) (ih dr)).bind (m := 0) fun b => ?_
      split
      · trivial
      · split <;> trivial

end
end Heap
end Addrs

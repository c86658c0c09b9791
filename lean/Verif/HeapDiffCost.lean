import Verif.HeapShare
import Verif.HeapDiff
import Verif.Cost
/-
  How many nodes `Diff` reads.
-/
set_option linter.unusedSectionVars false
namespace Addrs
open GoWord LawfulGoWord

namespace Prog
variable {α D β γ : Type}

/-- On memory that agrees with `v`, the program only reads, and at most `n` times. -/
def ReadsAtMost (v : View α D) : Prog α D β → Nat → Prop
  | ret _, _ => True
  | panic, _ => True
  | stuck, _ => True
  | read p k, n => 1 ≤ n ∧ ∃ c, v p = some c ∧ (k c).ReadsAtMost v (n - 1)
  | alloc _ _, _ | write _ _ _, _ | load _ _, _ | cas _ _ _ _, _ | newObj _ _, _ => False

theorem ReadsAtMost.weaken {v : View α D} {P : Prog α D β} : ∀ {n m : Nat}, P.ReadsAtMost v n → n ≤ m →
    P.ReadsAtMost v m := by
  induction P with
  | ret b => intros; trivial
  | panic => intros; trivial
  | stuck => intros; trivial
  | read p k ih =>
    rintro n m ⟨h1, c, h2, h3⟩ hm
    exact ⟨by omega, c, h2, ih c h3 (by omega)⟩
  | _ => intro n m h; exact h.elim

theorem ReadsAtMost.bind {v : View α D} {P : Prog α D β} {f : β → Prog α D γ} : ∀ {n m : Nat}, P.ReadsAtMost v n →
    (∀ x, (f x).ReadsAtMost v m) → (P >>= f).ReadsAtMost v (n + m) := by
  show ∀ {n m : Nat}, P.ReadsAtMost v n → (∀ x, (f x).ReadsAtMost v m) → (P.bind f).ReadsAtMost v (n + m)
  induction P with
  | ret b => intro n m _ hf; exact (hf b).weaken (by omega)
  | panic => intros; trivial
  | stuck => intros; trivial
  | read p k ih =>
    rintro n m ⟨h1, c, h2, h3⟩ hf
    refine ⟨by omega, c, h2, (ih c h3 hf).weaken (by omega)⟩
  | _ => intro n m h; exact h.elim

theorem ReadsAtMost.deref {v : View α D} {a : Nat} {c : Cell α D} (h : v a = some c) {f : Cell α D → Prog α D γ}
    {n : Nat} (hf : (f c).ReadsAtMost v n) : (Prog.deref (some a) >>= f).ReadsAtMost v (n + 1) :=
  ⟨by omega, c, h, hf⟩

end Prog

section
variable {α D : Type} [LawfulGoWord α]

/-- one of the keys lies in `p` -/
def Touched (K : List (Prefix α)) (p : Prefix α) : Prop := ∃ k ∈ K, SubEq p k

open Classical in
/-- how many nodes have a prefix in which one of the keys lies -/
noncomputable def Trie.touched (K : List (Prefix α)) : Trie α D → Nat
  | .nil => 0
  | .node p _ _ _ _ l r => (if Touched K p then 1 else 0) + l.touched K + r.touched K

open Classical in
/-- the nodes in which one key lies are on one path -/
theorem Trie.touched_one {t : Trie α D} (ht : t.TInv) (k : Prefix α) : t.touched [k] ≤ t.deep := by
  have key : ∀ {t : Trie α D}, t.TInv → ∀ {p : Prefix α} {b : Bool}, Trie.Inside p b t → ∀ {k}, ¬ Sub p k b →
      t.touched [k] = 0 := by
    intro t ht
    induction ht with
    | empty => intros; rfl
    | mk q d act l r wf il ir hl hr two ihl ihr =>
      intro p b hi k hk
      have h1 : ¬ SubEq q k := fun h => hk (Sub.trans_subEq hi h)
      have hl' : l.touched [k] = 0 := ihl il fun h => h1 h.subEq
      have hr' : r.touched [k] = 0 := ihr ir fun h => h1 h.subEq
      simp [Trie.mk, Trie.touched, Touched, h1, hl', hr']
  induction ht with
  | empty => exact Nat.le_refl _
  | mk q d act l r wf il ir hl hr two ihl ihr =>
    simp only [Trie.mk, Trie.touched, Trie.deep]
    have h1 : (if Touched [k] q then 1 else 0) ≤ 1 := by split <;> omega
    by_cases h : Sub q k false
    · have : r.touched [k] = 0 := key hr ir fun h' => by
        have := h.side.symm.trans h'.side; cases this
      omega
    · have : l.touched [k] = 0 := key hl il h
      omega

open Classical in
theorem Trie.touched_cons (k : Prefix α) (K : List (Prefix α)) (t : Trie α D) :
    t.touched (k :: K) ≤ t.touched [k] + t.touched K := by
  induction t with
  | nil => simp [Trie.touched]
  | node p d n h a l r ihl ihr =>
    simp only [Trie.touched]
    have : (if Touched (k :: K) p then 1 else 0) ≤ (if Touched [k] p then 1 else 0) + (if Touched K p then 1 else 0) := by
      split
      · next h =>
        obtain ⟨k', h1, h2⟩ := h
        rcases List.mem_cons.mp h1 with rfl | h1
        · rw [if_pos ⟨k', by simp, h2⟩]; omega
        · rw [if_pos (c := Touched K p) ⟨k', h1, h2⟩]; omega
      · omega
    omega

theorem Trie.touched_le {t : Trie α D} (ht : t.TInv) (K : List (Prefix α)) : t.touched K ≤ K.length * t.deep := by
  induction K with
  | nil =>
    have : t.touched ([] : List (Prefix α)) = 0 := by
      clear ht
      induction t with
      | nil => rfl
      | node p d n h a l r ihl ihr => simp [Trie.touched, ihl, ihr, Touched]
    omega
  | cons k K ih =>
    have := Trie.touched_cons k K t
    have := Trie.touched_one ht k
    rw [List.length_cons, Nat.succ_mul]; omega

/-- All nodes whose prefixes contain none of the keys are common to both trees. -/
def SharesAll (v : View α D) (K : List (Prefix α)) (p q : Ptr) : Prop :=
  ∀ n c, v n = some c → ¬ Touched K c.pfx → (In v p n ↔ In v q n)

theorem SharesAll.refl (v : View α D) (K : List (Prefix α)) (p : Ptr) : SharesAll v K p p := fun _ _ _ _ => Iff.rfl
theorem SharesAll.symm {v : View α D} {K : List (Prefix α)} {p q : Ptr} (h : SharesAll v K p q) : SharesAll v K q p :=
  fun n c hn hk => (h n c hn hk).symm
theorem SharesAll.trans {v : View α D} {K : List (Prefix α)} {p q r : Ptr} (h : SharesAll v K p q)
    (h' : SharesAll v K q r) : SharesAll v K p r :=
  fun n c hn hk => (h n c hn hk).trans (h' n c hn hk)
theorem Shares.all {v : View α D} {K : List (Prefix α)} {k : Prefix α} (hk : k ∈ K) {p q : Ptr} (h : Shares v k p q) :
    SharesAll v K p q := fun n c hn ht => h n c hn fun hs => ht ⟨k, hk, hs⟩

/-- where the nodes of a tree are -/
theorem in_sub {v : View α D} {p : Ptr} {t : Trie α D} (d : Den v p t) (ht : t.TInv) {n : Nat} (hn : In v p n)
    {c : Cell α D} (hc : v n = some c) : ∀ {a : Nat} {e : Cell α D}, p = some a → v a = some e → SubEq e.pfx c.pfx := by
  induction d with
  | nil => exact (in_none hn).elim
  | @node a0 e0 l r h dl dr ihl ihr =>
    intro a e hp he
    cases hp
    rw [h] at he; cases he
    obtain ⟨_, il, ir, hl, hr, _⟩ := ht.inv
    rcases (in_some h).mp hn with rfl | hi | hi
    · rw [h] at hc; cases hc; exact SubEq.refl _
    · cases l with
      | nil => rw [dl.nil_iff.mpr rfl] at hi; exact (in_none hi).elim
      | node =>
        obtain ⟨b, _, _, hp, hb, _⟩ := dl.node_inv
        exact (Sub.subEq il).trans (ihl hl hi hp hb)
    · cases r with
      | nil => rw [dr.nil_iff.mpr rfl] at hi; exact (in_none hi).elim
      | node =>
        obtain ⟨b, _, _, hp, hb, _⟩ := dr.node_inv
        exact (Sub.subEq ir).trans (ihr hr hi hp hb)

theorem in_side {v : View α D} {p : Ptr} {t : Trie α D} (d : Den v p t) (ht : t.TInv) {q : Prefix α} {b : Bool}
    (hi : Trie.Inside q b t) {n : Nat} (hn : In v p n) {c : Cell α D} (hc : v n = some c) : Sub q c.pfx b := by
  cases d with
  | nil => exact (in_none hn).elim
  | @node a e _ _ h _ _ => exact Sub.trans_subEq hi (in_sub (.node h ‹_› ‹_›) ht hn hc rfl h)

namespace Heap
open Prog
variable [GoType D]

theorem reads_andThen {σ : Type} {v : View α D} {x : Prog α D (σ × Bool)} {k : σ → Prog α D (σ × Bool)} {n m : Nat}
    (hx : x.ReadsAtMost v n) (hk : ∀ s, (k s).ReadsAtMost v m) : (andThen x k).ReadsAtMost v (n + m) := by
  unfold andThen
  refine hx.bind fun y => ?_
  cases y.2
  · exact trivial
  · exact hk _

/-- the callbacks read nothing -/
structure Handler.Quiet {σ : Type} (h : Handler α D σ) : Prop where
  removed : ∀ v c s, (h.removed c s).ReadsAtMost v 0
  added : ∀ v c s, (h.added c s).ReadsAtMost v 0
  modified : ∀ v c d s, (h.modified c d s).ReadsAtMost v 0

open Classical in
/-- one of the trees is empty -/
theorem reads_diff_nil {σ : Type} {h : Handler α D σ} (hq : h.Quiet) {v : View α D} {K : List (Prefix α)} :
    ∀ (F : Nat) {p : Ptr} {t : Trie α D}, Den v p t → SharesAll v K p none → ∀ s,
      (diff h F p none s).ReadsAtMost v (t.touched K) ∧ (diff h F none p s).ReadsAtMost v (t.touched K) := by
  intro F
  induction F with
  | zero => intros; exact ⟨trivial, trivial⟩
  | succ F ih =>
    intro p t d hs s
    cases d with
    | nil => constructor <;> (unfold diff; split <;> exact trivial)
    | @node a c l r ha dl dr =>
      have hbad : Touched K c.pfx := Classical.byContradiction fun hn => in_none ((hs a c ha hn).mp (.root ha))
      have hl : SharesAll v K c.l none := fun n e hn hk =>
        ⟨fun hi => (hs n e hn hk).mp (.left ha hi), fun hi => (in_none hi).elim⟩
      have hr : SharesAll v K c.r none := fun n e hn hk =>
        ⟨fun hi => (hs n e hn hk).mp (.right ha hi), fun hi => (in_none hi).elim⟩
      have e : Trie.touched K (.node c.pfx c.data c.size c.h c.active l r) = (0 + (l.touched K + r.touched K)) + 1 := by
        simp only [Trie.touched, if_pos hbad]; omega
      rw [e]
      constructor
      · unfold diff
        simp only [reduceCtorEq, decide_false, Bool.false_and, Bool.false_eq_true, if_false]
        exact ReadsAtMost.deref ha (reads_andThen (hq.removed _ _ _) fun s =>
          reads_andThen (ih dl hl s).1 fun s => (ih dr hr s).1)
      · unfold diff
        simp only [reduceCtorEq, decide_false, Bool.false_and, Bool.false_eq_true, if_false]
        exact ReadsAtMost.deref ha (reads_andThen (hq.added _ _ _) fun s =>
          reads_andThen (ih dl hl s).2 fun s => (ih dr hr s).2)

open Classical in
/-- `Diff` without an `unchanged` callback reads only nodes that contain one of the keys, each at most twice. -/
theorem reads_diff {σ : Type} {h : Handler α D σ} (hq : h.Quiet) (hn : h.sameNil = true) {v : View α D}
    {K : List (Prefix α)} : ∀ (F : Nat) {p q : Ptr} {t u : Trie α D}, Den v p t → Den v q u → t.TInv → u.TInv →
      SharesAll v K p q → ∀ s, (diff h F p q s).ReadsAtMost v (2 * (t.touched K + u.touched K)) := by
  intro F
  induction F with
  | zero => intros; exact trivial
  | succ F ih =>
    intro p q t u dt du it iu hs s
    by_cases hpq : p = q
    · subst hpq
      unfold diff
      simp only [hn, decide_true, Bool.and_self, if_true]
      exact trivial
    cases dt with
    | nil =>
      exact ((reads_diff_nil hq (F + 1) du hs.symm s).2).weaken (by omega)
    | @node a c l r ha dl dr =>
      cases du with
      | nil => exact ((reads_diff_nil hq (F + 1) (.node ha dl dr) hs s).1).weaken (by omega)
      | @node b d l' r' hb dl' dr' =>
        have hab : a ≠ b := fun e => hpq (by rw [e])
        have DA : Den v (some a) _ := .node ha dl dr
        have DB : Den v (some b) _ := .node hb dl' dr'
        obtain ⟨wf, il, ir, hl, hr, _⟩ := it.inv
        obtain ⟨wf', il', ir', hl', hr', _⟩ := iu.inv
        have sA : ∀ {n e}, In v (some a) n → v n = some e → SubEq c.pfx e.pfx := fun hi he => in_sub DA it hi he rfl ha
        have sB : ∀ {n e}, In v (some b) n → v n = some e → SubEq d.pfx e.pfx := fun hi he => in_sub DB iu hi he rfl hb
        have sl : ∀ {n e}, In v c.l n → v n = some e → Sub c.pfx e.pfx false := fun hi he => in_side dl hl il hi he
        have sr : ∀ {n e}, In v c.r n → v n = some e → Sub c.pfx e.pfx true := fun hi he => in_side dr hr ir hi he
        have sl' : ∀ {n e}, In v d.l n → v n = some e → Sub d.pfx e.pfx false := fun hi he => in_side dl' hl' il' hi he
        have sr' : ∀ {n e}, In v d.r n → v n = some e → Sub d.pfx e.pfx true := fun hi he => in_side dr' hr' ir' hi he
        have badA : ¬ SubEq d.pfx c.pfx → Touched K c.pfx := fun hsub => Classical.byContradiction fun hk =>
          hsub (sB ((hs a c ha hk).mp (.root ha)) ha)
        have badB : ¬ SubEq c.pfx d.pfx → Touched K d.pfx := fun hsub => Classical.byContradiction fun hk =>
          hsub (sA ((hs b d hb hk).mpr (.root hb)) hb)
        have nside : ∀ {x y : Prefix α}, Sub x y false → Sub x y true → False := fun h1 h2 => by
          have := h1.side.symm.trans h2.side; cases this
        have hne : (decide (some a = some b) && h.sameNil) = false := by simp [hab]
        unfold diff
        rw [hne]
        simp only [Bool.false_eq_true, if_false]
        have eA : Trie.touched K (.node c.pfx c.data c.size c.h c.active l r) =
            (if Touched K c.pfx then 1 else 0) + l.touched K + r.touched K := rfl
        have eB : Trie.touched K (.node d.pfx d.data d.size d.h d.active l' r') =
            (if Touched K d.pfx then 1 else 0) + l'.touched K + r'.touched K := rfl
        rcases compareP_cases wf wf' with ⟨hk, hc⟩ | ⟨x, hk, hc⟩ | ⟨x, hk, hc⟩ | ⟨m, rev, x, g1, g2, g3, g4, _, _, hc⟩
        · -- the same prefix
          have bA : Touched K c.pfx := Classical.byContradiction fun hg => by
            rcases (in_some hb).mp ((hs a c ha hg).mp (.root ha)) with hi | hi | hi
            · exact hab hi
            · exact (sl' hi ha).not_sameKey' hk
            · exact (sr' hi ha).not_sameKey' hk
          have bB : Touched K d.pfx := by
            obtain ⟨k, h1, h2⟩ := bA
            exact ⟨k, h1, hk.symm.subEq.trans h2⟩
          have share : ∀ {n e}, v n = some e → ¬ Touched K e.pfx →
              ((In v c.l n ∨ In v c.r n) ↔ (In v d.l n ∨ In v d.r n)) := by
            intro n e he hg
            have := hs n e he hg
            rw [in_some ha, in_some hb] at this
            have na : n ≠ a := by rintro rfl; rw [ha] at he; cases he; exact hg bA
            have nb : n ≠ b := by rintro rfl; rw [hb] at he; cases he; exact hg bB
            simpa [na, nb] using this
          have shl : SharesAll v K c.l d.l := by
            intro n e he hg
            constructor
            · intro hi
              rcases (share he hg).mp (Or.inl hi) with h1 | h1
              · exact h1
              · exact (nside ((sl hi he).congr_left hk) (sr' h1 he)).elim
            · intro hi
              rcases (share he hg).mpr (Or.inl hi) with h1 | h1
              · exact h1
              · exact (nside (sl' hi he) ((sr h1 he).congr_left hk)).elim
          have shr : SharesAll v K c.r d.r := by
            intro n e he hg
            constructor
            · intro hi
              rcases (share he hg).mp (Or.inr hi) with h1 | h1
              · exact (nside (sl' h1 he) ((sr hi he).congr_left hk)).elim
              · exact h1
            · intro hi
              rcases (share he hg).mpr (Or.inr hi) with h1 | h1
              · exact (nside ((sl h1 he).congr_left hk) (sr' hi he)).elim
              · exact h1
          refine (ReadsAtMost.deref ha (ReadsAtMost.deref hb (n := 0 + (2 * (l.touched K + l'.touched K) +
            2 * (r.touched K + r'.touched K))) ?_)).weaken (by rw [eA, eB, if_pos bA, if_pos bB]; omega)
          rw [hc]
          exact reads_andThen (hq.modified _ _ _ _) fun s => reads_andThen (ih dl dl' hl hl' shl s) fun s =>
            ih dr dr' hr hr' shr s
        · -- the left prefix contains the right one
          have bA : Touched K c.pfx := badA fun h => absurd hk.lt (by have := h.1; omega)
          have nb : ∀ {n e}, v n = some e → ¬ Touched K e.pfx → (In v (some b) n ↔ In v c.l n ∨ In v c.r n) := by
            intro n e he hg
            have := hs n e he hg
            rw [in_some ha] at this
            have na : n ≠ a := by rintro rfl; rw [ha] at he; cases he; exact hg bA
            simpa [na] using this.symm
          have hB : ∀ {n e}, In v (some b) n → v n = some e → Sub c.pfx e.pfx x := fun hi he => hk.trans_subEq (sB hi he)
          cases x with
          | false =>
            have shl : SharesAll v K c.l (some b) := by
              intro n e he hg
              rw [nb he hg]
              exact ⟨Or.inl, fun h1 => h1.resolve_right fun h2 => nside (hB ((nb he hg).mpr (Or.inr h2)) he) (sr h2 he)⟩
            have shr : SharesAll v K c.r none := by
              intro n e he hg
              exact ⟨fun h2 => (nside (hB ((nb he hg).mpr (Or.inr h2)) he) (sr h2 he)).elim, fun h2 => (in_none h2).elim⟩
            refine (ReadsAtMost.deref ha (ReadsAtMost.deref hb (n := 0 + (2 * (l.touched K + Trie.touched K (.node d.pfx d.data d.size d.h d.active l' r')) +
              r.touched K)) ?_)).weaken (by rw [eA, if_pos bA]; omega)
            rw [hc]
            exact reads_andThen (hq.removed _ _ _) fun s => reads_andThen (ih dl DB hl iu shl s) fun s =>
              (reads_diff_nil hq F dr shr s).1
          | true =>
            have shr : SharesAll v K c.r (some b) := by
              intro n e he hg
              rw [nb he hg]
              exact ⟨Or.inr, fun h1 => h1.resolve_left fun h2 => nside (sl h2 he) (hB ((nb he hg).mpr (Or.inl h2)) he)⟩
            have shl : SharesAll v K c.l none := by
              intro n e he hg
              exact ⟨fun h2 => (nside (sl h2 he) (hB ((nb he hg).mpr (Or.inl h2)) he)).elim, fun h2 => (in_none h2).elim⟩
            refine (ReadsAtMost.deref ha (ReadsAtMost.deref hb (n := 0 + (l.touched K + 
              2 * (r.touched K + Trie.touched K (.node d.pfx d.data d.size d.h d.active l' r')))) ?_)).weaken (by rw [eA, if_pos bA]; omega)
            rw [hc]
            exact reads_andThen (hq.removed _ _ _) fun s => reads_andThen (reads_diff_nil hq F dl shl s).1 fun s =>
              ih dr DB hr iu shr s
        · -- the right prefix contains the left one
          have bB : Touched K d.pfx := badB fun h => absurd hk.lt (by have := h.1; omega)
          have na : ∀ {n e}, v n = some e → ¬ Touched K e.pfx → (In v (some a) n ↔ In v d.l n ∨ In v d.r n) := by
            intro n e he hg
            have := hs n e he hg
            rw [in_some hb] at this
            have nb : n ≠ b := by rintro rfl; rw [hb] at he; cases he; exact hg bB
            simpa [nb] using this
          have hA : ∀ {n e}, In v (some a) n → v n = some e → Sub d.pfx e.pfx x := fun hi he => hk.trans_subEq (sA hi he)
          cases x with
          | false =>
            have shl : SharesAll v K (some a) d.l := by
              intro n e he hg
              rw [na he hg]
              exact ⟨fun h1 => h1.resolve_right fun h2 => nside (hA ((na he hg).mpr (Or.inr h2)) he) (sr' h2 he), Or.inl⟩
            have shr : SharesAll v K d.r none := by
              intro n e he hg
              exact ⟨fun h2 => (nside (hA ((na he hg).mpr (Or.inr h2)) he) (sr' h2 he)).elim, fun h2 => (in_none h2).elim⟩
            refine (ReadsAtMost.deref ha (ReadsAtMost.deref hb (n := 0 + (2 * (Trie.touched K (.node c.pfx c.data c.size c.h c.active l r) + l'.touched K) +
              r'.touched K)) ?_)).weaken (by rw [eB, if_pos bB]; omega)
            rw [hc]
            exact reads_andThen (hq.added _ _ _) fun s => reads_andThen (ih DA dl' it hl' shl s) fun s =>
              (reads_diff_nil hq F dr' shr s).2
          | true =>
            have shr : SharesAll v K (some a) d.r := by
              intro n e he hg
              rw [na he hg]
              exact ⟨fun h1 => h1.resolve_left fun h2 => nside (sl' h2 he) (hA ((na he hg).mpr (Or.inl h2)) he), Or.inr⟩
            have shl : SharesAll v K d.l none := by
              intro n e he hg
              exact ⟨fun h2 => (nside (sl' h2 he) (hA ((na he hg).mpr (Or.inl h2)) he)).elim, fun h2 => (in_none h2).elim⟩
            refine (ReadsAtMost.deref ha (ReadsAtMost.deref hb (n := 0 + (l'.touched K +
              2 * (Trie.touched K (.node c.pfx c.data c.size c.h c.active l r) + r'.touched K))) ?_)).weaken (by rw [eB, if_pos bB]; omega)
            rw [hc]
            exact reads_andThen (hq.added _ _ _) fun s => reads_andThen (reads_diff_nil hq F dl' shl s).2 fun s =>
              ih DA dr' it hr' shr s
        · -- disjoint prefixes
          have ex : ∀ {e : Prefix α}, SubEq c.pfx e → SubEq d.pfx e → False := fun h1 h2 =>
            g4 ((h1.2 m g1).trans (h2.2 m g2).symm)
          have bA : Touched K c.pfx := badA fun h => ex (SubEq.refl _) h
          have bB : Touched K d.pfx := badB fun h => ex h (SubEq.refl _)
          have sa : SharesAll v K (some a) none := fun n e he hg =>
            ⟨fun hi => (ex (sA hi he) (sB ((hs n e he hg).mp hi) he)).elim, fun hi => (in_none hi).elim⟩
          have sb : SharesAll v K (some b) none := fun n e he hg =>
            ⟨fun hi => (ex (sA ((hs n e he hg).mpr hi) he) (sB hi he)).elim, fun hi => (in_none hi).elim⟩
          refine (ReadsAtMost.deref ha (ReadsAtMost.deref hb (n := Trie.touched K (.node c.pfx c.data c.size c.h c.active l r) +
            Trie.touched K (.node d.pfx d.data d.size d.h d.active l' r')) ?_)).weaken (by rw [eA, eB, if_pos bA, if_pos bB]; omega)
          rw [hc]
          cases x with
          | true => exact reads_andThen (reads_diff_nil hq F DA sa s).1 fun s => (reads_diff_nil hq F DB sb s).2
          | false =>
            rw [Nat.add_comm]
            exact reads_andThen (reads_diff_nil hq F DB sb s).2 fun s => (reads_diff_nil hq F DA sa s).1

end Heap
end
end Addrs

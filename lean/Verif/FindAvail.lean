import Verif.SetApiProofs
/-
  `FindSmallestContainingPrefix`.
-/
namespace Addrs
open GoWord LawfulGoWord

section
variable {α : Type} [LawfulGoWord α]

/-- `q` lies in the set of addresses `S` -/
def Inside (q : Prefix α) (S : α → Prop) : Prop := ∀ x, Covers q x → S x

/-- `q` is a maximal prefix inside `S` -/
def MaxIn (q : Prefix α) (S : α → Prop) : Prop :=
  Inside q S ∧ ∀ P : Prefix α, P.len < q.len → Agree P.len P.addr q.addr → ¬ Inside P S

/-- `R` is a smallest maximal prefix of `S` with room for a prefix of length `n` -/
def BestFit (n : Nat) (S : α → Prop) : Option (Prefix α) → Prop
  | none => ∀ q : Prefix α, q.WF → q.len ≤ n → ¬ Inside q S
  | some p => p.WF ∧ p.len ≤ n ∧ MaxIn p S ∧
      ∀ q : Prefix α, q.WF → q.len ≤ n → MaxIn q S → q.len ≤ p.len

/-- every prefix inside `S` is inside a maximal one -/
theorem exists_maxIn {S : α → Prop} {q : Prefix α} (hq : q.WF) (h : Inside q S) :
    ∃ p : Prefix α, p.WF ∧ p.len ≤ q.len ∧ Agree p.len p.addr q.addr ∧ MaxIn p S := by
  obtain ⟨a, n⟩ := q
  induction n with
  | zero => exact ⟨⟨a, 0⟩, Nat.zero_le _, Nat.le_refl _, Agree.refl _ _, h, fun P hP => absurd hP (Nat.not_lt_zero _)⟩
  | succ n ih =>
    by_cases hn : Inside ⟨a, n⟩ S
    · have hq' : n + 1 ≤ width α := hq
      obtain ⟨p, h1, h2, h3, h4⟩ := ih (Nat.le_of_succ_le hq') hn
      exact ⟨p, h1, Nat.le_succ_of_le h2, h3, h4⟩
    · refine ⟨⟨a, n + 1⟩, hq, Nat.le_refl _, Agree.refl _ _, h, fun P hP hA hI => hn ?_⟩
      have hP' : P.len ≤ n := Nat.le_of_lt_succ hP
      intro x hx
      exact hI x (Agree.trans hA (Agree.mono hx hP'))

/-- combining the two sides of a prefix that is not wholly inside -/
theorem BestFit.best {n : Nat} {p : Prefix α} {S S1 S2 : α → Prop} {b : Bool} {R1 R2 : Option (Prefix α)}
    (h1 : BestFit n S1 R1) (h2 : BestFit n S2 R2)
    (hS : ∀ x, S x ↔ S1 x ∨ S2 x)
    (s1 : ∀ x, S1 x → Covers p x ∧ bit x p.len = b) (s2 : ∀ x, S2 x → Covers p x ∧ bit x p.len = !b)
    (hp : ¬ Inside p S) : BestFit n S (SetNode.best R1 R2 n) := by
  -- anything inside S is longer than p, hence on one side
  have hlong : ∀ q, Inside q S → p.len < q.len := by
    intro q hq
    apply Nat.lt_of_not_le
    intro hle
    apply hp
    have hc : Covers p q.addr := by
      rcases (hS _).mp (hq _ (Covers.self q)) with h | h
      · exact (s1 _ h).1
      · exact (s2 _ h).1
    intro x hx
    exact hq x ((Agree.mono hc hle).symm.trans (Agree.mono hx hle))
  have hside : ∀ q : Prefix α, p.len < q.len → ∀ x, Covers q x → bit x p.len = bit q.addr p.len :=
    fun q hq x hx => (hx _ hq).symm
  have hin : ∀ q, Inside q S ↔ Inside q S1 ∨ Inside q S2 := by
    intro q
    constructor
    · intro hq
      have hl := hlong q hq
      by_cases hb : bit q.addr p.len = b
      · left; intro x hx
        rcases (hS x).mp (hq x hx) with h | h
        · exact h
        · have e := (s2 x h).2
          rw [hside q hl x hx, hb] at e; cases b <;> cases e
      · right; intro x hx
        rcases (hS x).mp (hq x hx) with h | h
        · have e := (s1 x h).2
          rw [hside q hl x hx] at e; exact absurd e hb
        · exact h
    · rintro (h | h) x hx
      · exact (hS x).mpr (.inl (h x hx))
      · exact (hS x).mpr (.inr (h x hx))
  have hnb : ∀ q, Inside q S1 → ¬ Inside q S2 := by
    intro q i1 i2
    have e1 := (s1 _ (i1 _ (Covers.self q))).2
    have e2 := (s2 _ (i2 _ (Covers.self q))).2
    rw [e1] at e2; cases b <;> cases e2
  have hmax : ∀ q, MaxIn q S ↔ MaxIn q S1 ∨ MaxIn q S2 := by
    intro q
    constructor
    · rintro ⟨i, m⟩
      rcases (hin q).mp i with i | i
      · exact .inl ⟨i, fun P a1 a2 a3 => m P a1 a2 ((hin P).mpr (.inl a3))⟩
      · exact .inr ⟨i, fun P a1 a2 a3 => m P a1 a2 ((hin P).mpr (.inr a3))⟩
    · rintro (⟨i, m⟩ | ⟨i, m⟩)
      · refine ⟨(hin q).mpr (.inl i), fun P a1 a2 a3 => ?_⟩
        rcases (hin P).mp a3 with a3 | a3
        · exact m P a1 a2 a3
        · exact hnb q i fun x hx => a3 x (Agree.trans a2 (Agree.mono hx (Nat.le_of_lt a1)))
      · refine ⟨(hin q).mpr (.inr i), fun P a1 a2 a3 => ?_⟩
        rcases (hin P).mp a3 with a3 | a3
        · exact hnb q (fun x hx => a3 x (Agree.trans a2 (Agree.mono hx (Nat.le_of_lt a1)))) i
        · exact m P a1 a2 a3
  cases R1 with
  | none =>
    cases R2 with
    | none =>
      intro q hq hl hi
      rcases (hin q).mp hi with i | i
      · exact h1 q hq hl i
      · exact h2 q hq hl i
    | some r =>
      obtain ⟨w, l, m, bst⟩ := h2
      refine ⟨w, l, (hmax r).mpr (.inr m), fun q hq hl hm => ?_⟩
      rcases (hmax q).mp hm with i | i
      · exact absurd i.1 (h1 q hq hl)
      · exact bst q hq hl i
  | some lp =>
    obtain ⟨w, l, m, bst⟩ := h1
    simp only [SetNode.best]
    split
    · rename_i he
      exact ⟨w, l, (hmax lp).mpr (.inl m), fun q hq hl hm => by omega⟩
    · cases R2 with
      | none =>
        refine ⟨w, l, (hmax lp).mpr (.inl m), fun q hq hl hm => ?_⟩
        rcases (hmax q).mp hm with i | i
        · exact bst q hq hl i
        · exact absurd i.1 (h2 q hq hl)
      | some rp =>
        obtain ⟨w', l', m', bst'⟩ := h2
        simp only
        split
        · rename_i hlt
          refine ⟨w', l', (hmax rp).mpr (.inr m'), fun q hq hl hm => ?_⟩
          rcases (hmax q).mp hm with i | i
          · have := bst q hq hl i; omega
          · exact bst' q hq hl i
        · rename_i hlt
          refine ⟨w, l, (hmax lp).mpr (.inl m), fun q hq hl hm => ?_⟩
          rcases (hmax q).mp hm with i | i
          · exact bst q hq hl i
          · have := bst' q hq hl i; omega

theorem BestFit.congr {n : Nat} {S S' : α → Prop} (h : ∀ x, S x ↔ S' x) {R : Option (Prefix α)}
    (hb : BestFit n S R) : BestFit n S' R := by
  have : S = S' := funext fun x => propext (h x)
  rw [← this]; exact hb

/-- nothing inside `S` is short enough -/
theorem BestFit.of_short {n : Nat} {p : Prefix α} {S : α → Prop} (hp : p.WF) (h : ∀ x, S x → Covers p x)
    (hn : n < p.len) : BestFit n S none := by
  intro q _ hl hi
  have := (covers_le hp fun x hx => h x (hi x hx)).1
  omega

theorem BestFit.of_empty {n : Nat} {S : α → Prop} (h : ∀ x, ¬ S x) : BestFit n S none :=
  fun q _ _ hi => h _ (hi _ (Covers.self q))

/-- a whole prefix -/
theorem BestFit.of_whole {n : Nat} {p : Prefix α} {S : α → Prop} (hp : p.WF) (hn : p.len ≤ n)
    (h : ∀ x, S x ↔ Covers p x) : BestFit n S (some p) := by
  refine ⟨hp, hn, ⟨fun x hx => (h x).mpr hx, fun P hl ha hi => ?_⟩, fun q hq hl hm => ?_⟩
  · obtain ⟨x, h1, h2⟩ := exists_outside hl hp ha
    exact h2 ((h x).mp (hi x h1))
  · apply Nat.le_of_not_lt
    intro hlt
    have hle := covers_le hp fun x hx => (h x).mp (hm.1 x hx)
    exact hm.2 p hlt hle.2 fun x hx => (h x).mpr hx

namespace SetNode
open Trie

theorem findSmallest_spec {t : SetNode α} (hi : Inv t) (n : Nat) :
    BestFit n (Mem t) (findSmallest n t) := by
  induction hi with
  | nil => exact .of_empty fun x h => h
  | leaf p hp =>
    have hS : ∀ x, Mem (fromPrefix p) x ↔ Covers p x := fun x => mem_fromPrefix
    simp only [findSmallest, fromPrefix]
    by_cases h1 : n < p.len
    · simp only [h1, if_true]
      exact .of_short hp (fun x hx => (hS x).mp hx) h1
    · simp only [h1, if_false]
      by_cases h2 : n = p.len
      · simp only [h2, and_self, if_true]; exact .of_whole hp (Nat.le_refl _) hS
      · simp only [h2, false_and, if_false, best, Bool.not_true, Bool.false_eq_true]
        exact .of_whole hp (by omega) hS
  | inner p l r hz ul ur hl hr nm ihl ihr =>
    have hi : Inv (mk p none false l r) := .inner p l r hz ul ur hl hr nm
    rw [Trie.mk, findSmallest]
    by_cases h1 : n < p.len
    · simp only [h1, if_true]
      exact .of_short hi.wf (fun x hx => hi.covers rfl hx) h1
    · simp only [h1, if_false, Bool.false_eq_true, and_false, Bool.not_false, if_true]
      have hb : BestFit n (Mem (mk p none false l r : SetNode α)) (best (findSmallest n l) (findSmallest n r) n) :=
        BestFit.best (p := p) (b := false) ihl ihr (fun x => mem_mk)
          (fun x hx => hl.within_mem ul.within hx) (fun x hx => hr.within_mem ur.within hx)
          (fun hin => by
            obtain ⟨x, h1, h2⟩ := hi.inner_not_full
            exact h2 (hin x h1))
      cases hc : best (findSmallest n l) (findSmallest n r) n with
      | none => rw [hc] at hb; exact hb
      | some b => rw [hc] at hb; exact hb

theorem findSmallestReserved_spec (n : Nat) : ∀ (a b : SetNode α), Inv a → Inv b →
    BestFit n (fun x => Mem a x ∧ ¬ Mem b x) (findSmallestReserved n a b)
  | .nil, b, _, _ => by
    rw [findSmallestReserved]
    exact .of_empty fun x h => h.1
  | .node p d n0 m act l r, .nil, ha, _ => by
    have hcov : ∀ x, Mem (.node p d n0 m act l r : SetNode α) x → Covers p x := fun x h => ha.covers rfl h
    rw [findSmallestReserved]
    by_cases h1 : n < p.len
    · simp only [h1, if_true]
      exact .of_short ha.wf (fun x hx => hcov x hx.1) h1
    · simp only [h1, if_false]
      exact (findSmallest_spec ha n).congr fun x => by simp [Mem]
  | .node p d n0 m act l r, .node q e n' m' act' l' r', ha, hb => by
    have hcov : ∀ x, Mem (.node p d n0 m act l r : SetNode α) x → Covers p x := fun x h => ha.covers rfl h
    have hcovb : ∀ x, Mem (.node q e n' m' act' l' r' : SetNode α) x → Covers q x := fun x h => hb.covers rfl h
    have wa := ha.wf
    have wb := hb.wf
    rw [findSmallestReserved]
    by_cases h1 : n < p.len
    · simp only [h1, if_true]
      exact .of_short ha.wf (fun x hx => hcov x hx.1) h1
    · simp only [h1, if_false]
      -- splitting an inner node
      have hinner : ∀ {R1 R2 : Option (Prefix α)}, act = false →
          BestFit n (fun x => Mem l x ∧ ¬ Mem (.node q e n' m' act' l' r' : SetNode α) x) R1 →
          BestFit n (fun x => Mem r x ∧ ¬ Mem (.node q e n' m' act' l' r' : SetNode α) x) R2 →
          BestFit n (fun x => Mem (.node p d n0 m act l r : SetNode α) x ∧
            ¬ Mem (.node q e n' m' act' l' r' : SetNode α) x) (best R1 R2 n) := by
        rintro R1 R2 rfl b1 b2
        obtain ⟨ea, hz, ul, ur, il, ir, nm⟩ := ha.inactive
        refine BestFit.best (p := p) (b := false) b1 b2 (fun x => ?_)
          (fun x hx => il.within_mem ul.within hx.1) (fun x hx => ir.within_mem ur.within hx.1)
          (fun hin => ?_)
        · rw [ea, mem_mk, or_and_right]
        · rw [ea] at ha hin
          obtain ⟨x, y1, y2⟩ := ha.inner_not_full
          exact y2 (hin x y1).1
      rcases compareP_cases wa wb with ⟨hk, he⟩ | ⟨c, hs, he⟩ | ⟨c, hs, he⟩ |
        ⟨k, rev, c, g1, g2, g3, g4, g5, g6, he⟩
      · -- same
        simp only [he]
        cases act with
        | false =>
          obtain ⟨ea, hz, ul, ur, il, ir, nm⟩ := ha.inactive
          simp only [Bool.not_false, if_true]
          exact hinner rfl (findSmallestReserved_spec n l (.node q e n' m' act' l' r') il hb)
            (findSmallestReserved_spec n r (.node q e n' m' act' l' r') ir hb)
        | true =>
          obtain ⟨ea, _⟩ := ha.active
          cases act' with
          | true =>
            obtain ⟨eb, _⟩ := hb.active
            simp only [Bool.not_true, Bool.false_eq_true, if_false, if_true]
            apply BestFit.of_empty
            rintro x ⟨y1, y2⟩
            rw [eb, mem_fromPrefix] at y2
            exact y2 (hk.covers.mp (hcov x y1))
          | false =>
            obtain ⟨eb, hz, ul, ur, il, ir, nm⟩ := hb.inactive
            have hlt : p.len < width α := by
              cases l' with
              | nil => exact ul.elim
              | node => rw [hk.1]; exact Nat.lt_of_lt_of_le ul.lt il.wf
            obtain ⟨g1, g2, g3, g4⟩ := halves_sub hlt
            have i1 : Inv (fromPrefix p.halves.1) := .leaf _ (by rw [Prefix.WF, g3]; omega)
            have i2 : Inv (fromPrefix p.halves.2) := .leaf _ (by rw [Prefix.WF, g4]; omega)
            simp only [Bool.not_true, Bool.false_eq_true, if_false, hlt, if_true]
            have b1 := findSmallestReserved_spec n _ l' i1 il
            have b2 := findSmallestReserved_spec n _ r' i2 ir
            refine BestFit.best (p := p) (b := false) b1 b2 (fun x => ?_)
              (fun x hx => g1.covers (mem_fromPrefix.mp hx.1))
              (fun x hx => g2.covers (mem_fromPrefix.mp hx.1)) (fun hin => ?_)
            · rw [ea, eb, mem_mk, mem_fromPrefix, mem_fromPrefix, mem_fromPrefix,
                ← covers_halves g1 g2 g3 g4]
              have k1 : Mem l' x → ¬ Covers p.halves.2 x := fun h h' => by
                have a1 := (il.within_mem ul.within h).2
                have a2 := (g2.covers h').2
                rw [← hk.1, a2] at a1; cases a1
              have k2 : Mem r' x → ¬ Covers p.halves.1 x := fun h h' => by
                have a1 := (ir.within_mem ur.within h).2
                have a2 := (g1.covers h').2
                rw [← hk.1, a2] at a1; cases a1
              constructor
              · rintro ⟨x1 | x1, x2⟩
                · exact .inl ⟨x1, fun h => x2 (.inl h)⟩
                · exact .inr ⟨x1, fun h => x2 (.inr h)⟩
              · rintro (⟨x1, x2⟩ | ⟨x1, x2⟩)
                · exact ⟨.inl x1, fun h => h.elim x2 (fun h => k2 h x1)⟩
                · exact ⟨.inr x1, fun h => h.elim (fun h => k1 h x1) x2⟩
            · obtain ⟨y, hy⟩ := hb.exists_mem (by simp)
              exact (hin y (hk.covers.mpr (hcovb y hy))).2 hy
      · -- contains
        simp only [he]
        cases act with
        | false =>
          obtain ⟨ea, hz, ul, ur, il, ir, nm⟩ := ha.inactive
          simp only [Bool.not_false, if_true]
          exact hinner rfl (findSmallestReserved_spec n l (.node q e n' m' act' l' r') il hb)
            (findSmallestReserved_spec n r (.node q e n' m' act' l' r') ir hb)
        | true =>
          obtain ⟨ea, _⟩ := ha.active
          have hlt : p.len < width α := Nat.lt_of_lt_of_le hs.lt wb
          obtain ⟨g1, g2, g3, g4⟩ := halves_sub hlt
          have i1 : Inv (fromPrefix p.halves.1) := .leaf _ (by rw [Prefix.WF, g3]; omega)
          have i2 : Inv (fromPrefix p.halves.2) := .leaf _ (by rw [Prefix.WF, g4]; omega)
          have hnf : ¬ Inside p (fun x => Mem (.node p d n0 m true l r : SetNode α) x ∧
              ¬ Mem (.node q e n' m' act' l' r' : SetNode α) x) := by
            intro hin
            obtain ⟨y, hy⟩ := hb.exists_mem (by simp)
            exact (hin y (hs.covers (hcovb y hy)).1).2 hy
          cases c with
          | true =>
            simp only [Bool.not_true, Bool.false_eq_true, if_false, hlt, dite_true, if_true]
            have b1 := findSmallest_spec i1 n
            have b2 := findSmallestReserved_spec n _ (.node q e n' m' act' l' r') i2 hb
            refine BestFit.best (p := p) (b := false) b1 b2 (fun x => ?_)
              (fun x hx => g1.covers (mem_fromPrefix.mp hx))
              (fun x hx => g2.covers (mem_fromPrefix.mp hx.1)) hnf
            rw [ea, mem_fromPrefix, mem_fromPrefix, mem_fromPrefix, ← covers_halves g1 g2 g3 g4]
            have k2 : Covers p.halves.1 x → ¬ Mem (.node q e n' m' act' l' r' : SetNode α) x :=
              fun h' h => by
              have a1 := (hs.covers (hcovb x h)).2
              have a2 := (g1.covers h').2
              rw [a2] at a1; cases a1
            constructor
            · rintro ⟨x1 | x1, x2⟩
              · exact .inl x1
              · exact .inr ⟨x1, x2⟩
            · rintro (x1 | ⟨x1, x2⟩)
              · exact ⟨.inl x1, k2 x1⟩
              · exact ⟨.inr x1, x2⟩
          | false =>
            simp only [Bool.not_true, Bool.false_eq_true, if_false, hlt, dite_true]
            have b1 := findSmallest_spec i2 n
            have b2 := findSmallestReserved_spec n _ (.node q e n' m' act' l' r') i1 hb
            refine BestFit.best (p := p) (b := true) b1 b2 (fun x => ?_)
              (fun x hx => g2.covers (mem_fromPrefix.mp hx))
              (fun x hx => g1.covers (mem_fromPrefix.mp hx.1)) hnf
            rw [ea, mem_fromPrefix, mem_fromPrefix, mem_fromPrefix, ← covers_halves g1 g2 g3 g4]
            have k2 : Covers p.halves.2 x → ¬ Mem (.node q e n' m' act' l' r' : SetNode α) x :=
              fun h' h => by
              have a1 := (hs.covers (hcovb x h)).2
              have a2 := (g2.covers h').2
              rw [a2] at a1; cases a1
            constructor
            · rintro ⟨x1 | x1, x2⟩
              · exact .inr ⟨x1, x2⟩
              · exact .inl x1
            · rintro (x1 | ⟨x1, x2⟩)
              · exact ⟨.inr x1, k2 x1⟩
              · exact ⟨.inl x1, x2⟩
      · -- isContained
        simp only [he]
        cases act' with
        | true =>
          obtain ⟨eb, _⟩ := hb.active
          simp only [if_true]
          apply BestFit.of_empty
          rintro x ⟨y1, y2⟩
          rw [eb, mem_fromPrefix] at y2
          exact y2 (hs.covers (hcov x y1)).1
        | false =>
          obtain ⟨eb, hz, ul, ur, il, ir, nm⟩ := hb.inactive
          simp only [Bool.false_eq_true, if_false]
          cases c with
          | true =>
            simp only [if_true]
            refine (findSmallestReserved_spec n (.node p d n0 m act l r) r' ha ir).congr fun x => ?_
            rw [eb, mem_mk]
            constructor
            · rintro ⟨y1, y2⟩
              refine ⟨y1, fun h => h.elim (fun h => ?_) y2⟩
              have a1 := (il.within_mem ul.within h).2
              have a2 := (hs.covers (hcov x y1)).2
              rw [a2] at a1; cases a1
            · exact fun ⟨y1, y2⟩ => ⟨y1, fun h => y2 (.inr h)⟩
          | false =>
            simp only [Bool.false_eq_true, if_false]
            refine (findSmallestReserved_spec n (.node p d n0 m act l r) l' ha il).congr fun x => ?_
            rw [eb, mem_mk]
            constructor
            · rintro ⟨y1, y2⟩
              refine ⟨y1, fun h => h.elim y2 (fun h => ?_)⟩
              have a1 := (ir.within_mem ur.within h).2
              have a2 := (hs.covers (hcov x y1)).2
              rw [a2] at a1; cases a1
            · exact fun ⟨y1, y2⟩ => ⟨y1, fun h => y2 (.inl h)⟩
      · -- disjoint
        simp only [he]
        refine (findSmallest_spec ha n).congr fun x => ⟨fun h => ⟨h, fun h' => g4 ?_⟩, fun h => h.1⟩
        rw [hcov x h k g1, hcovb x h' k g2]
termination_by a b =>
  (b.nodes, a.nodes, match a with | .nil => 0 | .node p .. => width α - p.len)
decreasing_by
  all_goals first
    | (apply Prod.Lex.left; simp only [nodes]; omega)
    | (apply Prod.Lex.right; apply Prod.Lex.left; simp only [nodes]; omega)
    | skip
  all_goals
    apply Prod.Lex.right
    simp only [nodes, fromPrefix, g3, g4]
    by_cases hz : l.nodes + r.nodes = 0
    · rw [hz]; apply Prod.Lex.right; omega
    · apply Prod.Lex.left; omega

end SetNode
end
end Addrs

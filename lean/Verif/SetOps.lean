import Verif.SetInv
/-
  Correctness of difference, intersection, `setNodeFromRange` on set tries.
-/
namespace Addrs
open GoWord LawfulGoWord

section
variable {α : Type} [LawfulGoWord α]

/-- the halves of a prefix that is not full-length -/
theorem halves_sub {p : Prefix α} (hp : p.len < width α) :
    Sub p p.halves.1 false ∧ Sub p p.halves.2 true ∧
      p.halves.1.len = p.len + 1 ∧ p.halves.2.len = p.len + 1 := by
  have hw : p.WF := Nat.le_of_lt hp
  have hb : ∀ i, bit (shr (top : α) p.len) i = decide (i = p.len) := by
    intro i
    by_cases hi : i < width α
    · rw [bit_shr _ _ hi, bit_top]
      by_cases h : i = p.len
      · simp [h]
      · by_cases h' : p.len ≤ i
        · have : ¬ i - p.len = 0 := by omega
          simp [h, this]
        · simp [h, h']
    · rw [bit_ge (by omega)]
      have : ¬ i = p.len := by omega
      simp [this]
  simp only [Prefix.halves, hp, if_true]
  refine ⟨⟨Nat.lt_succ_self _, (agree_network hw).symm, ?_⟩, ⟨Nat.lt_succ_self _, ?_, ?_⟩, trivial, trivial⟩
  · simp [bit_network hw]
  · intro i hi
    have : ¬ i = p.len := by omega
    simp [bit_network hw, hb, hi, this]
  · simp [hb]

namespace SetNode
open Trie

/-- What difference must do. -/
structure DiffSpec (a b c : SetNode α) : Prop where
  inv : Inv c
  mem : ∀ x, Mem c x ↔ Mem a x ∧ ¬ Mem b x
  within : ∀ p s, Within p s a → Within p s c

theorem difference_nil_left (b : SetNode α) : difference .nil b = .nil := by
  cases b <;> simp [difference]
theorem difference_nil_right (a : SetNode α) : difference a .nil = a := by
  cases a <;> simp [difference]

/-- union of two differences of two parts -/
theorem diff_union {a l r cl cr : SetNode α} {b : SetNode α}
    (hl : Inv cl) (hr : Inv cr)
    (hm : ∀ x, Mem cl x ∨ Mem cr x ↔ Mem a x ∧ ¬ Mem b x)
    (hw : ∀ P s, Within P s a → Within P s l ∧ Within P s r)
    (wl : ∀ P s, Within P s l → Within P s cl)
    (wr : ∀ P s, Within P s r → Within P s cr) : DiffSpec a b (union cl cr) := by
  have hu := union_spec hl hr
  refine ⟨hu.inv, fun x => (hu.mem x).trans (hm x), fun P s h => ?_⟩
  exact hu.within _ _ (wl _ _ (hw P s h).1) (wr _ _ (hw P s h).2)

theorem Within.child {p : Prefix α} {b : Bool} {P s d n m act l r} {t : SetNode α}
    (h : Within P s (.node p d n m act l r : SetNode α)) (u : Within p b t) : Within P s t := by
  cases t with
  | nil => trivial
  | node => exact Sub.trans h u

theorem difference_spec : ∀ (a b : SetNode α), Inv a → Inv b → DiffSpec a b (difference a b)
  | .nil, b, _, hb => by
    rw [difference_nil_left]; exact ⟨.nil, fun x => by simp [Mem], fun _ _ h => h⟩
  | .node p d n m act l r, .nil, ha, _ => by
    rw [difference_nil_right]; exact ⟨ha, fun x => by simp [Mem], fun _ _ h => h⟩
  | .node p d n m act l r, .node q e n' m' act' l' r', ha, hb => by
    rw [difference]
    have wa := ha.wf
    have wb := hb.wf
    rcases compareP_cases wa wb with ⟨hk, he⟩ | ⟨c, hs, he⟩ | ⟨c, hs, he⟩ |
      ⟨k, rev, c, h1, h2, h3, h4, h5, h6, he⟩
    · -- same
      simp only [he]
      cases act with
      | false =>
        obtain ⟨ea, hz, ul, ur, il, ir, nm⟩ := ha.inactive
        have sl := difference_spec l (.node q e n' m' act' l' r') il hb
        have sr := difference_spec r (.node q e n' m' act' l' r') ir hb
        refine diff_union (l := l) (r := r) sl.inv sr.inv ?_ ?_ sl.within sr.within
        · intro x
          rw [ea, sl.mem, sr.mem, mem_mk, or_and_right]
        · exact fun P s h => ⟨h.child ul.within, h.child ur.within⟩
      | true =>
        obtain ⟨ea, _⟩ := ha.active
        cases act' with
        | true =>
          obtain ⟨eb, _⟩ := hb.active
          simp only [Bool.not_true, Bool.false_eq_true, if_false, if_true]
          refine ⟨.nil, fun x => ?_, fun _ _ _ => trivial⟩
          rw [ea, eb, mem_fromPrefix, mem_fromPrefix, hk.covers]
          simp [Mem]
        | false =>
          obtain ⟨eb, hz, ul, ur, il, ir, nm⟩ := hb.inactive
          have hlt : p.len < width α := by
            cases l' with
            | nil => exact ul.elim
            | node => rw [hk.1]; exact Nat.lt_of_lt_of_le ul.lt il.wf
          simp only [Bool.not_true, Bool.false_eq_true, if_false, hlt, if_true]
          obtain ⟨g1, g2, g3, g4⟩ := halves_sub hlt
          have i1 : Inv (fromPrefix p.halves.1) := .leaf _ (by rw [Prefix.WF, g3]; omega)
          have i2 : Inv (fromPrefix p.halves.2) := .leaf _ (by rw [Prefix.WF, g4]; omega)
          have sl := difference_spec _ l' i1 il
          have sr := difference_spec _ r' i2 ir
          refine diff_union (l := fromPrefix p.halves.1) (r := fromPrefix p.halves.2)
            sl.inv sr.inv ?_ ?_ sl.within sr.within
          · intro x
            rw [ea, eb, sl.mem, sr.mem, mem_mk, mem_fromPrefix, mem_fromPrefix, mem_fromPrefix,
              ← covers_halves g1 g2 g3 g4]
            have k1 : Mem l' x → ¬ Covers p.halves.2 x := fun h h' => by
              have a1 := (il.within_mem ul.within h).2
              have a2 := (g2.covers h').2
              rw [← hk.1, a2] at a1; cases a1
            have k2 : Mem r' x → ¬ Covers p.halves.1 x := fun h h' => by
              have a1 := (ir.within_mem ur.within h).2
              have a2 := (g1.covers h').2
              rw [← hk.1, a2] at a1; cases a1
            constructor
            · rintro (⟨x1, x2⟩ | ⟨x1, x2⟩)
              · exact ⟨.inl x1, fun h => h.elim x2 (fun h => k2 h x1)⟩
              · exact ⟨.inr x1, fun h => h.elim (fun h => k1 h x1) x2⟩
            · rintro ⟨x1 | x1, x2⟩
              · exact .inl ⟨x1, fun h => x2 (.inl h)⟩
              · exact .inr ⟨x1, fun h => x2 (.inr h)⟩
          · exact fun P s h => ⟨h.child (t := fromPrefix _) g1, h.child (t := fromPrefix _) g2⟩
    · -- contains
      simp only [he]
      cases act with
      | false =>
        obtain ⟨ea, hz, ul, ur, il, ir, nm⟩ := ha.inactive
        have sl := difference_spec l (.node q e n' m' act' l' r') il hb
        have sr := difference_spec r (.node q e n' m' act' l' r') ir hb
        refine diff_union (l := l) (r := r) sl.inv sr.inv ?_ ?_ sl.within sr.within
        · intro x
          rw [ea, sl.mem, sr.mem, mem_mk, or_and_right]
        · exact fun P s h => ⟨h.child ul.within, h.child ur.within⟩
      | true =>
        obtain ⟨ea, _⟩ := ha.active
        have hlt : p.len < width α := Nat.lt_of_lt_of_le hs.lt wb
        obtain ⟨g1, g2, g3, g4⟩ := halves_sub hlt
        have i1 : Inv (fromPrefix p.halves.1) := .leaf _ (by rw [Prefix.WF, g3]; omega)
        have i2 : Inv (fromPrefix p.halves.2) := .leaf _ (by rw [Prefix.WF, g4]; omega)
        cases c with
        | true =>
          simp only [Bool.not_true, Bool.false_eq_true, if_false, hlt, dite_true, if_true]
          have sr := difference_spec _ (.node q e n' m' act' l' r') i2 hb
          refine diff_union (l := fromPrefix p.halves.1) (r := fromPrefix p.halves.2)
            i1 sr.inv ?_ ?_ (fun _ _ h => h) sr.within
          · intro x
            rw [sr.mem, mem_fromPrefix, mem_fromPrefix, ea, mem_fromPrefix,
              ← covers_halves g1 g2 g3 g4]
            have k2 : Covers p.halves.1 x → ¬ Mem (.node q e n' m' act' l' r' : SetNode α) x :=
              fun h' h => by
              have a1 := (hs.covers (hb.covers rfl h)).2
              have a2 := (g1.covers h').2
              rw [a2] at a1; cases a1
            constructor
            · rintro (x1 | ⟨x1, x2⟩)
              · exact ⟨.inl x1, k2 x1⟩
              · exact ⟨.inr x1, x2⟩
            · rintro ⟨x1 | x1, x2⟩
              · exact .inl x1
              · exact .inr ⟨x1, x2⟩
          · exact fun P s h => ⟨h.child (t := fromPrefix _) g1, h.child (t := fromPrefix _) g2⟩
        | false =>
          simp only [Bool.not_true, Bool.false_eq_true, if_false, hlt, dite_true]
          have sr := difference_spec _ (.node q e n' m' act' l' r') i1 hb
          refine diff_union (l := fromPrefix p.halves.2) (r := fromPrefix p.halves.1)
            i2 sr.inv ?_ ?_ (fun _ _ h => h) sr.within
          · intro x
            rw [sr.mem, mem_fromPrefix, mem_fromPrefix, ea, mem_fromPrefix,
              ← covers_halves g1 g2 g3 g4]
            have k2 : Covers p.halves.2 x → ¬ Mem (.node q e n' m' act' l' r' : SetNode α) x :=
              fun h' h => by
              have a1 := (hs.covers (hb.covers rfl h)).2
              have a2 := (g2.covers h').2
              rw [a2] at a1; cases a1
            constructor
            · rintro (x1 | ⟨x1, x2⟩)
              · exact ⟨.inr x1, k2 x1⟩
              · exact ⟨.inl x1, x2⟩
            · rintro ⟨x1 | x1, x2⟩
              · exact .inr ⟨x1, x2⟩
              · exact .inl x1
          · exact fun P s h => ⟨h.child (t := fromPrefix _) g2, h.child (t := fromPrefix _) g1⟩
    · -- isContained
      simp only [he]
      cases act' with
      | true =>
        obtain ⟨eb, _⟩ := hb.active
        simp only [if_true]
        refine ⟨.nil, fun x => ?_, fun _ _ _ => trivial⟩
        constructor
        · exact fun h => h.elim
        · rintro ⟨h1, h2⟩
          exfalso; apply h2
          rw [eb, mem_fromPrefix]; exact (hs.covers (ha.covers rfl h1)).1
      | false =>
        obtain ⟨eb, hz, ul, ur, il, ir, nm⟩ := hb.inactive
        simp only [Bool.false_eq_true, if_false]
        cases c with
        | true =>
          simp only [if_true]
          have sr := difference_spec (.node p d n m act l r) r' ha ir
          refine ⟨sr.inv, fun x => ?_, sr.within⟩
          rw [sr.mem, eb, mem_mk]
          constructor
          · rintro ⟨h1, h2⟩
            refine ⟨h1, fun h => h.elim (fun h => ?_) h2⟩
            have a1 := (il.within_mem ul.within h).2
            have a2 := (hs.covers (ha.covers rfl h1)).2
            rw [a2] at a1; cases a1
          · exact fun ⟨h1, h2⟩ => ⟨h1, fun h => h2 (.inr h)⟩
        | false =>
          simp only [Bool.false_eq_true, if_false]
          have sr := difference_spec (.node p d n m act l r) l' ha il
          refine ⟨sr.inv, fun x => ?_, sr.within⟩
          rw [sr.mem, eb, mem_mk]
          constructor
          · rintro ⟨h1, h2⟩
            refine ⟨h1, fun h => h.elim h2 (fun h => ?_)⟩
            have a1 := (ir.within_mem ur.within h).2
            have a2 := (hs.covers (ha.covers rfl h1)).2
            rw [a2] at a1; cases a1
          · exact fun ⟨h1, h2⟩ => ⟨h1, fun h => h2 (.inl h)⟩
    · -- disjoint
      simp only [he]
      refine ⟨ha, fun x => ?_, fun _ _ h => h⟩
      constructor
      · intro h
        refine ⟨h, fun h' => h4 ?_⟩
        rw [ha.covers rfl h k h1, hb.covers rfl h' k h2]
      · exact fun h => h.1
termination_by a b =>
  (b.nodes, a.nodes, match a with | .nil => 0 | .node p .. => width α - p.len)
decreasing_by
  all_goals first
    | (apply Prod.Lex.left; simp only [nodes]; omega)
    | (apply Prod.Lex.right; apply Prod.Lex.left; simp only [nodes]; omega)
    | skip
  all_goals
    apply Prod.Lex.right
    simp only [nodes, fromPrefix, g3, g4]
    by_cases hz : l.nodes + r.nodes = 0
    · rw [hz]; apply Prod.Lex.right; omega
    · apply Prod.Lex.left; omega

/-- What intersection must do. -/
structure InterSpec (a b c : SetNode α) : Prop where
  inv : Inv c
  mem : ∀ x, Mem c x ↔ Mem a x ∧ Mem b x

theorem intersect_spec : ∀ (a b : SetNode α), Inv a → Inv b → InterSpec a b (intersect a b)
  | .nil, b, _, hb => by
    have : intersect .nil b = .nil := by cases b <;> simp [intersect]
    rw [this]; exact ⟨.nil, fun x => by simp [Mem]⟩
  | .node p d n m act l r, .nil, ha, _ => by
    have : intersect (.node p d n m act l r) .nil = .nil := by simp [intersect]
    rw [this]; exact ⟨.nil, fun x => by simp [Mem]⟩
  | .node p d n m act l r, .node q e n' m' act' l' r', ha, hb => by
    have wa := ha.wf
    have wb := hb.wf
    rcases compareP_cases wa wb with ⟨hk, he⟩ | ⟨c, hs, he⟩ | ⟨c, hs, he⟩ |
      ⟨k, rev, c, h1, h2, h3, h4, h5, h6, he⟩
    case inr.inr.inr =>
      rw [intersect]; simp only [he]
      refine ⟨.nil, fun x => ?_⟩
      constructor
      · exact fun h => h.elim
      · rintro ⟨h, h'⟩
        exfalso; apply h4
        rw [ha.covers rfl h k h1, hb.covers rfl h' k h2]
    all_goals
      rw [intersect]; simp only [he]
      cases act with
      | false =>
        obtain ⟨ea, hz, ul, ur, il, ir, nm⟩ := ha.inactive
        simp only [Bool.not_false, if_true]
        have sl := intersect_spec (.node q e n' m' act' l' r') l hb il
        have sr := intersect_spec (.node q e n' m' act' l' r') r hb ir
        have hu := union_spec sl.inv sr.inv
        refine ⟨hu.inv, fun x => ?_⟩
        rw [hu.mem, sl.mem, sr.mem, ea, mem_mk, ← and_or_left, and_comm]
      | true =>
        obtain ⟨ea, _⟩ := ha.active
        cases act' with
        | false =>
          obtain ⟨eb, hz, ul, ur, il, ir, nm⟩ := hb.inactive
          simp only [Bool.not_false, Bool.not_true, Bool.false_eq_true, if_false, if_true]
          have sl := intersect_spec (.node p d n m true l r) l' ha il
          have sr := intersect_spec (.node p d n m true l r) r' ha ir
          have hu := union_spec sl.inv sr.inv
          refine ⟨hu.inv, fun x => ?_⟩
          rw [hu.mem, sl.mem, sr.mem, eb, mem_mk, ← and_or_left]
        | true =>
          obtain ⟨eb, _⟩ := hb.active
          simp only [Bool.not_true, Bool.false_eq_true, if_false, if_true]
          first
          | (refine ⟨hb, fun x => ⟨fun h => ⟨?_, h⟩, fun h => h.2⟩⟩
             rw [ea, mem_fromPrefix]
             first
             | exact hk.covers.mpr (hb.covers rfl h)
             | exact (hs.covers (hb.covers rfl h)).1)
          | (refine ⟨ha, fun x => ⟨fun h => ⟨h, ?_⟩, fun h => h.1⟩⟩
             rw [eb, mem_fromPrefix]
             exact (hs.covers (ha.covers rfl h)).1)
termination_by a b => a.nodes + b.nodes
decreasing_by all_goals simp only [nodes]; omega

/-- a trie is empty iff it is nil -/
theorem Inv.isEmpty_iff {t : SetNode α} (h : Inv t) : isEmpty t = true ↔ ∀ x, ¬ Mem t x := by
  induction h with
  | nil => simp [isEmpty, Mem]
  | leaf p hp =>
    constructor
    · intro h; simp [isEmpty, fromPrefix] at h
    · intro h; exact absurd (mem_fromPrefix.mpr (Covers.self p)) (h p.addr)
  | inner p l r hz ul ur hl hr nm ihl ihr =>
    simp only [isEmpty, Trie.mk, Bool.false_eq_true, if_false, Bool.and_eq_true, ihl, ihr]
    constructor
    · rintro ⟨h1, h2⟩ x hx
      rcases mem_mk.mp hx with h | h
      · exact h1 x h
      · exact h2 x h
    · intro h
      exact ⟨fun x hx => h x (mem_mk.mpr (.inl hx)), fun x hx => h x (mem_mk.mpr (.inr hx))⟩

end SetNode
end
end Addrs

import Verif.SetNode
/-
  The invariant of set tries and the correctness of union, difference and intersection.
-/
namespace Addrs
open GoWord LawfulGoWord

section
variable {α : Type} [LawfulGoWord α]

/-- the prefix of a node whose bits beyond `n` are zeroed: ipv4/setnode.go:172-177 -/
theorem bit_zeroed (a : α) (n : Nat) {i : Nat} (hi : i < width α) :
    bit (and a (compl (shr ones n))) i = (decide (i < n) && bit a i) := by
  rw [bit_and, bit_compl _ hi, bit_shr _ _ hi]
  by_cases h : n ≤ i
  · rw [bit_ones (by omega)]
    have : ¬ i < n := by omega
    simp [this]
  · have : i < n := by omega
    simp [this]

theorem zeroFrom_zeroed (a : α) (n : Nat) : ZeroFrom n (and a (compl (shr ones n))) := by
  intro i hi
  by_cases hw : i < width α
  · rw [bit_zeroed _ _ hw]
    have : ¬ i < n := by omega
    simp [this]
  · exact bit_ge (by omega)

theorem agree_zeroed (a : α) {n : Nat} (hn : n ≤ width α) :
    Agree n (and a (compl (shr ones n))) a := by
  intro i hi
  rw [bit_zeroed _ _ (by omega)]; simp [hi]

namespace SetNode
open Trie

/-- an address is in the set a trie stands for: it is covered by the prefix of an active node -/
def Mem : SetNode α → α → Prop
  | .nil, _ => False
  | .node p _ _ _ act l r, a => (act = true ∧ Covers p a) ∨ Mem l a ∨ Mem r a

/-- `t` is not nil and its root prefix lies strictly inside `p`, on side `b` -/
def Under (p : Prefix α) (b : Bool) : SetNode α → Prop
  | .nil => False
  | .node q _ _ _ _ _ _ => Sub p q b

/-- `t` is nil or `Under` -/
def Within (p : Prefix α) (b : Bool) : SetNode α → Prop
  | .nil => True
  | .node q _ _ _ _ _ _ => Sub p q b

/-- both children are active prefixes exactly one bit longer than the parent -/
def Mergeable (p : Prefix α) : SetNode α → SetNode α → Prop
  | .node q _ _ _ act _ _, .node q' _ _ _ act' _ _ =>
    act = true ∧ act' = true ∧ q.len = p.len + 1 ∧ q'.len = p.len + 1
  | _, _ => False

/-- The shape of every set trie: leaves are active, inner nodes are inactive, have two children on
    their own sides, zero host bits, and are never two halves that could be one prefix. -/
inductive Inv : SetNode α → Prop
  | nil : Inv .nil
  | leaf (p : Prefix α) (hp : p.WF) : Inv (fromPrefix p)
  | inner (p : Prefix α) (l r : SetNode α) (hz : ZeroFrom p.len p.addr)
      (ul : Under p false l) (ur : Under p true r) (hl : Inv l) (hr : Inv r)
      (nm : ¬ Mergeable p l r) : Inv (mk p none false l r)

theorem data_none (d : Option Empty) : d = none := by
  cases d with
  | none => rfl
  | some e => exact e.elim

theorem Under.within {p : Prefix α} {b : Bool} {t : SetNode α} (h : Under p b t) : Within p b t := by
  cases t <;> simp_all [Under, Within]
theorem Under.ne_nil {p : Prefix α} {b : Bool} {t : SetNode α} (h : Under p b t) : t ≠ .nil := by
  cases t <;> simp_all [Under]
theorem Within.under {p : Prefix α} {b : Bool} {t : SetNode α} (h : Within p b t) (hn : t ≠ .nil) :
    Under p b t := by
  cases t <;> simp_all [Under, Within]
theorem Within.nil {p : Prefix α} {b : Bool} : Within p b (.nil : SetNode α) := trivial

theorem Inv.wf {p : Prefix α} {d n h a l r} (hi : Inv (.node p d n h a l r : SetNode α)) : p.WF := by
  suffices H : ∀ t : SetNode α, Inv t → ∀ p d n h a l r, t = .node p d n h a l r → p.WF from
    H _ hi _ _ _ _ _ _ _ rfl
  intro t ht
  induction ht with
  | nil => intro _ _ _ _ _ _ _ e; cases e
  | leaf p hp => intro _ _ _ _ _ _ _ e; cases e; exact hp
  | inner p l r hz ul ur hl hr nm ihl ihr =>
    intro _ _ _ _ _ _ _ e; cases e
    cases l with
    | nil => exact ul.elim
    | node q _ _ _ _ _ _ =>
      have := ihl _ _ _ _ _ _ _ rfl
      exact Nat.le_trans (Nat.le_of_lt ul.lt) this

theorem mem_nil {a : α} : ¬ Mem (.nil : SetNode α) a := id
theorem mem_fromPrefix {p : Prefix α} {a : α} : Mem (fromPrefix p) a ↔ Covers p a := by
  simp [fromPrefix, Mem]
theorem mem_mk {p : Prefix α} {d l r} {a : α} :
    Mem (mk p d false l r : SetNode α) a ↔ Mem l a ∨ Mem r a := by
  simp [Trie.mk, Mem]

/-- everything in a trie is covered by its root prefix -/
theorem Inv.covers {t : SetNode α} (hi : Inv t) : ∀ {p d n h a l r}, t = .node p d n h a l r →
    ∀ {x}, Mem t x → Covers p x := by
  induction hi with
  | nil => intro _ _ _ _ _ _ _ e; cases e
  | leaf p hp => intro _ _ _ _ _ _ _ e x hx; cases e; exact mem_fromPrefix.mp hx
  | inner p l r hz ul ur hl hr nm ihl ihr =>
    intro _ _ _ _ _ _ _ e x hx; cases e
    rcases mem_mk.mp hx with hx | hx
    · cases l with
      | nil => exact ul.elim
      | node q _ _ _ _ _ _ => exact (Sub.covers ul (ihl rfl hx)).1
    · cases r with
      | nil => exact ur.elim
      | node q _ _ _ _ _ _ => exact (Sub.covers ur (ihr rfl hx)).1

theorem Inv.within_mem {t : SetNode α} (hi : Inv t) {p : Prefix α} {b : Bool} (hw : Within p b t)
    {x : α} (hx : Mem t x) : Covers p x ∧ bit x p.len = b := by
  cases t with
  | nil => exact hx.elim
  | node q _ _ _ _ _ _ => exact Sub.covers hw (hi.covers rfl hx)

/-- a non-nil trie is not empty -/
theorem Inv.exists_mem {t : SetNode α} (hi : Inv t) (hn : t ≠ .nil) : ∃ x, Mem t x := by
  induction hi with
  | nil => exact absurd rfl hn
  | leaf p hp => exact ⟨p.addr, mem_fromPrefix.mpr (Covers.self p)⟩
  | inner p l r hz ul ur hl hr nm ihl ihr =>
    obtain ⟨x, hx⟩ := ihl ul.ne_nil
    exact ⟨x, mem_mk.mpr (Or.inl hx)⟩

/-- an active node of a good trie is a leaf -/
theorem Inv.active {p : Prefix α} {d n h l r} (hi : Inv (.node p d n h true l r : SetNode α)) :
    (.node p d n h true l r : SetNode α) = fromPrefix p ∧ p.WF := by
  have hw := hi.wf
  generalize e : (.node p d n h true l r : SetNode α) = t at hi
  cases hi with
  | nil => cases e
  | leaf q hq => cases e; exact ⟨rfl, hw⟩
  | inner q l r => cases e

/-- an inactive node of a good trie -/
theorem Inv.inactive {p : Prefix α} {d n h l r} (hi : Inv (.node p d n h false l r : SetNode α)) :
    (.node p d n h false l r : SetNode α) = mk p none false l r ∧ ZeroFrom p.len p.addr ∧
      Under p false l ∧ Under p true r ∧ Inv l ∧ Inv r ∧ ¬ Mergeable p l r := by
  generalize e : (.node p d n h false l r : SetNode α) = t at hi
  cases hi with
  | nil => cases e
  | leaf q hq => cases e
  | inner q l r hz ul ur hl hr nm => cases e; exact ⟨rfl, hz, ul, ur, hl, hr, nm⟩

theorem mk_leaf (p : Prefix α) (d : Option Empty) : mk p d true .nil .nil = fromPrefix p := by
  rw [data_none d]; simp [Trie.mk, fromPrefix, numNodes, height]

/-- covering of the two halves -/
theorem covers_halves {p q q' : Prefix α} (h : Sub p q false) (h' : Sub p q' true)
    (hl : q.len = p.len + 1) (hl' : q'.len = p.len + 1) {x : α} :
    Covers q x ∨ Covers q' x ↔ Covers p x := by
  constructor
  · rintro (hx | hx)
    · exact (h.covers hx).1
    · exact (h'.covers hx).1
  · intro hx
    cases hb : bit x p.len with
    | false =>
      left; unfold Covers; rw [hl]
      exact (h.agree.symm.trans hx).succ (by rw [h.side, hb])
    | true =>
      right; unfold Covers; rw [hl']
      exact (h'.agree.symm.trans hx).succ (by rw [h'.side, hb])

theorem mkFlat_root {p : Prefix α} {l r : SetNode α} :
    ∃ n h a l' r', mkFlat p l r = .node p none n h a l' r' := by
  exact ⟨_, _, _, _, _, rfl⟩

theorem mkFlat_spec {p : Prefix α} {l r : SetNode α} (hz : ZeroFrom p.len p.addr)
    (ul : Under p false l) (ur : Under p true r) (hl : Inv l) (hr : Inv r) :
    Inv (mkFlat p l r) ∧ ∀ x, Mem (mkFlat p l r) x ↔ Mem l x ∨ Mem r x := by
  by_cases hm : Mergeable p l r
  · have hp : p.WF := by
      cases l with
      | nil => exact ul.elim
      | node q _ _ _ _ _ _ => exact Nat.le_trans (Nat.le_of_lt ul.lt) hl.wf
    cases l with
    | nil => exact ul.elim
    | node q d n h act ll lr =>
      cases r with
      | nil => exact ur.elim
      | node q' d' n' h' act' rl rr =>
        obtain ⟨rfl, rfl, e1, e2⟩ := hm
        have e : mkFlat p (.node q d n h true ll lr) (.node q' d' n' h' true rl rr : SetNode α)
            = fromPrefix p := by
          simp [mkFlat, flatten, e1, e2, mk_leaf]
        rw [e]
        refine ⟨.leaf p hp, fun x => ?_⟩
        rw [mem_fromPrefix, hl.active.1, hr.active.1, mem_fromPrefix, mem_fromPrefix]
        exact (covers_halves ul ur e1 e2).symm
  · have e : mkFlat p l r = mk p none false l r := by
      cases l with
      | nil => exact ul.elim
      | node q d n h act ll lr =>
        cases r with
        | nil => exact ur.elim
        | node q' d' n' h' act' rl rr =>
          simp only [Mergeable] at hm
          simp only [mkFlat, flatten]
          split
          · contradiction
          · split
            · rfl
            · split
              · rfl
              · split
                · rfl
                · rename_i h1 h2 h3
                  exfalso; apply hm
                  simp at h1 h2 h3
                  exact ⟨h3.1, h3.2, h2, by omega⟩
    rw [e]
    exact ⟨.inner p l r hz ul ur hl hr hm, fun x => mem_mk⟩

theorem union_nil_right (a : SetNode α) : union a .nil = a := by
  cases a <;> simp [union]
theorem union_nil_left (a : SetNode α) : union .nil a = a := by
  cases a <;> simp [union]

/-- What union must do. -/
structure UnionSpec (a b c : SetNode α) : Prop where
  inv : Inv c
  mem : ∀ x, Mem c x ↔ Mem a x ∨ Mem b x
  within : ∀ p s, Within p s a → Within p s b → Within p s c

theorem UnionSpec.ne_nil {a b c : SetNode α} (h : UnionSpec a b c) (ha : Inv a) (hn : a ≠ .nil) :
    c ≠ .nil := by
  obtain ⟨x, hx⟩ := ha.exists_mem hn
  intro e
  exact mem_nil (e ▸ (h.mem x).mpr (Or.inl hx))

/-- `mkFlat` on an inner node whose children are replaced by larger sets on the same sides -/
theorem mkFlat_union {p : Prefix α} {l r a b : SetNode α} (hz : ZeroFrom p.len p.addr)
    (ul : Under p false l) (ur : Under p true r) (hl : Inv l) (hr : Inv r)
    (hm : ∀ x, Mem l x ∨ Mem r x ↔ Mem a x ∨ Mem b x)
    (hw : ∀ P s, Within P s a → Within P s b → Sub P p s) :
    UnionSpec a b (mkFlat p l r) := by
  obtain ⟨h1, h2⟩ := mkFlat_spec hz ul ur hl hr
  refine ⟨h1, fun x => (h2 x).trans (hm x), fun P s wa wb => ?_⟩
  obtain ⟨n, h, act, l', r', e⟩ := mkFlat_root (p := p) (l := l) (r := r)
  rw [e]; exact hw P s wa wb

theorem union_spec {a b : SetNode α} (ha : Inv a) (hb : Inv b) : UnionSpec a b (union a b) := by
  generalize hN : a.nodes + b.nodes = N
  induction N using Nat.strongRecOn generalizing a b with
  | ind N ih =>
  cases a with
  | nil => rw [union_nil_left]; exact ⟨hb, fun x => by simp [Mem], fun p s _ h => h⟩
  | node p d n m act l r =>
  cases b with
  | nil => rw [union_nil_right]; exact ⟨ha, fun x => by simp [Mem], fun p s h _ => h⟩
  | node q e n' m' act' l' r' =>
  rw [union]
  have wa := ha.wf
  have wb := hb.wf
  rcases compareP_cases wa wb with ⟨hk, he⟩ | ⟨c, hs, he⟩ | ⟨c, hs, he⟩ | ⟨k, rev, c, h1, h2, h3, h4, h5, h6, he⟩
  · -- same
    simp only [he]
    cases act with
    | true =>
      simp only [if_true]
      obtain ⟨ea, _⟩ := ha.active
      refine ⟨ha, fun x => ?_, fun _ _ h _ => h⟩
      constructor
      · exact Or.inl
      · rintro (h | h)
        · exact h
        · rw [ea, mem_fromPrefix]; exact hk.covers.mpr (hb.covers rfl h)
    | false =>
      obtain ⟨ea, hz, ul, ur, il, ir, nm⟩ := ha.inactive
      simp only [Bool.false_eq_true, if_false]
      cases act' with
      | true =>
        simp only [if_true]
        obtain ⟨eb, _⟩ := hb.active
        refine ⟨hb, fun x => ?_, fun _ _ _ h => h⟩
        constructor
        · exact Or.inr
        · rintro (h | h)
          · rw [eb, mem_fromPrefix]; exact hk.covers.mp (ha.covers rfl h)
          · exact h
      | false =>
        obtain ⟨eb, hz', ul', ur', il', ir', nm'⟩ := hb.inactive
        simp only [Bool.false_eq_true, if_false]
        have sl := ih _ (by rw [← hN]; simp only [nodes]; omega) il il' rfl
        have sr := ih _ (by rw [← hN]; simp only [nodes]; omega) ir ir' rfl
        have cul' : Under p false l' := by
          cases l' with
          | nil => exact ul'.elim
          | node => exact Sub.congr_left ul' hk.symm
        have cur' : Under p true r' := by
          cases r' with
          | nil => exact ur'.elim
          | node => exact Sub.congr_left ur' hk.symm
        refine mkFlat_union hz ?_ ?_ sl.inv sr.inv ?_ ?_
        · exact (sl.within _ _ ul.within cul'.within).under (sl.ne_nil il ul.ne_nil)
        · exact (sr.within _ _ ur.within cur'.within).under (sr.ne_nil ir ur.ne_nil)
        · intro x
          rw [ea, eb, mem_mk, mem_mk, sl.mem, sr.mem]
          constructor
          · rintro ((h|h)|(h|h)) <;> simp [h]
          · rintro ((h|h)|(h|h)) <;> simp [h]
        · intro P s h _; exact h
  · -- contains: b inside a
    simp only [he]
    cases act with
    | true =>
      simp only [if_true, Bool.false_eq_true, if_false]
      obtain ⟨ea, _⟩ := ha.active
      refine ⟨ha, fun x => ?_, fun _ _ h _ => h⟩
      constructor
      · exact Or.inl
      · rintro (h | h)
        · exact h
        · rw [ea, mem_fromPrefix]; exact (hs.covers (hb.covers rfl h)).1
    | false =>
      obtain ⟨ea, hz, ul, ur, il, ir, nm⟩ := ha.inactive
      simp only [Bool.false_eq_true, if_false]
      cases c with
      | true =>
        simp only [if_true]
        have sr := ih _ (by rw [← hN]; simp only [nodes]; omega) ir hb rfl
        refine mkFlat_union hz ul ?_ il sr.inv ?_ ?_
        · exact (sr.within _ _ ur.within hs).under (sr.ne_nil ir ur.ne_nil)
        · intro x; rw [ea, mem_mk, sr.mem, or_assoc]
        · intro P s h _; exact h
      | false =>
        simp only [Bool.false_eq_true, if_false]
        have sl := ih _ (by rw [← hN]; simp only [nodes]; omega) il hb rfl
        refine mkFlat_union hz ?_ ur sl.inv ir ?_ ?_
        · exact (sl.within _ _ ul.within hs).under (sl.ne_nil il ul.ne_nil)
        · intro x; rw [ea, mem_mk, sl.mem, or_assoc, or_assoc, or_comm (a := Mem _ x) (b := Mem r x)]
        · intro P s h _; exact h
  · -- isContained: a inside b
    simp only [he, if_true]
    cases act' with
    | true =>
      simp only [if_true]
      obtain ⟨eb, _⟩ := hb.active
      refine ⟨hb, fun x => ?_, fun _ _ _ h => h⟩
      constructor
      · exact Or.inr
      · rintro (h | h)
        · rw [eb, mem_fromPrefix]; exact (hs.covers (ha.covers rfl h)).1
        · exact h
    | false =>
      obtain ⟨eb, hz, ul, ur, il, ir, nm⟩ := hb.inactive
      simp only [Bool.false_eq_true, if_false]
      cases c with
      | true =>
        simp only [if_true]
        have sr := ih _ (by rw [← hN]; simp only [nodes]; omega) ir ha rfl
        refine mkFlat_union hz ul ?_ il sr.inv ?_ ?_
        · exact (sr.within _ _ ur.within hs).under (sr.ne_nil ir ur.ne_nil)
        · intro x; rw [eb, mem_mk, sr.mem, ← or_assoc, or_comm]
        · intro P s _ h; exact h
      | false =>
        simp only [Bool.false_eq_true, if_false]
        have sl := ih _ (by rw [← hN]; simp only [nodes]; omega) il ha rfl
        refine mkFlat_union hz ?_ ur sl.inv ir ?_ ?_
        · exact (sl.within _ _ ul.within hs).under (sl.ne_nil il ul.ne_nil)
        · intro x; rw [eb, mem_mk, sl.mem]
          constructor
          · rintro ((h|h)|h) <;> simp [h]
          · rintro (h|(h|h)) <;> simp [h]
        · intro P s _ h; exact h
  · -- disjoint
    simp only [he]
    have hkw : k ≤ width α := Nat.le_trans (Nat.le_of_lt h1) wa
    have hsw : ∀ P s, Within P s (.node p d n m act l r : SetNode α) →
        Within P s (.node q e n' m' act' l' r' : SetNode α) →
        Sub P ⟨and p.addr (compl (shr ones k)), k⟩ s := by
      intro P s ha hb
      have ha : Sub P p s := ha
      have hb : Sub P q s := hb
      have hlt : P.len < k := by
        apply Nat.lt_of_not_le
        intro hle
        apply h4
        by_cases hk : k = P.len
        · rw [hk, ha.side, hb.side]
        · rw [← ha.agree k (by omega), ← hb.agree k (by omega)]
      have ag := agree_zeroed p.addr hkw
      refine ⟨hlt, ha.agree.trans (ag.mono (Nat.le_of_lt hlt)).symm, ?_⟩
      rw [ag _ hlt]; exact ha.side
    have sa : Sub ⟨and p.addr (compl (shr ones k)), k⟩ p (bit p.addr k) :=
      Sub.join h1 (agree_zeroed p.addr hkw)
    have sb : Sub ⟨and p.addr (compl (shr ones k)), k⟩ q (bit q.addr k) :=
      Sub.join h2 ((agree_zeroed p.addr hkw).trans h3)
    have hpa : bit p.addr k = !(c != rev) := by
      rw [h5] at h4
      generalize bit p.addr k = u at *
      cases u <;> cases c <;> cases rev <;> simp_all
    by_cases hc : (c != rev) = true
    · simp only [hc, if_true]
      rw [hpa, hc] at sa
      rw [h5, hc] at sb
      exact mkFlat_union (l := .node p ..) (r := .node q ..) (zeroFrom_zeroed _ _) sa sb ha hb (fun x => Iff.rfl) hsw
    · simp only [hc]
      have hc : (c != rev) = false := by simpa using hc
      rw [hpa, hc] at sa
      rw [h5, hc] at sb
      exact mkFlat_union (l := .node q ..) (r := .node p ..) (zeroFrom_zeroed _ _) sb sa hb ha (fun x => or_comm) hsw

end SetNode
end
end Addrs

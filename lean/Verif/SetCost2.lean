import Verif.SetCost
/-
  The size of what the functions of setnode.go return, and the cost of `setNodeFromRange`.
-/
set_option linter.unusedSectionVars false
namespace Addrs
open GoWord LawfulGoWord

namespace SetNode
open Trie
variable {α : Type} [LawfulGoWord α]

theorem mkFlat_nodes (p : Prefix α) (l r : SetNode α) : (mkFlat p l r).nodes ≤ l.nodes + r.nodes + 1 := by
  have : ∀ act, (let (a, l', r') := flatten p act l r; (Trie.mk p none a l' r' : SetNode α).nodes) ≤ l.nodes + r.nodes + 1 := by
    intro act
    simp only [flatten]
    split
    · simp [Trie.mk, nodes]
    · split
      · split
        · simp [Trie.mk, nodes]
        · split
          · simp [Trie.mk, nodes]
          · split <;> simp [Trie.mk, nodes]
      · simp [Trie.mk, nodes]
  exact this false

theorem union_nodes (N : Nat) : ∀ {t u : SetNode α}, t.nodes + u.nodes ≤ N → (union t u).nodes ≤ t.nodes + u.nodes + 1 := by
  induction N with
  | zero =>
    intro t u h
    cases t with
    | nil => rw [union_nil_left]; omega
    | node => simp only [nodes] at h; omega
  | succ N ih =>
    intro t u h
    cases t with
    | nil => rw [union_nil_left]; omega
    | node p d n m act l r =>
    cases u with
    | nil => rw [union_nil_right]; omega
    | node q e n' m' act' l' r' =>
    simp only [nodes] at h
    have h1 := @ih l l' (by omega); have h2 := @ih r r' (by omega)
    have h3 := @ih r' (.node p d n m act l r) (by simp only [nodes]; omega); have h4 := @ih l' (.node p d n m act l r) (by simp only [nodes]; omega)
    have h5 := @ih r (.node q e n' m' act' l' r') (by simp only [nodes]; omega); have h6 := @ih l (.node q e n' m' act' l' r') (by simp only [nodes]; omega)
    have f := fun p => @mkFlat_nodes α _ p
    simp only [nodes] at h3 h4 h5 h6 ⊢
    rw [union]
    rcases hc : compareP p q with ⟨res, rev, k, child⟩
    cases res <;> simp only
    case same =>
      split
      · simp only [nodes]; omega
      · split
        · simp only [nodes]; omega
        · have := f p (union l l') (union r r'); omega
    case disjoint =>
      split
      · refine Nat.le_trans (f _ _ _) ?_; simp only [nodes]; omega
      · refine Nat.le_trans (f _ _ _) ?_; simp only [nodes]; omega
    all_goals
      cases rev <;> simp only [Bool.false_eq_true, if_false, if_true]
      · split
        · simp only [nodes]; omega
        · split
          · refine Nat.le_trans (f _ _ _) ?_; omega
          · refine Nat.le_trans (f _ _ _) ?_; omega
      · split
        · simp only [nodes]; omega
        · split
          · refine Nat.le_trans (f _ _ _) ?_; omega
          · refine Nat.le_trans (f _ _ _) ?_; omega

/-- the size of a difference -/
theorem difference_nodes : ∀ (N : Nat) {t u : SetNode α}, t.deep + u.deep + Heap.room t ≤ N → Inv t → Inv u →
    ∀ {F : Nat}, N < F → (difference t u).nodes ≤ t.nodes + 2 * diffCalls F t u := by
  intro N
  induction N using Nat.strongRecOn with
  | ind N ih =>
  intro t u hN ht hu F hF
  obtain ⟨F, rfl⟩ : ∃ G, F = G + 1 := ⟨F - 1, by omega⟩
  cases t with
  | nil => rw [difference_nil_left]; omega
  | node p d n m act l r =>
  cases u with
  | nil => rw [difference_nil_right]; omega
  | node q e n' m' act' l' r' =>
  have wa := ht.wf
  have wb := hu.wf
  simp only [Trie.deep, Heap.room] at hN
  have key : ∀ {x y : SetNode α}, x.deep + y.deep + Heap.room x ≤ N - 1 → Inv x → Inv y →
      (difference x y).nodes ≤ x.nodes + 2 * diffCalls F x y :=
    fun h1 h2 h3 => ih (N - 1) (by omega) h1 h2 h3 (by omega)
  have un : ∀ x y : SetNode α, (union x y).nodes ≤ x.nodes + y.nodes + 1 := fun x y => union_nodes _ (Nat.le_refl _)
  have hinner : act = false → (union (difference l (.node q e n' m' act' l' r')) (difference r (.node q e n' m' act' l' r'))).nodes ≤
      l.nodes + r.nodes + 1 + 2 * (1 + diffCalls F l (.node q e n' m' act' l' r') + diffCalls F r (.node q e n' m' act' l' r')) := by
    intro hact
    subst hact
    obtain ⟨ea, hz, ul, ur, il, ir, nm⟩ := ht.inactive
    have rl := Heap.room_under ul
    have rr := Heap.room_under ur
    have k1 := key (x := l) (y := .node q e n' m' act' l' r') (by meas) il hu
    have k2 := key (x := r) (y := .node q e n' m' act' l' r') (by meas) ir hu
    refine Nat.le_trans (un _ _) ?_
    omega
  have halv : p.len < width α → Inv (fromPrefix p.halves.1) ∧ Inv (fromPrefix p.halves.2) ∧
      p.halves.1.len = p.len + 1 ∧ p.halves.2.len = p.len + 1 := by
    intro hlt
    obtain ⟨g1, g2, g3, g4⟩ := halves_sub hlt
    exact ⟨.leaf _ (by rw [Prefix.WF, g3]; omega), .leaf _ (by rw [Prefix.WF, g4]; omega), g3, g4⟩
  rcases compareP_cases wa wb with ⟨hkk, he⟩ | ⟨c, hs, he⟩ | ⟨c, hs, he⟩ | ⟨k', rev, c, h1, h2, h3, h4, h5, h6, he⟩
  · rw [difference]
    simp only [diffCalls, he, nodes]
    cases act with
    | false => simp only [Bool.not_false, if_true]; exact hinner rfl
    | true =>
      cases act' with
      | true => simp [nodes]
      | false =>
        simp only [Bool.not_true, Bool.false_eq_true, if_false]
        obtain ⟨eb, hz, ul, ur, il, ir, nm⟩ := hu.inactive
        have hlt : p.len < width α := by
          cases l' with
          | nil => exact ul.elim
          | node => rw [hkk.1]; exact Nat.lt_of_lt_of_le ul.lt il.wf
        rw [if_pos hlt]
        obtain ⟨i1, i2, g3, g4⟩ := halv hlt
        have k1 := key (y := l') (by meas) i1 il
        have k2 := key (y := r') (by meas) i2 ir
        rw [fromPrefix_nodes] at k1 k2
        refine Nat.le_trans (un _ _) ?_
        omega
  · rw [difference]
    simp only [diffCalls, he, nodes]
    cases act with
    | false => simp only [Bool.not_false, if_true]; exact hinner rfl
    | true =>
      simp only [Bool.not_true, Bool.false_eq_true, if_false]
      have hlt : p.len < width α := Nat.lt_of_lt_of_le hs.lt wb
      rw [dif_pos hlt]
      obtain ⟨i1, i2, g3, g4⟩ := halv hlt
      cases c with
      | true =>
        simp only [if_true]
        have k2 := key (y := .node q e n' m' act' l' r') (by meas) i2 hu
        rw [fromPrefix_nodes] at k2
        refine Nat.le_trans (un _ _) ?_
        rw [fromPrefix_nodes]
        omega
      | false =>
        simp only [Bool.false_eq_true, if_false]
        have k2 := key (y := .node q e n' m' act' l' r') (by meas) i1 hu
        rw [fromPrefix_nodes] at k2
        refine Nat.le_trans (un _ _) ?_
        rw [fromPrefix_nodes]
        omega
  · rw [difference]
    simp only [diffCalls, he]
    cases act' with
    | true => simp [nodes]
    | false =>
      simp only [Bool.false_eq_true, if_false]
      obtain ⟨eb, hz, ul, ur, il, ir, nm⟩ := hu.inactive
      cases c with
      | true =>
        simp only [if_true]
        have := key (y := r') (by meas) ht ir
        omega
      | false =>
        simp only [Bool.false_eq_true, if_false]
        have := key (y := l') (by meas) ht il
        omega
  · rw [difference]
    simp only [he]
    omega

/-! ### `setNodeFromRange` -/

/-- ipv4/setnode.go:24-47: the calls of `setNodeFromRange` -/
def rangeCalls : Nat → Range α → Nat
  | 0, _ => 0
  | F + 1, r =>
    if lz (xor r.first r.last) = pop (compl (xor r.first r.last)) then 1
    else
      let pivot := or (and r.first (shl ones (width α - lz (xor r.first r.last)))) (shr top (lz (xor r.first r.last)))
      1 + rangeCalls F ⟨r.first, sub1 pivot⟩ + rangeCalls F ⟨pivot, r.last⟩

theorem rangeCalls_all {r : Range α} (h : AllDiffer r) (F : Nat) : rangeCalls F r ≤ 1 := by
  cases F with
  | zero => simp [rangeCalls]
  | succ F => simp only [rangeCalls]; rw [if_pos ((pop_compl_iff _).mpr h)]; omega

/-- up to the end of a block: the part in the upper half is a whole block -/
theorem rangeCalls_left : ∀ (F : Nat) {r : Range α}, toNat r.first ≤ toNat r.last →
    (∀ i, lz (xor r.first r.last) ≤ i → i < width α → bit r.last i = true) →
    rangeCalls F r ≤ 2 * (width α - lz (xor r.first r.last)) + 1 := by
  intro F
  induction F with
  | zero => intros; simp [rangeCalls]
  | succ F ih =>
    intro r hle ho
    simp only [rangeCalls]
    split
    · omega
    next hc =>
    obtain ⟨pivot, hpv⟩ : ∃ x, x = or (and r.first (shl ones (width α - lz (xor r.first r.last))))
      (shr top (lz (xor r.first r.last))) := ⟨_, rfl⟩
    obtain ⟨h1, h2, h3, h4⟩ := fromRange_split hle hc hpv
    obtain ⟨hn, hb1, hb2, hp, hs⟩ := fromRange_parts hle hc hpv
    rw [← hpv]
    have hwl : Prefix.WF (⟨r.last, lz (xor r.first r.last) + 1⟩ : Prefix α) := hn
    have hwf : Prefix.WF (⟨r.first, lz (xor r.first r.last) + 1⟩ : Prefix α) := hn
    have i1 := ih (r := ⟨r.first, sub1 pivot⟩) h1 (by
      intro i hi hw
      simp only at hi ⊢
      rw [hs, bit_broadcast hwf hw]
      have : ¬ i < lz (xor r.first r.last) + 1 := by omega
      simp [this])
    have i2 := rangeCalls_all (r := ⟨pivot, r.last⟩) (by
      intro i hi hw
      simp only at hi ⊢
      rw [bit_xor, ho i (by omega) hw, hp, bit_network hwl]
      have : ¬ i < lz (xor r.first r.last) + 1 := by omega
      simp [this]) F
    simp only at i1
    have := lz_le (xor r.first (sub1 pivot))
    omega

/-- from the start of a block -/
theorem rangeCalls_right : ∀ (F : Nat) {r : Range α}, toNat r.first ≤ toNat r.last →
    (∀ i, lz (xor r.first r.last) ≤ i → i < width α → bit r.first i = false) →
    rangeCalls F r ≤ 2 * (width α - lz (xor r.first r.last)) + 1 := by
  intro F
  induction F with
  | zero => intros; simp [rangeCalls]
  | succ F ih =>
    intro r hle ho
    simp only [rangeCalls]
    split
    · omega
    next hc =>
    obtain ⟨pivot, hpv⟩ : ∃ x, x = or (and r.first (shl ones (width α - lz (xor r.first r.last))))
      (shr top (lz (xor r.first r.last))) := ⟨_, rfl⟩
    obtain ⟨h1, h2, h3, h4⟩ := fromRange_split hle hc hpv
    obtain ⟨hn, hb1, hb2, hp, hs⟩ := fromRange_parts hle hc hpv
    rw [← hpv]
    have hwl : Prefix.WF (⟨r.last, lz (xor r.first r.last) + 1⟩ : Prefix α) := hn
    have hwf : Prefix.WF (⟨r.first, lz (xor r.first r.last) + 1⟩ : Prefix α) := hn
    have i1 := ih (r := ⟨pivot, r.last⟩) h2 (by
      intro i hi hw
      simp only at hi ⊢
      rw [hp, bit_network hwl]
      have : ¬ i < lz (xor r.first r.last) + 1 := by omega
      simp [this])
    have i2 := rangeCalls_all (r := ⟨r.first, sub1 pivot⟩) (by
      intro i hi hw
      simp only at hi ⊢
      rw [bit_xor, ho i (by omega) hw, hs, bit_broadcast hwf hw]
      have : ¬ i < lz (xor r.first r.last) + 1 := by omega
      simp [this]) F
    simp only at i1
    have := lz_le (xor pivot r.last)
    omega

/-- any range: two paths -/
theorem rangeCalls_le (F : Nat) {r : Range α} (hle : toNat r.first ≤ toNat r.last) :
    rangeCalls F r ≤ 4 * width α + 1 := by
  cases F with
  | zero => simp [rangeCalls]
  | succ F =>
    simp only [rangeCalls]
    split
    · omega
    next hc =>
    obtain ⟨pivot, hpv⟩ : ∃ x, x = or (and r.first (shl ones (width α - lz (xor r.first r.last))))
      (shr top (lz (xor r.first r.last))) := ⟨_, rfl⟩
    obtain ⟨h1, h2, h3, h4⟩ := fromRange_split hle hc hpv
    obtain ⟨hn, hb1, hb2, hp, hs⟩ := fromRange_parts hle hc hpv
    rw [← hpv]
    have hwl : Prefix.WF (⟨r.last, lz (xor r.first r.last) + 1⟩ : Prefix α) := hn
    have hwf : Prefix.WF (⟨r.first, lz (xor r.first r.last) + 1⟩ : Prefix α) := hn
    have i1 := rangeCalls_left F (r := ⟨r.first, sub1 pivot⟩) h1 (by
      intro i hi hw
      simp only at hi ⊢
      rw [hs, bit_broadcast hwf hw]
      have : ¬ i < lz (xor r.first r.last) + 1 := by omega
      simp [this])
    have i2 := rangeCalls_right F (r := ⟨pivot, r.last⟩) h2 (by
      intro i hi hw
      simp only at hi ⊢
      rw [hp, bit_network hwl]
      have : ¬ i < lz (xor r.first r.last) + 1 := by omega
      simp [this])
    simp only at i1 i2
    have := lz_le (xor pivot r.last)
    omega

/-- where the set of a range is -/
theorem fromRangeAux_within {p : Prefix α} {b : Bool} : ∀ (n : Nat) {r : Range α}, toNat r.first ≤ toNat r.last →
    width α < lz (xor r.first r.last) + n → p.len < lz (xor r.first r.last) → Covers p r.first →
    bit r.first p.len = b → Within p b (fromRangeAux n r) := by
  intro n
  induction n with
  | zero => intro r _ h; have := lz_le (xor r.first r.last); omega
  | succ n ih =>
    intro r hle hf hp hc hb
    rw [fromRangeAux]
    simp only
    split
    · next h =>
      exact ⟨hp, hc, hb⟩
    · next hc' =>
      obtain ⟨pivot, hpv⟩ : ∃ x, x = or (and r.first (shl ones (width α - lz (xor r.first r.last))))
        (shr top (lz (xor r.first r.last))) := ⟨_, rfl⟩
      obtain ⟨h1, h2, h3, h4⟩ := fromRange_split hle hc' hpv
      rw [← hpv]
      have w1 : width α < lz (xor r.first (sub1 pivot)) + n := by omega
      have w2 : width α < lz (xor pivot r.last) + n := by omega
      have i1 := fromRangeAux_inv n (r := ⟨r.first, sub1 pivot⟩) h1 w1
      have i2 := fromRangeAux_inv n (r := ⟨pivot, r.last⟩) h2 w2
      have hag : Agree (lz (xor r.first r.last)) r.first pivot :=
        (lz_xor_agree r.first r.last).trans ((lz_xor_agree pivot r.last).mono (Nat.le_of_lt h4)).symm
      refine (union_spec i1 i2).within _ _ (ih (r := ⟨r.first, sub1 pivot⟩) h1 w1 (Nat.lt_trans hp h3) hc hb)
        (ih (r := ⟨pivot, r.last⟩) h2 w2 (Nat.lt_trans hp h4) (Agree.trans hc (hag.mono (Nat.le_of_lt hp))) ?_)
      rw [← hb]
      exact (hag _ hp).symm

theorem fromRangeAux_nodes : ∀ (n : Nat) (r : Range α), (fromRangeAux n r).nodes ≤ rangeCalls n r := by
  intro n
  induction n with
  | zero => intro r; simp [fromRangeAux, nodes]
  | succ n ih =>
    intro r
    simp only [fromRangeAux, rangeCalls]
    split
    · rw [fromPrefix_nodes]; omega
    · refine Nat.le_trans (union_nodes _ (Nat.le_refl _)) ?_
      have h1 := ih ⟨r.first, sub1 (or (and r.first (shl ones (width α - lz (xor r.first r.last)))) (shr top (lz (xor r.first r.last))))⟩
      have h2 := ih ⟨or (and r.first (shl ones (width α - lz (xor r.first r.last)))) (shr top (lz (xor r.first r.last))), r.last⟩
      omega

theorem fromRange_nodes {r : Range α} (hle : toNat r.first ≤ toNat r.last) : (fromRange r).nodes ≤ 4 * width α + 1 :=
  Nat.le_trans (fromRangeAux_nodes _ r) (rangeCalls_le _ hle)

end SetNode
end Addrs

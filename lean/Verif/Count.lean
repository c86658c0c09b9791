import Verif.Walk
import Verif.SetCanon
/-
  Counting addresses and aligned prefixes.
-/
namespace Addrs
open GoWord LawfulGoWord

/-- the number of `k` in an aligned block -/
theorem countP_block (n m c : Nat) (hm : m ≤ n) (hc : c < 2 ^ m) :
    (List.range (2 ^ n)).countP (fun k => decide (k / 2 ^ (n - m) = c)) = 2 ^ (n - m) := by
  have hpos : 0 < 2 ^ (n - m) := Nat.pow_pos (by omega)
  have e : 2 ^ n = c * 2 ^ (n - m) + (2 ^ (n - m) + (2 ^ m - 1 - c) * 2 ^ (n - m)) := by
    have h2 : (2 ^ m) * 2 ^ (n - m) = 2 ^ n := by rw [← Nat.pow_add]; congr 1; omega
    rw [← h2]
    have h3 : 2 ^ m = c + (1 + (2 ^ m - 1 - c)) := by omega
    conv => lhs; rw [h3]
    rw [Nat.add_mul, Nat.add_mul, Nat.one_mul]
  rw [e, List.range_add, List.countP_append, List.range_add, List.map_append, List.countP_append]
  have h1 : (List.range (c * 2 ^ (n - m))).countP (fun k => decide (k / 2 ^ (n - m) = c)) = 0 := by
    rw [List.countP_eq_zero]
    intro k hk
    have hk := List.mem_range.mp hk
    have := (Nat.div_lt_iff_lt_mul hpos).mpr hk
    simp; omega
  have h2 : ((List.range (2 ^ (n - m))).map (c * 2 ^ (n - m) + ·)).countP
      (fun k => decide (k / 2 ^ (n - m) = c)) = 2 ^ (n - m) := by
    rw [List.countP_eq_length.mpr]
    · simp
    · intro k hk
      obtain ⟨j, hj, rfl⟩ := List.mem_map.mp hk
      have hj := List.mem_range.mp hj
      rw [decide_eq_true_eq, Nat.mul_comm, Nat.mul_add_div hpos, Nat.div_eq_of_lt hj]; rfl
  have h3 : (((List.range ((2 ^ m - 1 - c) * 2 ^ (n - m))).map (2 ^ (n - m) + ·)).map
      (c * 2 ^ (n - m) + ·)).countP (fun k => decide (k / 2 ^ (n - m) = c)) = 0 := by
    rw [List.countP_eq_zero]
    intro k hk
    obtain ⟨j, hj, rfl⟩ := List.mem_map.mp hk
    obtain ⟨i, hi, rfl⟩ := List.mem_map.mp hj
    have : c + 1 ≤ (c * 2 ^ (n - m) + (2 ^ (n - m) + i)) / 2 ^ (n - m) := by
      rw [Nat.le_div_iff_mul_le hpos, Nat.add_mul]; omega
    rw [decide_eq_true_eq]; omega
  rw [h1, h2, h3]; omega

theorem countP_or_disjoint {β : Type} (L : List β) (p q : β → Bool)
    (h : ∀ x ∈ L, ¬ (p x = true ∧ q x = true)) :
    L.countP (fun x => p x || q x) = L.countP p + L.countP q := by
  induction L with
  | nil => rfl
  | cons x L ih =>
    have hx := h x (List.mem_cons_self ..)
    have := ih fun y hy => h y (List.mem_cons_of_mem _ hy)
    simp only [List.countP_cons, this]
    cases hp : p x <;> cases hq : q x <;> simp_all <;> omega

theorem le_sum_of_mem {x : Nat} {L : List Nat} (h : x ∈ L) : x ≤ L.sum := by
  induction L with
  | nil => cases h
  | cons y L ih =>
    rw [List.sum_cons]
    rcases List.mem_cons.mp h with rfl | h
    · omega
    · have := ih h; omega

section
variable {α : Type} [LawfulGoWord α]

/-- the `k`-th prefix of length `n` -/
def nthPrefix (α : Type) [LawfulGoWord α] (n k : Nat) : Prefix α := ⟨ofNat α (k * blockSize α n), n⟩

theorem toNat_nthPrefix {n k : Nat} (hn : n ≤ width α) (hk : k < 2 ^ n) :
    toNat (nthPrefix α n k).addr = k * blockSize α n := by
  rw [nthPrefix]
  simp only
  rw [toNat_ofNat]
  have e : 2 ^ width α = 2 ^ n * 2 ^ (width α - n) := by
    rw [← Nat.pow_add]; congr 1; omega
  rw [e, blockSize]
  exact Nat.mul_lt_mul_of_pos_right hk (Nat.pow_pos (by omega))

theorem nthPrefix_div {n k m : Nat} (hn : n ≤ width α) (hk : k < 2 ^ n) (hm : m ≤ n) :
    toNat (nthPrefix α n k).addr / 2 ^ (width α - m) = k / 2 ^ (n - m) := by
  rw [toNat_nthPrefix hn hk, blockSize, show width α - m = (width α - n) + (n - m) by omega,
    Nat.pow_add, ← Nat.div_div_eq_div_mul, Nat.mul_div_cancel _ (Nat.pow_pos (by omega))]

open Classical in
/-- The number of length-`n` prefixes inside at least one of several disjoint prefixes. -/
theorem count_prefixes (n : Nat) (hn : n ≤ width α) (L : List (Prefix α))
    (hw : ∀ p ∈ L, p.WF)
    (hd : L.Pairwise fun p q => ∀ x, Covers p x → ¬ Covers q x) :
    (List.range (2 ^ n)).countP (fun k => decide
      (∃ q ∈ L, q.len ≤ n ∧ Covers q (nthPrefix α n k).addr)) =
    (L.map fun q => if q.len ≤ n then 2 ^ (n - q.len) else 0).sum := by
  induction L with
  | nil => simp
  | cons q L ih =>
    rw [List.pairwise_cons] at hd
    have ih := ih (fun p hp => hw p (List.mem_cons_of_mem _ hp)) hd.2
    rw [List.map_cons, List.sum_cons, ← ih]
    have e : (fun k => decide (∃ q' ∈ q :: L, q'.len ≤ n ∧ Covers q' (nthPrefix α n k).addr)) =
        (fun k => decide (q.len ≤ n ∧ Covers q (nthPrefix α n k).addr) ||
          decide (∃ q' ∈ L, q'.len ≤ n ∧ Covers q' (nthPrefix α n k).addr)) := by
      funext k
      rw [← Bool.decide_or]
      apply decide_eq_decide.mpr
      simp
    rw [e, countP_or_disjoint]
    · congr 1
      by_cases hq : q.len ≤ n
      · simp only [hq, true_and, if_true]
        have hqw : q.WF := hw q (List.mem_cons_self ..)
        rw [← countP_block n q.len (toNat q.addr / 2 ^ (width α - q.len)) hq]
        · apply List.countP_congr
          intro k hk
          have hk := List.mem_range.mp hk
          simp only [decide_eq_true_eq]
          rw [Covers, agree_iff_div hqw, nthPrefix_div hn hk hq, eq_comm]
        · apply (Nat.div_lt_iff_lt_mul (Nat.pow_pos (by omega))).mpr
          rw [← Nat.pow_add]
          have := toNat_lt q.addr
          have e : q.len + (width α - q.len) = width α := by
            have : q.len ≤ width α := hqw
            omega
          rw [e]; exact this
      · simp [hq]
    · intro k _ ⟨h1, h2⟩
      simp only [decide_eq_true_eq] at h1 h2
      obtain ⟨q', hq', _, h3⟩ := h2
      exact hd.1 q' hq' _ h1.2 h3

namespace SetNode
open Trie

/-- an aligned prefix is inside the set iff it is inside one listed prefix -/
theorem Inv.inside_iff {t : SetNode α} (hi : Inv t) (P : Prefix α) :
    (∀ x, Covers P x → Mem t x) ↔ ∃ q ∈ t.prefixes, q.len ≤ P.len ∧ Covers q P.addr := by
  constructor
  · intro h
    obtain ⟨q, hq, hc⟩ := hi.mem_iff.mp (h _ (Covers.self P))
    refine ⟨q, hq, ?_, hc⟩
    apply Nat.le_of_not_lt
    intro hlt
    obtain ⟨x, h1, h2⟩ := hi.maximal q hq P hlt (Agree.mono hc (Nat.le_of_lt hlt)).symm
    exact h2 (h x h1)
  · rintro ⟨q, hq, hl, hc⟩ x hx
    exact hi.prefixes_mem hq (Agree.trans hc (Agree.mono hx hl))

theorem Inv.disjoint {t : SetNode α} (hi : Inv t) :
    t.prefixes.Pairwise fun p q => ∀ x, Covers p x → ¬ Covers q x :=
  hi.sorted.imp fun h x h1 h2 => Nat.lt_irrefl _ (h x x h1 h2)

open Classical in
/-- the number of length-`n` prefixes inside the set -/
theorem Inv.count {t : SetNode α} (hi : Inv t) {n : Nat} (hn : n ≤ width α) :
    (List.range (2 ^ n)).countP (fun k => decide (∀ x, Covers (nthPrefix α n k) x → Mem t x)) =
    (t.prefixes.map fun q => if q.len ≤ n then 2 ^ (n - q.len) else 0).sum := by
  rw [← count_prefixes n hn t.prefixes hi.prefixes_wf hi.disjoint]
  congr 1
  funext k
  apply decide_eq_decide.mpr
  exact hi.inside_iff _

open Classical in
/-- the number of addresses of the set -/
theorem Inv.card {t : SetNode α} (hi : Inv t) :
    (List.range (2 ^ width α)).countP (fun k => decide (Mem t (ofNat α k))) =
    (t.prefixes.map fun q => 2 ^ (width α - q.len)).sum := by
  have h := hi.count (Nat.le_refl (width α))
  have e : t.prefixes.map (fun q => if q.len ≤ width α then 2 ^ (width α - q.len) else 0)
      = t.prefixes.map (fun q => 2 ^ (width α - q.len)) := by
    apply List.map_congr_left
    intro q hq
    have : q.len ≤ width α := hi.prefixes_wf q hq
    simp [this]
  rw [e] at h
  rw [← h]
  apply List.countP_congr
  intro k hk
  have hk := List.mem_range.mp hk
  simp only [decide_eq_true_eq]
  have ek : (nthPrefix α (width α) k).addr = ofNat α k := by
    simp [nthPrefix, blockSize]
  constructor
  · intro h x hx
    have : ofNat α k = x := by rw [← ek]; exact Agree.eq hx (Nat.le_refl _)
    rw [← this]; exact h
  · intro h; apply h; rw [← ek]; exact Covers.self _

/-- the sums above are at most the number of all prefixes -/
theorem Inv.sum_le {t : SetNode α} (hi : Inv t) {n : Nat} (hn : n ≤ width α) :
    (t.prefixes.map fun q => if q.len ≤ n then 2 ^ (n - q.len) else 0).sum ≤ 2 ^ n := by
  rw [← count_prefixes n hn t.prefixes hi.prefixes_wf hi.disjoint]
  refine Nat.le_trans List.countP_le_length ?_
  rw [List.length_range]; exact Nat.le_refl _

end SetNode
end

/-! ### ipv4 `NumAddresses` -/

namespace SetNode
open Trie

theorem numAddresses_leaf {p : Prefix (BitVec 32)} (hp : p.WF) :
    (numAddresses (fromPrefix p)).toNat = 2 ^ (32 - p.len) := by
  have hp' : p.len ≤ 32 := hp
  have h1 : (compl p.mask : BitVec 32).toNat = 2 ^ (32 - p.len) - 1 := by
    have h0 : (compl p.mask : BitVec 32) = (Prefix.broadcast ⟨(0 : BitVec 32), p.len⟩).addr := by
      apply ext_bit
      intro i hi
      simp only [Prefix.broadcast, Prefix.mask]
      rw [bit_or]
      have : bit (0 : BitVec 32) i = false := bit_zero (α := BitVec 32) i
      rw [this]; simp
    rw [h0]
    have := toNat_broadcast (p := ⟨(0 : BitVec 32), p.len⟩) hp
    have e : toNat (0 : BitVec 32) = 0 := rfl
    rw [e] at this
    simp only [Nat.zero_div, Nat.zero_mul, Nat.zero_add] at this
    exact this
  have hb : 2 ^ (32 - p.len) ≤ 2 ^ 32 := Nat.pow_le_pow_right (by omega) (by omega)
  have hpos : 0 < 2 ^ (32 - p.len) := Nat.pow_pos (by omega)
  simp only [numAddresses, fromPrefix, if_true]
  rw [BitVec.toNat_add, BitVec.toNat_setWidth, h1]
  simp only [BitVec.toNat_ofNat]
  omega

theorem Inv.numAddresses {t : SetNode (BitVec 32)} (hi : Inv t) :
    (numAddresses t).toNat = (t.prefixes.map fun q => 2 ^ (32 - q.len)).sum := by
  have hle := hi.sum_le (n := 32) (Nat.le_refl _)
  have e : t.prefixes.map (fun q => if q.len ≤ 32 then 2 ^ (32 - q.len) else 0)
      = t.prefixes.map (fun q => 2 ^ (32 - q.len)) := by
    apply List.map_congr_left
    intro q hq
    have : q.len ≤ 32 := hi.prefixes_wf q hq
    simp [this]
  rw [e] at hle
  clear e
  induction hi with
  | nil => rfl
  | leaf p hp => simp [numAddresses_leaf hp]
  | inner p l r hz ul ur hl hr nm ihl ihr =>
    rw [prefixes_mk, List.map_append, List.sum_append] at hle ⊢
    have h1 := ihl (by omega)
    have h2 := ihr (by omega)
    have e : SetNode.numAddresses (mk p none false l r : SetNode (BitVec 32))
        = SetNode.numAddresses l + SetNode.numAddresses r := rfl
    rw [e, BitVec.toNat_add, h1, h2]
    apply Nat.mod_eq_of_lt
    omega

theorem Inv.numAddresses_eq_zero {t : SetNode (BitVec 32)} (hi : Inv t) :
    SetNode.numAddresses t = 0#64 ↔ ∀ x, ¬ Mem t x := by
  have h := hi.numAddresses
  constructor
  · intro h0 x hx
    rw [h0] at h
    obtain ⟨p, hp, _⟩ := hi.mem_iff.mp hx
    have h1 : (fun q : Prefix (BitVec 32) => 2 ^ (32 - q.len)) p ∈ t.prefixes.map fun q => 2 ^ (32 - q.len) :=
      List.mem_map_of_mem hp
    have := le_sum_of_mem h1
    have hpos : 0 < 2 ^ (32 - p.len) := Nat.pow_pos (by omega)
    simp only at this
    have h0 : (0#64).toNat = 0 := rfl
    rw [h0] at h
    omega
  · intro hn
    cases hi with
    | nil => rfl
    | leaf p hp => exact absurd (mem_fromPrefix.mpr (Covers.self p)) (hn _)
    | inner p l r hz ul ur hl hr nm =>
      obtain ⟨x, hx⟩ := (Inv.inner p l r hz ul ur hl hr nm).exists_mem (by simp [Trie.mk])
      exact absurd hx (hn x)

end SetNode
end Addrs

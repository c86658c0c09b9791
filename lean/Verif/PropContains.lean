import Verif.PropSetCount
import Verif.PropValues
/-
  Property C49: `Contains` and `NumAddresses` of prefixes and ranges (prefix.go, range.go), without going
  through sets in the statement.
-/
namespace Addrs
open GoWord LawfulGoWord
open SetNode

section
variable {α : Type} [LawfulIPFamily α]

/-- the addresses a valid argument of type `SetI` stands for -/
def SetI.Holds : SetI α → α → Prop
  | .nil, _ => False
  | .address b, a => a = b
  | .prefix p, a => InPrefix p a
  | .range r, a => InRange r a
  | .set s, a => s.has a

/-- a range whose set C08 shows to be exact -/
def SetI.Exact : SetI α → Prop
  | .range r => ¬ BadRange r
  | _ => True

theorem SetI.has_iff {i : SetI α} (hi : i.Valid) (hx : i.Exact) (a : α) : i.toSet.has a ↔ i.Holds a := by
  cases i with
  | nil => exact ⟨fun h => (C12_nil a h).elim, fun h => h.elim⟩
  | address b => rw [C08_address]; exact eq_comm
  | «prefix» p => exact C08_prefix p hi a
  | range r => exact C08_range_partial r hi hx a
  | set s => exact Iff.rfl

theorem InPrefix.self (p : Prefix α) : InPrefix p p.addr := rfl

/-- `p.Contains(x)` iff every address of `x` is in `p`. -/
theorem C49_prefix_contains (p : Prefix α) (hp : p.WF) (i : SetI α) (hi : i.Valid) (hx : i.Exact) :
    p.contains i = true ↔ ∀ a, i.Holds a → InPrefix p a := by
  rw [Prefix.contains, C12_contains _ _ (.prefix p hp) hi]
  constructor
  · intro h a ha; exact (C08_prefix p hp a).mp (h a ((SetI.has_iff hi hx a).mpr ha))
  · intro h a ha; exact (C08_prefix p hp a).mpr (h a ((SetI.has_iff hi hx a).mp ha))

/-- `p.Contains(q)` for prefixes iff `q` is at least as long and its address is in `p`. -/
theorem C49_prefix_prefix (p q : Prefix α) (hp : p.WF) (hq : q.WF) :
    p.contains (.prefix q) = true ↔ p.len ≤ q.len ∧ InPrefix p q.addr := by
  rw [C49_prefix_contains p hp (.prefix q) hq trivial]
  show (∀ a, InPrefix q a → InPrefix p a) ↔ _
  constructor
  · intro h
    refine ⟨Nat.le_of_not_lt fun hlt => ?_, h _ (InPrefix.self q)⟩
    -- flip bit `q.len` of the address of `q`
    have hd := h q.addr (InPrefix.self q)
    obtain ⟨b, hb1, hb2⟩ : ∃ b : α, Agree q.len q.addr b ∧ bit b q.len ≠ bit q.addr q.len := by
      have hw : q.len < width α := Nat.lt_of_lt_of_le hlt hp
      cases e : bit q.addr q.len with
      | true =>
        refine ⟨and q.addr (compl (shr ones q.len)), (agree_zeroed q.addr (Nat.le_of_lt hw)).symm, ?_⟩
        rw [bit_zeroed _ _ hw]; simp
      | false =>
        refine ⟨or q.addr (shr ones q.len), fun i hi => ?_, ?_⟩
        · rw [bit_or, bit_shr _ _ (by omega)]
          have : ¬ q.len ≤ i := by omega
          simp [this]
        · rw [bit_or, bit_shr _ _ hw, bit_ones (by omega)]; simp
    have h1 := (inPrefix_iff hp).mp (h b ((inPrefix_iff hq).mpr hb1))
    have h2 := (inPrefix_iff hp).mp hd
    exact hb2 ((h1 q.len hlt).symm.trans (h2 q.len hlt))
  · rintro ⟨h1, h2⟩ a ha
    rw [inPrefix_iff hp] at h2 ⊢
    rw [inPrefix_iff hq] at ha
    exact Agree.trans h2 (ha.mono h1)

/-- `p.Contains(r)` for a range iff both ends are in `p` (for every valid range). -/
theorem C49_prefix_range (p : Prefix α) (hp : p.WF) (r : Range α) (hr : r.Valid) :
    p.contains (.range r) = true ↔ InPrefix p r.first ∧ InPrefix p r.last := by
  have hv : (SetI.range r).Valid := hr
  rw [Prefix.contains, C12_contains _ _ (.prefix p hp) hv]
  constructor
  · intro h
    exact ⟨(C08_prefix p hp _).mp (h _ (C08_range_superset r hr _ ⟨Nat.le_refl _, hr⟩)),
      (C08_prefix p hp _).mp (h _ (C08_range_superset r hr _ ⟨hr, Nat.le_refl _⟩))⟩
  · rintro ⟨h1, h2⟩ a ha
    rw [C08_prefix p hp]
    by_cases hb : BadRange r
    · rw [(IPSet.Reachable.range r hr).has_iff] at ha
      have ha : SetNode.Mem (SetNode.fromRange r) a := ha
      rw [SetNode.fromRange_bad hb, mem_fromPrefix] at ha
      rw [inPrefix_iff hp] at h1 h2 ⊢
      -- the common part of the ends is at least as long as `p`
      exact Agree.trans h1 (Agree.mono ha (lz_xor_ge hp (h1.symm.trans h2)))
    · have ha := (C08_range_partial r hr hb a).mp ha
      unfold InPrefix at *
      have g1 := Nat.div_le_div_right (c := blockSize α p.len) ha.1
      have g2 := Nat.div_le_div_right (c := blockSize α p.len) ha.2
      omega

/-- Full statement: for every valid range and argument.  Missing: ranges that C08 shows to give a wrong
    set (`C49_range_counterexample`). -/
theorem C49_range_contains_partial (r : Range α) (hr : r.Valid) (hb : ¬ BadRange r) (i : SetI α) (hi : i.Valid) (hx : i.Exact) :
    r.contains i = true ↔ ∀ a, i.Holds a → InRange r a := by
  rw [Range.contains, C12_contains _ _ (.range r hr) hi]
  constructor
  · intro h a ha; exact (C08_range_partial r hr hb a).mp (h a ((SetI.has_iff hi hx a).mpr ha))
  · intro h a ha; exact (C08_range_partial r hr hb a).mpr (h a ((SetI.has_iff hi hx a).mp ha))

/-- for ranges: iff the ends are between the ends -/
theorem C49_range_range_partial (r s : Range α) (hr : r.Valid) (hb : ¬ BadRange r) (hs : s.Valid) (hsb : ¬ BadRange s) :
    r.contains (.range s) = true ↔ toNat r.first ≤ toNat s.first ∧ toNat s.last ≤ toNat r.last := by
  rw [C49_range_contains_partial r hr hb (.range s) hs hsb]
  constructor
  · intro h
    exact ⟨(h s.first ⟨Nat.le_refl _, hs⟩).1, (h s.last ⟨hs, Nat.le_refl _⟩).2⟩
  · rintro ⟨h1, h2⟩ a ⟨h3, h4⟩
    exact ⟨Nat.le_trans h1 h3, Nat.le_trans h4 h2⟩

/-- `Contains` of a range never says false wrongly: it is always true of what the range contains. -/
theorem C49_range_never_false (r : Range α) (hr : r.Valid) (i : SetI α) (hi : i.Valid) (hx : i.Exact)
    (h : ∀ a, i.Holds a → InRange r a) : r.contains i = true := by
  rw [Range.contains, C12_contains _ _ (.range r hr) hi]
  exact fun a ha => C08_range_superset r hr a (h a ((SetI.has_iff hi hx a).mp ha))

end

/-- [10.0.0.1, 10.0.0.2] claims to contain 10.0.0.0, and to have four addresses. -/
theorem C49_range_counterexample :
    let r : Range (BitVec 32) := ⟨0x0a000001#32, 0x0a000002#32⟩
    r.Valid ∧ r.contains (.address 0x0a000000#32) = true ∧ ¬ InRange r (0x0a000000#32) ∧ r.numAddresses = 4#64 := by
  intro r
  have hr : r.Valid := by show (0x0a000001#32).toNat ≤ (0x0a000002#32).toNat; decide
  have hb : BadRange r := ⟨2, by decide, by decide, by decide, by decide⟩
  refine ⟨hr, ?_, ?_, ?_⟩
  · show (SetI.range r).toSet.has (0x0a000000#32)
    rw [(IPSet.Reachable.range r hr).has_iff]
    show SetNode.Mem (SetNode.fromRange r) _
    rw [fromRange_bad hb, mem_fromPrefix]
    show Agree _ _ _
    rw [agree_iff_div (lz_le _)]
    decide
  · intro h
    exact absurd h.1 (by show ¬ (0x0a000001#32).toNat ≤ (0x0a000000#32).toNat; decide)
  · show ((IPSet.mk (fromRange r)).numPrefixes4 32).1 = _
    rw [fromRange_bad hb]
    simp only [IPSet.numPrefixes4, IPSet.walkPrefixes_eq]
    decide

/-- IPv4: a prefix of length `n` has 2^(32-n) addresses. -/
theorem C49_prefix_numAddresses (p : Prefix (BitVec 32)) (hp : p.WF) : p.numAddresses.toNat = 2 ^ (32 - p.len) := by
  have hp : p.len ≤ 32 := hp
  have h32 : ¬ 32 < p.len := by omega
  show (Prefix.numPrefixes4 p 32).1.toNat = _
  simp only [Prefix.numPrefixes4, Nat.lt_irrefl, if_false, h32, BitVec.toNat_ofNat]
  apply Nat.mod_eq_of_lt
  exact Nat.lt_of_le_of_lt (Nat.pow_le_pow_right (by omega) (Nat.sub_le 32 p.len)) (by decide)

theorem countP_interval {N a b : Nat} (h : a ≤ b) (hb : b < N) :
    (List.range N).countP (fun k => decide (a ≤ k ∧ k ≤ b)) = b - a + 1 := by
  have key : ∀ N, (List.range N).countP (fun k => decide (a ≤ k ∧ k ≤ b)) = min (b + 1) N - min a N := by
    intro N
    induction N with
    | zero => simp
    | succ N ih =>
      rw [List.range_succ, List.countP_append, ih]
      by_cases hN : a ≤ N ∧ N ≤ b
      · simp only [List.countP_cons, List.countP_nil, hN, and_self, decide_true, if_true]; omega
      · have : (List.countP (fun k => decide (a ≤ k ∧ k ≤ b)) [N]) = 0 := by simp [hN]
        rw [this]; omega
  rw [key]; omega

/-- Full statement: for every valid range.  Missing: ranges that C08 shows to give a wrong set. -/
theorem C49_range_numAddresses_partial (r : Range (BitVec 32)) (hr : r.Valid) (hb : ¬ BadRange r) :
    r.numAddresses.toNat = r.last.toNat - r.first.toNat + 1 := by
  have h := (C20_numPrefixes4 (SetI.range r).toSet (.range r hr) 32 (Nat.le_refl _)).2
  show ((SetI.range r).toSet.numPrefixes4 32).1.toNat = _
  rw [h]
  have hlt : r.last.toNat < 2 ^ 32 := r.last.isLt
  have hr' : r.first.toNat ≤ r.last.toNat := hr
  rw [← countP_interval hr' hlt]
  apply List.countP_congr
  intro k hk
  have hk := List.mem_range.mp hk
  have e : (SetI.range r).toSet.contains (.prefix ⟨BitVec.ofNat 32 (k * 2 ^ (32 - 32)), 32⟩) =
      (SetI.range r).toSet.contains (.address (BitVec.ofNat 32 k)) := by
    rw [Nat.sub_self, Nat.pow_zero, Nat.mul_one]; rfl
  rw [e, decide_eq_true_iff]
  refine (C08_range_partial r hr hb _).trans ?_
  show r.first.toNat ≤ (BitVec.ofNat 32 k).toNat ∧ (BitVec.ofNat 32 k).toNat ≤ r.last.toNat ↔ _
  rw [BitVec.toNat_ofNat, Nat.mod_eq_of_lt hk]

/-! ### C20 for ranges -/

/-- The `k`-th prefix of length `n` lies in the range iff its first and its last address do. -/
theorem nthPrefix_in_range {α : Type} [LawfulIPFamily α] (r : Range α) (hr : r.Valid) (hb : ¬ BadRange r) {n k : Nat}
    (hn : n ≤ width α) (hk : k < 2 ^ n) : (SetI.range r).toSet.contains (.prefix (nthPrefix α n k)) = true ↔
      toNat r.first ≤ k * blockSize α n ∧ k * blockSize α n + (blockSize α n - 1) ≤ toNat r.last := by
  have hw : (nthPrefix α n k).len ≤ width α := hn
  have hB : 0 < blockSize α n := Nat.pow_pos (by omega)
  have e1 : toNat (nthPrefix α n k).network.addr = k * blockSize α n := by
    rw [(C04_network _ hw).1, toNat_nthPrefix hn hk]
    show k * blockSize α n / blockSize α n * blockSize α n = _
    rw [Nat.mul_div_cancel _ hB]
  have e2 := (C04_broadcast _ hw).1
  rw [e1] at e2
  refine (C49_range_contains_partial r hr hb (.prefix (nthPrefix α n k)) hn trivial).trans ?_
  have key : ∀ a, SetI.Holds (.prefix (nthPrefix α n k)) a ↔
      k * blockSize α n ≤ toNat a ∧ toNat a ≤ k * blockSize α n + (blockSize α n - 1) := fun a => by
    show InPrefix _ a ↔ _
    rw [(C04_range _ hw a).1, range_eq hw]
    show toNat (nthPrefix α n k).network.addr ≤ _ ∧ _ ≤ toNat (nthPrefix α n k).broadcast.addr ↔ _
    rw [e1, e2]; rfl
  simp only [key]
  constructor
  · intro h
    have h1 := h (nthPrefix α n k).network.addr ⟨by rw [e1]; exact Nat.le_refl _, by rw [e1]; omega⟩
    have h2 := h (nthPrefix α n k).broadcast.addr ⟨by rw [e2]; omega, by rw [e2]; exact Nat.le_refl _⟩
    exact ⟨e1 ▸ h1.1, by have := h2.2; rw [e2] at this; exact this⟩
  · rintro ⟨h1, h2⟩ a ⟨h3, h4⟩
    exact ⟨by omega, by omega⟩

/-- Full statement: for every valid range.  Missing: the ranges that C08 shows to give a wrong set. -/
theorem C20_range4_partial (r : Range (BitVec 32)) (hr : r.Valid) (hb : ¬ BadRange r) (n : Nat) (hn : n ≤ 32) :
    (r.numPrefixes4 n).2 = false ∧
    (r.numPrefixes4 n).1.toNat = (List.range (2 ^ n)).countP
      (fun k => decide (r.first.toNat ≤ k * 2 ^ (32 - n) ∧ k * 2 ^ (32 - n) + (2 ^ (32 - n) - 1) ≤ r.last.toNat)) := by
  obtain ⟨h1, h2⟩ := C20_numPrefixes4 (SetI.range r).toSet (.range r hr) n hn
  refine ⟨h1, h2.trans (List.countP_congr fun k hk => ?_)⟩
  rw [decide_eq_true_iff]
  exact nthPrefix_in_range r hr hb hn (List.mem_range.mp hk)

/-- Full statement: for every valid range.  Missing: the ranges that C08 shows to give a wrong set. -/
theorem C20_range6_partial (r : Range U128) (hr : r.Valid) (hb : ¬ BadRange r) (n : Nat) (hn : n ≤ 128) :
    let N := (List.range (2 ^ n)).countP
      (fun k => decide (toNat r.first ≤ k * 2 ^ (128 - n) ∧ k * 2 ^ (128 - n) + (2 ^ (128 - n) - 1) ≤ toNat r.last))
    (N < 2 ^ 64 → (r.numPrefixes6 n).2 = false ∧ (r.numPrefixes6 n).1.toNat = N) ∧
    (2 ^ 64 ≤ N → (r.numPrefixes6 n).2 = true) := by
  intro N
  have h := C20_numPrefixes6 (SetI.range r).toSet (.range r hr) n hn
  have e : (List.range (2 ^ n)).countP
      (fun k => (SetI.range r).toSet.contains (.prefix ⟨ofNat U128 (k * 2 ^ (128 - n)), n⟩)) = N := by
    refine List.countP_congr fun k hk => ?_
    rw [decide_eq_true_iff]
    exact nthPrefix_in_range r hr hb hn (List.mem_range.mp hk)
  rw [← e]; exact h

/-! concrete cases -/

/-- 10.0.0.0/8 contains 10.1.0.0/16, the range 10.0.0.5-10.0.0.20 and not 11.0.0.0/16 -/
example : (Prefix.contains (⟨0x0a000000#32, 8⟩ : Prefix (BitVec 32)) (.prefix ⟨0x0a010000#32, 16⟩) = true) ∧
    (Prefix.contains (⟨0x0a000000#32, 8⟩ : Prefix (BitVec 32)) (.prefix ⟨0x0b000000#32, 16⟩) = false) ∧
    (Prefix.contains (⟨0x0a000000#32, 8⟩ : Prefix (BitVec 32)) (.range Sample.r) = true) := by
  refine ⟨?_, ?_, ?_⟩
  · exact (C49_prefix_prefix ⟨0x0a000000#32, 8⟩ ⟨0x0a010000#32, 16⟩ (by decide) (by decide)).mpr
      ⟨by decide, by unfold InPrefix; decide⟩
  · rw [Bool.eq_false_iff]
    intro h
    have := ((C49_prefix_prefix ⟨0x0a000000#32, 8⟩ ⟨0x0b000000#32, 16⟩ (by decide) (by decide)).mp h).2
    revert this; unfold InPrefix; decide
  · exact (C49_prefix_range ⟨0x0a000000#32, 8⟩ (by decide) Sample.r Sample.r_valid).mpr
      ⟨by unfold InPrefix; decide, by unfold InPrefix; decide⟩

/-- 10.0.0.5-10.0.0.20 contains itself, 10.0.0.7 and not 10.0.0.4, and has 16 addresses -/
example : Sample.r.contains (.range Sample.r) = true ∧ Sample.r.contains (.address 0x0a000007#32) = true ∧
    Sample.r.contains (.address 0x0a000004#32) = false ∧ Sample.r.numAddresses.toNat = 16 := by
  refine ⟨?_, ?_, ?_, ?_⟩
  · exact (C49_range_range_partial _ _ Sample.r_valid Sample.r_good Sample.r_valid Sample.r_good).mpr
      ⟨Nat.le_refl _, Nat.le_refl _⟩
  · exact C49_range_never_false _ Sample.r_valid (.address 0x0a000007#32) trivial trivial fun a ha => by
      cases ha; unfold InRange; decide
  · rw [Bool.eq_false_iff, Ne,
      C49_range_contains_partial _ Sample.r_valid Sample.r_good (.address 0x0a000004#32) trivial trivial]
    intro h
    have := h _ rfl
    revert this; unfold InRange; decide
  · rw [C49_range_numAddresses_partial _ Sample.r_valid Sample.r_good]; decide

example : (Prefix.numAddresses (⟨0x0a000000#32, 8⟩ : Prefix (BitVec 32))).toNat = 16777216 := by
  rw [C49_prefix_numAddresses _ (by decide)]; decide

/-- 10.0.0.5-10.0.0.20 holds three prefixes of length 30 (.8, .12, .16) -/
example : (Sample.r.numPrefixes4 30).2 = false := (C20_range4_partial _ Sample.r_valid Sample.r_good 30 (by decide)).1
example := C20_range6_partial ⟨⟨0, 0⟩, ⟨0, 20⟩⟩ (Nat.zero_le _)
  (by rintro ⟨k, _, _, _, h4⟩; exact h4 (Nat.zero_mod _)) 126 (by decide)

end Addrs

import Verif.PropSets
/-
  Properties C15, C19, C20 (per-family counting and address walks).
-/
namespace Addrs
open GoWord LawfulGoWord

/-! ### C15: ipv4 NumAddresses -/

open Classical in
theorem C15_numAddresses (s : IPSet (BitVec 32)) (hs : s.Reachable) :
    s.numAddresses.toNat =
      (List.range (2 ^ 32)).countP (fun k => decide (s.has (BitVec.ofNat 32 k))) ∧
    s.numAddresses.toInt = s.numAddresses.toNat := by
  have h := hs.inv.numAddresses
  have hc := hs.inv.card
  have ew : width (BitVec 32) = 32 := rfl
  rw [ew] at hc
  have hcount : s.numAddresses.toNat =
      (List.range (2 ^ 32)).countP (fun k => decide (s.has (BitVec.ofNat 32 k))) := by
    rw [IPSet.numAddresses, h, ← hc]
    apply List.countP_congr
    intro k _
    simp only [decide_eq_true_eq]
    rw [hs.has_iff]
    exact Iff.rfl
  refine ⟨hcount, ?_⟩
  have hle : s.numAddresses.toNat ≤ 2 ^ 32 := by
    rw [hcount]
    refine Nat.le_trans List.countP_le_length ?_
    rw [List.length_range]; exact Nat.le_refl _
  rw [BitVec.toInt_eq_toNat_of_lt]
  omega

/-! ### C19: ipv4 WalkAddresses -/

/-- Full statement: without the hypothesis that 255.255.255.255 is not in the set.  It is false:
    `C19_never_ends`, `C19_wraps`. -/
theorem C19_walkAddresses_partial (s : IPSet (BitVec 32)) (hs : s.Reachable)
    (hmax : ¬ s.has (BitVec.allOnes 32)) :
    ∃ L : List (BitVec 32),
      (∀ (σ : Type) (cb : BitVec 32 → σ → σ × Bool) (st : σ) (fuel : Nat), 2 ^ 32 < fuel →
        s.walkAddresses fuel cb st = ((visit cb L st).1, some (visit cb L st).2)) ∧
      (L.Pairwise fun a b => a.toNat < b.toNat) ∧ (∀ a, a ∈ L ↔ s.has a) := by
  have hw := hs.inv.prefixes_wf
  refine ⟨s.trie.prefixes.flatMap Prefix.addresses, fun σ cb st fuel hf => ?_, ?_, fun a => ?_⟩
  · refine walkAddresses_visit hw (fun p hp => ?_) fuel hf cb st
    apply Nat.lt_of_not_le
    intro hge
    apply hmax
    rw [hs.has_iff]
    have e : p.broadcast.addr = BitVec.allOnes 32 := by
      apply BitVec.eq_of_toNat_eq
      have := p.broadcast.addr.isLt
      rw [BitVec.toNat_allOnes]; omega
    rw [← e]
    exact hs.inv.prefixes_mem hp (covers_broadcast_addr (hw p hp))
  · have hsort := hs.inv.sorted
    rw [List.pairwise_flatMap]
    refine ⟨fun p hp => addresses_sorted (hw p hp), ?_⟩
    refine hsort.imp_of_mem fun {p q} hp hq h x hx y hy => ?_
    exact h x y ((mem_addresses (hw p hp)).mp hx) ((mem_addresses (hw q hq)).mp hy)
  · rw [hs.has_iff, hs.inv.mem_iff, List.mem_flatMap]
    constructor
    · rintro ⟨p, hp, h⟩; exact ⟨p, hp, (mem_addresses (hw p hp)).mp h⟩
    · rintro ⟨p, hp, h⟩; exact ⟨p, hp, (mem_addresses (hw p hp)).mpr h⟩

/-- On the set {255.255.255.255}, `WalkAddresses` with a callback that always returns true never
    returns. -/
theorem C19_never_ends {σ : Type} (cb : BitVec 32 → σ → σ × Bool) (hcb : ∀ a s, (cb a s).2 = true)
    (st : σ) (fuel : Nat) :
    ((SetI.address (BitVec.allOnes 32)).toSet.walkAddresses fuel cb st).2 = none := by
  have hn : (Prefix.ofAddress (BitVec.allOnes 32)).broadcast.addr = BitVec.allOnes 32 := by decide
  have h := walkAddrLoop_forever cb hcb fuel (Prefix.ofAddress (BitVec.allOnes 32)).network.addr st
  simp only [IPSet.walkAddresses, IPSet.walkPrefixes_eq]
  change (match visit _ [Prefix.ofAddress (BitVec.allOnes 32)] (st, false) with
    | ((st', true), _) => (st', none)
    | ((st', false), b) => (st', some b)).2 = none
  simp only [visit, Prefix.walkAddresses, hn]
  cases hx : walkAddrLoop cb (BitVec.allOnes 32) fuel
    (Prefix.ofAddress (BitVec.allOnes 32)).network.addr st with
  | mk s' o =>
    rw [hx] at h
    simp only at h
    subst h
    rfl

/-- … and visits 0.0.0.0, which is not in the set, as its second address. -/
theorem C19_wraps :
    ((SetI.address (BitVec.allOnes 32)).toSet.walkAddresses 2
      (fun a (l : List (BitVec 32)) => (l ++ [a], true)) []).1 = [BitVec.allOnes 32, 0#32] ∧
    ¬ (SetI.address (BitVec.allOnes 32)).toSet.has (0#32) := by
  constructor
  · simp only [IPSet.walkAddresses, IPSet.walkPrefixes_eq]
    decide
  · rw [C08_address]; decide

/-! ### C20: NumPrefixes -/

open Classical in
theorem C20_numPrefixes4 (s : IPSet (BitVec 32)) (hs : s.Reachable) (n : Nat) (hn : n ≤ 32) :
    (s.numPrefixes4 n).2 = false ∧
    (s.numPrefixes4 n).1.toNat = (List.range (2 ^ n)).countP
      (fun k => s.contains (.prefix ⟨BitVec.ofNat 32 (k * 2 ^ (32 - n)), n⟩)) := by
  refine ⟨rfl, ?_⟩
  have hle := hs.inv.sum_le (n := n) hn
  have hpow : 2 ^ n ≤ 2 ^ 32 := Nat.pow_le_pow_right (by omega) hn
  simp only [IPSet.numPrefixes4, IPSet.walkPrefixes_eq]
  have h := numPrefixes4_sum s.trie.prefixes n hn 0#64
  simp only [Trie.prefixes] at h hle
  rw [h]
  have e0 : (0#64).toNat = 0 := rfl
  rw [e0, Nat.zero_add, Nat.mod_eq_of_lt (by omega)]
  have hc := hs.inv.count (n := n) hn
  simp only [Trie.prefixes] at hc
  rw [← hc]
  apply List.countP_congr
  intro k _
  have hP : (SetI.prefix (nthPrefix (BitVec 32) n k)).Valid := hn
  have hcon := IPSet.contains_iff (s := s) (o := .prefix (nthPrefix (BitVec 32) n k)) hs.inv hP.reachable.inv
  simp only [decide_eq_true_eq]
  show _ ↔ s.contains (.prefix (nthPrefix (BitVec 32) n k)) = true
  rw [hcon]
  constructor
  · intro h x hx; exact h x (SetNode.mem_fromPrefix.mp hx)
  · intro h x hx; exact h x (SetNode.mem_fromPrefix.mpr hx)

open Classical in
theorem C20_numPrefixes6 (s : IPSet U128) (hs : s.Reachable) (n : Nat) (hn : n ≤ 128) :
    let N := (List.range (2 ^ n)).countP
      (fun k => s.contains (.prefix ⟨ofNat U128 (k * 2 ^ (128 - n)), n⟩))
    (N < 2 ^ 64 → (s.numPrefixes6 n).2 = false ∧ (s.numPrefixes6 n).1.toNat = N) ∧
    (2 ^ 64 ≤ N → (s.numPrefixes6 n).2 = true) := by
  intro N
  have hN : N = (s.trie.prefixes.map fun q => if q.len ≤ n then 2 ^ (n - q.len) else 0).sum := by
    rw [← hs.inv.count (n := n) hn]
    apply List.countP_congr
    intro k _
    have hP : (SetI.prefix (nthPrefix U128 n k)).Valid := hn
    have hcon := IPSet.contains_iff (s := s) (o := .prefix (nthPrefix U128 n k)) hs.inv hP.reachable.inv
    simp only [decide_eq_true_eq]
    show s.contains (.prefix (nthPrefix U128 n k)) = true ↔ _
    rw [hcon]
    constructor
    · intro h x hx; exact h x (SetNode.mem_fromPrefix.mpr hx)
    · intro h x hx; exact h x (SetNode.mem_fromPrefix.mp hx)
  have h := numPrefixes6_sum s.trie.prefixes n hn 0#64
  have e0 : (0#64).toNat = 0 := rfl
  simp only [e0, Nat.zero_add, ← hN] at h
  simp only [IPSet.numPrefixes6, IPSet.walkPrefixes_eq]
  exact h

/-- Lengths above the width: IPv4 sets answer (0, nil) … -/
theorem C20_too_long4 (s : IPSet (BitVec 32)) (n : Nat) (hn : 32 < n) :
    s.numPrefixes4 n = (0#64, false) := by
  simp only [IPSet.numPrefixes4, IPSet.walkPrefixes_eq]
  congr 1
  have : ∀ (L : List (Prefix (BitVec 32))) (c : BitVec 64),
      (visit (fun (p : Prefix (BitVec 32)) (count : BitVec 64) => (count + (p.numPrefixes4 n).1, true)) L c).1 = c := by
    intro L
    induction L with
    | nil => intro c; rfl
    | cons p L ih =>
      intro c
      simp only [visit]
      rw [ih]
      simp [Prefix.numPrefixes4, hn]
  exact this _ _

/-- … and IPv6 sets an error, unless they are empty. -/
theorem C20_too_long6 (s : IPSet U128) (hs : s.Reachable) (n : Nat) (hn : 128 < n) :
    (s.numPrefixes6 n).2 = true ↔ ∃ a, s.has a := by
  simp only [IPSet.numPrefixes6, IPSet.walkPrefixes_eq]
  have hm : (∃ a, s.has a) ↔ s.trie.prefixes ≠ [] := by
    constructor
    · rintro ⟨a, ha⟩ h
      rw [hs.has_iff, hs.inv.mem_iff, h] at ha
      obtain ⟨p, hp, _⟩ := ha
      cases hp
    · intro h
      cases hL : s.trie.prefixes with
      | nil => exact absurd hL h
      | cons p L =>
        refine ⟨p.addr, hs.has_iff.mpr (hs.inv.prefixes_mem (p := p) ?_ (Covers.self p))⟩
        rw [hL]; exact List.mem_cons_self ..
  rw [hm]
  simp only [Trie.prefixes]
  cases s.trie.entries.map (·.1) with
  | nil => simp [visit]
  | cons p L =>
    simp [visit, Prefix.numPrefixes6, hn]

/-- `Prefix.NumPrefixes` agrees with the set of the prefix. -/
theorem C20_prefix4 (p : Prefix (BitVec 32)) (n : Nat) (hn : n ≤ 32) :
    p.numPrefixes4 n = (SetI.prefix p).toSet.numPrefixes4 n := by
  have h32 : ¬ 32 < n := by omega
  simp only [IPSet.numPrefixes4, IPSet.walkPrefixes_eq]
  change _ = ((visit _ [p] 0#64).1, false)
  simp only [visit, BitVec.zero_add]
  simp only [Prefix.numPrefixes4, h32, if_false]
  split <;> rfl

theorem C20_prefix6 (p : Prefix U128) (n : Nat) :
    p.numPrefixes6 n = (SetI.prefix p).toSet.numPrefixes6 n := by
  simp only [IPSet.numPrefixes6, IPSet.walkPrefixes_eq]
  have hL : (SetI.prefix p).toSet.trie.entries.map (·.1) = [p] := rfl
  rw [hL]
  simp only [visit]
  have hz : (p.numPrefixes6 n).2 = true → (p.numPrefixes6 n).1 = 0#64 := by
    unfold Prefix.numPrefixes6
    by_cases h1 : 128 < n
    · rw [if_pos h1]; exact fun _ => rfl
    · rw [if_neg h1]
      by_cases h2 : n < p.len
      · rw [if_pos h2]; exact fun _ => rfl
      · rw [if_neg h2]
        by_cases h3 : 63 < n - p.len
        · rw [if_pos h3]; exact fun _ => rfl
        · rw [if_neg h3]; intro h; cases h
  generalize p.numPrefixes6 n = c at hz
  obtain ⟨c, e⟩ := c
  have h0 : ¬ (BitVec.allOnes 64 - c).toNat < (0#64).toNat := Nat.not_lt_zero _
  cases e with
  | true =>
    simp only [if_true]
    have : c = 0#64 := hz rfl
    rw [this]
  | false =>
    simp only [Bool.false_eq_true, if_false, h0, BitVec.zero_add]

/-- the sample sets meet the hypotheses of C15–C20 -/
example : Sample.s.Reachable ∧ Sample.t6.Reachable := ⟨Sample.s_reachable, Sample.t6_reachable⟩

end Addrs

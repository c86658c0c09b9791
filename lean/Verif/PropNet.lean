import Verif.PropValues
set_option linter.unusedSectionVars false
/-
  Property C44: net.IPNet / net.IPMask round trips, dispatch of package ip.
-/
namespace Addrs
open GoWord LawfulGoWord

namespace Net

theorem beNat_replicate_ff : ∀ n, n < 8 → (~~~(0xff#8 >>> n)).toNat = 2 ^ 8 - 2 ^ (8 - n) := by decide

theorem beNat_zeros {l : List (BitVec 8)} (h : ∀ b ∈ l, b = 0#8) : beNat l = 0 := by
  induction l with
  | nil => rfl
  | cons b l ih =>
    rw [beNat_cons, h b List.mem_cons_self, ih fun x hx => h x (List.mem_cons_of_mem _ hx)]
    simp

theorem pow256 (l : Nat) : 256 ^ l = 2 ^ (8 * l) := by
  rw [Nat.pow_mul]

/-- the number written by `CIDRMask` -/
theorem beNat_cidr {l n : Nat} (h : n ≤ 8 * l) :
    beNat (cidrBytes l n) = 2 ^ (8 * l) - 2 ^ (8 * l - n) := by
  induction l generalizing n with
  | zero =>
    have : n = 0 := by omega
    subst this; rfl
  | succ l ih =>
    rw [cidrBytes]
    have hs : 2 ^ (8 * (l + 1)) = 256 * 2 ^ (8 * l) := by
      rw [show 8 * (l + 1) = 8 + 8 * l by omega, Nat.pow_add]
    by_cases h8 : 8 ≤ n
    · rw [if_pos h8, beNat_cons, cidrBytes_length, ih (by omega), pow256, hs,
        show 8 * (l + 1) - n = 8 * l - (n - 8) by omega, show (0xff#8).toNat = 255 by decide]
      have : 2 ^ (8 * l - (n - 8)) ≤ 2 ^ (8 * l) := Nat.pow_le_pow_right (by omega) (by omega)
      omega
    · rw [if_neg h8, beNat_cons, cidrBytes_length, beNat_zeros (cidrBytes_zero l), pow256,
        beNat_replicate_ff n (by omega), hs,
        show 8 * (l + 1) - n = (8 - n) + 8 * l by omega, Nat.pow_add, Nat.sub_mul]
      rfl

theorem size_eq {s : Slice} {n w : Nat} (hw : 0 < w) :
    size s = (n, 8 * w) ↔ n ≤ 8 * w ∧ s = some (cidrBytes w n) := by
  constructor
  · intro h
    unfold size at h
    cases hm : simpleMaskLength (s.getD []) with
    | none => rw [hm] at h; simp only [Prod.mk.injEq] at h; omega
    | some k =>
      rw [hm] at h
      simp only [Prod.mk.injEq] at h
      obtain ⟨rfl, h2⟩ := h
      have hlen : (s.getD []).length = w := by
        have : s.len = w := by omega
        exact this
      obtain ⟨h3, h4⟩ := simpleMaskLength_some hm
      rw [hlen] at h3 h4
      refine ⟨h3, ?_⟩
      cases s with
      | none => simp at hlen; omega
      | some l => simp only [Option.getD_some] at h4; rw [← h4]
  · rintro ⟨h, rfl⟩; exact size_cidr h

end Net

section
variable {α : Type} [LawfulGoWord α]

/-- the byte form of a mask of length `n` is `CIDRMask(n, width)`, and conversely -/
theorem maskFromNetIPMask_iff {w : Nat} (hw : 0 < w) (he : width α = 8 * w) (s : Slice) (m : α) :
    maskFromNetIPMask α s = some m ↔
      ∃ n, n ≤ width α ∧ s = some (Net.cidrBytes w n) ∧ maskFromLength α n = some m := by
  have hsz : ∀ n, Net.size s = (n, 8 * w) ↔ n ≤ 8 * w ∧ s = some (Net.cidrBytes w n) :=
    fun n => Net.size_eq hw
  unfold maskFromNetIPMask
  by_cases hb : (Net.size s).2 = width α
  · rw [if_neg (by simpa using hb)]
    have h1 := (hsz (Net.size s).1).mp (by rw [← he, ← hb])
    cases hm : maskFromLength α ((Net.size s).1 : Int) with
    | none =>
      simp only [reduceCtorEq, false_iff]
      rintro ⟨n, hn, hs, hml⟩
      have := (hsz n).mpr ⟨by omega, hs⟩
      rw [this] at hm
      simp only at hm
      rw [hm] at hml; cases hml
    | some m' =>
      have hv : maskValid m' = true := by
        obtain ⟨g1, g2, g3⟩ := (C02_fromLength _ _).mp hm
        exact maskValid_iff.mpr ⟨(Net.size s).1, by omega, fun i hi => by
          rw [g3 i hi, decide_eq_decide]; omega⟩
      simp only [hv, Bool.not_true, Bool.false_eq_true, if_false]
      constructor
      · intro e
        exact ⟨_, by omega, h1.2, by rw [hm]; exact e⟩
      · rintro ⟨n, hn, hs, hml⟩
        have := (hsz n).mpr ⟨by omega, hs⟩
        rw [this] at hm
        simp only at hm
        rw [← hm]; exact hml
  · rw [if_pos hb]
    simp only [reduceCtorEq, false_iff]
    rintro ⟨n, hn, hs, _⟩
    have := (hsz n).mpr ⟨by omega, hs⟩
    rw [this] at hb
    exact hb (by simp only; omega)

/-- a mask is accepted exactly if its byte string has the family's size, reads as the mask's number and
    is a run of 1s followed by 0s -/
theorem maskFromNetIPMask_bytes {w : Nat} (hw : 0 < w) (he : width α = 8 * w) (s : Slice) (m : α) :
    maskFromNetIPMask α s = some m ↔
      ∃ bs, s = some bs ∧ bs.length = w ∧ beNat bs = toNat m ∧ maskFromWord m = some m := by
  rw [maskFromNetIPMask_iff hw he]
  constructor
  · rintro ⟨n, hn, rfl, hm⟩
    refine ⟨_, rfl, Net.cidrBytes_length _ _, ?_, ?_⟩
    · rw [Net.beNat_cidr (by omega), C02_value _ _ hm, he]; rfl
    · obtain ⟨g1, g2, g3⟩ := (C02_fromLength _ _).mp hm
      exact (C02_fromWord m m).mpr ⟨rfl, n, hn, fun i hi => by rw [g3 i hi, decide_eq_decide]; omega⟩
  · rintro ⟨bs, rfl, hl, hv, hm⟩
    obtain ⟨_, n, hn, hb⟩ := (C02_fromWord m m).mp hm
    have hml : maskFromLength α (n : Int) = some m :=
      (C02_fromLength _ _).mpr ⟨by omega, by omega, fun i hi => by rw [hb i hi, decide_eq_decide]; omega⟩
    refine ⟨n, hn, ?_, hml⟩
    congr 1
    apply beNat_inj
    · rw [hl, Net.cidrBytes_length]
    · rw [hv, Net.beNat_cidr (by omega), C02_value _ _ hml, he]; rfl

theorem toNetIPMask_eq {w : Nat} (he : width α = 8 * w) (h : width α = 32 ∨ width α = 128) (m : α) :
    toNetIPMask m = some (Net.cidrBytes w (maskLength m)) := by
  have hle : maskLength m ≤ width α := lz_le _
  rw [toNetIPMask, Net.cidrMask, if_neg (by omega), if_neg (by omega)]
  congr 2
  omega

theorem maskRoundtrip {w : Nat} (hw : 0 < w) (he : width α = 8 * w) (h : width α = 32 ∨ width α = 128)
    (m : α) (hm : maskFromWord m = some m) : maskFromNetIPMask α (toNetIPMask m) = some m := by
  rw [maskFromNetIPMask_iff hw he]
  refine ⟨maskLength m, lz_le _, toNetIPMask_eq he h m, ?_⟩
  exact C02_inverse.2 m m hm

end

/-! ### masks -/

/-- `MaskFromNetIPMask(m.ToNetIPMask()) = m` for every valid mask of either family. -/
theorem C44_mask_roundtrip :
    (∀ m : BitVec 32, maskFromWord m = some m →
      maskFromNetIPMask (BitVec 32) (toNetIPMask m) = some m) ∧
    (∀ m : U128, maskFromWord m = some m → maskFromNetIPMask U128 (toNetIPMask m) = some m) :=
  ⟨maskRoundtrip (w := 4) (by omega) rfl (.inl rfl), maskRoundtrip (w := 16) (by omega) rfl (.inr rfl)⟩

/-- `MaskFromNetIPMask` accepts exactly the canonical masks of the right size, read big-endian. -/
theorem C44_mask_accepts (s : Slice) :
    (∀ m : BitVec 32, maskFromNetIPMask (BitVec 32) s = some m ↔
      ∃ bs, s = some bs ∧ bs.length = 4 ∧ beNat bs = toNat m ∧ maskFromWord m = some m) ∧
    (∀ m : U128, maskFromNetIPMask U128 s = some m ↔
      ∃ bs, s = some bs ∧ bs.length = 16 ∧ beNat bs = toNat m ∧ maskFromWord m = some m) :=
  ⟨maskFromNetIPMask_bytes (w := 4) (by omega) rfl s, maskFromNetIPMask_bytes (w := 16) (by omega) rfl s⟩

/-! ### prefixes -/

theorem size_cidrMask32 {n : Nat} (h : n ≤ 32) : Net.size (Net.cidrMask n 32) = (n, 32) := by
  rw [Net.cidrMask, if_neg (by omega), if_neg (by omega)]
  exact Net.size_cidr (l := 4) (by omega)

theorem size_cidrMask128 {n : Nat} (h : n ≤ 128) : Net.size (Net.cidrMask n 128) = (n, 128) := by
  rw [Net.cidrMask, if_neg (by omega), if_neg (by omega)]
  exact Net.size_cidr (l := 16) (by omega)

/-- `PrefixFromNetIPNet(p.ToNetIPNet()) = p`, host bits included. -/
theorem C44_net_roundtrip :
    (∀ p : Prefix (BitVec 32), p.len ≤ 32 → V4.prefixFromNetIPNet (V4.toNetIPNet p) = some p) ∧
    (∀ p : Prefix U128, p.len ≤ 128 → V6.prefixFromNetIPNet (V6.toNetIPNet p) = some p) := by
  constructor
  · intro p hp
    simp only [V4.prefixFromNetIPNet, V4.toNetIPNet, size_cidrMask32 hp]
    rw [if_neg (by simp), (C01_v4_roundtrip p.addr).2.1]; rfl
  · intro p hp
    simp only [V6.prefixFromNetIPNet, V6.toNetIPNet, size_cidrMask128 hp]
    rw [if_neg (by simp), (C01_v6_roundtrip p.addr).2.1]; rfl

theorem size_snd_iff {s : Slice} {w : Nat} (hw : 0 < w) :
    (Net.size s).2 = 8 * w ↔ ∃ n, n ≤ 8 * w ∧ s = some (Net.cidrBytes w n) ∧ (Net.size s).1 = n := by
  constructor
  · intro h
    have : Net.size s = ((Net.size s).1, 8 * w) := by rw [← h]
    obtain ⟨h1, h2⟩ := (Net.size_eq hw).mp this
    exact ⟨_, h1, h2, rfl⟩
  · rintro ⟨n, h1, h2, _⟩
    rw [h2, Net.size_cidr h1]

/-- What `PrefixFromNetIPNet` accepts: a non-nil net whose mask is accepted by `MaskFromNetIPMask` and
    whose IP is accepted by `AddressFromNetIP`; the result has that address and the mask's length, which
    never exceeds the width. -/
theorem C44_v4_net_accepts (n : Option IPNet) (p : Prefix (BitVec 32)) :
    V4.prefixFromNetIPNet n = some p ↔
      p.len ≤ 32 ∧ ∃ ip mask, n = some ⟨ip, mask⟩ ∧ V4.addressFromNetIP ip = some p.addr ∧
        ∃ m, maskFromNetIPMask (BitVec 32) mask = some m ∧ maskLength m = p.len := by
  cases n with
  | none => simp [V4.prefixFromNetIPNet]
  | some n =>
    simp only [V4.prefixFromNetIPNet]
    constructor
    · intro h
      by_cases hb : (Net.size n.mask).2 = 32
      · rw [if_neg (by simpa using hb), Option.map_eq_some_iff] at h
        obtain ⟨a, ha, rfl⟩ := h
        obtain ⟨k, hk, hmask, hfst⟩ := (size_snd_iff (s := n.mask) (w := 4) (by omega)).mp hb
        have hml : maskFromLength (BitVec 32) (k : Int) = some (lengthToMask k) := by
          rw [maskFromLength, if_neg]
          · rfl
          · show ¬ ((k : Int) < 0 ∨ ((32 : Nat) : Int) < k); omega
        refine ⟨by simp only; omega, n.ip, n.mask, rfl, ha, lengthToMask k, ?_, ?_⟩
        · exact (maskFromNetIPMask_iff (w := 4) (by omega) rfl _ _).mpr ⟨k, hk, hmask, hml⟩
        · have := C02_inverse.1 _ _ hml
          simp only; omega
      · rw [if_pos hb] at h; cases h
    · rintro ⟨hp, ip, mask, hn, ha, m, hm, hl⟩
      obtain ⟨k, hk, hmask, hml⟩ := (maskFromNetIPMask_iff (w := 4) (by omega) rfl _ _).mp hm
      rw [Option.some.injEq] at hn
      subst hn
      have hk' : k ≤ 8 * 4 := hk
      have hs : Net.size mask = (k, 32) := by rw [hmask]; exact Net.size_cidr (l := 4) hk'
      simp only [hs]
      rw [if_neg (by simp), ha]
      have := C02_inverse.1 _ _ hml
      have e : k = p.len := by omega
      rw [e]; rfl

theorem C44_v6_net_accepts (n : Option IPNet) (p : Prefix U128) :
    V6.prefixFromNetIPNet n = some p ↔
      p.len ≤ 128 ∧ ∃ ip mask, n = some ⟨ip, mask⟩ ∧ V6.addressFromNetIP ip = some p.addr ∧
        ∃ m, maskFromNetIPMask U128 mask = some m ∧ maskLength m = p.len := by
  cases n with
  | none => simp [V6.prefixFromNetIPNet]
  | some n =>
    simp only [V6.prefixFromNetIPNet]
    constructor
    · intro h
      by_cases hb : (Net.size n.mask).2 = 128
      · rw [if_neg (by simpa using hb), Option.map_eq_some_iff] at h
        obtain ⟨a, ha, rfl⟩ := h
        obtain ⟨k, hk, hmask, hfst⟩ := (size_snd_iff (s := n.mask) (w := 16) (by omega)).mp hb
        have hml : maskFromLength U128 (k : Int) = some (lengthToMask k) := by
          rw [maskFromLength, if_neg]
          · rfl
          · show ¬ ((k : Int) < 0 ∨ ((128 : Nat) : Int) < k); omega
        refine ⟨by simp only; omega, n.ip, n.mask, rfl, ha, lengthToMask k, ?_, ?_⟩
        · exact (maskFromNetIPMask_iff (w := 16) (by omega) rfl _ _).mpr ⟨k, hk, hmask, hml⟩
        · have := C02_inverse.1 _ _ hml
          simp only; omega
      · rw [if_pos hb] at h; cases h
    · rintro ⟨hp, ip, mask, hn, ha, m, hm, hl⟩
      obtain ⟨k, hk, hmask, hml⟩ := (maskFromNetIPMask_iff (w := 16) (by omega) rfl _ _).mp hm
      rw [Option.some.injEq] at hn
      subst hn
      have hk' : k ≤ 8 * 16 := hk
      have hs : Net.size mask = (k, 128) := by rw [hmask]; exact Net.size_cidr (l := 16) hk'
      simp only [hs]
      rw [if_neg (by simp), ha]
      have := C02_inverse.1 _ _ hml
      have e : k = p.len := by omega
      rw [e]; rfl

/-- `Prefix.Uint32`/`Uint64` give the address and the mask: putting them together again with
    `AddressFromUint32`, `MaskFromUint32` and `PrefixFromAddressMask` gives the prefix back. -/
theorem C44_uint :
    (∀ p : Prefix (BitVec 32), p.WF → ∃ m, maskFromWord (V4.prefixUint32 p).2 = some m ∧
      prefixFromAddressMask (V4.addressFromUint32 (V4.prefixUint32 p).1) m = p) ∧
    (∀ p : Prefix U128, p.WF → ∃ m,
      V6.maskFromUint64 (V6.prefixUint64 p).2.2.1 (V6.prefixUint64 p).2.2.2 = some m ∧
      prefixFromAddressMask (V6.addressFromUint64 (V6.prefixUint64 p).1 (V6.prefixUint64 p).2.1) m = p) := by
  have key : ∀ {α : Type} [LawfulGoWord α] (p : Prefix α), p.WF →
      ∃ m, maskFromWord p.mask = some m ∧ prefixFromAddressMask p.addr m = p := by
    intro α _ p hp
    have hp : p.len ≤ width α := hp
    have h1 : maskFromLength α p.len = some p.mask := by
      rw [maskFromLength, if_neg (by omega)]; rfl
    have h2 := (C02_fromLength _ _).mp h1
    have h3 : maskFromWord p.mask = some p.mask :=
      (C02_fromWord _ _).mpr ⟨rfl, p.len, hp, fun i hi => by rw [h2.2.2 i hi, decide_eq_decide]; omega⟩
    refine ⟨p.mask, h3, ?_⟩
    have := C02_inverse.1 _ _ h1
    have e : maskLength p.mask = p.len := by omega
    rw [prefixFromAddressMask, e]
  exact ⟨fun p hp => key p hp, fun p hp => key p hp⟩

example : V4.prefixUint32 ⟨0x0a000001#32, 24⟩ = (0x0a000001#32, 0xffffff00#32) := by decide
example : V6.prefixUint64 ⟨⟨1#64, 2#64⟩, 72⟩ = (1#64, 2#64, 0xffffffffffffffff#64, 0xff00000000000000#64) := by decide

/-- `PrefixFromAddressMask` has the address and mask it was given. -/
theorem C44_addressMask {α : Type} [LawfulGoWord α] (a m : α) (hm : maskFromWord m = some m) :
    (prefixFromAddressMask a m).addr = a ∧ (prefixFromAddressMask a m).mask = m ∧
    (prefixFromAddressMask a m).len ≤ width α := by
  refine ⟨rfl, ?_, lz_le _⟩
  have h := C02_inverse.2 m m hm
  rw [maskFromLength] at h
  split at h
  · cases h
  · exact Option.some.inj h

/-! ### package ip -/

theorem len_some {bs : List (BitVec 8)} : Slice.len (some bs) = bs.length := rfl

/-- `ip.AddressFromNetIP`: 4 bytes give an IPv4 address, 16 bytes an IPv6 address, anything else is an
    error. -/
theorem C44_ip_address (ip : Slice) (r : IP.Address) :
    IP.addressFromNetIP ip = some r ↔
      (ip.len = 4 ∧ ∃ a, V4.addressFromNetIP ip = some a ∧ r = .v4 a) ∨
      (ip.len = 16 ∧ ∃ a, V6.addressFromNetIP ip = some a ∧ r = .v6 a) := by
  rw [IP.addressFromNetIP]
  by_cases h16 : ip.len = 16
  · rw [if_pos h16, Option.map_eq_some_iff]
    constructor
    · rintro ⟨a, h1, h2⟩; exact .inr ⟨h16, a, h1, h2.symm⟩
    · rintro (⟨h, _⟩ | ⟨_, a, h1, h2⟩)
      · omega
      · exact ⟨a, h1, h2.symm⟩
  · rw [if_neg h16]
    by_cases h4 : ip.len = 4
    · rw [if_pos h4, Option.map_eq_some_iff]
      constructor
      · rintro ⟨a, h1, h2⟩; exact .inl ⟨h4, a, h1, h2.symm⟩
      · rintro (⟨_, a, h1, h2⟩ | ⟨h, _⟩)
        · exact ⟨a, h1, h2.symm⟩
        · omega
    · rw [if_neg h4]
      constructor
      · intro h; cases h
      · rintro (⟨h, _⟩ | ⟨h, _⟩) <;> omega

theorem C44_ip_address_roundtrip :
    (∀ a : BitVec 32, IP.addressFromNetIP (V4.toNetIP a) = some (.v4 a)) ∧
    (∀ a : U128, IP.addressFromNetIP (V6.toNetIP a) = some (.v6 a)) := by
  constructor
  · intro a
    rw [C44_ip_address]
    obtain ⟨bs, h1, h2, _⟩ := C01_v4_toNetIP a
    exact .inl ⟨by rw [h1]; exact h2, a, (C01_v4_roundtrip a).2.1, rfl⟩
  · intro a
    rw [C44_ip_address]
    obtain ⟨bs, h1, h2, _⟩ := C01_v6_toNetIP a
    exact .inr ⟨by rw [h1]; exact h2, a, (C01_v6_roundtrip a).2.1, rfl⟩

/-- `ip.PrefixFromAddressMask` and `ip.RangeFromAddresses` reject mixed families (and foreign types),
    and otherwise return what the family's package returns. -/
theorem C44_ip_families (a b : IP.Address) (m : IP.Mask) :
    (∀ r, IP.prefixFromAddressMask a m = some r ↔
      (∃ x y, a = .v4 x ∧ m = .v4 y ∧ r = .v4 (prefixFromAddressMask x y)) ∨
      (∃ x y, a = .v6 x ∧ m = .v6 y ∧ r = .v6 (prefixFromAddressMask x y))) ∧
    (∀ r, IP.rangeFromAddresses a b = some r ↔
      (∃ x y, a = .v4 x ∧ b = .v4 y ∧
        r = (.v4 (Range.fromAddresses x y).1, (Range.fromAddresses x y).2)) ∨
      (∃ x y, a = .v6 x ∧ b = .v6 y ∧
        r = (.v6 (Range.fromAddresses x y).1, (Range.fromAddresses x y).2))) := by
  constructor
  · intro r
    cases a <;> cases m <;> simp [IP.prefixFromAddressMask, eq_comm]
  · intro r
    cases a <;> cases b <;> simp [IP.rangeFromAddresses, eq_comm]

/-- `ip.MaskFromNetIPMask` accepts exactly what one of the families accepts. -/
theorem C44_ip_mask (s : Slice) (r : IP.Mask) :
    IP.maskFromNetIPMask s = some r ↔
      (∃ m, maskFromNetIPMask (BitVec 32) s = some m ∧ r = .v4 m) ∨
      (∃ m, maskFromNetIPMask U128 s = some m ∧ r = .v6 m) := by
  have h4 := fun m => maskFromNetIPMask_iff (α := BitVec 32) (w := 4) (by omega) rfl s m
  have h6 := fun m => maskFromNetIPMask_iff (α := U128) (w := 16) (by omega) rfl s m
  rw [IP.maskFromNetIPMask]
  constructor
  · intro h
    by_cases hgt : (Net.size s).1 > (Net.size s).2
    · rw [if_pos hgt] at h; cases h
    rw [if_neg hgt] at h
    by_cases hb6 : (Net.size s).2 = 8 * 16
    · rw [if_pos hb6, Option.map_eq_some_iff] at h
      obtain ⟨m, hm, rfl⟩ := h
      obtain ⟨k, hk, hs, hf⟩ := (size_snd_iff (w := 16) (by omega)).mp hb6
      rw [hf] at hm
      exact .inr ⟨m, (h6 m).mpr ⟨k, hk, hs, hm⟩, rfl⟩
    · rw [if_neg hb6] at h
      by_cases hb4 : (Net.size s).2 = 8 * 4
      · rw [if_pos hb4, Option.map_eq_some_iff] at h
        obtain ⟨m, hm, rfl⟩ := h
        obtain ⟨k, hk, hs, hf⟩ := (size_snd_iff (w := 4) (by omega)).mp hb4
        rw [hf] at hm
        exact .inl ⟨m, (h4 m).mpr ⟨k, hk, hs, hm⟩, rfl⟩
      · rw [if_neg hb4] at h; cases h
  · rintro (⟨m, hm, rfl⟩ | ⟨m, hm, rfl⟩)
    · obtain ⟨k, hk, hs, hml⟩ := (h4 m).mp hm
      have hk' : k ≤ 8 * 4 := hk
      have hsz : Net.size s = (k, 8 * 4) := by rw [hs]; exact Net.size_cidr hk'
      rw [hsz]
      simp only
      rw [if_neg (by omega), if_neg (by omega), if_pos trivial, hml]; rfl
    · obtain ⟨k, hk, hs, hml⟩ := (h6 m).mp hm
      have hk' : k ≤ 8 * 16 := hk
      have hsz : Net.size s = (k, 8 * 16) := by rw [hs]; exact Net.size_cidr hk'
      rw [hsz]
      simp only
      rw [if_neg (by omega), if_pos trivial, hml]; rfl

/-- `ip.PrefixFromNetIPNet` dispatches on the size of the IP, and is inverse to `ToNetIPNet`. -/
theorem C44_ip_net (n : Option IPNet) (r : IP.Pfx) :
    IP.prefixFromNetIPNet n = some r ↔
      (∃ x, n = some x ∧ x.ip.len = 4 ∧ ∃ p, V4.prefixFromNetIPNet n = some p ∧ r = .v4 p) ∨
      (∃ x, n = some x ∧ x.ip.len = 16 ∧ ∃ p, V6.prefixFromNetIPNet n = some p ∧ r = .v6 p) := by
  cases n with
  | none => simp [IP.prefixFromNetIPNet]
  | some n =>
    simp only [IP.prefixFromNetIPNet]
    by_cases h16 : n.ip.len = 16
    · rw [if_pos h16, Option.map_eq_some_iff]
      constructor
      · rintro ⟨a, h1, h2⟩; exact .inr ⟨n, rfl, h16, a, h1, h2.symm⟩
      · rintro (⟨x, hx, h, _⟩ | ⟨x, hx, _, a, h1, h2⟩)
        · rw [Option.some.injEq] at hx; subst hx; omega
        · exact ⟨a, h1, h2.symm⟩
    · rw [if_neg h16]
      by_cases h4 : n.ip.len = 4
      · rw [if_pos h4, Option.map_eq_some_iff]
        constructor
        · rintro ⟨a, h1, h2⟩; exact .inl ⟨n, rfl, h4, a, h1, h2.symm⟩
        · rintro (⟨x, hx, _, a, h1, h2⟩ | ⟨x, hx, h, _⟩)
          · exact ⟨a, h1, h2.symm⟩
          · rw [Option.some.injEq] at hx; subst hx; omega
      · rw [if_neg h4]
        constructor
        · intro h; cases h
        · rintro (⟨x, hx, h, _⟩ | ⟨x, hx, h, _⟩) <;> rw [Option.some.injEq] at hx <;> subst hx <;> omega

theorem C44_ip_net_roundtrip :
    (∀ p : Prefix (BitVec 32), p.len ≤ 32 → IP.prefixFromNetIPNet (V4.toNetIPNet p) = some (.v4 p)) ∧
    (∀ p : Prefix U128, p.len ≤ 128 → IP.prefixFromNetIPNet (V6.toNetIPNet p) = some (.v6 p)) := by
  constructor
  · intro p hp
    rw [C44_ip_net]
    obtain ⟨bs, h1, h2, _⟩ := C01_v4_toNetIP p.addr
    exact .inl ⟨_, rfl, by simp only; rw [h1]; exact h2, p, C44_net_roundtrip.1 p hp, rfl⟩
  · intro p hp
    rw [C44_ip_net]
    obtain ⟨bs, h1, h2, _⟩ := C01_v6_toNetIP p.addr
    exact .inr ⟨_, rfl, by simp only; rw [h1]; exact h2, p, C44_net_roundtrip.2 p hp, rfl⟩

/-- The accessors of package ip return the family's answer, and nil for foreign types; taking a prefix
    apart into address and mask and combining them gives it back. -/
theorem C44_ip_accessors :
    (∀ p : Prefix (BitVec 32), p.len ≤ 32 →
      IP.prefixFromAddressMask (IP.addressFromPrefix (.v4 p)) (IP.maskFromPrefix (.v4 p)) = some (.v4 p)) ∧
    (∀ p : Prefix U128, p.len ≤ 128 →
      IP.prefixFromAddressMask (IP.addressFromPrefix (.v6 p)) (IP.maskFromPrefix (.v6 p)) = some (.v6 p)) ∧
    (∀ a : BitVec 32, IP.prefixFromAddress (.v4 a) = .v4 ⟨a, 32⟩ ∧
      IP.addressFromPrefix (IP.prefixFromAddress (.v4 a)) = .v4 a) ∧
    (∀ a : U128, IP.prefixFromAddress (.v6 a) = .v6 ⟨a, 128⟩ ∧
      IP.addressFromPrefix (IP.prefixFromAddress (.v6 a)) = .v6 a) ∧
    (∀ p : Prefix (BitVec 32), p.len ≤ 32 →
      IP.firstFromRange (IP.rangeFromPrefix (.v4 p)) = .v4 p.network.addr ∧
      IP.lastFromRange (IP.rangeFromPrefix (.v4 p)) = .v4 p.broadcast.addr) ∧
    (∀ p : Prefix U128, p.len ≤ 128 →
      IP.firstFromRange (IP.rangeFromPrefix (.v6 p)) = .v6 p.network.addr ∧
      IP.lastFromRange (IP.rangeFromPrefix (.v6 p)) = .v6 p.broadcast.addr) ∧
    IP.prefixFromAddress .other = .other ∧ IP.addressFromPrefix .other = .other ∧
    IP.maskFromPrefix .other = .other ∧ IP.rangeFromPrefix .other = .other ∧
    IP.firstFromRange .other = .other ∧ IP.lastFromRange .other = .other := by
  have key : ∀ {α : Type} [LawfulGoWord α] (p : Prefix α), p.len ≤ width α →
      prefixFromAddressMask p.addr p.mask = p := by
    intro α _ p hp
    rw [prefixFromAddressMask, Prefix.mask, (isMask_lengthToMask hp).length]
  refine ⟨fun p hp => ?_, fun p hp => ?_, fun a => ⟨rfl, rfl⟩, fun a => ⟨rfl, rfl⟩, fun p hp => ?_,
    fun p hp => ?_, rfl, rfl, rfl, rfl, rfl, rfl⟩
  · simp only [IP.addressFromPrefix, IP.maskFromPrefix, IP.prefixFromAddressMask]
    rw [key p hp]
  · simp only [IP.addressFromPrefix, IP.maskFromPrefix, IP.prefixFromAddressMask]
    rw [key p hp]
  · simp only [IP.rangeFromPrefix, IP.firstFromRange, IP.lastFromRange]
    rw [range_eq (α := BitVec 32) hp]; exact ⟨rfl, rfl⟩
  · simp only [IP.rangeFromPrefix, IP.firstFromRange, IP.lastFromRange]
    rw [range_eq (α := U128) hp]; exact ⟨rfl, rfl⟩

example : V4.prefixFromNetIPNet (some ⟨some [10, 0, 0, 5], some [255, 255, 255, 0]⟩)
    = some ⟨0x0a000005#32, 24⟩ := by decide
example : V4.prefixFromNetIPNet (some ⟨some [10, 0, 0, 5], some [255, 0, 255, 0]⟩) = none := by decide
example : IP.prefixFromAddressMask (.v4 0x0a000005#32) (.v6 ⟨0, 0⟩) = none := by decide

end Addrs

import Verif.BytesProofs
set_option linter.unusedSectionVars false
/-
  Properties C01-C07, C43: addresses, masks, prefixes, ranges as values.

  Specification vocabulary: `beNat` (the number a byte string writes, most significant byte first),
  `IsMask n` (the `n` leading bits are 1 and the others 0), `toNat` (the address as a number),
  `InPrefix`, `InRange`, `blockSize` (`Verif/Spec.lean`).
-/
namespace Addrs
open GoWord LawfulGoWord

/-! ### C01: bytes and integers -/

/-- `ipv4.AddressFromSlice` accepts exactly the byte strings of length 4, read big-endian; nil and
    every other length is an error. -/
theorem C01_v4_fromSlice (s : Slice) (a : BitVec 32) :
    V4.addressFromSlice s = some a ↔ ∃ bs, s = some bs ∧ bs.length = 4 ∧ beNat bs = a.toNat := by
  constructor
  · intro h
    unfold V4.addressFromSlice V4.fromSlice at h
    split at h
    · cases h
    · rename_i b c d e
      refine ⟨_, rfl, rfl, ?_⟩
      rw [← V4.toNat_addressFromBytes]
      rw [Option.some.inj h]
    · cases h
  · rintro ⟨bs, rfl, hl, hv⟩
    match bs, hl with
    | [b, c, d, e], _ =>
      show some (V4.addressFromBytes b c d e) = some a
      rw [← V4.toNat_addressFromBytes] at hv
      rw [BitVec.eq_of_toNat_eq hv]

/-- `ipv4.Address.ToNetIP` is the 4-byte big-endian form. -/
theorem C01_v4_toNetIP (a : BitVec 32) :
    ∃ bs, V4.toNetIP a = some bs ∧ bs.length = 4 ∧ beNat bs = a.toNat := by
  refine ⟨[(V4.toBytes a).1, (V4.toBytes a).2.1, (V4.toBytes a).2.2.1, (V4.toBytes a).2.2.2], ?_, rfl,
    V4.toBytes_beNat a⟩
  rw [V4.toNetIP, Net.ipv4, Net.to4, if_pos]
  exact ⟨by decide, rfl, rfl⟩

/-- bytes -> address -> bytes and address -> bytes -> address are identities -/
theorem C01_v4_roundtrip (a : BitVec 32) :
    V4.addressFromSlice (V4.toNetIP a) = some a ∧ V4.addressFromNetIP (V4.toNetIP a) = some a ∧
    V4.uint32 (V4.addressFromUint32 a) = a := by
  obtain ⟨bs, h1, h2, h3⟩ := C01_v4_toNetIP a
  have h4 : V4.addressFromSlice (V4.toNetIP a) = some a := (C01_v4_fromSlice _ a).mpr ⟨bs, h1, h2, h3⟩
  refine ⟨h4, ?_, rfl⟩
  rw [V4.addressFromNetIP]
  have : Net.to4 (V4.toNetIP a) = V4.toNetIP a := by
    rw [h1]
    match bs, h2 with
    | [b, c, d, e], _ => rfl
  rw [this]; exact h4

/-- every byte string of length 4 is the byte form of exactly one address -/
theorem C01_v4_unique (bs : List (BitVec 8)) (h : bs.length = 4) :
    ∃ a, V4.toNetIP a = some bs ∧ V4.addressFromSlice (some bs) = some a ∧
      ∀ a', V4.toNetIP a' = some bs → a' = a := by
  obtain ⟨a, ha⟩ : ∃ a, V4.addressFromSlice (some bs) = some a := by
    match bs, h with
    | [b, c, d, e], _ => exact ⟨_, rfl⟩
  obtain ⟨_, hb, _, hv⟩ := (C01_v4_fromSlice _ a).mp ha
  rw [Option.some.injEq] at hb
  subst hb
  obtain ⟨cs, h1, h2, h3⟩ := C01_v4_toNetIP a
  have : cs = bs := beNat_inj (by rw [h2, h]) (by rw [h3, hv])
  subst this
  refine ⟨a, h1, ha, fun a' ha' => ?_⟩
  have := (C01_v4_roundtrip a').1
  rw [ha'] at this
  rw [ha] at this
  exact (Option.some.inj this).symm

/-- `ipv4.AddressFromNetIP` accepts exactly the 4-byte form and its 16-byte v4-in-v6 form. -/
theorem C01_v4_fromNetIP (ip : Slice) (a : BitVec 32) :
    V4.addressFromNetIP ip = some a ↔
      ∃ bs, bs.length = 4 ∧ beNat bs = a.toNat ∧
        (ip = some bs ∨ ip = some ([0, 0, 0, 0, 0, 0, 0, 0, 0, 0, 255, 255] ++ bs)) := by
  rw [V4.addressFromNetIP]
  change V4.addressFromSlice (Net.to4 ip) = some a ↔ _
  rw [C01_v4_fromSlice]
  constructor
  · rintro ⟨bs, h1, h2, h3⟩
    refine ⟨bs, h2, h3, ?_⟩
    unfold Net.to4 at h1
    split at h1
    · left; rw [← h1]
    · rename_i z0 z1 z2 z3 z4 z5 z6 z7 z8 z9 f0 f1 x y z w
      by_cases hc : (∀ z ∈ [z0, z1, z2, z3, z4, z5, z6, z7, z8, z9], z = 0#8) ∧ f0 = 0xff#8 ∧ f1 = 0xff#8
      · rw [if_pos hc] at h1
        right
        obtain ⟨hz, hf0, hf1⟩ := hc
        simp only [List.mem_cons, List.not_mem_nil, or_false, forall_eq_or_imp, forall_eq] at hz
        obtain ⟨e0, e1, e2, e3, e4, e5, e6, e7, e8, e9⟩ := hz
        rw [← Option.some.inj h1, e0, e1, e2, e3, e4, e5, e6, e7, e8, e9, hf0, hf1]
        rfl
      · rw [if_neg hc] at h1; cases h1
    · cases h1
  · rintro ⟨bs, h2, h3, h | h⟩
    · refine ⟨bs, ?_, h2, h3⟩
      subst h
      match bs, h2 with
      | [b, c, d, e], _ => rfl
    · refine ⟨bs, ?_, h2, h3⟩
      subst h
      match bs, h2 with
      | [b, c, d, e], _ =>
        show Net.to4 (some [0, 0, 0, 0, 0, 0, 0, 0, 0, 0, 255, 255, b, c, d, e]) = _
        rw [Net.to4, if_pos]
        exact ⟨by decide, rfl, rfl⟩

/-- `ipv6.AddressFromSlice` and `AddressFromNetIP` accept exactly the byte strings of length 16, read
    big-endian. -/
theorem C01_v6_fromSlice (s : Slice) (a : U128) :
    V6.addressFromSlice s = some a ↔
      ∃ bs, s = some bs ∧ bs.length = 16 ∧ beNat bs = a.high.toNat * 2 ^ 64 + a.low.toNat := by
  have key : ∀ (h l : List (BitVec 8)), l.length = 8 →
      beNat (h ++ l) = beNat h * 2 ^ 64 + beNat l := by
    intro h l hl
    rw [beNat_append, hl, show (256 : Nat) ^ 8 = 2 ^ 64 by decide]
  constructor
  · intro h
    unfold V6.addressFromSlice V6.fromSlice at h
    split at h
    · cases h
    · rename_i l
      by_cases hl : l.length = 16
      · refine ⟨l, rfl, hl, ?_⟩
        rw [if_neg (by simpa using hl)] at h
        unfold V6.uint128FromBytes at h
        split at h
        · cases h
        · rename_i s0 s1 s2 s3 s4 s5 s6 s7 s8 s9 s10 s11 s12 s13 s14 s15 heq
          rw [Option.some.injEq] at heq
          subst heq
          rw [← Option.some.inj h, V6.toNat_word64, V6.toNat_word64, ← key _ _ rfl]
          rfl
        · cases h
      · rw [if_pos hl] at h; cases h
  · rintro ⟨bs, rfl, hl, hv⟩
    match bs, hl with
    | [s0, s1, s2, s3, s4, s5, s6, s7, s8, s9, s10, s11, s12, s13, s14, s15], _ =>
      show some (⟨V6.word64 s0 s1 s2 s3 s4 s5 s6 s7, V6.word64 s8 s9 s10 s11 s12 s13 s14 s15⟩ : U128)
        = some a
      have e := key [s0, s1, s2, s3, s4, s5, s6, s7] [s8, s9, s10, s11, s12, s13, s14, s15] rfl
      rw [← V6.toNat_word64, ← V6.toNat_word64] at e
      have hv' := e.symm.trans hv
      congr 1
      apply U128.toBV_inj
      apply BitVec.eq_of_toNat_eq
      rw [U128.toNat_toBV, U128.toNat_toBV]
      exact hv'

theorem C01_v6_fromNetIP (s : Slice) : V6.addressFromNetIP s = V6.addressFromSlice s := rfl

theorem C01_v6_toNetIP (a : U128) :
    ∃ bs, V6.toNetIP a = some bs ∧ bs.length = 16 ∧
      beNat bs = a.high.toNat * 2 ^ 64 + a.low.toNat := by
  refine ⟨V6.toBytes a, rfl, V6.toBytes_length a, ?_⟩
  rw [V6.toBytes_beNat]
  exact U128.toNat_toBV a

theorem C01_v6_roundtrip (a : U128) :
    V6.addressFromSlice (V6.toNetIP a) = some a ∧ V6.addressFromNetIP (V6.toNetIP a) = some a ∧
    V6.addressFromUint64 (V6.uint64 a).1 (V6.uint64 a).2 = a := by
  have h := (C01_v6_fromSlice (V6.toNetIP a) a).mpr (C01_v6_toNetIP a)
  exact ⟨h, h, rfl⟩

theorem C01_v6_unique (bs : List (BitVec 8)) (h : bs.length = 16) :
    ∃ a, V6.toNetIP a = some bs ∧ V6.addressFromSlice (some bs) = some a ∧
      ∀ a', V6.toNetIP a' = some bs → a' = a := by
  obtain ⟨a, ha⟩ : ∃ a, V6.addressFromSlice (some bs) = some a := by
    match bs, h with
    | [s0, s1, s2, s3, s4, s5, s6, s7, s8, s9, s10, s11, s12, s13, s14, s15], _ => exact ⟨_, rfl⟩
  obtain ⟨_, hb, _, hv⟩ := (C01_v6_fromSlice _ a).mp ha
  rw [Option.some.injEq] at hb
  subst hb
  obtain ⟨cs, h1, h2, h3⟩ := C01_v6_toNetIP a
  have : cs = bs := beNat_inj (by rw [h2, h]) (by rw [h3, hv])
  subst this
  refine ⟨a, h1, ha, fun a' ha' => ?_⟩
  have := (C01_v6_roundtrip a').1
  rw [ha'] at this
  rw [ha] at this
  exact (Option.some.inj this).symm

/-- `ipv4.AddressFromBytes`: four bytes, most significant first -/
theorem C01_v4_fromBytes (a b c d : BitVec 8) :
    (V4.addressFromBytes a b c d).toNat = [a, b, c, d].foldl (fun n x => n * 256 + x.toNat) 0 := by
  rw [V4.toNat_addressFromBytes]
  rfl

/-- `ipv6.AddressFromUint16`: eight 16-bit groups, most significant first -/
theorem C01_v6_uint16 (a b c d e f g h : BitVec 16) :
    toNat (V6.addressFromUint16 a b c d e f g h) =
      [a, b, c, d, e, f, g, h].foldl (fun n x => n * 65536 + x.toNat) 0 := by
  show (U128.toBV _).toNat = _
  rw [U128.toNat_toBV, V6.addressFromUint16]
  simp only [V6.toNat_uint16, List.foldl_cons, List.foldl_nil]
  omega

example : V4.toNetIP 0x0a000102#32 = some [10, 0, 1, 2] := by decide
example : V4.addressFromSlice (some [10, 0, 1, 2]) = some 0x0a000102#32 := by decide
example : V4.addressFromSlice (some [10, 0, 1]) = none ∧ V4.addressFromSlice none = none := by decide
example : V6.addressFromSlice (V6.toNetIP ⟨0x20010db800000000#64, 1#64⟩)
    = some ⟨0x20010db800000000#64, 1#64⟩ := by decide
example : V6.addressFromUint16 0x2001#16 0xdb8#16 0 0 0 0 0 1#16 = ⟨0x20010db800000000#64, 1#64⟩ := by
  decide

/-! ### C02: masks -/
section
variable {α : Type} [LawfulGoWord α]

/-- `MaskFromUint32` / `MaskFromUint64` succeed exactly on a run of 1s followed by 0s. -/
theorem C02_fromWord (ui m : α) :
    maskFromWord ui = some m ↔ m = ui ∧ ∃ n, n ≤ width α ∧
      ∀ i, i < width α → bit ui i = decide (i < n) := by
  rw [maskFromWord]
  by_cases h : maskValid ui = true
  · rw [h, if_neg (by simp)]
    constructor
    · intro e; exact ⟨(Option.some.inj e).symm, maskValid_iff.mp h⟩
    · rintro ⟨e, _⟩; rw [e]
  · rw [if_pos (by simpa using h)]
    constructor
    · intro e; cases e
    · rintro ⟨_, hn⟩; exact absurd (maskValid_iff.mpr hn) h

/-- `MaskFromLength` succeeds exactly for 0..width and sets exactly the leading bits. -/
theorem C02_fromLength (k : Int) (m : α) :
    maskFromLength α k = some m ↔ 0 ≤ k ∧ k ≤ width α ∧
      ∀ i, i < width α → bit m i = decide ((i : Int) < k) := by
  rw [maskFromLength]
  by_cases h : k < 0 ∨ (width α : Int) < k
  · rw [if_pos h]
    constructor
    · intro e; cases e
    · rintro ⟨h1, h2, _⟩; omega
  · rw [if_neg h]
    have hk : k.toNat ≤ width α := by omega
    have hd : ∀ i : Nat, decide ((i : Int) < k) = decide (i < k.toNat) := by
      intro i; rw [decide_eq_decide]; omega
    constructor
    · intro e
      refine ⟨by omega, by omega, fun i hi => ?_⟩
      rw [← Option.some.inj e, bit_lengthToMask hk hi, hd]
    · rintro ⟨_, _, h3⟩
      congr 1
      apply ext_bit
      intro i hi
      rw [bit_lengthToMask hk hi, h3 i hi, hd]

/-- the numeric value of a mask of length `n` -/
theorem C02_value (k : Int) (m : α) (h : maskFromLength α k = some m) :
    toNat m = 2 ^ width α - 2 ^ (width α - k.toNat) := by
  obtain ⟨h1, h2, h3⟩ := (C02_fromLength k m).mp h
  have hk : k.toNat ≤ width α := by omega
  have e : m = (Prefix.network (⟨ones, k.toNat⟩ : Prefix α)).addr := by
    apply ext_bit
    intro i hi
    rw [bit_network (p := ⟨ones, k.toNat⟩) hk, h3 i hi, bit_ones hi, Bool.and_true, decide_eq_decide]
    simp only; omega
  rw [e, toNat_network (p := ⟨ones, k.toNat⟩) hk]
  simp only
  have eo : toNat (ones : α) = 2 ^ width α - 1 := by rw [toNat, toBV_ones, BitVec.toNat_allOnes]
  rw [eo]
  have hs : 2 ^ width α = 2 ^ k.toNat * 2 ^ (width α - k.toNat) := by
    rw [← Nat.pow_add]; congr 1; omega
  have hp1 : 0 < 2 ^ k.toNat := Nat.pow_pos (by omega)
  have hp2 : 0 < 2 ^ (width α - k.toNat) := Nat.pow_pos (by omega)
  rw [hs]
  generalize 2 ^ k.toNat = a at *
  generalize 2 ^ (width α - k.toNat) = b at *
  have : (a * b - 1) / b = a - 1 := by
    apply Nat.div_eq_of_lt_le
    · rw [Nat.sub_mul]; have := Nat.le_mul_of_pos_left b hp1; omega
    · rw [Nat.sub_add_cancel hp1]; have := Nat.mul_pos hp1 hp2; omega
  rw [this, Nat.sub_mul, Nat.one_mul]

/-- `Length` and `MaskFromLength` are mutually inverse. -/
theorem C02_inverse :
    (∀ (k : Int) (m : α), maskFromLength α k = some m → (maskLength m : Int) = k) ∧
    (∀ ui m : α, maskFromWord ui = some m → maskFromLength α (maskLength m) = some m) := by
  constructor
  · intro k m h
    obtain ⟨h1, h2, h3⟩ := (C02_fromLength k m).mp h
    have : IsMask k.toNat m := ⟨by omega, fun i hi => by rw [h3 i hi, decide_eq_decide]; omega⟩
    rw [this.length]; omega
  · intro ui m h
    obtain ⟨rfl, n, hn, hb⟩ := (C02_fromWord ui m).mp h
    have hm : IsMask n m := ⟨hn, hb⟩
    rw [hm.length, C02_fromLength]
    exact ⟨by omega, by omega, fun i hi => by rw [hb i hi, decide_eq_decide]; omega⟩

end

/-- `ipv4.MaskFromBytes` is `MaskFromUint32` on the big-endian number; `ipv6.MaskFromUint16` and
    `MaskFromUint64` likewise. -/
theorem C02_fromBytes :
    (∀ a b c d, V4.maskFromBytes a b c d =
      maskFromWord (BitVec.ofNat 32 (beNat [a, b, c, d]))) ∧
    (∀ h l m, V6.maskFromUint64 h l = some m ↔ maskFromWord (⟨h, l⟩ : U128) = some m) ∧
    (∀ a b c d e f g h, V6.maskFromUint16 a b c d e f g h =
      maskFromWord (V6.addressFromUint16 a b c d e f g h)) := by
  refine ⟨fun a b c d => ?_, fun _ _ _ => Iff.rfl, fun _ _ _ _ _ _ _ _ => rfl⟩
  rw [← V4.toNat_addressFromBytes, BitVec.ofNat_toNat, BitVec.setWidth_eq]
  rfl

example : maskFromWord 0xffffff00#32 = some 0xffffff00#32 := by decide
example : maskFromWord 0xff00ff00#32 = none := by decide
example : maskFromLength (BitVec 32) 24 = some 0xffffff00#32 := by decide
example : maskFromLength (BitVec 32) 33 = none ∧ maskFromLength (BitVec 32) (-1) = none := by decide
example : maskFromLength U128 64 = some ⟨BitVec.allOnes 64, 0⟩ := by decide

/-! ### C03: 128-bit arithmetic -/

/-- the number a pair of 64-bit words stands for -/
def U128.val (a : U128) : Nat := a.high.toNat * 2 ^ 64 + a.low.toNat

theorem U128.val_eq (a : U128) : a.val = (U128.toBV a).toNat := (U128.toNat_toBV a).symm

theorem C03_bitwise (a b : U128) :
    (a.and b).val = a.val &&& b.val ∧ (a.or b).val = a.val ||| b.val ∧
    (a.xor b).val = a.val ^^^ b.val ∧ a.complement.val = 2 ^ 128 - 1 - a.val := by
  simp only [U128.val_eq, U128.toBV_and, U128.toBV_or, U128.toBV_xor, U128.toBV_complement,
    BitVec.toNat_and, BitVec.toNat_or, BitVec.toNat_xor, BitVec.toNat_not]
  exact ⟨trivial, trivial, trivial, trivial⟩

theorem C03_shifts (a : U128) (n : Nat) :
    (a.leftShift n).val = a.val * 2 ^ n % 2 ^ 128 ∧ (a.rightShift n).val = a.val / 2 ^ n := by
  simp only [U128.val_eq, U128.toBV_leftShift, U128.toBV_rightShift, BitVec.toNat_shiftLeft,
    BitVec.toNat_ushiftRight, Nat.shiftLeft_eq, Nat.shiftRight_eq_div_pow]
  exact ⟨trivial, trivial⟩

theorem C03_addSub (a : U128) (x : BitVec 64) :
    (a.addUint64 x).val = (a.val + x.toNat) % 2 ^ 128 ∧
    (a.subtractUint64 x).val = (a.val + 2 ^ 128 - x.toNat) % 2 ^ 128 := by
  have hx := x.isLt
  have hm : x.toNat % 2 ^ 128 = x.toNat := Nat.mod_eq_of_lt (by omega)
  simp only [U128.val_eq, U128.toBV_addUint64, U128.toBV_subtractUint64, BitVec.toNat_add,
    BitVec.toNat_sub, BitVec.toNat_ofNat, hm]
  refine ⟨trivial, ?_⟩
  congr 1; omega

theorem C03_compare (a b : U128) :
    (a.compare b < 0 ↔ a.val < b.val) ∧ (a.compare b = 0 ↔ a.val = b.val) ∧
    (0 < a.compare b ↔ b.val < a.val) ∧ (a.val = b.val ↔ a = b) := by
  have hinj : a.val = b.val ↔ a = b :=
    ⟨fun h => U128.toBV_inj (BitVec.eq_of_toNat_eq (by rw [← U128.val_eq, ← U128.val_eq, h])),
     fun h => by rw [h]⟩
  have hneg : a.compare b < 0 ↔ a.val < b.val := by
    have := U128.compare_neg_iff a b
    rw [decide_eq_decide] at this
    rw [U128.val_eq, U128.val_eq]; exact this
  refine ⟨hneg, ?_, ?_, hinj⟩
  · rw [hinj]
    unfold U128.compare
    by_cases h : a = b
    · simp [h]
    · rw [if_neg h]; split <;> simp [h]
  · by_cases h : a = b
    · subst h; simp [U128.compare]
    · have h3 : a.val ≠ b.val := fun e => h (hinj.mp e)
      have : a.compare b = -1 ∨ a.compare b = 1 := by
        unfold U128.compare; rw [if_neg h]; split <;> simp
      omega

/-- leading zeros: the greatest `n ≤ 128` with `val < 2^(128-n)` -/
theorem C03_leadingZeros (a : U128) :
    a.leadingZeros ≤ 128 ∧ a.val < 2 ^ (128 - a.leadingZeros) ∧
    (a.leadingZeros < 128 → 2 ^ (127 - a.leadingZeros) ≤ a.val) := by
  rw [U128.leadingZeros_eq, U128.val_eq]
  have hle := lzBV_le (U128.toBV a)
  have e : toNat a = (U128.toBV a).toNat := rfl
  refine ⟨hle, ?_, fun hlt => ?_⟩
  · apply Nat.lt_pow_two_of_testBit
    intro i hi
    by_cases hw : i < 128
    · have := testBit_bit a (i := i) hw
      rw [e] at this
      rw [this]
      exact lzBV_before (U128.toBV a) (by show 128 - 1 - i < lzBV (U128.toBV a); omega)
    · exact Nat.testBit_lt_two_pow (Nat.lt_of_lt_of_le (U128.toBV a).isLt
        (Nat.pow_le_pow_right (by omega) (by omega)))
  · have h1 := lzBV_at (U128.toBV a) hlt
    have := bit_testBit a (i := lzBV (U128.toBV a)) hlt
    rw [e] at this
    rw [show bit a (lzBV (U128.toBV a)) = true from h1] at this
    exact Nat.ge_two_pow_of_testBit this.symm

/-- population count: the number of 1 bits of the number -/
theorem C03_onesCount (a : U128) :
    a.onesCount = (List.range 128).countP (fun i => a.val.testBit (127 - i)) := by
  rw [U128.onesCount_eq, U128.val_eq, popBV]
  apply List.countP_congr
  intro i hi
  have hi : i < 128 := List.mem_range.mp hi
  have := bit_testBit a (i := i) hi
  rw [show toNat a = (U128.toBV a).toNat from rfl] at this
  rw [show (U128.toBV a).getMsbD i = bit a i from rfl, this]
  exact Iff.rfl

example : (U128.addUint64 ⟨1, BitVec.allOnes 64⟩ 1).val = 2 * 2 ^ 64 := by decide
example : (U128.leftShift ⟨0, 3⟩ 64) = ⟨3, 0⟩ := by decide

/-! ### C04: prefix geometry -/
section
variable {α : Type} [LawfulGoWord α]

theorem C04_network (p : Prefix α) (hp : p.len ≤ width α) :
    toNat p.network.addr = toNat p.addr / blockSize α p.len * blockSize α p.len ∧
    p.network.len = p.len ∧ p.network.network = p.network := by
  refine ⟨toNat_network hp, rfl, ?_⟩
  have hw : Prefix.WF p.network := hp
  have e : p.network.network.addr = p.network.addr := by
    apply ext_bit
    intro i hi
    rw [bit_network hw, bit_network hp, show p.network.len = p.len from rfl]
    cases decide (i < p.len) <;> simp
  calc p.network.network = ⟨p.network.network.addr, p.len⟩ := rfl
    _ = ⟨p.network.addr, p.len⟩ := by rw [e]

theorem C04_broadcast (p : Prefix α) (hp : p.len ≤ width α) :
    toNat p.broadcast.addr = toNat p.network.addr + (blockSize α p.len - 1) ∧
    p.broadcast.len = p.len := by
  refine ⟨?_, rfl⟩
  rw [toNat_broadcast hp, toNat_network hp]; rfl

theorem C04_host (p : Prefix α) (hp : p.len ≤ width α) :
    toNat p.host.addr = toNat p.addr % blockSize α p.len ∧ p.host.len = p.len ∧
    toNat p.addr = toNat p.network.addr + toNat p.host.addr := by
  refine ⟨toNat_split hp, rfl, ?_⟩
  rw [toNat_network hp, toNat_split hp, Nat.mul_comm, Nat.div_add_mod]

theorem fromAddresses_fst {f l : α} (h : toNat f ≤ toNat l) :
    Range.fromAddresses f l = (⟨f, l⟩, false) := by
  rw [Range.fromAddresses, if_neg]
  intro h1
  have := lt_iff.mp h1
  omega

theorem network_le_broadcast {p : Prefix α} (hp : p.len ≤ width α) :
    toNat p.network.addr ≤ toNat p.broadcast.addr := by
  rw [(C04_broadcast p hp).1]; omega

theorem range_eq {p : Prefix α} (hp : p.len ≤ width α) :
    p.range = ⟨p.network.addr, p.broadcast.addr⟩ := by
  rw [Prefix.range, fromAddresses_fst (network_le_broadcast hp)]

/-- the address is in the prefix (same leading bits) iff it is in `Prefix.Range()` -/
theorem C04_range (p : Prefix α) (hp : p.len ≤ width α) (a : α) :
    (InPrefix p a ↔ InRange p.range a) ∧
    (InPrefix p a ↔ ∀ i, i < p.len → bit p.addr i = bit a i) ∧ p.range.Valid := by
  have h : InPrefix p a ↔ Covers p a := inPrefix_iff hp
  refine ⟨?_, h, ?_⟩
  · rw [h, covers_iff_range hp, range_eq hp]; rfl
  · rw [range_eq hp]; exact network_le_broadcast hp

example : (Prefix.network ⟨0x0a000005#32, 24⟩).addr = 0x0a000000#32 ∧
    (Prefix.broadcast ⟨0x0a000005#32, 24⟩).addr = 0x0a0000ff#32 ∧
    (Prefix.host ⟨0x0a000005#32, 24⟩).addr = 5#32 := by decide

/-! ### C05: halves -/

theorem C05_halves (p : Prefix α) (hp : p.len < width α) :
    p.halves.1.len = p.len + 1 ∧ p.halves.2.len = p.len + 1 ∧
    (∀ a, InPrefix p.halves.1 a ↔
      InPrefix p a ∧ toNat a < toNat p.network.addr + blockSize α (p.len + 1)) ∧
    (∀ a, InPrefix p.halves.2 a ↔
      InPrefix p a ∧ toNat p.network.addr + blockSize α (p.len + 1) ≤ toNat a) ∧
    2 * blockSize α (p.len + 1) = blockSize α p.len := by
  have hle : p.len ≤ width α := by omega
  have hb : 2 * blockSize α (p.len + 1) = blockSize α p.len := by
    unfold blockSize
    rw [show width α - p.len = (width α - (p.len + 1)) + 1 by omega, Nat.pow_succ]; omega
  have hpos : 0 < blockSize α (p.len + 1) := Nat.pow_pos (by omega)
  have e1 : p.halves.1 = ⟨p.network.addr, p.len + 1⟩ := by rw [Prefix.halves, if_pos hp]
  have e2 : p.halves.2 = ⟨or p.network.addr (shr top p.len), p.len + 1⟩ := by
    rw [Prefix.halves, if_pos hp]
  have hin : ∀ (q : Prefix α), q.len ≤ width α → ∀ a, InPrefix q a ↔
      toNat q.network.addr ≤ toNat a ∧ toNat a < toNat q.network.addr + blockSize α q.len := by
    intro q hq a
    rw [inPrefix_iff hq, covers_iff_range hq, (C04_broadcast q hq).1]
    have : 0 < blockSize α q.len := Nat.pow_pos (by omega)
    omega
  have hnet := (C04_network p hle).1
  have hn1 : toNat (Prefix.network (⟨p.network.addr, p.len + 1⟩ : Prefix α)).addr = toNat p.network.addr := by
    rw [(C04_network ⟨p.network.addr, p.len + 1⟩ hp).1]
    simp only
    rw [hnet, ← hb]
    generalize blockSize α (p.len + 1) = b at *
    rw [show toNat p.addr / (2 * b) * (2 * b) = (toNat p.addr / (2 * b) * 2) * b by
      rw [Nat.mul_assoc], Nat.mul_div_cancel _ hpos]
  have hbit : ∀ i, i < width α → bit (or p.network.addr (shr top p.len)) i
      = ((decide (i < p.len) && bit p.addr i) || decide (i = p.len)) := by
    intro i hi
    rw [bit_or, bit_network hle, bit_shr _ _ hi, bit_top]
    by_cases h : i < p.len
    · simp [h]; intro; omega
    · simp [h]
      by_cases h2 : i = p.len
      · simp [h2]
      · simp [h2]; omega
  have hn2 : toNat (Prefix.network (⟨or p.network.addr (shr top p.len), p.len + 1⟩ : Prefix α)).addr
      = toNat p.network.addr + blockSize α (p.len + 1) := by
    have hw : Prefix.WF (⟨or p.network.addr (shr top p.len), p.len + 1⟩ : Prefix α) := hp
    have e : (Prefix.network (⟨or p.network.addr (shr top p.len), p.len + 1⟩ : Prefix α)).addr
        = (Prefix.network (⟨p.broadcast.addr, p.len + 1⟩ : Prefix α)).addr := by
      apply ext_bit
      intro i hi
      rw [bit_network hw, bit_network (p := ⟨p.broadcast.addr, p.len + 1⟩) hp]
      simp only
      rw [hbit i hi, bit_broadcast hle hi]
      by_cases h : i < p.len
      · have : ¬ i = p.len := by omega
        simp [h, this]
      · by_cases h2 : i = p.len
        · simp [h2]
        · have : ¬ i < p.len + 1 := by omega
          simp [this]
    rw [e, (C04_network ⟨p.broadcast.addr, p.len + 1⟩ hp).1]
    simp only
    rw [(C04_broadcast p hle).1, hnet, ← hb]
    generalize blockSize α (p.len + 1) = b at *
    rw [show toNat p.addr / (2 * b) * (2 * b) = (toNat p.addr / (2 * b) * 2) * b by
      rw [Nat.mul_assoc]]
    generalize toNat p.addr / (2 * b) * 2 = k
    have : (k * b + (2 * b - 1)) / b = k + 1 := by
      apply Nat.div_eq_of_lt_le
      · rw [Nat.add_mul]; omega
      · rw [Nat.add_mul, Nat.add_mul]; omega
    rw [this, Nat.add_mul, Nat.one_mul]
  refine ⟨by rw [e1], by rw [e2], fun a => ?_, fun a => ?_, hb⟩
  · rw [e1, hin ⟨p.network.addr, p.len + 1⟩ hp, hn1, hin p hle, ← hb]
    simp only; omega
  · rw [e2, hin ⟨or p.network.addr (shr top p.len), p.len + 1⟩ hp, hn2, hin p hle, ← hb]
    simp only; omega

/-- every address of the prefix is in exactly one half -/
theorem C05_exactlyOne (p : Prefix α) (hp : p.len < width α) (a : α) :
    (InPrefix p a ↔ InPrefix p.halves.1 a ∨ InPrefix p.halves.2 a) ∧
    ¬ (InPrefix p.halves.1 a ∧ InPrefix p.halves.2 a) := by
  obtain ⟨_, _, h1, h2, _⟩ := C05_halves p hp
  rw [h1, h2]
  constructor
  · constructor
    · intro h
      by_cases hlt : toNat a < toNat p.network.addr + blockSize α (p.len + 1)
      · exact .inl ⟨h, hlt⟩
      · exact .inr ⟨h, by omega⟩
    · rintro (⟨h, _⟩ | ⟨h, _⟩) <;> exact h
  · rintro ⟨⟨_, h3⟩, ⟨_, h4⟩⟩; omega

example : Prefix.halves (⟨0x0a000005#32, 24⟩) = (⟨0x0a000000#32, 25⟩, ⟨0x0a000080#32, 25⟩) := by decide

/-! ### C06, C07: interval difference and union -/

/-- the ranges are valid, ascending and separated -/
def AscendingRanges (L : List (Range α)) : Prop :=
  (∀ r ∈ L, r.Valid) ∧ L.Pairwise (fun r s => toNat r.last < toNat s.first)

theorem toNat_min (a b : α) : toNat (minAddress a b) = min (toNat a) (toNat b) := by
  rw [minAddress]
  by_cases h : lt a b = true
  · rw [if_pos h]; have := lt_iff.mp h; omega
  · rw [if_neg h]; have : ¬ toNat a < toNat b := fun h' => h (lt_iff.mpr h'); omega

theorem toNat_max (a b : α) : toNat (maxAddress a b) = max (toNat a) (toNat b) := by
  rw [maxAddress]
  by_cases h : lt a b = true
  · rw [if_pos h]; have := lt_iff.mp h; omega
  · rw [if_neg h]; have : ¬ toNat a < toNat b := fun h' => h (lt_iff.mpr h'); omega

theorem lt_eq_false_iff {a b : α} : lt a b = false ↔ toNat b ≤ toNat a := by
  constructor
  · intro h
    apply Nat.le_of_not_lt
    intro h'
    rw [lt_iff.mpr h'] at h; cases h
  · intro h
    cases e : lt a b with
    | false => rfl
    | true => have := lt_iff.mp e; omega

theorem toNat_add1_lt {a : α} (h : toNat a + 1 < 2 ^ width α) : toNat (add1 a) = toNat a + 1 := by
  rw [toNat_add1, Nat.mod_eq_of_lt h]

theorem C06_minus (r s : Range α) (hr : r.Valid) (hs : s.Valid) :
    (r.minus s).length ≤ 2 ∧ AscendingRanges (r.minus s) ∧
    ∀ a, (∃ t ∈ r.minus s, InRange t a) ↔ InRange r a ∧ ¬ InRange s a := by
  have hr : toNat r.first ≤ toNat r.last := hr
  have hs : toNat s.first ≤ toNat s.last := hs
  have hm := toNat_lt r.last
  rw [Range.minus]
  cases h1 : lt r.first s.first <;> cases h2 : lt s.last r.last
  · rw [lt_eq_false_iff] at h1 h2
    refine ⟨by simp, ⟨by simp, by simp⟩, fun a => ?_⟩
    simp [InRange]; omega
  · rw [lt_eq_false_iff] at h1
    rw [lt_iff] at h2
    have hn : toNat s.next = toNat s.last + 1 := toNat_add1_lt (by omega)
    refine ⟨by simp, ⟨?_, by simp⟩, fun a => ?_⟩
    · simp [Range.Valid, toNat_max, hn]; omega
    · simp [InRange, toNat_max, hn]; omega
  · rw [lt_eq_false_iff] at h2
    rw [lt_iff] at h1
    have hn : toNat s.prev = toNat s.first - 1 := toNat_sub1_pos (by omega)
    refine ⟨by simp, ⟨?_, by simp⟩, fun a => ?_⟩
    · simp [Range.Valid, toNat_min, hn]; omega
    · simp [InRange, toNat_min, hn]; omega
  · rw [lt_iff] at h1 h2
    have hn : toNat s.next = toNat s.last + 1 := toNat_add1_lt (by omega)
    have hp : toNat s.prev = toNat s.first - 1 := toNat_sub1_pos (by omega)
    refine ⟨by simp, ⟨?_, ?_⟩, fun a => ?_⟩
    · simp [Range.Valid, toNat_max, toNat_min, hn, hp]; omega
    · simp [toNat_max, toNat_min, hn, hp]; omega
    · simp [InRange, toNat_max, toNat_min, hn, hp]; omega

example : Range.minus (⟨0x0a000000#32, 0x0a0000ff#32⟩) ⟨0x0a000010#32, 0x0a00001f#32⟩
    = [⟨0x0a000000#32, 0x0a00000f#32⟩, ⟨0x0a000020#32, 0x0a0000ff#32⟩] := by decide

/-- the addresses of `r.Plus(s)` are those of `r` or `s`, always -/
theorem C07_plus_addresses (r s : Range α) (hr : r.Valid) (hs : s.Valid) (a : α) :
    (∃ t ∈ r.plus s, InRange t a) ↔ InRange r a ∨ InRange s a := by
  have key : ∀ x y : Range α, x.Valid → y.Valid → toNat x.first ≤ toNat y.first →
      ((∃ t ∈ Range.plusAux x y, InRange t a) ↔ InRange x a ∨ InRange y a) := by
    intro x y hx hy hle
    have hx : toNat x.first ≤ toNat x.last := hx
    have hy : toNat y.first ≤ toNat y.last := hy
    rw [Range.plusAux]
    cases h : lt x.next y.first
    · rw [lt_eq_false_iff] at h
      have hn : toNat x.next = (toNat x.last + 1) % 2 ^ width α := toNat_add1 _
      have hlt := toNat_lt x.last
      simp only [if_neg Bool.false_ne_true, List.mem_singleton, exists_eq_left, InRange, toNat_max]
      by_cases hmax : toNat x.last + 1 < 2 ^ width α
      · rw [Nat.mod_eq_of_lt hmax] at hn; omega
      · have := toNat_lt y.last
        omega
    · simp [InRange]
  rw [Range.plus]
  cases h : lt r.first s.first
  · rw [lt_eq_false_iff] at h
    rw [if_neg Bool.false_ne_true, key s r hs hr h, or_comm]
  · rw [lt_iff] at h
    rw [if_pos rfl, key r s hr hs (by omega)]

/-- r and s overlap or are adjacent -/
def Touch (r s : Range α) : Prop :=
  toNat r.first ≤ toNat s.last + 1 ∧ toNat s.first ≤ toNat r.last + 1

/-- The range that starts first (the argument, if both start at the same address) ends at the last address, and
    the other does not start at 0. -/
def PlusWraps (r s : Range α) : Prop :=
  (toNat r.first < toNat s.first ∧ toNat r.last + 1 = 2 ^ width α) ∨
  (toNat s.first ≤ toNat r.first ∧ toNat s.last + 1 = 2 ^ width α ∧ toNat r.first ≠ 0)

/-- Full statement: without `hmax`.  False whenever it does not hold: `C07_plus_exact`, `C07_plus_counterexample`. -/
theorem C07_plus_partial (r s : Range α) (hr : r.Valid) (hs : s.Valid) (hmax : ¬ PlusWraps r s) :
    AscendingRanges (r.plus s) ∧ (Touch r s → (r.plus s).length = 1) ∧
    (¬ Touch r s → r.plus s = [r, s] ∨ r.plus s = [s, r]) := by
  have hr' : toNat r.first ≤ toNat r.last := hr
  have hs' : toNat s.first ≤ toNat s.last := hs
  have hnr : toNat r.next = (toNat r.last + 1) % 2 ^ width α := toNat_add1 _
  have hns : toNat s.next = (toNat s.last + 1) % 2 ^ width α := toNat_add1 _
  have lr := toNat_lt r.last
  have ls := toNat_lt s.last
  have lr' := toNat_lt r.first
  have ls' := toNat_lt s.first
  unfold PlusWraps at hmax
  rw [Range.plus]
  unfold Touch AscendingRanges
  cases h : lt r.first s.first
  · rw [lt_eq_false_iff] at h
    rw [if_neg Bool.false_ne_true, Range.plusAux]
    by_cases hw : toNat s.last + 1 = 2 ^ width α
    · rw [hw, Nat.mod_self] at hns
      have h0 : toNat r.first = 0 := by omega
      have h2 : lt s.next r.first = false := by rw [lt_eq_false_iff]; omega
      simp [h2, Range.Valid, toNat_max]; omega
    · rw [Nat.mod_eq_of_lt (by omega)] at hns
      cases h2 : lt s.next r.first
      · rw [lt_eq_false_iff] at h2
        simp [Range.Valid, toNat_max]; omega
      · rw [lt_iff] at h2
        simp [Range.Valid]; omega
  · rw [lt_iff] at h
    rw [Nat.mod_eq_of_lt (by omega)] at hnr
    rw [if_pos rfl, Range.plusAux]
    cases h2 : lt r.next s.first
    · rw [lt_eq_false_iff] at h2
      simp [Range.Valid, toNat_max]; omega
    · rw [lt_iff] at h2
      simp [Range.Valid]; omega

/-- When `PlusWraps` holds, the ranges overlap but are returned as they are. -/
theorem C07_plus_wraps (r s : Range α) (hr : r.Valid) (hs : s.Valid) (h : PlusWraps r s) :
    Touch r s ∧ (r.plus s = [r, s] ∨ r.plus s = [s, r]) ∧ ¬ AscendingRanges (r.plus s) := by
  have hr' : toNat r.first ≤ toNat r.last := hr
  have hs' : toNat s.first ≤ toNat s.last := hs
  have lr := toNat_lt r.last
  have ls := toNat_lt s.last
  have key : ∀ x y : Range α, toNat x.last + 1 = 2 ^ width α → toNat y.first ≤ toNat x.last → ¬ AscendingRanges [x, y] := by
    rintro x y hx hy ⟨_, h⟩
    have h3 : toNat x.last < toNat y.first := List.rel_of_pairwise_cons h (List.mem_singleton.mpr rfl)
    omega
  rcases h with ⟨h1, h2⟩ | ⟨h1, h2, h3⟩
  · have hn : toNat r.next = 0 := by rw [Range.next, toNat_add1, h2, Nat.mod_self]
    have e : r.plus s = [r, s] := by
      rw [Range.plus, if_pos (lt_iff.mpr h1), Range.plusAux, if_pos (lt_iff.mpr (by omega))]
    refine ⟨⟨by omega, by omega⟩, Or.inl e, ?_⟩
    rw [e]
    exact key _ _ h2 (by omega)
  · have hn : toNat s.next = 0 := by rw [Range.next, toNat_add1, h2, Nat.mod_self]
    have e : r.plus s = [s, r] := by
      rw [Range.plus, lt_eq_false_iff.mpr h1, if_neg Bool.false_ne_true, Range.plusAux, if_pos (lt_iff.mpr (by omega))]
    refine ⟨⟨by omega, by omega⟩, Or.inr e, ?_⟩
    rw [e]
    exact key _ _ h2 (by omega)

/-- For exactly which ranges `Plus` is the interval union. -/
theorem C07_plus_exact (r s : Range α) (hr : r.Valid) (hs : s.Valid) :
    (AscendingRanges (r.plus s) ∧ (Touch r s → (r.plus s).length = 1) ∧
      (¬ Touch r s → r.plus s = [r, s] ∨ r.plus s = [s, r])) ↔ ¬ PlusWraps r s :=
  ⟨fun h hw => (C07_plus_wraps r s hr hs hw).2.2 h.1, fun h => C07_plus_partial r s hr hs h⟩

/-- [0.0.0.5, 255.255.255.255].Plus([0.0.0.7, 0.0.0.9]) returns two overlapping ranges. -/
theorem C07_plus_counterexample :
    ∃ r s : Range (BitVec 32), r.Valid ∧ s.Valid ∧ Touch r s ∧ (r.plus s).length = 2 ∧
      ¬ AscendingRanges (r.plus s) := by
  refine ⟨⟨5#32, 0xffffffff#32⟩, ⟨7#32, 9#32⟩, by show (5#32).toNat ≤ _; decide,
    by show (7#32).toNat ≤ _; decide, ⟨by show (5#32).toNat ≤ _; decide,
      by show (7#32).toNat ≤ _; decide⟩, by decide, ?_⟩
  have e : Range.plus ⟨5#32, 0xffffffff#32⟩ ⟨7#32, 9#32⟩
    = [⟨5#32, 0xffffffff#32⟩, ⟨7#32, 9#32⟩] := by decide
  rw [e]
  rintro ⟨_, h⟩
  have := List.rel_of_pairwise_cons h (List.mem_singleton.mpr rfl)
  revert this
  show ¬ ((0xffffffff#32).toNat < (7#32).toNat)
  decide

example : Range.plus (⟨0x0a000000#32, 0x0a00000f#32⟩) ⟨0x0a000010#32, 0x0a00001f#32⟩
    = [⟨0x0a000000#32, 0x0a00001f#32⟩] := by decide

/-- also where the second range is the one that ends at the last address -/
example : ¬ PlusWraps (⟨5#32, 9#32⟩ : Range (BitVec 32)) ⟨7#32, 0xffffffff#32⟩ ∧
    Range.plus (⟨5#32, 9#32⟩ : Range (BitVec 32)) ⟨7#32, 0xffffffff#32⟩ = [⟨5#32, 0xffffffff#32⟩] := by
  refine ⟨?_, by decide⟩
  show ¬ (((5#32).toNat < (7#32).toNat ∧ (9#32).toNat + 1 = 2 ^ 32) ∨ ((7#32).toNat ≤ (5#32).toNat ∧ _))
  decide
/-- `r.Plus(r)` -/
example : Range.plus (⟨5#32, 0xffffffff#32⟩) ⟨5#32, 0xffffffff#32⟩ = [⟨5#32, 0xffffffff#32⟩, ⟨5#32, 0xffffffff#32⟩] := by decide

/-! ### C43: order of prefixes -/

/-- `lessThan` is the lexicographic order of (network address, length, host bits). -/
theorem C43_lessThan (p q : Prefix α) (hp : p.len ≤ width α) (hq : q.len ≤ width α) :
    p.lessThan q = true ↔
      (let bp := toNat p.addr / blockSize α p.len * blockSize α p.len
       let bq := toNat q.addr / blockSize α q.len * blockSize α q.len
       bp < bq ∨ (bp = bq ∧ (p.len < q.len ∨ (p.len = q.len ∧ toNat p.addr < toNat q.addr)))) := by
  have e1 := (C04_network p hp).1
  have e2 := (C04_network q hq).1
  obtain ⟨_, _, s1⟩ := C04_host p hp
  obtain ⟨_, _, s2⟩ := C04_host q hq
  simp only
  rw [← e1, ← e2, Prefix.lessThan]
  by_cases hn : p.network.addr = q.network.addr
  · rw [if_neg (by simpa using hn), hn]
    by_cases hl : p.len = q.len
    · rw [if_pos hl, lt_iff]
      rw [hn] at s1
      omega
    · rw [if_neg hl, decide_eq_true_eq]; omega
  · rw [if_pos hn, lt_iff]
    have : toNat p.network.addr ≠ toNat q.network.addr := fun h => hn (toNat_inj h)
    omega

theorem C43_strictTotal (p q r : Prefix α) (hp : p.len ≤ width α) (hq : q.len ≤ width α)
    (hr : r.len ≤ width α) :
    p.lessThan p = false ∧
    (p.lessThan q = true → q.lessThan r = true → p.lessThan r = true) ∧
    (p ≠ q → p.lessThan q = true ∨ q.lessThan p = true) := by
  refine ⟨?_, ?_, ?_⟩
  · cases h : p.lessThan p with
    | false => rfl
    | true => have := (C43_lessThan p p hp hp).mp h; simp only at this; omega
  · rw [C43_lessThan p q hp hq, C43_lessThan q r hq hr, C43_lessThan p r hp hr]
    simp only; omega
  · intro hne
    rw [C43_lessThan p q hp hq, C43_lessThan q p hq hp]
    simp only
    apply Classical.byContradiction
    intro hc
    apply hne
    have hl : p.len = q.len := by omega
    have ha : toNat p.addr = toNat q.addr := by
      rw [hl] at hc; omega
    cases p; cases q
    simp only [Prefix.mk.injEq]
    exact ⟨toNat_inj ha, hl⟩

/-- a prefix comes before every longer prefix it contains, and before every address strictly inside
    when it has no host bits -/
theorem C43_containerFirst (p q : Prefix α) (hp : p.len ≤ width α) (hq : q.len ≤ width α)
    (hl : p.len < q.len) (hc : InPrefix p q.addr) : p.lessThan q = true := by
  rw [C43_lessThan p q hp hq]
  rw [show toNat p.addr / blockSize α p.len = toNat q.addr / blockSize α p.len from hc]
  have hd : ∃ k, blockSize α p.len = k * blockSize α q.len := by
    refine ⟨2 ^ (q.len - p.len), ?_⟩
    unfold blockSize
    rw [← Nat.pow_add]; congr 1; omega
  obtain ⟨k, hk⟩ := hd
  have hpos : 0 < blockSize α q.len := Nat.pow_pos (by omega)
  have hle : toNat q.addr / blockSize α p.len * blockSize α p.len
      ≤ toNat q.addr / blockSize α q.len * blockSize α q.len := by
    rw [hk, ← Nat.mul_assoc]
    apply Nat.mul_le_mul_right
    rw [Nat.mul_comm k, ← Nat.div_div_eq_div_mul]
    exact Nat.div_mul_le_self _ _
  omega

end

example : Prefix.lessThan (⟨0x0a000000#32, 8⟩) ⟨0x0a000000#32, 24⟩ = true ∧
    Prefix.lessThan (⟨0x0a000001#32, 24⟩) ⟨0x0a000002#32, 24⟩ = true ∧
    Prefix.lessThan (⟨0x0a000000#32, 24⟩) ⟨0x0a000000#32, 8⟩ = false := by decide

end Addrs

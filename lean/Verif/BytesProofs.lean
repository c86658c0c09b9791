import Verif.Bytes
import Verif.Spec
set_option linter.unusedSectionVars false
/-
  Facts about bytes and masks used by `Verif/PropValues.lean`.
-/
namespace Addrs
open GoWord LawfulGoWord

/-- the number written by a byte string, most significant byte first -/
def beNat (l : List (BitVec 8)) : Nat := l.foldl (fun n b => n * 256 + b.toNat) 0

theorem or_byte (x b k : Nat) (hb : b < 2 ^ 8) :
    x * 2 ^ (k + 8) ||| b * 2 ^ k = (x * 256 + b) * 2 ^ k := by
  have e1 : x * 2 ^ (k + 8) = (x * 2 ^ 8) <<< k := by
    rw [Nat.shiftLeft_eq, Nat.mul_assoc, ← Nat.pow_add]; congr 2; omega
  have e2 : b * 2 ^ k = b <<< k := by rw [Nat.shiftLeft_eq]
  have e3 : x * 2 ^ 8 ||| b = x * 256 + b := by
    rw [← Nat.shiftLeft_eq, ← Nat.shiftLeft_add_eq_or_of_lt hb, Nat.shiftLeft_eq]
  rw [e1, e2, ← Nat.shiftLeft_or_distrib, e3, Nat.shiftLeft_eq]

theorem or_word16 (x b k : Nat) (hb : b < 2 ^ 16) :
    x * 2 ^ (k + 16) ||| b * 2 ^ k = (x * 65536 + b) * 2 ^ k := by
  have e1 : x * 2 ^ (k + 16) = (x * 2 ^ 16) <<< k := by
    rw [Nat.shiftLeft_eq, Nat.mul_assoc, ← Nat.pow_add]; congr 2; omega
  have e2 : b * 2 ^ k = b <<< k := by rw [Nat.shiftLeft_eq]
  have e3 : x * 2 ^ 16 ||| b = x * 65536 + b := by
    rw [← Nat.shiftLeft_eq, ← Nat.shiftLeft_add_eq_or_of_lt hb, Nat.shiftLeft_eq]
  rw [e1, e2, ← Nat.shiftLeft_or_distrib, e3, Nat.shiftLeft_eq]

theorem toNat_shl_ext {w v : Nat} (b : BitVec v) (k : Nat) (h : v + k ≤ w) :
    (b.setWidth w <<< k).toNat = b.toNat * 2 ^ k := by
  have hb := b.isLt
  have h1 : b.toNat < 2 ^ w := Nat.lt_of_lt_of_le hb (Nat.pow_le_pow_right (by omega) (by omega))
  rw [BitVec.toNat_shiftLeft, BitVec.toNat_setWidth, Nat.mod_eq_of_lt h1, Nat.shiftLeft_eq]
  apply Nat.mod_eq_of_lt
  calc b.toNat * 2 ^ k < 2 ^ v * 2 ^ k := Nat.mul_lt_mul_of_pos_right hb (Nat.pow_pos (by omega))
    _ = 2 ^ (v + k) := by rw [Nat.pow_add]
    _ ≤ 2 ^ w := Nat.pow_le_pow_right (by omega) h

theorem V4.toNat_addressFromBytes (a b c d : BitVec 8) :
    (V4.addressFromBytes a b c d).toNat = beNat [a, b, c, d] := by
  have hd : (d.setWidth 32).toNat = d.toNat * 2 ^ 0 := by
    have := toNat_shl_ext (w := 32) d 0 (by omega)
    simpa using this
  rw [V4.addressFromBytes, BitVec.toNat_or, BitVec.toNat_or, BitVec.toNat_or,
    toNat_shl_ext a 24 (by omega), toNat_shl_ext b 16 (by omega), toNat_shl_ext c 8 (by omega), hd,
    or_byte _ _ 16 b.isLt, or_byte _ _ 8 c.isLt, or_byte _ _ 0 d.isLt]
  simp [beNat]

theorem V6.toNat_word64 (a b c d e f g h : BitVec 8) :
    (V6.word64 a b c d e f g h).toNat = beNat [a, b, c, d, e, f, g, h] := by
  have hd : (h.setWidth 64).toNat = h.toNat * 2 ^ 0 := by
    have := toNat_shl_ext (w := 64) h 0 (by omega)
    simpa using this
  rw [V6.word64]
  simp only [BitVec.toNat_or]
  rw [toNat_shl_ext a 56 (by omega), toNat_shl_ext b 48 (by omega), toNat_shl_ext c 40 (by omega),
    toNat_shl_ext d 32 (by omega), toNat_shl_ext e 24 (by omega), toNat_shl_ext f 16 (by omega),
    toNat_shl_ext g 8 (by omega), hd,
    or_byte _ _ 48 b.isLt, or_byte _ _ 40 c.isLt, or_byte _ _ 32 d.isLt, or_byte _ _ 24 e.isLt,
    or_byte _ _ 16 f.isLt, or_byte _ _ 8 g.isLt, or_byte _ _ 0 h.isLt]
  simp [beNat]

theorem V6.toNat_uint16 (a b c d : BitVec 16) :
    ((a.setWidth 64 <<< 48) ||| (b.setWidth 64 <<< 32) ||| (c.setWidth 64 <<< 16) |||
      d.setWidth 64).toNat
      = a.toNat * 2 ^ 48 + b.toNat * 2 ^ 32 + c.toNat * 2 ^ 16 + d.toNat := by
  have hd : (d.setWidth 64).toNat = d.toNat * 2 ^ 0 := by
    have := toNat_shl_ext (w := 64) d 0 (by omega)
    simpa using this
  simp only [BitVec.toNat_or]
  rw [toNat_shl_ext a 48 (by omega), toNat_shl_ext b 32 (by omega), toNat_shl_ext c 16 (by omega), hd,
    or_word16 _ _ 32 b.isLt, or_word16 _ _ 16 c.isLt, or_word16 _ _ 0 d.isLt]
  omega

theorem beNat_cons (b : BitVec 8) (l : List (BitVec 8)) :
    beNat (b :: l) = b.toNat * 256 ^ l.length + beNat l := by
  have gen : ∀ (l : List (BitVec 8)) (n : Nat),
      l.foldl (fun n b => n * 256 + b.toNat) n = n * 256 ^ l.length + beNat l := by
    intro l
    induction l with
    | nil => intro n; simp [beNat]
    | cons c l ih =>
      intro n
      simp only [List.foldl_cons, List.length_cons, beNat]
      rw [ih, ih (0 * 256 + c.toNat), Nat.pow_succ, Nat.zero_mul, Nat.zero_add, Nat.add_mul,
        Nat.mul_assoc, Nat.mul_comm 256]
      omega
  show List.foldl _ (0 * 256 + b.toNat) l = _
  rw [gen]; simp

theorem beNat_lt (l : List (BitVec 8)) : beNat l < 256 ^ l.length := by
  induction l with
  | nil => simp [beNat]
  | cons b l ih =>
    rw [beNat_cons, List.length_cons, Nat.pow_succ, Nat.mul_comm _ 256]
    have hb : b.toNat ≤ 255 := by have := b.isLt; omega
    have := Nat.mul_le_mul_right (256 ^ l.length) hb
    omega

theorem beNat_append (l m : List (BitVec 8)) : beNat (l ++ m) = beNat l * 256 ^ m.length + beNat m := by
  induction l with
  | nil => simp [beNat]
  | cons b l ih =>
    rw [List.cons_append, beNat_cons, beNat_cons, ih, List.length_append, Nat.pow_add, Nat.add_mul,
      Nat.mul_assoc]
    omega

/-- byte strings of the same length with the same number are equal -/
theorem beNat_inj {l m : List (BitVec 8)} (hl : l.length = m.length) (h : beNat l = beNat m) : l = m := by
  induction l generalizing m with
  | nil => cases m with
    | nil => rfl
    | cons _ _ => simp at hl
  | cons b l ih =>
    cases m with
    | nil => simp at hl
    | cons c m =>
      have hl : l.length = m.length := by simpa using hl
      rw [beNat_cons, beNat_cons, hl] at h
      have h1 := beNat_lt l
      have h2 := beNat_lt m
      rw [hl] at h1
      generalize 256 ^ m.length = k at *
      have hbc : b.toNat = c.toNat := by
        have e1 : (b.toNat * k + beNat l) / k = b.toNat := by
          rw [Nat.mul_comm, Nat.mul_add_div (by omega), Nat.div_eq_of_lt h1]; rfl
        have e2 : (c.toNat * k + beNat m) / k = c.toNat := by
          rw [Nat.mul_comm, Nat.mul_add_div (by omega), Nat.div_eq_of_lt h2]; rfl
        rw [← e1, ← e2, h]
      rw [hbc] at h
      rw [BitVec.eq_of_toNat_eq hbc, ih hl (by omega)]

theorem and_ff (x : Nat) : 255 &&& x = x % 256 := by
  rw [Nat.and_comm]; exact Nat.and_two_pow_sub_one_eq_mod x 8

theorem V4.toBytes_beNat (a : BitVec 32) :
    beNat [(V4.toBytes a).1, (V4.toBytes a).2.1, (V4.toBytes a).2.2.1, (V4.toBytes a).2.2.2]
      = a.toNat := by
  have h1 : (V4.toBytes a).1.toNat = a.toNat / 2 ^ 24 % 256 := by
    simp only [V4.toBytes, BitVec.toNat_setWidth, BitVec.toNat_ushiftRight, BitVec.toNat_and]
    rw [Nat.shiftRight_and_distrib, Nat.and_comm, Nat.shiftRight_eq_div_pow a.toNat,
      show (0xff000000#32).toNat >>> 24 = 255 by decide, and_ff, Nat.mod_mod]
  have h2 : (V4.toBytes a).2.1.toNat = a.toNat / 2 ^ 16 % 256 := by
    simp only [V4.toBytes, BitVec.toNat_setWidth, BitVec.toNat_ushiftRight, BitVec.toNat_and]
    rw [Nat.shiftRight_and_distrib, Nat.and_comm, Nat.shiftRight_eq_div_pow a.toNat,
      show (0xff0000#32).toNat >>> 16 = 255 by decide, and_ff, Nat.mod_mod]
  have h3 : (V4.toBytes a).2.2.1.toNat = a.toNat / 2 ^ 8 % 256 := by
    simp only [V4.toBytes, BitVec.toNat_setWidth, BitVec.toNat_ushiftRight, BitVec.toNat_and]
    rw [Nat.shiftRight_and_distrib, Nat.and_comm, Nat.shiftRight_eq_div_pow a.toNat,
      show (0xff00#32).toNat >>> 8 = 255 by decide, and_ff, Nat.mod_mod]
  have h4 : (V4.toBytes a).2.2.2.toNat = a.toNat % 256 := by
    simp only [V4.toBytes, BitVec.toNat_setWidth, BitVec.toNat_and]
    rw [Nat.and_comm, show (0xff#32).toNat = 255 by decide, and_ff, Nat.mod_mod]
  have := a.isLt
  simp only [beNat, List.foldl_cons, List.foldl_nil, h1, h2, h3, h4]
  omega

theorem V6.bytes64_beNat (x : BitVec 64) : beNat (V6.bytes64 x) = x.toNat := by
  have h : ∀ k, ((0xff#64 &&& (x >>> k)).setWidth 8).toNat = x.toNat / 2 ^ k % 256 := by
    intro k
    simp only [BitVec.toNat_setWidth, BitVec.toNat_ushiftRight, BitVec.toNat_and]
    rw [show (0xff#64).toNat = 255 by decide, and_ff, Nat.mod_mod, Nat.shiftRight_eq_div_pow]
  have h0 : ((0xff#64 &&& x).setWidth 8).toNat = x.toNat % 256 := by
    have := h 0; simpa using this
  have := x.isLt
  simp only [beNat, V6.bytes64, List.foldl_cons, List.foldl_nil, h, h0]
  omega

theorem V6.toBytes_length (a : U128) : (V6.toBytes a).length = 16 := by
  simp [V6.toBytes, V6.bytes64]

theorem V6.toBytes_beNat (a : U128) : beNat (V6.toBytes a) = toNat a := by
  rw [V6.toBytes, beNat_append, V6.bytes64_beNat, V6.bytes64_beNat]
  show _ = (U128.toBV a).toNat
  rw [U128.toNat_toBV, show (V6.bytes64 a.low).length = 8 by simp [V6.bytes64],
    show (256 : Nat) ^ 8 = 2 ^ 64 by decide]

/-! ### masks -/
section
variable {α : Type} [LawfulGoWord α]

/-- the `n` most significant bits are 1, the others 0 -/
def IsMask (n : Nat) (m : α) : Prop := n ≤ width α ∧ ∀ i, i < width α → bit m i = decide (i < n)

theorem compl_compl (m : α) : compl (compl m) = m := by
  apply toBV_inj; rw [toBV_compl, toBV_compl, BitVec.not_not]

theorem IsMask.unique {n : Nat} {m m' : α} (h : IsMask n m) (h' : IsMask n m') : m = m' :=
  ext_bit fun i hi => by rw [h.2 i hi, h'.2 i hi]

theorem isMask_lengthToMask {n : Nat} (hn : n ≤ width α) : IsMask n (lengthToMask n : α) :=
  ⟨hn, fun i hi => bit_lengthToMask hn hi⟩

theorem IsMask.length {n : Nat} {m : α} (h : IsMask n m) : maskLength m = n := by
  rw [maskLength, lz_eq]
  apply lzBV_unique _ h.1
  · intro i hi
    have hw : i < width α := Nat.lt_of_lt_of_le hi h.1
    show bit (compl m) i = false
    rw [bit_compl _ hw, h.2 i hw]; simp [hi]
  · intro hw
    show bit (compl m) n = true
    rw [bit_compl _ hw, h.2 n hw]; simp

theorem maskValid_iff {m : α} : maskValid m = true ↔ ∃ n, IsMask n m := by
  have key := pop_compl_iff (compl m)
  rw [compl_compl] at key
  constructor
  · intro h
    have h : lz (compl m) = pop m := of_decide_eq_true h
    refine ⟨lz (compl m), lz_le _, fun i hi => ?_⟩
    by_cases hlt : i < lz (compl m)
    · have := lz_before hlt
      rw [bit_compl _ hi] at this
      simpa [hlt] using this
    · have := key.mp h i (by omega) hi
      rw [bit_compl _ hi] at this
      simpa [hlt] using this
  · rintro ⟨n, h⟩
    have hl : lz (compl m) = n := h.length
    have : lz (compl m) = pop m := key.mpr fun i h1 h2 => by
      rw [bit_compl _ h2, h.2 i h2]
      have : ¬ i < n := by omega
      simp [this]
    exact decide_eq_true this

end

/-! ### net.CIDRMask and IPMask.Size -/
namespace Net

theorem cidrBytes_length (l n : Nat) : (cidrBytes l n).length = l := by
  induction l generalizing n with
  | zero => rfl
  | succ l ih => rw [cidrBytes]; split <;> simp [ih]

theorem cidrBytes_zero (l : Nat) : ∀ b ∈ cidrBytes l 0, b = 0#8 := by
  induction l with
  | zero => simp [cidrBytes]
  | succ l ih =>
    rw [cidrBytes, if_neg (by omega)]
    intro b hb
    rcases List.mem_cons.mp hb with h | h
    · rw [h]; decide
    · exact ih b h

theorem leadOnes_byte : ∀ n, n < 8 → leadOnes 8 (~~~(0xff#8 >>> n)) = (n, 0#8) := by decide

theorem byte_ne_ff : ∀ n, n < 8 → ~~~(0xff#8 >>> n) ≠ 0xff#8 := by decide

theorem simpleMaskLength_cidr {l n : Nat} (h : n ≤ 8 * l) :
    simpleMaskLength (cidrBytes l n) = some n := by
  induction l generalizing n with
  | zero => rw [cidrBytes, simpleMaskLength]; congr 1; omega
  | succ l ih =>
    rw [cidrBytes]
    by_cases h8 : 8 ≤ n
    · rw [if_pos h8, simpleMaskLength, if_pos rfl, ih (by omega), Option.map_some]
      congr 1; omega
    · rw [if_neg h8, simpleMaskLength, if_neg (byte_ne_ff n (by omega)),
        leadOnes_byte n (by omega), if_neg (by simp), if_pos (cidrBytes_zero l)]

theorem size_cidr {l n : Nat} (h : n ≤ 8 * l) : size (some (cidrBytes l n)) = (n, 8 * l) := by
  rw [size]
  simp only [Option.getD_some]
  rw [simpleMaskLength_cidr h]
  simp [Slice.len, cidrBytes_length, Nat.mul_comm]

theorem leadOnes_inv : ∀ v : BitVec 8, v ≠ 0xff#8 → (leadOnes 8 v).2 = 0 →
    (leadOnes 8 v).1 < 8 ∧ v = ~~~(0xff#8 >>> (leadOnes 8 v).1) := by decide

theorem all_zero_cidr {rest : List (BitVec 8)} (h : ∀ b ∈ rest, b = 0#8) :
    rest = cidrBytes rest.length 0 := by
  induction rest with
  | nil => rfl
  | cons b rest ih =>
    rw [List.length_cons, cidrBytes, if_neg (by omega), ← ih fun x hx => h x (List.mem_cons_of_mem _ hx),
      h b List.mem_cons_self]
    rfl

/-- the only byte strings with a mask length are those of `CIDRMask` -/
theorem simpleMaskLength_some {l : List (BitVec 8)} {n : Nat} (h : simpleMaskLength l = some n) :
    n ≤ 8 * l.length ∧ l = cidrBytes l.length n := by
  induction l generalizing n with
  | nil => simp only [simpleMaskLength, Option.some.injEq] at h; subst h; simp [cidrBytes]
  | cons v rest ih =>
    rw [simpleMaskLength] at h
    by_cases hv : v = 0xff#8
    · rw [if_pos hv, Option.map_eq_some_iff] at h
      obtain ⟨k, hk, rfl⟩ := h
      obtain ⟨h1, h2⟩ := ih hk
      refine ⟨by simp only [List.length_cons]; omega, ?_⟩
      rw [List.length_cons, cidrBytes, if_pos (by omega), Nat.add_sub_cancel, ← h2, hv]
    · rw [if_neg hv] at h
      by_cases h0 : (leadOnes 8 v).2 ≠ 0
      · rw [if_pos h0] at h; cases h
      · rw [if_neg h0] at h
        by_cases hz : ∀ b ∈ rest, b = 0#8
        · rw [if_pos hz] at h
          obtain ⟨h1, h2⟩ := leadOnes_inv v hv (by simpa using h0)
          have hn : (leadOnes 8 v).1 = n := by simpa using h
          rw [hn] at h1 h2
          refine ⟨by simp only [List.length_cons]; omega, ?_⟩
          rw [List.length_cons, cidrBytes, if_neg (by omega), ← all_zero_cidr hz, ← h2]
        · rw [if_neg hz] at h; cases h

end Net
end Addrs

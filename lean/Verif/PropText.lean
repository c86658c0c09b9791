import Verif.TextPrint
import Verif.PropNet
/-
  C45: the texts `String` returns are read back by the `…FromString` functions.

  Specification.  `Mapped a`: the IPv6 address `a` lies in ::ffff:0:0/96, i.e. its upper 96 bits are 0xffff.

  The English claim, `AddressFromString(a.String()) = a` for every address and `PrefixFromString(p.String()) = p`
  for every prefix, is true of package ipv4 and false of packages ipv6 and ip: a mapped address is printed in
  the dotted form of an IPv4 address, which the parsers of package ipv6 reject and those of package ip take for
  an IPv4 value.  The theorems say exactly for which values it holds.
-/
set_option linter.unusedSectionVars false
namespace Addrs
open GoWord Fmt

/-- `a` is in ::ffff:0:0/96 -/
def Mapped (a : U128) : Prop := toNat a / 2 ^ 32 = 0xffff

instance (a : U128) : Decidable (Mapped a) := inferInstanceAs (Decidable (_ = _))

/-! ### To4 of 16 bytes -/

/-- ten zero bytes and two 0xff -/
def mappedHead : List (BitVec 8) := [0, 0, 0, 0, 0, 0, 0, 0, 0, 0, 0xff#8, 0xff#8]

theorem to4_sixteen {l : List (BitVec 8)} (h : l.length = 16) :
    Net.to4 (some l) = if l.take 12 = mappedHead then some (l.drop 12) else none := by
  match l, h with
  | [a0, a1, a2, a3, a4, a5, a6, a7, a8, a9, a10, a11, a12, a13, a14, a15], _ =>
    simp only [Net.to4, mappedHead, List.take_succ_cons, List.take_zero, List.drop_succ_cons, List.drop_zero,
      List.cons.injEq, and_true, List.mem_cons, List.not_mem_nil, or_false, forall_eq_or_imp, forall_eq, and_assoc]
    rfl

theorem beNat_mappedHead : beNat mappedHead = 0xffff := by decide

theorem mapped_iff (a : U128) : Mapped a ↔ (V6.toBytes a).take 12 = mappedHead := by
  have hl := V6.toBytes_length a
  have hb := V6.toBytes_beNat a
  have h4 : ((V6.toBytes a).drop 12).length = 4 := by rw [List.length_drop, hl]
  have h12 : ((V6.toBytes a).take 12).length = 12 := by rw [List.length_take, hl]; rfl
  have hs : beNat ((V6.toBytes a).take 12) * 256 ^ 4 + beNat ((V6.toBytes a).drop 12) = toNat a := by
    rw [← hb, ← h4, ← beNat_append, List.take_append_drop]
  have hlt : beNat ((V6.toBytes a).drop 12) < 256 ^ 4 := by rw [← h4]; exact beNat_lt _
  have e : toNat a / 2 ^ 32 = beNat ((V6.toBytes a).take 12) := by
    rw [← hs]
    omega
  unfold Mapped
  rw [e]
  constructor
  · intro h
    exact beNat_inj (by rw [h12]; rfl) (by rw [h, beNat_mappedHead])
  · intro h
    rw [h, beNat_mappedHead]

/-- the last four bytes as an IPv4 address -/
def lowV4 (a : U128) : BitVec 32 := BitVec.ofNat 32 (toNat a)

theorem drop_toBytes (a : U128) :
    (V6.toBytes a).drop 12 = [(V4.toBytes (lowV4 a)).1, (V4.toBytes (lowV4 a)).2.1, (V4.toBytes (lowV4 a)).2.2.1,
      (V4.toBytes (lowV4 a)).2.2.2] := by
  have hl := V6.toBytes_length a
  have h4 : ((V6.toBytes a).drop 12).length = 4 := by rw [List.length_drop, hl]
  have hs : beNat ((V6.toBytes a).take 12) * 256 ^ 4 + beNat ((V6.toBytes a).drop 12) = toNat a := by
    rw [← V6.toBytes_beNat a, ← h4, ← beNat_append, List.take_append_drop]
  have hlt : beNat ((V6.toBytes a).drop 12) < 256 ^ 4 := by rw [← h4]; exact beNat_lt _
  apply beNat_inj (by rw [h4]; rfl)
  have := V4.toBytes_beNat (lowV4 a)
  rw [this, lowV4, BitVec.toNat_ofNat, ← hs]
  omega

/-! ### printing -/

theorem V4.addressString_quad (a : BitVec 32) : V4.addressString a =
    Net.quad (V4.toBytes a).1.toNat (V4.toBytes a).2.1.toNat (V4.toBytes a).2.2.1.toNat (V4.toBytes a).2.2.2.toNat := rfl

theorem V6.toNetIP_to4 (a : U128) : Net.to4 (V6.toNetIP a) = if Mapped a then some ((V6.toBytes a).drop 12) else none := by
  rw [V6.toNetIP, to4_sixteen (V6.toBytes_length a)]
  by_cases h : Mapped a
  · rw [if_pos h, if_pos ((mapped_iff a).1 h)]
  · rw [if_neg h, if_neg (fun e => h ((mapped_iff a).2 e))]

theorem V6.addressString_mapped {a : U128} (h : Mapped a) : V6.addressString a = V4.addressString (lowV4 a) := by
  rw [V6.addressString, Net.ipString, V6.toNetIP_to4, if_pos h, drop_toBytes]
  simp only [Net.ubtoa_dec]
  rfl

/-- the text of an address that is not mapped -/
def text6 (a : U128) : Str := Net.print (V6.toBytes a) (Net.shortened (V6.toBytes a)) 8 0

theorem V6.addressString_plain {a : U128} (h : ¬ Mapped a) : V6.addressString a = text6 a := by
  rw [V6.addressString, Net.ipString, V6.toNetIP_to4, if_neg h]
  rfl

theorem text6_chars (a : U128) : ∀ c ∈ text6 a, c ≠ '.' ∧ c ≠ '/' := fun c hc => (Net.mem_print _ c hc).ne

theorem text6_parse (a : U128) : Net.parseIP (text6 a) = V6.toNetIP a := by
  rw [Net.parseIP_colon (fun c hc => (text6_chars a c hc).1) (Net.colon_mem_print _)]
  exact Net.parseIPv6_print (V6.toBytes_length a)

theorem V4.parse_string (a : BitVec 32) : Net.parseIPv4 (V4.addressString a) =
    Net.ipv4 (V4.toBytes a).1 (V4.toBytes a).2.1 (V4.toBytes a).2.2.1 (V4.toBytes a).2.2.2 := by
  rw [V4.addressString_quad, Net.parseIPv4_quad (BitVec.isLt _) (BitVec.isLt _) (BitVec.isLt _) (BitVec.isLt _)]
  simp

theorem V4.string_chars (a : BitVec 32) : ∀ c ∈ V4.addressString a, c ≠ ':' ∧ c ≠ '/' := by
  rw [V4.addressString_quad]; exact Net.mem_quad

theorem V4.addressFromNetIP_ipv4 (a : BitVec 32) :
    V4.addressFromNetIP (Net.ipv4 (V4.toBytes a).1 (V4.toBytes a).2.1 (V4.toBytes a).2.2.1 (V4.toBytes a).2.2.2) = some a :=
  (C01_v4_roundtrip a).2.1

/-! ### C45, package ipv4 -/

/-- Every IPv4 address and every IPv4 prefix (host bits included) is read back from its text. -/
theorem C45_v4_roundtrip :
    (∀ a : BitVec 32, V4.addressFromString (V4.addressString a) = some a) ∧
    (∀ p : Prefix (BitVec 32), p.len ≤ 32 → V4.prefixFromString (V4.prefixString p) = some p) := by
  constructor
  · intro a
    have h : Net.parseIP (V4.addressString a) =
        Net.ipv4 (V4.toBytes a).1 (V4.toBytes a).2.1 (V4.toBytes a).2.2.1 (V4.toBytes a).2.2.2 := by
      rw [V4.addressString_quad, Net.parseIP_quad, ← V4.addressString_quad, V4.parse_string]
    rw [V4.addressFromString, h]
    exact V4.addressFromNetIP_ipv4 a
  · intro p hp
    rw [V4.prefixFromString, V4.parseNet, V4.prefixString,
      Net.parseCIDR_eq (fun c hc => (V4.string_chars p.addr c hc).2) (by unfold Net.big; omega), V4.parse_string]
    have h32 : ¬ 32 < p.len := by omega
    simp only [Net.ipv4, h32, if_false, Option.map_some, V4.prefixFromNetIPNet, size_cidrMask32 hp]
    rw [if_neg (by simp)]
    have := V4.addressFromNetIP_ipv4 p.addr
    rw [Net.ipv4] at this
    rw [this]
    rfl

/-! ### C45, package ipv6 -/

/-- An IPv6 address is read back from its text exactly if it is not mapped; the text of a mapped one is an error. -/
theorem C45_v6_address (a : U128) :
    V6.addressFromString (V6.addressString a) = if Mapped a then none else some a := by
  by_cases h : Mapped a
  · rw [if_pos h, V6.addressString_mapped h, V6.addressFromString, V4.addressString_quad, Net.parseIP_quad,
      ← V4.addressString_quad, V4.parse_string]
    rfl
  · rw [if_neg h, V6.addressString_plain h, V6.addressFromString, text6_parse]
    have e := V6.toNetIP_to4 a
    rw [if_neg h] at e
    have e' := (C01_v6_roundtrip a).2.1
    rw [V6.toNetIP] at e e' ⊢
    simp only [e]
    exact e'

/-- An IPv6 prefix is read back from its text exactly if its address is not mapped. -/
theorem C45_v6_prefix (p : Prefix U128) (hp : p.len ≤ 128) :
    V6.prefixFromString (V6.prefixString p) = if Mapped p.addr then none else some p := by
  by_cases h : Mapped p.addr
  · rw [if_pos h, V6.prefixFromString, V6.parseNet, V6.prefixString, V6.addressString_mapped h,
      Net.parseCIDR_eq (fun c hc => (V4.string_chars _ c hc).2) (by unfold Net.big; omega), V4.parse_string]
    simp only [Net.ipv4]
    by_cases h32 : 32 < p.len
    · rw [if_pos h32]; rfl
    · rw [if_neg h32]
      simp only [Option.map_some, V6.prefixFromNetIPNet, size_cidrMask32 (show p.len ≤ 32 by omega)]
      rw [if_pos (by decide)]
  · rw [if_neg h, V6.prefixFromString, V6.parseNet, V6.prefixString, V6.addressString_plain h,
      Net.parseCIDR_eq (fun c hc => (text6_chars _ c hc).2) (by unfold Net.big; omega),
      Net.parseIPv4_none (fun c hc => (text6_chars _ c hc).1)]
    have e : Net.parseIPv6 (text6 p.addr) = V6.toNetIP p.addr := Net.parseIPv6_print (V6.toBytes_length _)
    rw [e]
    have h128 : ¬ 128 < p.len := by omega
    have e' := (C01_v6_roundtrip p.addr).2.1
    rw [V6.toNetIP] at e' ⊢
    simp only [h128, if_false, Option.map_some, V6.prefixFromNetIPNet, size_cidrMask128 hp]
    rw [if_neg (by simp), e']
    rfl

/-- The claim as stated is false of package ipv6: the prefix ::ffff:1.2.3.4/120 and its address are not read
    back. -/
theorem C45_v6_counterexample :
    ¬ ((∀ a : U128, V6.addressFromString (V6.addressString a) = some a) ∨
      (∀ p : Prefix U128, p.len ≤ 128 → V6.prefixFromString (V6.prefixString p) = some p)) := by
  have hm : Mapped ⟨0, 0xffff01020304⟩ := by decide
  rintro (h | h)
  · have := h ⟨0, 0xffff01020304⟩
    rw [C45_v6_address, if_pos hm] at this
    cases this
  · have := h ⟨⟨0, 0xffff01020304⟩, 120⟩ (by decide)
    rw [C45_v6_prefix _ (by decide), if_pos hm] at this
    cases this

/-- No text at all denotes a mapped address for package ipv6. -/
theorem C45_v6_never_mapped (s : Str) (a : U128) (h : V6.addressFromString s = some a) : ¬ Mapped a := by
  rw [V6.addressFromString] at h
  cases hs : Net.parseIP s with
  | none => rw [hs] at h; cases h
  | some l =>
    rw [hs] at h
    simp only at h
    split at h
    · cases h
    · next h4 =>
      have hl : some l = V6.toNetIP a := by
        obtain ⟨bs, h1, h2, h3⟩ := (C01_v6_fromSlice (some l) a).1 h
        obtain ⟨cs, h4, h5, h6⟩ := C01_v6_toNetIP a
        rw [h1, h4, beNat_inj (h2.trans h5.symm) (h3.trans h6.symm)]
      rw [hl, V6.toNetIP_to4] at h4
      intro hm
      rw [if_pos hm] at h4
      cases h4

/-- Different IPv6 addresses have different texts, also mapped ones. -/
theorem C45_v6_injective (a b : U128) (h : V6.addressString a = V6.addressString b) : a = b := by
  by_cases ha : Mapped a
  · by_cases hb : Mapped b
    · rw [V6.addressString_mapped ha, V6.addressString_mapped hb] at h
      have := congrArg V4.addressFromString h
      rw [C45_v4_roundtrip.1, C45_v4_roundtrip.1] at this
      have e := congrArg BitVec.toNat (Option.some.inj this)
      rw [lowV4, lowV4, BitVec.toNat_ofNat, BitVec.toNat_ofNat] at e
      unfold Mapped at ha hb
      apply toNat_inj
      omega
    · have := congrArg V6.addressFromString h
      rw [C45_v6_address, C45_v6_address, if_pos ha, if_neg hb] at this
      cases this
  · have := congrArg V6.addressFromString h
    rw [C45_v6_address, C45_v6_address, if_neg ha] at this
    by_cases hb : Mapped b
    · rw [if_pos hb] at this; cases this
    · rw [if_neg hb] at this; exact Option.some.inj this

/-! ### C45, package ip -/

theorem contains_colon_v4 (a : BitVec 32) : (V4.addressString a).contains ':' = false := by
  rw [List.contains_eq_mem, decide_eq_false_iff_not]
  intro h
  exact (V4.string_chars a _ h).1 rfl

theorem contains_colon_text6 (a : U128) : (text6 a).contains ':' = true := by
  rw [List.contains_eq_mem, decide_eq_true_iff]
  exact Net.colon_mem_print _

theorem dec_no_colon (n : Nat) : ':' ∉ dec n := by
  intro h
  obtain ⟨d, hd, e⟩ := Net.mem_dec _ h
  exact (Net.digit_ne (show d < 16 by omega)).1 e.symm

/-- `ip.AddressFromString(a.String())`: IPv4 addresses and unmapped IPv6 addresses are read back; a mapped IPv6
    address comes back as an IPv4 address. -/
theorem C45_ip_address :
    (∀ a : BitVec 32, (IP.addressString (.v4 a)).bind IP.addressFromString = some (.v4 a)) ∧
    (∀ a : U128, (IP.addressString (.v6 a)).bind IP.addressFromString =
      if Mapped a then some (.v4 (lowV4 a)) else some (.v6 a)) := by
  constructor
  · intro a
    show IP.addressFromString (V4.addressString a) = _
    rw [IP.addressFromString, contains_colon_v4, C45_v4_roundtrip.1]
    rfl
  · intro a
    show IP.addressFromString (V6.addressString a) = _
    by_cases h : Mapped a
    · rw [if_pos h, V6.addressString_mapped h, IP.addressFromString, contains_colon_v4, C45_v4_roundtrip.1]
      rfl
    · have := C45_v6_address a
      rw [if_neg h] at this
      rw [if_neg h, IP.addressFromString, this, V6.addressString_plain h, contains_colon_text6]
      rfl

/-- `ip.PrefixFromString(p.String())`: IPv4 prefixes and IPv6 prefixes with an unmapped address are read back;
    an IPv6 prefix with a mapped address gives an error, or, if its length is at most 32, an IPv4 prefix of that
    length. -/
theorem C45_ip_prefix :
    (∀ p : Prefix (BitVec 32), p.len ≤ 32 → (IP.prefixString (.v4 p)).bind IP.prefixFromString = some (.v4 p)) ∧
    (∀ p : Prefix U128, p.len ≤ 128 → (IP.prefixString (.v6 p)).bind IP.prefixFromString =
      if Mapped p.addr then (if p.len ≤ 32 then some (.v4 ⟨lowV4 p.addr, p.len⟩) else none) else some (.v6 p)) := by
  have key : ∀ p : Prefix (BitVec 32), (V4.prefixString p).contains ':' = false := by
    intro p
    rw [List.contains_eq_mem, decide_eq_false_iff_not]
    intro h
    rw [V4.prefixString] at h
    rcases List.mem_append.1 h with h | h
    · rcases List.mem_append.1 h with h | h
      · exact (V4.string_chars _ _ h).1 rfl
      · simp at h
    · exact dec_no_colon _ h
  constructor
  · intro p hp
    show IP.prefixFromString (V4.prefixString p) = _
    rw [IP.prefixFromString, key, C45_v4_roundtrip.2 p hp]
    rfl
  · intro p hp
    show IP.prefixFromString (V6.prefixString p) = _
    by_cases h : Mapped p.addr
    · have e : V6.prefixString p = V4.prefixString ⟨lowV4 p.addr, p.len⟩ := by
        rw [V6.prefixString, V6.addressString_mapped h]; rfl
      rw [if_pos h, e, IP.prefixFromString, key]
      by_cases h32 : p.len ≤ 32
      · rw [if_pos h32, C45_v4_roundtrip.2 _ h32]
        rfl
      · rw [if_neg h32, if_neg (by decide), V4.prefixFromString, V4.parseNet, V4.prefixString,
          Net.parseCIDR_eq (fun c hc => (V4.string_chars _ c hc).2) (by unfold Net.big; simp only; omega), V4.parse_string]
        simp only [Net.ipv4, show 32 < p.len by omega, if_true]
        rfl
    · have := C45_v6_prefix p hp
      rw [if_neg h] at this
      have hc : (V6.prefixString p).contains ':' = true := by
        rw [List.contains_eq_mem, decide_eq_true_iff, V6.prefixString, V6.addressString_plain h]
        have := Net.colon_mem_print (V6.toBytes p.addr)
        simp only [List.append_assoc, List.mem_append]
        exact .inl this
      rw [if_neg h, IP.prefixFromString, hc, this]
      rfl

/-- C45 as far as it is true: everything in package ipv4, and in packages ipv6 and ip everything but the
    addresses of ::ffff:0:0/96.  Missing: those addresses, for which the claim is false
    (`C45_v6_counterexample`). -/
theorem C45_partial :
    (∀ a : BitVec 32, V4.addressFromString (V4.addressString a) = some a) ∧
    (∀ p : Prefix (BitVec 32), p.len ≤ 32 → V4.prefixFromString (V4.prefixString p) = some p) ∧
    (∀ a : U128, ¬ Mapped a → V6.addressFromString (V6.addressString a) = some a) ∧
    (∀ p : Prefix U128, p.len ≤ 128 → ¬ Mapped p.addr → V6.prefixFromString (V6.prefixString p) = some p) :=
  ⟨C45_v4_roundtrip.1, C45_v4_roundtrip.2, fun a h => by rw [C45_v6_address, if_neg h],
    fun p hp h => by rw [C45_v6_prefix p hp, if_neg h]⟩

/-! ### examples -/

example : V6.addressString ⟨0x20010db800000000, 1⟩ = "2001:db8::1".toList := by decide
example : ¬ Mapped ⟨0x20010db800000000, 1⟩ := by decide
example : V6.addressFromString "2001:db8::1".toList = some ⟨0x20010db800000000, 1⟩ := by decide
example : V6.addressString ⟨0, 0xffff01020304⟩ = "1.2.3.4".toList := by decide
example : V4.addressFromString "::ffff:1.2.3.4".toList = some 0x01020304#32 := by decide
example : V4.addressFromString "1.2.3.256".toList = none := by decide
example : V6.addressFromString "1::2::3".toList = none := by decide

end Addrs

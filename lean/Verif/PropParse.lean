import Verif.PropText
/-
  Property C56: which texts `AddressFromString` and `PrefixFromString` accept.
-/
set_option linter.unusedSectionVars false
namespace Addrs
open GoWord LawfulGoWord Fmt

/-! ### the specification -/

/-- the number that a string of decimal digits stands for -/
def decVal (ds : Str) : Nat := ds.foldl (fun n c => n * 10 + (c.toNat - 48)) 0

/-- a non-empty string of decimal digits -/
def Digits (ds : Str) : Prop := ds ≠ [] ∧ ∀ c ∈ ds, '0' ≤ c ∧ c ≤ '9'

namespace Net

theorem isDigit_iff {c : Char} : isDigit c = true ↔ '0' ≤ c ∧ c ≤ '9' := by
  unfold isDigit
  rw [Bool.and_eq_true, decide_eq_true_iff, decide_eq_true_iff]
  rfl

theorem digit_of_isDigit {c : Char} (h : isDigit c = true) : c.toNat - 48 < 10 ∧ c = digit (c.toNat - 48) := by
  unfold isDigit at h
  rw [Bool.and_eq_true, decide_eq_true_iff, decide_eq_true_iff] at h
  have h1 : 48 ≤ c.toNat := h.1
  have h2 : c.toNat ≤ 57 := h.2
  refine ⟨by omega, ?_⟩
  rw [digit, if_pos (by omega), show 48 + (c.toNat - 48) = c.toNat by omega, Char.ofNat_toNat]

theorem dtoiLoop_inv {s : Str} : ∀ {n i m j : Nat}, dtoiLoop n i s = some (m, j) →
    ∃ ds rest, s = ds ++ rest ∧ (∀ c ∈ ds, isDigit c = true) ∧ Stops rest ∧ j = i + ds.length ∧
      m = ds.foldl (fun n c => n * 10 + (c.toNat - 48)) n := by
  induction s with
  | nil =>
    intro n i m j h
    cases h
    exact ⟨[], [], rfl, by simp, Stops.nil, rfl, rfl⟩
  | cons c s ih =>
    intro n i m j h
    rw [dtoiLoop] at h
    split at h
    · next hc =>
      split at h
      · cases h
      · obtain ⟨ds, rest, h1, h2, h3, h4, h5⟩ := ih h
        refine ⟨c :: ds, rest, by rw [h1]; rfl, ?_, h3, ?_, h5⟩
        · intro x hx
          rcases List.mem_cons.mp hx with rfl | hx
          · exact hc
          · exact h2 x hx
        · rw [h4, List.length_cons]; omega
    · next hc =>
      cases h
      refine ⟨[], c :: s, rfl, by simp, ?_, rfl, rfl⟩
      exact Stops.cons (by simpa using hc) _

theorem dtoi_inv {s : Str} {m j : Nat} (h : dtoi s = some (m, j)) :
    ∃ ds rest, s = ds ++ rest ∧ Digits ds ∧ Stops rest ∧ j = ds.length ∧ m = decVal ds := by
  unfold dtoi at h
  cases hl : dtoiLoop 0 0 s with
  | none => rw [hl] at h; cases h
  | some x =>
    obtain ⟨n, i⟩ := x
    rw [hl] at h
    simp only at h
    split at h
    · cases h
    · next hi =>
      cases h
      obtain ⟨ds, rest, h1, h2, h3, h4, h5⟩ := dtoiLoop_inv hl
      refine ⟨ds, rest, h1, ⟨?_, fun c hc => isDigit_iff.mp (h2 c hc)⟩, h3, by omega, h5⟩
      rintro rfl
      exact hi (by rw [h4]; rfl)

theorem head?_append' {l m : Str} (h : l ≠ []) : (l ++ m).head? = l.head? := by
  cases l with
  | nil => exact (h rfl).elim
  | cons => rfl

theorem decVal_snoc (l : Str) (c : Char) : decVal (l ++ [c]) = decVal l * 10 + (c.toNat - 48) := by
  unfold decVal; rw [List.foldl_append]; rfl

/-- digits without a leading zero are the text of their number -/
theorem eq_dec {ds : Str} (h : Digits ds) (h0 : 1 < ds.length → ds.head? ≠ some '0') : ds = dec (decVal ds) := by
  obtain ⟨n, hn⟩ : ∃ n, ds.length = n := ⟨_, rfl⟩
  induction n generalizing ds with
  | zero => exact (h.1 (List.length_eq_zero_iff.mp hn)).elim
  | succ n ih =>
    obtain ⟨l, c, rfl⟩ : ∃ l c, ds = l ++ [c] := ⟨ds.dropLast, ds.getLast h.1, (List.dropLast_concat_getLast h.1).symm⟩
    obtain ⟨hc, ec⟩ := digit_of_isDigit (isDigit_iff.mpr (h.2 c (by simp)))
    rw [decVal_snoc]
    by_cases hl : l = []
    · subst hl
      have e : decVal [] = 0 := rfl
      rw [e, Nat.zero_mul, Nat.zero_add, dec_lt hc, ← ec]
      rfl
    · have hlen : 1 ≤ l.length := by
        cases l with
        | nil => exact (hl rfl).elim
        | cons => simp
      have hh : l.head? ≠ some '0' := by
        have := h0 (by simp; omega)
        rwa [head?_append' hl] at this
      have hd : Digits l := ⟨hl, fun x hx => h.2 x (by simp [hx])⟩
      have el := ih hd (fun _ => hh) (by simpa using hn)
      have hpos : decVal l ≠ 0 := by
        intro e
        rw [e, dec_zero] at el
        exact hh (by rw [el]; rfl)
      rw [dec_ge (by omega)]
      congr 1
      · rw [show (decVal l * 10 + (c.toNat - 48)) / 10 = decVal l by omega]; exact el
      · rw [show (decVal l * 10 + (c.toNat - 48)) % 10 = c.toNat - 48 by omega, ← ec]

theorem octets_inv {k : Nat} {first : Bool} {s : Str} {bs : List (BitVec 8)} {rest : Str}
    (h : octets (k + 1) first s = some (bs, rest)) :
    ∃ n s' bs', n < 256 ∧ s = (if first then [] else ['.']) ++ (dec n ++ s') ∧ octets k false s' = some (bs', rest) ∧
      bs = BitVec.ofNat 8 n :: bs' := by
  unfold octets at h
  obtain ⟨u, es, h⟩ : ∃ u, s = (if first then [] else ['.']) ++ u ∧ (match dtoi u with
      | none => none
      | some (n, c) =>
        if 0xff < n then none
        else if 1 < c ∧ u.head? = some '0' then none
        else
          match octets k false (u.drop c) with
          | none => none
          | some (bs, rest) => some (BitVec.ofNat 8 n :: bs, rest)) = some (bs, rest) := by
    cases s with
    | nil => cases h
    | cons c t =>
      cases first with
      | true => exact ⟨_, rfl, h⟩
      | false =>
        by_cases hc : c = '.'
        · subst hc; exact ⟨t, rfl, h⟩
        · simp [hc] at h
  cases hd : dtoi u with
  | none => rw [hd] at h; cases h
  | some x =>
    obtain ⟨n, c⟩ := x
    rw [hd] at h
    simp only at h
    split at h
    · cases h
    next h1 =>
    split at h
    · cases h
    next h2 =>
    obtain ⟨ds, r, e1, e2, e3, e4, e5⟩ := dtoi_inv hd
    have hdec : ds = dec n := by
      rw [e5]
      refine eq_dec e2 fun hl hh => h2 ⟨by omega, ?_⟩
      rw [e1, head?_append' e2.1]; exact hh
    have edrop : u.drop c = r := by rw [e1, e4, List.drop_left]
    rw [edrop] at h
    cases ho : octets k false r with
    | none => rw [ho] at h; cases h
    | some y =>
      obtain ⟨bs', rest'⟩ := y
      rw [ho] at h
      cases h
      exact ⟨n, r, bs', by omega, by rw [es, e1, hdec], ho, rfl⟩

/-- `parseIPv4` accepts only four decimal numbers below 256 without leading zeros, separated by dots -/
theorem parseIPv4_inv {s : Str} {l : List (BitVec 8)} (h : parseIPv4 s = some l) :
    ∃ a b c d : BitVec 8, s = quad a.toNat b.toNat c.toNat d.toNat ∧ some l = ipv4 a b c d := by
  unfold parseIPv4 at h
  split at h
  · next a b c d ho =>
    obtain ⟨n1, s1, b1, l1, e1, o1, f1⟩ := octets_inv ho
    obtain ⟨n2, s2, b2, l2, e2, o2, f2⟩ := octets_inv o1
    obtain ⟨n3, s3, b3, l3, e3, o3, f3⟩ := octets_inv o2
    obtain ⟨n4, s4, b4, l4, e4, o4, f4⟩ := octets_inv o3
    rw [octets] at o4
    cases o4
    subst f4; subst f3; subst f2
    cases f1
    refine ⟨_, _, _, _, ?_, h.symm⟩
    rw [e1, e2, e3, e4]
    simp [quad, Nat.mod_eq_of_lt l1, Nat.mod_eq_of_lt l2, Nat.mod_eq_of_lt l3, Nat.mod_eq_of_lt l4]
  · cases h

theorem parseIP_go_noColon {s : Str} : ∀ {t : Str}, ':' ∉ t → parseIP.go s t = none ∨ parseIP.go s t = parseIPv4 s
  | [], _ => Or.inl rfl
  | c :: t, h => by
    rw [List.mem_cons, not_or] at h
    rw [parseIP.go]
    split
    · exact Or.inr rfl
    · rw [if_neg (fun e => h.1 e.symm)]; exact parseIP_go_noColon h.2

theorem le_foldl (ds : Str) : ∀ n, n ≤ ds.foldl (fun n c => n * 10 + (c.toNat - 48)) n := by
  induction ds with
  | nil => intro n; exact Nat.le_refl _
  | cons c ds ih => intro n; exact Nat.le_trans (show n ≤ n * 10 + (c.toNat - 48) by omega) (ih _)

theorem dtoiLoop_digits : ∀ (ds : Str) (n i : Nat), (∀ c ∈ ds, isDigit c = true) →
    ds.foldl (fun n c => n * 10 + (c.toNat - 48)) n < big →
    dtoiLoop n i ds = some (ds.foldl (fun n c => n * 10 + (c.toNat - 48)) n, i + ds.length)
  | [], n, i, _, _ => rfl
  | c :: ds, n, i, h, hb => by
    rw [dtoiLoop, if_pos (h c (by simp)), if_neg]
    · rw [dtoiLoop_digits ds _ _ (fun x hx => h x (by simp [hx])) hb, List.length_cons, List.foldl_cons]
      congr 2; omega
    · exact Nat.not_le.mpr (Nat.lt_of_le_of_lt (le_foldl ds _) hb)

theorem dtoi_digits {ds : Str} (h : Digits ds) (hb : decVal ds < big) : dtoi ds = some (decVal ds, ds.length) := by
  unfold dtoi
  rw [dtoiLoop_digits ds 0 0 (fun c hc => isDigit_iff.mpr (h.2 c hc)) hb]
  simp only [Nat.zero_add]
  rw [if_neg]
  · rfl
  · exact fun e => h.1 (List.length_eq_zero_iff.mp e)

/-- what `ParseCIDR` does with an address and a number -/
theorem parseCIDR_split {s m : Str} (h : '/' ∉ s) {n c : Nat} (hd : dtoi m = some (n, c)) :
    parseCIDR (s ++ '/' :: m) =
      (match parseIPv4 s with
      | some b => if c ≠ m.length ∨ 32 < n then none else some (some b, cidrMask (n : Int) 32)
      | none =>
        match parseIPv6 s with
        | some b => if c ≠ m.length ∨ 128 < n then none else some (some b, cidrMask (n : Int) 128)
        | none => none) := by
  unfold parseCIDR
  rw [idxOf?_append (fun c hc e => h (e ▸ hc))]
  have e1 : (s ++ '/' :: m).take s.length = s := by simp
  have e2 : (s ++ '/' :: m).drop (s.length + 1) = m := by
    rw [← List.drop_drop, List.drop_left]
    rfl
  simp only [e1, e2, hd]
  cases h4 : parseIPv4 s with
  | some b => rfl
  | none =>
    simp only
    cases h6 : parseIPv6 s with
    | some b => rfl
    | none => rfl

theorem parseCIDR_inv {s : Str} {x : Slice × Slice} (h : parseCIDR s = some x) :
    ∃ a m n, s = a ++ '/' :: m ∧ '/' ∉ a ∧ Digits m ∧ n = decVal m ∧
      ((∃ l, parseIPv4 a = some l ∧ n ≤ 32 ∧ x = (some l, cidrMask (n : Int) 32)) ∨
       (∃ l, parseIPv4 a = none ∧ parseIPv6 a = some l ∧ n ≤ 128 ∧ x = (some l, cidrMask (n : Int) 128))) := by
  cases hi : s.idxOf? '/' with
  | none => unfold parseCIDR at h; rw [hi] at h; cases h
  | some i =>
    obtain ⟨hlt, hat, hbefore⟩ := List.idxOf?_eq_some_iff.mp hi
    have es : s = s.take i ++ '/' :: s.drop (i + 1) := by
      have : s.drop i = s[i] :: s.drop (i + 1) := List.drop_eq_getElem_cons hlt
      rw [eq_of_beq (by simpa using hat : (s[i] == '/') = true)] at this
      rw [← this, List.take_append_drop]
    have ha : '/' ∉ s.take i := by
      intro hm
      obtain ⟨j, hj, e⟩ := List.mem_iff_getElem.mp hm
      rw [List.length_take] at hj
      rw [List.getElem_take] at e
      exact hbefore j (by omega) (by simpa using e)
    cases hd : dtoi (s.drop (i + 1)) with
    | none =>
      unfold parseCIDR at h
      rw [hi] at h
      simp only [hd] at h
      split at h
      · next e => cases e
      · cases h
    | some y =>
      obtain ⟨n, c⟩ := y
      rw [es, parseCIDR_split ha hd] at h
      obtain ⟨ds, r, e1, e2, e3, e4, e5⟩ := dtoi_inv hd
      have whole : c = (s.drop (i + 1)).length → s.drop (i + 1) = ds := by
        intro hc
        have : r = [] := by
          rw [e1, List.length_append, e4] at hc
          exact List.length_eq_zero_iff.mp (by omega)
        rw [e1, this, List.append_nil]
      cases h4 : parseIPv4 (s.take i) with
      | some b =>
        rw [h4] at h
        simp only at h
        split at h
        · cases h
        · next hn =>
          rw [not_or, Classical.not_not] at hn
          cases h
          have hw := whole hn.1
          exact ⟨_, _, n, es, ha, hw ▸ e2, by rw [hw]; exact e5, Or.inl ⟨b, h4, by omega, rfl⟩⟩
      | none =>
        rw [h4] at h
        simp only at h
        cases h6 : parseIPv6 (s.take i) with
        | none => rw [h6] at h; cases h
        | some b =>
          rw [h6] at h
          simp only at h
          split at h
          · cases h
          · next hn =>
            rw [not_or, Classical.not_not] at hn
            cases h
            have hw := whole hn.1
            exact ⟨_, _, n, es, ha, hw ▸ e2, by rw [hw]; exact e5, Or.inr ⟨b, h4, h6, by omega, rfl⟩⟩

/-- IPv6 text has a colon. -/
theorem parseIPv6_colon {s : Str} {l : List (BitVec 8)} (h : parseIPv6 s = some l) : ':' ∈ s := by
  refine Classical.byContradiction fun hc => ?_
  unfold parseIPv6 at h
  split at h
  · exact hc (by simp)
  · unfold parseGroups at h
    rw [groups] at h
    cases hx : xtoi s with
    | none => rw [hx] at h; cases h
    | some y =>
      obtain ⟨n, c⟩ := y
      rw [hx] at h
      simp only at h
      by_cases h1 : 0xffff < n
      · rw [if_pos h1] at h; cases h
      rw [if_neg h1] at h
      by_cases h2 : (s.drop c).head? = some '.'
      · rw [if_pos h2, if_pos ⟨trivial, by simp⟩] at h; cases h
      rw [if_neg h2] at h
      have hm : ':' ∉ s.drop c := fun hm => hc (List.mem_of_mem_drop hm)
      cases hs : s.drop c with
      | nil => rw [hs] at h; simp [expand] at h
      | cons x t =>
        rw [hs] at h hm
        cases t with
        | nil => cases h
        | cons y t =>
          simp only at h
          rw [if_pos (fun e => hm (by rw [e]; simp))] at h
          cases h

end Net

theorem quad_string (a b c d : BitVec 8) :
    Net.quad a.toNat b.toNat c.toNat d.toNat = V4.addressString (V4.addressFromBytes a b c d) := by
  have h := V4.toBytes_beNat (V4.addressFromBytes a b c d)
  rw [V4.toNat_addressFromBytes] at h
  have := beNat_inj (by rfl) h
  simp only [List.cons.injEq, and_true] at this
  rw [V4.addressString_quad, this.1, this.2.1, this.2.2.1, this.2.2.2]

theorem parse_v4_inv {s : Str} {l : List (BitVec 8)} (h : Net.parseIPv4 s = some l) :
    ∃ a, s = V4.addressString a ∧ some l = Net.parseIPv4 (V4.addressString a) := by
  obtain ⟨a, b, c, d, e, _⟩ := Net.parseIPv4_inv h
  rw [quad_string] at e
  exact ⟨_, e, by rw [← e, h]⟩

/-! ### C56, addresses -/

/-- A text without a colon is accepted as an IPv4 address exactly if it is the text of that address. -/
theorem C56_v4_address (s : Str) (h : ':' ∉ s) (a : BitVec 32) :
    V4.addressFromString s = some a ↔ s = V4.addressString a := by
  constructor
  · intro hs
    rw [V4.addressFromString] at hs
    cases hp : Net.parseIP s with
    | none => rw [hp] at hs; cases hs
    | some l =>
      have hq : Net.parseIPv4 s = some l := by
        rw [Net.parseIP] at hp
        rcases Net.parseIP_go_noColon (s := s) h with e | e
        · rw [e] at hp; cases hp
        · rw [← e]; exact hp
      obtain ⟨b, e, _⟩ := parse_v4_inv hq
      have : V4.addressFromString s = some a := by rw [V4.addressFromString]; exact hs
      rw [e, C45_v4_roundtrip.1] at this
      cases this
      exact e
  · rintro rfl; exact C45_v4_roundtrip.1 a

/-- Every text of an IPv6 address has a colon, and the address is not a mapped one. -/
theorem v6_address_inv {s : Str} {a : U128} (h : V6.addressFromString s = some a) : ':' ∈ s ∧ ¬ Mapped a := by
  refine ⟨Classical.byContradiction fun hc => ?_, C45_v6_never_mapped s a h⟩
  rw [V6.addressFromString, Net.parseIP] at h
  rcases Net.parseIP_go_noColon (s := s) hc with e | e
  · rw [e] at h; cases h
  · rw [e] at h
    cases hp : Net.parseIPv4 s with
    | none => rw [hp] at h; cases h
    | some l =>
      rw [hp] at h
      obtain ⟨x, y, z, w, _, e'⟩ := Net.parseIPv4_inv hp
      rw [Net.ipv4] at e'
      cases e'
      cases h

/-- No text is both an IPv4 and an IPv6 address. -/
theorem C56_address_families (s : Str) (a : BitVec 32) (b : U128) :
    ¬ (V4.addressFromString s = some a ∧ V6.addressFromString s = some b) := by
  rintro ⟨h1, h2⟩
  rw [V4.addressFromString] at h1
  rw [V6.addressFromString] at h2
  cases hp : Net.parseIP s with
  | none => rw [hp] at h1; cases h1
  | some l =>
    rw [hp] at h1 h2
    simp only at h1 h2
    cases h4 : Net.to4 (some l) with
    | none => rw [h4] at h1; cases h1
    | some m => rw [h4] at h2; cases h2

/-- Package ip: a text is accepted as an IPv4 address exactly if it is the text of that address, and as an IPv6
    address exactly if package ipv6 accepts it. -/
theorem C56_ip_address (s : Str) :
    (∀ a, IP.addressFromString s = some (.v4 a) ↔ s = V4.addressString a) ∧
    (∀ a, IP.addressFromString s = some (.v6 a) ↔ V6.addressFromString s = some a) ∧
    IP.addressFromString s ≠ some .other := by
  rw [IP.addressFromString]
  by_cases hc : s.contains ':' = true
  · rw [if_pos hc]
    have hm : ':' ∈ s := by rwa [List.contains_eq_mem, decide_eq_true_iff] at hc
    cases h : V6.addressFromString s with
    | none => simp; rintro a rfl; exact (V4.string_chars a _ hm).1 rfl
    | some b => simp; rintro a rfl; exact (V4.string_chars a _ hm).1 rfl
  · rw [if_neg hc]
    have hm : ':' ∉ s := by rwa [List.contains_eq_mem, decide_eq_true_iff] at hc
    have h6 : V6.addressFromString s = none := by
      cases h : V6.addressFromString s with
      | none => rfl
      | some b => exact (hm (v6_address_inv h).1).elim
    refine ⟨fun a => ?_, fun a => ?_, ?_⟩
    · rw [← C56_v4_address s hm a]
      cases V4.addressFromString s <;> simp
    · rw [h6]; cases V4.addressFromString s <;> simp
    · cases V4.addressFromString s <;> simp

/-- What an accepted text stands for is read back from its own text. -/
theorem C56_address_again :
    (∀ s a, V4.addressFromString s = some a → V4.addressFromString (V4.addressString a) = some a) ∧
    (∀ s a, V6.addressFromString s = some a → V6.addressFromString (V6.addressString a) = some a) ∧
    (∀ s x, IP.addressFromString s = some x → (IP.addressString x).bind IP.addressFromString = some x) := by
  refine ⟨fun s a _ => C45_v4_roundtrip.1 a, fun s a h => ?_, fun s x h => ?_⟩
  · rw [C45_v6_address, if_neg (v6_address_inv h).2]
  · cases x with
    | v4 a => exact C45_ip_address.1 a
    | v6 a =>
      rw [C45_ip_address.2 a, if_neg (v6_address_inv (((C56_ip_address s).2.1 a).mp h)).2]
    | other => exact ((C56_ip_address s).2.2 h).elim

/-! ### C56, prefixes -/

/-- A text is accepted as an IPv4 prefix exactly if it is the text of the address, a slash and digits (leading zeros
    allowed) that stand for the length. -/
theorem C56_v4_prefix (s : Str) (p : Prefix (BitVec 32)) :
    V4.prefixFromString s = some p ↔
      p.len ≤ 32 ∧ ∃ ds, s = V4.addressString p.addr ++ '/' :: ds ∧ Digits ds ∧ decVal ds = p.len := by
  constructor
  · intro h
    rw [V4.prefixFromString, V4.parseNet] at h
    cases hc : Net.parseCIDR s with
    | none => rw [hc] at h; cases h
    | some x =>
      rw [hc] at h
      obtain ⟨a, m, n, e1, e2, e3, e4, e5⟩ := Net.parseCIDR_inv hc
      rcases e5 with ⟨l, f1, f2, rfl⟩ | ⟨l, _, _, f2, rfl⟩
      · simp only [Option.map_some, V4.prefixFromNetIPNet, size_cidrMask32 f2] at h
        rw [if_neg (by simp)] at h
        obtain ⟨b, g1, g2⟩ := parse_v4_inv f1
        rw [V4.parse_string] at g2
        rw [g2, V4.addressFromNetIP_ipv4] at h
        cases h
        exact ⟨f2, m, by rw [e1, g1], e3, e4.symm⟩
      · simp only [Option.map_some, V4.prefixFromNetIPNet, size_cidrMask128 f2] at h
        rw [if_pos (by simp)] at h
        cases h
  · rintro ⟨hl, ds, rfl, hd, hv⟩
    have ho : '/' ∉ V4.addressString p.addr := fun hm => (V4.string_chars _ _ hm).2 rfl
    rw [V4.prefixFromString, V4.parseNet,
      Net.parseCIDR_split ho (Net.dtoi_digits hd (by rw [hv]; unfold Net.big; omega)), V4.parse_string]
    have h32 : ¬ (ds.length ≠ ds.length ∨ 32 < decVal ds) := by rw [hv]; simp; omega
    rw [hv] at h32 ⊢
    simp only [Net.ipv4, h32, if_false, Option.map_some, V4.prefixFromNetIPNet, size_cidrMask32 hl]
    rw [if_neg (by simp)]
    have := V4.addressFromNetIP_ipv4 p.addr
    rw [Net.ipv4] at this
    rw [this]
    rfl

theorem v6_prefix_inv {s : Str} {p : Prefix U128} (h : V6.prefixFromString s = some p) :
    p.len ≤ 128 ∧ ∃ a ds l, s = a ++ '/' :: ds ∧ ':' ∈ a ∧ Digits ds ∧ decVal ds = p.len ∧ Net.parseIPv6 a = some l ∧
      V6.addressFromNetIP (some l) = some p.addr := by
  rw [V6.prefixFromString, V6.parseNet] at h
  cases hc : Net.parseCIDR s with
  | none => rw [hc] at h; cases h
  | some x =>
    rw [hc] at h
    obtain ⟨a, m, n, e1, e2, e3, e4, e5⟩ := Net.parseCIDR_inv hc
    rcases e5 with ⟨l, f1, f2, rfl⟩ | ⟨l, f0, f1, f2, rfl⟩
    · simp only [Option.map_some, V6.prefixFromNetIPNet, size_cidrMask32 f2] at h
      rw [if_pos (by simp)] at h
      cases h
    · simp only [Option.map_some, V6.prefixFromNetIPNet, size_cidrMask128 f2] at h
      rw [if_neg (by simp)] at h
      cases ha : V6.addressFromNetIP (some l) with
      | none => rw [ha] at h; cases h
      | some b =>
        rw [ha] at h
        cases h
        exact ⟨f2, a, m, l, e1, Net.parseIPv6_colon f1, e3, e4.symm, f1, ha⟩

/-- No text is both an IPv4 and an IPv6 prefix; package ip accepts what the two packages accept. -/
theorem C56_ip_prefix (s : Str) :
    (∀ p q, ¬ (V4.prefixFromString s = some p ∧ V6.prefixFromString s = some q)) ∧
    (∀ p, IP.prefixFromString s = some (.v4 p) ↔ V4.prefixFromString s = some p) ∧
    (∀ p, IP.prefixFromString s = some (.v6 p) ↔ V6.prefixFromString s = some p) ∧
    IP.prefixFromString s ≠ some .other := by
  have no4 : ∀ p, V4.prefixFromString s = some p → ':' ∉ s := by
    intro p hp hm
    obtain ⟨_, ds, rfl, hd, _⟩ := (C56_v4_prefix s p).mp hp
    rcases List.mem_append.mp hm with hm | hm
    · exact (V4.string_chars _ _ hm).1 rfl
    · rcases List.mem_cons.mp hm with hm | hm
      · cases hm
      · exact absurd (hd.2 _ hm).2 (by decide)
  have yes6 : ∀ p, V6.prefixFromString s = some p → ':' ∈ s := by
    intro p hp
    obtain ⟨_, a, ds, l, rfl, hm, _⟩ := v6_prefix_inv hp
    exact List.mem_append.mpr (Or.inl hm)
  refine ⟨fun p q ⟨h1, h2⟩ => no4 p h1 (yes6 q h2), ?_⟩
  rw [IP.prefixFromString]
  by_cases hc : s.contains ':' = true
  · rw [if_pos hc]
    have hm : ':' ∈ s := by rwa [List.contains_eq_mem, decide_eq_true_iff] at hc
    refine ⟨fun p => ?_, fun p => ?_, ?_⟩
    · constructor
      · intro h; cases h6 : V6.prefixFromString s <;> rw [h6] at h <;> cases h
      · intro h; exact (no4 p h hm).elim
    · cases V6.prefixFromString s <;> simp
    · cases V6.prefixFromString s <;> simp
  · rw [if_neg hc]
    have hm : ':' ∉ s := by rwa [List.contains_eq_mem, decide_eq_true_iff] at hc
    refine ⟨fun p => ?_, fun p => ?_, ?_⟩
    · cases V4.prefixFromString s <;> simp
    · constructor
      · intro h; cases h4 : V4.prefixFromString s <;> rw [h4] at h <;> cases h
      · intro h; exact (hm (yes6 p h)).elim
    · cases V4.prefixFromString s <;> simp

/-- Full statement: also for mapped IPv6 addresses, for which it is false (`C56_prefix_counterexample`). -/
theorem C56_prefix_again_partial :
    (∀ s p, V4.prefixFromString s = some p → V4.prefixFromString (V4.prefixString p) = some p) ∧
    (∀ s p, V6.prefixFromString s = some p → ¬ Mapped p.addr → V6.prefixFromString (V6.prefixString p) = some p) := by
  refine ⟨fun s p h => C45_v4_roundtrip.2 p ((C56_v4_prefix s p).mp h).1, fun s p h hm => ?_⟩
  rw [C45_v6_prefix p (v6_prefix_inv h).1, if_neg hm]

/-- `::ffff:1.2.3.4/100` is accepted as an IPv6 prefix, but is printed as `1.2.3.4/100`, which is not. -/
theorem C56_prefix_counterexample : ∃ p, V6.prefixFromString "::ffff:1.2.3.4/100".toList = some p ∧
    V6.prefixFromString (V6.prefixString p) = none := by
  refine ⟨⟨⟨0, 0xffff01020304⟩, 100⟩, by decide, ?_⟩
  rw [C45_v6_prefix _ (by decide), if_pos (by decide)]

/-- IPv4 address text with a colon: `::ffff:10.0.0.1` is accepted by package ipv4 as 10.0.0.1 (so the hypothesis
    of `C56_v4_address` is needed). -/
theorem C56_v4_colon_counterexample : V4.addressFromString "::ffff:10.0.0.1".toList = some 0x0a000001#32 := by decide

/-! concrete cases -/
example : ':' ∉ "10.0.0.1".toList ∧ V4.addressFromString "10.0.0.1".toList = some 0x0a000001#32 := by decide
/-- a leading zero is an error -/
example : V4.addressFromString "10.0.0.01".toList = none := by decide
example : V4.prefixFromString "10.1.0.0/08".toList = some ⟨0x0a010000#32, 8⟩ := by decide
example : V6.addressFromString "fe80::1".toList = some ⟨0xfe80000000000000, 1⟩ := by decide
example : IP.prefixFromString "10.1.0.0/16".toList = some (.v4 ⟨0x0a010000#32, 16⟩) := by decide

end Addrs

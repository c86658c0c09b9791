import Verif.Text
import Verif.BytesProofs
/-
  Proofs about text.
-/
set_option linter.unusedSectionVars false
set_option linter.unusedSimpArgs false
namespace Addrs
open GoWord Fmt
namespace Net

/-! ### digits -/

theorem isDigit_digit {d : Nat} (h : d < 10) : isDigit (digit d) = true := by
  have : ∀ d, d < 10 → isDigit (digit d) = true := by decide
  exact this d h
theorem val_digit {d : Nat} (h : d < 10) : (digit d).toNat - 48 = d := by
  have : ∀ d, d < 10 → (digit d).toNat - 48 = d := by decide
  exact this d h
theorem hexVal_digit {d : Nat} (h : d < 16) : hexVal (digit d) = some d := by
  have : ∀ d, d < 16 → hexVal (digit d) = some d := by decide
  exact this d h
theorem digit_ne {d : Nat} (h : d < 16) : digit d ≠ ':' ∧ digit d ≠ '.' ∧ digit d ≠ '/' := by
  have : ∀ d, d < 16 → digit d ≠ ':' ∧ digit d ≠ '.' ∧ digit d ≠ '/' := by decide
  exact this d h
theorem digit_ne_zero {d : Nat} (h : d < 10) (h0 : d ≠ 0) : digit d ≠ '0' := by
  have : ∀ d, d < 10 → d ≠ 0 → digit d ≠ '0' := by decide
  exact this d h h0

theorem dtoiLoop_digit {d : Nat} (h : d < 10) (n i : Nat) (s : Str) :
    dtoiLoop n i (digit d :: s) = if big ≤ n * 10 + d then none else dtoiLoop (n * 10 + d) (i + 1) s := by
  rw [dtoiLoop]
  simp only [isDigit_digit h, val_digit h, if_true]

theorem xtoiLoop_digit {d : Nat} (h : d < 16) (n i : Nat) (s : Str) :
    xtoiLoop n i (digit d :: s) = if big ≤ n * 16 + d then none else xtoiLoop (n * 16 + d) (i + 1) s := by
  rw [xtoiLoop]
  simp only [hexVal_digit h]

theorem dec_lt {n : Nat} (h : n < 10) : dec n = [digit n] := by rw [dec, if_pos h]
theorem dec_ge {n : Nat} (h : ¬ n < 10) : dec n = dec (n / 10) ++ [digit (n % 10)] := by
  conv => lhs; rw [dec]
  rw [if_neg h]

theorem dec_ne_nil (n : Nat) : dec n ≠ [] := by
  by_cases h : n < 10
  · rw [dec_lt h]; simp
  · rw [dec_ge h]; simp

theorem mem_dec {n : Nat} : ∀ c ∈ dec n, ∃ d, d < 10 ∧ c = digit d := by
  induction n using Nat.strongRecOn with
  | ind n ih =>
    intro c hc
    by_cases h : n < 10
    · rw [dec_lt h] at hc
      exact ⟨n, h, List.mem_singleton.mp hc⟩
    · rw [dec_ge h, List.mem_append] at hc
      rcases hc with hc | hc
      · exact ih _ (by omega) c hc
      · exact ⟨n % 10, by omega, List.mem_singleton.mp hc⟩

theorem dec_head {n : Nat} (h : 0 < n) : (dec n).head? ≠ some '0' := by
  induction n using Nat.strongRecOn with
  | ind n ih =>
    by_cases h1 : n < 10
    · rw [dec_lt h1]
      simp only [List.head?_cons, ne_eq, Option.some.injEq]
      exact digit_ne_zero h1 (by omega)
    · rw [dec_ge h1, List.head?_append]
      have := ih (n / 10) (by omega) (by omega)
      cases hd : (dec (n / 10)).head? with
      | none => rw [List.head?_eq_none_iff] at hd; exact (dec_ne_nil _ hd).elim
      | some c => rw [hd] at this; simpa using this

theorem dec_zero : dec 0 = ['0'] := by rw [dec_lt (by omega)]; decide

/-- a decimal number ends where no digit follows -/
def Stops (s : Str) : Prop := ∀ c t, s = c :: t → isDigit c = false

theorem Stops.nil : Stops [] := by intro c t h; cases h
theorem Stops.cons {c : Char} (h : isDigit c = false) (t : Str) : Stops (c :: t) := by
  intro c' t' e; cases e; exact h

theorem dtoiLoop_stop {s : Str} (h : Stops s) (n i : Nat) : dtoiLoop n i s = some (n, i) := by
  cases s with
  | nil => rfl
  | cons c t => rw [dtoiLoop]; simp [h c t rfl]

theorem dtoiLoop_dec {m : Nat} (h : m < big) (i : Nat) (s : Str) :
    dtoiLoop 0 i (dec m ++ s) = dtoiLoop m (i + (dec m).length) s := by
  induction m using Nat.strongRecOn generalizing s with
  | ind m ih =>
    by_cases h1 : m < 10
    · rw [dec_lt h1]
      show dtoiLoop 0 i (digit m :: s) = _
      rw [dtoiLoop_digit h1, if_neg (by omega)]
      simp
    · rw [dec_ge h1, List.append_assoc, ih (m / 10) (by omega) (by omega)]
      show dtoiLoop (m / 10) _ (digit (m % 10) :: s) = _
      rw [dtoiLoop_digit (by omega), if_neg (by omega)]
      simp only [List.length_append, List.length_cons, List.length_nil]
      congr 1
      omega

theorem dtoi_dec {m : Nat} (h : m < big) {s : Str} (hs : Stops s) : dtoi (dec m ++ s) = some (m, (dec m).length) := by
  unfold dtoi
  rw [dtoiLoop_dec h, dtoiLoop_stop hs]
  simp only [Nat.zero_add]
  rw [if_neg]
  intro e
  exact dec_ne_nil m (List.length_eq_zero_iff.mp e)

/-! ### IPv4 -/

theorem octets_dec (k : Nat) {first : Bool} {n : Nat} (h : n < 256) {s : Str} (hs : Stops s) :
    octets (k + 1) first ((if first then [] else ['.']) ++ (dec n ++ s)) =
      match octets k false s with
      | none => none
      | some (bs, rest) => some (BitVec.ofNat 8 n :: bs, rest) := by
  obtain ⟨c, t, hc⟩ : ∃ c t, dec n ++ s = c :: t := by
    cases hd : dec n with
    | nil => exact (dec_ne_nil n hd).elim
    | cons c t => exact ⟨c, t ++ s, rfl⟩
  have hh : ¬ (1 < (dec n).length ∧ (dec n ++ s).head? = some '0') := by
    rintro ⟨h1, h2⟩
    by_cases h0 : n = 0
    · rw [h0, dec_zero] at h1; simp at h1
    · rw [List.head?_append] at h2
      have := dec_head (n := n) (by omega)
      cases hd : (dec n).head? with
      | none => rw [List.head?_eq_none_iff] at hd; exact dec_ne_nil n hd
      | some x => rw [hd] at this h2; exact this (by simpa using h2)
  have hb : n < big := by unfold big; omega
  have key : octets (k + 1) first ((if first then [] else ['.']) ++ (dec n ++ s)) =
      match dtoi (dec n ++ s) with
      | none => none
      | some (n', c) =>
        if 0xff < n' then none
        else if 1 < c ∧ (dec n ++ s).head? = some '0' then none
        else
          match octets k false ((dec n ++ s).drop c) with
          | none => none
          | some (bs, rest) => some (BitVec.ofNat 8 n' :: bs, rest) := by
    cases first with
    | true =>
      simp only [if_true, List.nil_append]
      rw [hc]
      rfl
    | false =>
      simp only [Bool.false_eq_true, if_false, List.cons_append, List.nil_append]
      rw [octets]
      simp only [ne_eq, not_true_eq_false, if_false, Bool.false_eq_true]
      rfl
  rw [key, dtoi_dec hb hs]
  simp only
  rw [if_neg (by omega), if_neg hh, List.drop_left]

/-- the text of four octets -/
def quad (a b c d : Nat) : Str := dec a ++ ['.'] ++ dec b ++ ['.'] ++ dec c ++ ['.'] ++ dec d

theorem parseIPv4_quad {a b c d : Nat} (ha : a < 256) (hb : b < 256) (hc : c < 256) (hd : d < 256) :
    parseIPv4 (quad a b c d) = ipv4 (BitVec.ofNat 8 a) (BitVec.ofNat 8 b) (BitVec.ofNat 8 c) (BitVec.ofNat 8 d) := by
  have dot : isDigit '.' = false := by decide
  have e : quad a b c d = (if true = true then [] else ['.']) ++ (dec a ++ ((if false = true then [] else ['.']) ++ (dec b ++
      ((if false = true then [] else ['.']) ++ (dec c ++ ((if false = true then [] else ['.']) ++ (dec d ++ []))))))) := by
    simp [quad]
  unfold parseIPv4
  rw [e, octets_dec 3 ha (by exact Stops.cons dot _), octets_dec 2 hb (by exact Stops.cons dot _),
    octets_dec 1 hc (by exact Stops.cons dot _), octets_dec 0 hd Stops.nil]
  rfl

theorem ubtoa_dec (v : BitVec 8) : ubtoa v = dec v.toNat := by
  unfold ubtoa
  simp only
  have hv := v.isLt
  split
  · next h => rw [dec_lt h]
  · next h =>
    split
    · next h1 => rw [dec_ge h, dec_lt (by omega)]; rfl
    · next h1 =>
      rw [dec_ge h, dec_ge (by omega), dec_lt (by omega)]
      have : v.toNat / 10 / 10 = v.toNat / 100 := by omega
      rw [this]; rfl

theorem mem_quad {a b c d : Nat} : ∀ x ∈ quad a b c d, x ≠ ':' ∧ x ≠ '/' := by
  intro x hx
  have hd : ∀ n, x ∈ dec n → x ≠ ':' ∧ x ≠ '/' := by
    intro n hn
    obtain ⟨d, h, rfl⟩ := mem_dec x hn
    have := digit_ne (d := d) (by omega)
    exact ⟨this.1, this.2.2⟩
  simp only [quad, List.mem_append, List.mem_singleton] at hx
  rcases hx with (((((h | h) | h) | h) | h) | h) | h
  all_goals first | exact hd _ h | (subst h; decide)

/-- a string that `ParseIP` takes for IPv4: a dot comes before any colon -/
theorem parseIP_go_dot {s : Str} : ∀ {t : Str}, (∀ c ∈ t, c ≠ '.' ∧ c ≠ ':') → ∀ (u : Str),
    parseIP.go s (t ++ '.' :: u) = parseIPv4 s
  | [], _, u => by simp [parseIP.go]
  | c :: t, h, u => by
    have h1 := h c List.mem_cons_self
    have h2 := parseIP_go_dot (s := s) (t := t) (fun c hc => h c (List.mem_cons_of_mem _ hc)) u
    simp [parseIP.go, h1.1, h1.2, h2]

theorem parseIP_go_colon {s : Str} : ∀ {t : Str}, (∀ c ∈ t, c ≠ '.' ∧ c ≠ ':') → ∀ (u : Str),
    parseIP.go s (t ++ ':' :: u) = parseIPv6 s
  | [], _, u => by simp [parseIP.go]
  | c :: t, h, u => by
    have h1 := h c List.mem_cons_self
    have h2 := parseIP_go_colon (s := s) (t := t) (fun c hc => h c (List.mem_cons_of_mem _ hc)) u
    simp [parseIP.go, h1.1, h1.2, h2]

theorem parseIP_quad {a b c d : Nat} : parseIP (quad a b c d) = parseIPv4 (quad a b c d) := by
  unfold parseIP
  have : quad a b c d = dec a ++ '.' :: (dec b ++ ['.'] ++ dec c ++ ['.'] ++ dec d) := by simp [quad]
  conv => lhs; arg 2; rw [this]
  refine parseIP_go_dot ?_ _
  intro x hx
  obtain ⟨e, h, rfl⟩ := mem_dec x hx
  have := digit_ne (d := e) (by omega)
  exact ⟨this.2.1, this.1⟩

/-! ### ParseCIDR -/

theorem idxOf?_append {s t : Str} (h : ∀ c ∈ s, c ≠ '/') : (s ++ '/' :: t).idxOf? '/' = some s.length := by
  rw [List.idxOf?_eq_some_iff]
  refine ⟨by simp, by simp, ?_⟩
  intro j hj e
  rw [List.getElem_append_left hj] at e
  exact h _ (List.getElem_mem hj) (by simpa using e)

theorem parseCIDR_eq {s : Str} (h : ∀ c ∈ s, c ≠ '/') {n : Nat} (hn : n < big) :
    parseCIDR (s ++ ['/'] ++ dec n) =
      (match parseIPv4 s with
      | some b => if 32 < n then none else some (some b, cidrMask (n : Int) 32)
      | none =>
        match parseIPv6 s with
        | some b => if 128 < n then none else some (some b, cidrMask (n : Int) 128)
        | none => none) := by
  unfold parseCIDR
  have hs : s ++ ['/'] ++ dec n = s ++ '/' :: dec n := by simp
  rw [hs, idxOf?_append h]
  have hd : dtoi (dec n) = some (n, (dec n).length) := by
    have := dtoi_dec hn Stops.nil
    rwa [List.append_nil] at this
  have e1 : (s ++ '/' :: dec n).take s.length = s := by simp
  have e2 : (s ++ '/' :: dec n).drop (s.length + 1) = dec n := by
    rw [← List.drop_drop, List.drop_left]
    rfl
  simp only [e1, e2, hd]
  cases h4 : parseIPv4 s with
  | some b =>
    simp only [ne_eq, not_true_eq_false, false_or]
    rfl
  | none =>
    simp only
    cases h6 : parseIPv6 s with
    | some b =>
      simp only [ne_eq, not_true_eq_false, false_or]
      rfl
    | none => rfl

/-! ### hexadecimal -/

theorem hex_eq {g : Nat} (h : g < 65536) : hex g =
    if g < 16 then [digit g]
    else if g < 256 then [digit (g / 16), digit (g % 16)]
    else if g < 4096 then [digit (g / 256), digit (g / 16 % 16), digit (g % 16)]
    else [digit (g / 4096), digit (g / 256 % 16), digit (g / 16 % 16), digit (g % 16)] := by
  unfold hex
  by_cases h0 : g = 0
  · subst h0; decide
  · rw [if_neg h0]
    simp only [List.flatMap_cons, List.flatMap_nil, Nat.shiftRight_eq_div_pow]
    rw [if_neg (by omega), if_neg (by omega), if_neg (by omega), if_neg (by omega)]
    simp only [Nat.reduceMul, Nat.reducePow, List.nil_append, List.append_nil, Nat.div_one]
    by_cases h1 : g < 16
    · have e : g % 16 = g := by omega
      rw [if_neg (show ¬ 0 < g / 4096 by omega), if_neg (show ¬ 0 < g / 256 by omega),
        if_neg (show ¬ 0 < g / 16 by omega), if_pos (show 0 < g by omega), if_pos h1, e]
      rfl
    · rw [if_neg h1]
      by_cases h2 : g < 256
      · have e : g / 16 % 16 = g / 16 := by omega
        rw [if_neg (show ¬ 0 < g / 4096 by omega), if_neg (show ¬ 0 < g / 256 by omega),
          if_pos (show 0 < g / 16 by omega), if_pos (show 0 < g by omega), if_pos h2, e]
        rfl
      · rw [if_neg h2]
        by_cases h3 : g < 4096
        · have e : g / 256 % 16 = g / 256 := by omega
          rw [if_neg (show ¬ 0 < g / 4096 by omega), if_pos (show 0 < g / 256 by omega),
            if_pos (show 0 < g / 16 by omega), if_pos (show 0 < g by omega), if_pos h3, e]
          rfl
        · have e : g / 4096 % 16 = g / 4096 := by omega
          rw [if_pos (show 0 < g / 4096 by omega), if_pos (show 0 < g / 256 by omega),
            if_pos (show 0 < g / 16 by omega), if_pos (show 0 < g by omega), if_neg h3, e]
          rfl

theorem hex_digits {g : Nat} (h : g < 65536) : ∃ d t, hex g = digit d :: t ∧ d < 16 := by
  rw [hex_eq h]
  split
  · next h1 => exact ⟨_, _, rfl, h1⟩
  · split
    · next h1 => exact ⟨_, _, rfl, by omega⟩
    · split
      · next h1 => exact ⟨_, _, rfl, by omega⟩
      · next h1 => exact ⟨_, _, rfl, by omega⟩

theorem mem_hex {g : Nat} (h : g < 65536) : ∀ c ∈ hex g, ∃ d, d < 16 ∧ c = digit d := by
  intro c hc
  rw [hex_eq h] at hc
  split at hc
  · simp only [List.mem_cons, List.not_mem_nil, or_false] at hc
    exact ⟨_, by omega, hc⟩
  · split at hc
    · simp only [List.mem_cons, List.not_mem_nil, or_false] at hc
      rcases hc with hc | hc <;> exact ⟨_, by omega, hc⟩
    · split at hc
      · simp only [List.mem_cons, List.not_mem_nil, or_false] at hc
        rcases hc with hc | hc | hc <;> exact ⟨_, by omega, hc⟩
      · simp only [List.mem_cons, List.not_mem_nil, or_false] at hc
        rcases hc with hc | hc | hc | hc <;> exact ⟨_, by omega, hc⟩

/-- a hexadecimal number ends where no hexadecimal digit follows -/
def XStops (s : Str) : Prop := ∀ c t, s = c :: t → hexVal c = none

theorem xtoiLoop_stop {s : Str} (h : XStops s) (n i : Nat) : xtoiLoop n i s = some (n, i) := by
  cases s with
  | nil => rfl
  | cons c t => rw [xtoiLoop]; simp [h c t rfl]

theorem xtoi_hex {g : Nat} (h : g < 65536) {s : Str} (hs : XStops s) : xtoi (hex g ++ s) = some (g, (hex g).length) := by
  unfold xtoi
  rw [hex_eq h]
  have hb : big = 16777215 := rfl
  by_cases h1 : g < 16
  · rw [if_pos h1, List.cons_append, List.nil_append,
      xtoiLoop_digit h1, if_neg (by omega), xtoiLoop_stop hs]
    simp
  · rw [if_neg h1]
    by_cases h2 : g < 256
    · rw [if_pos h2, List.cons_append, List.cons_append, List.nil_append,
        xtoiLoop_digit (by omega), if_neg (by omega), xtoiLoop_digit (by omega), if_neg (by omega), xtoiLoop_stop hs]
      simp; omega
    · rw [if_neg h2]
      by_cases h3 : g < 4096
      · rw [if_pos h3, List.cons_append, List.cons_append, List.cons_append, List.nil_append,
          xtoiLoop_digit (by omega), if_neg (by omega), xtoiLoop_digit (by omega), if_neg (by omega),
          xtoiLoop_digit (by omega), if_neg (by omega), xtoiLoop_stop hs]
        simp; omega
      · rw [if_neg h3, List.cons_append, List.cons_append, List.cons_append, List.cons_append, List.nil_append,
          xtoiLoop_digit (by omega), if_neg (by omega), xtoiLoop_digit (by omega), if_neg (by omega),
          xtoiLoop_digit (by omega), if_neg (by omega), xtoiLoop_digit (by omega), if_neg (by omega), xtoiLoop_stop hs]
        simp; omega

/-! ### IPv6: parsing groups -/

/-- groups, each after a colon -/
def sep (gs : List Nat) : Str := gs.flatMap fun g => ':' :: hex g
/-- groups with colons between them -/
def joined : List Nat → Str
  | [] => []
  | g :: gs => hex g ++ sep gs
/-- the bytes of groups -/
def gbytes (gs : List Nat) : List (BitVec 8) := gs.flatMap fun g => [BitVec.ofNat 8 (g >>> 8), BitVec.ofNat 8 g]

/-- all groups have 16 bits -/
def Small (gs : List Nat) : Prop := ∀ g ∈ gs, g < 65536

theorem gbytes_length (gs : List Nat) : (gbytes gs).length = 2 * gs.length := by
  induction gs with
  | nil => rfl
  | cons g gs ih =>
    show ([_, _] ++ gbytes gs).length = _
    rw [List.length_append, ih]
    simp; omega

theorem gbytes_cons (g : Nat) (gs : List Nat) :
    gbytes (g :: gs) = [BitVec.ofNat 8 (g >>> 8), BitVec.ofNat 8 g] ++ gbytes gs := rfl

theorem xstops_colon (s : Str) : XStops (':' :: s) := by
  intro c t e; cases e; decide

/-- one round of the loop, for a group after which there is no dot -/
theorem groups_round (k : Nat) {g : Nat} (hg : g < 65536) {s : Str} (hs : XStops s) (hd : s.head? ≠ some '.')
    (ip : List (BitVec 8)) (e : Option Nat) :
    groups (k + 1) (hex g ++ s) ip e =
      match (generalizing := false) s with
      | [] => some ([], ip ++ [BitVec.ofNat 8 (g >>> 8), BitVec.ofNat 8 g], e)
      | [_] => none
      | x :: y :: t =>
        if x ≠ ':' then none
        else if y = ':' then
          if e.isSome then none
          else
            match (generalizing := false) t with
            | [] => some ([], ip ++ [BitVec.ofNat 8 (g >>> 8), BitVec.ofNat 8 g],
                some (ip ++ [BitVec.ofNat 8 (g >>> 8), BitVec.ofNat 8 g]).length)
            | _ => groups k t (ip ++ [BitVec.ofNat 8 (g >>> 8), BitVec.ofNat 8 g])
                (some (ip ++ [BitVec.ofNat 8 (g >>> 8), BitVec.ofNat 8 g]).length)
        else groups k (y :: t) (ip ++ [BitVec.ofNat 8 (g >>> 8), BitVec.ofNat 8 g]) e := by
  rw [groups, xtoi_hex hg hs]
  simp only [List.drop_left]
  rw [if_neg (by omega), if_neg hd]
  rfl

theorem groups_tail (gs : List Nat) : ∀ (k : Nat) {g : Nat} (ip : List (BitVec 8)) (e : Option Nat), Small (g :: gs) →
    gs.length < k → groups k (hex g ++ sep gs) ip e = some ([], ip ++ gbytes (g :: gs), e) := by
  induction gs with
  | nil =>
    intro k g ip e hg hk
    cases k with
    | zero => cases hk
    | succ k =>
      show groups (k + 1) (hex g ++ []) ip e = _
      rw [groups_round k (hg g List.mem_cons_self) (by intro c t h; cases h) (by simp)]
      rfl
  | cons h gs ih =>
    intro k g ip e hg hk
    cases k with
    | zero => cases hk
    | succ k =>
      have hh : h < 65536 := hg h (List.mem_cons_of_mem _ List.mem_cons_self)
      obtain ⟨d, t, h1, h2⟩ := hex_digits hh
      show groups (k + 1) (hex g ++ ':' :: (hex h ++ sep gs)) ip e = _
      rw [groups_round k (hg g List.mem_cons_self) (xstops_colon _) (by simp), h1]
      simp only [List.cons_append, ne_eq, not_true_eq_false, if_false, (digit_ne h2).1]
      rw [← List.cons_append, ← h1, ih k _ _ (fun x hx => hg x (List.mem_cons_of_mem _ hx)) (by simpa using hk)]
      rw [gbytes_cons g, List.append_assoc]

theorem joined_cons {h : Nat} {hs : List Nat} (hh : h < 65536) : ∃ c t, joined (h :: hs) = c :: t := by
  obtain ⟨d, t, h1, _⟩ := hex_digits hh
  exact ⟨digit d, t ++ sep hs, by rw [joined, h1]; rfl⟩

theorem groups_mid (hs : List Nat) (gs : List Nat) : ∀ (k : Nat) {g : Nat} (ip : List (BitVec 8)), Small (g :: gs) →
    Small hs → gs.length + hs.length < k →
    groups k (hex g ++ sep gs ++ (':' :: ':' :: joined hs)) ip none =
      some ([], ip ++ gbytes (g :: gs) ++ gbytes hs, some (ip.length + 2 * (gs.length + 1))) := by
  induction gs with
  | nil =>
    intro k g ip hg hhs hk
    cases k with
    | zero => cases hk
    | succ k =>
      show groups (k + 1) (hex g ++ [] ++ (':' :: ':' :: joined hs)) ip none = _
      rw [List.append_nil, groups_round k (hg g List.mem_cons_self) (xstops_colon _) (by simp)]
      simp only [ne_eq, not_true_eq_false, if_false, if_true, Option.isSome_none, Bool.false_eq_true]
      cases hs with
      | nil => simp [joined, gbytes]
      | cons h hs =>
        obtain ⟨c, t, hc⟩ := joined_cons (hs := hs) (hhs h List.mem_cons_self)
        rw [hc]
        simp only
        rw [← hc]
        show groups k (hex h ++ sep hs) _ _ = _
        rw [groups_tail hs k _ _ hhs (by simp at hk; omega)]
        simp [gbytes]
  | cons h gs ih =>
    intro k g ip hg hhs hk
    cases k with
    | zero => cases hk
    | succ k =>
      have hh : h < 65536 := hg h (List.mem_cons_of_mem _ List.mem_cons_self)
      obtain ⟨d, t, h1, h2⟩ := hex_digits hh
      have e : hex g ++ sep (h :: gs) ++ (':' :: ':' :: joined hs) =
          hex g ++ ':' :: (hex h ++ sep gs ++ (':' :: ':' :: joined hs)) := by
        show hex g ++ (':' :: hex h ++ sep gs) ++ _ = _
        simp
      rw [e, groups_round k (hg g List.mem_cons_self) (xstops_colon _) (by simp), h1]
      simp only [List.cons_append, ne_eq, not_true_eq_false, if_false, (digit_ne h2).1]
      rw [← List.cons_append, ← List.cons_append, ← h1,
        ih k _ (fun x hx => hg x (List.mem_cons_of_mem _ hx)) hhs (by simp at hk; omega)]
      rw [gbytes_cons g]
      simp
      omega

theorem parseIPv6_joined {g : Nat} {gs : List Nat} (h : Small (g :: gs)) (hl : gs.length = 7) :
    parseIPv6 (joined (g :: gs)) = some (gbytes (g :: gs)) := by
  obtain ⟨d, t, h1, h2⟩ := hex_digits (h g List.mem_cons_self)
  have e : parseIPv6 (joined (g :: gs)) = parseGroups (joined (g :: gs)) none := by
    rw [joined, h1, List.cons_append]
    unfold parseIPv6
    split
    · next s t' heq => exact ((digit_ne h2).1 (List.cons.inj heq).1).elim
    · rfl
  rw [e, parseGroups]
  show (match groups 8 (hex g ++ sep gs) [] none with
    | some ([], ip, e) => expand ip e
    | _ => none) = _
  rw [groups_tail gs 8 [] none h (by omega)]
  simp only [List.nil_append]
  rw [expand, if_neg]
  rw [gbytes_length]; simp; omega

theorem parseIPv6_ellipsis {gs hs : List Nat} (hg : Small gs) (hh : Small hs) (hl : gs.length + hs.length < 8) :
    parseIPv6 (joined gs ++ (':' :: ':' :: joined hs)) =
      some (gbytes gs ++ List.replicate (16 - 2 * (gs.length + hs.length)) 0#8 ++ gbytes hs) := by
  cases gs with
  | nil =>
    cases hs with
    | nil => rfl
    | cons h hs =>
      obtain ⟨c, t, hc⟩ := joined_cons (hs := hs) (hh h List.mem_cons_self)
      have e : parseIPv6 (joined [] ++ (':' :: ':' :: joined (h :: hs))) = parseGroups (joined (h :: hs)) (some 0) := by
        rw [hc]; rfl
      rw [e, parseGroups]
      show (match groups 8 (hex h ++ sep hs) [] (some 0) with
        | some ([], ip, e) => expand ip e
        | _ => none) = _
      rw [groups_tail hs 8 [] (some 0) hh (by simp at hl; omega)]
      simp only [List.nil_append]
      rw [expand, if_pos (by rw [gbytes_length]; simp at hl ⊢; omega), gbytes_length]
      simp [gbytes]
  | cons g gs =>
    obtain ⟨d, t, h1, h2⟩ := hex_digits (hg g List.mem_cons_self)
    have e : parseIPv6 (joined (g :: gs) ++ (':' :: ':' :: joined hs)) =
        parseGroups (joined (g :: gs) ++ (':' :: ':' :: joined hs)) none := by
      rw [joined, h1, List.cons_append, List.cons_append]
      unfold parseIPv6
      split
      · next s t' heq => exact ((digit_ne h2).1 (List.cons.inj heq).1).elim
      · rfl
    rw [e, parseGroups]
    show (match groups 8 (hex g ++ sep gs ++ (':' :: ':' :: joined hs)) [] none with
      | some ([], ip, e) => expand ip e
      | _ => none) = _
    rw [groups_mid hs gs 8 [] hg hh (by simp at hl; omega)]
    simp only [List.nil_append, List.length_nil, Nat.zero_add]
    have e1 : (gbytes (g :: gs) ++ gbytes hs).length = 2 * ((g :: gs).length + hs.length) := by
      rw [List.length_append, gbytes_length, gbytes_length]; omega
    have e2 : 2 * (gs.length + 1) = (gbytes (g :: gs)).length := by rw [gbytes_length]; rfl
    rw [expand, if_pos (by rw [e1]; omega), e1, e2]
    simp

end Net
end Addrs

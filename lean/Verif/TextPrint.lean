import Verif.TextProofs
/-
  What `net.IP.String` prints for a 16-byte address, and that the parsers read it back.
-/
namespace Addrs
open GoWord Fmt
namespace Net

/-- the groups with indices i, …, i+k-1 of 16 bytes -/
def gs (p : List (BitVec 8)) (i k : Nat) : List Nat := (List.range' i k).map fun j => group p (2 * j)

theorem gs_succ (p : List (BitVec 8)) (i k : Nat) : gs p i (k + 1) = group p (2 * i) :: gs p (i + 1) k := rfl

theorem gs_length (p : List (BitVec 8)) (i k : Nat) : (gs p i k).length = k := by simp [gs]

theorem gs_append (p : List (BitVec 8)) (i m n : Nat) : gs p i (m + n) = gs p i m ++ gs p (i + m) n := by
  unfold gs
  rw [← List.map_append, ← List.range'_append_1]

theorem group_lt (p : List (BitVec 8)) (i : Nat) : group p i < 65536 := by
  unfold group
  have h1 := (p.getD i 0).isLt
  have h2 := (p.getD (i + 1) 0).isLt
  rw [← Nat.shiftLeft_add_eq_or_of_lt (by omega), Nat.shiftLeft_eq]
  omega

theorem gs_small (p : List (BitVec 8)) (i k : Nat) : Small (gs p i k) := by
  intro g hg
  obtain ⟨j, _, rfl⟩ := List.mem_map.1 hg
  exact group_lt _ _

theorem byte_hi (a b : BitVec 8) : BitVec.ofNat 8 ((a.toNat <<< 8 ||| b.toNat) >>> 8) = a := by
  apply BitVec.eq_of_toNat_eq
  have h1 := a.isLt
  have h2 := b.isLt
  rw [← Nat.shiftLeft_add_eq_or_of_lt (by omega), Nat.shiftLeft_eq, Nat.shiftRight_eq_div_pow, BitVec.toNat_ofNat]
  omega

theorem byte_lo (a b : BitVec 8) : BitVec.ofNat 8 (a.toNat <<< 8 ||| b.toNat) = b := by
  apply BitVec.eq_of_toNat_eq
  have h1 := a.isLt
  have h2 := b.isLt
  rw [← Nat.shiftLeft_add_eq_or_of_lt (by omega), Nat.shiftLeft_eq, BitVec.toNat_ofNat]
  omega

theorem gbytes_append (a b : List Nat) : gbytes (a ++ b) = gbytes a ++ gbytes b := by
  unfold gbytes; rw [List.flatMap_append]

theorem gbytes_gs {p : List (BitVec 8)} (h : p.length = 16) : gbytes (gs p 0 8) = p := by
  match p, h with
  | [a0, a1, a2, a3, a4, a5, a6, a7, a8, a9, a10, a11, a12, a13, a14, a15], _ =>
    simp only [gs_succ, gbytes_cons, group, Nat.zero_add, Nat.reduceMul, Nat.reduceAdd, List.getD_cons_zero,
      List.getD_cons_succ, byte_hi, byte_lo]
    rfl

theorem sep_cons (g : Nat) (l : List Nat) : sep (g :: l) = ':' :: (hex g ++ sep l) := rfl

/-! ### the print loop -/

theorem print_none (p : List (BitVec 8)) : ∀ k i, 0 < i → i + k = 8 → print p none k (2 * i) = sep (gs p i k) := by
  intro k
  induction k with
  | zero => intro i _ _; rfl
  | succ k ih =>
    intro i h0 h8
    rw [print, if_neg (by omega), gs_succ, sep_cons]
    simp only [show 0 < 2 * i by omega, if_true]
    rw [show 2 * i + 2 = 2 * (i + 1) by omega, ih (i + 1) (by omega) (by omega)]
    rfl

theorem print_all (p : List (BitVec 8)) : print p none 8 0 = joined (gs p 0 8) := by
  rw [print, if_neg (by omega), gs_succ, joined]
  simp only [Nat.lt_irrefl, if_false, List.nil_append, Nat.zero_add]
  rw [show (2 : Nat) = 2 * 1 from rfl, print_none p 7 1 (by omega) (by omega)]

theorem print_after (p : List (BitVec 8)) (a b : Nat) : ∀ k i, 2 * i > a → 0 < i → 8 - i ≤ k →
    print p (some (a, b)) k (2 * i) = sep (gs p i (8 - i)) := by
  intro k
  induction k with
  | zero =>
    intro i _ _ h8
    have : 8 - i = 0 := by omega
    rw [this]; rfl
  | succ k ih =>
    intro i ha h0 h8
    by_cases hi : 8 ≤ i
    · rw [print, if_pos (by omega), show 8 - i = 0 by omega]; rfl
    · rw [print, if_neg (by omega)]
      rw [if_neg (by omega), show 8 - i = (8 - (i + 1)) + 1 by omega, gs_succ, sep_cons, if_pos (by omega),
        show 2 * i + 2 = 2 * (i + 1) by omega, ih (i + 1) (by omega) (by omega) (by omega)]
      rfl

theorem print_at (p : List (BitVec 8)) {e0 e1 : Nat} (h : e0 < e1) (h8 : e1 ≤ 8) (k : Nat) (hk : 8 - e0 ≤ k) :
    print p (some (2 * e0, 2 * e1)) k (2 * e0) = ':' :: ':' :: joined (gs p e1 (8 - e1)) := by
  cases k with
  | zero => omega
  | succ k =>
    rw [print, if_neg (by omega)]
    simp only [if_true]
    by_cases he : 8 ≤ e1
    · rw [if_pos (by omega), show 8 - e1 = 0 by omega]; rfl
    · rw [if_neg (by omega), show 8 - e1 = (8 - (e1 + 1)) + 1 by omega, gs_succ, joined,
        show 2 * e1 + 2 = 2 * (e1 + 1) by omega, print_after p _ _ k (e1 + 1) (by omega) (by omega) (by omega)]
      rfl

theorem print_before (p : List (BitVec 8)) {e0 e1 : Nat} (h : e0 < e1) (h8 : e1 ≤ 8) : ∀ k i, 0 < i → i ≤ e0 →
    8 - i ≤ k → print p (some (2 * e0, 2 * e1)) k (2 * i) =
      sep (gs p i (e0 - i)) ++ (':' :: ':' :: joined (gs p e1 (8 - e1))) := by
  intro k
  induction k with
  | zero => intro i _ _ hk; omega
  | succ k ih =>
    intro i h0 hi hk
    by_cases he : i = e0
    · subst he
      rw [print_at p h h8 _ hk, Nat.sub_self]
      rfl
    · rw [print, if_neg (by omega)]
      rw [if_neg (by omega), show e0 - i = (e0 - (i + 1)) + 1 by omega, gs_succ, sep_cons, if_pos (by omega),
        show 2 * i + 2 = 2 * (i + 1) by omega, ih (i + 1) (by omega) (by omega) (by omega)]
      simp

theorem print_run (p : List (BitVec 8)) {e0 e1 : Nat} (h : e0 < e1) (h8 : e1 ≤ 8) :
    print p (some (2 * e0, 2 * e1)) 8 0 = joined (gs p 0 e0) ++ (':' :: ':' :: joined (gs p e1 (8 - e1))) := by
  by_cases he : e0 = 0
  · subst he
    rw [show (0 : Nat) = 2 * 0 from rfl, print_at p h h8 8 (by omega)]
    rfl
  · rw [print, if_neg (by omega)]
    rw [if_neg (by omega), if_neg (by omega), show e0 = (e0 - 1) + 1 by omega, gs_succ, joined,
      show 0 + 2 = 2 * 1 by omega, show 2 * (e0 - 1 + 1) = 2 * e0 by omega,
      print_before p h h8 7 1 (by omega) (by omega) (by omega)]
    simp

/-! ### the run of zeros -/

/-- bytes 2i and 2i+1 are zero for all `i` in `[a, b)` -/
def ZeroRun (p : List (BitVec 8)) (a b : Nat) : Prop := ∀ i, a ≤ i → i < b → p.getD (2 * i) 0 = 0 ∧ p.getD (2 * i + 1) 0 = 0

theorem runEnd_spec (p : List (BitVec 8)) : ∀ k i, i ≤ 8 → ∃ j, runEnd p k (2 * i) = 2 * j ∧ i ≤ j ∧ j ≤ 8 ∧ ZeroRun p i j := by
  intro k
  induction k with
  | zero => intro i hi; exact ⟨i, rfl, Nat.le_refl _, hi, fun x _ _ => by omega⟩
  | succ k ih =>
    intro i hi
    rw [runEnd]
    split
    · next h =>
      obtain ⟨j, h1, h2, h3, h4⟩ := ih (i + 1) (by omega)
      refine ⟨j, h1, by omega, h3, fun x hx hj => ?_⟩
      by_cases e : x = i
      · subst e; exact h.2
      · exact h4 x (by omega) hj
    · exact ⟨i, rfl, Nat.le_refl _, hi, fun x _ _ => by omega⟩

/-- a run of zeros, even bounds -/
def RunOk (p : List (BitVec 8)) (e : Option (Nat × Nat)) : Prop :=
  ∀ a b, e = some (a, b) → ∃ e0 e1, a = 2 * e0 ∧ b = 2 * e1 ∧ e0 < e1 ∧ e1 ≤ 8 ∧ ZeroRun p e0 e1

theorem longestRun_spec (p : List (BitVec 8)) : ∀ k i e, RunOk p e → RunOk p (longestRun p k (2 * i) e) := by
  intro k
  induction k with
  | zero => intro i e he; exact he
  | succ k ih =>
    intro i e he
    rw [longestRun]
    split
    · exact he
    · next hi =>
      obtain ⟨j, h1, h2, h3, h4⟩ := runEnd_spec p 8 i (by omega)
      simp only [h1]
      split
      · next hr =>
        rw [show 2 * j + 2 = 2 * (j + 1) by omega]
        apply ih
        intro a b hab
        cases hab
        exact ⟨i, j, rfl, rfl, by omega, h3, h4⟩
      · rw [show 2 * i + 2 = 2 * (i + 1) by omega]
        exact ih _ _ he

theorem shortened_spec (p : List (BitVec 8)) : RunOk p (shortened p) := by
  have h : RunOk p (longestRun p 8 (2 * 0) none) := longestRun_spec p 8 0 none (by intro a b h; cases h)
  unfold shortened
  simp only
  split
  · intro a b h; cases h
  · exact h

theorem gbytes_zero (p : List (BitVec 8)) (a : Nat) : ∀ n, ZeroRun p a (a + n) → gbytes (gs p a n) = List.replicate (2 * n) 0#8 := by
  intro n
  induction n generalizing a with
  | zero => intro _; rfl
  | succ n ih =>
    intro h
    rw [gs_succ, gbytes_cons, ih (a + 1) (fun i h1 h2 => h i (by omega) (by omega)), show 2 * (n + 1) = 2 * n + 2 by omega]
    have := h a (Nat.le_refl _) (by omega)
    rw [group, this.1, this.2]
    rw [show 2 * n + 2 = 2 + 2 * n by omega, ← List.replicate_append_replicate]
    rfl

/-- what is printed is read back -/
theorem parseIPv6_print {p : List (BitVec 8)} (h : p.length = 16) :
    parseIPv6 (print p (shortened p) 8 0) = some p := by
  cases he : shortened p with
  | none =>
    rw [print_all, gs_succ, parseIPv6_joined (by rw [← gs_succ]; exact gs_small p 0 8) (gs_length _ _ _), ← gs_succ,
      gbytes_gs h]
  | some ab =>
    obtain ⟨a, b⟩ := ab
    obtain ⟨e0, e1, rfl, rfl, h1, h2, h3⟩ := shortened_spec p a b he
    rw [print_run p h1 h2, parseIPv6_ellipsis (gs_small _ _ _) (gs_small _ _ _) (by rw [gs_length, gs_length]; omega)]
    rw [gs_length, gs_length]
    congr 1
    have e : gs p 0 8 = gs p 0 e0 ++ gs p e0 (e1 - e0) ++ gs p e1 (8 - e1) := by
      have h8 : 8 = (e0 + (e1 - e0)) + (8 - e1) := by omega
      conv => lhs; rw [h8]
      rw [gs_append, gs_append, Nat.zero_add, show 0 + (e0 + (e1 - e0)) = e1 by omega]
    have := gbytes_gs h
    rw [e, gbytes_append, gbytes_append, gbytes_zero p e0 _ (by rw [show e0 + (e1 - e0) = e1 by omega]; exact h3)] at this
    rw [show 16 - 2 * (e0 + (8 - e1)) = 2 * (e1 - e0) by omega]
    exact this

/-! ### which characters are printed -/

/-- a hexadecimal digit or a colon -/
def HexColon (c : Char) : Prop := c = ':' ∨ ∃ d, d < 16 ∧ c = digit d

theorem mem_sep {l : List Nat} (h : Small l) : ∀ c ∈ sep l, HexColon c := by
  intro c hc
  obtain ⟨g, hg, hc⟩ := List.mem_flatMap.1 hc
  rcases List.mem_cons.1 hc with rfl | hc
  · exact .inl rfl
  · exact .inr (mem_hex (h g hg) c hc)

theorem mem_joined {l : List Nat} (h : Small l) : ∀ c ∈ joined l, HexColon c := by
  cases l with
  | nil => intro c hc; cases hc
  | cons g l =>
    intro c hc
    rcases List.mem_append.1 hc with hc | hc
    · exact .inr (mem_hex (h g List.mem_cons_self) c hc)
    · exact mem_sep (fun x hx => h x (List.mem_cons_of_mem _ hx)) c hc

theorem mem_print (p : List (BitVec 8)) : ∀ c ∈ print p (shortened p) 8 0, HexColon c := by
  cases he : shortened p with
  | none => rw [print_all]; exact mem_joined (gs_small _ _ _)
  | some ab =>
    obtain ⟨a, b⟩ := ab
    obtain ⟨e0, e1, rfl, rfl, h1, h2, h3⟩ := shortened_spec p a b he
    rw [print_run p h1 h2]
    intro c hc
    rcases List.mem_append.1 hc with hc | hc
    · exact mem_joined (gs_small _ _ _) c hc
    · rcases List.mem_cons.1 hc with rfl | hc
      · exact .inl rfl
      · rcases List.mem_cons.1 hc with rfl | hc
        · exact .inl rfl
        · exact mem_joined (gs_small _ _ _) c hc

theorem colon_mem_print (p : List (BitVec 8)) : ':' ∈ print p (shortened p) 8 0 := by
  cases he : shortened p with
  | none =>
    rw [print_all, gs_succ, gs_succ, joined, sep_cons]
    simp
  | some ab =>
    obtain ⟨a, b⟩ := ab
    obtain ⟨e0, e1, rfl, rfl, h1, h2, h3⟩ := shortened_spec p a b he
    rw [print_run p h1 h2]
    simp

theorem HexColon.ne {c : Char} (h : HexColon c) : c ≠ '.' ∧ c ≠ '/' := by
  rcases h with rfl | ⟨d, hd, rfl⟩
  · decide
  · exact (digit_ne hd).2

/-- `parseIPv4` needs dots -/
theorem parseIPv4_none {s : Str} (h : ∀ c ∈ s, c ≠ '.') : parseIPv4 s = none := by
  unfold parseIPv4
  have : octets 4 true s = none := by
    unfold octets
    cases s with
    | nil => rfl
    | cons x t =>
      simp only [if_true]
      split
      · rfl
      · next n c _ =>
        split
        · rfl
        · split
          · rfl
          · have : octets 3 false ((x :: t).drop c) = none := by
              unfold octets
              cases hd : (x :: t).drop c with
              | nil => rfl
              | cons y u =>
                have hy : y ≠ '.' := h y (List.mem_of_mem_drop (by rw [hd]; exact List.mem_cons_self))
                simp [hy]
            rw [this]
  rw [this]

theorem mem_split {c : Char} : ∀ {s : Str}, c ∈ s → ∃ t u, s = t ++ c :: u ∧ c ∉ t
  | [], h => by cases h
  | x :: s, h => by
    by_cases e : x = c
    · exact ⟨[], s, by rw [e]; rfl, by simp⟩
    · rcases List.mem_cons.1 h with h | h
      · exact absurd h.symm e
      · obtain ⟨t, u, h1, h2⟩ := mem_split h
        exact ⟨x :: t, u, by rw [h1]; rfl, by simp [h2, Ne.symm e]⟩

theorem parseIP_colon {s : Str} (h : ∀ c ∈ s, c ≠ '.') (hc : ':' ∈ s) : parseIP s = parseIPv6 s := by
  obtain ⟨t, u, hs, ht⟩ := mem_split hc
  have := parseIP_go_colon (s := s) (t := t) (fun c hc => ⟨h c (by rw [hs]; simp [hc]), fun e => ht (e ▸ hc)⟩) u
  rw [← hs] at this
  exact this

end Net
end Addrs

import Verif.Prefix
/-
  `contains` and `compare` of node.go: how two prefixes relate.
-/
namespace Addrs
open GoWord

/-- ipv4/node.go:71-76: the constants `compareSame … compareDisjoint` -/
inductive Cmp where
  | same
  /-- second key is a strict subset of the first -/
  | contains
  /-- second key is a strict superset of the first -/
  | isContained
  | disjoint
deriving DecidableEq, Repr

section
variable {α : Type} [GoWord α]

/-- ipv4/node.go:51-69, ipv6/node.go:50-68 `contains(shorter, longer)`, returning
    `(matches, exact, common, child)`.  `child` is a Go `int` that is 0 or 1: `false` is 0, `true` 1. -/
def containsP (shorter longer : Prefix α) : Bool × Bool × Nat × Bool :=
  let mask : α := shl ones (width α - shorter.len)
  let «matches» := decide (and shorter.addr mask = and longer.addr mask)
  let exact := «matches» && decide (shorter.len = longer.len)
  let common := if «matches» then shorter.len else lz (xor shorter.addr longer.addr)
  let child := !exact && decide (and longer.addr (shr top common) ≠ zero)
  («matches», exact, common, child)

/-- ipv4/node.go:79-99 `compare(a, b)`, returning `(result, reversed, common, child)` -/
def compareP (a b : Prefix α) : Cmp × Bool × Nat × Bool :=
  let reversed := decide (b.len < a.len)
  let (aMatch, bMatch, common, child) :=
    if reversed then
      let (m, e, common, child) := containsP b a
      (e, m, common, child)
    else
      let (m, e, common, child) := containsP a b
      (m, e, common, child)
  let result :=
    match aMatch, bMatch with
    | true, true => Cmp.same
    | true, false => Cmp.contains
    | false, true => Cmp.isContained
    | false, false => Cmp.disjoint
  (result, reversed, common, child)

end

section
variable {α : Type} [LawfulGoWord α]
open LawfulGoWord

theorem masked_eq_iff {a b : α} {n : Nat} (hn : n ≤ width α) :
    and a (shl ones (width α - n)) = and b (shl ones (width α - n)) ↔ Agree n a b := by
  constructor
  · intro h i hi
    have := congrArg (fun x => bit x i) h
    have e := bit_lengthToMask (α := α) hn (Nat.lt_of_lt_of_le hi hn)
    rw [lengthToMask] at e
    simp only [bit_and, e, hi, decide_true, Bool.and_true] at this
    exact this
  · intro h
    apply ext_bit
    intro i hi
    have e := bit_lengthToMask (α := α) hn hi
    rw [lengthToMask] at e
    simp only [bit_and, e]
    by_cases hn : i < n
    · simp [hn, h i hn]
    · simp [hn]

theorem pivot_ne_zero {a : α} {n : Nat} :
    (decide (and a (shr top n) ≠ zero)) = bit a n := by
  by_cases hn : n < width α
  · cases h : bit a n
    · simp only [ne_eq, decide_eq_false_iff_not, Decidable.not_not]
      apply ext_bit
      intro i hi
      rw [bit_and, bit_shr _ _ hi, bit_top, bit_zero]
      by_cases e : i = n
      · subst e; simp [h]
      · have : ¬ (¬ i < n ∧ i - n = 0) := by omega
        cases h1 : decide (i < n) <;> simp_all
    · simp only [ne_eq, decide_eq_true_eq]
      intro hc
      have := congrArg (fun x => bit x n) hc
      simp only [bit_and, bit_shr _ _ hn, bit_top, bit_zero, h] at this
      simp at this
  · rw [bit_ge (by omega)]
    simp only [ne_eq, decide_eq_false_iff_not, Decidable.not_not]
    apply ext_bit
    intro i hi
    rw [bit_and, bit_shr _ _ hi, bit_zero]
    have : i < n := by omega
    simp [this]

theorem lz_xor_agree (a b : α) : Agree (lz (xor a b)) a b := by
  intro i hi
  have := lz_before hi
  rw [bit_xor] at this
  cases h1 : bit a i <;> cases h2 : bit b i <;> simp_all

theorem lz_xor_diff {a b : α} (h : lz (xor a b) < width α) :
    bit a (lz (xor a b)) ≠ bit b (lz (xor a b)) := by
  have := lz_at h
  rw [bit_xor] at this
  intro e
  rw [e] at this
  simp at this

theorem lz_xor_lt {a b : α} {n : Nat} (h : ¬ Agree n a b) :
    lz (xor a b) < n := by
  apply Nat.lt_of_not_le
  intro hle
  exact h ((lz_xor_agree a b).mono hle)

/-- What `containsP` computes when the first prefix is not longer than the second. -/
theorem containsP_spec {s l : Prefix α} (hs : s.WF) :
    (Agree s.len s.addr l.addr ∧
      containsP s l = (true, decide (s.len = l.len), s.len,
        !decide (s.len = l.len) && bit l.addr s.len)) ∨
    (∃ n, n < s.len ∧ Agree n s.addr l.addr ∧ bit s.addr n ≠ bit l.addr n ∧
      containsP s l = (false, false, n, bit l.addr n)) := by
  by_cases h : Agree s.len s.addr l.addr
  · left
    refine ⟨h, ?_⟩
    have e := (masked_eq_iff (n := s.len) hs).mpr h
    simp only [containsP, e, decide_true, Bool.true_and, if_true]
    rw [pivot_ne_zero]
  · right
    have hlt := lz_xor_lt h
    have e := mt (masked_eq_iff (n := s.len) (a := s.addr) (b := l.addr) hs).mp h
    refine ⟨lz (xor s.addr l.addr), hlt, lz_xor_agree _ _,
      lz_xor_diff (Nat.lt_of_lt_of_le hlt hs), ?_⟩
    simp only [containsP, e, decide_false, Bool.false_and]
    simp only [Bool.not_false, Bool.true_and]
    rw [pivot_ne_zero]
    simp

/-- `q` is strictly inside `p`, on side `b` -/
structure Sub (p q : Prefix α) (b : Bool) : Prop where
  lt : p.len < q.len
  agree : Agree p.len p.addr q.addr
  side : bit q.addr p.len = b

/-- `p` and `q` are the same key (host bits ignored) -/
def SameKey (p q : Prefix α) : Prop := p.len = q.len ∧ Agree p.len p.addr q.addr

/-- Case analysis on `compareP` with everything it computes. -/
theorem compareP_cases {a b : Prefix α} (ha : a.WF) (hb : b.WF) :
    (SameKey a b ∧ compareP a b = (.same, false, a.len, false)) ∨
    (∃ c, Sub a b c ∧ compareP a b = (.contains, false, a.len, c)) ∨
    (∃ c, Sub b a c ∧ compareP a b = (.isContained, true, b.len, c)) ∨
    (∃ n rev c, n < a.len ∧ n < b.len ∧ Agree n a.addr b.addr ∧ bit a.addr n ≠ bit b.addr n ∧
      bit b.addr n = (c != rev) ∧ rev = decide (b.len < a.len) ∧
      compareP a b = (.disjoint, rev, n, c)) := by
  by_cases hrev : b.len < a.len
  · rcases containsP_spec (s := b) (l := a) hb with ⟨h1, h2⟩ | ⟨n, hn, h1, h2, h3⟩
    · right; right; left
      refine ⟨bit a.addr b.len, ⟨hrev, h1, rfl⟩, ?_⟩
      have : ¬ b.len = a.len := by omega
      simp [compareP, hrev, h2, this]
    · right; right; right
      refine ⟨n, true, bit a.addr n, by omega, hn, h1.symm, Ne.symm h2, ?_, by simp [hrev], ?_⟩
      · cases e1 : bit a.addr n <;> cases e2 : bit b.addr n <;> simp_all
      · simp [compareP, hrev, h3]
  · rcases containsP_spec (s := a) (l := b) ha with ⟨h1, h2⟩ | ⟨n, hn, h1, h2, h3⟩
    · by_cases e : a.len = b.len
      · left
        refine ⟨⟨e, h1⟩, ?_⟩
        simp [compareP, h2, e]
      · right; left
        refine ⟨bit b.addr a.len, ⟨by omega, h1, rfl⟩, ?_⟩
        simp [compareP, hrev, h2, e]
    · right; right; right
      refine ⟨n, false, bit b.addr n, hn, by omega, h1, h2, by simp, by simp [hrev], ?_⟩
      simp [compareP, hrev, h3]

/-! ### Basic facts on `Sub` and `SameKey` -/

theorem SameKey.refl (p : Prefix α) : SameKey p p := ⟨rfl, Agree.refl _ _⟩
theorem SameKey.symm {p q : Prefix α} (h : SameKey p q) : SameKey q p :=
  ⟨h.1.symm, by rw [← h.1]; exact h.2.symm⟩
theorem SameKey.trans {p q r : Prefix α} (h : SameKey p q) (h' : SameKey q r) : SameKey p r :=
  ⟨h.1.trans h'.1, h.2.trans (by rw [h.1]; exact h'.2)⟩
theorem SameKey.covers {p q : Prefix α} (h : SameKey p q) {a : α} : Covers p a ↔ Covers q a := by
  constructor
  · intro h'; unfold Covers; rw [← h.1]; exact h.2.symm.trans h'
  · intro h'
    unfold Covers at h'; rw [← h.1] at h'; exact h.2.trans h'

theorem Sub.covers {p q : Prefix α} {b : Bool} (h : Sub p q b) {a : α} (ha : Covers q a) :
    Covers p a ∧ bit a p.len = b := by
  refine ⟨h.agree.trans (Agree.mono ha (Nat.le_of_lt h.lt)), ?_⟩
  rw [← ha p.len h.lt]; exact h.side

theorem Sub.trans {p q r : Prefix α} {b c : Bool} (h : Sub p q b) (h' : Sub q r c) : Sub p r b := by
  refine ⟨Nat.lt_trans h.lt h'.lt, h.agree.trans (h'.agree.mono (Nat.le_of_lt h.lt)), ?_⟩
  rw [← h'.agree p.len h.lt]; exact h.side

theorem Sub.congr_left {p p' q : Prefix α} {b : Bool} (h : Sub p q b) (e : SameKey p p') :
    Sub p' q b := by
  refine ⟨e.1 ▸ h.lt, ?_, e.1 ▸ h.side⟩
  rw [← e.1]; exact e.2.symm.trans h.agree

theorem Sub.congr_right {p q q' : Prefix α} {b : Bool} (h : Sub p q b) (e : SameKey q q') :
    Sub p q' b := by
  refine ⟨e.1 ▸ h.lt, h.agree.trans (e.2.mono (Nat.le_of_lt h.lt)), ?_⟩
  rw [← e.2 p.len h.lt]; exact h.side

/-- the least prefix above two prefixes that first differ at bit `n` -/
theorem Sub.join {a : Prefix α} {x : α} {n : Nat} (h : n < a.len)
    (hx : Agree n x a.addr) : Sub ⟨x, n⟩ a (bit a.addr n) :=
  ⟨h, hx, rfl⟩

end
end Addrs

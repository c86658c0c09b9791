import Verif.HeapRead
import Verif.TableInv
/-
  Which nodes two versions of a table have in common.
-/
set_option linter.unusedSectionVars false
namespace Addrs
open GoWord LawfulGoWord

section
variable {α D : Type}

/-- node `n` is reachable from the pointer -/
inductive In (v : View α D) : Ptr → Nat → Prop
  | root {a : Nat} {c : Cell α D} (h : v a = some c) : In v (some a) a
  | left {a : Nat} {c : Cell α D} {n : Nat} (h : v a = some c) (hn : In v c.l n) : In v (some a) n
  | right {a : Nat} {c : Cell α D} {n : Nat} (h : v a = some c) (hn : In v c.r n) : In v (some a) n

theorem in_none {v : View α D} {n : Nat} : ¬ In v none n := by intro h; cases h

theorem in_some {v : View α D} {a n : Nat} {c : Cell α D} (h : v a = some c) :
    In v (some a) n ↔ n = a ∨ In v c.l n ∨ In v c.r n := by
  constructor
  · intro hi
    cases hi with
    | root => exact Or.inl rfl
    | left h' hn => rw [h] at h'; cases h'; exact Or.inr (Or.inl hn)
    | right h' hn => rw [h] at h'; cases h'; exact Or.inr (Or.inr hn)
  · rintro (rfl | hi | hi)
    · exact .root h
    · exact .left h hi
    · exact .right h hi

theorem In.dom {v : View α D} {p : Ptr} {n : Nat} (h : In v p n) : ∃ c, v n = some c := by
  induction h with
  | root h => exact ⟨_, h⟩
  | left _ _ ih => exact ih
  | right _ _ ih => exact ih

/-- a tree of known nodes has no others -/
theorem in_mono {v v' : View α D} (le : v ≤ v') {p : Ptr} {t : Trie α D} (d : Den v p t) {n : Nat} :
    In v' p n ↔ In v p n := by
  induction d with
  | nil => exact ⟨fun h => (in_none h).elim, fun h => (in_none h).elim⟩
  | node h _ _ ihl ihr => rw [in_some h, in_some (le _ _ h), ihl, ihr]

variable [LawfulGoWord α]

/-- All nodes whose prefix does not contain the key are common to both trees. -/
def Shares (v : View α D) (k : Prefix α) (p q : Ptr) : Prop :=
  ∀ n c, v n = some c → ¬ SubEq c.pfx k → (In v p n ↔ In v q n)

theorem Shares.refl (v : View α D) (k : Prefix α) (p : Ptr) : Shares v k p p := fun _ _ _ _ => Iff.rfl
theorem Shares.symm {v : View α D} {k : Prefix α} {p q : Ptr} (h : Shares v k p q) : Shares v k q p :=
  fun n c hn hk => (h n c hn hk).symm

theorem Shares.mono {v v' : View α D} (le : v ≤ v') {k : Prefix α} {p q : Ptr} {t u : Trie α D} (dp : Den v p t)
    (dq : Den v q u) (h : Shares v k p q) : Shares v' k p q := by
  intro n c hn hk
  rw [in_mono le dp, in_mono le dq]
  cases hv : v n with
  | none =>
    constructor <;> intro hi <;> obtain ⟨c', hc'⟩ := hi.dom <;> rw [hv] at hc' <;> cases hc'
  | some c' =>
    have := le _ _ hv
    rw [hn] at this
    cases this
    exact h n c hv hk

theorem Shares.anti {v v' : View α D} (le : v ≤ v') {k : Prefix α} {p q : Ptr} {t u : Trie α D} (dp : Den v p t)
    (dq : Den v q u) (h : Shares v' k p q) : Shares v k p q := by
  intro n c hn hk
  rw [← in_mono le dp, ← in_mono le dq]
  exact h n c (le _ _ hn) hk

theorem Shares.cons {v : View α D} {k : Prefix α} {a b : Nat} {c d : Cell α D} (ha : v a = some c) (hb : v b = some d)
    (hc : SubEq c.pfx k) (hd : SubEq d.pfx k) (hl : Shares v k c.l d.l) (hr : Shares v k c.r d.r) :
    Shares v k (some a) (some b) := by
  intro n e hn hk
  rw [in_some ha, in_some hb, hl n e hn hk, hr n e hn hk]
  have h1 : n ≠ a := by rintro rfl; rw [hn] at ha; cases ha; exact hk hc
  have h2 : n ≠ b := by rintro rfl; rw [hn] at hb; cases hb; exact hk hd
  simp [h1, h2]

theorem Shares.up_left {v : View α D} {k : Prefix α} {b : Nat} {d : Cell α D} {p : Ptr} (hb : v b = some d)
    (hd : SubEq d.pfx k) (hl : Shares v k p d.l) (hr : Shares v k none d.r) : Shares v k p (some b) := by
  intro n e hn hk
  have h2 : n ≠ b := by rintro rfl; rw [hn] at hb; cases hb; exact hk hd
  have h3 : ¬ In v d.r n := fun h => in_none ((hr n e hn hk).mpr h)
  rw [in_some hb, hl n e hn hk]
  simp [h2, h3]

theorem Shares.up_right {v : View α D} {k : Prefix α} {b : Nat} {d : Cell α D} {p : Ptr} (hb : v b = some d)
    (hd : SubEq d.pfx k) (hl : Shares v k none d.l) (hr : Shares v k p d.r) : Shares v k p (some b) := by
  intro n e hn hk
  have h2 : n ≠ b := by rintro rfl; rw [hn] at hb; cases hb; exact hk hd
  have h3 : ¬ In v d.l n := fun h => in_none ((hl n e hn hk).mpr h)
  rw [in_some hb, hr n e hn hk]
  simp [h2, h3]

end
end Addrs

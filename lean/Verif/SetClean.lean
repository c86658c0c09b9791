import Verif.SetOps
/-
  Tries all of whose prefixes have no host bits.  The operations on sets preserve this.
-/
namespace Addrs
open GoWord LawfulGoWord

section
variable {α : Type} [LawfulGoWord α]

/-- no prefix of the trie has host bits -/
def Trie.Clean {D : Type} : Trie α D → Prop
  | .nil => True
  | .node p _ _ _ _ l r => ZeroFrom p.len p.addr ∧ l.Clean ∧ r.Clean

theorem Trie.Clean.entries {D : Type} {t : Trie α D} (h : t.Clean) : ∀ x ∈ t.entries, ZeroFrom x.1.len x.1.addr := by
  induction t with
  | nil => intro x hx; cases hx
  | node p d n m act l r ihl ihr =>
    intro x hx
    simp only [Trie.entries, List.mem_append] at hx
    rcases hx with hx | hx | hx
    · cases act
      · cases hx
      · rw [List.mem_singleton.1 hx]; exact h.1
    · exact ihl h.2.1 x hx
    · exact ihr h.2.2 x hx

namespace SetNode
open Trie

theorem clean_fromPrefix {p : Prefix α} (h : ZeroFrom p.len p.addr) : Clean (fromPrefix p) := ⟨h, trivial, trivial⟩

theorem clean_mkFlat {p : Prefix α} {l r : SetNode α} (h : ZeroFrom p.len p.addr) (hl : Clean l) (hr : Clean r) :
    Clean (mkFlat p l r) := by
  unfold mkFlat Trie.flatten Trie.mk
  rw [if_neg (by simp)]
  cases l with
  | nil => exact ⟨h, hl, hr⟩
  | node =>
    cases r with
    | nil => exact ⟨h, hl, hr⟩
    | node =>
      simp only
      split
      · exact ⟨h, hl, hr⟩
      · split
        · exact ⟨h, hl, hr⟩
        · split
          · exact ⟨h, hl, hr⟩
          · exact ⟨h, trivial, trivial⟩

theorem clean_union {a b : SetNode α} (ha : Clean a) (hb : Clean b) : Clean (union a b) := by
  generalize hN : a.nodes + b.nodes = N
  induction N using Nat.strongRecOn generalizing a b with
  | ind N ih =>
  cases a with
  | nil => rw [union_nil_left]; exact hb
  | node p d n m act l r =>
  cases b with
  | nil => rw [union_nil_right]; exact ha
  | node q e n' m' act' l' r' =>
  rw [union]
  obtain ⟨pz, cl, cr⟩ := id ha
  obtain ⟨qz, cl', cr'⟩ := id hb
  rcases hc : compareP p q with ⟨c, rev, k, ch⟩
  cases c with
  | same =>
    simp only
    cases act
    · cases act'
      · exact clean_mkFlat pz (ih _ (by rw [← hN]; simp only [nodes]; omega) cl cl' rfl)
          (ih _ (by rw [← hN]; simp only [nodes]; omega) cr cr' rfl)
      · exact hb
    · exact ha
  | disjoint =>
    simp only
    split
    · exact clean_mkFlat (zeroFrom_zeroed _ _) ha hb
    · exact clean_mkFlat (zeroFrom_zeroed _ _) hb ha
  | contains =>
    simp only
    split
    · split
      · exact hb
      · split
        · exact clean_mkFlat qz cl' (ih _ (by rw [← hN]; simp only [nodes]; omega) cr' ha rfl)
        · exact clean_mkFlat qz (ih _ (by rw [← hN]; simp only [nodes]; omega) cl' ha rfl) cr'
    · split
      · exact ha
      · split
        · exact clean_mkFlat pz cl (ih _ (by rw [← hN]; simp only [nodes]; omega) cr hb rfl)
        · exact clean_mkFlat pz (ih _ (by rw [← hN]; simp only [nodes]; omega) cl hb rfl) cr
  | isContained =>
    simp only
    split
    · split
      · exact hb
      · split
        · exact clean_mkFlat qz cl' (ih _ (by rw [← hN]; simp only [nodes]; omega) cr' ha rfl)
        · exact clean_mkFlat qz (ih _ (by rw [← hN]; simp only [nodes]; omega) cl' ha rfl) cr'
    · split
      · exact ha
      · split
        · exact clean_mkFlat pz cl (ih _ (by rw [← hN]; simp only [nodes]; omega) cr hb rfl)
        · exact clean_mkFlat pz (ih _ (by rw [← hN]; simp only [nodes]; omega) cl hb rfl) cr

theorem clean_intersect {a b : SetNode α} (ha : Clean a) (hb : Clean b) : Clean (intersect a b) := by
  generalize hN : a.nodes + b.nodes = N
  induction N using Nat.strongRecOn generalizing a b with
  | ind N ih =>
  cases a with
  | nil => unfold intersect; exact trivial
  | node p d n m act l r =>
  cases b with
  | nil => unfold intersect; exact trivial
  | node q e n' m' act' l' r' =>
  rw [intersect]
  obtain ⟨pz, cl, cr⟩ := id ha
  obtain ⟨qz, cl', cr'⟩ := id hb
  have key : ∀ rev : Bool, Clean (if (!act) = true then
        union (intersect (.node q e n' m' act' l' r') l) (intersect (.node q e n' m' act' l' r') r)
      else if (!act') = true then
        union (intersect (.node p d n m act l r) l') (intersect (.node p d n m act l r) r')
      else if rev = true then .node p d n m act l r
      else .node q e n' m' act' l' r') := by
    intro rev
    split
    · exact clean_union (ih _ (by rw [← hN]; simp only [nodes]; omega) hb cl rfl)
        (ih _ (by rw [← hN]; simp only [nodes]; omega) hb cr rfl)
    · split
      · exact clean_union (ih _ (by rw [← hN]; simp only [nodes]; omega) ha cl' rfl)
          (ih _ (by rw [← hN]; simp only [nodes]; omega) ha cr' rfl)
      · split
        · exact ha
        · exact hb
  rcases hc : compareP p q with ⟨c, rev, k, ch⟩
  cases c with
  | disjoint => exact trivial
  | same => exact key rev
  | contains => exact key rev
  | isContained => exact key rev

theorem clean_halves {p : Prefix α} (h : p.len < width α) :
    ZeroFrom p.halves.1.len p.halves.1.addr ∧ ZeroFrom p.halves.2.len p.halves.2.addr := by
  have hw : p.WF := Nat.le_of_lt h
  simp only [Prefix.halves, h, if_true]
  constructor
  · intro i hi
    rw [bit_network hw]
    have : ¬ i < p.len := by omega
    simp [this]
  · intro i hi
    by_cases hiw : i < width α
    · rw [bit_or, bit_network hw, bit_shr _ _ hiw, bit_top]
      have h1 : ¬ i < p.len := by omega
      have h2 : ¬ i - p.len = 0 := by omega
      simp [h1, h2]
    · exact bit_ge (by omega)

theorem clean_difference {a b : SetNode α} (ha : Clean a) (hb : Clean b) : Clean (difference a b) := by
  fun_induction difference a b with
  | case1 => exact trivial
  | case2 => exact ha
  | case3 => exact trivial
  | case4 => rename_i ih; exact ih ha hb.2.2
  | case5 => rename_i ih; exact ih ha hb.2.1
  | case6 => exact ha
  | case7 => rename_i ih2 ih1; exact clean_union (ih2 ha.2.1 hb) (ih1 ha.2.2 hb)
  | case8 => exact trivial
  | case9 =>
    rename_i h ih2 ih1
    exact clean_union (ih2 (clean_fromPrefix (clean_halves h).1) hb.2.1) (ih1 (clean_fromPrefix (clean_halves h).2) hb.2.2)
  | case10 => exact trivial
  | case11 => rename_i ih2 ih1; exact clean_union (ih2 ha.2.1 hb) (ih1 ha.2.2 hb)
  | case12 =>
    rename_i h _ ih
    exact clean_union (clean_fromPrefix (clean_halves h).1) (ih (clean_fromPrefix (clean_halves h).2) hb)
  | case13 =>
    rename_i h _ ih
    exact clean_union (clean_fromPrefix (clean_halves h).2) (ih (clean_fromPrefix (clean_halves h).1) hb)
  | case14 => exact trivial

end SetNode
end
end Addrs

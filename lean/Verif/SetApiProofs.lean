import Verif.Count
/-
  From tries to the API of Set: emptiness, membership, reachable sets.
-/
namespace Addrs
open GoWord LawfulGoWord

/-- both emptiness tests are right; both widths are at most 128 -/
class LawfulIPFamily (α : Type) extends IPFamily α where
  isEmptyNode_spec : ∀ {t : SetNode α}, SetNode.Inv t →
    (IPFamily.isEmptyNode t = true ↔ ∀ x, ¬ SetNode.Mem t x)
  width_le : GoWord.width α ≤ 128

instance : LawfulIPFamily (BitVec 32) where
  isEmptyNode_spec h := by
    simp only [IPFamily.isEmptyNode, decide_eq_true_eq]
    exact h.numAddresses_eq_zero
  width_le := by decide

instance : LawfulIPFamily U128 where
  isEmptyNode_spec h := h.isEmpty_iff
  width_le := by decide

section
variable {α : Type} [LawfulIPFamily α]
open SetNode

theorem IPSet.Reachable.inv {s : IPSet α} (h : s.Reachable) : Inv s.trie := by
  induction h with
  | empty => exact .nil
  | address a => exact .leaf _ (Nat.le_refl _)
  | «prefix» p h => exact .leaf _ h
  | range r h => exact fromRange_inv h
  | union s t _ _ ihs iht => exact (union_spec ihs iht).inv
  | intersection s t _ _ ihs iht => exact (intersect_spec _ _ ihs iht).inv
  | difference s t _ _ ihs iht => exact (difference_spec _ _ ihs iht).inv

theorem SetI.Valid.reachable {i : SetI α} (h : i.Valid) : i.toSet.Reachable := by
  cases i with
  | nil => exact .empty
  | address a => exact .address a
  | «prefix» p => exact .prefix p h
  | range r => exact .range r h
  | set s => exact h

theorem IPSet.isEmpty_iff {s : IPSet α} (h : Inv s.trie) :
    s.isEmpty = true ↔ ∀ x, ¬ Mem s.trie x := LawfulIPFamily.isEmptyNode_spec h

theorem IPSet.contains_iff {s : IPSet α} {o : SetI α} (hs : Inv s.trie) (ho : Inv o.toSet.trie) :
    s.contains o = true ↔ ∀ x, Mem o.toSet.trie x → Mem s.trie x := by
  have hd := difference_spec _ _ ho hs
  rw [IPSet.contains, IPSet.isEmpty_iff (s := o.toSet.difference (.set s)) hd.inv]
  constructor
  · intro h x hx
    apply Classical.byContradiction
    intro hn
    exact h x ((hd.mem x).mpr ⟨hx, hn⟩)
  · intro h x hx
    obtain ⟨h1, h2⟩ := (hd.mem x).mp hx
    exact h2 (h x h1)

theorem mem_address {a x : α} : Mem (fromPrefix (Prefix.ofAddress a)) x ↔ a = x := by
  rw [mem_fromPrefix]
  constructor
  · intro h; exact Agree.eq h (Nat.le_refl _)
  · rintro rfl; exact Covers.self _

theorem IPSet.has_iff {s : IPSet α} (hs : Inv s.trie) {a : α} : s.has a ↔ Mem s.trie a := by
  rw [IPSet.has, IPSet.contains_iff (o := .address a) hs (.leaf _ (Nat.le_refl _))]
  constructor
  · intro h; exact h a (mem_address.mpr rfl)
  · intro h x hx
    rw [← (mem_address.mp hx)]; exact h

theorem IPSet.Reachable.has_iff {s : IPSet α} (hs : s.Reachable) {a : α} :
    s.has a ↔ Mem s.trie a := IPSet.has_iff hs.inv

end
end Addrs

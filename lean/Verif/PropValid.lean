import Verif.PropSets
import Verif.PropTables
/-
  Property C50: the integrity check `isValid` the project's unit tests call on particular tries holds of
  every set and table that can be produced; and what the check is worth.
-/
set_option linter.unusedSectionVars false
namespace Addrs
open GoWord LawfulGoWord

namespace Trie
variable {α D : Type}

/-- ipv4/node.go:279-303 `isValidLen`.  `size` is a uint32 (`size--` wraps), `h` a uint16;
    `uint32(left.NumNodes()+right.NumNodes())` adds in int64 and truncates. `length+1` cannot overflow. -/
def isValidLen : Nat → Trie α D → Bool
  | _, nil => true
  | minLen, node p _ size h act left right =>
    if act = false ∧ (left.isNil || right.isNil) then false
    else
      let size := if act then (size + (2 ^ 32 - 1)) % 2 ^ 32 else size
      if size ≠ (left.numNodes + right.numNodes) % 2 ^ 32 then false
      else if h ≠ (1 + (max left.height right.height) % 2 ^ 16) % 2 ^ 16 then false
      else if p.len < minLen then false
      else isValidLen (p.len + 1) left && isValidLen (p.len + 1) right

/-- ipv4/node.go:275-277 `isValid` (the set's: ipv4/setnode.go:193-195) -/
def isValid (t : Trie α D) : Bool := isValidLen 0 t

theorem isValidLen_mk {p : Prefix α} {d : Option D} {act : Bool} {l r : Trie α D} {n : Nat}
    (two : act = false → l ≠ nil ∧ r ≠ nil) (hn : n ≤ p.len)
    (hl : isValidLen (p.len + 1) l = true) (hr : isValidLen (p.len + 1) r = true) :
    isValidLen n (Trie.mk p d act l r) = true := by
  have hnil : ∀ t : Trie α D, t ≠ nil → t.isNil = false := fun t h => by cases t <;> simp_all [isNil]
  simp only [Trie.mk, isValidLen, hl, hr, Bool.and_self]
  have h1 : ¬ (act = false ∧ (l.isNil || r.isNil) = true) := by
    rintro ⟨h, h'⟩
    have := two h
    simp [hnil _ this.1, hnil _ this.2] at h'
  have h2 : (if act then ((if act then ((l.numNodes + r.numNodes) % 2 ^ 32 + 1) % 2 ^ 32
      else (l.numNodes + r.numNodes) % 2 ^ 32) + (2 ^ 32 - 1)) % 2 ^ 32
      else (if act then ((l.numNodes + r.numNodes) % 2 ^ 32 + 1) % 2 ^ 32
      else (l.numNodes + r.numNodes) % 2 ^ 32)) = (l.numNodes + r.numNodes) % 2 ^ 32 := by
    cases act
    · simp
    · simp only [if_true]; omega
  have h3 : (1 + max l.height r.height) % 2 ^ 16 = (1 + (max l.height r.height) % 2 ^ 16) % 2 ^ 16 := by omega
  rw [if_neg h1, if_neg (fun h => h h2), if_neg (fun h => h h3), if_neg (by omega)]

/-- number of active nodes -/
def actives : Trie α D → Nat
  | nil => 0
  | node _ _ _ _ act l r => (if act then 1 else 0) + l.actives + r.actives

/-- longest path -/
def longest : Trie α D → Nat
  | nil => 0
  | node _ _ _ _ _ l r => 1 + max l.longest r.longest

/-- no inactive node lacks a child, and every child's prefix is longer than its parent's -/
def Shaped : Nat → Trie α D → Prop
  | _, nil => True
  | n, node p _ _ _ act l r =>
    n ≤ p.len ∧ (act = false → l ≠ nil ∧ r ≠ nil) ∧ Shaped (p.len + 1) l ∧ Shaped (p.len + 1) r

theorem isValidLen_elim {t : Trie α D} : ∀ {n : Nat}, isValidLen n t = true →
    t.numNodes % 2 ^ 32 = t.actives % 2 ^ 32 ∧ (t.longest < 2 ^ 16 → t.height = t.longest) ∧ Shaped n t := by
  induction t with
  | nil => intro n _; exact ⟨rfl, fun _ => rfl, trivial⟩
  | node p d size h act l r ihl ihr =>
    intro n hv
    rw [isValidLen] at hv
    by_cases h1 : act = false ∧ (l.isNil || r.isNil) = true
    · rw [if_pos h1] at hv; simp at hv
    · rw [if_neg h1] at hv
      by_cases h2 : (if act then (size + (2 ^ 32 - 1)) % 2 ^ 32 else size) = (l.numNodes + r.numNodes) % 2 ^ 32
      case neg => dsimp only at hv; rw [if_pos h2] at hv; cases hv
      dsimp only at hv
      rw [if_neg (fun h => h h2)] at hv
      by_cases h3 : h = (1 + (max l.height r.height) % 2 ^ 16) % 2 ^ 16
      case neg => rw [if_pos h3] at hv; cases hv
      rw [if_neg (fun h => h h3)] at hv
      by_cases h4 : p.len < n
      · rw [if_pos h4] at hv; cases hv
      · rw [if_neg h4] at hv
        simp only [Bool.and_eq_true] at hv
        obtain ⟨a1, a2, a3⟩ := ihl hv.1
        obtain ⟨b1, b2, b3⟩ := ihr hv.2
        refine ⟨?_, ?_, by omega, ?_, a3, b3⟩
        · simp only [numNodes, actives]
          cases act
          · simp only [Bool.false_eq_true, if_false] at h2 ⊢; omega
          · simp only [if_true] at h2 ⊢; omega
        · simp only [height, longest]
          intro hlt
          have a2 := a2 (by omega)
          have b2 := b2 (by omega)
          omega
        · intro ha
          constructor
          · rintro rfl; exact h1 ⟨ha, by simp [isNil]⟩
          · rintro rfl; exact h1 ⟨ha, by simp [isNil]⟩
end Trie

section
variable {α D : Type} [LawfulIPFamily α]

theorem SetNode.Inv.isValidLen {t : SetNode α} (h : SetNode.Inv t) :
    ∀ n, (∀ p d k m a l r, t = Trie.node p d k m a l r → n ≤ p.len) → Trie.isValidLen n t = true := by
  induction h with
  | nil => intro n _; rfl
  | leaf p hp =>
    intro n hn
    exact Trie.isValidLen_mk (p := p) (d := none) (act := true) (l := .nil) (r := .nil)
      (fun h => by simp at h) (hn _ _ _ _ _ _ _ rfl) rfl rfl
  | inner p l r hz ul ur hl hr nm ihl ihr =>
    intro n hn
    refine Trie.isValidLen_mk (fun _ => ⟨ul.ne_nil, ur.ne_nil⟩) (hn _ _ _ _ _ _ _ rfl) (ihl _ ?_) (ihr _ ?_)
    · rintro q _ _ _ _ _ _ rfl; exact ul.1
    · rintro q _ _ _ _ _ _ rfl; exact ur.1

theorem Trie.TInv.isValidLen {t : Trie α D} (h : Trie.TInv t) :
    ∀ n, (∀ p d k m a l r, t = Trie.node p d k m a l r → n ≤ p.len) → Trie.isValidLen n t = true := by
  induction h with
  | empty => intro n _; rfl
  | mk p d act l r wf il ir hl hr two ihl ihr =>
    intro n hn
    refine Trie.isValidLen_mk two (hn _ _ _ _ _ _ _ rfl) (ihl _ ?_) (ihr _ ?_)
    · rintro q _ _ _ _ _ _ rfl; exact il.1
    · rintro q _ _ _ _ _ _ rfl; exact ir.1

/-- ipv4/set.go:340-342 `Set.isValid` (and the builder's, ipv4/set.go:105-107) -/
def IPSet.isValid (s : IPSet α) : Bool := s.trie.isValid

/-- The integrity check accepts every set. -/
theorem C50_set (s : IPSet α) (hs : s.Reachable) : s.isValid = true :=
  hs.inv.isValidLen 0 (fun _ _ _ _ _ _ _ _ => Nat.zero_le _)

/-- The integrity check accepts the trie of every table. -/
theorem C50_table [Inhabited D] [DecidableEq D] (t : Table α D) (ht : t.Reachable) : t.trie.isValid = true :=
  ht.good.inv.isValidLen 0 (fun _ _ _ _ _ _ _ _ => Nat.zero_le _)

/-- What the check establishes of any trie whatsoever: the stored size and height are those of the tree
    (the size in uint32; the height if it fits uint16), inactive nodes have two children and prefixes get longer downwards. -/
theorem C50_check (t : Trie α D) (h : t.isValid = true) :
    t.numNodes % 2 ^ 32 = t.actives % 2 ^ 32 ∧ (t.longest < 2 ^ 16 → t.height = t.longest) ∧ t.Shaped 0 :=
  Trie.isValidLen_elim h

/-- The number of entries of a table is the length of its listing (in uint32). -/
theorem actives_eq_entries (t : Trie α D) : t.actives = t.entries.length := by
  induction t with
  | nil => rfl
  | node p d n h act l r ihl ihr =>
    cases act <;> simp [Trie.actives, Trie.entries, ihl, ihr] <;> omega

end

/-- the check is not vacuous: it rejects a wrong size, a wrong height and an inactive node with one child -/
example : Sample.s.isValid = true ∧ Sample.tbl.trie.isValid = true ∧
    (Trie.node (α := BitVec 32) (D := Nat) ⟨0#32, 8⟩ none 2 1 true .nil .nil).isValid = false ∧
    (Trie.node (α := BitVec 32) (D := Nat) ⟨0#32, 8⟩ none 1 2 true .nil .nil).isValid = false ∧
    (Trie.node (α := BitVec 32) (D := Nat) ⟨0#32, 8⟩ none 1 2 false
      (.node ⟨0#32, 9⟩ none 1 1 true .nil .nil) .nil).isValid = false :=
  ⟨C50_set _ Sample.s_reachable, C50_table _ Sample.tbl_reachable, by decide, by decide, by decide⟩

end Addrs

import Verif.HeapAgg
import Verif.Reenter
/-
  Code that panics for certain, and when `Map` and `Aggregate` do so.
-/
set_option linter.unusedSectionVars false
namespace Addrs
open GoWord LawfulGoWord

namespace Prog
variable {α D β γ : Type}

/-- Whatever addresses the new nodes get, the code panics, and until then it relies only on the nodes of the
    view. -/
def Panics : Prog α D β → View α D → Prop
  | ret _, _ => False
  | panic, _ => True
  | stuck, _ => False
  | alloc c k, v => ∀ n, v n = none → Panics (k n) (v.set n c)
  | read p k, v => ∃ c, v p = some c ∧ Panics (k c) v
  | write p c k, v => (∃ c0, v p = some c0) ∧ Panics k (v.set p c)
  | load _ _, _ => False
  | cas _ _ _ _, _ => False
  | newObj _ _, _ => False

theorem Panics.bind {P : Prog α D β} {f : β → Prog α D γ} {v : View α D} (h : Panics P v) : Panics (P >>= f) v := by
  show Panics (P.bind f) v
  induction P generalizing v with
  | ret b => exact h.elim
  | panic => exact h
  | stuck => exact h.elim
  | alloc c k ih => intro n hn; exact ih n (h n hn)
  | read p k ih => obtain ⟨c, hc, h⟩ := h; exact ⟨c, hc, ih c h⟩
  | write p c k ih => exact ⟨h.1, ih h.2⟩
  | load o k ih => exact h.elim
  | cas o old new k ih => exact h.elim
  | newObj ob k ih => exact h.elim

/-- first something that returns, then a panic -/
theorem Panics.after {P : Prog α D β} {f : β → Prog α D γ} {v : View α D} {W : Nat → Prop} {Q : β → View α D → Prop}
    (h : wp False Q P v W) (hf : ∀ b v', Q b v' → Panics (f b) v') : Panics (P >>= f) v := by
  show Panics (P.bind f) v
  induction P generalizing v W with
  | ret b => exact hf _ _ h
  | panic => exact h.elim
  | stuck => exact h.elim
  | alloc c k ih => intro n hn; exact ih n (h n hn)
  | read p k ih => obtain ⟨c, hc, h⟩ := h; exact ⟨c, hc, ih c h⟩
  | write p c k ih => exact ⟨h.2.1, ih h.2.2⟩
  | load o k ih => exact h.elim
  | cas o old new k ih => exact h.elim
  | newObj ob k ih => exact h.elim

/-- first a call that writes only to nodes it allocates, then a panic -/
theorem Panics.call {P : Prog α D β} {f : β → Prog α D γ} {v : View α D} {Q : β → View α D → Prop}
    (h : wp False Q P v Nowhere) (hf : ∀ b v', v ≤ v' → Q b v' → Panics (f b) v') : Panics (P >>= f) v :=
  Panics.after (wp_frame h) fun b v' hq => hf b v' (fun n c e => hq.2 n c id e) hq.1

theorem panics_deref {p : Nat} {c : Cell α D} {f : Cell α D → Prog α D γ} {v : View α D} (hp : v p = some c)
    (h : Panics (f c) v) : Panics (deref (some p) >>= f) v := ⟨c, hp, h⟩

theorem panics_new {c : Cell α D} {f : Nat → Prog α D γ} {v : View α D}
    (h : ∀ n, v n = none → Panics (f n) (v.set n c)) : Panics (new c >>= f) v := h

/-- the code panics, running alone -/
theorem Panics.run {P : Prog α D β} {v : View α D} (h : Panics P v) {m : Mem α D} (hv : v ≤ m.nodes) :
    (P.run m).1 = .panic := by
  induction P generalizing v m with
  | ret b => exact h.elim
  | panic => rfl
  | stuck => exact h.elim
  | alloc c k ih =>
    have hn : v m.heap.length = none := by
      cases e : v m.heap.length with
      | none => rfl
      | some x =>
        have := hv _ _ e
        have := (List.getElem?_eq_some_iff.mp this).1
        exact (Nat.lt_irrefl _ this).elim
    refine ih m.heap.length (h _ hn) (m := { m with heap := m.heap ++ [c] }) ?_
    intro a x e
    show View.ofHeap (m.heap ++ [c]) a = some x
    rw [ofHeap_alloc]
    unfold View.set at e ⊢
    split at e
    · next h => rw [if_pos h]; exact e
    · next h => rw [if_neg h]; exact hv _ _ e
  | read p k ih =>
    obtain ⟨c, hc, h⟩ := h
    have hp : m.heap[p]? = some c := hv _ _ hc
    simp only [Prog.run, hp]
    exact ih c h hv
  | write p c k ih =>
    obtain ⟨⟨c0, h0⟩, h⟩ := h
    have hp : p < m.heap.length := (List.getElem?_eq_some_iff.mp (hv _ _ h0)).1
    simp only [Prog.run, hp, if_true]
    refine ih h (m := { m with heap := m.heap.set p c }) ?_
    intro a x e
    show View.ofHeap (m.heap.set p c) a = some x
    rw [ofHeap_write hp]
    unfold View.set at e ⊢
    split at e
    · next h => rw [if_pos h]; exact e
    · next h => rw [if_neg h]; exact hv _ _ e
  | load o k ih => exact h.elim
  | cas o old new k ih => exact h.elim
  | newObj ob k ih => exact h.elim

end Prog

namespace Trie
variable {α D : Type}

/-- every node's `Data` has the property -/
def AllData (A : Option D → Prop) : Trie α D → Prop
  | nil => True
  | node _ d _ _ _ l r => A d ∧ AllData A l ∧ AllData A r

/-- entries have a value, other nodes have none -/
def Tidy : Trie α D → Prop
  | nil => True
  | node _ d _ _ act l r => d.isSome = act ∧ Tidy l ∧ Tidy r

/-- every node is an entry -/
def Solid : Trie α D → Prop
  | nil => True
  | node _ _ _ _ act l r => act = true ∧ Solid l ∧ Solid r

theorem Tidy.allData {t : Trie α D} (h : t.Tidy) (hs : t.Solid) : t.AllData fun d => d.isSome = true := by
  induction t with
  | nil => trivial
  | node p d n h' act l r ihl ihr => exact ⟨h.1.trans hs.1, ihl h.2.1 hs.2.1, ihr h.2.2 hs.2.2⟩

end Trie

namespace Heap
open Prog
variable {α : Type} [LawfulGoWord α]
variable {st : Prop} {β D : Type}

/-- `Map` with a comparison function that may panic, but not on the values of the table -/
theorem wp_map_on [Comparable D] {σ : Type} {f : Prefix α → Option D → σ → Option D × σ}
    {eq : Comparator D} {ve : Trie.Eq' D} {A B : Option D → Prop} (hEq : ∀ a b, A a → B b → eq a b = some (ve a b))
    (hB : ∀ p d s, B (f p d s).1) :
    ∀ (F : Nat) {t : Trie α D}, t.deep < F → t.AllData A →
    ∀ {v : View α D} {p : Ptr} {W : Nat → Prop} {s : σ}, Den v p t →
    wp st (fun x v' => Den v' x.1 (Trie.map f ve t s).1 ∧ x.2 = (Trie.map f ve t s).2)
      (map f eq F p s) v W := by
  intro F
  induction F with
  | zero => intro t h; omega
  | succ F ih =>
    intro t hF hA v p W s dt
    unfold map
    cases dt with
    | nil => exact ⟨Den.nil, rfl⟩
    | @node a c l r ha dl dr =>
    simp only [Trie.deep] at hF
    refine wp_copyMutate (Qm := fun y l' r' => y.1.pfx = c.pfx ∧ y.1.active = c.active ∧
      y.1.data = (if ve c.data (f c.pfx c.data s).1 then c.data else (f c.pfx c.data s).1) ∧
      l' = (Trie.map f ve l (f c.pfx c.data s).2).1 ∧
      r' = (Trie.map f ve r (Trie.map f ve l (f c.pfx c.data s).2).2).1 ∧
      y.2 = (Trie.map f ve r (Trie.map f ve l (f c.pfx c.data s).2).2).2) ha ?_ ?_
    · refine wp_deref ha ?_
      simp only [hEq _ _ hA.1 (hB _ _ _)]
      show wp _ _ (map f eq F c.l (f c.pfx c.data s).2 >>= _) _ _
      refine wp_call (ih (t := l) (by omega) hA.2.1 dl) ?_
      rintro ⟨x, s1⟩ v1 le1 ⟨d1, hs⟩
      simp only at d1 hs
      subst hs
      refine wp_call (ih (t := r) (by omega) hA.2.2 (dr.mono le1)) ?_
      rintro ⟨y, s2⟩ v2 le2 ⟨d2, hs⟩
      simp only at d2 hs
      subst hs
      exact ⟨_, _, d1.mono le2, d2, rfl, rfl, rfl, rfl, rfl, rfl⟩
    · rintro y l' r' v' p le ⟨e1, e2, e3, rfl, rfl, e4⟩ _ _ hd _
      rw [Trie.map]
      simp only
      refine ⟨?_, e4⟩
      rw [e3, e1, e2] at hd
      exact hd

theorem panics_copyMutate [GoType D] {τ : Type} {me : Nat} {c : Cell α D} {m : Cell α D → Prog α D (Cell α D × τ)}
    {v : View α D} (hme : v me = some c) (hm : ∀ n, v n = none → Panics (m c) (v.set n c)) : Panics (copyMutate me m) v := by
  unfold copyMutate
  refine panics_deref hme (panics_new fun n hn => ?_)
  refine Panics.bind ?_
  unfold mutate
  exact panics_deref (View.set_same _ _ _) (Panics.bind (hm n hn))

/-- Where a comparison function panics on the value of a node, `Map` panics. -/
theorem panics_map [Comparable D] {σ : Type} {f : Prefix α → Option D → σ → Option D × σ}
    {eq : Comparator D} {ve : Trie.Eq' D} {A B : Option D → Prop} (hEq : ∀ a b, A a → B b → eq a b = some (ve a b))
    (hno : ∀ a b, ¬ A a → B b → eq a b = none) (hB : ∀ p d s, B (f p d s).1) :
    ∀ (F : Nat) {t : Trie α D}, t.deep < F → ¬ t.AllData A →
    ∀ {v : View α D} {p : Ptr} {s : σ}, Den v p t → Panics (map f eq F p s) v := by
  intro F
  induction F with
  | zero => intro t h; omega
  | succ F ih =>
    intro t hF hA v p s dt
    unfold map
    cases dt with
    | nil => exact (hA trivial).elim
    | @node a c l r ha dl dr =>
    simp only [Trie.deep] at hF
    refine panics_copyMutate ha fun n hn => ?_
    have le : v ≤ v.set n c := View.le_set_fresh hn
    refine panics_deref (le _ _ ha) ?_
    by_cases hc : A c.data
    · simp only [hEq _ _ hc (hB _ _ _)]
      show Panics (map f eq F c.l (f c.pfx c.data s).2 >>= _) _
      by_cases hl : l.AllData A
      · refine Panics.call (wp_map_on hEq hB F (t := l) (by omega) hl (dl.mono le)) ?_
        rintro ⟨x, s1⟩ v1 le1 ⟨d1, hs⟩
        exact (ih (t := r) (by omega) (fun hr => hA ⟨hc, hl, hr⟩) ((dr.mono le).mono le1)).bind
      · exact (ih (t := l) (by omega) hl (dl.mono le)).bind
    · simp only [hno _ _ hc (hB _ _ _)]
      exact trivial

end Heap
end Addrs

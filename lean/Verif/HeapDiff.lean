import Verif.HeapRead
import Verif.TableApiProofs
/-
  `Diff` and `Walk` on the heap.
-/
set_option linter.unusedSectionVars false
namespace Addrs
open GoWord LawfulGoWord

namespace Trie
variable {α D : Type}

/-- every prefix is valid and every entry has a value -/
def Boxed [GoWord α] : Trie α D → Prop
  | nil => True
  | node p d _ _ act l r => p.WF ∧ (act = true → d.isSome = true) ∧ Boxed l ∧ Boxed r

variable [LawfulGoWord α]

theorem diff_self' {σ : Type} {hv : Handler α D σ}
    (h : ∀ (i : Info α D) s, (i.active = true → i.data.isSome = true) → hv.modified i i s = (s, true)) :
    ∀ {t : Trie α D}, t.Boxed → ∀ s, diff hv t t s = (s, true) := by
  intro t
  induction t with
  | nil => intro _ s; rw [diff]
  | node p d n m act l r ihl ihr =>
    intro hb s
    obtain ⟨h1, h2, h3, h4⟩ := hb
    rw [diff]
    simp only [SetNode.compareP_self h1, h ⟨p, d, act⟩ s h2, andThen, if_true, ihl h3, ihr h4]

theorem diff_self {σ : Type} {cb : DiffCallbacks α D σ} {eq : Option D → Option D → Bool} (hs : cb.same = none)
    (hr : (∀ d, eq (some d) (some d) = true) ∨ cb.modified = none) :
    ∀ {t : Trie α D}, t.Boxed → ∀ s, Diff cb eq t t s = (s, true) := by
  intro t hb s
  unfold Diff
  refine diff_self' ?_ hb s
  rintro ⟨p, d, act⟩ s h2
  cases act with
  | false => rfl
  | true =>
    obtain ⟨x, rfl⟩ := Option.isSome_iff_exists.mp (h2 rfl)
    cases he : eq (some x) (some x) with
    | true => simp [he, hs, orNoop1]
    | false =>
      rcases hr with hr | hr
      · rw [hr x] at he; cases he
      · simp [he, hr, orNoop2]

end Trie

namespace Heap
open Prog
variable {α : Type} [LawfulGoWord α]
variable {st : Prop} {D : Type}

/-- `Diff` -/
theorem wp_Diff {σ : Type} [GoType D] {cb : Trie.DiffCallbacks α D σ} {eq : Comparator D}
    {ve : Option D → Option D → Bool} (hEq : ∀ a b, eq (some a) (some b) = some (ve (some a) (some b)))
    (hr : cb.same = none → (∀ d, ve (some d) (some d) = true) ∨ cb.modified = none) {F : Nat} {t u : Trie α D}
    (hF : t.deep + u.deep < F) (bt : t.Boxed) (bu : u.Boxed) {v : View α D} {p q : Ptr} {W : Nat → Prop} {s : σ}
    (dt : Den v p t) (du : Den v q u) :
    wp st (fun x _ => x = Trie.Diff cb ve t u s) (Diff F cb eq p q s) v W := by
  unfold Diff Trie.Diff
  simp only
  refine wp_diff (K := fun i => i.active = true → i.data.isSome = true) (G := Trie.Boxed) ?_ ?_ ?_ ?_ ?_ ?_ F hF bt bu dt du
  · intro c s; simp only; split <;> rfl
  · intro c s; simp only; split <;> rfl
  · intro c d s h1 h2
    simp only at h1 h2 ⊢
    cases ha : c.active <;> cases hb : d.active
    · rfl
    · rfl
    · rfl
    · obtain ⟨x, hx⟩ := Option.isSome_iff_exists.mp (h1 ha)
      obtain ⟨y, hy⟩ := Option.isSome_iff_exists.mp (h2 hb)
      simp only [Bool.and_self, if_true, hx, hy, hEq, orPanic, bind_ret]
      cases ve (some x) (some y) <;> rfl
  · intro p d n h act l r hb; exact hb.2.1
  · intro p d n h act l r hb; exact hb.2.2
  · intro hs t s hb
    have hs' : cb.same = none := Option.isNone_iff_eq_none.mp hs
    exact Trie.diff_self hs' (hr hs') hb s

/-- `Diff` of one trie with the empty one on the left: the comparator is not used -/
theorem wp_Diff_nil {σ : Type} [GoType D] {cb : Trie.DiffCallbacks α D σ} {eq : Comparator D}
    {ve : Option D → Option D → Bool} {F : Nat} {u : Trie α D}
    (hF : u.deep < F) {v : View α D} {q : Ptr} {W : Nat → Prop} {s : σ} (du : Den v q u) :
    wp st (fun x _ => x = Trie.Diff cb ve .nil u s) (Diff F cb eq none q s) v W := by
  suffices H : ∀ (hh : Handler α D σ) (hv : Trie.Handler α D σ),
      (∀ c s, hh.added c s = pure (hv.added ⟨c.pfx, c.data, c.active⟩ s)) →
      ∀ (F : Nat) (u : Trie α D), u.deep < F → ∀ (v : View α D) (q : Ptr) (W : Nat → Prop) (s : σ), Den v q u →
      wp st (fun x _ => x = Trie.diff hv .nil u s) (diff hh F none q s) v W by
    unfold Diff Trie.Diff
    simp only
    refine H _ _ ?_ F u hF v q W s du
    intro c s; simp only; split <;> rfl
  intro hh hv h2 F
  induction F with
  | zero => intro u h; omega
  | succ F ih =>
    intro u hF v q W s du
    unfold diff
    cases du with
    | nil =>
      rw [Trie.diff]
      cases hh.sameNil <;> exact rfl
    | @node b d l r hb dl dr =>
      simp only [Trie.deep] at hF
      have : (decide ((none : Ptr) = some b) && hh.sameNil) = false := by simp
      simp only [this, Bool.false_eq_true, if_false]
      refine wp_deref hb ?_
      rw [Trie.diff, h2]
      refine wp_andThen (y := hv.added ⟨d.pfx, d.data, d.active⟩ s) rfl ?_ ?_
      · intro v1 le1 hy
        refine wp_andThen (y := Trie.diff hv .nil l _) (ih l (by omega) _ _ _ _ (dl.mono le1)) ?_ ?_
        · intro v2 le2 hz
          have hle := View.le_trans le1 le2
          refine wp_call' (ih r (by omega) _ _ Nowhere _ (dr.mono hle)) ?_
          intro b v3 le3 hb
          rw [hb]
          simp only [Trie.andThen, hy, hz, if_true]
        · intro v2 le2 hz
          simp only [Trie.andThen, hy, hz, if_true]
          simp
      · intro v1 le1 hy
        simp only [Trie.andThen, hy]
        simp

/-- `Walk` -/
theorem wp_walk {σ : Type} [GoType D] {cb : Prefix α → Option D → σ → σ × Bool} {F : Nat} {u : Trie α D}
    (hF : u.deep < F) {v : View α D} {q : Ptr} {W : Nat → Prop} {s : σ} (du : Den v q u) :
    wp st (fun x _ => x = Trie.walk cb u s) (walk F cb q s) v W := wp_Diff_nil hF du

end Heap
end Addrs

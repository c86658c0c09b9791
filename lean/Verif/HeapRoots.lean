import Verif.HeapSetProofs2
/-
  Where the roots come from that the code of setnode.go returns: from its arguments, or they are new.
-/
set_option linter.unusedSectionVars false
namespace Addrs
open GoWord LawfulGoWord
namespace Prog
variable {α D β γ : Type}

/-- What is true if a program ends, on the nodes in the view `v`. -/
def wlp (Q : β → View α D → Prop) : Prog α D β → View α D → (Nat → Prop) → Prop
  | ret b, v, _ => Q b v
  | panic, _, _ => True
  | stuck, _, _ => True
  | alloc c k, v, W => ∀ n, v n = none → wlp Q (k n) (v.set n c) (fun m => m = n ∨ W m)
  | read p k, v, W => ∀ c, v p = some c → wlp Q (k c) v W
  | write p c k, v, W => wlp Q k (v.set p c) W
  | load _ _, _, _ => True
  | cas _ _ _ _, _, _ => True
  | newObj _ _, _, _ => True

theorem wp_wlp {st : Prop} {Q Q' : β → View α D → Prop} {P : Prog α D β} {v : View α D} {W : Nat → Prop}
    (h : wp st Q P v W) (h' : wlp Q' P v W) : wp st (fun b v' => Q b v' ∧ Q' b v') P v W := by
  induction P generalizing v W with
  | ret b => exact ⟨h, h'⟩
  | panic => exact h
  | stuck => exact h
  | alloc c k ih => intro n hn; exact ih n (h n hn) (h' n hn)
  | read p k ih => obtain ⟨c, hc, h⟩ := h; exact ⟨c, hc, ih c h (h' c hc)⟩
  | write p c k ih => obtain ⟨h1, h2, h3⟩ := h; exact ⟨h1, h2, ih h3 h'⟩
  | load o k ih => exact h.elim
  | cas o old new k ih => exact h.elim
  | newObj ob k ih => exact h.elim

theorem wlp_mono {Q Q' : β → View α D → Prop} {P : Prog α D β} {v : View α D} {W : Nat → Prop}
    (h : wlp Q P v W) (hQ : ∀ b v', Q b v' → Q' b v') : wlp Q' P v W := by
  induction P generalizing v W with
  | ret b => exact hQ _ _ h
  | panic => trivial
  | stuck => trivial
  | alloc c k ih => intro n hn; exact ih n (h n hn)
  | read p k ih => intro c hc; exact ih c (h c hc)
  | write p c k ih => exact ih h
  | load o k ih => trivial
  | cas o old new k ih => trivial
  | newObj ob k ih => trivial

theorem wlp_call {Q0 : β → View α D → Prop} {Q : γ → View α D → Prop} {P : Prog α D β} {f : β → Prog α D γ}
    {v : View α D} {W : Nat → Prop} (h : wlp Q0 P v W) (hf : ∀ b v' W', Q0 b v' → wlp Q (f b) v' W') :
    wlp Q (P >>= f) v W := by
  show wlp Q (P.bind f) v W
  induction P generalizing v W with
  | ret b => exact hf _ _ _ h
  | panic => trivial
  | stuck => trivial
  | alloc c k ih => intro n hn; exact ih n (h n hn)
  | read p k ih => intro c hc; exact ih c (h c hc)
  | write p c k ih => exact ih h
  | load o k ih => trivial
  | cas o old new k ih => trivial
  | newObj ob k ih => trivial

theorem wlp_deref {Q : γ → View α D → Prop} {a : Nat} {f : Cell α D → Prog α D γ} {v : View α D} {W : Nat → Prop}
    (h : ∀ c, v a = some c → wlp Q (f c) v W) : wlp Q (deref (some a) >>= f) v W := h

theorem wlp_store {Q : γ → View α D → Prop} {a : Nat} {c : Cell α D} {f : Unit → Prog α D γ} {v : View α D}
    {W : Nat → Prop} (h : wlp Q (f ()) (v.set a c) W) : wlp Q (store a c >>= f) v W := h

theorem wlp_new {Q : γ → View α D → Prop} {c : Cell α D} {f : Nat → Prog α D γ} {v : View α D} {W : Nat → Prop}
    (h : ∀ n, v n = none → wlp Q (f n) (v.set n c) (fun m => m = n ∨ W m)) : wlp Q (new c >>= f) v W := h

end Prog

namespace Heap
open Prog
variable {α : Type} [LawfulGoWord α] {β D : Type}

/-- a new node -/
def Fresh (v : View α D) (x : Ptr) : Prop := ∃ a, x = some a ∧ v a = none

theorem Fresh.anti {v v' : View α D} (le : v ≤ v') {x : Ptr} (h : Fresh v' x) : Fresh v x := by
  obtain ⟨a, rfl, h⟩ := h
  refine ⟨a, rfl, ?_⟩
  cases e : v a with
  | none => rfl
  | some c => rw [le _ _ e] at h; cases h

theorem wlp_numNodes {v : View α D} {p : Ptr} {W : Nat → Prop} : wlp (fun _ v' => v' = v) (numNodes p) v W := by
  cases p with
  | none => rfl
  | some a => intro c hc; rfl

theorem wlp_height {v : View α D} {p : Ptr} {W : Nat → Prop} : wlp (fun _ v' => v' = v) (height p) v W := by
  cases p with
  | none => rfl
  | some a => intro c hc; rfl

theorem wlp_flatten {v : View α Empty} {c : Cell α Empty} {W : Nat → Prop} :
    wlp (fun _ v' => v' = v) (flatten c) v W := by
  unfold flatten
  split
  · rfl
  · split
    · refine wlp_deref fun _ _ => wlp_deref fun _ _ => ?_
      split
      · rfl
      · split
        · rfl
        · split <;> rfl
    · trivial

theorem wlp_mutate {τ : Type} {n : Nat} {m : Cell α D → Prog α D (Cell α D × τ)} {v : View α D} {W : Nat → Prop}
    (hm : ∀ c W, wlp (fun _ v' => v' = v) (m c) v W) :
    wlp (fun _ v' => ∀ k, k ≠ n → v' k = v k) (mutate n m) v W := by
  unfold mutate
  refine wlp_deref fun c _ => wlp_call (hm c W) ?_
  rintro x v' W' rfl
  refine wlp_store ?_
  refine wlp_call wlp_numNodes ?_
  rintro _ _ _ rfl
  refine wlp_call wlp_numNodes ?_
  rintro _ _ _ rfl
  refine wlp_call wlp_height ?_
  rintro _ _ _ rfl
  refine wlp_call wlp_height ?_
  rintro _ _ _ rfl
  refine wlp_store ?_
  intro k hk
  rw [View.set_ne _ _ hk, View.set_ne _ _ hk]

theorem wlp_newFlat {p : Prefix α} {l r : Ptr} {v : View α Empty} {W : Nat → Prop} :
    wlp (fun x v' => v ≤ v' ∧ Fresh v x) (newFlat p l r) v W := by
  unfold newFlat
  refine wlp_new fun n hn => ?_
  refine wlp_call (wlp_mutate fun c W => wlp_call wlp_flatten ?_) ?_
  · rintro _ _ _ rfl; rfl
  · intro _ v' W' h
    refine ⟨fun k c hc => ?_, n, rfl, hn⟩
    have hk : k ≠ n := by rintro rfl; rw [hn] at hc; cases hc
    rw [h k hk, View.set_ne _ _ hk]
    exact hc

/-- `Union` returns one of its arguments or a new node -/
theorem wlp_union : ∀ (F : Nat) (p q : Ptr) (v : View α Empty) (W : Nat → Prop),
    wlp (fun x v' => v ≤ v' ∧ (x = p ∨ (x = q ∧ ∃ b, q = some b) ∨ Fresh v x)) (union F p q) v W := by
  intro F
  induction F with
  | zero => intro p q v W; trivial
  | succ F ih =>
    intro p q v W
    have flat : ∀ {np : Prefix α} {l r : Ptr} {v' : View α Empty} {W' : Nat → Prop} {x y : Ptr}, v ≤ v' →
        wlp (fun x' v'' => v ≤ v'' ∧ (x' = x ∨ (x' = y ∧ ∃ b, y = some b) ∨ Fresh v x')) (newFlat np l r) v' W' := by
      intro np l r v' W' x y le
      exact wlp_mono wlp_newFlat fun b v'' h => ⟨View.le_trans le h.1, Or.inr (Or.inr (h.2.anti le))⟩
    unfold union
    split
    · exact ⟨View.le_refl _, Or.inl rfl⟩
    split
    · exact ⟨View.le_refl _, Or.inl rfl⟩
    · next hn => exact ⟨View.le_refl _, Or.inr (Or.inl ⟨rfl, Option.ne_none_iff_exists'.mp fun e => hn e⟩)⟩
    next a b _ =>
    refine wlp_deref fun c _ => wlp_deref fun d _ => ?_
    rcases compareP c.pfx d.pfx with ⟨res, rev, common, child⟩
    have sup : wlp (fun x v' => v ≤ v' ∧ (x = some a ∨ (x = some b ∧ ∃ b', some b = some b') ∨ Fresh v x))
        (let (super, sub) := if rev then ((d, some b), some a) else ((c, some a), some b)
          if super.1.active then pure super.2
          else if child then do
            let right ← union F super.1.r sub
            newFlat super.1.pfx super.1.l right
          else do
            let left ← union F super.1.l sub
            newFlat super.1.pfx left super.1.r) v W := by
      have one : ∀ (e : Cell α Empty) (x y z : Ptr) (w1 w2 : Ptr), (x = w1 ∨ (x = w2 ∧ ∃ b, w2 = some b)) →
          wlp (fun x v' => v ≤ v' ∧ (x = w1 ∨ (x = w2 ∧ ∃ b, w2 = some b) ∨ Fresh v x))
          (if e.active then pure x
          else if child then do
            let right ← union F e.r y
            newFlat e.pfx e.l right
          else do
            let left ← union F e.l y
            newFlat e.pfx left e.r) v W := by
        intro e x y z w1 w2 hx
        split
        · exact ⟨View.le_refl _, hx.imp id Or.inl⟩
        · split
          · exact wlp_call (ih _ _ _ _) fun _ _ _ h => flat h.1
          · exact wlp_call (ih _ _ _ _) fun _ _ _ h => flat h.1
      cases rev
      · exact one c _ _ none _ _ (Or.inl rfl)
      · exact one d _ _ none _ _ (Or.inr ⟨rfl, b, rfl⟩)
    cases res with
    | same =>
      simp only
      split
      · exact ⟨View.le_refl _, Or.inl rfl⟩
      · split
        · exact ⟨View.le_refl _, Or.inr (Or.inl ⟨rfl, b, rfl⟩)⟩
        · refine wlp_call (ih _ _ _ _) fun l v1 W1 h1 => wlp_call (ih _ _ _ _) fun r v2 W2 h2 => ?_
          split
          · exact ⟨View.le_trans h1.1 h2.1, Or.inl rfl⟩
          · exact flat (View.le_trans h1.1 h2.1)
    | disjoint =>
      simp only
      split
      · exact flat (View.le_refl _)
      · exact flat (View.le_refl _)
    | contains => exact sup
    | isContained => exact sup

theorem wlp_fromPrefix {p : Prefix α} {v : View α Empty} {W : Nat → Prop} :
    wlp (fun x v' => v ≤ v' ∧ Fresh v x ∧ ∃ a c, x = some a ∧ v' a = some c ∧ c.l = none ∧ c.r = none)
      (fromPrefix p) v W := by
  intro n hn
  exact ⟨View.le_set_fresh hn, ⟨n, rfl, hn⟩, n, _, rfl, View.set_same _ _ _, rfl, rfl⟩

/-- `setNodeFromRange` returns a new node -/
theorem wlp_fromRange : ∀ (F : Nat) (r : Range α) (v : View α Empty) (W : Nat → Prop),
    wlp (fun x v' => v ≤ v' ∧ Fresh v x) (fromRange F r) v W := by
  intro F
  induction F with
  | zero => intro r v W; trivial
  | succ F ih =>
    intro r v W
    unfold fromRange
    simp only
    split
    · exact wlp_mono wlp_fromPrefix fun b v' h => ⟨h.1, h.2.1⟩
    · refine wlp_call (ih _ _ _) fun a v1 W1 h1 => wlp_call (ih _ _ _) fun b v2 W2 h2 => ?_
      refine wlp_mono (wlp_union _ _ _ _ _) fun x v3 h3 => ?_
      refine ⟨View.le_trans h1.1 (View.le_trans h2.1 h3.1), ?_⟩
      rcases h3.2 with rfl | ⟨rfl, _⟩ | h
      · exact h1.2
      · exact h2.2.anti h1.1
      · exact h.anti (View.le_trans h1.1 h2.1)

/-- a set of nodes of the view that has their children and nil -/
structure Closed (v : View α D) (S : Ptr → Prop) : Prop where
  nil : S none
  dom : ∀ a, S (some a) → ∃ c, v a = some c
  left : ∀ a c, S (some a) → v a = some c → S c.l
  right : ∀ a c, S (some a) → v a = some c → S c.r

theorem Closed.mono {v v' : View α D} (le : v ≤ v') {S : Ptr → Prop} (h : Closed v S) : Closed v' S := by
  refine ⟨h.nil, ?_, ?_, ?_⟩
  · intro a ha
    obtain ⟨c, hc⟩ := h.dom a ha
    exact ⟨c, le _ _ hc⟩
  · intro a c ha hc
    obtain ⟨c', hc'⟩ := h.dom a ha
    rw [le _ _ hc'] at hc
    cases hc
    exact h.left a _ ha hc'
  · intro a c ha hc
    obtain ⟨c', hc'⟩ := h.dom a ha
    rw [le _ _ hc'] at hc
    cases hc
    exact h.right a _ ha hc'

theorem Closed.leaf {v : View α D} {a : Nat} {c : Cell α D} (h : v a = some c) (hl : c.l = none) (hr : c.r = none) :
    Closed v (fun x => x = none ∨ x = some a) := by
  refine ⟨Or.inl rfl, ?_, ?_, ?_⟩
  · rintro b (hb | hb) <;> cases hb
    exact ⟨c, h⟩
  · rintro b c' (hb | hb) hc <;> cases hb
    rw [h] at hc; cases hc; exact Or.inl hl
  · rintro b c' (hb | hb) hc <;> cases hb
    rw [h] at hc; cases hc; exact Or.inl hr

/-- `Difference` returns nil, the receiver, a node below the receiver or a new node -/
theorem wlp_difference : ∀ (F : Nat) (p q : Ptr) (v : View α Empty) (W : Nat → Prop) (S : Ptr → Prop), Closed v S → S p →
    wlp (fun x v' => v ≤ v' ∧ (S x ∨ Fresh v x)) (difference F p q) v W := by
  intro F
  induction F with
  | zero => intro p q v W S hS hp; trivial
  | succ F ih =>
    intro p q v W S hS hp
    unfold difference
    split
    · exact ⟨View.le_refl _, Or.inl hS.nil⟩
    · exact ⟨View.le_refl _, Or.inl hp⟩
    next a b =>
    refine wlp_deref fun c hc => wlp_deref fun d _ => ?_
    have join : ∀ (x y : Ptr) (v' : View α Empty) (W' : Nat → Prop), v ≤ v' → (S x ∨ Fresh v x) → (S y ∨ Fresh v y) →
        wlp (fun x v' => v ≤ v' ∧ (S x ∨ Fresh v x)) (union F x y) v' W' := by
      intro x y v' W' le hx hy
      refine wlp_mono (wlp_union _ _ _ _ _) fun z v2 h => ⟨View.le_trans le h.1, ?_⟩
      rcases h.2 with rfl | ⟨rfl, _⟩ | h
      · exact hx
      · exact hy
      · exact Or.inr (h.anti le)
    have half : ∀ (x : Ptr) (e : Ptr) (v' : View α Empty) (W' : Nat → Prop), v ≤ v' → Fresh v x →
        (∃ a c, x = some a ∧ v' a = some c ∧ c.l = none ∧ c.r = none) →
        wlp (fun x v'' => v' ≤ v'' ∧ (S x ∨ Fresh v x)) (difference F x e) v' W' := by
      rintro x e v' W' le hx ⟨a, c, rfl, h1, h2, h3⟩
      refine wlp_mono (ih _ _ _ _ _ (Closed.leaf h1 h2 h3) (Or.inr rfl)) fun z v2 h => ⟨h.1, ?_⟩
      rcases h.2 with (rfl | rfl) | h
      · exact Or.inl hS.nil
      · exact Or.inr hx
      · exact Or.inr (h.anti le)
    have inner : wlp (fun x v' => v ≤ v' ∧ (S x ∨ Fresh v x)) (do
        let left ← difference F c.l (some b)
        let right ← difference F c.r (some b)
        if left = c.l && right = c.r then pure (some a) else union F left right) v W := by
      refine wlp_call (ih _ _ _ _ S hS (hS.left a c hp hc)) fun x v1 W1 h1 => ?_
      refine wlp_call (ih _ _ _ _ S (hS.mono h1.1) (hS.right a c hp hc)) fun y v2 W2 h2 => ?_
      have le := View.le_trans h1.1 h2.1
      split
      · exact ⟨le, Or.inl hp⟩
      · exact join _ _ _ _ le h1.2 (h2.2.imp id fun h => h.anti h1.1)
    rcases compareP c.pfx d.pfx with ⟨res, rev, common, child⟩
    cases res with
    | isContained =>
      simp only
      split
      · exact ⟨View.le_refl _, Or.inl hS.nil⟩
      · exact ih _ _ _ _ S hS hp
    | disjoint => exact ⟨View.le_refl _, Or.inl hp⟩
    | same =>
      simp only
      split
      · exact inner
      · split
        · exact ⟨View.le_refl _, Or.inl hS.nil⟩
        · refine wlp_call wlp_fromPrefix fun x v1 W1 h1 => wlp_call wlp_fromPrefix fun y v2 W2 h2 => ?_
          obtain ⟨a1, c1, rfl, g1, g2, g3⟩ := h1.2.2
          refine wlp_call (half _ _ _ _ (View.le_trans h1.1 h2.1) h1.2.1 ⟨a1, c1, rfl, h2.1 _ _ g1, g2, g3⟩) fun x' v3 W3 h3 => ?_
          obtain ⟨a2, c2, rfl, k1, k2, k3⟩ := h2.2.2
          refine wlp_call (half _ _ _ _ (View.le_trans h1.1 (View.le_trans h2.1 h3.1)) (h2.2.1.anti h1.1)
            ⟨a2, c2, rfl, h3.1 _ _ k1, k2, k3⟩) fun y' v4 W4 h4 => ?_
          exact join _ _ _ _ (View.le_trans h1.1 (View.le_trans h2.1 (View.le_trans h3.1 h4.1))) h3.2 h4.2
    | contains =>
      simp only
      split
      · exact inner
      · refine wlp_call wlp_fromPrefix fun x v1 W1 h1 => wlp_call wlp_fromPrefix fun y v2 W2 h2 => ?_
        obtain ⟨a1, c1, rfl, g1, g2, g3⟩ := h1.2.2
        obtain ⟨a2, c2, rfl, k1, k2, k3⟩ := h2.2.2
        have le := View.le_trans h1.1 h2.1
        cases child with
        | true =>
          refine wlp_call (half _ _ _ _ le (h2.2.1.anti h1.1) ⟨a2, c2, rfl, k1, k2, k3⟩) fun x' v3 W3 h3 => ?_
          exact join _ _ _ _ (View.le_trans le h3.1) (Or.inr h1.2.1) h3.2
        | false =>
          refine wlp_call (half _ _ _ _ le h1.2.1 ⟨a1, c1, rfl, h2.1 _ _ g1, g2, g3⟩) fun x' v3 W3 h3 => ?_
          exact join _ _ _ _ (View.le_trans le h3.1) (Or.inr (h2.2.1.anti h1.1)) h3.2

/-- nil, `p` and the nodes below `p` -/
inductive Desc (v : View α D) (p : Ptr) : Ptr → Prop
  | nil : Desc v p none
  | self : Desc v p p
  | left {a c} : Desc v p (some a) → v a = some c → Desc v p c.l
  | right {a c} : Desc v p (some a) → v a = some c → Desc v p c.r

theorem Desc.mono {v v' : View α D} (le : v ≤ v') {p q : Ptr} (h : Desc v p q) : Desc v' p q := by
  induction h with
  | nil => exact .nil
  | self => exact .self
  | left _ hc ih => exact .left ih (le _ _ hc)
  | right _ hc ih => exact .right ih (le _ _ hc)

/-- what lies below a node denotes something -/
theorem Desc.den {v : View α D} {p q : Ptr} (h : Desc v p q) {t : Trie α D} (d : Den v p t) : ∃ u, Den v q u := by
  induction h with
  | nil => exact ⟨_, .nil⟩
  | self => exact ⟨_, d⟩
  | left _ hc ih =>
    obtain ⟨u, hu⟩ := ih
    obtain ⟨c, l, r, h1, h2, h3, _⟩ := hu.some_inv
    rw [h1] at hc; cases hc; exact ⟨_, h2⟩
  | right _ hc ih =>
    obtain ⟨u, hu⟩ := ih
    obtain ⟨c, l, r, h1, h2, h3, _⟩ := hu.some_inv
    rw [h1] at hc; cases hc; exact ⟨_, h3⟩

theorem Desc.closed {v : View α D} {p : Ptr} {t : Trie α D} (d : Den v p t) : Closed v (Desc v p) where
  nil := .nil
  dom a ha := by
    obtain ⟨u, hu⟩ := ha.den d
    obtain ⟨c, _, _, h1, _⟩ := hu.some_inv
    exact ⟨c, h1⟩
  left a c ha hc := .left ha hc
  right a c ha hc := .right ha hc

end Heap
end Addrs

import Verif.HeapRead
import Verif.HeapShare
import Verif.TableOps
/-
  The heap code of node.go that changes tables computes what the functions on trees compute.
-/
set_option linter.unusedSectionVars false
namespace Addrs
open GoWord LawfulGoWord
namespace Prog
variable {α D β : Type}

theorem View.set_comm (v : View α D) {n m : Nat} (h : n ≠ m) (c d : Cell α D) :
    (v.set n c).set m d = (v.set m d).set n c := by
  funext k
  unfold View.set
  by_cases h1 : k = m
  · subst h1; simp [Ne.symm h]
  · simp [h1]

/-- a node that a program does not know about changes nothing -/
theorem wp_extend {st : Prop} {Q : β → View α D → Prop} {P : Prog α D β} {v : View α D}
    {W : Nat → Prop} {n : Nat} {c : Cell α D} (hn : v n = none) (h : wp st Q P v W) :
    wp st (fun b v' => ∃ v1, v1 n = none ∧ v' = v1.set n c ∧ Q b v1) P (v.set n c) W := by
  induction P generalizing v W with
  | ret b => exact ⟨v, hn, rfl, h⟩
  | panic => exact h
  | stuck => exact h
  | alloc d k ih =>
    intro m hm
    have hne : n ≠ m := by rintro rfl; simp at hm
    rw [View.set_ne _ _ hne.symm] at hm
    rw [View.set_comm _ hne]
    exact ih m (by rw [View.set_ne _ _ hne]; exact hn) (h m hm)
  | read p k ih =>
    obtain ⟨d, hd, h⟩ := h
    refine ⟨d, ?_, ih d hn h⟩
    rw [View.set_ne]
    · exact hd
    · rintro rfl; rw [hn] at hd; cases hd
  | write p d k ih =>
    obtain ⟨h1, ⟨d0, h2⟩, h3⟩ := h
    have hne : p ≠ n := by rintro rfl; rw [hn] at h2; cases h2
    refine ⟨h1, ⟨d0, ?_⟩, ?_⟩
    · rw [View.set_ne _ _ hne]; exact h2
    · rw [View.set_comm _ hne.symm]
      exact ih (by rw [View.set_ne _ _ hne.symm]; exact hn) h3
  | load o k ih => exact h.elim
  | cas o old new k ih => exact h.elim
  | newObj ob k ih => exact h.elim

end Prog

namespace Heap
open Prog
variable {α : Type} [LawfulGoWord α]
variable {st : Prop} {β D : Type}

/-- the fields after `mutate` has computed `size` and `h` -/
def sized (c : Cell α D) (l r : Trie α D) : Cell α D :=
  { c with
    size := if c.active then ((l.numNodes + r.numNodes) % 2 ^ 32 + 1) % 2 ^ 32
      else (l.numNodes + r.numNodes) % 2 ^ 32
    h := (1 + max l.height r.height) % 2 ^ 16 }

/-- in-place mutation of a new node, with any mutator -/
theorem wp_mutate {τ : Type} {Q : τ → View α D → Prop} {n : Nat} {c : Cell α D}
    {Qm : Cell α D × τ → Trie α D → Trie α D → Prop}
    {m : Cell α D → Prog α D (Cell α D × τ)} {v : View α D} {W : Nat → Prop}
    (hn : v n = none) (hW : W n)
    (hm : wp st (fun y v' => ∃ l r, Den v' y.1.l l ∧ Den v' y.1.r r ∧ Qm y l r) (m c) v Nowhere)
    (hQ : ∀ y l r v', v ≤ v' → v' n = none → Qm y l r → Den v' y.1.l l → Den v' y.1.r r →
      Q y.2 (v'.set n (sized y.1 l r))) :
    wp st Q (mutate n m) (v.set n c) W := by
  unfold mutate
  refine wp_deref (View.set_same _ _ _) ?_
  refine wp_bind ?_
  refine wp_mono (W := Nowhere) (fun _ h => h.elim) ?_ (wp_extend hn (wp_frame hm))
  rintro y _ ⟨v', hn', rfl, ⟨l, r, hl, hr, hq⟩, hle⟩
  have le : v ≤ v' := fun n c e => hle n c id e
  refine wp_store hW (View.set_same _ _ _) ?_
  rw [View.set_set]
  have hl' := hl.mono (View.le_set_fresh (c := y.1) hn')
  have hr' := hr.mono (View.le_set_fresh (c := y.1) hn')
  refine wp_numNodes hl' (wp_numNodes hr' (wp_height hl' (wp_height hr' ?_)))
  refine wp_store hW (View.set_same _ _ _) ?_
  rw [View.set_set]
  exact hQ y l r v' le hn' hq hl hr

/-- the node written by `mutate` -/
theorem den_sized {v : View α D} {n : Nat} {c : Cell α D} {l r : Trie α D} (hn : v n = none)
    (hl : Den v c.l l) (hr : Den v c.r r) :
    Den (v.set n (sized c l r)) (some n) (Trie.mk c.pfx c.data c.active l r) :=
  Den.node (c := sized c l r) (View.set_same _ _ _) (hl.mono (View.le_set_fresh hn))
    (hr.mono (View.le_set_fresh hn))

/-- `mutate` of a new node, if the mutator only computes the new fields -/
theorem wp_mutate_pure {τ : Type} {Q : τ → View α D → Prop} {n : Nat} {c c' : Cell α D} {x : τ}
    {m : Cell α D → Prog α D (Cell α D × τ)} {v : View α D} {W : Nat → Prop} {l r : Trie α D}
    (hn : v n = none) (hW : W n) (hm : m c = pure (c', x)) (hl : Den v c'.l l) (hr : Den v c'.r r)
    (hQ : ∀ v1, v ≤ v1 → Den v1 (some n) (Trie.mk c'.pfx c'.data c'.active l r) →
      v1 n = some (sized c' l r) → Q x v1) :
    wp st Q (mutate n m) (v.set n c) W := by
  refine wp_mutate (Qm := fun y l' r' => y = (c', x) ∧ l' = l ∧ r' = r) hn hW ?_ ?_
  · rw [hm]; exact ⟨l, r, hl, hr, rfl, rfl, rfl⟩
  · rintro y l' r' v' le hn' ⟨rfl, rfl, rfl⟩ hl' hr'
    exact hQ _ (View.le_trans le (View.le_set_fresh hn')) (den_sized hn' hl' hr') (View.set_same _ _ _)

/-- `*a == *b` -/
def sameCell [Total D] (a b : Cell α D) : Bool :=
  decide (a.pfx = b.pfx) && isame a.data b.data && decide (a.size = b.size) && decide (a.h = b.h) &&
    decide (a.active = b.active) && decide (a.l = b.l) && decide (a.r = b.r)

theorem sameCell_eq [Comparable D] (a b : Cell α D) : sameCell a b = decide (a = b) := by
  unfold sameCell
  rw [isame_eq]
  cases a; cases b
  simp only [Cell.mk.injEq, Bool.and_assoc]
  simp only [← Bool.decide_and]

theorem sameCell_data [Total D] {a b : Cell α D} (h : sameCell a b = true) (hd : a.data = b.data) : a = b := by
  unfold sameCell at h
  simp only [Bool.and_eq_true, decide_eq_true_eq] at h
  obtain ⟨⟨⟨⟨⟨⟨h1, _⟩, h2⟩, h3⟩, h4⟩, h5⟩, h6⟩ := h
  cases a; cases b
  simp only at h1 h2 h3 h4 h5 h6 hd
  subst h1 h2 h3 h4 h5 h6 hd
  rfl

theorem wp_structSame [Total D] {Q : β → View α D → Prop} {a b : Cell α D} {f : Bool → Prog α D β}
    {v : View α D} {W : Nat → Prop} (h : wp st Q (f (sameCell a b)) v W) :
    wp st Q (structEq a b >>= f) v W := by
  have e : structEq a b = (pure (sameCell a b) : Prog α D Bool) := by
    unfold structEq sameCell
    split
    · next hne =>
      have : a.pfx ≠ b.pfx := hne
      simp [this]
    · next he =>
      rw [ifaceEq_isame]
      simp only [ne_eq, Decidable.not_not] at he
      show (pure _ : Prog α D Bool) = _
      congr 1
      simp [he]
  rw [e]
  exact h

theorem wp_structEq [Comparable D] {Q : β → View α D → Prop} {a b : Cell α D} {f : Bool → Prog α D β}
    {v : View α D} {W : Nat → Prop} (h : wp st Q (f (decide (a = b))) v W) :
    wp st Q (structEq a b >>= f) v W :=
  wp_structSame (by rw [sameCell_eq]; exact h)

/-- What keeps `copyMutate` from losing a change: if `==` sees no difference between the new value and the old
    one, there is none. -/
def Keeps [Total D] (d e : Option D) : Prop := isame d e = true → d = e

theorem Keeps.rfl [Total D] {d : Option D} : Keeps d d := fun _ => Eq.refl d
theorem Keeps.none [Total D] {d : Option D} : Keeps Option.none d := by
  intro h
  cases d with
  | none => exact Eq.refl _
  | some d => cases h
theorem Keeps.all [Comparable D] {d e : Option D} : Keeps d e := by
  intro h
  rw [isame_eq] at h
  exact of_decide_eq_true h

/-- `copyMutate`: the result is the node itself if `==` sees no change, and a new node otherwise -/
theorem wp_copyMutate_same [Total D] {τ : Type} {Q : Ptr × τ → View α D → Prop} {me : Nat} {c : Cell α D}
    {Qm : Cell α D × τ → Trie α D → Trie α D → Prop}
    {m : Cell α D → Prog α D (Cell α D × τ)} {v : View α D} {W : Nat → Prop} (hme : v me = some c)
    (hm : wp st (fun y v' => ∃ l r, Den v' y.1.l l ∧ Den v' y.1.r r ∧ Qm y l r) (m c) v Nowhere)
    (hk : ∀ y l r, Qm y l r → Keeps y.1.data c.data)
    (hQ : ∀ y l r v' p, v ≤ v' → Qm y l r → Den v' y.1.l l → Den v' y.1.r r →
      Den v' p (Trie.mk y.1.pfx y.1.data y.1.active l r) →
      (p = some me ∧ sized y.1 l r = c) ∨ (sameCell (sized y.1 l r) c = false ∧ ∃ n, p = some n ∧ v n = none) →
      (∃ n, p = some n ∧ v' n = some (sized y.1 l r)) → Q (p, y.2) v') :
    wp st Q (copyMutate me m) v W := by
  unfold copyMutate
  refine wp_deref hme ?_
  refine wp_new fun n hn => ?_
  refine wp_bind ?_
  refine wp_mutate (Qm := Qm) hn (Or.inl rfl) hm ?_
  intro y l r v' le hn' hq hl hr
  have hne : me ≠ n := by rintro rfl; rw [hn] at hme; cases hme
  have le' : v ≤ v'.set n (sized y.1 l r) := View.le_trans le (View.le_set_fresh hn')
  refine wp_deref (View.set_same _ _ _) ?_
  refine wp_deref (le' _ _ hme) ?_
  refine wp_structSame ?_
  have hl' := hl.mono (View.le_set_fresh (c := sized y.1 l r) hn')
  have hr' := hr.mono (View.le_set_fresh (c := sized y.1 l r) hn')
  cases hs : sameCell (sized y.1 l r) c with
  | true =>
    have he : sized y.1 l r = c := by
      refine sameCell_data hs (hk y l r hq ?_)
      unfold sameCell at hs
      simp only [Bool.and_eq_true] at hs
      exact hs.1.1.1.1.1.2
    simp only [if_true]
    rw [he] at hl' hr' le'
    refine hQ y l r _ _ (by rw [he]; exact le') hq (by rw [he]; exact hl') (by rw [he]; exact hr') ?_ (Or.inl ⟨rfl, he⟩)
      ⟨me, rfl, by rw [he]; exact le' _ _ hme⟩
    subst he
    exact Den.node (c := sized y.1 l r) (le' _ _ hme) hl' hr'
  | false =>
    simp only [Bool.false_eq_true, if_false]
    exact hQ y l r _ _ le' hq hl' hr' (den_sized hn' hl hr) (Or.inr ⟨hs, n, rfl, hn⟩)
      ⟨n, rfl, View.set_same _ _ _⟩

/-- `copyMutate` with a mutator that only computes the new fields -/
theorem wp_copyMutate_keep [Total D] {τ : Type} {Q : Ptr × τ → View α D → Prop} {me : Nat}
    {c c' : Cell α D} {x : τ} {l r : Trie α D}
    {m : Cell α D → Prog α D (Cell α D × τ)} {v : View α D} {W : Nat → Prop} (hme : v me = some c)
    (hm : m c = pure (c', x)) (hk : Keeps c'.data c.data) (hl : Den v c'.l l) (hr : Den v c'.r r)
    (hQ : ∀ v' p, v ≤ v' → Den v' p (Trie.mk c'.pfx c'.data c'.active l r) →
      (p = some me ∧ sized c' l r = c) ∨ (∃ n, p = some n ∧ v n = none) →
      (∃ n, p = some n ∧ v' n = some (sized c' l r)) → Q (p, x) v') :
    wp st Q (copyMutate me m) v W := by
  refine wp_copyMutate_same (Qm := fun y l' r' => y = (c', x) ∧ l' = l ∧ r' = r) hme ?_ ?_ ?_
  · rw [hm]; exact ⟨l, r, hl, hr, rfl, rfl, rfl⟩
  · rintro y l' r' ⟨rfl, rfl, rfl⟩
    exact hk
  · rintro y l' r' v' p le ⟨rfl, rfl, rfl⟩ hl' hr' hd hp hc
    exact hQ v' p le hd (hp.imp id fun h => h.2) hc

/-- `copyMutate` with a mutator that only computes the new fields: if `==` sees no difference, the result is the
    node itself, with the old fields -/
theorem wp_copyMutate_total [Total D] {τ : Type} {Q : Ptr × τ → View α D → Prop} {me : Nat}
    {c c' : Cell α D} {x : τ} {l r : Trie α D}
    {m : Cell α D → Prog α D (Cell α D × τ)} {v : View α D} {W : Nat → Prop} (hme : v me = some c)
    (hm : m c = pure (c', x)) (hl : Den v c'.l l) (hr : Den v c'.r r)
    (hQ : ∀ v' p, v ≤ v' → (sameCell (sized c' l r) c = true ∧ p = some me) ∨
      (sameCell (sized c' l r) c = false ∧ Den v' p (Trie.mk c'.pfx c'.data c'.active l r) ∧ ∃ n, p = some n ∧ v n = none) →
      Q (p, x) v') :
    wp st Q (copyMutate me m) v W := by
  unfold copyMutate
  refine wp_deref hme ?_
  refine wp_new fun n hn => ?_
  refine wp_bind ?_
  refine wp_mutate (Qm := fun y l' r' => y = (c', x) ∧ l' = l ∧ r' = r) hn (Or.inl rfl) (by rw [hm]; exact ⟨l, r, hl, hr, rfl, rfl, rfl⟩) ?_
  rintro y l' r' v' le hn' ⟨rfl, rfl, rfl⟩ hl hr
  have le' : v ≤ v'.set n (sized c' l' r') := View.le_trans le (View.le_set_fresh hn')
  refine wp_deref (View.set_same _ _ _) ?_
  refine wp_deref (le' _ _ hme) ?_
  refine wp_structSame ?_
  cases hs : sameCell (sized c' l' r') c with
  | true => exact hQ _ _ le' (Or.inl ⟨hs, rfl⟩)
  | false =>
    simp only [hs, Bool.false_eq_true, if_false]
    exact hQ _ _ le' (Or.inr ⟨hs, den_sized hn' hl hr, n, rfl, hn⟩)

/-- `copyMutate`: the result is the node itself if nothing changed, and a new node otherwise -/
theorem wp_copyMutate [Comparable D] {τ : Type} {Q : Ptr × τ → View α D → Prop} {me : Nat} {c : Cell α D}
    {Qm : Cell α D × τ → Trie α D → Trie α D → Prop}
    {m : Cell α D → Prog α D (Cell α D × τ)} {v : View α D} {W : Nat → Prop} (hme : v me = some c)
    (hm : wp st (fun y v' => ∃ l r, Den v' y.1.l l ∧ Den v' y.1.r r ∧ Qm y l r) (m c) v Nowhere)
    (hQ : ∀ y l r v' p, v ≤ v' → Qm y l r → Den v' y.1.l l → Den v' y.1.r r →
      Den v' p (Trie.mk y.1.pfx y.1.data y.1.active l r) →
      (p = some me ∧ sized y.1 l r = c) ∨ (sized y.1 l r ≠ c ∧ ∃ n, p = some n ∧ v n = none) →
      Q (p, y.2) v') :
    wp st Q (copyMutate me m) v W :=
  wp_copyMutate_same hme hm (fun _ _ _ _ => .all) fun y l r v' p h1 h2 h3 h4 h5 h6 _ => hQ y l r v' p h1 h2 h3 h4 h5
    (h6.imp id fun h => ⟨fun e => by rw [sameCell_eq, decide_eq_false_iff_not] at h; exact h.1 e, h.2⟩)

/-- `copyMutate` with a mutator that only computes the new fields -/
theorem wp_copyMutate_pure [Comparable D] {τ : Type} {Q : Ptr × τ → View α D → Prop} {me : Nat}
    {c c' : Cell α D} {x : τ} {l r : Trie α D}
    {m : Cell α D → Prog α D (Cell α D × τ)} {v : View α D} {W : Nat → Prop} (hme : v me = some c)
    (hm : m c = pure (c', x)) (hl : Den v c'.l l) (hr : Den v c'.r r)
    (hQ : ∀ v' p, v ≤ v' → Den v' p (Trie.mk c'.pfx c'.data c'.active l r) →
      (p = some me ∧ sized c' l r = c) ∨ (sized c' l r ≠ c ∧ ∃ n, p = some n ∧ v n = none) →
      Q (p, x) v') :
    wp st Q (copyMutate me m) v W := by
  refine wp_copyMutate (Qm := fun y l' r' => y = (c', x) ∧ l' = l ∧ r' = r) hme ?_ ?_
  · rw [hm]; exact ⟨l, r, hl, hr, rfl, rfl, rfl⟩
  · rintro y l' r' v' p le ⟨rfl, rfl, rfl⟩ hl' hr' hd hp
    exact hQ v' p le hd hp

/-- what `insert` returns, in terms of the function on trees; `n0` is the new node -/
def InsertPost (k : Prefix α) (t : Trie α D) (v : View α D) (n0 : Nat) (upd : Bool) (d : Option D) (p : Ptr)
    (res : Option (Trie α D)) (x : Ptr × Bool) (v' : View α D) : Prop :=
  v ≤ v' ∧ match res with
    | none => x = (p, true)
    | some t' => x.2 = false ∧ Den v' x.1 t' ∧ (∃ a, x.1 = some a ∧ v a = none) ∧
        (∃ c, v' n0 = some c ∧ (upd = false → c.data = d)) ∧ (k.WF → t.TInv → Shares v' k p x.1)

theorem none_of_le {v v' : View α D} (le : v ≤ v') {n : Nat} (h : v' n = none) : v n = none := by
  cases hv : v n with
  | none => rfl
  | some c => rw [le _ _ hv] at h; cases h

theorem insert_nil {o : Trie.InsertOpts D} {k : Prefix α} {d : Option D} :
    Trie.insert o k d .nil = if !o.ins then none else some (Trie.mk k d true .nil .nil) := by
  rw [Trie.insert]

/-- `insert`: `n0` is the new node.  On success the result is a new node. -/
theorem wp_insert [Total D] {oh : InsertOpts D} {ov : Trie.InsertOpts D} {k : Prefix α} {d : Option D}
    (h1 : oh.insert = ov.ins) (h2 : oh.update = ov.upd) {n0 : Nat} : ∀ (F : Nat) {t : Trie α D},
    t.deep < F → (∀ x, x ∈ t.entries → oh.update = true → oh.eq x.2 d = some (ov.eq x.2 d)) →
    ∀ {v : View α D} {p : Ptr} {W : Nat → Prop}, v n0 = none → W n0 → Den v p t →
    wp st (InsertPost k t v n0 ov.upd d p (Trie.insert ov k d t)) (insert oh n0 F p) (v.set n0 (freshCell k d)) W := by
  intro F
  induction F with
  | zero => intro t h; omega
  | succ F ih =>
    intro t hF hEq v p W hn hW dt
    have le0 : v ≤ v.set n0 (freshCell k d) := View.le_set_fresh hn
    cases dt with
    | nil =>
      unfold insert
      rw [insert_nil, ← h1]
      cases oh.insert with
      | false => exact ⟨le0, rfl⟩
      | true =>
        simp only [Bool.not_true, Bool.false_eq_true, if_false]
        refine wp_bind ?_
        refine wp_mutate_pure (c' := { freshCell k d with active := true }) hn hW rfl Den.nil Den.nil ?_
        intro v1 le hd hc
        exact ⟨le, rfl, hd, ⟨n0, rfl, hn⟩, ⟨_, hc, fun _ => rfl⟩,
          fun _ _ => .up_left hc (SubEq.refl _) (.refl _ _ _) (.refl _ _ _)⟩
    | @node a c l r ha dl dr =>
    simp only [Trie.deep] at hF
    have hcases : k.WF → (Trie.node c.pfx c.data c.size c.h c.active l r).TInv → _ := fun hk hi =>
      compareP_cases hi.inv.1 hk
    unfold insert
    refine wp_deref (le0 _ _ ha) (wp_deref (View.set_same _ _ _) ?_)
    rw [Trie.insert]
    simp only [show (freshCell k d).pfx = k from rfl]
    rcases hcmp : compareP c.pfx k with ⟨res, rev, common, child⟩
    cases res with
    | same =>
      have hsame : k.WF → (Trie.node c.pfx c.data c.size c.h c.active l r).TInv → SubEq c.pfx k := by
        intro hk hi
        rcases hcases hk hi with ⟨h, e⟩ | ⟨_, _, e⟩ | ⟨_, _, e⟩ | ⟨_, _, _, _, _, _, _, _, _, e⟩ <;> rw [hcmp] at e <;> cases e
        exact h.subEq
      simp only [← h1, ← h2]
      cases hact : c.active with
      | true =>
        cases hu : oh.update with
        | false => exact ⟨le0, rfl⟩
        | true =>
          simp only [Bool.not_true, Bool.false_and, Bool.and_false, Bool.false_eq_true, if_false,
            if_true, Bool.true_and]
          have he := hEq (c.pfx, c.data) (Trie.mem_node.mpr (Or.inl ⟨hact, rfl⟩)) hu
          simp only at he
          refine wp_bind ?_
          refine wp_mutate_pure (c' := { freshCell k d with
            data := if ov.eq c.data d then c.data else d, l := c.l, r := c.r, active := true }) (x := ()) hn hW ?_
            dl dr ?_
          · have : oh.eq c.data (freshCell k d).data = some (ov.eq c.data d) := he
            rw [this]
            cases ov.eq c.data d <;> rfl
          · intro v1 le hd hc
            exact ⟨le, rfl, hd, ⟨n0, rfl, hn⟩, ⟨_, hc, fun h => by cases h⟩, fun hk hi =>
              .cons (le _ _ ha) hc (hsame hk (by rw [hact]; exact hi)) (SubEq.refl _) (.refl _ _ _) (.refl _ _ _)⟩
      | false =>
        cases hi : oh.insert with
        | false => exact ⟨le0, rfl⟩
        | true =>
          simp only [Bool.not_true, Bool.false_and, Bool.and_false, Bool.false_eq_true, if_false]
          refine wp_bind ?_
          refine wp_mutate_pure (c' := { freshCell k d with
            l := c.l, r := c.r, active := true }) hn hW rfl dl dr ?_
          intro v1 le hd hc
          exact ⟨le, rfl, hd, ⟨n0, rfl, hn⟩, ⟨_, hc, fun _ => rfl⟩, fun hk hi =>
            .cons (le _ _ ha) hc (hsame hk (by rw [hact]; exact hi)) (SubEq.refl _) (.refl _ _ _) (.refl _ _ _)⟩
    | contains =>
      have hcon : k.WF → (Trie.node c.pfx c.data c.size c.h c.active l r).TInv → SubEq c.pfx k := by
        intro hk hi
        rcases hcases hk hi with ⟨_, e⟩ | ⟨_, h, e⟩ | ⟨_, _, e⟩ | ⟨_, _, _, _, _, _, _, _, _, e⟩ <;> rw [hcmp] at e <;> cases e
        exact h.subEq
      simp only
      have hsub : wp st (InsertPost k (if child then r else l) v n0 ov.upd d (Cell.child c child) (Trie.insert ov k d (if child then r else l)))
          (insert oh n0 F (Cell.child c child)) (v.set n0 (freshCell k d)) W := by
        cases child with
        | true => exact ih (t := r) (by omega)
                    (fun x hx => hEq x (Trie.mem_node.mpr (Or.inr (Or.inr hx)))) hn hW dr
        | false => exact ih (t := l) (by omega)
                    (fun x hx => hEq x (Trie.mem_node.mpr (Or.inr (Or.inl hx)))) hn hW dl
      refine wp_bind (wp_mono (fun _ h => h) ?_ hsub)
      rintro ⟨x, err⟩ v1 ⟨le1, hx⟩
      cases child with
      | true =>
        simp only [if_true] at hx ⊢
        cases hr : Trie.insert ov k d r with
        | none =>
          rw [hr] at hx
          cases hx
          exact ⟨le1, rfl⟩
        | some r' =>
          rw [hr] at hx
          obtain ⟨e1, d1, ⟨b, rfl, hb⟩, ⟨c0, hc0, hc1⟩, hsh⟩ := hx
          subst e1
          simp only [Bool.false_eq_true, if_false]
          refine wp_bind ?_
          refine wp_copyMutate_keep (c' := Cell.setChild c true (some b)) (x := ()) (le1 _ _ ha) rfl .rfl (l := l)
            (r := r') (dl.mono le1) d1 ?_
          intro v2 p2 le2 hd hp hcell
          refine ⟨View.le_trans le1 le2, rfl, hd, ?_, ⟨c0, le2 _ _ hc0, hc1⟩, fun hk hi => ?_⟩
          case refine_2 =>
            obtain ⟨n, rfl, hc⟩ := hcell
            exact .cons (le2 _ _ (le1 _ _ ha)) hc (hcon hk hi) (hcon hk hi) (.refl _ _ _)
              ((hsh hk hi.inv.2.2.2.2.1).mono le2 (dr.mono le1) d1)
          rcases hp with ⟨rfl, he⟩ | ⟨n, rfl, hn2⟩
          · exfalso
            have e2 : c.r = some b := by rw [← he]; rfl
            rw [e2] at dr
            cases dr with
            | node h3 => rw [hb] at h3; cases h3
          · exact ⟨n, rfl, none_of_le le1 hn2⟩
      | false =>
        simp only [Bool.false_eq_true, if_false] at hx ⊢
        cases hr : Trie.insert ov k d l with
        | none =>
          rw [hr] at hx
          cases hx
          exact ⟨le1, rfl⟩
        | some l' =>
          rw [hr] at hx
          obtain ⟨e1, d1, ⟨b, rfl, hb⟩, ⟨c0, hc0, hc1⟩, hsh⟩ := hx
          subst e1
          simp only [Bool.false_eq_true, if_false]
          refine wp_bind ?_
          refine wp_copyMutate_keep (c' := Cell.setChild c false (some b)) (x := ()) (le1 _ _ ha) rfl .rfl (l := l')
            (r := r) d1 (dr.mono le1) ?_
          intro v2 p2 le2 hd hp hcell
          refine ⟨View.le_trans le1 le2, rfl, hd, ?_, ⟨c0, le2 _ _ hc0, hc1⟩, fun hk hi => ?_⟩
          case refine_2 =>
            obtain ⟨n, rfl, hc⟩ := hcell
            exact .cons (le2 _ _ (le1 _ _ ha)) hc (hcon hk hi) (hcon hk hi)
              ((hsh hk hi.inv.2.2.2.1).mono le2 (dl.mono le1) d1) (.refl _ _ _)
          rcases hp with ⟨rfl, he⟩ | ⟨n, rfl, hn2⟩
          · exfalso
            have e2 : c.l = some b := by rw [← he]; rfl
            rw [e2] at dl
            cases dl with
            | node h3 => rw [hb] at h3; cases h3
          · exact ⟨n, rfl, none_of_le le1 hn2⟩
    | isContained =>
      simp only [← h1]
      cases oh.insert with
      | false => exact ⟨le0, rfl⟩
      | true =>
        simp only [Bool.not_true, Bool.false_eq_true, if_false]
        refine wp_bind ?_
        cases child with
        | true =>
          refine wp_mutate_pure (c' := { freshCell k d with r := some a, active := true }) hn hW rfl
            Den.nil (Den.node ha dl dr) ?_
          intro v1 le hd hc
          exact ⟨le, rfl, hd, ⟨n0, rfl, hn⟩, ⟨_, hc, fun _ => rfl⟩, fun _ _ =>
            .up_right hc (SubEq.refl _) (.refl _ _ _) (.refl _ _ _)⟩
        | false =>
          refine wp_mutate_pure (c' := { freshCell k d with l := some a, active := true }) hn hW rfl
            (Den.node ha dl dr) Den.nil ?_
          intro v1 le hd hc
          exact ⟨le, rfl, hd, ⟨n0, rfl, hn⟩, ⟨_, hc, fun _ => rfl⟩, fun _ _ =>
            .up_left hc (SubEq.refl _) (.refl _ _ _) (.refl _ _ _)⟩
    | disjoint =>
      have hjoin : k.WF → (Trie.node c.pfx c.data c.size c.h c.active l r).TInv → SubEq (Trie.joinPrefix c.pfx common) k := by
        intro hk hi
        rcases hcases hk hi with ⟨_, e⟩ | ⟨_, _, e⟩ | ⟨_, _, e⟩ | ⟨n, _, _, g1, g2, g3, _, _, _, e⟩ <;> rw [hcmp] at e <;> cases e
        exact (Trie.joinPrefix_sub hi.inv.1 g1 g3 g2).2.subEq
      simp only
      have hsub : wp st (InsertPost k .nil v n0 ov.upd d none (Trie.insert ov k d .nil))
          (insert oh n0 F none) (v.set n0 (freshCell k d)) W :=
        ih (by simp only [Trie.deep]; omega) (fun x hx => by cases hx) hn hW Den.nil
      refine wp_bind (wp_mono (fun _ h => h) ?_ hsub)
      rintro ⟨x, err⟩ v1 ⟨le1, hx⟩
      rw [insert_nil] at hx
      cases hi : ov.ins with
      | false =>
        rw [hi] at hx
        simp only [Bool.not_false, if_true] at hx
        cases hx
        exact ⟨le1, rfl⟩
      | true =>
        rw [hi] at hx
        simp only [Bool.not_true, Bool.false_eq_true, if_false] at hx
        obtain ⟨e1, d1, ⟨b, rfl, hb⟩, ⟨c0, hc0, hc1⟩, hsh⟩ := hx
        subst e1
        simp only [Bool.not_true, Bool.false_eq_true, if_false]
        have dt1 : Den v1 (some a) _ := (Den.node ha dl dr).mono le1
        split
        · refine wp_new fun n hn1 => ?_
          refine wp_bind ?_
          refine wp_mutate_pure hn1 (Or.inl rfl) rfl dt1 d1 ?_
          intro v2 le2 hd hc
          exact ⟨View.le_trans le1 le2, rfl, hd, ⟨n, rfl, none_of_le le1 hn1⟩, ⟨c0, le2 _ _ hc0, hc1⟩, fun hk hi =>
            .up_left hc (hjoin hk hi) (.refl _ _ _) ((hsh hk .empty).mono le2 .nil d1)⟩
        · refine wp_new fun n hn1 => ?_
          refine wp_bind ?_
          refine wp_mutate_pure hn1 (Or.inl rfl) rfl d1 dt1 ?_
          intro v2 le2 hd hc
          exact ⟨View.le_trans le1 le2, rfl, hd, ⟨n, rfl, none_of_le le1 hn1⟩, ⟨c0, le2 _ _ hc0, hc1⟩, fun hk hi =>
            .up_right hc (hjoin hk hi) ((hsh hk .empty).mono le2 .nil d1) (.refl _ _ _)⟩

/-- what the exported wrappers of `insert` return -/
def TablePost (k : Prefix α) (t : Trie α D) (v : View α D) (p : Ptr) (res : Option (Trie α D)) (x : Ptr × Bool)
    (v' : View α D) : Prop :=
  match res with
  | none => x = (p, true)
  | some t' => x.2 = false ∧ Den v' x.1 t' ∧ (∃ a, x.1 = some a ∧ v a = none) ∧ (k.WF → t.TInv → Shares v' k p x.1)

/-- `Insert` -/
theorem wp_Insert [Total D] {F : Nat} {t : Trie α D} (hF : t.deep < F) {k : Prefix α} {d : Option D}
    {ve : Trie.Eq' D} {v : View α D} {p : Ptr} {W : Nat → Prop} (dt : Den v p t) :
    wp st (TablePost k t v p (Trie.insert ⟨true, false, ve⟩ k d t)) (Insert F p k d) v W := by
  unfold Insert
  refine wp_new fun n hn => ?_
  refine wp_mono (fun _ h => h) ?_ (wp_insert (ov := ⟨true, false, ve⟩) rfl rfl F hF
    (fun _ _ h => by cases h) hn (Or.inl rfl) dt)
  rintro x v' ⟨_, h⟩
  unfold TablePost
  split
  · next e => simpa only [e] using h
  · next e => simp only [e] at h; exact ⟨h.1, h.2.1, h.2.2.1, h.2.2.2.2⟩

/-- `Update` -/
theorem wp_Update [Total D] {F : Nat} {t : Trie α D} (hF : t.deep < F) {k : Prefix α} {d : Option D}
    {eq : Comparator D} {ve : Trie.Eq' D} (hEq : ∀ x, x ∈ t.entries → eq x.2 d = some (ve x.2 d))
    {v : View α D} {p : Ptr} {W : Nat → Prop} (dt : Den v p t) :
    wp st (TablePost k t v p (Trie.insert ⟨false, true, ve⟩ k d t)) (Update F eq p k d) v W := by
  unfold Update
  refine wp_new fun n hn => ?_
  refine wp_mono (fun _ h => h) ?_ (wp_insert (ov := ⟨false, true, ve⟩) rfl rfl F hF
    (fun x hx _ => hEq x hx) hn (Or.inl rfl) dt)
  rintro x v' ⟨_, h⟩
  unfold TablePost
  split
  · next e => simpa only [e] using h
  · next e => simp only [e] at h; exact ⟨h.1, h.2.1, h.2.2.1, h.2.2.2.2⟩

theorem insert_both {k : Prefix α} {d : Option D} {ve : Trie.Eq' D} (t : Trie α D) :
    ∃ t', Trie.insert ⟨true, true, ve⟩ k d t = some t' := by
  induction t with
  | nil => exact ⟨_, rfl⟩
  | node p e n h act l r ihl ihr =>
    obtain ⟨l', hl⟩ := ihl
    obtain ⟨r', hr⟩ := ihr
    rw [Trie.insert]
    rcases compareP p k with ⟨res, rev, common, child⟩
    cases res
    · simp
    · cases child <;> simp [hl, hr]
    · cases child <;> simp
    · simp only [Bool.not_true, Bool.false_eq_true, if_false]
      split <;> simp

/-- `InsertOrUpdate` does not panic -/
theorem wp_InsertOrUpdate [Total D] {F : Nat} {t : Trie α D} (hF : t.deep < F) {k : Prefix α}
    {d : Option D} {eq : Comparator D} {ve : Trie.Eq' D}
    (hEq : ∀ x, x ∈ t.entries → eq x.2 d = some (ve x.2 d))
    {v : View α D} {p : Ptr} {W : Nat → Prop} (dt : Den v p t) :
    wp st (fun x v' => ∃ t', Trie.insert ⟨true, true, ve⟩ k d t = some t' ∧ Den v' x t' ∧
      (∃ a, x = some a ∧ v a = none) ∧ (k.WF → t.TInv → Shares v' k p x)) (InsertOrUpdate F eq p k d) v W := by
  unfold InsertOrUpdate
  refine wp_new fun n hn => ?_
  refine wp_bind ?_
  refine wp_mono (fun _ h => h) ?_ (wp_insert (ov := ⟨true, true, ve⟩) rfl rfl F hF
    (fun x hx _ => hEq x hx) hn (Or.inl rfl) dt)
  rintro ⟨x, err⟩ v' ⟨_, h⟩
  obtain ⟨t', ht'⟩ := insert_both (k := k) (d := d) (ve := ve) t
  rw [ht'] at h
  obtain ⟨rfl, h2, h3, _, h4⟩ := h
  exact ⟨t', ht', h2, h3, h4⟩

/-- `GetOrInsert` does not panic -/
theorem wp_getOrInsert [Total D] {k : Prefix α} (hk : k.WF) {d : Option D} : ∀ (F : Nat)
    {t : Trie α D}, t.deep + 1 < F → Trie.TInv t →
    ∀ {v : View α D} {p : Ptr} {W : Nat → Prop}, Den v p t →
    wp st (fun x v' => Den v' x.1 (Trie.getOrInsert k d t).1 ∧
      (x.1 = p ∨ ∃ a, x.1 = some a ∧ v a = none) ∧
      (∃ a c, x.2 = some a ∧ v' a = some c ∧ c.data = (Trie.getOrInsert k d t).2) ∧ Shares v' k p x.1)
      (getOrInsert k d F p) v W := by
  intro F
  induction F with
  | zero => intro t h; omega
  | succ F ih =>
    intro t hF hi v p W dt
    -- the deferred function
    have hins : ∀ {W : Nat → Prop} (t' : Trie α D), Trie.insert ⟨true, false, fun _ _ => false⟩ k d t = some t' →
        Trie.getOrInsert k d t = (t', d) →
        wp st (fun x v' => Den v' x.1 (Trie.getOrInsert k d t).1 ∧
          (x.1 = p ∨ ∃ a, x.1 = some a ∧ v a = none) ∧
          (∃ a c, x.2 = some a ∧ v' a = some c ∧ c.data = (Trie.getOrInsert k d t).2) ∧ Shares v' k p x.1)
          (do
            let node ← new (freshCell k d)
            let (head, err) ← insert ⟨true, false, nilComparator⟩ node F p
            if err then panic else pure (head, some node)) v W := by
      intro W t' h1 h2
      refine wp_new fun n hn => ?_
      refine wp_bind ?_
      refine wp_mono (fun _ h => h) ?_ (wp_insert (ov := ⟨true, false, fun _ _ => false⟩) rfl rfl F
        (by omega) (fun _ _ h => by cases h) hn (Or.inl rfl) dt)
      rintro ⟨x, err⟩ v' ⟨_, h⟩
      rw [h1] at h
      obtain ⟨rfl, h3, h4, ⟨c, h5, h6⟩, h7⟩ := h
      rw [h2]
      exact ⟨h3, Or.inr h4, ⟨n, c, rfl, h5, h6 rfl⟩, h7 hk hi⟩
    have hspec := Trie.getOrInsert_spec k hk d t hi
    unfold getOrInsert
    cases dt with
    | nil => exact hins _ (by rw [Trie.insert]; rfl) (by rw [Trie.getOrInsert])
    | @node a c l r ha dl dr =>
    have dt : Den v (some a) _ := Den.node ha dl dr
    obtain ⟨wf, il, ir, hl, hr, two, eme⟩ := hi.inv
    simp only [Trie.deep] at hF
    refine wp_deref ha ?_
    have habs : (∀ x, x ∈ (Trie.node c.pfx c.data c.size c.h c.active l r).entries → ¬ SameKey x.1 k) →
        wp st (fun x v' => Den v' x.1 (Trie.getOrInsert k d (.node c.pfx c.data c.size c.h c.active l r)).1 ∧
          (x.1 = some a ∨ ∃ a, x.1 = some a ∧ v a = none) ∧
          (∃ a c_1, x.2 = some a ∧ v' a = some c_1 ∧
            c_1.data = (Trie.getOrInsert k d (.node c.pfx c.data c.size c.h c.active l r)).2) ∧ Shares v' k (some a) x.1)
          (do
            let node ← new (freshCell k d)
            let (head, err) ← insert ⟨true, false, nilComparator⟩ node F (some a)
            if err then panic else pure (head, some node)) v W := by
      intro h
      obtain ⟨t', h1, h2⟩ := hspec.2 h
      exact hins t' h1 h2
    have hsub := fun x => hi.subEq rfl (x := x)
    by_cases hlen : k.len < c.pfx.len
    · rw [if_pos hlen]
      exact habs fun x hx => not_sameKey_of_shorter hlen (hsub x hx)
    rw [if_neg hlen]
    rcases containsP_spec (s := c.pfx) (l := k) wf with ⟨h1, h2⟩ | ⟨m, hm, h1, h3, h2⟩
    · rw [h2]
      have hcov : SubEq c.pfx k := ⟨by omega, h1⟩
      by_cases hex : c.pfx.len = k.len
      · have hs : SameKey c.pfx k := ⟨hex, h1⟩
        simp only [hex, decide_true, Bool.not_true, Bool.false_eq_true, if_false]
        cases hact : c.active with
        | false =>
          rw [hact] at habs
          refine habs ?_
          intro x hx e
          rw [← hact] at hx
          rcases Trie.mem_node.mp hx with ⟨ha, _⟩ | hx | hx
          · rw [hact] at ha; cases ha
          · exact (hl.side il hx).not_sameKey (hs.trans e.symm)
          · exact (hr.side ir hx).not_sameKey (hs.trans e.symm)
        | true =>
          have := hspec.1 (c.pfx, c.data) (Trie.mem_node.mpr (Or.inl ⟨hact, rfl⟩)) hs
          rw [hact] at this dt
          rw [this]
          exact ⟨dt, Or.inl rfl, ⟨a, c, rfl, ha, rfl⟩, .refl _ _ _⟩
      · simp only [hex, decide_false, Bool.not_true, Bool.not_false, Bool.false_eq_true, if_false, if_true]
        have hg : Trie.getOrInsert k d (.node c.pfx c.data c.size c.h c.active l r) =
            if bit k.addr c.pfx.len then
              (Trie.mk c.pfx c.data c.active l (Trie.getOrInsert k d r).1, (Trie.getOrInsert k d r).2)
            else (Trie.mk c.pfx c.data c.active (Trie.getOrInsert k d l).1 r, (Trie.getOrInsert k d l).2) := by
          rw [Trie.getOrInsert]; simp [hlen, h2, hex]
        rw [hg]
        cases hb : bit k.addr c.pfx.len with
        | true =>
          simp only [if_true]
          refine wp_call (ih (t := r) (by omega) hr dr) ?_
          rintro ⟨x, y⟩ v1 le1 ⟨d1, _, ⟨b, cb, rfl, hb1, hb2⟩, hsh⟩
          simp only at d1
          refine wp_bind ?_
          refine wp_copyMutate_keep (c' := Cell.setChild c true x) (x := ()) (le1 _ _ ha) rfl .rfl
            (dl.mono le1) d1 ?_
          intro v2 p2 le2 hd hp hcell
          refine ⟨hd, ?_, ⟨b, cb, rfl, le2 _ _ hb1, hb2⟩, ?_⟩
          case refine_2 =>
            obtain ⟨n, rfl, hc⟩ := hcell
            exact .cons (le2 _ _ (le1 _ _ ha)) hc hcov hcov (.refl _ _ _) (hsh.mono le2 (dr.mono le1) d1)
          rcases hp with ⟨rfl, _⟩ | ⟨n, rfl, hn⟩
          · exact Or.inl rfl
          · exact Or.inr ⟨n, rfl, none_of_le le1 hn⟩
        | false =>
          simp only [Bool.false_eq_true, if_false]
          refine wp_call (ih (t := l) (by omega) hl dl) ?_
          rintro ⟨x, y⟩ v1 le1 ⟨d1, _, ⟨b, cb, rfl, hb1, hb2⟩, hsh⟩
          simp only at d1
          refine wp_bind ?_
          refine wp_copyMutate_keep (c' := Cell.setChild c false x) (x := ()) (le1 _ _ ha) rfl .rfl
            d1 (dr.mono le1) ?_
          intro v2 p2 le2 hd hp hcell
          refine ⟨hd, ?_, ⟨b, cb, rfl, le2 _ _ hb1, hb2⟩, ?_⟩
          case refine_2 =>
            obtain ⟨n, rfl, hc⟩ := hcell
            exact .cons (le2 _ _ (le1 _ _ ha)) hc hcov hcov (hsh.mono le2 (dl.mono le1) d1) (.refl _ _ _)
          rcases hp with ⟨rfl, _⟩ | ⟨n, rfl, hn⟩
          · exact Or.inl rfl
          · exact Or.inr ⟨n, rfl, none_of_le le1 hn⟩
    · rw [h2]
      exact habs fun x hx => not_sameKey_of_disjoint hm h3 (by omega) (hsub x hx)

/-- `q` is a child of the node `p` -/
def ChildOf (v : View α D) (p q : Ptr) : Prop := ∃ a c, p = some a ∧ v a = some c ∧ (q = c.l ∨ q = c.r)

theorem ChildOf.mono {v v' : View α D} (le : v ≤ v') {p q : Ptr} (h : ChildOf v p q) : ChildOf v' p q := by
  obtain ⟨a, c, h1, h2, h3⟩ := h
  exact ⟨a, c, h1, le _ _ h2, h3⟩

/-- `del`; the root is the old one, a new node or a child of the old one -/
theorem wp_del [Total D] {k : Prefix α} : ∀ (F : Nat) {t : Trie α D}, t.deep < F →
    ∀ {v : View α D} {p : Ptr} {W : Nat → Prop}, Den v p t →
    wp st (fun x v' => match Trie.del k t with
      | none => x = (p, true)
      | some t' => x.2 = false ∧ Den v' x.1 t' ∧ (k.WF → t.TInv → Shares v' k p x.1) ∧
          (x.1 = p ∨ (∃ n, x.1 = some n ∧ v n = none) ∨ ChildOf v p x.1)) (del k F p) v W := by
  intro F
  induction F with
  | zero => intro t h; omega
  | succ F ih =>
    intro t hF v p W dt
    unfold del
    cases dt with
    | nil => exact rfl
    | @node a c l r ha dl dr =>
    simp only [Trie.deep] at hF
    have hcases : k.WF → (Trie.node c.pfx c.data c.size c.h c.active l r).TInv → _ := fun hk hi =>
      compareP_cases hi.inv.1 hk
    refine wp_deref ha ?_
    rw [Trie.del]
    rcases hcmp : compareP c.pfx k with ⟨res, rev, common, child⟩
    cases res with
    | same =>
      have hsame : k.WF → (Trie.node c.pfx c.data c.size c.h c.active l r).TInv → SubEq c.pfx k := by
        intro hk hi
        rcases hcases hk hi with ⟨h, e⟩ | ⟨_, _, e⟩ | ⟨_, _, e⟩ | ⟨_, _, _, _, _, _, _, _, _, e⟩ <;> rw [hcmp] at e <;> cases e
        exact h.subEq
      simp only
      cases hl : c.l with
      | none =>
        rw [hl] at dl
        rw [dl.none_inv]
        refine ⟨rfl, dr, fun hk hi => ?_, Or.inr (Or.inr ⟨a, c, rfl, ha, Or.inr rfl⟩)⟩
        rw [← dl.none_inv] at hi
        exact (Shares.up_right ha (hsame hk hi) (by rw [hl]; exact .refl _ _ _) (.refl _ _ _)).symm
      | some x =>
        rw [hl] at dl
        obtain ⟨cl, ll, lr, hx, dll, dlr, rfl⟩ := dl.some_inv
        simp only [reduceCtorEq, if_false, Trie.isNil, Bool.false_eq_true]
        cases hr : c.r with
        | none =>
          rw [hr] at dr
          rw [dr.none_inv]
          refine ⟨rfl, dl, fun hk hi => ?_, Or.inr (Or.inr ⟨a, c, rfl, ha, Or.inl hl.symm⟩)⟩
          rw [← dr.none_inv] at hi
          exact (Shares.up_left ha (hsame hk hi) (by rw [hl]; exact .refl _ _ _) (by rw [hr]; exact .refl _ _ _)).symm
        | some y =>
          rw [hr] at dr
          obtain ⟨cr, rl, rr, hy, drl, drr, rfl⟩ := dr.some_inv
          simp only [reduceCtorEq, if_false, Bool.false_eq_true]
          refine wp_bind ?_
          refine wp_copyMutate_keep (c' := { c with active := false, data := none }) (x := ()) ha rfl .none
            (by rw [hl]; exact dl) (by rw [hr]; exact dr) ?_
          intro v2 p2 le2 hd hp hcell
          refine ⟨rfl, hd, fun hk hi => ?_, hp.imp (fun h => h.1) fun h => Or.inl h⟩
          obtain ⟨n, rfl, hc⟩ := hcell
          exact .cons (le2 _ _ ha) hc (hsame hk hi) (hsame hk hi) (.refl _ _ _) (.refl _ _ _)
    | contains =>
      have hcon : k.WF → (Trie.node c.pfx c.data c.size c.h c.active l r).TInv → SubEq c.pfx k := by
        intro hk hi
        rcases hcases hk hi with ⟨_, e⟩ | ⟨_, h, e⟩ | ⟨_, _, e⟩ | ⟨_, _, _, _, _, _, _, _, _, e⟩ <;> rw [hcmp] at e <;> cases e
        exact h.subEq
      simp only
      cases child with
      | true =>
        refine wp_call (ih (t := r) (by omega) dr) ?_
        rintro ⟨x, err⟩ v1 le1 hx
        simp only [if_true]
        cases hd : Trie.del k r with
        | none => rw [hd] at hx; cases hx; exact rfl
        | some r' =>
          rw [hd] at hx
          obtain ⟨rfl, d1, hsh, _⟩ := hx
          simp only [Bool.false_eq_true, if_false] at d1 hsh ⊢
          have he : (decide (x = none) && !c.active) = (r'.isNil && !c.active) := by
            congr 1
            cases d1 <;> rfl
          rw [he]
          cases hb : (r'.isNil && !c.active)
          case true =>
            refine ⟨rfl, dl.mono le1, fun hk hi => ?_, Or.inr (Or.inr ⟨a, c, rfl, ha, Or.inl rfl⟩)⟩
            have hx0 : x = none := by
              have : r'.isNil = true := by cases h : r'.isNil <;> simp_all
              cases d1 with
              | nil => rfl
              | node => simp [Trie.isNil] at this
            rw [hx0] at hsh
            exact (Shares.up_left (le1 _ _ ha) (hcon hk hi) (.refl _ _ _) (hsh hk hi.inv.2.2.2.2.1).symm).symm
          case false =>
            simp only [Bool.false_eq_true, if_false]
            refine wp_bind ?_
            refine wp_copyMutate_keep (c' := Cell.setChild c true x) (x := ()) (le1 _ _ ha) rfl .rfl
              (dl.mono le1) d1 ?_
            intro v2 p2 le2 hd hp hcell
            refine ⟨rfl, hd, fun hk hi => ?_, hp.imp (fun h => h.1) fun ⟨n, h1, h2⟩ => Or.inl ⟨n, h1, none_of_le le1 h2⟩⟩
            obtain ⟨n, rfl, hc⟩ := hcell
            exact .cons (le2 _ _ (le1 _ _ ha)) hc (hcon hk hi) (hcon hk hi) (.refl _ _ _)
              ((hsh hk hi.inv.2.2.2.2.1).mono le2 (dr.mono le1) d1)
      | false =>
        refine wp_call (ih (t := l) (by omega) dl) ?_
        rintro ⟨x, err⟩ v1 le1 hx
        simp only [Bool.false_eq_true, if_false]
        cases hd : Trie.del k l with
        | none => rw [hd] at hx; cases hx; exact rfl
        | some l' =>
          rw [hd] at hx
          obtain ⟨rfl, d1, hsh, _⟩ := hx
          simp only [Bool.false_eq_true, if_false] at d1 hsh ⊢
          have he : (decide (x = none) && !c.active) = (l'.isNil && !c.active) := by
            congr 1
            cases d1 <;> rfl
          rw [he]
          cases hb : (l'.isNil && !c.active)
          case true =>
            refine ⟨rfl, dr.mono le1, fun hk hi => ?_, Or.inr (Or.inr ⟨a, c, rfl, ha, Or.inr rfl⟩)⟩
            have hx0 : x = none := by
              have : l'.isNil = true := by cases h : l'.isNil <;> simp_all
              cases d1 with
              | nil => rfl
              | node => simp [Trie.isNil] at this
            rw [hx0] at hsh
            exact (Shares.up_right (le1 _ _ ha) (hcon hk hi) (hsh hk hi.inv.2.2.2.1).symm (.refl _ _ _)).symm
          case false =>
            simp only [Bool.false_eq_true, if_false]
            refine wp_bind ?_
            refine wp_copyMutate_keep (c' := Cell.setChild c false x) (x := ()) (le1 _ _ ha) rfl .rfl
              d1 (dr.mono le1) ?_
            intro v2 p2 le2 hd hp hcell
            refine ⟨rfl, hd, fun hk hi => ?_, hp.imp (fun h => h.1) fun ⟨n, h1, h2⟩ => Or.inl ⟨n, h1, none_of_le le1 h2⟩⟩
            obtain ⟨n, rfl, hc⟩ := hcell
            exact .cons (le2 _ _ (le1 _ _ ha)) hc (hcon hk hi) (hcon hk hi)
              ((hsh hk hi.inv.2.2.2.1).mono le2 (dl.mono le1) d1) (.refl _ _ _)
    | isContained => exact rfl
    | disjoint => exact rfl

/-- `Map`: if the comparator and `==` see no change, there is none -/
theorem wp_map_keep [Total D] {σ : Type} {f : Prefix α → Option D → σ → Option D × σ}
    {eq : Comparator D} {ve : Trie.Eq' D} (hEq : ∀ a b, eq a b = some (ve a b))
    (hk : ∀ a b, ve a b = false → Keeps b a) :
    ∀ (F : Nat) {t : Trie α D}, t.deep < F →
    ∀ {v : View α D} {p : Ptr} {W : Nat → Prop} {s : σ}, Den v p t →
    wp st (fun x v' => Den v' x.1 (Trie.map f ve t s).1 ∧ x.2 = (Trie.map f ve t s).2)
      (map f eq F p s) v W := by
  intro F
  induction F with
  | zero => intro t h; omega
  | succ F ih =>
    intro t hF v p W s dt
    unfold map
    cases dt with
    | nil => exact ⟨Den.nil, rfl⟩
    | @node a c l r ha dl dr =>
    simp only [Trie.deep] at hF
    refine wp_copyMutate_same (Qm := fun y l' r' => y.1.pfx = c.pfx ∧ y.1.active = c.active ∧
      y.1.data = (if ve c.data (f c.pfx c.data s).1 then c.data else (f c.pfx c.data s).1) ∧
      l' = (Trie.map f ve l (f c.pfx c.data s).2).1 ∧
      r' = (Trie.map f ve r (Trie.map f ve l (f c.pfx c.data s).2).2).1 ∧
      y.2 = (Trie.map f ve r (Trie.map f ve l (f c.pfx c.data s).2).2).2) ha ?_ ?_ ?_
    · refine wp_deref ha ?_
      simp only [hEq]
      show wp _ _ (map f eq F c.l (f c.pfx c.data s).2 >>= _) _ _
      refine wp_call (ih (t := l) (by omega) dl) ?_
      rintro ⟨x, s1⟩ v1 le1 ⟨d1, hs⟩
      simp only at d1 hs
      subst hs
      refine wp_call (ih (t := r) (by omega) (dr.mono le1)) ?_
      rintro ⟨y, s2⟩ v2 le2 ⟨d2, hs⟩
      simp only at d2 hs
      subst hs
      exact ⟨_, _, d1.mono le2, d2, rfl, rfl, rfl, rfl, rfl, rfl⟩
    · rintro y l' r' ⟨_, _, e3, _⟩
      rw [e3]
      cases hv : ve c.data (f c.pfx c.data s).1 with
      | true => exact .rfl
      | false => exact hk _ _ hv
    · rintro y l' r' v' p le ⟨e1, e2, e3, rfl, rfl, e4⟩ _ _ hd _ _
      rw [Trie.map]
      simp only
      refine ⟨?_, e4⟩
      rw [e3, e1, e2] at hd
      exact hd

/-- `Map` -/
theorem wp_map [Comparable D] {σ : Type} {f : Prefix α → Option D → σ → Option D × σ}
    {eq : Comparator D} {ve : Trie.Eq' D} (hEq : ∀ a b, eq a b = some (ve a b)) :
    ∀ (F : Nat) {t : Trie α D}, t.deep < F →
    ∀ {v : View α D} {p : Ptr} {W : Nat → Prop} {s : σ}, Den v p t →
    wp st (fun x v' => Den v' x.1 (Trie.map f ve t s).1 ∧ x.2 = (Trie.map f ve t s).2)
      (map f eq F p s) v W :=
  wp_map_keep hEq fun _ _ _ => .all

end Heap
end Addrs

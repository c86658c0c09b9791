import Verif.HeapTableProofs
/-
  The heap code of `Aggregate` computes what the function on trees computes.  The function on trees
  tracks whether the result is another object than the receiver; here that is shown to be what the
  pointer comparisons of the code see.
-/
set_option linter.unusedSectionVars false
namespace Addrs
open GoWord LawfulGoWord
namespace Heap
open Prog
variable {α : Type} [LawfulGoWord α]
variable {st : Prop} {β D : Type}

/-- Go's `==` on the `Data` fields -/
def goEq [Comparable D] : Trie.Eq' D := fun a b => decide (a = b)

theorem isame_goEq [Comparable D] : (isame : Trie.Eq' D) = goEq := by
  funext a b
  exact isame_eq a b

theorem wp_createReturnValue [Total D] {eq : Comparator D} {ve : Trie.Eq' D}
    (hEq : ∀ a b, eq a b = some (ve a b)) {v : View α D} {me : Nat} {c : Cell α D} {l r l' r' : Trie α D}
    {W : Nat → Prop} (ha : v me = some c) (dl : Den v c.l l) (dr : Den v c.r r)
    (hi : Trie.TInv (.node c.pfx c.data c.size c.h c.active l r))
    {isActive : Bool} {data : Option D} {xl xr : Ptr} (dl' : Den v xl l') (dr' : Den v xr r')
    {cc : Bool} (hcc : cc = !(decide (xl = c.l) && decide (xr = c.r))) :
    wp st (fun x v' =>
      Den v' x (Trie.createReturnValue ve isame (.node c.pfx c.data c.size c.h c.active l r) isActive data l' r' cc).1 ∧
      (((Trie.createReturnValue ve isame (.node c.pfx c.data c.size c.h c.active l r) isActive data l' r' cc).2 = false
          ∧ x = some me) ∨
       ((Trie.createReturnValue ve isame (.node c.pfx c.data c.size c.h c.active l r) isActive data l' r' cc).2 = true
          ∧ ∃ n, x = some n ∧ v n = none)))
      (createReturnValue eq me c isActive data xl xr) v W := by
  have dt : Den v (some me) _ := Den.node ha dl dr
  obtain ⟨wf, il, ir, hl, hr, two, eme⟩ := hi.inv
  unfold createReturnValue Trie.createReturnValue
  simp only [hEq]
  have e1 : (isActive == c.active && decide (xl = c.l) && decide (xr = c.r)) = (isActive == c.active && !cc) := by
    rw [hcc, Bool.not_not, Bool.and_assoc]
  rw [e1]
  have e2 : ∀ (R : Bool → Prog α D Ptr), (if (isActive == c.active && !cc) = true then
      ((orPanic (some (ve data c.data)) : Prog α D Bool) >>= R)
      else (pure false : Prog α D Bool) >>= R) = R (isActive == c.active && !cc && ve data c.data) := by
    intro f
    cases (isActive == c.active && !cc) <;> rfl
  refine Eq.mpr (congrArg (fun P => wp st _ P v W) (e2 _)) ?_
  cases hk : (isActive == c.active && !cc && ve data c.data) with
  | true => exact ⟨dt, Or.inl ⟨rfl, rfl⟩⟩
  | false =>
    simp only [Bool.false_eq_true, if_false]
    generalize hd' : (if isActive = true then if (c.data.isNone || !ve c.data data) = true then data else c.data
      else none) = d'
    refine wp_bind ?_
    refine wp_copyMutate_total (c' := { c with active := isActive, data := d', l := xl, r := xr }) (x := ()) ha ?_
      dl' dr' ?_
    · rw [← hd']
      cases isActive <;> cases hn : c.data.isNone <;> cases hv : ve c.data data <;> simp_all [orPanic] <;> rfl
    · intro v' p le hp
      simp only at hp
      have hs : sameCell (sized { c with active := isActive, data := d', l := xl, r := xr } l' r') c =
          (isame d' c.data && isActive == c.active && !cc) := by
        rw [hcc, Bool.not_not, Bool.eq_iff_iff]
        unfold sameCell sized
        simp only [Bool.and_eq_true, decide_eq_true_eq, beq_iff_eq]
        constructor
        · rintro ⟨⟨⟨⟨⟨⟨_, h1⟩, _⟩, _⟩, h2⟩, h3⟩, h4⟩
          exact ⟨⟨h1, h2⟩, h3, h4⟩
        · rintro ⟨⟨h1, h2⟩, rfl, rfl⟩
          have el := dl'.functional dl
          have er := dr'.functional dr
          subst el er h2
          injection eme with _ _ e3 e4
          exact ⟨⟨⟨⟨⟨⟨trivial, h1⟩, e3.symm⟩, e4.symm⟩, rfl⟩, rfl⟩, rfl⟩
      rw [hs] at hp
      rcases hp with ⟨he, rfl⟩ | ⟨he, hd, n, rfl, hn⟩
      · rw [if_pos he]
        exact ⟨dt.mono le, Or.inl ⟨rfl, rfl⟩⟩
      · rw [if_neg (by rw [he]; simp)]
        exact ⟨hd, Or.inr ⟨rfl, n, rfl, hn⟩⟩

/-- what `aggregate` returns: the flag says whether it is another object -/
def AggPost (v : View α D) (p : Ptr) (t : Trie α D) (res : Trie α D × Bool) (x : Ptr) (v' : View α D) : Prop :=
  Den v' x res.1 ∧ ((res.2 = false ∧ x = p) ∨
    (res.2 = true ∧ (x = none ∨ (∃ n, x = some n ∧ v n = none) ∨ ∃ t', Den v' x t' ∧ t'.deep < t.deep)))

theorem AggPost.ne {v v' : View α D} (le : v ≤ v') {p : Ptr} {t : Trie α D} {res : Trie α D × Bool} {x : Ptr}
    (h : AggPost v p t res x v') (dp : Den v p t) (hn : t = .nil → res.2 = false) :
    res.2 = !decide (x = p) := by
  rcases h.2 with ⟨h1, h2⟩ | ⟨h1, h2⟩
  · simp [h1, h2]
  · rw [h1]
    suffices x ≠ p by simp [this]
    rintro rfl
    rcases h2 with rfl | ⟨n, rfl, h3⟩ | ⟨t', d', hlt⟩
    · rw [hn dp.none_inv] at h1; cases h1
    · cases dp with
      | node h4 => rw [h3] at h4; cases h4
    · rw [(dp.mono le).functional d'] at hlt; omega

theorem AggPost.weaken {v0 v v' v'' : View α D} (h0 : v0 ≤ v) {p : Ptr} {t : Trie α D} {res : Trie α D × Bool}
    {x : Ptr} (h : AggPost v p t res x v') (h' : v' ≤ v'') (dp : Den v'' p t) {t1 : Trie α D}
    (hd : t.deep < t1.deep) :
    Den v'' x res.1 ∧ (x = none ∨ (∃ n, x = some n ∧ v0 n = none) ∨ ∃ t', Den v'' x t' ∧ t'.deep < t1.deep) := by
  refine ⟨h.1.mono h', ?_⟩
  rcases h.2 with ⟨_, rfl⟩ | ⟨_, rfl | ⟨n, rfl, h3⟩ | ⟨t', d', hlt⟩⟩
  · exact Or.inr (Or.inr ⟨t, dp, hd⟩)
  · exact Or.inl rfl
  · exact Or.inr (Or.inl ⟨n, rfl, none_of_le h0 h3⟩)
  · exact Or.inr (Or.inr ⟨t', d'.mono h', by omega⟩)

theorem wp_childrenAggregate [Total D] {eq : Comparator D} {ve : Trie.Eq' D}
    (hEq : ∀ a b, eq a b = some (ve a b)) {v : View α D} {p : Prefix α} {x y : Ptr} {l r : Trie α D}
    (dl : Den v x l) (dr : Den v y r) {Q : β → View α D → Prop} {f : Bool → Prog α D β} {W : Nat → Prop}
    (h : wp st Q (f (Trie.childrenAggregate ve p l r)) v W) :
    wp st Q (childrenAggregate eq p x y >>= f) v W := by
  cases dl with
  | nil => exact h
  | node hx _ _ =>
    cases dr with
    | nil =>
      rw [show Trie.childrenAggregate ve p (.node _ _ _ _ _ _ _) .nil = false by
        simp [Trie.childrenAggregate, Trie.isActive]] at h
      exact h
    | node hy _ _ =>
      unfold childrenAggregate
      rw [Prog.bind_assoc]
      refine wp_deref hx ?_
      rw [Prog.bind_assoc]
      refine wp_deref hy ?_
      simp only [hEq]
      simp only [Trie.childrenAggregate, Trie.isActive, Trie.len, Trie.data] at h
      split
      · next h1 =>
        rw [h1] at h
        split
        · next h2 =>
          split
          · next h3 => rw [h3] at h2; simpa [h2, h3, orPanic] using h
          · next h3 => rw [h2] at h3; simpa [h2, h3] using h
        · next h2 => simpa [h2] using h
      · next h1 =>
        rw [Bool.not_eq_true] at h1
        rw [h1] at h
        simpa using h

theorem redundant_step {ve : Trie.Eq' D} (u : Option (Option D)) (act : Bool) (d : Option D)
    (R : Bool → Prog α D Ptr) : (if act = true then
      (match u with
      | some v => ((orPanic (some (ve v d)) : Prog α D Bool) >>= R)
      | none => (pure false : Prog α D Bool) >>= R)
      else (pure false : Prog α D Bool) >>= R) =
    R (act && (match u with | some v => ve v d | none => false)) := by
  cases act <;> cases u <;> rfl

/-- `aggregate`; `isame` is `==` on the values -/
theorem wp_aggregate_total [Total D] {eq : Comparator D} {ve : Trie.Eq' D}
    (hEq : ∀ a b, eq a b = some (ve a b)) : ∀ (F : Nat) {t : Trie α D}, t.deep < F → Trie.TInv t →
    ∀ {u : Option (Option D)} {v : View α D} {p : Ptr} {W : Nat → Prop}, Den v p t →
    wp st (AggPost v p t (Trie.aggregate ve isame u t)) (aggregate eq F u p) v W := by
  intro F
  induction F with
  | zero => intro t h; omega
  | succ F ih =>
    intro t hF hi u v p W dt
    unfold aggregate
    cases dt with
    | nil => exact ⟨Den.nil, Or.inl ⟨rfl, rfl⟩⟩
    | @node a c l r ha dl dr =>
    obtain ⟨wf, il, ir, hl, hr, two, eme⟩ := hi.inv
    simp only [Trie.deep] at hF
    refine wp_deref ha ?_
    simp only [hEq]
    refine Eq.mpr (congrArg (fun P => wp st _ P v W) (redundant_step (ve := ve) u c.active c.data _)) ?_
    show wp st (AggPost v (some a) _ (Trie.aggregate ve isame u (.node c.pfx c.data c.size c.h c.active l r))) _ v W
    unfold Trie.aggregate
    simp only
    generalize hred : (c.active && (match u with | some v => ve v c.data | none => false)) = red
    generalize (if (c.active && !red) = true then some c.data else u) = u'
    refine wp_call (ih (t := l) (by omega) hl (u := u') dl) ?_
    intro x v1 le1 px
    refine wp_call (ih (t := r) (by omega) hr (u := u') (dr.mono le1)) ?_
    intro y v2 le2 py
    have hx := px.ne le1 dl (by rintro rfl; rw [Trie.aggregate])
    have hy := py.ne le2 (dr.mono le1) (by rintro rfl; rw [Trie.aggregate])
    have wx := AggPost.weaken (View.le_refl _) px le2 (dl.mono (View.le_trans le1 le2))
      (t1 := .node c.pfx c.data c.size c.h c.active l r) (by simp only [Trie.deep]; omega)
    have wy := AggPost.weaken le1 py (View.le_refl _) (dr.mono (View.le_trans le1 le2))
      (t1 := .node c.pfx c.data c.size c.h c.active l r) (by simp only [Trie.deep]; omega)
    have nx : l = .nil → (Trie.aggregate ve isame u' l).1 = .nil := by rintro rfl; rw [Trie.aggregate]
    have ny : r = .nil → (Trie.aggregate ve isame u' r).1 = .nil := by rintro rfl; rw [Trie.aggregate]
    generalize Trie.aggregate ve isame u' l = rl at *
    generalize Trie.aggregate ve isame u' r = rr at *
    obtain ⟨rl1, rl2⟩ := rl
    obtain ⟨rr1, rr2⟩ := rr
    simp only at *
    obtain ⟨dx, wx⟩ := wx
    obtain ⟨dy, wy⟩ := wy
    have le := View.le_trans le1 le2
    have hfin : ∀ {isActive : Bool} {data : Option D} {xl xr : Ptr} {l' r' : Trie α D} {cc : Bool},
        Den v2 xl l' → Den v2 xr r' → cc = (!(decide (xl = c.l) && decide (xr = c.r))) →
        wp st (AggPost v (some a) (.node c.pfx c.data c.size c.h c.active l r)
          (Trie.createReturnValue ve isame (.node c.pfx c.data c.size c.h c.active l r) isActive data l' r' cc))
          (createReturnValue eq a c isActive data xl xr) v2 W := by
      intro isActive data xl xr l' r' cc h1 h2 h3
      refine wp_mono (fun _ h => h) ?_ (wp_createReturnValue hEq (le _ _ ha) (dl.mono le) (dr.mono le) hi h1 h2 h3)
      rintro z v3 ⟨dz, hz⟩
      refine ⟨dz, ?_⟩
      rcases hz with hz | ⟨hz, n, rfl, hn⟩
      · exact Or.inl hz
      · exact Or.inr ⟨hz, Or.inr (Or.inl ⟨n, rfl, none_of_le le hn⟩)⟩
    have hcc : (rl2 || rr2) = (!(decide (x = c.l) && decide (y = c.r))) := by
      rw [hx, hy, Bool.not_and]
    refine wp_childrenAggregate hEq dx dy ?_
    cases hag : Trie.childrenAggregate ve c.pfx rl1 rr1 with
    | true =>
      simp only [if_true]
      cases dx with
      | nil => cases hag
      | @node b cb l' r' hb dl' dr' =>
        refine wp_deref hb ?_
        refine hfin Den.nil Den.nil ?_
        have hcl : c.l ≠ none := by
          intro h
          rw [h] at dl
          have := nx dl.none_inv
          cases this
        simp [Ne.symm hcl]
    | false =>
      simp only [Bool.false_eq_true, if_false]
      cases hact : (c.active && !red) with
      | true => 
        simp only [if_true]
        exact hfin dx dy hcc
      | false =>
        simp only [Bool.false_eq_true, if_false]
        cases dx with
        | nil => exact ⟨dy, Or.inr ⟨rfl, wy⟩⟩
        | node hb dl' dr' =>
          simp only [reduceCtorEq, if_false, Trie.isNil, Bool.false_eq_true]
          cases dy with
          | nil => exact ⟨Den.node hb dl' dr', Or.inr ⟨rfl, wx⟩⟩
          | node hc dl'' dr'' =>
            simp only [reduceCtorEq, if_false, Bool.false_eq_true]
            exact hfin (Den.node hb dl' dr') (Den.node hc dl'' dr'') hcc

/-- `aggregate`, for values whose `==` is identity -/
theorem wp_aggregate [Comparable D] {eq : Comparator D} {ve : Trie.Eq' D}
    (hEq : ∀ a b, eq a b = some (ve a b)) (F : Nat) {t : Trie α D} (hF : t.deep < F) (ht : Trie.TInv t)
    {u : Option (Option D)} {v : View α D} {p : Ptr} {W : Nat → Prop} (hp : Den v p t) :
    wp st (AggPost v p t (Trie.aggregate ve goEq u t)) (aggregate eq F u p) v W := by
  rw [← isame_goEq]
  exact wp_aggregate_total hEq F hF ht hp

end Heap
end Addrs

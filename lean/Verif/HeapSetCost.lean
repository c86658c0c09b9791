import Verif.Takes
import Verif.SetCost
/-
  What the functions of setnode.go cost on the heap: actions and allocations per call.
-/
set_option linter.unusedSectionVars false
namespace Addrs
open GoWord LawfulGoWord
namespace Heap
open Prog
open SetNode (Inv Within Under unionCalls diffCalls interCalls)
variable {α : Type} [LawfulGoWord α]
variable {ld : View α Empty → Obj Empty → Prop}

theorem takes_newFlat (p : Prefix α) (l r : Ptr) (v : View α Empty) : (newFlat p l r).Takes ld v 10 1 := by
  have hf : ∀ n : Cell α Empty, (flatten n).AtMost 2 0 fun _ => True := by
    intro n
    unfold flatten
    split
    · trivial
    · split
      · refine .bind' (n := 1) (m := 1) (a := 0) (b := 0) _ (atMost_deref _ (by omega)) (by omega) (by omega) fun c _ => ?_
        refine .bind' (n := 1) (m := 0) (a := 0) (b := 0) _ (atMost_deref _ (by omega)) (by omega) (by omega) fun c _ => ?_
        split
        · trivial
        · split
          · trivial
          · split <;> trivial
      · trivial
  have : (newFlat p l r).AtMost 10 1 fun _ => True := by
    unfold newFlat
    refine .bind' (n := 1) (m := 9) (a := 1) (b := 0) _ (atMost_new _ (by omega) (by omega)) (by omega) (by omega) fun h _ => ?_
    refine .bind' (n := 9) (m := 0) (a := 0) (b := 0) _ (atMost_mutate (n := 2) fun c => ?_) (by omega) (by omega) fun _ _ => trivial
    exact .bind' (n := 2) (m := 0) (a := 0) (b := 0) _ (hf c) (by omega) (by omega) fun _ _ => trivial
  exact this.takes

theorem takes_fromPrefix (p : Prefix α) (v : View α Empty) : (fromPrefix p).Takes ld v 1 1 :=
  ⟨by omega, by omega, fun _ _ => trivial⟩

/-- `Union` -/
theorem takes_union : ∀ (F : Nat) {t u : SetNode α}, t.deep + u.deep < F → Inv t → Inv u →
    ∀ {v : View α Empty} {p q : Ptr}, Den v p t → Den v q u →
    (union F p q).Takes ld v (12 * unionCalls F t u) (unionCalls F t u) := by
  intro F
  induction F with
  | zero => intro t u h; omega
  | succ F ih =>
    intro t u hF ht hu v p q dt du
    unfold union
    split
    · exact Takes.pure
    next hne =>
    split
    · exact Takes.pure
    · exact Takes.pure
    next a b =>
    obtain ⟨c, l, r, ha, dl, dr, rfl⟩ := dt.some_inv
    obtain ⟨d, l', r', hb, dl', dr', rfl⟩ := du.some_inv
    simp only [Trie.deep] at hF
    rcases hcmp : compareP c.pfx d.pfx with ⟨res, rev, common, child⟩
    -- one child is joined with the smaller tree
    have key : ∀ {P : Prefix α} {x y : SetNode α} {s : Bool} {px py po : Ptr} (n : Nat), x.deep + y.deep < F → Inv x → Inv y →
        Den v px x → Den v py y → n = 1 + unionCalls F x y →
        (union F px py >>= fun z => newFlat P (if s then po else z) (if s then z else po)).Takes ld v (12 * n - 2) n := by
      intro P x y s px py po n h1 hx hy dx dy hn
      refine Takes.call (ih h1 hx hy dx dy) (wp_union (st := False) F h1 hx hy dx dy) (m := 10) (b := 1) (by omega) (by omega) ?_
      intro z v' le1 d1
      exact takes_newFlat _ _ _ _
    have hpos : 1 ≤ unionCalls (F + 1) (.node c.pfx c.data c.size c.h c.active l r) (.node d.pfx d.data d.size d.h d.active l' r' : SetNode α) := by
      simp only [unionCalls, hcmp]
      cases res <;> cases rev <;> simp only [Bool.false_eq_true, if_false, if_true] <;> (try split) <;> omega
    obtain ⟨n, hn⟩ : ∃ n, n = unionCalls (F + 1) (.node c.pfx c.data c.size c.h c.active l r) (.node d.pfx d.data d.size d.h d.active l' r' : SetNode α) := ⟨_, rfl⟩
    rw [← hn] at hpos ⊢
    simp only [unionCalls, hcmp] at hn
    refine Takes.deref ha (n := 12 * n - 1) (by omega) (Takes.deref hb (n := 12 * n - 2) (by omega) ?_)
    rw [hcmp]
    cases res with
    | same =>
      simp only at hn ⊢
      cases hact : c.active with
      | true => simp only [if_true]; exact Takes.pure
      | false =>
        cases hact' : d.active with
        | true => simp only [Bool.false_eq_true, if_false, if_true]; exact Takes.pure
        | false =>
          simp only [Bool.false_eq_true, if_false]
          rw [hact] at dt ht hn; rw [hact'] at du hu hn
          simp only [Bool.or_false, Bool.false_eq_true, if_false] at hn
          obtain ⟨e1, hz, ul, ur, hl, hr, nm⟩ := ht.inactive
          obtain ⟨e1', hz', ul', ur', hl', hr', nm'⟩ := hu.inactive
          refine Takes.call (ih (by omega) hl hl' dl dl') (wp_union (st := False) F (by omega) hl hl' dl dl')
            (m := 12 * unionCalls F r r' + 10) (b := unionCalls F r r' + 1) (by omega) (by omega) ?_
          intro pl v1 le1 d1
          refine Takes.call (ih (by omega) hr hr' (dr.mono le1) (dr'.mono le1))
            (wp_union (st := False) F (by omega) hr hr' (dr.mono le1) (dr'.mono le1)) (m := 10) (b := 1) (by omega) (by omega) ?_
          intro pr v2 le2 d2
          split
          · exact Takes.pure
          · exact takes_newFlat _ _ _ _
    | disjoint =>
      simp only
      split <;> exact (takes_newFlat _ _ _ _).mono (by omega) (by omega)
    | contains =>
      simp only at hn ⊢
      cases rev with
      | true =>
        simp only [if_true] at hn ⊢
        cases hact' : d.active with
        | true => simp only [if_true]; exact Takes.pure
        | false =>
          simp only [Bool.false_eq_true, if_false]
          rw [hact'] at du hu hn
          obtain ⟨e1', hz', ul', ur', hl', hr', nm'⟩ := hu.inactive
          cases child with
          | true => simp only [if_true]; exact key (s := true) _ (by simp only [Trie.deep]; omega) hr' ht dr' dt hn
          | false =>
            simp only [Bool.false_eq_true, if_false]; exact key (s := false) _ (by simp only [Trie.deep]; omega) hl' ht dl' dt hn
      | false =>
        simp only [Bool.false_eq_true, if_false] at hn ⊢
        cases hact : c.active with
        | true => simp only [if_true]; exact Takes.pure
        | false =>
          simp only [Bool.false_eq_true, if_false]
          rw [hact] at dt ht hn
          obtain ⟨e1', hz', ul', ur', hl', hr', nm'⟩ := ht.inactive
          cases child with
          | true => simp only [if_true]; exact key (s := true) _ (by simp only [Trie.deep]; omega) hr' hu dr du hn
          | false =>
            simp only [Bool.false_eq_true, if_false]; exact key (s := false) _ (by simp only [Trie.deep]; omega) hl' hu dl du hn
    | isContained =>
      simp only at hn ⊢
      cases rev with
      | true =>
        simp only [if_true] at hn ⊢
        cases hact' : d.active with
        | true => simp only [if_true]; exact Takes.pure
        | false =>
          simp only [Bool.false_eq_true, if_false]
          rw [hact'] at du hu hn
          obtain ⟨e1', hz', ul', ur', hl', hr', nm'⟩ := hu.inactive
          cases child with
          | true => simp only [if_true]; exact key (s := true) _ (by simp only [Trie.deep]; omega) hr' ht dr' dt hn
          | false =>
            simp only [Bool.false_eq_true, if_false]; exact key (s := false) _ (by simp only [Trie.deep]; omega) hl' ht dl' dt hn
      | false =>
        simp only [Bool.false_eq_true, if_false] at hn ⊢
        cases hact : c.active with
        | true => simp only [if_true]; exact Takes.pure
        | false =>
          simp only [Bool.false_eq_true, if_false]
          rw [hact] at dt ht hn
          obtain ⟨e1', hz', ul', ur', hl', hr', nm'⟩ := ht.inactive
          cases child with
          | true => simp only [if_true]; exact key (s := true) _ (by simp only [Trie.deep]; omega) hr' hu dr du hn
          | false =>
            simp only [Bool.false_eq_true, if_false]; exact key (s := false) _ (by simp only [Trie.deep]; omega) hl' hu dl du hn

/-- joining trees on different sides -/
theorem takes_union_apart {p : Prefix α} {b c : Bool} {t u : SetNode α} (ht : Inv t) (hu : Inv u) (h : Within p b t)
    (h' : Within p c u) (hbc : b ≠ c) {F : Nat} (hF : uB α ≤ F) {v : View α Empty} {x y : Ptr} (dt : Den v x t)
    (du : Den v y u) : (union F x y).Takes ld v 12 1 := by
  have h1 := ht.deep_le
  have h2 := hu.deep_le
  have h3 := SetNode.unionCalls_apart ht hu h h' hbc F
  exact (takes_union F (by unfold uB at hF; omega) ht hu dt du).mono (by omega) (by omega)

/-- `Difference` -/
theorem takes_difference : ∀ (N : Nat) {t u : SetNode α}, t.deep + u.deep + room t ≤ N → Inv t → Inv u →
    ∀ {F : Nat}, N + uB α ≤ F → ∀ {v : View α Empty} {pt pu : Ptr}, Den v pt t → Den v pu u →
    (difference F pt pu).Takes ld v (16 * diffCalls F t u) (3 * diffCalls F t u) := by
  intro N
  induction N using Nat.strongRecOn with
  | ind N ih =>
  intro t u hN ht hu F hF v pt pu dt du
  obtain ⟨F, rfl⟩ : ∃ G, F = G + 1 := ⟨F - 1, by unfold uB at hF; omega⟩
  cases t with
  | nil => rw [dt.nil_inv]; exact Takes.pure
  | node p d n m act l r =>
  obtain ⟨a, pl, pr, rfl, ha, dl, dr⟩ := dt.node_inv
  cases u with
  | nil => rw [du.nil_inv]; exact Takes.pure
  | node q e n' m' act' l' r' =>
  obtain ⟨b, pl', pr', rfl, hb, dl', dr'⟩ := du.node_inv
  have wa := ht.wf
  have wb := hu.wf
  simp only [Trie.deep, room] at hN
  have hF' : N - 1 + uB α ≤ F := by omega
  have hFu : uB α ≤ F := by omega
  -- a call and its result
  have rcall : ∀ {x y : SetNode α}, x.deep + y.deep + room x ≤ N - 1 → Inv x → Inv y → ∀ {v : View α Empty} {px py : Ptr},
      Den v px x → Den v py y → (difference F px py).Takes ld v (16 * diffCalls F x y) (3 * diffCalls F x y) ∧
        wp False (fun z v' => Den v' z (SetNode.difference x y)) (difference F px py) v Nowhere :=
    fun h1 h2 h3 _ _ _ d1 d2 => ⟨ih (N - 1) (by omega) h1 h2 h3 hF' d1 d2,
      computes_difference (N - 1) h1 h2 h3 F hF' _ _ _ _ d1 d2⟩
  -- the node is not active
  have hinner : act = false → ∀ k, k = 1 + diffCalls F l (.node q e n' m' act' l' r') + diffCalls F r (.node q e n' m' act' l' r') →
      (do
          let left ← difference F pl (some b)
          let right ← difference F pr (some b)
          if left = pl && right = pr then pure (some a) else union F left right : SProg α Ptr).Takes ld v (16 * k - 2) (3 * k) := by
    intro hact k hk
    subst hact
    obtain ⟨ea, hz, ul, ur, il, ir, nm⟩ := ht.inactive
    have rl := room_under ul
    have rr := room_under ur
    have sl := SetNode.difference_spec l _ il hu
    have sr := SetNode.difference_spec r _ ir hu
    obtain ⟨t1, w1⟩ := rcall (by meas) il hu dl du
    refine Takes.call t1 w1 (m := 16 * diffCalls F r (.node q e n' m' act' l' r') + 12)
      (b := 3 * diffCalls F r (.node q e n' m' act' l' r') + 1) (by omega) (by omega) ?_
    intro x v1 le1 d1
    obtain ⟨t2, w2⟩ := rcall (by meas) ir hu (dr.mono le1) (du.mono le1)
    refine Takes.call t2 w2 (m := 12) (b := 1) (by omega) (by omega) ?_
    intro y v2 le2 d2
    split
    · exact Takes.pure
    · exact takes_union_apart sl.inv sr.inv (sl.within _ _ ul.within) (sr.within _ _ ur.within) (by decide) hFu (d1.mono le2) d2
  have halv : p.len < width α → Inv (SetNode.fromPrefix p.halves.1) ∧ Inv (SetNode.fromPrefix p.halves.2) ∧
      Within p false (SetNode.fromPrefix p.halves.1) ∧ Within p true (SetNode.fromPrefix p.halves.2) ∧
      p.halves.1.len = p.len + 1 ∧ p.halves.2.len = p.len + 1 := by
    intro hlt
    obtain ⟨g1, g2, g3, g4⟩ := halves_sub hlt
    exact ⟨.leaf _ (by rw [Prefix.WF, g3]; omega), .leaf _ (by rw [Prefix.WF, g4]; omega), g1, g2, g3, g4⟩
  obtain ⟨k, hk⟩ : ∃ k, k = diffCalls (F + 1) (.node p d n m act l r) (.node q e n' m' act' l' r' : SetNode α) := ⟨_, rfl⟩
  rw [← hk]
  rcases compareP_cases wa wb with ⟨hkk, he⟩ | ⟨c, hs, he⟩ | ⟨c, hs, he⟩ | ⟨k', rev, c, h1, h2, h3, h4, h5, h6, he⟩
  · simp only [diffCalls, he] at hk
    have hpos : 1 ≤ k := by rw [hk]; split <;> (try split) <;> omega
    unfold difference
    refine Takes.deref ha (n := 16 * k - 1) (by omega) (Takes.deref hb (n := 16 * k - 2) (by omega) ?_)
    simp only [he]
    cases act with
    | false =>
      simp only [Bool.not_false, if_true] at hk ⊢
      exact hinner rfl k hk
    | true =>
      cases act' with
      | true => simp only [Bool.not_true, Bool.false_eq_true, if_false, if_true]; exact Takes.pure
      | false =>
        simp only [Bool.not_true, Bool.false_eq_true, if_false] at hk ⊢
        obtain ⟨eb, hz, ul, ur, il, ir, nm⟩ := hu.inactive
        have hlt : p.len < width α := by
          cases l' with
          | nil => exact ul.elim
          | node => rw [hkk.1]; exact Nat.lt_of_lt_of_le ul.lt il.wf
        obtain ⟨i1, i2, w1, w2, g3, g4⟩ := halv hlt
        have sl := SetNode.difference_spec _ l' i1 il
        have sr := SetNode.difference_spec _ r' i2 ir
        refine Takes.call (takes_fromPrefix _ _) (wp_fromPrefix (st := False) (Q := fun x v' => Den v' x _) fun n v' _ h => h)
          (m := 16 * k - 3) (b := 3 * k - 1) (by omega) (by omega) ?_
        intro x v1 le1 d1
        refine Takes.call (takes_fromPrefix _ _) (wp_fromPrefix (st := False) (Q := fun x v' => Den v' x _) fun n v' _ h => h)
          (m := 16 * k - 4) (b := 3 * k - 2) (by omega) (by omega) ?_
        intro y v2 le2 d2
        have dl2 := dl'.mono (View.le_trans le1 le2)
        have dr2 := dr'.mono (View.le_trans le1 le2)
        obtain ⟨t3, q3⟩ := rcall (by meas) i1 il (d1.mono le2) dl2
        refine Takes.call t3 q3 (m := 16 * diffCalls F (SetNode.fromPrefix p.halves.2) r' + 12)
          (b := 3 * diffCalls F (SetNode.fromPrefix p.halves.2) r' + 1) (by omega) (by omega) ?_
        intro x' v3 le3 d3
        obtain ⟨t4, q4⟩ := rcall (by meas) i2 ir (d2.mono le3) (dr2.mono le3)
        refine Takes.call t4 q4 (m := 12) (b := 1) (by omega) (by omega) ?_
        intro y' v4 le4 d4
        exact takes_union_apart sl.inv sr.inv (sl.within _ _ w1) (sr.within _ _ w2) (by decide) hFu (d3.mono le4) d4
  · simp only [diffCalls, he] at hk
    have hpos : 1 ≤ k := by rw [hk]; split <;> omega
    unfold difference
    refine Takes.deref ha (n := 16 * k - 1) (by omega) (Takes.deref hb (n := 16 * k - 2) (by omega) ?_)
    simp only [he]
    cases act with
    | false =>
      simp only [Bool.not_false, if_true] at hk ⊢
      exact hinner rfl k hk
    | true =>
      simp only [Bool.not_true, Bool.false_eq_true, if_false] at hk ⊢
      have hlt : p.len < width α := Nat.lt_of_lt_of_le hs.lt wb
      obtain ⟨i1, i2, w1, w2, g3, g4⟩ := halv hlt
      have sl := SetNode.difference_spec _ _ i1 hu
      have sr := SetNode.difference_spec _ _ i2 hu
      refine Takes.call (takes_fromPrefix _ _) (wp_fromPrefix (st := False) (Q := fun x v' => Den v' x _) fun n v' _ h => h)
        (m := 16 * k - 3) (b := 3 * k - 1) (by omega) (by omega) ?_
      intro x v1 le1 d1
      refine Takes.call (takes_fromPrefix _ _) (wp_fromPrefix (st := False) (Q := fun x v' => Den v' x _) fun n v' _ h => h)
        (m := 16 * k - 4) (b := 3 * k - 2) (by omega) (by omega) ?_
      intro y v2 le2 d2
      cases c with
      | true =>
        simp only [if_true] at hk ⊢
        obtain ⟨t3, q3⟩ := rcall (by meas) i2 hu d2 (du.mono (View.le_trans le1 le2))
        refine Takes.call t3 q3 (m := 12) (b := 1) (by omega) (by omega) ?_
        intro x' v3 le3 d3
        exact takes_union_apart i1 sr.inv w1 (sr.within _ _ w2) (by decide) hFu (d1.mono (View.le_trans le2 le3)) d3
      | false =>
        simp only [Bool.false_eq_true, if_false] at hk ⊢
        obtain ⟨t3, q3⟩ := rcall (by meas) i1 hu (d1.mono le2) (du.mono (View.le_trans le1 le2))
        refine Takes.call t3 q3 (m := 12) (b := 1) (by omega) (by omega) ?_
        intro x' v3 le3 d3
        exact takes_union_apart i2 sl.inv w2 (sl.within _ _ w1) (by decide) hFu (d2.mono le3) d3
  · simp only [diffCalls, he] at hk
    have hpos : 1 ≤ k := by rw [hk]; split <;> omega
    unfold difference
    refine Takes.deref ha (n := 16 * k - 1) (by omega) (Takes.deref hb (n := 16 * k - 2) (by omega) ?_)
    simp only [he]
    cases act' with
    | true => exact Takes.pure
    | false =>
      simp only [Bool.false_eq_true, if_false] at hk ⊢
      obtain ⟨eb, hz, ul, ur, il, ir, nm⟩ := hu.inactive
      cases c with
      | true =>
        simp only [if_true] at hk
        exact (rcall (by meas) ht ir dt dr').1.mono (by omega) (by omega)
      | false =>
        simp only [Bool.false_eq_true, if_false] at hk
        exact (rcall (by meas) ht il dt dl').1.mono (by omega) (by omega)
  · simp only [diffCalls, he] at hk
    unfold difference
    refine Takes.deref ha (n := 16 * k - 1) (by omega) (Takes.deref hb (n := 16 * k - 2) (by omega) ?_)
    simp only [he]
    exact Takes.pure

/-- `Intersect` -/
theorem takes_intersect : ∀ (N : Nat) {t u : SetNode α}, t.deep + u.deep ≤ N → Inv t → Inv u →
    ∀ {F : Nat}, N + uB α ≤ F → ∀ {v : View α Empty} {pt pu : Ptr}, Den v pt t → Den v pu u →
    (intersect F pt pu).Takes ld v (14 * interCalls F t u) (interCalls F t u) := by
  intro N
  induction N using Nat.strongRecOn with
  | ind N ih =>
  intro t u hN ht hu F hF v pt pu dt du
  obtain ⟨F, rfl⟩ : ∃ G, F = G + 1 := ⟨F - 1, by unfold uB at hF; omega⟩
  cases t with
  | nil => rw [dt.nil_inv]; exact Takes.pure
  | node p d n m act l r =>
  obtain ⟨a, pl, pr, rfl, ha, dl, dr⟩ := dt.node_inv
  cases u with
  | nil => rw [du.nil_inv]; exact Takes.pure
  | node q e n' m' act' l' r' =>
  obtain ⟨b, pl', pr', rfl, hb, dl', dr'⟩ := du.node_inv
  have wa := ht.wf
  have wb := hu.wf
  simp only [Trie.deep] at hN
  have hF' : N - 1 + uB α ≤ F := by omega
  have hFu : uB α ≤ F := by omega
  have rcall : ∀ {x y : SetNode α}, x.deep + y.deep ≤ N - 1 → Inv x → Inv y → ∀ {v : View α Empty} {px py : Ptr},
      Den v px x → Den v py y → (intersect F px py).Takes ld v (14 * interCalls F x y) (interCalls F x y) ∧
        wp False (fun z v' => Den v' z (SetNode.intersect x y)) (intersect F px py) v Nowhere :=
    fun h1 h2 h3 _ _ _ d1 d2 => ⟨ih (N - 1) (by omega) h1 h2 h3 hF' d1 d2,
      computes_intersect (N - 1) h1 h2 h3 F hF' _ _ _ _ d1 d2⟩
  -- the parts are on different sides of `P`
  have key : ∀ {P : Prefix α} {x l r : SetNode α} {px pl pr : Ptr} {k : Nat}, x.deep + max l.deep r.deep ≤ N - 1 → Inv x → Inv l → Inv r →
      Under P false l → Under P true r → Den v px x → Den v pl l → Den v pr r → k = 1 + interCalls F x l + interCalls F x r →
      (do
        let x ← intersect F px pl
        let y ← intersect F px pr
        union F x y : SProg α Ptr).Takes ld v (14 * k - 2) k := by
    intro P x l r px pl pr k hM hx hl hr ul ur dx dl dr hk
    have sl := SetNode.intersect_spec _ _ hx hl
    have sr := SetNode.intersect_spec _ _ hx hr
    have hlt : P.len < width α := by
      cases l with
      | nil => exact ul.elim
      | node => exact Nat.lt_of_lt_of_le ul.lt hl.wf
    have hwl : Within P false (SetNode.intersect x l) := sl.inv.within_of_mem hlt fun z hz => hl.within_mem ul.within ((sl.mem z).mp hz).2
    have hwr : Within P true (SetNode.intersect x r) := sr.inv.within_of_mem hlt fun z hz => hr.within_mem ur.within ((sr.mem z).mp hz).2
    obtain ⟨t1, w1⟩ := rcall (by omega) hx hl dx dl
    refine Takes.call t1 w1 (m := 14 * interCalls F x r + 12) (b := interCalls F x r + 1) (by omega) (by omega) ?_
    intro y v1 le1 d1
    obtain ⟨t2, w2⟩ := rcall (by omega) hx hr (dx.mono le1) (dr.mono le1)
    refine Takes.call t2 w2 (m := 12) (b := 1) (by omega) (by omega) ?_
    intro z v2 le2 d2
    exact takes_union_apart sl.inv sr.inv hwl hwr (by decide) hFu (d1.mono le2) d2
  obtain ⟨k, hk⟩ : ∃ k, k = interCalls (F + 1) (.node p d n m act l r) (.node q e n' m' act' l' r' : SetNode α) := ⟨_, rfl⟩
  rw [← hk]
  have hpos : 1 ≤ k := by
    rw [hk]
    simp only [interCalls]
    split
    · omega
    · split
      · omega
      · split <;> omega
  simp only [interCalls] at hk
  unfold intersect
  refine Takes.deref ha (n := 14 * k - 1) (by omega) (Takes.deref hb (n := 14 * k - 2) (by omega) ?_)
  simp only
  rcases hcmp : compareP p q with ⟨res, rev, common, child⟩
  rw [hcmp] at hk
  cases res <;> simp only at hk ⊢
  case disjoint => exact Takes.pure
  all_goals
    cases act with
    | false =>
      simp only [Bool.not_false, if_true] at hk ⊢
      obtain ⟨ea, hz, ul, ur, il, ir, nm⟩ := ht.inactive
      exact key (by simp only [Trie.deep]; omega) hu il ir ul ur du dl dr hk
    | true =>
      cases act' with
      | false =>
        simp only [Bool.not_true, Bool.not_false, Bool.false_eq_true, if_false, if_true] at hk ⊢
        obtain ⟨ea, hz, ul, ur, il, ir, nm⟩ := hu.inactive
        exact key (by simp only [Trie.deep]; omega) ht il ir ul ur dt dl' dr' hk
      | true =>
        simp only [Bool.not_true, Bool.false_eq_true, if_false]
        cases rev <;> exact Takes.pure

end Heap
end Addrs

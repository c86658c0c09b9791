import Verif.HeapSetProofs
import Verif.SetOps
import Verif.FindAvail
/-
  The heap code of setnode.go, continued: Difference, Intersect and the functions that only read.
-/
set_option linter.unusedSectionVars false
namespace Addrs
open GoWord LawfulGoWord
namespace Heap
open Prog
open SetNode (Inv)
variable {α : Type} [LawfulGoWord α]
variable {st : Prop} {β D : Type}

/-- with a recursion bound of `N` or more, the code `P F p q` on pointers to `t` and `u` returns a
    pointer to `res` -/
abbrev Computes2 (N : Nat) (t u : SetNode α) (P : Nat → Ptr → Ptr → SProg α Ptr) (res : SetNode α) : Prop :=
  Ev N fun F => ∀ (v : View α Empty) (p q : Ptr) (W : Nat → Prop), Den v p t → Den v q u →
    wp False (fun x v' => Den v' x res) (P F p q) v W

/-- a recursion bound for `Union` -/
def uB (α : Type) [GoWord α] : Nat := 2 * (width α + 1) + 1

theorem computes_union {t u : SetNode α} (ht : Inv t) (hu : Inv u) :
    Computes2 (uB α) t u union (SetNode.union t u) := by
  intro F hF v p q W dt du
  have := ht.deep_le
  have := hu.deep_le
  exact wp_union F (by unfold uB at hF; omega) ht hu dt du

/-- the room below the root prefix -/
def room : SetNode α → Nat
  | .nil => 0
  | .node p _ _ _ _ _ _ => width α - p.len

theorem room_node {p : Prefix α} {d n h act l r} : room (.node p d n h act l r : SetNode α) = width α - p.len := rfl

/-- arithmetic of the depth of recursion -/
macro "meas" : tactic => `(tactic|
  ((try simp only [Trie.deep, SetNode.fromPrefix, room_node]); (try unfold uB); omega))

theorem room_under {p : Prefix α} {b : Bool} {t : SetNode α} (h : SetNode.Under p b t) :
    room t ≤ width α - p.len := by
  cases t with
  | nil => exact h.elim
  | node => have := h.lt; simp only [room]; omega

/-- `Difference` -/
theorem computes_difference : ∀ (N : Nat) {t u : SetNode α}, t.deep + u.deep + room t ≤ N → Inv t →
    Inv u → Computes2 (N + uB α) t u difference (SetNode.difference t u) := by
  intro N
  induction N using Nat.strongRecOn with
  | ind N ih =>
  intro t u hN ht hu
  cases t with
  | nil =>
    refine Ev.succ (by unfold uB; omega) ?_
    intro F v p q W dt du
    rw [dt.nil_inv, SetNode.difference_nil_left]
    exact Den.nil
  | node p d n m act l r =>
  cases u with
  | nil =>
    refine Ev.succ (by unfold uB; omega) ?_
    intro F v pt pu W dt du
    rw [SetNode.difference_nil_right]
    obtain ⟨a, pl, pr, rfl, ha, dl, dr⟩ := dt.node_inv
    rw [du.nil_inv]
    exact dt
  | node q e n' m' act' l' r' =>
  have wa := ht.wf
  have wb := hu.wf
  simp only [Trie.deep, room] at hN
  -- the node is not active
  have hinner : act = false → Ev (N - 1 + uB α) fun F => ∀ (v : View α Empty) (a b : Nat) (pl pr : Ptr) (W : Nat → Prop),
      Den v (some a) (.node p d n m act l r) → Den v (some b) (.node q e n' m' act' l' r') →
      Den v pl l → Den v pr r →
      wp False (fun x v' => Den v' x (SetNode.union (SetNode.difference l (.node q e n' m' act' l' r'))
          (SetNode.difference r (.node q e n' m' act' l' r'))))
        (do
          let left ← difference F pl (some b)
          let right ← difference F pr (some b)
          if left = pl && right = pr then pure (some a) else union F left right) v W := by
    intro hact
    subst hact
    obtain ⟨ea, hz, ul, ur, il, ir, nm⟩ := ht.inactive
    have rl := room_under ul
    have rr := room_under ur
    have sl := SetNode.difference_spec l _ il hu
    have sr := SetNode.difference_spec r _ ir hu
    refine (((ih (N - 1) (by omega) (by meas) il hu).and (ih (N - 1) (by omega) (by meas) ir hu)).and
      (computes_union sl.inv sr.inv)).mono (by omega) ?_
    rintro F ⟨⟨e1, e2⟩, e3⟩ v a b pl pr W dt du dl dr
    refine wp_call (e1 _ _ _ _ dl du) ?_
    intro x v1 le1 d1
    refine wp_call (e2 _ _ _ _ (dr.mono le1) (du.mono le1)) ?_
    intro y v2 le2 d2
    split
    · next h =>
      simp only [Bool.and_eq_true, decide_eq_true_eq] at h
      obtain ⟨rfl, rfl⟩ := h
      rw [d1.functional (dl.mono le1), d2.functional (dr.mono (View.le_trans le1 le2)),
        SetNode.union_children ht]
      exact dt.mono (View.le_trans le1 le2)
    · exact e3 _ _ _ _ (d1.mono le2) d2
  rcases compareP_cases wa wb with ⟨hk, he⟩ | ⟨c, hs, he⟩ | ⟨c, hs, he⟩ |
    ⟨k, rev, c, h1, h2, h3, h4, h5, h6, he⟩
  · -- same
    cases act with
    | false =>
      refine (hinner rfl).step (by omega) ?_
      intro F e1 v pt pu W dt du
      obtain ⟨a, pl, pr, rfl, ha, dl, dr⟩ := dt.node_inv
      obtain ⟨b, pl', pr', rfl, hb, dl', dr'⟩ := du.node_inv
      rw [SetNode.difference]
      unfold difference
      refine wp_deref ha (wp_deref hb ?_)
      simp only [he]
      exact e1 v a b pl pr W dt du dl dr
    | true =>
      cases act' with
      | true =>
        refine Ev.succ (by unfold uB; omega) ?_
        intro F v pt pu W dt du
        obtain ⟨a, pl, pr, rfl, ha, dl, dr⟩ := dt.node_inv
        obtain ⟨b, pl', pr', rfl, hb, dl', dr'⟩ := du.node_inv
        rw [SetNode.difference]
        unfold difference
        refine wp_deref ha (wp_deref hb ?_)
        simp only [he]
        exact Den.nil
      | false =>
        obtain ⟨eb, hz, ul, ur, il, ir, nm⟩ := hu.inactive
        have hlt : p.len < width α := by
          cases l' with
          | nil => exact ul.elim
          | node => rw [hk.1]; exact Nat.lt_of_lt_of_le ul.lt il.wf
        obtain ⟨g1, g2, g3, g4⟩ := halves_sub hlt
        have i1 : Inv (SetNode.fromPrefix p.halves.1) := .leaf _ (by rw [Prefix.WF, g3]; omega)
        have i2 : Inv (SetNode.fromPrefix p.halves.2) := .leaf _ (by rw [Prefix.WF, g4]; omega)
        have sl := SetNode.difference_spec _ l' i1 il
        have sr := SetNode.difference_spec _ r' i2 ir
        refine (((ih (N - 1) (by omega) (by meas) i1 il).and (ih (N - 1) (by omega) (by meas) i2 ir)).and
          (computes_union sl.inv sr.inv)).step (by omega) ?_
        rintro F ⟨⟨e1, e2⟩, e3⟩ v pt pu W dt du
        obtain ⟨a, pl, pr, rfl, ha, dl, dr⟩ := dt.node_inv
        obtain ⟨b, pl', pr', rfl, hb, dl', dr'⟩ := du.node_inv
        rw [SetNode.difference]
        unfold difference
        refine wp_deref ha (wp_deref hb ?_)
        simp only [he, Bool.not_true, Bool.false_eq_true, if_false, hlt, if_true]
        refine wp_call (wp_fromPrefix (Q := fun x v' => Den v' x _) fun n v' _ h => h) ?_
        intro x v1 le1 d1
        refine wp_call (wp_fromPrefix (Q := fun x v' => Den v' x _) fun n v' _ h => h) ?_
        intro y v2 le2 d2
        have dl2 := dl'.mono (View.le_trans le1 le2)
        have dr2 := dr'.mono (View.le_trans le1 le2)
        refine wp_call (e1 _ _ _ _ (d1.mono le2) dl2) ?_
        intro x' v3 le3 d3
        refine wp_call (e2 _ _ _ _ (d2.mono le3) (dr2.mono le3)) ?_
        intro y' v4 le4 d4
        exact e3 _ _ _ _ (d3.mono le4) d4
  · -- contains
    cases act with
    | false =>
      refine (hinner rfl).step (by omega) ?_
      intro F e1 v pt pu W dt du
      obtain ⟨a, pl, pr, rfl, ha, dl, dr⟩ := dt.node_inv
      obtain ⟨b, pl', pr', rfl, hb, dl', dr'⟩ := du.node_inv
      rw [SetNode.difference]
      unfold difference
      refine wp_deref ha (wp_deref hb ?_)
      simp only [he]
      exact e1 v a b pl pr W dt du dl dr
    | true =>
      have hlt : p.len < width α := Nat.lt_of_lt_of_le hs.lt wb
      obtain ⟨g1, g2, g3, g4⟩ := halves_sub hlt
      have i1 : Inv (SetNode.fromPrefix p.halves.1) := .leaf _ (by rw [Prefix.WF, g3]; omega)
      have i2 : Inv (SetNode.fromPrefix p.halves.2) := .leaf _ (by rw [Prefix.WF, g4]; omega)
      cases c with
      | true =>
        have sr := SetNode.difference_spec _ _ i2 hu
        refine ((ih (N - 1) (by omega) (by meas) i2 hu).and (computes_union i1 sr.inv)).step (by omega) ?_
        rintro F ⟨e1, e2⟩ v pt pu W dt du
        obtain ⟨a, pl, pr, rfl, ha, dl, dr⟩ := dt.node_inv
        obtain ⟨b, pl', pr', rfl, hb, dl', dr'⟩ := du.node_inv
        rw [SetNode.difference]
        unfold difference
        refine wp_deref ha (wp_deref hb ?_)
        simp only [he, Bool.not_true, Bool.false_eq_true, if_false, hlt, dif_pos, if_true]
        refine wp_call (wp_fromPrefix (Q := fun x v' => Den v' x _) fun n v' _ h => h) ?_
        intro x v1 le1 d1
        refine wp_call (wp_fromPrefix (Q := fun x v' => Den v' x _) fun n v' _ h => h) ?_
        intro y v2 le2 d2
        refine wp_call (e1 _ _ _ _ d2 (du.mono (View.le_trans le1 le2))) ?_
        intro x' v3 le3 d3
        exact e2 _ _ _ _ (d1.mono (View.le_trans le2 le3)) d3
      | false =>
        have sr := SetNode.difference_spec _ _ i1 hu
        refine ((ih (N - 1) (by omega) (by meas) i1 hu).and (computes_union i2 sr.inv)).step (by omega) ?_
        rintro F ⟨e1, e2⟩ v pt pu W dt du
        obtain ⟨a, pl, pr, rfl, ha, dl, dr⟩ := dt.node_inv
        obtain ⟨b, pl', pr', rfl, hb, dl', dr'⟩ := du.node_inv
        rw [SetNode.difference]
        unfold difference
        refine wp_deref ha (wp_deref hb ?_)
        simp only [he, Bool.not_true, Bool.false_eq_true, if_false, hlt, dif_pos]
        refine wp_call (wp_fromPrefix (Q := fun x v' => Den v' x _) fun n v' _ h => h) ?_
        intro x v1 le1 d1
        refine wp_call (wp_fromPrefix (Q := fun x v' => Den v' x _) fun n v' _ h => h) ?_
        intro y v2 le2 d2
        refine wp_call (e1 _ _ _ _ (d1.mono le2) (du.mono (View.le_trans le1 le2))) ?_
        intro x' v3 le3 d3
        exact e2 _ _ _ _ (d2.mono le3) d3
  · -- isContained
    cases act' with
    | true =>
      refine Ev.succ (by unfold uB; omega) ?_
      intro F v pt pu W dt du
      obtain ⟨a, pl, pr, rfl, ha, dl, dr⟩ := dt.node_inv
      obtain ⟨b, pl', pr', rfl, hb, dl', dr'⟩ := du.node_inv
      rw [SetNode.difference]
      unfold difference
      refine wp_deref ha (wp_deref hb ?_)
      simp only [he]
      exact Den.nil
    | false =>
      obtain ⟨eb, hz, ul, ur, il, ir, nm⟩ := hu.inactive
      cases c with
      | true =>
        refine (ih (N - 1) (by omega) (by meas) ht ir).step (by omega) ?_
        intro F e1 v pt pu W dt du
        obtain ⟨a, pl, pr, rfl, ha, dl, dr⟩ := dt.node_inv
        obtain ⟨b, pl', pr', rfl, hb, dl', dr'⟩ := du.node_inv
        rw [SetNode.difference]
        unfold difference
        refine wp_deref ha (wp_deref hb ?_)
        simp only [he]
        exact e1 _ _ _ _ dt dr'
      | false =>
        refine (ih (N - 1) (by omega) (by meas) ht il).step (by omega) ?_
        intro F e1 v pt pu W dt du
        obtain ⟨a, pl, pr, rfl, ha, dl, dr⟩ := dt.node_inv
        obtain ⟨b, pl', pr', rfl, hb, dl', dr'⟩ := du.node_inv
        rw [SetNode.difference]
        unfold difference
        refine wp_deref ha (wp_deref hb ?_)
        simp only [he]
        exact e1 _ _ _ _ dt dl'
  · -- disjoint
    refine Ev.succ (by unfold uB; omega) ?_
    intro F v pt pu W dt du
    obtain ⟨a, pl, pr, rfl, ha, dl, dr⟩ := dt.node_inv
    obtain ⟨b, pl', pr', rfl, hb, dl', dr'⟩ := du.node_inv
    rw [SetNode.difference]
    unfold difference
    refine wp_deref ha (wp_deref hb ?_)
    simp only [he]
    exact dt

/-- `Intersect` -/
theorem computes_intersect : ∀ (N : Nat) {t u : SetNode α}, t.deep + u.deep ≤ N → Inv t →
    Inv u → Computes2 (N + uB α) t u intersect (SetNode.intersect t u) := by
  intro N
  induction N using Nat.strongRecOn with
  | ind N ih =>
  intro t u hN ht hu
  cases t with
  | nil =>
    refine Ev.succ (by unfold uB; omega) ?_
    intro F v p q W dt du
    rw [dt.nil_inv, SetNode.intersect]
    exact Den.nil
  | node p d n m act l r =>
  cases u with
  | nil =>
    refine Ev.succ (by unfold uB; omega) ?_
    intro F v pt pu W dt du
    obtain ⟨a, pl, pr, rfl, ha, dl, dr⟩ := dt.node_inv
    rw [SetNode.intersect, du.nil_inv]
    · exact Den.nil
    · simp
  | node q e n' m' act' l' r' =>
  simp only [Trie.deep] at hN
  have key : ∀ (res : Cmp) (rev : Bool) (common : Nat) (child : Bool), res ≠ .disjoint →
      compareP p q = (res, rev, common, child) →
      Computes2 (N + uB α) (.node p d n m act l r) (.node q e n' m' act' l' r') intersect
        (SetNode.intersect (.node p d n m act l r) (.node q e n' m' act' l' r')) := by
    intro res rev common child hres he
    have hv : SetNode.intersect (.node p d n m act l r) (.node q e n' m' act' l' r') =
        if !act then
          SetNode.union (SetNode.intersect (.node q e n' m' act' l' r') l)
            (SetNode.intersect (.node q e n' m' act' l' r') r)
        else if !act' then
          SetNode.union (SetNode.intersect (.node p d n m act l r) l')
            (SetNode.intersect (.node p d n m act l r) r')
        else if rev then .node p d n m act l r
        else .node q e n' m' act' l' r' := by
      rw [SetNode.intersect, he]
      cases res <;> first | rfl | exact absurd rfl hres
    have hh : ∀ (F a b : Nat) (v : View α Empty) (W : Nat → Prop) (c c' : Cell α Empty) Q,
        v a = some c → v b = some c' → c.pfx = p → c'.pfx = q →
        wp False Q (if !c.active then do
          let x ← intersect F (some b) c.l
          let y ← intersect F (some b) c.r
          union F x y
        else if !c'.active then do
          let x ← intersect F (some a) c'.l
          let y ← intersect F (some a) c'.r
          union F x y
        else if rev then pure (some a)
        else pure (some b)) v W → wp False Q (intersect (F + 1) (some a) (some b)) v W := by
      intro F a b v W c c' Q ha hb e1 e2 h
      unfold intersect
      refine wp_deref ha (wp_deref hb ?_)
      rw [e1, e2, he]
      cases res <;> first | exact h | exact absurd rfl hres
    rw [hv]
    cases act with
    | false =>
      obtain ⟨ea, hz, ul, ur, il, ir, nm⟩ := ht.inactive
      have sl := SetNode.intersect_spec _ l hu il
      have sr := SetNode.intersect_spec _ r hu ir
      refine (((ih (N - 1) (by omega) (by meas) hu il).and (ih (N - 1) (by omega) (by meas) hu ir)).and
        (computes_union sl.inv sr.inv)).step (by omega) ?_
      rintro F ⟨⟨e1, e2⟩, e3⟩ v pt pu W dt du
      obtain ⟨a, pl, pr, rfl, ha, dl, dr⟩ := dt.node_inv
      obtain ⟨b, pl', pr', rfl, hb, dl', dr'⟩ := du.node_inv
      refine hh F a b v W _ _ _ ha hb rfl rfl ?_
      simp only [Bool.not_false, if_true]
      refine wp_call (e1 _ _ _ _ du dl) ?_
      intro x v1 le1 d1
      refine wp_call (e2 _ _ _ _ (du.mono le1) (dr.mono le1)) ?_
      intro y v2 le2 d2
      exact e3 _ _ _ _ (d1.mono le2) d2
    | true =>
      cases act' with
      | false =>
        obtain ⟨ea, hz, ul, ur, il, ir, nm⟩ := hu.inactive
        have sl := SetNode.intersect_spec _ l' ht il
        have sr := SetNode.intersect_spec _ r' ht ir
        refine (((ih (N - 1) (by omega) (by meas) ht il).and (ih (N - 1) (by omega) (by meas) ht ir)).and
          (computes_union sl.inv sr.inv)).step (by omega) ?_
        rintro F ⟨⟨e1, e2⟩, e3⟩ v pt pu W dt du
        obtain ⟨a, pl, pr, rfl, ha, dl, dr⟩ := dt.node_inv
        obtain ⟨b, pl', pr', rfl, hb, dl', dr'⟩ := du.node_inv
        refine hh F a b v W _ _ _ ha hb rfl rfl ?_
        simp only [Bool.not_true, Bool.not_false, Bool.false_eq_true, if_false, if_true]
        refine wp_call (e1 _ _ _ _ dt dl') ?_
        intro x v1 le1 d1
        refine wp_call (e2 _ _ _ _ (dt.mono le1) (dr'.mono le1)) ?_
        intro y v2 le2 d2
        exact e3 _ _ _ _ (d1.mono le2) d2
      | true =>
        refine Ev.succ (by unfold uB; omega) ?_
        intro F v pt pu W dt du
        obtain ⟨a, pl, pr, rfl, ha, dl, dr⟩ := dt.node_inv
        obtain ⟨b, pl', pr', rfl, hb, dl', dr'⟩ := du.node_inv
        refine hh F a b v W _ _ _ ha hb rfl rfl ?_
        simp only [Bool.not_true, Bool.false_eq_true, if_false]
        cases rev with
        | true => exact dt
        | false => exact du
  rcases hcmp : compareP p q with ⟨res, rev, common, child⟩
  cases res with
  | same => exact key _ _ _ _ (by simp) hcmp
  | contains => exact key _ _ _ _ (by simp) hcmp
  | isContained => exact key _ _ _ _ (by simp) hcmp
  | disjoint =>
    refine Ev.succ (by unfold uB; omega) ?_
    intro F v pt pu W dt du
    obtain ⟨a, pl, pr, rfl, ha, dl, dr⟩ := dt.node_inv
    obtain ⟨b, pl', pr', rfl, hb, dl', dr'⟩ := du.node_inv
    rw [SetNode.intersect]
    unfold intersect
    refine wp_deref ha (wp_deref hb ?_)
    simp only [hcmp]
    exact Den.nil

end Heap
end Addrs

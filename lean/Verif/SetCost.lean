import Verif.HeapSetProofs2
import Verif.HeapDiffCost
/-
  How often the functions of setnode.go call themselves, as functions of the trees.
-/
set_option linter.unusedSectionVars false
namespace Addrs
open GoWord LawfulGoWord

namespace SetNode
open Trie
variable {α : Type} [GoWord α]

/-- ipv4/setnode.go:89-187: the calls of `Union` that look at two nodes, at most (pointers that happen to be
    equal only save calls).  `F` is the bound on the depth of recursion. -/
def unionCalls : Nat → SetNode α → SetNode α → Nat
  | 0, _, _ => 0
  | _ + 1, _, .nil => 0
  | _ + 1, .nil, _ => 0
  | F + 1, .node p d n m act l r, .node q e n' m' act' l' r' =>
    match compareP p q with
    | (.same, _, _, _) => if act || act' then 1 else 1 + unionCalls F l l' + unionCalls F r r'
    | (.disjoint, _, _, _) => 1
    | (_, reversed, _, child) =>
      if reversed then
        if act' then 1 else 1 + unionCalls F (if child then r' else l') (.node p d n m act l r)
      else
        if act then 1 else 1 + unionCalls F (if child then r else l) (.node q e n' m' act' l' r')

/-- ipv4/setnode.go:198-248: the calls of `Difference` that look at two nodes -/
def diffCalls : Nat → SetNode α → SetNode α → Nat
  | 0, _, _ => 0
  | _ + 1, .nil, _ => 0
  | _ + 1, _, .nil => 0
  | F + 1, .node p d n m act l r, .node q e n' m' act' l' r' =>
    match compareP p q with
    | (.isContained, _, _, child) =>
      if act' then 1 else 1 + diffCalls F (.node p d n m act l r) (if child then r' else l')
    | (.disjoint, _, _, _) => 1
    | (.same, _, _, _) =>
      if !act then 1 + diffCalls F l (.node q e n' m' act' l' r') + diffCalls F r (.node q e n' m' act' l' r')
      else if act' then 1
      else 1 + diffCalls F (fromPrefix p.halves.1) l' + diffCalls F (fromPrefix p.halves.2) r'
    | (.contains, _, _, child) =>
      if !act then 1 + diffCalls F l (.node q e n' m' act' l' r') + diffCalls F r (.node q e n' m' act' l' r')
      else 1 + diffCalls F (fromPrefix (if child then p.halves.2 else p.halves.1)) (.node q e n' m' act' l' r')

/-- ipv4/setnode.go:251-275: the calls of `Intersect` that look at two nodes -/
def interCalls : Nat → SetNode α → SetNode α → Nat
  | 0, _, _ => 0
  | _ + 1, .nil, _ => 0
  | _ + 1, _, .nil => 0
  | F + 1, .node p d n m act l r, .node q e n' m' act' l' r' =>
    match compareP p q with
    | (.disjoint, _, _, _) => 1
    | _ =>
      if !act then 1 + interCalls F (.node q e n' m' act' l' r') l + interCalls F (.node q e n' m' act' l' r') r
      else if !act' then 1 + interCalls F (.node p d n m act l r) l' + interCalls F (.node p d n m act l r) r'
      else 1

theorem unionCalls_nil_right (F : Nat) (t : SetNode α) : unionCalls F t .nil = 0 := by
  cases F <;> cases t <;> simp [unionCalls]
theorem unionCalls_nil_left (F : Nat) (t : SetNode α) : unionCalls F .nil t = 0 := by
  cases F <;> cases t <;> simp [unionCalls]
theorem diffCalls_nil_right (F : Nat) (t : SetNode α) : diffCalls F t .nil = 0 := by
  cases F <;> cases t <;> simp [diffCalls]
theorem diffCalls_nil_left (F : Nat) (t : SetNode α) : diffCalls F .nil t = 0 := by
  cases F <;> cases t <;> simp [diffCalls]
theorem interCalls_nil_right (F : Nat) (t : SetNode α) : interCalls F t .nil = 0 := by
  cases F <;> cases t <;> simp [interCalls]
theorem interCalls_nil_left (F : Nat) (t : SetNode α) : interCalls F .nil t = 0 := by
  cases F <;> cases t <;> simp [interCalls]

/-! ### Union -/

theorem unionCalls_le : ∀ (F : Nat) (t u : SetNode α), unionCalls F t u ≤ t.nodes + u.nodes := by
  intro F
  induction F with
  | zero => intros; simp [unionCalls]
  | succ F ih =>
    intro t u
    cases t with
    | nil => rw [unionCalls_nil_left]; omega
    | node p d n m act l r =>
    cases u with
    | nil => rw [unionCalls_nil_right]; omega
    | node q e n' m' act' l' r' =>
    have h1 := ih l l'; have h2 := ih r r'
    have h3 := ih r' (.node p d n m act l r); have h4 := ih l' (.node p d n m act l r)
    have h5 := ih r (.node q e n' m' act' l' r'); have h6 := ih l (.node q e n' m' act' l' r')
    simp only [nodes] at h3 h4 h5 h6 ⊢
    rcases hc : compareP p q with ⟨res, rev, k, child⟩
    simp only [unionCalls, hc]
    cases res <;> simp only
    case same => split <;> omega
    case disjoint => omega
    all_goals cases rev <;> cases child <;> simp only [Bool.false_eq_true, if_false, if_true] <;> split <;> omega

/-- a single prefix: one path -/
theorem unionCalls_leaf : ∀ (F : Nat) (t : SetNode α) (p : Prefix α), unionCalls F t (fromPrefix p) ≤ t.deep := by
  intro F
  induction F with
  | zero => intros; simp [unionCalls]
  | succ F ih =>
    intro t q
    cases t with
    | nil => rw [unionCalls_nil_left]; omega
    | node p d n m act l r =>
    have h1 := ih l q; have h2 := ih r q
    unfold fromPrefix at h1 h2 ⊢
    rcases hc : compareP p q with ⟨res, rev, k, child⟩
    simp only [unionCalls, hc, deep]
    cases res <;> simp only
    case same => simp
    case disjoint => omega
    all_goals cases rev <;> cases child <;> simp only [Bool.false_eq_true, if_false, if_true] <;> (try split) <;> omega

end SetNode

namespace SetNode
open Trie
variable {α : Type} [LawfulGoWord α]

theorem compareP_apart {p q q' : Prefix α} {b c : Bool} (h : Sub p q b) (h' : Sub p q' c) (hbc : b ≠ c) (wq : q.WF) (wq' : q'.WF) :
    (compareP q q').1 = .disjoint := by
  have n1 : ¬ SubEq q q' := fun hs => hbc ((h.trans_subEq hs).side.symm.trans h'.side)
  have n2 : ¬ SubEq q' q := fun hs => hbc (h.side.symm.trans (h'.trans_subEq hs).side)
  rcases compareP_cases wq wq' with ⟨hk, he⟩ | ⟨c, hs, he⟩ | ⟨c, hs, he⟩ | ⟨k, rev, c, h1, h2, h3, h4, h5, h6, he⟩
  · exact (n1 ⟨by rw [hk.1]; exact Nat.le_refl _, hk.2⟩).elim
  · exact (n1 hs.subEq).elim
  · exact (n2 hs.subEq).elim
  · rw [he]

/-- trees on different sides: one call -/
theorem unionCalls_apart {p : Prefix α} {b c : Bool} {t u : SetNode α} (ht : Inv t) (hu : Inv u) (h : Within p b t)
    (h' : Within p c u) (hbc : b ≠ c) (F : Nat) : unionCalls F t u ≤ 1 := by
  cases F with
  | zero => simp [unionCalls]
  | succ F =>
    cases t with
    | nil => rw [unionCalls_nil_left]; omega
    | node q d n m act l r =>
    cases u with
    | nil => rw [unionCalls_nil_right]; omega
    | node q' e n' m' act' l' r' =>
    have := compareP_apart h h' hbc ht.wf hu.wf
    rcases hc : compareP q q' with ⟨res, rev, k, child⟩
    rw [hc] at this
    simp only at this
    subst this
    simp [unionCalls, hc]

/-- where the addresses are tells where the tree is -/
theorem Inv.within_of_mem {t : SetNode α} (hi : Inv t) {p : Prefix α} (hp : p.len < width α) {b : Bool}
    (h : ∀ x, Mem t x → Covers p x ∧ bit x p.len = b) : Within p b t := by
  cases hi with
  | nil => trivial
  | leaf q hq =>
    have hs := h q.addr (mem_fromPrefix.mpr (Covers.self q))
    show Sub p q b
    refine ⟨?_, hs.1, hs.2⟩
    apply Nat.lt_of_not_le
    intro hle
    have wf : (⟨q.addr, p.len⟩ : Prefix α).WF := Nat.le_of_lt hp
    have h1 := h (Prefix.network ⟨q.addr, p.len⟩).addr (mem_fromPrefix.mpr ((agree_network wf).symm.mono hle))
    have h2 := h (Prefix.broadcast ⟨q.addr, p.len⟩).addr (mem_fromPrefix.mpr (by
      intro i hi'
      rw [bit_broadcast wf (by have := hq; unfold Prefix.WF at this; omega)]
      have : i < p.len := by omega
      simp [this]))
    rw [bit_network wf] at h1
    rw [bit_broadcast wf hp] at h2
    simp at h1 h2
    have := h1.2.symm.trans h2.2
    cases this
  | inner q l r hz ul ur hl hr nm =>
    obtain ⟨x, hx⟩ := hl.exists_mem ul.ne_nil
    obtain ⟨y, hy⟩ := hr.exists_mem ur.ne_nil
    have a1 := hl.within_mem ul.within hx
    have a2 := hr.within_mem ur.within hy
    have b1 := h x (mem_mk.mpr (Or.inl hx))
    have b2 := h y (mem_mk.mpr (Or.inr hy))
    have hlt : p.len < q.len := by
      apply Nat.lt_of_not_le
      intro hle
      have : bit x q.len = bit y q.len := by
        rcases Nat.lt_or_eq_of_le hle with h | h
        · rw [← b1.1 q.len h, ← b2.1 q.len h]
        · rw [h, b1.2, b2.2]
      rw [a1.2, a2.2] at this
      cases this
    show Sub p q b
    refine ⟨hlt, b1.1.trans (a1.1.symm.mono (Nat.le_of_lt hlt)), ?_⟩
    rw [a1.1 p.len hlt]; exact b1.2

/-! ### Difference -/

/-- the length of the prefix at the root -/
def rootLen : SetNode α → Nat
  | .nil => 0
  | .node p _ _ _ _ _ _ => p.len

theorem Inv.rootLen_le {t : SetNode α} (h : Inv t) : rootLen t ≤ width α := by
  cases t with
  | nil => exact Nat.zero_le _
  | node => exact h.wf

theorem fromPrefix_nodes (p : Prefix α) : (fromPrefix p).nodes = 1 := rfl

theorem diffCalls_leaf_left : ∀ (F : Nat) {p : Prefix α} {u : SetNode α}, p.WF → Inv u →
    diffCalls F (fromPrefix p) u ≤ 2 * (width α + 1) * u.nodes + (rootLen u - p.len) := by
  intro F
  induction F with
  | zero => intros; simp [diffCalls]
  | succ F ih =>
    intro p u hp hu
    cases u with
    | nil => rw [diffCalls_nil_right]; omega
    | node q e n' m' act' l' r' =>
    have hq := hu.wf
    have hp' : p.len ≤ width α := hp
    have hq' : q.len ≤ width α := hq
    have hW : width α + 1 ≤ 2 * (width α + 1) := by omega
    obtain ⟨K, hK⟩ : ∃ K, 2 * (width α + 1) = K := ⟨_, rfl⟩
    rw [hK] at ih hW ⊢
    simp only [nodes, Nat.mul_add, Nat.mul_one, rootLen]
    have hch : act' = false → Inv l' ∧ Inv r' := fun h => by
      subst h; obtain ⟨_, _, _, _, hl, hr, _⟩ := hu.inactive; exact ⟨hl, hr⟩
    unfold fromPrefix
    rcases compareP_cases hp hq with ⟨hk, he⟩ | ⟨c, hs, he⟩ | ⟨c, hs, he⟩ | ⟨k, rev, c, h1, h2, h3, h4, h5, h6, he⟩
    · simp only [diffCalls, he, Bool.not_true, Bool.false_eq_true, if_false]
      cases act' with
      | true => simp only [if_true]; omega
      | false =>
        simp only [Bool.false_eq_true, if_false]
        obtain ⟨_, _, ul, ur, hl, hr, _⟩ := hu.inactive
        have hlt : p.len < width α := by
          have := hl.rootLen_le
          cases l' with
          | nil => exact ul.elim
          | node => have := ul.lt; simp only [rootLen] at *; rw [hk.1]; omega
        obtain ⟨s1, s2, e1, e2⟩ := halves_sub hlt
        have i1 := ih (p := p.halves.1) (u := l') (by unfold Prefix.WF; omega) hl
        have i2 := ih (p := p.halves.2) (u := r') (by unfold Prefix.WF; omega) hr
        have := hl.rootLen_le; have := hr.rootLen_le
        omega
    · simp only [diffCalls, he, Bool.not_true, Bool.false_eq_true, if_false]
      have hlt : p.len < width α := by have := hs.lt; omega
      obtain ⟨s1, s2, e1, e2⟩ := halves_sub hlt
      have := hs.lt
      have i1 := ih (p := p.halves.1) (by unfold Prefix.WF; omega) hu
      have i2 := ih (p := p.halves.2) (by unfold Prefix.WF; omega) hu
      simp only [nodes, Nat.mul_add, Nat.mul_one, rootLen] at i1 i2
      cases c <;> simp only [Bool.false_eq_true, if_false, if_true] <;> omega
    · simp only [diffCalls, he]
      cases act' with
      | true => simp only [if_true]; omega
      | false =>
        obtain ⟨hl, hr⟩ := hch rfl
        have i1 := ih (p := p) hp hl
        have i2 := ih (p := p) hp hr
        unfold fromPrefix at i1 i2
        have := hl.rootLen_le; have := hr.rootLen_le
        cases c <;> simp only [Bool.false_eq_true, if_false, if_true] <;> omega
    · simp only [diffCalls, he]; omega

/-- a full-length prefix on the left: one path -/
theorem diffCalls_address_left : ∀ (F : Nat) {p : Prefix α} {u : SetNode α}, p.len = width α → Inv u →
    diffCalls F (fromPrefix p) u ≤ u.deep := by
  intro F
  induction F with
  | zero => intros; simp [diffCalls]
  | succ F ih =>
    intro p u hp hu
    cases u with
    | nil => rw [diffCalls_nil_right]; omega
    | node q e n' m' act' l' r' =>
    have hq := hu.wf
    have hq' : q.len ≤ width α := hq
    have hp' : p.WF := by unfold Prefix.WF; omega
    simp only [deep]
    unfold fromPrefix
    rcases compareP_cases hp' hq with ⟨hk, he⟩ | ⟨c, hs, he⟩ | ⟨c, hs, he⟩ | ⟨k, rev, c, h1, h2, h3, h4, h5, h6, he⟩
    · simp only [diffCalls, he, Bool.not_true, Bool.false_eq_true, if_false]
      cases act' with
      | true => simp only [if_true]; omega
      | false =>
        obtain ⟨_, _, ul, ur, hl, hr, _⟩ := hu.inactive
        have := hl.rootLen_le
        cases l' with
        | nil => exact ul.elim
        | node => have := ul.lt; have := hk.1; simp only [rootLen] at *; omega
    · have := hs.lt; omega
    · simp only [diffCalls, he]
      cases act' with
      | true => simp only [if_true]; omega
      | false =>
        obtain ⟨_, _, ul, ur, hl, hr, _⟩ := hu.inactive
        have i1 := ih (p := p) hp hl
        have i2 := ih (p := p) hp hr
        unfold fromPrefix at i1 i2
        cases c <;> simp only [Bool.false_eq_true, if_false, if_true] <;> omega
    · simp only [diffCalls, he]; omega

/-- trees on different sides: one call -/
theorem diffCalls_apart {p : Prefix α} {b c : Bool} {t u : SetNode α} (ht : Inv t) (hu : Inv u) (h : Within p b t)
    (h' : Within p c u) (hbc : b ≠ c) (F : Nat) : diffCalls F t u ≤ 1 := by
  cases F with
  | zero => simp [diffCalls]
  | succ F =>
    cases t with
    | nil => rw [diffCalls_nil_left]; omega
    | node q d n m act l r =>
    cases u with
    | nil => rw [diffCalls_nil_right]; omega
    | node q' e n' m' act' l' r' =>
    have := compareP_apart h h' hbc ht.wf hu.wf
    rcases hc : compareP q q' with ⟨res, rev, k, child⟩
    rw [hc] at this
    simp only at this
    subst this
    simp [diffCalls, hc]

/-- a single prefix on the right: two paths -/
theorem diffCalls_leaf_right : ∀ (F : Nat) {t : SetNode α} {q : Prefix α}, Inv t → q.WF →
    diffCalls F t (fromPrefix q) ≤ 2 * t.deep + 2 * (width α + 1) + width α := by
  intro F
  induction F with
  | zero => intros; simp [diffCalls]
  | succ F ih =>
    intro t q ht hq
    cases t with
    | nil => rw [diffCalls_nil_left]; omega
    | node p d n m act l r =>
    have hp := ht.wf
    have hl0 : Inv (fromPrefix q) := .leaf q hq
    cases act with
    | true =>
      obtain ⟨e, _⟩ := ht.active
      rw [e]
      have h1 := diffCalls_leaf_left (F + 1) hp hl0
      have h2 := hl0.rootLen_le
      rw [fromPrefix_nodes] at h1
      omega
    | false =>
      obtain ⟨_, _, ul, ur, hl, hr, _⟩ := ht.inactive
      have i1 := ih hl hq; have i2 := ih hr hq
      simp only [deep]
      unfold fromPrefix at i1 i2 ⊢
      rcases compareP_cases hp hq with ⟨hk, he⟩ | ⟨c, hs, he⟩ | ⟨c, hs, he⟩ | ⟨k, rev, c, h1, h2, h3, h4, h5, h6, he⟩
      · -- both children are contained in the prefix
        have key : ∀ {x : SetNode α} {b : Bool}, Inv x → Under p b x → diffCalls F x (.node q none 1 1 true .nil .nil) ≤ 1 := by
          intro x b hx ux
          cases F with
          | zero => simp [diffCalls]
          | succ F =>
            cases x with
            | nil => exact ux.elim
            | node y _ _ _ _ _ _ =>
              have ux : Sub q y b := Sub.congr_left ux hk
              rcases compareP_cases hx.wf hq with ⟨hk', he'⟩ | ⟨c, hs, he'⟩ | ⟨c, hs, he'⟩ | ⟨k, rev, c, h1, h2, h3, h4, h5, h6, he'⟩
              · exact (ux.not_sameKey' hk').elim
              · have := hs.lt; have := ux.lt; omega
              · simp [diffCalls, he']
              · simp [diffCalls, he']
        have := key hl ul; have := key hr ur
        simp only [diffCalls, he, Bool.not_false, if_true]
        omega
      · simp only [diffCalls, he, Bool.not_false, if_true]
        cases c with
        | true =>
          have : diffCalls F l (fromPrefix q) ≤ 1 := diffCalls_apart hl hl0 ul.within (show Within p true (fromPrefix q) from hs) (by simp) F
          unfold fromPrefix at this
          omega
        | false =>
          have : diffCalls F r (fromPrefix q) ≤ 1 := diffCalls_apart hr hl0 ur.within (show Within p false (fromPrefix q) from hs) (by simp) F
          unfold fromPrefix at this
          omega
      · simp only [diffCalls, he, if_true]; omega
      · simp only [diffCalls, he]; omega

/-- one level down on the right if the left tree is below the right root -/
theorem diffCalls_below (F : Nat) {q : Prefix α} {e n' m' act' l' r'} {x : SetNode α} {b : Bool} (hx : Inv x)
    (hu : Inv (.node q e n' m' act' l' r' : SetNode α)) (ux : Under q b x) :
    ∃ G, diffCalls F x (.node q e n' m' act' l' r') ≤ 1 + (if act' then 0 else diffCalls G x (if b then r' else l')) := by
  cases F with
  | zero => exact ⟨0, by simp [diffCalls]⟩
  | succ F =>
    cases x with
    | nil => exact ux.elim
    | node y _ _ _ _ _ _ =>
      have ux' : Sub q y b := ux
      rcases compareP_cases hx.wf hu.wf with ⟨hk, he⟩ | ⟨c, hs, he⟩ | ⟨c, hs, he⟩ | ⟨k, rev, c, h1, h2, h3, h4, h5, h6, he⟩
      · exact (ux'.not_sameKey' hk).elim
      · have := hs.lt; have := ux'.lt; omega
      · have : c = b := hs.side.symm.trans ux'.side
        subst this
        refine ⟨F, ?_⟩
        simp only [diffCalls, he]
        split <;> simp
      · refine ⟨0, ?_⟩
        simp only [diffCalls, he]; omega

theorem diffCalls_le (N : Nat) : ∀ {t u : SetNode α}, t.nodes + u.nodes ≤ N → Inv t → Inv u → ∀ F,
    diffCalls F t u ≤ (3 * width α + 3) * (t.nodes + u.nodes) := by
  induction N with
  | zero =>
    intro t u hN ht hu F
    cases t with
    | nil => rw [diffCalls_nil_left]; omega
    | node => simp only [nodes] at hN; omega
  | succ N ih =>
    intro t u hN ht hu F
    cases F with
    | zero => simp [diffCalls]
    | succ F =>
    cases t with
    | nil => rw [diffCalls_nil_left]; omega
    | node p d n m act l r =>
    cases u with
    | nil => rw [diffCalls_nil_right]; omega
    | node q e n' m' act' l' r' =>
    have hp := ht.wf
    have hq := hu.wf
    have hq' : q.len ≤ width α := hq
    cases act with
    | true =>
      obtain ⟨ea, _⟩ := ht.active
      rw [ea]
      have h1 := diffCalls_leaf_left (F + 1) hp hu
      rw [fromPrefix_nodes]
      have h2 : 2 * (width α + 1) * nodes (.node q e n' m' act' l' r' : SetNode α) ≤
        (3 * width α + 3) * nodes (.node q e n' m' act' l' r' : SetNode α) := Nat.mul_le_mul_right _ (by omega)
      simp only [Nat.mul_add, Nat.mul_one, rootLen] at *
      omega
    | false =>
      obtain ⟨_, _, ul, ur, hl, hr, _⟩ := ht.inactive
      have hW : 3 ≤ 3 * width α + 3 := by omega
      obtain ⟨K, hK⟩ : ∃ K, 3 * width α + 3 = K := ⟨_, rfl⟩
      rw [hK] at ih hW ⊢
      simp only [nodes] at hN
      have hl1 : 1 ≤ l.nodes := by cases l with
        | nil => exact ul.elim
        | node => simp only [nodes]; omega
      have hr1 : 1 ≤ r.nodes := by cases r with
        | nil => exact ur.elim
        | node => simp only [nodes]; omega
      have hKl : K ≤ K * l.nodes := Nat.le_mul_of_pos_right K hl1
      have hKr : K ≤ K * r.nodes := Nat.le_mul_of_pos_right K hr1
      rcases compareP_cases hp hq with ⟨hk, he⟩ | ⟨c, hs, he⟩ | ⟨c, hs, he⟩ | ⟨k, rev, c, h1, h2, h3, h4, h5, h6, he⟩
      · simp only [diffCalls, he, Bool.not_false, if_true]
        have ul' : Under q false l := by
          cases l with
          | nil => exact ul.elim
          | node => exact Sub.congr_left ul hk
        have ur' : Under q true r := by
          cases r with
          | nil => exact ur.elim
          | node => exact Sub.congr_left ur hk
        obtain ⟨G1, g1⟩ := diffCalls_below F hl hu ul'
        obtain ⟨G2, g2⟩ := diffCalls_below F hr hu ur'
        cases act' with
        | true =>
          simp only [if_true] at g1 g2
          simp only [nodes, Nat.mul_add, Nat.mul_one]
          omega
        | false =>
          obtain ⟨_, _, ul2, ur2, hl2, hr2, _⟩ := hu.inactive
          simp only [Bool.false_eq_true, if_false, if_true] at g1 g2
          have i1 := ih (t := l) (u := l') (by omega) hl hl2 G1
          have i2 := ih (t := r) (u := r') (by omega) hr hr2 G2
          simp only [nodes, Nat.mul_add, Nat.mul_one] at *
          omega
      · simp only [diffCalls, he, Bool.not_false, if_true]
        have i1 := ih (t := l) (u := .node q e n' m' act' l' r') (by simp only [nodes]; omega) hl hu F
        have i2 := ih (t := r) (u := .node q e n' m' act' l' r') (by simp only [nodes]; omega) hr hu F
        simp only [nodes, Nat.mul_add, Nat.mul_one] at *
        cases c with
        | true =>
          have : diffCalls F l (.node q e n' m' act' l' r') ≤ 1 := diffCalls_apart hl hu ul.within (show Within p true _ from hs) (by simp) F
          omega
        | false =>
          have : diffCalls F r (.node q e n' m' act' l' r') ≤ 1 := diffCalls_apart hr hu ur.within (show Within p false _ from hs) (by simp) F
          omega
      · simp only [diffCalls, he]
        cases act' with
        | true => simp only [if_true, nodes, Nat.mul_add, Nat.mul_one]; omega
        | false =>
          obtain ⟨_, _, ul2, ur2, hl2, hr2, _⟩ := hu.inactive
          have i1 := ih (t := .node p d n m false l r) (u := l') (by simp only [nodes]; omega) ht hl2 F
          have i2 := ih (t := .node p d n m false l r) (u := r') (by simp only [nodes]; omega) ht hr2 F
          simp only [nodes, Nat.mul_add, Nat.mul_one] at *
          cases c <;> simp only [Bool.false_eq_true, if_false, if_true] <;> omega
      · simp only [diffCalls, he, nodes, Nat.mul_add, Nat.mul_one]; omega

/-! ### Intersection -/

open Classical in
/-- how many nodes of `u` have prefixes in `p` -/
noncomputable def inCount (p : Prefix α) : SetNode α → Nat
  | .nil => 0
  | .node q _ _ _ _ l r => (if SubEq p q then 1 else 0) + inCount p l + inCount p r

/-- the number of pairs of nodes of `t` and `u` such that the latter's prefix contains the former's -/
noncomputable def covered : SetNode α → SetNode α → Nat
  | .nil, _ => 0
  | .node p _ _ _ _ l r, u => u.touched [p] + covered l u + covered r u

theorem covered_nil (u : SetNode α) : covered u .nil = 0 := by
  induction u with
  | nil => rfl
  | node p d n m a l r ihl ihr => simp [covered, Trie.touched, ihl, ihr]

open Classical in
theorem covered_node (u : SetNode α) (p : Prefix α) (d n m a) (l r : SetNode α) :
    covered u (.node p d n m a l r) = inCount p u + covered u l + covered u r := by
  induction u with
  | nil => rfl
  | node q d' n' m' a' l' r' ihl ihr =>
    simp only [covered, ihl, ihr, inCount, Trie.touched]
    have : Touched [q] p ↔ SubEq p q := by simp [Touched]
    simp only [this]
    omega

theorem covered_le {t u : SetNode α} (hu : Inv u) : covered t u ≤ (width α + 1) * t.nodes := by
  induction t with
  | nil => simp [covered]
  | node p d n m a l r ihl ihr =>
    have := Trie.touched_one hu.tinv p
    have := hu.deep_le
    simp only [covered, nodes, Nat.mul_add, Nat.mul_one]
    omega

theorem interCalls_pairs : ∀ (F : Nat) {t u : SetNode α}, Inv t → Inv u →
    interCalls F t u ≤ 1 + 2 * (covered t u + covered u t) := by
  intro F
  induction F with
  | zero => intros; simp [interCalls]
  | succ F ih =>
    intro t u ht hu
    cases t with
    | nil => rw [interCalls_nil_left]; omega
    | node p d n m act l r =>
    cases u with
    | nil => rw [interCalls_nil_right]; omega
    | node q e n' m' act' l' r' =>
    by_cases hd : (compareP p q).1 = .disjoint
    · rcases hc : compareP p q with ⟨res, rev, k, child⟩
      rw [hc] at hd
      simp only at hd
      subst hd
      simp only [interCalls, hc]; omega
    · have hov : SubEq p q ∨ SubEq q p := by
        rcases compareP_cases ht.wf hu.wf with ⟨hk, he⟩ | ⟨c, hs, he⟩ | ⟨c, hs, he⟩ | ⟨k, rev, c, h1, h2, h3, h4, h5, h6, he⟩
        · exact Or.inl ⟨by rw [hk.1]; exact Nat.le_refl _, hk.2⟩
        · exact Or.inl hs.subEq
        · exact Or.inr hs.subEq
        · rw [he] at hd; exact (hd rfl).elim
      have hval : interCalls (F + 1) (.node p d n m act l r) (.node q e n' m' act' l' r') =
          if !act then 1 + interCalls F (.node q e n' m' act' l' r') l + interCalls F (.node q e n' m' act' l' r') r
          else if !act' then 1 + interCalls F (.node p d n m act l r) l' + interCalls F (.node p d n m act l r) r'
          else 1 := by
        rw [interCalls]
        rcases hc : compareP p q with ⟨res, rev, k, child⟩
        rw [hc] at hd
        cases res <;> first | rfl | exact (hd rfl).elim
      rw [hval]
      have h1 : 1 ≤ Trie.touched [p] (.node q e n' m' act' l' r' : SetNode α) + inCount p (.node q e n' m' act' l' r') := by
        simp only [Trie.touched, inCount]
        rcases hov with h | h
        · rw [if_pos (c := SubEq p q) h]; omega
        · rw [if_pos (c := Touched [p] q) ⟨p, by simp, h⟩]; omega
      have h2 : 1 ≤ Trie.touched [q] (.node p d n m act l r : SetNode α) + inCount q (.node p d n m act l r) := by
        simp only [Trie.touched, inCount]
        rcases hov with h | h
        · rw [if_pos (c := Touched [q] p) ⟨q, by simp, h⟩]; omega
        · rw [if_pos (c := SubEq q p) h]; omega
      cases act with
      | false =>
        obtain ⟨_, _, ul, ur, hl, hr, _⟩ := ht.inactive
        have i1 := ih hu hl
        have i2 := ih hu hr
        simp only [Bool.not_false, if_true]
        rw [covered_node (.node q e n' m' act' l' r') p]
        rw [show covered (.node p d n m false l r) (.node q e n' m' act' l' r') =
          Trie.touched [p] (.node q e n' m' act' l' r') + covered l (.node q e n' m' act' l' r') +
            covered r (.node q e n' m' act' l' r') from rfl]
        omega
      | true =>
        cases act' with
        | false =>
          obtain ⟨_, _, ul, ur, hl, hr, _⟩ := hu.inactive
          have i1 := ih ht hl
          have i2 := ih ht hr
          simp only [Bool.not_false, Bool.not_true, if_true, Bool.false_eq_true, if_false]
          rw [covered_node (.node p d n m true l r) q]
          rw [show covered (.node q e n' m' false l' r') (.node p d n m true l r) =
            Trie.touched [q] (.node p d n m true l r) + covered l' (.node p d n m true l r) +
              covered r' (.node p d n m true l r) from rfl]
          omega
        | true => simp only [Bool.not_true, Bool.false_eq_true, if_false]; omega

theorem interCalls_le (F : Nat) {t u : SetNode α} (ht : Inv t) (hu : Inv u) :
    interCalls F t u ≤ 1 + 2 * (width α + 1) * (t.nodes + u.nodes) := by
  have h1 := interCalls_pairs F ht hu
  have h2 := covered_le (t := t) hu
  have h3 := covered_le (t := u) ht
  rw [Nat.mul_assoc, Nat.mul_add (width α + 1)]
  omega

end SetNode
end Addrs

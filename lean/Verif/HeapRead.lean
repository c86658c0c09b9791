import Verif.HeapSetProofs2
import Verif.Walk
/-
  The heap code that only reads: Match, Equal, diff, Walk, NumAddresses, IsEmpty and the search of
  FindAvailablePrefix (which allocates temporary nodes).
-/
set_option linter.unusedSectionVars false
namespace Addrs
open GoWord LawfulGoWord
namespace Heap
open Prog
open SetNode (Inv)
variable {α : Type} [LawfulGoWord α]
variable {st : Prop} {β D : Type}

/-- `Match`: a pointer to the matching node, whose fields are those of `Trie.match` -/
theorem wp_match [GoType D] (k : Prefix α) : ∀ (F : Nat) {t : Trie α D}, t.deep < F →
    ∀ {v : View α D} {p : Ptr} {W : Nat → Prop}, Den v p t →
    wp st (fun x _ => match x with
      | none => t.match k = none
      | some a => ∃ c, v a = some c ∧ t.match k = some (c.pfx, c.data)) («match» k F p) v W := by
  intro F
  induction F with
  | zero => intro t h; omega
  | succ F ih =>
    intro t hF v p W dt
    cases dt with
    | nil => exact rfl
    | @node a c l r ha dl dr =>
    simp only [Trie.deep] at hF
    unfold «match»
    refine wp_deref ha ?_
    rw [Trie.match]
    split
    · exact rfl
    rcases hc : containsP c.pfx k with ⟨m, exact', common, child⟩
    simp only
    cases m with
    | false => exact rfl
    | true =>
      simp only [Bool.not_true, Bool.false_eq_true, if_false]
      cases exact' with
      | true =>
        simp only [Bool.not_true, Bool.false_eq_true, if_false]
        show wp _ _ (if (!c.active) = true then pure none else pure (some a)) _ _
        cases hact : c.active with
        | false => exact rfl
        | true => exact ⟨c, ha, rfl⟩
      | false =>
        simp only [Bool.not_false, if_true]
        have hsub : wp st (fun x _ => match x with
            | none => (if child then r.match k else l.match k) = none
            | some a => ∃ c, v a = some c ∧ (if child then r.match k else l.match k) = some (c.pfx, c.data))
            («match» k F (Cell.child c child)) v Nowhere := by
          cases child with
          | true => exact ih (by omega) dr
          | false => exact ih (by omega) dl
        refine wp_call hsub ?_
        intro x v1 le1 hx
        cases x with
        | none =>
          simp only at hx
          rw [hx]
          show wp _ _ (if (!c.active) = true then pure none else pure (some a)) _ _
          cases hact : c.active with
          | false => exact rfl
          | true => exact ⟨c, ha, rfl⟩
        | some b =>
          obtain ⟨c', h1, h2⟩ := hx
          rw [h2]
          exact ⟨c', h1, rfl⟩

theorem equal_self {eq : Option D → Option D → Bool} (hr : ∀ d, eq d d = true) (t : Trie α D) :
    Trie.equal eq t t = true := by
  induction t with
  | nil => rfl
  | node p d n h act l r ihl ihr => simp [Trie.equal, hr, ihl, ihr]

/-- `Equal` -/
theorem wp_equal {eq : Option D → Option D → Bool} (hr : ∀ d, eq d d = true) :
    ∀ (F : Nat) {t u : Trie α D}, t.deep + u.deep < F →
    ∀ {v : View α D} {p q : Ptr} {W : Nat → Prop}, Den v p t → Den v q u →
    wp st (fun x _ => x = t.equal eq u) (equal (fun a b => some (eq a b)) F p q) v W := by
  intro F
  induction F with
  | zero => intro t u h; omega
  | succ F ih =>
    intro t u hF v p q W dt du
    unfold equal
    split
    · next e =>
      subst e
      rw [dt.functional du]
      exact (equal_self hr u).symm
    next hne =>
    split
    · rw [dt.none_inv]
      cases du with
      | nil => exact absurd rfl hne
      | node => simp only [Trie.equal]; exact rfl
    · rw [du.none_inv]
      cases dt with
      | nil => exact absurd rfl hne
      | node => simp only [Trie.equal]; exact rfl
    next a b =>
    obtain ⟨c, l, r, ha, dl, dr, rfl⟩ := dt.some_inv
    obtain ⟨d, l', r', hb, dl', dr', rfl⟩ := du.some_inv
    simp only [Trie.deep] at hF
    refine wp_deref ha (wp_deref hb ?_)
    simp only [Trie.equal, bne_iff_ne, ne_eq]
    split
    · exact rfl
    split
    · exact rfl
    have tail : wp st (fun x x_1 =>
      x = (if (!l.equal eq l') = true then false else if (!r.equal eq r') = true then false else true))
      (do
        let x ← equal (fun a b => some (eq a b)) F c.l d.l
        if (!x) = true then pure false
        else do
          let y ← equal (fun a b => some (eq a b)) F c.r d.r
          if (!y) = true then pure false else pure true) v W := by
      refine wp_call (ih (by omega) dl dl') ?_
      intro x v1 le1 hx
      rw [hx]
      split
      · exact rfl
      refine wp_call (ih (by omega) (dr.mono le1) (dr'.mono le1)) ?_
      intro y v2 le2 hy
      rw [hy]
      split <;> exact rfl
    cases hact : c.active with
    | false => simpa using tail
    | true =>
      simp only [Bool.true_and]
      show wp _ _ (if (!eq c.data d.data) = true then _ else _) _ _
      cases eq c.data d.data with
      | false => exact rfl
      | true => simpa using tail

/-- `NumAddresses` -/
theorem wp_numAddresses : ∀ (F : Nat) {t : SetNode (BitVec 32)}, t.deep < F →
    ∀ {v : View (BitVec 32) Empty} {p : Ptr} {W : Nat → Prop}, Den v p t →
    wp st (fun x _ => x = SetNode.numAddresses t) (numAddresses F p) v W := by
  intro F
  induction F with
  | zero => intro t h; omega
  | succ F ih =>
    intro t hF v p W dt
    cases dt with
    | nil => exact rfl
    | @node a c l r ha dl dr =>
    simp only [Trie.deep] at hF
    unfold numAddresses
    refine wp_deref ha ?_
    rw [SetNode.numAddresses]
    split
    · exact rfl
    refine wp_call (ih (by omega) dl) ?_
    intro x v1 le1 hx
    refine wp_call (ih (by omega) (dr.mono le1)) ?_
    intro y v2 le2 hy
    rw [hx, hy]
    exact rfl

/-- `IsEmpty` (ipv6) -/
theorem wp_isEmpty : ∀ (F : Nat) {t : SetNode α}, t.deep < F →
    ∀ {v : View α Empty} {p : Ptr} {W : Nat → Prop}, Den v p t →
    wp st (fun x _ => x = SetNode.isEmpty t) (isEmpty F p) v W := by
  intro F
  induction F with
  | zero => intro t h; omega
  | succ F ih =>
    intro t hF v p W dt
    cases dt with
    | nil => exact rfl
    | @node a c l r ha dl dr =>
    simp only [Trie.deep] at hF
    unfold isEmpty
    refine wp_deref ha ?_
    rw [SetNode.isEmpty]
    split
    · exact rfl
    refine wp_call (ih (by omega) dl) ?_
    intro x v1 le1 hx
    rw [hx]
    cases SetNode.isEmpty l with
    | false => exact rfl
    | true =>
      simp only [Bool.not_true, Bool.false_eq_true, if_false, Bool.true_and]
      exact ih (by omega) (dr.mono le1)

theorem wp_best {lv rv : Option (Prefix α)} {l r : SProg α (Option (Prefix α))} {length : Nat}
    {v : View α Empty} {W : Nat → Prop} (hl : wp st (fun x _ => x = lv) l v Nowhere)
    (hr : ∀ v', v ≤ v' → wp st (fun x _ => x = rv) r v' Nowhere) :
    wp st (fun x _ => x = SetNode.best lv rv length) (best l r length) v W := by
  unfold best
  refine wp_call hl ?_
  intro x v1 le1 hx
  subst hx
  cases x with
  | none =>
    simp only
    refine wp_call (hr v1 le1) ?_
    intro y v2 le2 hy
    subst hy
    cases y <;> exact rfl
  | some lp =>
    simp only [SetNode.best]
    split
    · exact rfl
    refine wp_call (hr v1 le1) ?_
    intro y v2 le2 hy
    subst hy
    cases y with
    | none => exact rfl
    | some rp => simp only; split <;> exact rfl

/-- `findSmallestContainingPrefix` -/
theorem wp_findSmallest (length : Nat) : ∀ (F : Nat) {t : SetNode α}, t.deep < F →
    ∀ {v : View α Empty} {p : Ptr} {W : Nat → Prop}, Den v p t →
    wp st (fun x _ => x = SetNode.findSmallest length t) (findSmallest length F p) v W := by
  intro F
  induction F with
  | zero => intro t h; omega
  | succ F ih =>
    intro t hF v p W dt
    cases dt with
    | nil => exact rfl
    | @node a c l r ha dl dr =>
    simp only [Trie.deep] at hF
    unfold findSmallest
    refine wp_deref ha ?_
    rw [SetNode.findSmallest]
    split
    · exact rfl
    split
    · exact rfl
    refine wp_call (wp_best (ih (by omega) dl) fun v' le => ih (by omega) (dr.mono le)) ?_
    intro x v1 le1 hx
    subst hx
    cases SetNode.best (SetNode.findSmallest length l) (SetNode.findSmallest length r) length with
    | none => simp only; split <;> exact rfl
    | some b => exact rfl

/-- `FindSmallestContainingPrefix` -/
theorem computes_findSmallestReserved (length : Nat) : ∀ (N : Nat) {t u : SetNode α},
    t.deep + u.deep + room t ≤ N → Inv t → Inv u →
    Ev (N + (width α + 2)) fun F => ∀ (v : View α Empty) (p q : Ptr) (W : Nat → Prop),
      Den v p t → Den v q u → wp False (fun x _ => x = SetNode.findSmallestReserved length t u)
        (findSmallestReserved length F p q) v W := by
  intro N
  induction N using Nat.strongRecOn with
  | ind N ih =>
  intro t u hN ht hu
  cases t with
  | nil =>
    refine Ev.succ (by omega) ?_
    intro F v p q W dt du
    rw [dt.nil_inv, SetNode.findSmallestReserved]
    exact rfl
  | node p d n m act l r =>
  have hfs : Ev (width α + 2) fun F => ∀ (v : View α Empty) (q : Ptr) (W : Nat → Prop),
      Den v q (.node p d n m act l r) → wp False
        (fun x _ => x = SetNode.findSmallest length (.node p d n m act l r))
        (findSmallest length F q) v W :=
    fun F hF v q W dt => wp_findSmallest length F (by have := ht.deep_le; omega) dt
  by_cases hlen : length < p.len
  · refine Ev.succ (by omega) ?_
    intro F v pt pu W dt du
    obtain ⟨a, pl, pr, rfl, ha, dl, dr⟩ := dt.node_inv
    unfold findSmallestReserved
    refine wp_deref ha ?_
    simp only [hlen, if_true]
    cases u <;> · rw [SetNode.findSmallestReserved]; simp only [hlen, if_true]; exact rfl
  cases u with
  | nil =>
    simp only [Trie.deep, room] at hN
    refine hfs.step (by omega) ?_
    intro F e1 v pt pu W dt du
    obtain ⟨a, pl, pr, rfl, ha, dl, dr⟩ := dt.node_inv
    rw [SetNode.findSmallestReserved, du.nil_inv]
    unfold findSmallestReserved
    refine wp_deref ha ?_
    simp only [hlen, if_false]
    exact e1 _ _ _ dt
  | node q e n' m' act' l' r' =>
  have wa := ht.wf
  have wb := hu.wf
  simp only [Trie.deep, room] at hN
  have hinner : act = false → Ev (N - 1 + (width α + 2)) fun F => ∀ (v : View α Empty) (b : Nat) (pl pr : Ptr) (W : Nat → Prop),
      Den v (some b) (.node q e n' m' act' l' r') → Den v pl l → Den v pr r →
      wp False (fun x _ => x = SetNode.best
          (SetNode.findSmallestReserved length l (.node q e n' m' act' l' r'))
          (SetNode.findSmallestReserved length r (.node q e n' m' act' l' r')) length)
        (best (findSmallestReserved length F pl (some b))
          (findSmallestReserved length F pr (some b)) length) v W := by
    intro hact
    subst hact
    obtain ⟨ea, hz, ul, ur, il, ir, nm⟩ := ht.inactive
    have rl := room_under ul
    have rr := room_under ur
    refine ((ih (N - 1) (by omega) (by meas) il hu).and (ih (N - 1) (by omega) (by meas) ir hu)).mono (by omega) ?_
    rintro F ⟨e1, e2⟩ v b pl pr W du dl dr
    exact wp_best (e1 _ _ _ _ dl du) fun v' le => e2 _ _ _ _ (dr.mono le) (du.mono le)
  rcases compareP_cases wa wb with ⟨hk, he⟩ | ⟨c, hs, he⟩ | ⟨c, hs, he⟩ |
    ⟨k, rev, c, h1, h2, h3, h4, h5, h6, he⟩
  · -- same
    cases act with
    | false =>
      refine (hinner rfl).step (by omega) ?_
      intro F e1 v pt pu W dt du
      obtain ⟨a, pl, pr, rfl, ha, dl, dr⟩ := dt.node_inv
      obtain ⟨b, pl', pr', rfl, hb, dl', dr'⟩ := du.node_inv
      rw [SetNode.findSmallestReserved]
      unfold findSmallestReserved
      refine wp_deref ha ?_
      simp only [hlen, if_false]
      refine wp_deref hb ?_
      simp only [he]
      exact e1 v b pl pr W du dl dr
    | true =>
      cases act' with
      | true =>
        refine Ev.succ (by omega) ?_
        intro F v pt pu W dt du
        obtain ⟨a, pl, pr, rfl, ha, dl, dr⟩ := dt.node_inv
        obtain ⟨b, pl', pr', rfl, hb, dl', dr'⟩ := du.node_inv
        rw [SetNode.findSmallestReserved]
        unfold findSmallestReserved
        refine wp_deref ha ?_
        simp only [hlen, if_false]
        refine wp_deref hb ?_
        simp only [he]
        exact rfl
      | false =>
        obtain ⟨eb, hz, ul, ur, il, ir, nm⟩ := hu.inactive
        have hlt : p.len < width α := by
          cases l' with
          | nil => exact ul.elim
          | node => rw [hk.1]; exact Nat.lt_of_lt_of_le ul.lt il.wf
        obtain ⟨g1, g2, g3, g4⟩ := halves_sub hlt
        have i1 : Inv (SetNode.fromPrefix p.halves.1) := .leaf _ (by rw [Prefix.WF, g3]; omega)
        have i2 : Inv (SetNode.fromPrefix p.halves.2) := .leaf _ (by rw [Prefix.WF, g4]; omega)
        refine ((ih (N - 1) (by omega) (by meas) i1 il).and (ih (N - 1) (by omega) (by meas) i2 ir)).step (by omega) ?_
        rintro F ⟨e1, e2⟩ v pt pu W dt du
        obtain ⟨a, pl, pr, rfl, ha, dl, dr⟩ := dt.node_inv
        obtain ⟨b, pl', pr', rfl, hb, dl', dr'⟩ := du.node_inv
        rw [SetNode.findSmallestReserved]
        unfold findSmallestReserved
        refine wp_deref ha ?_
        simp only [hlen, if_false]
        refine wp_deref hb ?_
        simp only [he, Bool.not_true, Bool.false_eq_true, if_false, hlt, if_true]
        refine wp_call (wp_fromPrefix (Q := fun x v' => Den v' x _) fun n v' _ h => h) ?_
        intro x v1 le1 d1
        refine wp_call (wp_fromPrefix (Q := fun x v' => Den v' x _) fun n v' _ h => h) ?_
        intro y v2 le2 d2
        have dl2 := dl'.mono (View.le_trans le1 le2)
        have dr2 := dr'.mono (View.le_trans le1 le2)
        exact wp_best (e1 _ _ _ _ (d1.mono le2) dl2)
          fun v' le => e2 _ _ _ _ (d2.mono le) (dr2.mono le)
  · -- contains
    cases act with
    | false =>
      refine (hinner rfl).step (by omega) ?_
      intro F e1 v pt pu W dt du
      obtain ⟨a, pl, pr, rfl, ha, dl, dr⟩ := dt.node_inv
      obtain ⟨b, pl', pr', rfl, hb, dl', dr'⟩ := du.node_inv
      rw [SetNode.findSmallestReserved]
      unfold findSmallestReserved
      refine wp_deref ha ?_
      simp only [hlen, if_false]
      refine wp_deref hb ?_
      simp only [he]
      exact e1 v b pl pr W du dl dr
    | true =>
      have hlt : p.len < width α := Nat.lt_of_lt_of_le hs.lt wb
      obtain ⟨g1, g2, g3, g4⟩ := halves_sub hlt
      have i1 : Inv (SetNode.fromPrefix p.halves.1) := .leaf _ (by rw [Prefix.WF, g3]; omega)
      have i2 : Inv (SetNode.fromPrefix p.halves.2) := .leaf _ (by rw [Prefix.WF, g4]; omega)
      cases c with
      | true =>
        refine ((ih (N - 1) (by omega) (by meas) i2 hu).and
          (fun F h => h : Ev 2 fun F => 2 ≤ F)).step (by omega) ?_
        rintro F ⟨e1, e2⟩ v pt pu W dt du
        obtain ⟨a, pl, pr, rfl, ha, dl, dr⟩ := dt.node_inv
        obtain ⟨b, pl', pr', rfl, hb, dl', dr'⟩ := du.node_inv
        rw [SetNode.findSmallestReserved]
        unfold findSmallestReserved
        refine wp_deref ha ?_
        simp only [hlen, if_false]
        refine wp_deref hb ?_
        simp only [he, Bool.not_true, Bool.false_eq_true, if_false, hlt, dif_pos, if_true]
        refine wp_call (wp_fromPrefix (Q := fun x v' => Den v' x _) fun n v' _ h => h) ?_
        intro x v1 le1 d1
        refine wp_call (wp_fromPrefix (Q := fun x v' => Den v' x _) fun n v' _ h => h) ?_
        intro y v2 le2 d2
        exact wp_best
          (wp_findSmallest length F (by simp only [SetNode.fromPrefix, Trie.deep]; omega) (d1.mono le2))
          fun v' le => e1 _ _ _ _ (d2.mono le) (du.mono (View.le_trans (View.le_trans le1 le2) le))
      | false =>
        refine ((ih (N - 1) (by omega) (by meas) i1 hu).and
          (fun F h => h : Ev 2 fun F => 2 ≤ F)).step (by omega) ?_
        rintro F ⟨e1, e2⟩ v pt pu W dt du
        obtain ⟨a, pl, pr, rfl, ha, dl, dr⟩ := dt.node_inv
        obtain ⟨b, pl', pr', rfl, hb, dl', dr'⟩ := du.node_inv
        rw [SetNode.findSmallestReserved]
        unfold findSmallestReserved
        refine wp_deref ha ?_
        simp only [hlen, if_false]
        refine wp_deref hb ?_
        simp only [he, Bool.not_true, Bool.false_eq_true, if_false, hlt, dif_pos]
        refine wp_call (wp_fromPrefix (Q := fun x v' => Den v' x _) fun n v' _ h => h) ?_
        intro x v1 le1 d1
        refine wp_call (wp_fromPrefix (Q := fun x v' => Den v' x _) fun n v' _ h => h) ?_
        intro y v2 le2 d2
        exact wp_best
          (wp_findSmallest length F (by simp only [SetNode.fromPrefix, Trie.deep]; omega) d2)
          fun v' le => e1 _ _ _ _ (d1.mono (View.le_trans le2 le))
            (du.mono (View.le_trans (View.le_trans le1 le2) le))
  · -- isContained
    cases act' with
    | true =>
      refine Ev.succ (by omega) ?_
      intro F v pt pu W dt du
      obtain ⟨a, pl, pr, rfl, ha, dl, dr⟩ := dt.node_inv
      obtain ⟨b, pl', pr', rfl, hb, dl', dr'⟩ := du.node_inv
      rw [SetNode.findSmallestReserved]
      unfold findSmallestReserved
      refine wp_deref ha ?_
      simp only [hlen, if_false]
      refine wp_deref hb ?_
      simp only [he]
      exact rfl
    | false =>
      obtain ⟨eb, hz, ul, ur, il, ir, nm⟩ := hu.inactive
      cases c with
      | true =>
        refine (ih (N - 1) (by omega) (by meas) ht ir).step (by omega) ?_
        intro F e1 v pt pu W dt du
        obtain ⟨a, pl, pr, rfl, ha, dl, dr⟩ := dt.node_inv
        obtain ⟨b, pl', pr', rfl, hb, dl', dr'⟩ := du.node_inv
        rw [SetNode.findSmallestReserved]
        unfold findSmallestReserved
        refine wp_deref ha ?_
        simp only [hlen, if_false]
        refine wp_deref hb ?_
        simp only [he]
        exact e1 _ _ _ _ dt dr'
      | false =>
        refine (ih (N - 1) (by omega) (by meas) ht il).step (by omega) ?_
        intro F e1 v pt pu W dt du
        obtain ⟨a, pl, pr, rfl, ha, dl, dr⟩ := dt.node_inv
        obtain ⟨b, pl', pr', rfl, hb, dl', dr'⟩ := du.node_inv
        rw [SetNode.findSmallestReserved]
        unfold findSmallestReserved
        refine wp_deref ha ?_
        simp only [hlen, if_false]
        refine wp_deref hb ?_
        simp only [he]
        exact e1 _ _ _ _ dt dl'
  · -- disjoint
    refine hfs.step (by omega) ?_
    intro F e1 v pt pu W dt du
    obtain ⟨a, pl, pr, rfl, ha, dl, dr⟩ := dt.node_inv
    obtain ⟨b, pl', pr', rfl, hb, dl', dr'⟩ := du.node_inv
    rw [SetNode.findSmallestReserved]
    unfold findSmallestReserved
    refine wp_deref ha ?_
    simp only [hlen, if_false]
    refine wp_deref hb ?_
    simp only [he]
    exact e1 _ _ _ dt

/-! ### diff -/

theorem wp_andThen {σ : Type} {Q : σ × Bool → View α D → Prop} {x : Prog α D (σ × Bool)}
    {k : σ → Prog α D (σ × Bool)} {y : σ × Bool} {v : View α D} {W : Nat → Prop}
    (hx : wp st (fun z _ => z = y) x v Nowhere)
    (hk : ∀ v', v ≤ v' → y.2 = true → wp st Q (k y.1) v' W)
    (hf : ∀ v', v ≤ v' → y.2 = false → Q (y.1, false) v') :
    wp st Q (andThen x k) v W := by
  unfold andThen
  refine wp_call hx ?_
  intro z v1 le1 hz
  subst hz
  cases h : z.2 with
  | true => simp only [if_true]; exact hk v1 le1 h
  | false => exact hf v1 le1 h

/-- `diff` with handlers that do what the handlers on trees do.  `R` is what is known of two tries that
    are compared; the pointer shortcut is sound if comparing such a trie with itself does nothing. -/
theorem wp_diff_rel {σ : Type} [GoType D] {hh : Handler α D σ} {hv : Trie.Handler α D σ}
    (h1 : ∀ c s, hh.removed c s = pure (hv.removed ⟨c.pfx, c.data, c.active⟩ s))
    (h2 : ∀ c s, hh.added c s = pure (hv.added ⟨c.pfx, c.data, c.active⟩ s))
    {R : Trie α D → Trie α D → Prop}
    (h3 : ∀ (c d : Cell α D) l r l' r' s, R (.node c.pfx c.data c.size c.h c.active l r) (.node d.pfx d.data d.size d.h d.active l' r') →
      (compareP c.pfx d.pfx).1 = .same → hh.modified c d s =
      pure (hv.modified ⟨c.pfx, c.data, c.active⟩ ⟨d.pfx, d.data, d.active⟩ s))
    (hl : ∀ {p d n h act l r u}, R (.node p d n h act l r) u → R l u ∧ R r u)
    (hr : ∀ {p d n h act l r t}, R t (.node p d n h act l r) → R t l ∧ R t r)
    (h0 : ∀ t, R t .nil) (h0' : ∀ t, R .nil t) (hself : hh.sameNil = true → ∀ t s, R t t → Trie.diff hv t t s = (s, true)) :
    ∀ (F : Nat) {t u : Trie α D}, t.deep + u.deep < F → R t u →
    ∀ {v : View α D} {p q : Ptr} {W : Nat → Prop} {s : σ}, Den v p t → Den v q u →
    wp st (fun x _ => x = Trie.diff hv t u s) (diff hh F p q s) v W := by
  intro F
  induction F with
  | zero => intro t u h; omega
  | succ F ih =>
    intro t u hF g v p q W s dt du
    -- three steps one after the other
    have three : ∀ {x : Prog α D (σ × Bool)} {y : σ × Bool} {t1 u1 t2 u2 : Trie α D} {p1 q1 p2 q2 : Ptr}
        {v : View α D},
        x = pure y → t1.deep + u1.deep < F → t2.deep + u2.deep < F → R t1 u1 → R t2 u2 →
        Den v p1 t1 → Den v q1 u1 → Den v p2 t2 → Den v q2 u2 →
        wp st (fun x _ => x = Trie.andThen y fun s => Trie.andThen (Trie.diff hv t1 u1 s)
            fun s => Trie.diff hv t2 u2 s)
          (andThen x fun s => andThen (diff hh F p1 q1 s) fun s => diff hh F p2 q2 s) v W := by
      intro x y t1 u1 t2 u2 p1 q1 p2 q2 v hx f1 f2 g1 g2 d1 d2 d3 d4
      rw [hx]
      refine wp_andThen (y := y) rfl ?_ ?_
      · intro v1 le1 hy
        refine wp_andThen (y := Trie.diff hv t1 u1 y.1) (ih f1 g1 (d1.mono le1) (d2.mono le1)) ?_ ?_
        · intro v2 le2 hz
          have hle := View.le_trans le1 le2
          refine wp_call' (ih f2 g2 (d3.mono hle) (d4.mono hle)) ?_
          intro b v3 le3 hb
          rw [hb]
          simp only [Trie.andThen, hy, hz, if_true]
        · intro v2 le2 hz
          simp only [Trie.andThen, hy, hz, if_true]
          simp
      · intro v1 le1 hy
        simp only [Trie.andThen, hy]
        simp
    unfold diff
    split
    · next e =>
      simp only [Bool.and_eq_true, decide_eq_true_eq] at e
      obtain ⟨rfl, e⟩ := e
      rw [← dt.functional du] at g ⊢
      rw [hself e t s g]
      exact rfl
    next hne =>
    split
    · rw [dt.none_inv, du.none_inv, Trie.diff]; exact rfl
    · next a =>
      rw [du.none_inv] at hF ⊢
      obtain ⟨c, l, r, ha, dl, dr, rfl⟩ := dt.some_inv
      simp only [Trie.deep] at hF
      refine wp_deref ha ?_
      rw [Trie.diff]
      exact three (h1 _ _) (by simp only [Trie.deep]; omega) (by simp only [Trie.deep]; omega)
        (h0 _) (h0 _) dl .nil dr .nil
    · next b =>
      rw [dt.none_inv] at hF ⊢
      obtain ⟨d, l', r', hb, dl', dr', rfl⟩ := du.some_inv
      simp only [Trie.deep] at hF
      refine wp_deref hb ?_
      rw [Trie.diff]
      exact three (h2 _ _) (by simp only [Trie.deep]; omega) (by simp only [Trie.deep]; omega)
        (h0' _) (h0' _) .nil dl' .nil dr'
    · next a b =>
      obtain ⟨c, l, r, ha, dl, dr, rfl⟩ := dt.some_inv
      obtain ⟨d, l', r', hb, dl', dr', rfl⟩ := du.some_inv
      simp only [Trie.deep] at hF
      refine wp_deref ha (wp_deref hb ?_)
      rw [Trie.diff]
      rcases hcmp : compareP c.pfx d.pfx with ⟨res, rev, common, child⟩
      cases res with
      | same =>
        simp only
        exact three (h3 _ _ _ _ _ _ _ g (by rw [hcmp])) (by omega) (by omega) (hr (hl g).1).1 (hr (hl g).2).2 dl dl' dr dr'
      | contains =>
        simp only
        cases child with
        | true =>
          simp only [if_true]
          exact three (h1 _ _) (by simp only [Trie.deep]; omega) (by simp only [Trie.deep]; omega)
            (h0 _) (hl g).2 dl .nil dr du
        | false =>
          simp only [Bool.false_eq_true, if_false]
          exact three (h1 _ _) (by simp only [Trie.deep]; omega) (by simp only [Trie.deep]; omega)
            (hl g).1 (h0 _) dl du dr .nil
      | isContained =>
        simp only
        cases child with
        | true =>
          simp only [if_true]
          exact three (h2 _ _) (by simp only [Trie.deep]; omega) (by simp only [Trie.deep]; omega)
            (h0' _) (hr g).2 .nil dl' dt dr'
        | false =>
          simp only [Bool.false_eq_true, if_false]
          exact three (h2 _ _) (by simp only [Trie.deep]; omega) (by simp only [Trie.deep]; omega)
            (hr g).1 (h0' _) dt dl' .nil dr'
      | disjoint =>
        simp only
        have two : ∀ {t1 u1 t2 u2 : Trie α D} {p1 q1 p2 q2 : Ptr},
            t1.deep + u1.deep < F → t2.deep + u2.deep < F → R t1 u1 → R t2 u2 →
            Den v p1 t1 → Den v q1 u1 → Den v p2 t2 → Den v q2 u2 →
            wp st (fun x _ => x = Trie.andThen (Trie.diff hv t1 u1 s) fun s => Trie.diff hv t2 u2 s)
              (andThen (diff hh F p1 q1 s) fun s => diff hh F p2 q2 s) v W := by
          intro t1 u1 t2 u2 p1 q1 p2 q2 f1 f2 g1 g2 d1 d2 d3 d4
          refine wp_andThen (y := Trie.diff hv t1 u1 s) (ih f1 g1 d1 d2) ?_ ?_
          · intro v2 le2 hz
            refine wp_call' (ih f2 g2 (d3.mono le2) (d4.mono le2)) ?_
            intro b v3 le3 hb
            rw [hb]
            simp only [Trie.andThen, hz, if_true]
          · intro v2 le2 hz
            simp only [Trie.andThen, hz]
            simp
        cases child with
        | true =>
          simp only [if_true]
          exact two (by simp only [Trie.deep]; omega) (by simp only [Trie.deep]; omega)
            (h0 _) (h0' _) dt .nil .nil du
        | false =>
          simp only [Bool.false_eq_true, if_false]
          exact two (by simp only [Trie.deep]; omega) (by simp only [Trie.deep]; omega)
            (h0' _) (h0 _) .nil du dt .nil


/-- the same, with what is known of every trie that is compared -/
theorem wp_diff {σ : Type} [GoType D] {hh : Handler α D σ} {hv : Trie.Handler α D σ}
    (h1 : ∀ c s, hh.removed c s = pure (hv.removed ⟨c.pfx, c.data, c.active⟩ s))
    (h2 : ∀ c s, hh.added c s = pure (hv.added ⟨c.pfx, c.data, c.active⟩ s))
    {K : Trie.Info α D → Prop}
    (h3 : ∀ (c d : Cell α D) s, K ⟨c.pfx, c.data, c.active⟩ → K ⟨d.pfx, d.data, d.active⟩ → hh.modified c d s =
      pure (hv.modified ⟨c.pfx, c.data, c.active⟩ ⟨d.pfx, d.data, d.active⟩ s))
    {G : Trie α D → Prop} (hK : ∀ {p d n h act l r}, G (.node p d n h act l r) → K ⟨p, d, act⟩)
    (hG : ∀ {p d n h act l r}, G (.node p d n h act l r) → G l ∧ G r)
    (hself : hh.sameNil = true → ∀ t s, G t → Trie.diff hv t t s = (s, true)) :
    ∀ (F : Nat) {t u : Trie α D}, t.deep + u.deep < F → G t → G u →
    ∀ {v : View α D} {p q : Ptr} {W : Nat → Prop} {s : σ}, Den v p t → Den v q u →
    wp st (fun x _ => x = Trie.diff hv t u s) (diff hh F p q s) v W := by
  intro F t u hF gt gu v p q W s dt du
  refine wp_diff_rel (R := fun t u => t = .nil ∨ u = .nil ∨ (G t ∧ G u)) h1 h2 ?_ ?_ ?_ ?_ ?_ ?_ F hF (Or.inr (Or.inr ⟨gt, gu⟩)) dt du
  · rintro c d l r l' r' s (h | h | ⟨h, h'⟩) _
    · cases h
    · cases h
    · exact h3 c d s (hK h) (hK h')
  · rintro p d n h act l r u (h | h | ⟨h, h'⟩)
    · cases h
    · exact ⟨Or.inr (Or.inl h), Or.inr (Or.inl h)⟩
    · exact ⟨Or.inr (Or.inr ⟨(hG h).1, h'⟩), Or.inr (Or.inr ⟨(hG h).2, h'⟩)⟩
  · rintro p d n h act l r t (h | h | ⟨h, h'⟩)
    · exact ⟨Or.inl h, Or.inl h⟩
    · cases h
    · exact ⟨Or.inr (Or.inr ⟨h, (hG h').1⟩), Or.inr (Or.inr ⟨h, (hG h').2⟩)⟩
  · exact fun t => Or.inr (Or.inl rfl)
  · exact fun t => Or.inl rfl
  · rintro hs t s (rfl | rfl | ⟨h, _⟩)
    · rw [Trie.diff]
    · rw [Trie.diff]
    · exact hself hs t s h

end Heap
end Addrs

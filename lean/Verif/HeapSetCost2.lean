import Verif.HeapReadCost
/-
  `setNodeFromRange` and `FindSmallestContainingPrefix` on the heap, and the bounds for a small argument.
-/
set_option linter.unusedSectionVars false
namespace Addrs
open GoWord LawfulGoWord

namespace Heap
open Prog
open SetNode (Inv Within Under unionCalls diffCalls interCalls rangeCalls)
variable {α : Type} [LawfulGoWord α]
variable {ld : View α Empty → Obj Empty → Prop}

theorem takes_fromRange_aux (n : Nat) : ∀ {r : Range α}, toNat r.first ≤ toNat r.last →
    width α < lz (xor r.first r.last) + n → ∀ {F : Nat}, n + (2 * (width α + 1) + 1) ≤ F → ∀ (v : View α Empty),
    (fromRange F r).Takes ld v (12 * rangeCalls n r) (rangeCalls n r) := by
  induction n with
  | zero => intro r _ h; have := lz_le (xor r.first r.last); omega
  | succ n ih =>
    intro r hle hf F hF v
    obtain ⟨F, rfl⟩ : ∃ G, F = G + 1 := ⟨F - 1, by omega⟩
    by_cases hc : lz (xor r.first r.last) = pop (compl (xor r.first r.last))
    · simp only [fromRange, rangeCalls, if_pos hc]
      exact (takes_fromPrefix _ _).mono (by omega) (by omega)
    · obtain ⟨pivot, hpv⟩ : ∃ x, x = or (and r.first (shl ones (width α - lz (xor r.first r.last))))
        (shr top (lz (xor r.first r.last))) := ⟨_, rfl⟩
      obtain ⟨h1, h2, h3, h4⟩ := SetNode.fromRange_split hle hc hpv
      obtain ⟨hn, hb1, hb2, hp, hs⟩ := SetNode.fromRange_parts hle hc hpv
      have w1 : width α < lz (xor r.first (sub1 pivot)) + n := by omega
      have w2 : width α < lz (xor pivot r.last) + n := by omega
      have i1 := SetNode.fromRangeAux_inv n (r := ⟨r.first, sub1 pivot⟩) h1 w1
      have i2 := SetNode.fromRangeAux_inv n (r := ⟨pivot, r.last⟩) h2 w2
      have hag : Agree (lz (xor r.first r.last)) r.first pivot :=
        (lz_xor_agree r.first r.last).trans ((lz_xor_agree pivot r.last).mono (Nat.le_of_lt h4)).symm
      have j1 : Within (⟨r.first, lz (xor r.first r.last)⟩ : Prefix α) false (SetNode.fromRangeAux n ⟨r.first, sub1 pivot⟩) :=
        SetNode.fromRangeAux_within n h1 w1 h3 (Covers.self _) hb1
      have j2 : Within (⟨r.first, lz (xor r.first r.last)⟩ : Prefix α) true (SetNode.fromRangeAux n ⟨pivot, r.last⟩) :=
        SetNode.fromRangeAux_within n h2 w2 h4 hag ((lz_xor_agree pivot r.last _ h4).trans hb2)
      simp only [fromRange, rangeCalls, if_neg hc, ← hpv]
      refine Takes.call (ih h1 w1 (F := F) (by omega) v) (wp_fromRange_aux n h1 w1 F (by omega) v _)
        (m := 12 * rangeCalls n ⟨pivot, r.last⟩ + 12) (b := rangeCalls n ⟨pivot, r.last⟩ + 1) (by omega) (by omega) ?_
      intro pa v1 le1 d1
      refine Takes.call (ih h2 w2 (F := F) (by omega) v1) (wp_fromRange_aux n h2 w2 F (by omega) v1 _)
        (m := 12) (b := 1) (by omega) (by omega) ?_
      intro pb v2 le2 d2
      exact takes_union_apart i1 i2 j1 j2 (by decide) (by unfold uB; omega) (d1.mono le2) d2

theorem takes_fromRange {r : Range α} (h : toNat r.first ≤ toNat r.last) {F : Nat} (hF : 3 * (width α + 1) + 1 ≤ F)
    (v : View α Empty) : (fromRange F r).Takes ld v (48 * width α + 12) (4 * width α + 1) := by
  have := SetNode.rangeCalls_le (width α + 1) h
  exact (takes_fromRange_aux (width α + 1) h (by omega) (by omega) v).mono (by omega) (by omega)

theorem takes_best {l r : SProg α (Option (Prefix α))} {len n m a b : Nat} {v : View α Empty} {lv : Option (Prefix α)}
    (hl : l.Takes ld v n a) (wl : wp False (fun x _ => x = lv) l v Nowhere) (hr : ∀ v', v ≤ v' → r.Takes ld v' m b) :
    (best l r len).Takes ld v (n + m) (a + b) := by
  unfold best
  refine Takes.call hl wl (Nat.le_refl _) (Nat.le_refl _) ?_
  intro lp v' le _
  have hk : ∀ f : Option (Prefix α) → Option (Prefix α), (r >>= fun rp => pure (f rp)).Takes ld v' m b := fun f => (hr v' le).last
  cases lp with
  | some lp =>
    simp only
    split
    · trivial
    · have := hk fun rp => match rp with
        | some rp => if lp.len < rp.len then some rp else some lp
        | none => some lp
      have e : (fun rp : Option (Prefix α) => (pure (match rp with
          | some rp => if lp.len < rp.len then some rp else some lp
          | none => some lp) : SProg α (Option (Prefix α)))) = fun rp => match rp with
          | some rp => if lp.len < rp.len then pure (some rp) else pure (some lp)
          | none => pure (some lp) := by
        funext rp
        cases rp with
        | none => rfl
        | some rp => simp only; split <;> rfl
      rw [e] at this
      exact this
  | none =>
    have := hk fun rp => match rp with
      | some rp => some rp
      | none => none
    have e : (fun rp : Option (Prefix α) => (pure (match rp with
        | some rp => some rp
        | none => none) : SProg α (Option (Prefix α)))) = fun rp => match rp with
        | some rp => pure (some rp)
        | none => pure none := by
      funext rp
      cases rp <;> rfl
    rw [e] at this
    exact this

/-- `FindSmallestContainingPrefix` -/
theorem takes_findReserved (length : Nat) : ∀ (N : Nat) {t u : SetNode α}, t.deep + u.deep + room t ≤ N → Inv t → Inv u →
    ∀ {F : Nat}, N + (width α + 2) ≤ F → ∀ {v : View α Empty} {pt pu : Ptr}, Den v pt t → Den v pu u →
    (findSmallestReserved length F pt pu).Takes ld v (t.nodes + 1 + 6 * diffCalls F t u) (2 * diffCalls F t u) := by
  intro N
  induction N using Nat.strongRecOn with
  | ind N ih =>
  intro t u hN ht hu F hF v pt pu dt du
  obtain ⟨F, rfl⟩ : ∃ G, F = G + 1 := ⟨F - 1, by omega⟩
  cases t with
  | nil => rw [dt.nil_inv]; exact Takes.pure
  | node p d n m act l r =>
  obtain ⟨a, pl, pr, rfl, ha, dl, dr⟩ := dt.node_inv
  have hsm : ∀ (v : View α Empty) {x : SetNode α} {px : Ptr}, Den v px x → (findSmallest length F px).Takes ld v x.nodes 0 :=
    fun v x px dx => (reads_findSmallest length F dx).takes
  cases u with
  | nil =>
    rw [du.nil_inv]
    unfold findSmallestReserved
    refine Takes.deref ha (n := Trie.nodes (.node p d n m act l r : SetNode α)) (by omega) ?_
    split
    · trivial
    · exact (hsm v dt).mono (by omega) (by omega)
  | node q e n' m' act' l' r' =>
  obtain ⟨b, pl', pr', rfl, hb, dl', dr'⟩ := du.node_inv
  have wa := ht.wf
  have wb := hu.wf
  have hdt := ht.deep_le
  simp only [Trie.deep, room] at hN hdt
  have hF' : N - 1 + (width α + 2) ≤ F := by omega
  have rcall : ∀ {x y : SetNode α}, x.deep + y.deep + room x ≤ N - 1 → Inv x → Inv y → ∀ {v : View α Empty} {px py : Ptr},
      Den v px x → Den v py y →
      (findSmallestReserved length F px py).Takes ld v (x.nodes + 1 + 6 * diffCalls F x y) (2 * diffCalls F x y) ∧
        wp False (fun z _ => z = SetNode.findSmallestReserved length x y) (findSmallestReserved length F px py) v Nowhere :=
    fun h1 h2 h3 _ _ _ d1 d2 => ⟨ih (N - 1) (by omega) h1 h2 h3 hF' d1 d2,
      computes_findSmallestReserved length (N - 1) h1 h2 h3 F hF' _ _ _ _ d1 d2⟩
  have hinner : act = false → ∀ k, k = 1 + diffCalls F l (.node q e n' m' act' l' r') + diffCalls F r (.node q e n' m' act' l' r') →
      (best (findSmallestReserved length F pl (some b)) (findSmallestReserved length F pr (some b)) length).Takes ld v
        (Trie.nodes (.node p d n m act l r : SetNode α) + 1 + 6 * k - 2) (2 * k) := by
    intro hact k hk
    subst hact
    obtain ⟨ea, hz, ul, ur, il, ir, nm⟩ := ht.inactive
    have rl := room_under ul
    have rr := room_under ur
    obtain ⟨t1, w1⟩ := rcall (by meas) il hu dl du
    refine (takes_best t1 w1 fun v' le => (rcall (by meas) ir hu (dr.mono le) (du.mono le)).1).mono ?_ (by omega)
    simp only [Trie.nodes]; omega
  have halv : p.len < width α → Inv (SetNode.fromPrefix p.halves.1) ∧ Inv (SetNode.fromPrefix p.halves.2) ∧
      p.halves.1.len = p.len + 1 ∧ p.halves.2.len = p.len + 1 := by
    intro hlt
    obtain ⟨g1, g2, g3, g4⟩ := halves_sub hlt
    exact ⟨.leaf _ (by rw [Prefix.WF, g3]; omega), .leaf _ (by rw [Prefix.WF, g4]; omega), g3, g4⟩
  obtain ⟨k, hk⟩ : ∃ k, k = diffCalls (F + 1) (.node p d n m act l r) (.node q e n' m' act' l' r' : SetNode α) := ⟨_, rfl⟩
  obtain ⟨T, hT⟩ : ∃ T, T = Trie.nodes (.node p d n m act l r : SetNode α) := ⟨_, rfl⟩
  have hT1 : 1 ≤ T := by rw [hT]; simp only [Trie.nodes]; omega
  rw [← hk, ← hT]
  rcases compareP_cases wa wb with ⟨hkk, he⟩ | ⟨c, hs, he⟩ | ⟨c, hs, he⟩ | ⟨k', rev, c, h1, h2, h3, h4, h5, h6, he⟩
  · simp only [diffCalls, he] at hk
    have hpos : 1 ≤ k := by rw [hk]; split <;> (try split) <;> omega
    unfold findSmallestReserved
    refine Takes.deref ha (n := T + 1 + 6 * k - 1) (by omega) ?_
    split
    · trivial
    refine Takes.deref hb (n := T + 1 + 6 * k - 2) (by omega) ?_
    simp only [he]
    cases act with
    | false =>
      simp only [Bool.not_false, if_true] at hk ⊢
      rw [hT]; exact hinner rfl k hk
    | true =>
      cases act' with
      | true => simp only [Bool.not_true, Bool.false_eq_true, if_false, if_true]; exact Takes.pure
      | false =>
        simp only [Bool.not_true, Bool.false_eq_true, if_false] at hk ⊢
        obtain ⟨eb, hz, ul, ur, il, ir, nm⟩ := hu.inactive
        have hlt : p.len < width α := by
          cases l' with
          | nil => exact ul.elim
          | node => rw [hkk.1]; exact Nat.lt_of_lt_of_le ul.lt il.wf
        obtain ⟨i1, i2, g3, g4⟩ := halv hlt
        refine Takes.call (takes_fromPrefix _ _) (wp_fromPrefix (st := False) (Q := fun x v' => Den v' x _) fun n v' _ h => h)
          (m := T + 1 + 6 * k - 3) (b := 2 * k - 1) (by omega) (by omega) ?_
        intro x v1 le1 d1
        refine Takes.call (takes_fromPrefix _ _) (wp_fromPrefix (st := False) (Q := fun x v' => Den v' x _) fun n v' _ h => h)
          (m := T + 1 + 6 * k - 4) (b := 2 * k - 2) (by omega) (by omega) ?_
        intro y v2 le2 d2
        have dl2 := dl'.mono (View.le_trans le1 le2)
        have dr2 := dr'.mono (View.le_trans le1 le2)
        obtain ⟨t3, q3⟩ := rcall (by meas) i1 il (d1.mono le2) dl2
        refine (takes_best t3 q3 fun v' le => (rcall (by meas) i2 ir (d2.mono le) (dr2.mono le)).1).mono ?_ (by omega)
        simp only [SetNode.fromPrefix_nodes]; omega
  · simp only [diffCalls, he] at hk
    have hpos : 1 ≤ k := by rw [hk]; split <;> omega
    unfold findSmallestReserved
    refine Takes.deref ha (n := T + 1 + 6 * k - 1) (by omega) ?_
    split
    · trivial
    refine Takes.deref hb (n := T + 1 + 6 * k - 2) (by omega) ?_
    simp only [he]
    cases act with
    | false =>
      simp only [Bool.not_false, if_true] at hk ⊢
      rw [hT]; exact hinner rfl k hk
    | true =>
      simp only [Bool.not_true, Bool.false_eq_true, if_false] at hk ⊢
      have hlt : p.len < width α := Nat.lt_of_lt_of_le hs.lt wb
      obtain ⟨i1, i2, g3, g4⟩ := halv hlt
      refine Takes.call (takes_fromPrefix _ _) (wp_fromPrefix (st := False) (Q := fun x v' => Den v' x _) fun n v' _ h => h)
        (m := T + 1 + 6 * k - 3) (b := 2 * k - 1) (by omega) (by omega) ?_
      intro x v1 le1 d1
      refine Takes.call (takes_fromPrefix _ _) (wp_fromPrefix (st := False) (Q := fun x v' => Den v' x _) fun n v' _ h => h)
        (m := T + 1 + 6 * k - 4) (b := 2 * k - 2) (by omega) (by omega) ?_
      intro y v2 le2 d2
      have hw : ∀ {w : Prefix α} {pw : Ptr}, Den v2 pw (SetNode.fromPrefix w) →
          wp False (fun z _ => z = SetNode.findSmallest length (SetNode.fromPrefix w)) (findSmallest length F pw) v2 Nowhere :=
        fun dw => wp_findSmallest length F (by simp only [SetNode.fromPrefix, Trie.deep]; omega) dw
      cases c with
      | true =>
        simp only [if_true] at hk ⊢
        refine (takes_best (hsm v2 (d1.mono le2)) (hw (d1.mono le2)) fun v' le =>
          (rcall (by meas) i2 hu (d2.mono le) (du.mono (View.le_trans (View.le_trans le1 le2) le))).1).mono ?_ (by omega)
        simp only [SetNode.fromPrefix_nodes]; omega
      | false =>
        simp only [Bool.false_eq_true, if_false] at hk ⊢
        refine (takes_best (hsm v2 d2) (hw d2) fun v' le =>
          (rcall (by meas) i1 hu (d1.mono (View.le_trans le2 le)) (du.mono (View.le_trans (View.le_trans le1 le2) le))).1).mono ?_ (by omega)
        simp only [SetNode.fromPrefix_nodes]; omega
  · simp only [diffCalls, he] at hk
    have hpos : 1 ≤ k := by rw [hk]; split <;> omega
    unfold findSmallestReserved
    refine Takes.deref ha (n := T + 1 + 6 * k - 1) (by omega) ?_
    split
    · trivial
    refine Takes.deref hb (n := T + 1 + 6 * k - 2) (by omega) ?_
    simp only [he]
    cases act' with
    | true => exact Takes.pure
    | false =>
      simp only [Bool.false_eq_true, if_false] at hk ⊢
      obtain ⟨eb, hz, ul, ur, il, ir, nm⟩ := hu.inactive
      cases c with
      | true =>
        simp only [if_true] at hk
        exact (rcall (by meas) ht ir dt dr').1.mono (by omega) (by omega)
      | false =>
        simp only [Bool.false_eq_true, if_false] at hk
        exact (rcall (by meas) ht il dt dl').1.mono (by omega) (by omega)
  · simp only [diffCalls, he] at hk
    unfold findSmallestReserved
    refine Takes.deref ha (n := T + 1 + 6 * k - 1) (by omega) ?_
    split
    · trivial
    refine Takes.deref hb (n := T + 1 + 6 * k - 2) (by omega) ?_
    simp only [he]
    exact (hsm v dt).mono (by omega) (by omega)

end Heap

namespace SetNode
open Trie
variable {α : Type} [LawfulGoWord α]

/-- `Union` with a small set costs a path for each of its nodes -/
theorem unionCalls_small : ∀ (F : Nat) (t u : SetNode α), unionCalls F t u ≤ u.nodes * (t.deep + 1) ∧
    unionCalls F u t ≤ u.nodes * (t.deep + 1) := by
  intro F
  induction F with
  | zero => intros; simp [unionCalls]
  | succ F ih =>
    intro t u
    cases t with
    | nil => rw [unionCalls_nil_left, unionCalls_nil_right]; omega
    | node p d n m act l r =>
    cases u with
    | nil => rw [unionCalls_nil_left, unionCalls_nil_right]; omega
    | node q e n' m' act' l' r' =>
    obtain ⟨D, hD⟩ : ∃ D, D = (deep (.node p d n m act l r : SetNode α)) + 1 := ⟨_, rfl⟩
    have hl : l.deep + 1 ≤ D - 1 := by rw [hD]; simp only [deep]; omega
    have hr : r.deep + 1 ≤ D - 1 := by rw [hD]; simp only [deep]; omega
    have hD1 : 2 ≤ D := by rw [hD]; simp only [deep]; omega
    rw [← hD]
    obtain ⟨U, hU⟩ : ∃ U, U = nodes (.node q e n' m' act' l' r' : SetNode α) := ⟨_, rfl⟩
    have hU' : U = l'.nodes + r'.nodes + 1 := hU
    rw [← hU]
    have mm : ∀ {a b : Nat} (x : Nat), a ≤ b → x * a ≤ x * b := fun x h => Nat.mul_le_mul_left x h
    have eU : U * D = l'.nodes * D + r'.nodes * D + D := by rw [hU', Nat.add_mul, Nat.add_mul, Nat.one_mul]
    have eU1 : U * D = U * (D - 1) + U := by
      have : D = (D - 1) + 1 := by omega
      conv => lhs; rw [this, Nat.mul_add, Nat.mul_one]
    -- below both
    have b1 := (ih l l').1; have b2 := (ih r r').1
    have b1' := (ih l l').2; have b2' := (ih r r').2
    have c1 := mm l'.nodes (show l.deep + 1 ≤ D by omega); have c2 := mm r'.nodes (show r.deep + 1 ≤ D by omega)
    -- below one
    have t1 := ih (.node p d n m act l r) l'; have t2 := ih (.node p d n m act l r) r'
    rw [← hD] at t1 t2
    have s1 := ih l (.node q e n' m' act' l' r'); have s2 := ih r (.node q e n' m' act' l' r')
    rw [← hU] at s1 s2
    have f1 := mm U hl; have f2 := mm U hr
    have hU1 : 1 ≤ U := by omega
    constructor
    · rcases hc : compareP p q with ⟨res, rev, k, child⟩
      simp only [unionCalls, hc]
      cases res <;> simp only
      case same => split <;> omega
      case disjoint => omega
      all_goals cases rev <;> cases child <;> simp only [Bool.false_eq_true, if_false, if_true] <;> split <;> omega
    · rcases hc : compareP q p with ⟨res, rev, k, child⟩
      simp only [unionCalls, hc]
      cases res <;> simp only
      case same => split <;> omega
      case disjoint => omega
      all_goals cases rev <;> cases child <;> simp only [Bool.false_eq_true, if_false, if_true] <;> split <;> omega

/-- `Difference` with a small set on the right costs a few paths for each of its nodes -/
theorem diffCalls_small (N : Nat) : ∀ {t u : SetNode α}, t.nodes + u.nodes ≤ N → Inv t → Inv u → ∀ F,
    diffCalls F t u ≤ u.nodes * (2 * t.deep + 3 * (width α + 1)) := by
  induction N with
  | zero =>
    intro t u hN ht hu F
    cases t with
    | nil => rw [diffCalls_nil_left]; omega
    | node => simp only [nodes] at hN; omega
  | succ N ih =>
    intro t u hN ht hu F
    cases F with
    | zero => simp [diffCalls]
    | succ F =>
    cases t with
    | nil => rw [diffCalls_nil_left]; omega
    | node p d n m act l r =>
    cases u with
    | nil => rw [diffCalls_nil_right]; omega
    | node q e n' m' act' l' r' =>
    have hp := ht.wf
    have hq := hu.wf
    have hq' : q.len ≤ width α := hq
    obtain ⟨C, hC⟩ : ∃ C, C = 3 * (width α + 1) := ⟨_, rfl⟩
    have hC3 : 3 ≤ C := by omega
    rw [← hC] at ih ⊢
    obtain ⟨D, hD⟩ : ∃ D, D = 2 * (deep (.node p d n m act l r : SetNode α)) + C := ⟨_, rfl⟩
    rw [← hD]
    have hDl : 2 * l.deep + C ≤ D - 2 := by rw [hD]; simp only [deep]; omega
    have hDr : 2 * r.deep + C ≤ D - 2 := by rw [hD]; simp only [deep]; omega
    have hD5 : C + 2 ≤ D := by rw [hD]; simp only [deep]; omega
    obtain ⟨U, hU⟩ : ∃ U, U = nodes (.node q e n' m' act' l' r' : SetNode α) := ⟨_, rfl⟩
    have hU' : U = l'.nodes + r'.nodes + 1 := hU
    rw [← hU]
    have mm : ∀ {a b : Nat} (x : Nat), a ≤ b → x * a ≤ x * b := fun x h => Nat.mul_le_mul_left x h
    have eU : U * D = l'.nodes * D + r'.nodes * D + D := by rw [hU', Nat.add_mul, Nat.add_mul, Nat.one_mul]
    have eU1 : U * D = U * (D - 2) + U * 2 := by
      rw [← Nat.mul_add]; congr 1; omega
    have c1 := mm l'.nodes (show 2 * l.deep + C ≤ D by omega); have c2 := mm r'.nodes (show 2 * r.deep + C ≤ D by omega)
    have f1 := mm U hDl; have f2 := mm U hDr
    cases act with
    | true =>
      obtain ⟨ea, _⟩ := ht.active
      rw [ea]
      have h1 := diffCalls_leaf_left (F + 1) hp hu
      rw [← hU] at h1
      simp only [rootLen] at h1
      have h2 := mm U hD5
      have h3 : U * (C + 2) = 2 * (width α + 1) * U + ((width α + 1) * U + 2 * U) := by
        rw [hC, Nat.mul_comm, Nat.add_mul, Nat.mul_assoc, Nat.mul_assoc]; omega
      have h4 : width α + 1 ≤ (width α + 1) * U := Nat.le_mul_of_pos_right _ (by omega)
      omega
    | false =>
      obtain ⟨_, _, ul, ur, hl, hr, _⟩ := ht.inactive
      simp only [nodes] at hN
      rcases compareP_cases hp hq with ⟨hk, he⟩ | ⟨c, hs, he⟩ | ⟨c, hs, he⟩ | ⟨k, rev, c, h1, h2, h3, h4, h5, h6, he⟩
      · simp only [diffCalls, he, Bool.not_false, if_true]
        have ul' : Under q false l := by
          cases l with
          | nil => exact ul.elim
          | node => exact Sub.congr_left ul hk
        have ur' : Under q true r := by
          cases r with
          | nil => exact ur.elim
          | node => exact Sub.congr_left ur hk
        obtain ⟨G1, g1⟩ := diffCalls_below F hl hu ul'
        obtain ⟨G2, g2⟩ := diffCalls_below F hr hu ur'
        cases act' with
        | true =>
          simp only [if_true] at g1 g2
          omega
        | false =>
          obtain ⟨_, _, ul2, ur2, hl2, hr2, _⟩ := hu.inactive
          simp only [Bool.false_eq_true, if_false, if_true] at g1 g2
          have i1 := ih (t := l) (u := l') (by omega) hl hl2 G1
          have i2 := ih (t := r) (u := r') (by omega) hr hr2 G2
          omega
      · simp only [diffCalls, he, Bool.not_false, if_true]
        have i1 := ih (t := l) (u := .node q e n' m' act' l' r') (by simp only [nodes]; omega) hl hu F
        have i2 := ih (t := r) (u := .node q e n' m' act' l' r') (by simp only [nodes]; omega) hr hu F
        rw [← hU] at i1 i2
        cases c with
        | true =>
          have : diffCalls F l (.node q e n' m' act' l' r') ≤ 1 := diffCalls_apart hl hu ul.within (show Within p true _ from hs) (by simp) F
          omega
        | false =>
          have : diffCalls F r (.node q e n' m' act' l' r') ≤ 1 := diffCalls_apart hr hu ur.within (show Within p false _ from hs) (by simp) F
          omega
      · simp only [diffCalls, he]
        cases act' with
        | true => simp only [if_true]; omega
        | false =>
          obtain ⟨_, _, ul2, ur2, hl2, hr2, _⟩ := hu.inactive
          have i1 := ih (t := .node p d n m false l r) (u := l') (by simp only [nodes]; omega) ht hl2 F
          have i2 := ih (t := .node p d n m false l r) (u := r') (by simp only [nodes]; omega) ht hr2 F
          rw [← hD] at i1 i2
          cases c <;> simp only [Bool.false_eq_true, if_false, if_true] <;> omega
      · simp only [diffCalls, he]; omega

open Classical in
/-- at most one node has the prefix of a single address -/
theorem inCount_address {p : Prefix α} (hp : p.len = width α) {u : SetNode α} (hu : u.TInv) : inCount p u ≤ u.touched [p] := by
  induction hu with
  | empty => exact Nat.le_refl _
  | mk q d act l r wf il ir hl hr two ihl ihr =>
    simp only [Trie.mk, inCount, Trie.touched]
    have wf : q.len ≤ width α := wf
    have : SubEq p q → Touched [p] q := by
      rintro ⟨h1, h2⟩
      exact ⟨p, by simp, by omega, (h2.mono (by omega)).symm⟩
    by_cases h : SubEq p q
    · rw [if_pos h, if_pos (this h)]; omega
    · rw [if_neg h]; omega

/-- `Intersect` with a single address: one path -/
theorem interCalls_address (F : Nat) {t : SetNode α} {p : Prefix α} (hp : p.len = width α) (ht : Inv t) :
    interCalls F t (fromPrefix p) ≤ 1 + 4 * (width α + 1) := by
  have hw : p.WF := by unfold Prefix.WF; omega
  have h1 := interCalls_pairs F ht (.leaf p hw)
  have h2 : covered t (fromPrefix p) = inCount p t + 0 + 0 := by
    unfold fromPrefix
    rw [covered_node, covered_nil]
  have h3 : covered (fromPrefix p) t = t.touched [p] + 0 + 0 := rfl
  have h4 := inCount_address hp ht.tinv
  have h5 := Trie.touched_one ht.tinv p
  have h6 := ht.deep_le
  omega

end SetNode
end Addrs

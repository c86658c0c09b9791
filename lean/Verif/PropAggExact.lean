import Verif.PropTableAgg
/-
  C33, C32: exactly what Aggregate computes, on plain maps.
-/
set_option linter.unusedSectionVars false
namespace Addrs
open GoWord LawfulGoWord

section
variable {α D : Type}

/-! ### the specification: Aggregate of a plain map

  Keys are (length, network number); the halves of key `(n, i)` are `(n + 1, 2 * i)` and `(n + 1, 2 * i + 1)`. -/

/-- an entry, unless the value in force above it (`u`) compares equal -/
def fresh (e : D → D → Bool) (u : Option D) (own : Option D) : Option D :=
  match u, own with
  | some w, some v => if e w v then none else some v
  | _, own => own

/-- What is left, below key `k`, of the entries of `m`; `u` is the value in force at `k`, and `h` is the number of
    bits that are left below `k`.  An entry that repeats the value in force goes away; then both halves are
    aggregated; and if then both halves themselves are entries with equal values, nothing is left but one entry for
    `k` with that value. -/
def PMap.agg (e : D → D → Bool) (m : PMap D) : Nat → Option D → Nat × Nat → PMap D
  | 0, u, k => fun k' => if k' = k then fresh e u (m k) else none
  | h + 1, u, k =>
    let own := fresh e u (m k)
    let l := agg e m h (own <|> u) (k.1 + 1, 2 * k.2)
    let r := agg e m h (own <|> u) (k.1 + 1, 2 * k.2 + 1)
    let both : PMap D := fun k' => if k' = k then own else l k' <|> r k'
    match l (k.1 + 1, 2 * k.2), r (k.1 + 1, 2 * k.2 + 1) with
    | some v, some w => if e v w then PMap.empty.set k v else both
    | _, _ => both

/-- `Aggregate` of a plain map; `w` is the number of bits of an address -/
def PMap.aggregate (w : Nat) (e : D → D → Bool) (m : PMap D) : PMap D := m.agg e w none (0, 0)

/-! ### the proof -/

/-- one step of `agg` -/
def PMap.combine (e : D → D → Bool) (own : Option D) (k : Nat × Nat) (l r : PMap D) : PMap D :=
  match l (k.1 + 1, 2 * k.2), r (k.1 + 1, 2 * k.2 + 1) with
  | some v, some w => if e v w then PMap.empty.set k v else fun k' => if k' = k then own else l k' <|> r k'
  | _, _ => fun k' => if k' = k then own else l k' <|> r k'

theorem PMap.agg_zero (e : D → D → Bool) (m : PMap D) (u : Option D) (k : Nat × Nat) :
    m.agg e 0 u k = PMap.combine e (fresh e u (m k)) k PMap.empty PMap.empty := by
  funext k'
  simp only [PMap.agg, PMap.combine, PMap.empty]
  rfl

theorem PMap.agg_succ (e : D → D → Bool) (m : PMap D) (h : Nat) (u : Option D) (k : Nat × Nat) :
    m.agg e (h + 1) u k = PMap.combine e (fresh e u (m k)) k
      (m.agg e h (fresh e u (m k) <|> u) (k.1 + 1, 2 * k.2)) (m.agg e h (fresh e u (m k) <|> u) (k.1 + 1, 2 * k.2 + 1)) := rfl

end

section
variable {α D : Type} [LawfulGoWord α]

theorem keyOf_half {P Q : Prefix α} {b : Bool} (h : Sub P Q b) (hl : Q.len = P.len + 1) (hw : Q.WF) :
    keyOf Q = ((keyOf P).1 + 1, 2 * (keyOf P).2 + b.toNat) := by
  have hw' : Q.len ≤ width α := hw
  have hp : P.len ≤ width α := by omega
  have e1 := (agree_iff_div hp).mp h.agree
  have e2 := h.side
  unfold keyOf blockSize
  simp only [hl, Prod.mk.injEq, true_and]
  have hlt : P.len < width α := by omega
  rw [bit_testBit _ hlt, Nat.testBit_eq_decide_div_mod_eq] at e2
  have e3 : width α - (P.len + 1) = width α - 1 - P.len := by omega
  have e4 : width α - P.len = (width α - 1 - P.len) + 1 := by omega
  rw [e1, e3, e4, Nat.pow_succ, ← Nat.div_div_eq_div_mul]
  generalize toNat Q.addr / 2 ^ (width α - 1 - P.len) = X at *
  cases b
  · simp only [decide_eq_false_iff_not] at e2; simp; omega
  · simp only [decide_eq_true_iff] at e2; simp; omega

/-- the halves of a prefix -/
theorem exists_half {P : Prefix α} (h : P.len < width α) (b : Bool) :
    ∃ Q : Prefix α, Sub P Q b ∧ Q.len = P.len + 1 ∧ Q.WF := by
  obtain ⟨a, h1, h2⟩ := exists_with_bit P.addr h b
  exact ⟨⟨a, P.len + 1⟩, ⟨by simp only; omega, h1, h2⟩, rfl, h⟩

open Trie

/-- the trie has an entry for `x` exactly if `o` is a value, and then with the same or an equal value -/
def AggRel (e : D → D → Bool) (t : Trie α D) (x : Prefix α) : Option D → Prop
  | none => ∀ y ∈ t.entries, ¬ SameKey y.1 x
  | some w => ∃ y ∈ t.entries, SameKey y.1 x ∧ ∃ v, y.2 = some v ∧ Close (liftEq e) (some v) (some w)

theorem AggRel.of_entry {e : D → D → Bool} {t : Trie α D} (hi : TInv t) {x : Prefix α} {o : Option D} (h : AggRel e t x o)
    {y} (hy : y ∈ t.entries) (hs : SameKey y.1 x) : ∃ v w, y.2 = some v ∧ o = some w ∧ Close (liftEq e) (some v) (some w) := by
  cases o with
  | none => exact absurd hs (h y hy)
  | some w =>
    obtain ⟨y', hy', hs', v, hv, he⟩ := h
    have := hi.unique hy hy' (hs.trans hs'.symm)
    subst this
    exact ⟨v, w, hv, rfl, he⟩

/-- what lies in the trie lies in `P` -/
def AggWithin (P : Prefix α) : Trie α D → Prop
  | nil => True
  | node q _ _ _ _ _ _ => SubEq P q

variable {e : D → D → Bool}

theorem agg_node {geq : Eq' D} (he : EqPer (liftEq e) geq) {q : Prefix α} (hq : q.WF) {d : Option D} {act : Bool} {u : Option (Option D)}
    {l' r' t' : Trie α D} (hl : TInv l') (hr : TInv r') (il : Inside q false l') (ir : Inside q true r')
    (hc : AggCase (liftEq e) u q d act l' r' t') {own : Option D} (h1 : (umb (liftEq e) u d act).1 = own.isSome)
    (h2 : own.isSome = true → d = own) {L R : PMap D} (hL : ∀ x : Prefix α, x.WF → AggRel e l' x (L (keyOf x)))
    (hR : ∀ x : Prefix α, x.WF → AggRel e r' x (R (keyOf x)))
    (hz : L ((keyOf q).1 + 1, 2 * (keyOf q).2) ≠ none → q.len < width α) (x : Prefix α) (hx : x.WF) :
    AggRel e t' x (PMap.combine e own (keyOf q) L R (keyOf x)) := by
  have kx : keyOf x = keyOf q ↔ SameKey q x := by rw [eq_comm, keyOf_eq hq]
  -- without merging
  have joined : childrenAggregate (liftEq e) q l' r' = false →
      ∀ k', PMap.combine e own (keyOf q) L R k' = if k' = keyOf q then own else L k' <|> R k' := by
    intro hn k'
    unfold PMap.combine
    cases ev : L ((keyOf q).1 + 1, 2 * (keyOf q).2) with
    | none => rfl
    | some v =>
    cases ew : R ((keyOf q).1 + 1, 2 * (keyOf q).2 + 1) with
    | none => rfl
    | some w =>
      simp only
      refine congrFun (if_neg fun evw => ?_) k'
      -- both are roots of the children
      have hlt : q.len < width α := hz (by rw [ev]; simp)
      obtain ⟨Q0, s0, l0, w0⟩ := exists_half hlt false
      obtain ⟨Q1, s1, l1, w1⟩ := exists_half hlt true
      have k0 := keyOf_half s0 l0 w0
      have k1 := keyOf_half s1 l1 w1
      have a0 := hL Q0 w0
      have a1 := hR Q1 w1
      simp only [Bool.toNat_false, Bool.toNat_true, Nat.add_zero] at k0 k1
      rw [k0, ev] at a0
      rw [k1, ew] at a1
      obtain ⟨y0, hy0, sy0, v0, hv0, e0⟩ := a0
      obtain ⟨y1, hy1, sy1, v1, hv1, e1⟩ := a1
      obtain ⟨n, hh, ll, lr, el⟩ := hl.half il hy0 (by rw [sy0.1, l0])
      obtain ⟨n', hh', rl, rr, er⟩ := hr.half ir hy1 (by rw [sy1.1, l1])
      rw [el, er] at hn
      simp only [childrenAggregate, isActive, Trie.len, data, sy0.1, sy1.1, l0, l1, hv0, hv1, decide_true, Bool.true_and, liftEq] at hn
      have := e0.left he ((e1.symm he).right he (x := some v) (y := some w) evw)
      simp only [liftEq] at this
      rw [this] at hn
      cases hn
  have sides : ∀ {y z}, y ∈ l'.entries → z ∈ r'.entries → ¬ SameKey y.1 z.1 := fun hy hz =>
    (hl.side il hy).ne_of_side (hr.side ir hz) (by simp)
  have orRel : ∀ {t0 : Trie α D}, (∀ y, SameKey y.1 x → (y ∈ t0.entries ↔ y ∈ l'.entries ∨ y ∈ r'.entries)) →
      AggRel e t0 x (L (keyOf x) <|> R (keyOf x)) := by
    intro t0 h0
    have a0 := hL x hx
    have a1 := hR x hx
    cases hl0 : L (keyOf x) with
    | some v =>
      rw [hl0] at a0
      obtain ⟨y, hy, h⟩ := a0
      exact ⟨y, (h0 y h.1).mpr (.inl hy), h⟩
    | none =>
      rw [hl0] at a0
      cases hr0 : R (keyOf x) with
      | some v =>
        rw [hr0] at a1
        obtain ⟨y, hy, h⟩ := a1
        exact ⟨y, (h0 y h.1).mpr (.inr hy), h⟩
      | none =>
        rw [hr0] at a1
        exact fun y hy hs => ((h0 y hs).mp hy).elim (fun h => a0 y h hs) (fun h => a1 y h hs)
  have noRoot : ∀ y, y ∈ l'.entries ∨ y ∈ r'.entries → ¬ SameKey q y.1 := fun y hy => hy.elim
    (fun h => (hl.side il h).not_sameKey) (fun h => (hr.side ir h).not_sameKey)
  -- a node without an entry of its own
  have passed : own = none → childrenAggregate (liftEq e) q l' r' = false →
      (∀ y, y ∈ t'.entries ↔ y ∈ l'.entries ∨ y ∈ r'.entries) →
      AggRel e t' x (PMap.combine e own (keyOf q) L R (keyOf x)) := by
    intro ho hn hm
    rw [joined hn]
    by_cases hk : keyOf x = keyOf q
    · rw [if_pos hk, ho]
      intro y hy hs
      exact noRoot y ((hm y).mp hy) ((kx.mp hk).trans hs.symm)
    · rw [if_neg hk]; exact orRel fun y _ => hm y
  cases hc with
  | merge d' ql el nl hl' ll lr qr er nr hr' rl rr el' er' h1' h2' h3 h4 =>
    have m0 : (ql, el) ∈ l'.entries := by rw [el']; simp [entries]
    have m1 : (qr, er) ∈ r'.entries := by rw [er']; simp [entries]
    have s0 := hl.side il m0
    have s1 := hr.side ir m1
    have w0 := hl.entries_wf m0
    have w1 := hr.entries_wf m1
    have k0 := keyOf_half s0 h1' w0
    have k1 := keyOf_half s1 h2' w1
    obtain ⟨v0, v, ev0, ev, e0⟩ := (hL ql w0).of_entry hl m0 (SameKey.refl _)
    obtain ⟨v1, w, ev1, ew, e1⟩ := (hR qr w1).of_entry hr m1 (SameKey.refl _)
    simp only at ev0 ev1
    subst ev0 ev1
    simp only [Bool.toNat_false, Bool.toNat_true, Nat.add_zero] at k0 k1
    rw [k0] at ev
    rw [k1] at ew
    have evw : e v w = true := (e0.symm he).left he (e1.right he h3)
    have : PMap.combine e own (keyOf q) L R = PMap.empty.set (keyOf q) v := by
      unfold PMap.combine
      rw [ev, ew]
      exact if_pos evw
    rw [this]
    unfold PMap.set
    cases d' with
    | none => cases h4
    | some v' =>
      by_cases hk : keyOf x = keyOf q
      · rw [if_pos hk]
        exact ⟨(q, some v'), mem_mk.mpr (.inl ⟨rfl, rfl⟩), kx.mp hk, v', rfl, .inr (e0.right he h4)⟩
      · rw [if_neg hk]
        intro y hy hs
        rcases mem_mk.mp hy with ⟨-, rfl⟩ | h | h
        · exact hk (kx.mpr hs)
        · cases h
        · cases h
  | keep d' h hd hn =>
    have ho : own.isSome = true := by rw [← h1, h]
    obtain ⟨v, rfl⟩ := Option.isSome_iff_exists.mp ho
    have := h2 rfl
    subst this
    rw [joined hn]
    by_cases hk : keyOf x = keyOf q
    · rw [if_pos hk]
      cases d' with
      | none => rcases hd with h | h <;> cases h
      | some v' => exact ⟨(q, some v'), mem_mk.mpr (.inl ⟨rfl, rfl⟩), kx.mp hk, v', rfl, hd⟩
    · rw [if_neg hk]
      refine orRel fun y hs => ?_
      rw [mem_mk]
      refine ⟨?_, .inr⟩
      rintro (⟨-, rfl⟩ | h)
      · exact absurd (kx.mpr hs) hk
      · exact h
  | left h hn => 
    have ho : own = none := by rw [h] at h1; exact Option.not_isSome_iff_eq_none.mp (by rw [← h1]; simp)
    refine passed ho ?_ fun y => ?_
    · subst hn; simp [childrenAggregate, isActive]
    · subst hn; simp [entries]
  | right h hn => 
    have ho : own = none := by rw [h] at h1; exact Option.not_isSome_iff_eq_none.mp (by rw [← h1]; simp)
    refine passed ho ?_ fun y => ?_
    · subst hn; simp [childrenAggregate, isActive]
    · subst hn; simp [entries]
  | inner d' h h3 h4 hn => 
    have ho : own = none := by rw [h] at h1; exact Option.not_isSome_iff_eq_none.mp (by rw [← h1]; simp)
    refine passed ho hn fun y => ?_
    rw [mem_mk]; simp

/-- nothing comes from nothing -/
theorem agg_none {m : PMap D} : ∀ (h : Nat) (u : Option D) (P : Prefix α), P.WF → P.len + h = width α →
    (∀ x : Prefix α, x.WF → SubEq P x → m (keyOf x) = none) → ∀ k', m.agg e h u (keyOf P) k' = none := by
  intro h
  induction h with
  | zero =>
    intro u P hP _ hm k'
    simp only [PMap.agg, hm P hP (SubEq.refl _)]
    cases u <;> simp [fresh]
  | succ h ih =>
    intro u P hP hlen hm k'
    have hlt : P.len < width α := by omega
    obtain ⟨Q0, s0, l0, w0⟩ := exists_half hlt false
    obtain ⟨Q1, s1, l1, w1⟩ := exists_half hlt true
    have k0 := keyOf_half s0 l0 w0
    have k1 := keyOf_half s1 l1 w1
    simp only [Bool.toNat_false, Bool.toNat_true, Nat.add_zero] at k0 k1
    rw [PMap.agg_succ, ← k0, ← k1]
    have f : fresh e u (m (keyOf P)) = none := by rw [hm P hP (SubEq.refl _)]; cases u <;> rfl
    have fu : (none <|> u : Option D) = u := by cases u <;> rfl
    rw [f, fu]
    have a0 := ih u Q0 w0 (by omega) fun x hx hs => hm x hx (s0.subEq.trans hs)
    have a1 := ih u Q1 w1 (by omega) fun x hx hs => hm x hx (s1.subEq.trans hs)
    unfold PMap.combine
    rw [← k0, a0]
    simp [a0, a1]

theorem agg_root {geq : Eq' D} (he : EqPer (liftEq e) geq) {m : PMap D} {u : Option D} {P q : Prefix α} (hk : SameKey q P)
    {d : Option D} {act : Bool} {l r : Trie α D} (wf : q.WF) (il : Inside q false l) (ir : Inside q true r)
    (hl : TInv l) (hr : TInv r)
    (hm : ∀ v, m (keyOf P) = some v ↔ ∃ y ∈ (Trie.mk q d act l r).entries, SameKey y.1 P ∧ y.2 = some v)
    (hs : act = true → d.isSome = true) {L R : PMap D}
    (hL : ∀ x : Prefix α, x.WF → AggRel e (Trie.aggregate (liftEq e) geq ((fresh e u (m (keyOf P)) <|> u).map some) l).1 x (L (keyOf x)))
    (hR : ∀ x : Prefix α, x.WF → AggRel e (Trie.aggregate (liftEq e) geq ((fresh e u (m (keyOf P)) <|> u).map some) r).1 x (R (keyOf x)))
    (hz : L ((keyOf q).1 + 1, 2 * (keyOf q).2) ≠ none → q.len < width α) (x : Prefix α) (hx : x.WF) :
    AggRel e (Trie.aggregate (liftEq e) geq (u.map some) (Trie.mk q d act l r)).1 x
      (PMap.combine e (fresh e u (m (keyOf P))) (keyOf P) L R (keyOf x)) := by
  have hown : m (keyOf P) = if act then d else none := by
    cases act with
    | true =>
      obtain ⟨v, rfl⟩ := Option.isSome_iff_exists.mp (hs rfl)
      exact (hm v).mpr ⟨_, mem_mk.mpr (.inl ⟨rfl, rfl⟩), hk, rfl⟩
    | false =>
      cases hmx : m (keyOf P) with
      | none => rfl
      | some v =>
        obtain ⟨y, hy, h, -⟩ := (hm v).mp hmx
        exfalso
        rcases mem_mk.mp hy with ⟨h', -⟩ | h' | h'
        · cases h'
        · exact (hl.side il h').not_sameKey (hk.trans h.symm)
        · exact (hr.side ir h').not_sameKey (hk.trans h.symm)
  have hu : (umb (liftEq e) (u.map some) d act).1 = (fresh e u (m (keyOf P))).isSome ∧
      (umb (liftEq e) (u.map some) d act).2 = (fresh e u (m (keyOf P)) <|> u).map some ∧
      ((fresh e u (m (keyOf P))).isSome = true → d = fresh e u (m (keyOf P))) := by
    rw [hown]
    cases act with
    | false => cases u <;> simp [umb, redun, fresh]
    | true =>
      obtain ⟨v, rfl⟩ := Option.isSome_iff_exists.mp (hs rfl)
      cases u with
      | none => simp [umb, redun, fresh]
      | some w =>
        simp only [umb, redun, fresh, Option.map_some, liftEq, if_true]
        by_cases h : e w v = true <;> simp [h]
  have hc := (aggregate_cases he q d act l r (u.map some) (aggregate_same he hl _) (aggregate_same he hr _)).1
  rw [hu.2.1] at hc
  rw [← (keyOf_eq wf).mpr hk]
  have tl := aggregate_tinv he hl ((fresh e u (m (keyOf P)) <|> u).map some)
  have tr := aggregate_tinv he hr ((fresh e u (m (keyOf P)) <|> u).map some)
  rw [← (keyOf_eq wf).mpr hk] at *
  exact agg_node he wf tl.1 tr.1 (tl.2 _ _ il) (tr.2 _ _ ir) hc hu.1 hu.2.2 hL hR hz x hx

theorem agg_trie {geq : Eq' D} (he : EqPer (liftEq e) geq) {m : PMap D} : ∀ (h : Nat) (t : Trie α D) (u : Option D) (P : Prefix α),
    TInv t → P.WF → P.len + h = width α → AggWithin P t →
    (∀ x : Prefix α, x.WF → SubEq P x → ∀ v, m (keyOf x) = some v ↔ ∃ y ∈ t.entries, SameKey y.1 x ∧ y.2 = some v) →
    (∀ y ∈ t.entries, y.2.isSome = true) →
    ∀ x : Prefix α, x.WF → AggRel e (Trie.aggregate (liftEq e) geq (u.map some) t).1 x (m.agg e h u (keyOf P) (keyOf x)) := by
  intro h
  induction h with
  | zero =>
    intro t u P hi hP hlen hw hm hs x hx
    cases hi with
    | empty =>
      rw [agg_none _ u P hP hlen fun x hx hs => ?_]
      · intro y hy; cases hy
      · cases hmx : m (keyOf x) with
        | none => rfl
        | some v => obtain ⟨y, hy, _⟩ := (hm x hx hs v).mp hmx; cases hy
    | mk q d act l r wf il ir hl hr two =>
      have hw : SubEq P q := hw
      have wf' : q.len ≤ width α := wf
      have hq : q.len = P.len := by have := hw.1; omega
      have nochild : ∀ {b} {c : Trie α D}, Inside q b c → TInv c → c = nil := by
        intro b c hc hi
        cases hi with
        | empty => rfl
        | mk q' _ _ _ _ wf2 => have h1 : q.len < q'.len := Sub.lt hc; have h2 : q'.len ≤ width α := wf2; omega
      have := nochild il hl
      subst this
      have := nochild ir hr
      subst this
      rw [PMap.agg_zero]
      refine agg_root (l := nil) (r := nil) (L := PMap.empty) (R := PMap.empty) he ⟨hq, by rw [hq]; exact hw.2.symm⟩ wf trivial trivial .empty .empty (hm P hP (SubEq.refl _))
        (fun h => hs (q, d) (mem_mk.mpr (.inl ⟨h, rfl⟩))) ?_ ?_ (fun h => absurd rfl h) x hx
      · intro x _ y hy; cases hy
      · intro x _ y hy; cases hy
  | succ h ih =>
    intro t u P hi hP hlen hw hm hs x hx
    have hlt : P.len < width α := by omega
    obtain ⟨Q0, s0, l0, w0⟩ := exists_half hlt false
    obtain ⟨Q1, s1, l1, w1⟩ := exists_half hlt true
    have k0 := keyOf_half s0 l0 w0
    have k1 := keyOf_half s1 l1 w1
    simp only [Bool.toNat_false, Bool.toNat_true, Nat.add_zero] at k0 k1
    cases hi with
    | empty =>
      rw [agg_none _ u P hP hlen fun x hx hs => ?_]
      · intro y hy; cases hy
      · cases hmx : m (keyOf x) with
        | none => rfl
        | some v => obtain ⟨y, hy, _⟩ := (hm x hx hs v).mp hmx; cases hy
    | mk q d act l r wf il ir hl hr two =>
      have hw : SubEq P q := hw
      -- a prefix strictly inside `P` is inside a half
      have half : ∀ {y : Prefix α} {b : Bool} {Q : Prefix α}, Sub P Q b → Q.len = P.len + 1 → Sub P y b → SubEq Q y := by
        intro y b Q h1 h2 h3
        refine ⟨by rw [h2]; exact h3.lt, ?_⟩
        rw [h2]
        exact (h1.agree.symm.trans h3.agree).succ (h1.side.trans h3.side.symm)
      have unhalf : ∀ {y : Prefix α} {b : Bool} {Q : Prefix α}, Sub P Q b → SubEq Q y → Sub P y b :=
        fun h1 h2 => h1.trans_subEq h2
      by_cases hq : q.len = P.len
      · -- the node of `P`
        have hk : SameKey q P := ⟨hq, by rw [hq]; exact hw.2.symm⟩
        rw [PMap.agg_succ, ← k0, ← k1]
        refine agg_root he hk wf il ir hl hr (hm P hP (SubEq.refl _))
          (fun h => hs (q, d) (mem_mk.mpr (.inl ⟨h, rfl⟩))) ?_ ?_ (fun _ => by omega) x hx
        · intro x hx
          refine ih l _ Q0 hl w0 (by omega) ?_ ?_ (fun y hy => hs y (mem_mk.mpr (.inr (.inl hy)))) x hx
          · cases l with
            | nil => trivial
            | node c => exact half s0 l0 (Sub.congr_left il hk)
          · intro y hy hsub v
            have sy := unhalf s0 hsub
            rw [hm y hy (s0.subEq.trans hsub) v]
            constructor
            · rintro ⟨z, hz, h1, h2⟩
              rcases mem_mk.mp hz with ⟨-, rfl⟩ | hz | hz
              · exact absurd (h1.symm.trans hk) sy.not_sameKey'
              · exact ⟨z, hz, h1, h2⟩
              · exact absurd h1 (((hr.side ir hz).congr_left hk).ne_of_side sy (by simp))
            · rintro ⟨z, hz, h⟩; exact ⟨z, mem_mk.mpr (.inr (.inl hz)), h⟩
        · intro x hx
          refine ih r _ Q1 hr w1 (by omega) ?_ ?_ (fun y hy => hs y (mem_mk.mpr (.inr (.inr hy)))) x hx
          · cases r with
            | nil => trivial
            | node c => exact half s1 l1 (Sub.congr_left ir hk)
          · intro y hy hsub v
            have sy := unhalf s1 hsub
            rw [hm y hy (s1.subEq.trans hsub) v]
            constructor
            · rintro ⟨z, hz, h1, h2⟩
              rcases mem_mk.mp hz with ⟨-, rfl⟩ | hz | hz
              · exact absurd (h1.symm.trans hk) sy.not_sameKey'
              · exact absurd h1 (((hl.side il hz).congr_left hk).ne_of_side sy (by simp))
              · exact ⟨z, hz, h1, h2⟩
            · rintro ⟨z, hz, h⟩; exact ⟨z, mem_mk.mpr (.inr (.inr hz)), h⟩
      · -- the node is in one half, and the other half is empty
        have hi : TInv (Trie.mk q d act l r) := .mk q d act l r wf il ir hl hr two
        have hsq : Sub P q (bit q.addr P.len) := ⟨by have := hw.1; omega, hw.2, rfl⟩
        have sub : ∀ y ∈ (Trie.mk q d act l r).entries, Sub P y.1 (bit q.addr P.len) := fun y hy => hsq.trans_subEq (hi.subEq rfl hy)
        have mP : m (keyOf P) = none := by
          cases hmx : m (keyOf P) with
          | none => rfl
          | some v =>
            obtain ⟨y, hy, h, -⟩ := (hm P hP (SubEq.refl _) v).mp hmx
            exact absurd h (sub y hy).not_sameKey'
        have f : fresh e u (m (keyOf P)) = none := by rw [mP]; cases u <;> rfl
        have fu : (none <|> u : Option D) = u := by cases u <;> rfl
        rw [PMap.agg_succ, ← k0, ← k1, f, fu]
        have empty : ∀ {Q : Prefix α} {b : Bool}, Sub P Q b → Q.len = P.len + 1 → Q.WF → b ≠ bit q.addr P.len →
            ∀ k', m.agg e h u (keyOf Q) k' = none := by
          intro Q b h1 h2 h3 hb
          refine agg_none h u Q h3 (by omega) fun x hx hsub => ?_
          cases hmx : m (keyOf x) with
          | none => rfl
          | some v =>
            obtain ⟨y, hy, h, -⟩ := (hm x hx (h1.subEq.trans hsub) v).mp hmx
            exact absurd h ((sub y hy).ne_of_side (unhalf h1 hsub) (Ne.symm hb))
        have full : ∀ {Q : Prefix α} {b : Bool}, Sub P Q b → Q.len = P.len + 1 → Q.WF → b = bit q.addr P.len →
            AggRel e (Trie.aggregate (liftEq e) geq (u.map some) (Trie.mk q d act l r)).1 x (m.agg e h u (keyOf Q) (keyOf x)) := by
          intro Q b h1 h2 h3 hb
          subst hb
          exact ih _ u Q hi h3 (by omega) (half h1 h2 hsq) (fun y hy hsub => hm y hy (h1.subEq.trans hsub)) hs x hx
        by_cases hkx : keyOf x = keyOf P
        · have : PMap.combine e none (keyOf P) (m.agg e h u (keyOf Q0)) (m.agg e h u (keyOf Q1)) (keyOf x) = none := by
            unfold PMap.combine
            cases hb : bit q.addr P.len with
            | false =>
              rw [← k1, empty s1 l1 w1 (by rw [hb]; simp)]
              cases m.agg e h u (keyOf Q0) ((keyOf P).1 + 1, 2 * (keyOf P).2) <;> simp [hkx]
            | true =>
              rw [← k0, empty s0 l0 w0 (by rw [hb]; simp)]
              simp [hkx]
          rw [this]
          intro y hy hsx
          have ti := aggregate_tinv he hi (u.map some)
          have := ti.1.side (ti.2 P (bit q.addr P.len) hsq) hy
          exact this.not_sameKey' (hsx.trans ((keyOf_eq hx).mp hkx))
        · cases hb : bit q.addr P.len with
          | false =>
            have a1 := empty s1 l1 w1 (by rw [hb]; simp)
            have a0 := full s0 l0 w0 hb.symm
            have : PMap.combine e none (keyOf P) (m.agg e h u (keyOf Q0)) (m.agg e h u (keyOf Q1)) (keyOf x) =
                m.agg e h u (keyOf Q0) (keyOf x) := by
              unfold PMap.combine
              rw [← k1, a1]
              cases m.agg e h u (keyOf Q0) ((keyOf P).1 + 1, 2 * (keyOf P).2) <;> simp [hkx, a1]
            rw [this]; exact a0
          | true =>
            have a0 := empty s0 l0 w0 (by rw [hb]; simp)
            have a1 := full s1 l1 w1 hb.symm
            have : PMap.combine e none (keyOf P) (m.agg e h u (keyOf Q0)) (m.agg e h u (keyOf Q1)) (keyOf x) =
                m.agg e h u (keyOf Q1) (keyOf x) := by
              unfold PMap.combine
              rw [← k0, a0]
              simp [hkx, a0]
            rw [this]; exact a1

/-- the key of the prefix of length 0 -/
theorem keyOf_root (a : α) : keyOf (⟨a, 0⟩ : Prefix α) = (0, 0) := by
  unfold keyOf blockSize
  simp only [Prod.mk.injEq, true_and, Nat.sub_zero]
  exact Nat.div_eq_of_lt (toNat_lt a)

variable [Inhabited D] [DecidableEq D]

theorem aggBy_exact {geq : Option D → Option D → Bool} {t : Table α D} (hg : t.Good) {e : D → D → Bool} (he : t.eq = some e)
    (hp : Trie.EqPer t.cmp geq) {c : Option (D → D → Bool)}
    {m : PMap D} (hm : t.Shows m) (k : PrefixI α) (hk : k.toPrefix.WF) :
    match m.aggregate (width α) e (keyOf k.toPrefix) with
    | some w => ∃ v, (⟨(t.aggregateBy geq).trie, c⟩ : Table α D).get k = (v, true) ∧ (v = w ∨ e v w = true)
    | none => (⟨(t.aggregateBy geq).trie, c⟩ : Table α D).get k = (default, false) := by
  have hr := Table.Shows.repr hg hm
  have hcmp : t.cmp = liftEq e := by simp only [Table.cmp, he, Option.getD_some]
  have hok := hp
  rw [hcmp] at hok
  have wf0 : (⟨zero, 0⟩ : Prefix α).WF := Nat.zero_le _
  have within : AggWithin (⟨zero, 0⟩ : Prefix α) t.trie := by
    cases t.trie with
    | nil => trivial
    | node q => exact ⟨Nat.zero_le _, Agree.zero _ _⟩
  have h := agg_trie hok (m := m) (width α) t.trie none ⟨zero, 0⟩ hg.inv wf0 (by simp) within
    (fun x hx _ v => hr.eqv x hx v) (fun y hy => hg.some y hy) k.toPrefix hk
  rw [keyOf_root] at h
  have ha : (Trie.aggregate (liftEq e) geq (Option.map some none) t.trie).1 = (t.aggregateBy geq).trie := by
    rw [Table.aggregateBy, hcmp]; rfl
  rw [ha] at h
  have gs := Table.get_spec (Table.aggregateBy_good hg hp (e := c)) k
  unfold PMap.aggregate
  cases hx : m.agg e (width α) none (0, 0) (keyOf k.toPrefix) with
  | none => rw [hx] at h; exact gs.2 h
  | some w =>
    rw [hx] at h
    obtain ⟨y, hy, hs, v, hv, hvw⟩ := h
    refine ⟨v, ?_, ?_⟩
    · rw [gs.1 y hy hs, hv]
      rfl
    · simpa only [Close, liftEq, Option.some.injEq] using hvw

/-- Exactly what `Aggregate` returns: `Get` on the result finds what the specification `PMap.aggregate` says, with a value
    that compares equal. -/
theorem C33_exact (t : Table α D) (ht : t.Reachable) (e : D → D → Bool) (he : t.eq = some e) (hc : t.CmpOk)
    (m : PMap D) (hm : t.Shows m) (k : PrefixI α) (hk : k.toPrefix.WF) :
    match m.aggregate (width α) e (keyOf k.toPrefix) with
    | some w => ∃ v, t.aggregate.get k = (v, true) ∧ e v w = true
    | none => t.aggregate.get k = (default, false) := by
  have h := aggBy_exact ht.good he hc.eqOk.toEqPer (c := none) hm k hk
  split at h
  · obtain ⟨v, h1, h2⟩ := h
    exact ⟨v, h1, hc.rfl_of he h2⟩
  · exact h

/-- in particular for a table whose comparison is `==` -/
theorem C33_exact_default (t : Table α D) (ht : t.Reachable) (he : t.eq = some fun x y => decide (x = y)) (m : PMap D) (hm : t.Shows m) :
    t.aggregate.Shows (m.aggregate (width α) fun x y => decide (x = y)) := by
  intro k hk
  have h := C33_exact t ht _ he ⟨_, he, by simp, by simp +contextual, by simp +contextual⟩ m hm k hk
  cases hx : m.aggregate (width α) (fun x y => decide (x = y)) (keyOf k.toPrefix) with
  | none => rw [hx] at h; exact h
  | some w =>
    rw [hx] at h
    obtain ⟨v, h1, h2⟩ := h
    simp only [decide_eq_true_iff] at h2
    subst h2
    exact h1

/-! ### the specification on small examples (addresses of 3 bits), and the hypotheses are met -/

/-- two halves with equal values become one entry; an entry with the value in force above it goes away; one with another
    value stays, and so does an entry below that with the first value -/
example :
    let m : PMap Nat := ((((PMap.empty.set (2, 0) 1).set (2, 1) 1).set (1, 1) 2).set (2, 3) 2).set (3, 4) 3
    [(0, 0), (1, 0), (1, 1), (2, 0), (2, 1), (2, 2), (2, 3), (3, 4), (3, 5)].map (m.aggregate 3 fun x y => decide (x = y)) =
      [none, some 1, some 2, none, none, none, none, some 3, none] := by decide

/-- what is inside of merged halves is dropped (C32_lookup_counterexample) -/
example :
    let m : PMap Nat := ((PMap.empty.set (1, 0) 1).set (1, 1) 1).set (3, 0) 2
    [(0, 0), (1, 0), (1, 1), (3, 0)].map (m.aggregate 3 fun x y => decide (x = y)) = [some 1, none, none, none] := by decide

/-- a table and the map it shows, for `C33_exact` -/
example : ∃ (t : Table (BitVec 32) Nat) (m : PMap Nat), t.Reachable ∧ t.eq = some (fun x y => decide (x = y)) ∧ t.CmpOk ∧ t.Shows m ∧
    m (1, 1) = some 7 ∧ (t.aggregate.get (.prefix ⟨0x80000000#32, 1⟩)) = (7, true) := by
  have h0 : (Table.new_ : Table (BitVec 32) Nat).Reachable := .new_
  have h1 : ((Table.new_ : Table (BitVec 32) Nat).step (.insert (.prefix ⟨0x80000000#32, 1⟩) 7)).1.Reachable :=
    .step _ _ h0 (by simp [Table.new_]) (by decide)
  obtain ⟨m, hm⟩ := C23_shows _ h1
  refine ⟨_, m, h1, rfl, ⟨_, rfl, by simp, by simp +contextual, by simp +contextual⟩, hm, ?_, by decide⟩
  have hg := hm (.prefix ⟨0x80000000#32, 1⟩) (by decide)
  have hk : keyOf (PrefixI.prefix (⟨0x80000000#32, 1⟩ : Prefix (BitVec 32))).toPrefix = (1, 1) := by decide
  rw [hk] at hg
  have hv : ((Table.new_ : Table (BitVec 32) Nat).step (.insert (.prefix ⟨0x80000000#32, 1⟩) 7)).1.get (.prefix ⟨0x80000000#32, 1⟩) = (7, true) := by decide
  rw [hv] at hg
  cases h : m (1, 1) with
  | none => rw [h] at hg; cases hg
  | some v => rw [h] at hg; cases hg; rfl

end
end Addrs

import Verif.TableDiff
/-
  The order in which `Diff` reports.
-/
namespace Addrs
open GoWord LawfulGoWord

set_option linter.unusedSectionVars false

namespace Trie
section
variable {α D : Type} [LawfulGoWord α]

/-- the prefix under which an event is reported -/
def Event.pfx : Event α D → Prefix α
  | removed x => x.1
  | added y => y.1
  | both x _ => x.1

theorem events_key {a b : Trie α D} (ha : TInv a) (hb : TInv b) {v} (hv : v ∈ events a b) :
    ∃ x, (x ∈ a.entries ∨ x ∈ b.entries) ∧ x.1 = v.pfx := by
  have := events_ok a b ha hb v hv
  cases v with
  | removed x => exact ⟨x, Or.inl this.1, rfl⟩
  | added x => exact ⟨x, Or.inr this.1, rfl⟩
  | both x y => exact ⟨x, Or.inl this.1, rfl⟩

/-- all events of two tries on the same side of `p` lie on that side -/
theorem events_inside {a b : Trie α D} (ha : TInv a) (hb : TInv b) {p : Prefix α} {c : Bool}
    (h1 : ∀ x, x ∈ a.entries → Sub p x.1 c) (h2 : ∀ x, x ∈ b.entries → Sub p x.1 c)
    {v} (hv : v ∈ events a b) : Sub p v.pfx c := by
  obtain ⟨x, hx | hx, e⟩ := events_key ha hb hv
  · rw [← e]; exact h1 x hx
  · rw [← e]; exact h2 x hx

theorem Sub.not_subEq {p q : Prefix α} {b : Bool} (h : Sub p q b) : ¬ SubEq q p := fun h' => by
  have := h.lt; have := h'.1; omega

theorem Sub.sides_not_subEq {p x y : Prefix α} {b c : Bool} (h : Sub p x b) (h' : Sub p y c) (hbc : b ≠ c) :
    ¬ SubEq y x := fun e => by
  have := e.2 p.len h'.lt
  rw [h.side, h'.side] at this
  exact hbc this.symm

/-- The combinator for the induction: a root event, then the left side, then the right side. -/
theorem pairwise_three {R : Event α D → Event α D → Prop} {E L M : List (Event α D)}
    (hE : E.Pairwise R) (hL : L.Pairwise R) (hM : M.Pairwise R)
    (h1 : ∀ v ∈ E, ∀ w ∈ L, R v w) (h2 : ∀ v ∈ E, ∀ w ∈ M, R v w) (h3 : ∀ v ∈ L, ∀ w ∈ M, R v w) :
    (E ++ (L ++ M)).Pairwise R := by
  rw [List.pairwise_append, List.pairwise_append]
  refine ⟨hE, ⟨hL, hM, h3⟩, fun v hv w hw => ?_⟩
  rcases List.mem_append.mp hw with hw | hw
  · exact h1 v hv w hw
  · exact h2 v hv w hw

theorem pairwise_ev1 {R : Event α D → Event α D → Prop} {act : Bool} {x : Prefix α × Option D} :
    (ev1 act x).Pairwise R := by cases act <;> simp [ev1]
theorem pairwise_ev2 {R : Event α D → Event α D → Prop} {act : Bool} {x : Prefix α × Option D} :
    (ev2 act x).Pairwise R := by cases act <;> simp [ev2]
theorem pairwise_ev {R : Event α D → Event α D → Prop} {act act' : Bool} {x y : Prefix α × Option D} :
    (ev act act' x y).Pairwise R := by cases act <;> cases act' <;> simp [ev]

theorem mem_ev {act act' : Bool} {x y : Prefix α × Option D} (hs : SameKey x.1 y.1) {v : Event α D}
    (hv : v ∈ ev act act' x y) : SameKey x.1 v.pfx := by
  cases act <;> cases act' <;> simp [ev] at hv <;> subst hv
  · exact hs
  · exact SameKey.refl _
  · exact SameKey.refl _

/-- The order relation in which a trie is listed is respected by `diff` if it holds between a prefix
    and everything inside it, between the two sides of a prefix, and between disjoint prefixes in the
    way in which the roots of `a` and `b` are disjoint. -/
theorem events_pairwise (R : Prefix α → Prefix α → Prop)
    (hin : ∀ p q b, Sub p q b → R p q) (hside : ∀ p x y, Sub p x false → Sub p y true → R x y)
    (hcongr : ∀ p p' q, SameKey p p' → R p q → R p' q)
    (C : Trie α D → Trie α D → Prop)
    (hC : ∀ a b, C a b → TInv a → TInv b →
      (∀ {p d n h act l r q e n' h' act' l' r'}, a = node p d n h act l r → b = node q e n' h' act' l' r' →
        (SameKey p q → C l l' ∧ C r r') ∧
        (Sub p q true → C l nil ∧ C r b) ∧ (Sub p q false → C l b ∧ C r nil) ∧
        (Sub q p true → C nil l' ∧ C a r') ∧ (Sub q p false → C a l' ∧ C nil r') ∧
        (∀ k, k < p.len → k < q.len → bit p.addr k ≠ bit q.addr k →
          (∀ x y, x ∈ a.entries → y ∈ b.entries → R x.1 y.1 ∧ R y.1 x.1))) ∧
      (∀ {p d n h act l r}, a = node p d n h act l r → b = nil → C l nil ∧ C r nil) ∧
      (∀ {p d n h act l r}, b = node p d n h act l r → a = nil → C nil l ∧ C nil r))
    (hCnil : ∀ a b, C a b → C a nil ∧ C nil b)
    (a b : Trie α D) (ha : TInv a) (hb : TInv b) (hab : C a b) :
    (events a b).Pairwise (fun v w => R v.pfx w.pfx) := by
  fun_induction events a b with
  | case1 => exact List.Pairwise.nil
  | case2 p d n h act l r ih1 ih2 =>
    obtain ⟨c1, c2⟩ := (hC _ _ hab ha hb).2.1 rfl rfl
    obtain ⟨wf, il, ir, hl, hr, two, eme⟩ := ha.inv
    have sl : ∀ v ∈ events l nil, Sub p v.pfx false := fun v hv =>
      events_inside hl .empty (fun x hx => hl.side il hx) (fun x hx => by cases hx) hv
    have sr : ∀ v ∈ events r nil, Sub p v.pfx true := fun v hv =>
      events_inside hr .empty (fun x hx => hr.side ir hx) (fun x hx => by cases hx) hv
    refine pairwise_three pairwise_ev1 (ih1 hl .empty c1) (ih2 hr .empty c2) ?_ ?_
      (fun v hv w hw => hside _ _ _ (sl v hv) (sr w hw))
    · intro v hv w hw
      obtain ⟨_, rfl⟩ := mem_ev1.mp hv
      exact hin _ _ _ (sl w hw)
    · intro v hv w hw
      obtain ⟨_, rfl⟩ := mem_ev1.mp hv
      exact hin _ _ _ (sr w hw)
  | case3 p d n h act l r ih1 ih2 =>
    obtain ⟨c1, c2⟩ := (hC _ _ hab ha hb).2.2 rfl rfl
    obtain ⟨wf, il, ir, hl, hr, two, eme⟩ := hb.inv
    have sl : ∀ v ∈ events nil l, Sub p v.pfx false := fun v hv =>
      events_inside .empty hl (fun x hx => by cases hx) (fun x hx => hl.side il hx) hv
    have sr : ∀ v ∈ events nil r, Sub p v.pfx true := fun v hv =>
      events_inside .empty hr (fun x hx => by cases hx) (fun x hx => hr.side ir hx) hv
    refine pairwise_three pairwise_ev2 (ih1 .empty hl c1) (ih2 .empty hr c2) ?_ ?_
      (fun v hv w hw => hside _ _ _ (sl v hv) (sr w hw))
    · intro v hv w hw
      obtain ⟨_, rfl⟩ := mem_ev2.mp hv
      exact hin _ _ _ (sl w hw)
    · intro v hv w hw
      obtain ⟨_, rfl⟩ := mem_ev2.mp hv
      exact hin _ _ _ (sr w hw)
  | case4 p d n m act l r q e n' m' act' l' r' _ _ _ hc ih1 ih2 =>
    have hcs := ((hC _ _ hab ha hb).1 rfl rfl).1
    obtain ⟨wf, il, ir, hl, hr, two, eme⟩ := ha.inv
    obtain ⟨wf', il', ir', hl', hr', two', eme'⟩ := hb.inv
    have hs : SameKey p q := by
      rcases compareP_cases wf wf' with ⟨hs, _⟩ | ⟨c, _, h⟩ | ⟨c, _, h⟩ | ⟨_, _, _, _, _, _, _, _, _, h⟩
      · exact hs
      · rw [h] at hc; simp at hc
      · rw [h] at hc; simp at hc
      · rw [h] at hc; simp at hc
    obtain ⟨c1, c2⟩ := hcs hs
    have sl : ∀ v ∈ events l l', Sub p v.pfx false := fun v hv =>
      events_inside hl hl' (fun x hx => hl.side il hx) (fun x hx => (hl'.side il' hx).congr_left hs.symm) hv
    have sr : ∀ v ∈ events r r', Sub p v.pfx true := fun v hv =>
      events_inside hr hr' (fun x hx => hr.side ir hx) (fun x hx => (hr'.side ir' hx).congr_left hs.symm) hv
    refine pairwise_three pairwise_ev (ih1 hl hl' c1) (ih2 hr hr' c2) ?_ ?_
      (fun v hv w hw => hside _ _ _ (sl v hv) (sr w hw))
    · intro v hv w hw
      exact hcongr _ _ _ (mem_ev hs hv) (hin _ _ _ (sl w hw))
    · intro v hv w hw
      exact hcongr _ _ _ (mem_ev hs hv) (hin _ _ _ (sr w hw))
  | case5 p d n m act l r q e n' m' act' l' r' _ _ child hc ih1 ih2 ih3 ih4 =>
    have hcs := ((hC _ _ hab ha hb).1 rfl rfl).2
    obtain ⟨wf, il, ir, hl, hr, two, eme⟩ := ha.inv
    have wf' := hb.inv.1
    have hs : Sub p q child := by
      rcases compareP_cases wf wf' with ⟨hs, h⟩ | ⟨c, hs, h⟩ | ⟨c, _, h⟩ | ⟨_, _, _, _, _, _, _, _, _, h⟩ <;>
        rw [h] at hc <;> simp at hc
      rw [← hc.2.2]; exact hs
    have hq : ∀ y, y ∈ (node q e n' m' act' l' r').entries → Sub p y.1 child := fun y hy =>
      hs.trans_subEq (hb.subEq rfl hy)
    cases child with
    | true =>
      obtain ⟨c1, c2⟩ := hcs.1 hs
      simp only [if_true]
      have sl : ∀ v ∈ events l nil, Sub p v.pfx false := fun v hv =>
        events_inside hl .empty (fun x hx => hl.side il hx) (fun x hx => by cases hx) hv
      have sr : ∀ v ∈ events r (node q e n' m' act' l' r'), Sub p v.pfx true := fun v hv =>
        events_inside hr hb (fun x hx => hr.side ir hx) hq hv
      refine pairwise_three pairwise_ev1 (ih1 hl .empty c1) (ih2 hr hb c2) ?_ ?_
        (fun v hv w hw => hside _ _ _ (sl v hv) (sr w hw))
      · intro v hv w hw
        obtain ⟨_, rfl⟩ := mem_ev1.mp hv
        exact hin _ _ _ (sl w hw)
      · intro v hv w hw
        obtain ⟨_, rfl⟩ := mem_ev1.mp hv
        exact hin _ _ _ (sr w hw)
    | false =>
      obtain ⟨c1, c2⟩ := hcs.2.1 hs
      simp only [Bool.false_eq_true, if_false]
      have sl : ∀ v ∈ events l (node q e n' m' act' l' r'), Sub p v.pfx false := fun v hv =>
        events_inside hl hb (fun x hx => hl.side il hx) hq hv
      have sr : ∀ v ∈ events r nil, Sub p v.pfx true := fun v hv =>
        events_inside hr .empty (fun x hx => hr.side ir hx) (fun x hx => by cases hx) hv
      refine pairwise_three pairwise_ev1 (ih3 hl hb c1) (ih4 hr .empty c2) ?_ ?_
        (fun v hv w hw => hside _ _ _ (sl v hv) (sr w hw))
      · intro v hv w hw
        obtain ⟨_, rfl⟩ := mem_ev1.mp hv
        exact hin _ _ _ (sl w hw)
      · intro v hv w hw
        obtain ⟨_, rfl⟩ := mem_ev1.mp hv
        exact hin _ _ _ (sr w hw)
  | case6 p d n m act l r q e n' m' act' l' r' _ _ child hc ih1 ih2 ih3 ih4 =>
    have hcs := ((hC _ _ hab ha hb).1 rfl rfl).2.2.2
    obtain ⟨wf', il, ir, hl, hr, two, eme⟩ := hb.inv
    have wf := ha.inv.1
    have hs : Sub q p child := by
      rcases compareP_cases wf wf' with ⟨hs, h⟩ | ⟨c, hs, h⟩ | ⟨c, hs, h⟩ | ⟨_, _, _, _, _, _, _, _, _, h⟩ <;>
        rw [h] at hc <;> simp at hc
      rw [← hc.2.2]; exact hs
    have hq : ∀ y, y ∈ (node p d n m act l r).entries → Sub q y.1 child := fun y hy =>
      hs.trans_subEq (ha.subEq rfl hy)
    cases child with
    | true =>
      obtain ⟨c1, c2⟩ := hcs.1 hs
      simp only [if_true]
      have sl : ∀ v ∈ events nil l', Sub q v.pfx false := fun v hv =>
        events_inside .empty hl (fun x hx => by cases hx) (fun x hx => hl.side il hx) hv
      have sr : ∀ v ∈ events (node p d n m act l r) r', Sub q v.pfx true := fun v hv =>
        events_inside ha hr hq (fun x hx => hr.side ir hx) hv
      refine pairwise_three pairwise_ev2 (ih1 .empty hl c1) (ih2 ha hr c2) ?_ ?_
        (fun v hv w hw => hside _ _ _ (sl v hv) (sr w hw))
      · intro v hv w hw
        obtain ⟨_, rfl⟩ := mem_ev2.mp hv
        exact hin _ _ _ (sl w hw)
      · intro v hv w hw
        obtain ⟨_, rfl⟩ := mem_ev2.mp hv
        exact hin _ _ _ (sr w hw)
    | false =>
      obtain ⟨c1, c2⟩ := hcs.2.1 hs
      simp only [Bool.false_eq_true, if_false]
      have sl : ∀ v ∈ events (node p d n m act l r) l', Sub q v.pfx false := fun v hv =>
        events_inside ha hl hq (fun x hx => hl.side il hx) hv
      have sr : ∀ v ∈ events nil r', Sub q v.pfx true := fun v hv =>
        events_inside .empty hr (fun x hx => by cases hx) (fun x hx => hr.side ir hx) hv
      refine pairwise_three pairwise_ev2 (ih3 ha hl c1) (ih4 .empty hr c2) ?_ ?_
        (fun v hv w hw => hside _ _ _ (sl v hv) (sr w hw))
      · intro v hv w hw
        obtain ⟨_, rfl⟩ := mem_ev2.mp hv
        exact hin _ _ _ (sl w hw)
      · intro v hv w hw
        obtain ⟨_, rfl⟩ := mem_ev2.mp hv
        exact hin _ _ _ (sr w hw)
  | case7 p d n m act l r q e n' m' act' l' r' _ _ hc ih1 ih2 =>
    have hcs := ((hC _ _ hab ha hb).1 rfl rfl).2.2.2.2.2
    obtain ⟨c1, c2⟩ := hCnil _ _ hab
    rcases compareP_cases ha.inv.1 hb.inv.1 with ⟨hs, h⟩ | ⟨c, hs, h⟩ | ⟨c, hs, h⟩ | ⟨k, _, _, h1, h2, _, h4, _, _, h⟩ <;>
      rw [h] at hc <;> simp at hc
    have hcs := hcs k h1 h2 h4
    rw [List.pairwise_append]
    refine ⟨ih1 ha .empty c1, ih2 .empty hb c2, fun v hv w hw => ?_⟩
    obtain ⟨x, hx, ex⟩ := events_key ha .empty hv
    obtain ⟨y, hy, ey⟩ := events_key .empty hb hw
    rw [← ex, ← ey]
    exact (hcs x y (hx.resolve_right (by intro h; cases h)) (hy.resolve_left (by intro h; cases h))).1
  | case8 p d n m act l r q e n' m' act' l' r' _ _ child hc hch ih1 ih2 =>
    have hcs := ((hC _ _ hab ha hb).1 rfl rfl).2.2.2.2.2
    obtain ⟨c1, c2⟩ := hCnil _ _ hab
    rcases compareP_cases ha.inv.1 hb.inv.1 with ⟨hs, h⟩ | ⟨c, hs, h⟩ | ⟨c, hs, h⟩ | ⟨k, _, _, h1, h2, _, h4, _, _, h⟩ <;>
      rw [h] at hc <;> simp at hc
    have hcs := hcs k h1 h2 h4
    rw [List.pairwise_append]
    refine ⟨ih1 .empty hb c2, ih2 ha .empty c1, fun v hv w hw => ?_⟩
    obtain ⟨x, hx, ex⟩ := events_key .empty hb hv
    obtain ⟨y, hy, ey⟩ := events_key ha .empty hw
    rw [← ex, ← ey]
    exact (hcs y x (hy.resolve_right (by intro h; cases h)) (hx.resolve_left (by intro h; cases h))).2

theorem entries_disjoint_roots {a b : Trie α D} (ha : TInv a) (hb : TInv b) {p d n h act l r q e n' h' act' l' r'}
    (ea : a = node p d n h act l r) (eb : b = node q e n' h' act' l' r') {k : Nat} (h1 : k < p.len) (h2 : k < q.len)
    (h3 : bit p.addr k ≠ bit q.addr k) {x y} (hx : x ∈ a.entries) (hy : y ∈ b.entries) :
    k < x.1.len ∧ k < y.1.len ∧ bit x.1.addr k ≠ bit y.1.addr k := by
  have gx := ha.subEq ea hx
  have gy := hb.subEq eb hy
  refine ⟨Nat.lt_of_lt_of_le h1 gx.1, Nat.lt_of_lt_of_le h2 gy.1, ?_⟩
  rw [← gx.2 k h1, ← gy.2 k h2]
  exact h3

/-- a prefix is never reported after one inside it -/
theorem events_parent_first (a b : Trie α D) (ha : TInv a) (hb : TInv b) :
    (events a b).Pairwise (fun v w => ¬ SubEq w.pfx v.pfx) := by
  refine events_pairwise (fun p q => ¬ SubEq q p) ?_ ?_ ?_ (fun _ _ => True) ?_ (fun _ _ _ => ⟨trivial, trivial⟩)
    a b ha hb trivial
  · intro p q b h; exact Sub.not_subEq h
  · intro p x y h1 h2; exact Sub.sides_not_subEq h1 h2 (by simp)
  · intro p p' q hs h h'
    exact h (h'.trans hs.symm.subEq)
  · intro a b _ ha hb
    refine ⟨fun {p d n h act l r q e n' h' act' l' r'} ea eb => ⟨fun _ => ⟨trivial, trivial⟩,
      fun _ => ⟨trivial, trivial⟩, fun _ => ⟨trivial, trivial⟩,
      fun _ => ⟨trivial, trivial⟩, fun _ => ⟨trivial, trivial⟩, fun k h1 h2 h3 x y hx hy => ?_⟩,
      fun _ _ => ⟨trivial, trivial⟩, fun _ _ => ⟨trivial, trivial⟩⟩
    obtain ⟨g1, g2, g3⟩ := entries_disjoint_roots ha hb ea eb h1 h2 h3 hx hy
    exact ⟨fun h => g3 (h.2 k g2).symm, fun h => g3 (h.2 k g1)⟩

/-- every key of `a` is a key of `b` -/
def KeySub (a b : Trie α D) : Prop := ∀ x, x ∈ a.entries → ∃ y, y ∈ b.entries ∧ SameKey x.1 y.1

theorem Before.congr {p p' q : Prefix α} (hs : SameKey p p') (h : Before p q) : Before p' q := by
  rcases h with ⟨b, h⟩ | ⟨n, h1, h2, h3, h4, h5⟩
  · exact Or.inl ⟨b, h.congr_left hs⟩
  · refine Or.inr ⟨n, hs.1 ▸ h1, h2, ((hs.2.mono (Nat.le_of_lt h1)).symm).trans h3, ?_, h5⟩
    rw [← hs.2 n h1]; exact h4

/-- the condition under which `Diff` is in order -/
def Ordered (a b : Trie α D) : Prop := a = nil ∨ b = nil ∨ KeySub a b ∨ KeySub b a

theorem KeySub.same {p : Prefix α} {d n h act} {l r : Trie α D} {q : Prefix α} {e n' h' act'} {l' r' : Trie α D}
    (ha : TInv (node p d n h act l r)) (hb : TInv (node q e n' h' act' l' r')) (hs : SameKey p q)
    (hk : KeySub (node p d n h act l r) (node q e n' h' act' l' r')) : KeySub l l' ∧ KeySub r r' := by
  obtain ⟨wf, il, ir, hl, hr, two, eme⟩ := ha.inv
  obtain ⟨wf', il', ir', hl', hr', two', eme'⟩ := hb.inv
  constructor
  · intro x hx
    obtain ⟨y, hy, hxy⟩ := hk x (mem_node.mpr (Or.inr (Or.inl hx)))
    have hx' := hl.side il hx
    rcases mem_node.mp hy with ⟨_, rfl⟩ | hy | hy
    · exact absurd (hxy.symm) ((hx'.congr_left hs).not_sameKey)
    · exact ⟨y, hy, hxy⟩
    · exact absurd hxy (hx'.ne_of_side ((hr'.side ir' hy).congr_left hs.symm) (by simp))
  · intro x hx
    obtain ⟨y, hy, hxy⟩ := hk x (mem_node.mpr (Or.inr (Or.inr hx)))
    have hx' := hr.side ir hx
    rcases mem_node.mp hy with ⟨_, rfl⟩ | hy | hy
    · exact absurd (hxy.symm) ((hx'.congr_left hs).not_sameKey)
    · exact absurd hxy (hx'.ne_of_side ((hl'.side il' hy).congr_left hs.symm) (by simp))
    · exact ⟨y, hy, hxy⟩

/-- if all of `a` is inside a side of `b`'s root -/
theorem KeySub.down {a : Trie α D} {q : Prefix α} {e n' h' act'} {l' r' : Trie α D} {c : Bool}
    (hb : TInv (node q e n' h' act' l' r')) (hs : ∀ x, x ∈ a.entries → Sub q x.1 c)
    (hk : KeySub a (node q e n' h' act' l' r')) : KeySub a (if c then r' else l') := by
  obtain ⟨wf', il', ir', hl', hr', two', eme'⟩ := hb.inv
  intro x hx
  obtain ⟨y, hy, hxy⟩ := hk x hx
  have hx' := hs x hx
  rcases mem_node.mp hy with ⟨_, rfl⟩ | hy | hy
  · exact absurd hxy hx'.not_sameKey'
  · cases c with
    | false => exact ⟨y, hy, hxy⟩
    | true => exact absurd hxy (hx'.ne_of_side (hl'.side il' hy) (by simp))
  · cases c with
    | true => exact ⟨y, hy, hxy⟩
    | false => exact absurd hxy (hx'.ne_of_side (hr'.side ir' hy) (by simp))

/-- a trie whose root is strictly above the other's cannot have only keys of the other, unless its
    other side is empty -/
theorem KeySub.up {a : Trie α D} {q : Prefix α} {e n' h' act'} {l' r' : Trie α D} {c : Bool}
    (hb : TInv (node q e n' h' act' l' r')) (hs : ∀ x, x ∈ a.entries → Sub q x.1 c)
    (hk : KeySub (node q e n' h' act' l' r') a) : KeySub (if c then r' else l') a := by
  intro x hx
  refine hk x (mem_node.mpr (Or.inr ?_))
  cases c with
  | true => exact Or.inr hx
  | false => exact Or.inl hx

/-- if the keys of one side are among the keys of the other, `Diff` is in order -/
theorem events_sorted (a b : Trie α D) (ha : TInv a) (hb : TInv b) (hab : Ordered a b) :
    (events a b).Pairwise (fun v w => Before v.pfx w.pfx) := by
  refine events_pairwise Before ?_ ?_ ?_ Ordered ?_ (fun _ _ _ => ⟨Or.inr (Or.inl rfl), Or.inl rfl⟩)
    a b ha hb hab
  · intro p q b h; exact Or.inl ⟨b, h⟩
  · intro p x y h1 h2; exact before_of_sides h1 h2
  · intro p p' q hs h; exact h.congr hs
  · intro a b hab ha hb
    refine ⟨fun {p d n h act l r q e n' h' act' l' r'} ea eb => ?_,
      fun _ _ => ⟨Or.inr (Or.inl rfl), Or.inr (Or.inl rfl)⟩, fun _ _ => ⟨Or.inl rfl, Or.inl rfl⟩⟩
    have hab' : KeySub a b ∨ KeySub b a := by
      rcases hab with h | h | h
      · rw [h] at ea; cases ea
      · rw [h] at eb; cases eb
      · exact h
    refine ⟨fun hs => ?_, fun hs => ⟨Or.inr (Or.inl rfl), ?_⟩, fun hs => ⟨?_, Or.inr (Or.inl rfl)⟩,
      fun hs => ⟨Or.inl rfl, ?_⟩, fun hs => ⟨?_, Or.inl rfl⟩, fun k h1 h2 h3 => ?_⟩
    · subst ea eb
      rcases hab' with hk | hk
      · obtain ⟨g1, g2⟩ := hk.same ha hb hs
        exact ⟨Or.inr (Or.inr (Or.inl g1)), Or.inr (Or.inr (Or.inl g2))⟩
      · obtain ⟨g1, g2⟩ := hk.same hb ha hs.symm
        exact ⟨Or.inr (Or.inr (Or.inr g1)), Or.inr (Or.inr (Or.inr g2))⟩
    · subst ea
      have hq : ∀ y, y ∈ b.entries → Sub p y.1 true := fun y hy => hs.trans_subEq (hb.subEq eb hy)
      rcases hab' with hk | hk
      · exact Or.inr (Or.inr (Or.inl (hk.up ha hq)))
      · exact Or.inr (Or.inr (Or.inr (hk.down ha hq)))
    · subst ea
      have hq : ∀ y, y ∈ b.entries → Sub p y.1 false := fun y hy => hs.trans_subEq (hb.subEq eb hy)
      rcases hab' with hk | hk
      · exact Or.inr (Or.inr (Or.inl (hk.up ha hq)))
      · exact Or.inr (Or.inr (Or.inr (hk.down ha hq)))
    · subst eb
      have hq : ∀ y, y ∈ a.entries → Sub q y.1 true := fun y hy => hs.trans_subEq (ha.subEq ea hy)
      rcases hab' with hk | hk
      · exact Or.inr (Or.inr (Or.inl (hk.down hb hq)))
      · exact Or.inr (Or.inr (Or.inr (hk.up hb hq)))
    · subst eb
      have hq : ∀ y, y ∈ a.entries → Sub q y.1 false := fun y hy => hs.trans_subEq (ha.subEq ea hy)
      rcases hab' with hk | hk
      · exact Or.inr (Or.inr (Or.inl (hk.down hb hq)))
      · exact Or.inr (Or.inr (Or.inr (hk.up hb hq)))
    · exfalso
      rcases hab' with hk | hk
      · obtain ⟨x, hx⟩ := ha.exists_entry (by rw [ea]; simp)
        obtain ⟨y, hy, hxy⟩ := hk x hx
        obtain ⟨g1, g2, g3⟩ := entries_disjoint_roots ha hb ea eb h1 h2 h3 hx hy
        exact g3 (hxy.2 k g1)
      · obtain ⟨y, hy⟩ := hb.exists_entry (by rw [eb]; simp)
        obtain ⟨x, hx, hxy⟩ := hk y hy
        obtain ⟨g1, g2, g3⟩ := entries_disjoint_roots ha hb ea eb h1 h2 h3 hx hy
        exact g3 (hxy.2 k g2).symm

end
end Trie
end Addrs

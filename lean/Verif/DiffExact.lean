import Verif.TableDiffOrder
/-
  The exact order in which `Diff` reports: `diff` compares the subtries of the two tables inside the
  smallest prefix common to two disjoint entries, and when the left one has the longer root it walks
  them in the wrong order.
-/
namespace Addrs
open GoWord LawfulGoWord

set_option linter.unusedSectionVars false

namespace Trie
section
variable {α D : Type} [LawfulGoWord α]

/-- `P` is the smallest prefix around everything in `S` -/
def Least (S : Prefix α → Prop) (P : Prefix α) : Prop :=
  P.WF ∧ (∀ x, S x → SubEq P x) ∧ ∀ Q : Prefix α, Q.WF → (∀ x, S x → SubEq Q x) → SubEq Q P

/-- the condition under which `Diff` reports two prefixes in the wrong order -/
def Mis (A B : Prefix α → Prop) (x y : Prefix α) : Prop :=
  ∃ C P Q, Least (fun z => z = x ∨ z = y) C ∧ Least (fun z => A z ∧ SubEq C z) P ∧
    Least (fun z => B z ∧ SubEq C z) Q ∧ C.len < Q.len ∧ Q.len < P.len

/-- the keys of a trie -/
def Keys (t : Trie α D) (z : Prefix α) : Prop := ∃ x, x ∈ t.entries ∧ x.1 = z

theorem two_of {Q x y : Prefix α} (h : SubEq Q x) (h' : SubEq Q y) : ∀ z, (z = x ∨ z = y) → SubEq Q z := by
  rintro z (rfl | rfl)
  · exact h
  · exact h'

theorem Mis.symm {A B : Prefix α → Prop} {x y : Prefix α} (h : Mis A B x y) : Mis A B y x := by
  obtain ⟨C, P, Q, ⟨h0, h1, h2⟩, h3, h4, h5, h6⟩ := h
  exact ⟨C, P, Q, ⟨h0, fun z hz => h1 z hz.symm, fun R hR hz => h2 R hR fun z h => hz z h.symm⟩, h3, h4, h5, h6⟩

/-- everything in question lies inside the common prefix -/
theorem Mis.local {A B A' B' : Prefix α → Prop} {x y : Prefix α} {p : Prefix α} {c : Bool}
    (hx : Sub p x c) (hy : Sub p y c) (hxw : x.WF)
    (hA : ∀ z, Sub p z c → (A z ↔ A' z)) (hB : ∀ z, Sub p z c → (B z ↔ B' z)) (h : Mis A B x y) : Mis A' B' x y := by
  obtain ⟨C, P, Q, hC, hP, hQ, h5, h6⟩ := h
  have hpc : Sub p C c := by
    have hle : p.len + 1 ≤ x.len := hx.lt
    have wf' : (⟨x.addr, p.len + 1⟩ : Prefix α).WF := Nat.le_trans hle hxw
    have h1 : SubEq (⟨x.addr, p.len + 1⟩ : Prefix α) C := by
      refine hC.2.2 _ wf' ?_
      rintro z (rfl | rfl)
      · exact ⟨hle, Agree.refl _ _⟩
      · refine ⟨hy.lt, fun i hi => ?_⟩
        by_cases hi' : i < p.len
        · exact (hx.agree i hi').symm.trans (hy.agree i hi')
        · have hi0 : i < p.len + 1 := hi
          have : i = p.len := by omega
          subst this
          show bit x.addr _ = _
          rw [hx.side, hy.side]
    refine ⟨h1.1, ?_, ?_⟩
    · exact hx.agree.trans (h1.2.mono (by simp))
    · rw [← h1.2 p.len (by simp)]; exact hx.side
  have e : ∀ {A A' : Prefix α → Prop}, (∀ z, Sub p z c → (A z ↔ A' z)) →
      (fun z => A z ∧ SubEq C z) = (fun z => A' z ∧ SubEq C z) := fun hA => by
    funext z
    exact propext ⟨fun h => ⟨(hA z (hpc.trans_subEq h.2)).mp h.1, h.2⟩,
      fun h => ⟨(hA z (hpc.trans_subEq h.2)).mpr h.1, h.2⟩⟩
  exact ⟨C, P, Q, hC, e hA ▸ hP, e hB ▸ hQ, h5, h6⟩

/-- not for a prefix and one inside it -/
theorem Mis.not_parent {A B : Prefix α → Prop} {x y : Prefix α} (hw : x.WF) (hxy : SubEq x y) (hx : A x ∨ B x) :
    ¬ Mis A B x y := by
  rintro ⟨C, P, Q, ⟨_, h1, h2⟩, h3, h4, h5, h6⟩
  have hcx := h1 x (Or.inl rfl)
  have hle := hcx.1
  have hle' := (h2 x hw (two_of (SubEq.refl _) (hxy))).1
  rcases hx with hx | hx
  · have := (h3.2.1 x ⟨hx, hcx⟩).1; omega
  · have := (h4.2.1 x ⟨hx, hcx⟩).1; omega

/-- not for the two sides of a node -/
theorem Mis.not_sides {A B : Prefix α → Prop} {x y p : Prefix α} {b c : Bool} (hw : p.WF) (hx : Sub p x b)
    (hy : Sub p y c) (hbc : b ≠ c)
    (h : (∀ P, (∀ z, A z → SubEq p z → SubEq P z) → P.len ≤ p.len) ∨
      (∀ P, (∀ z, B z → SubEq p z → SubEq P z) → P.len ≤ p.len)) : ¬ Mis A B x y := by
  rintro ⟨C, P, Q, ⟨_, h1, h2⟩, h3, h4, h5, h6⟩
  have g1 := h1 x (Or.inl rfl)
  have g2 := h1 y (Or.inr rfl)
  have hpc := h2 p hw (two_of (hx.subEq) (hy.subEq))
  have hle : C.len ≤ p.len := by
    apply Nat.le_of_not_lt
    intro hlt
    apply hbc
    rw [← hx.side, ← hy.side, ← g1.2 _ hlt, ← g2.2 _ hlt]
  have hcp : SubEq C p := ⟨hle, by
    have : C.len = p.len := Nat.le_antisymm hle hpc.1
    rw [this]; exact hpc.2.symm⟩
  rcases h with h | h
  · have := h P fun z hz hpz => h3.2.1 z ⟨hz, hcp.trans hpz⟩
    have := hpc.1; omega
  · have := h Q fun z hz hpz => h4.2.1 z ⟨hz, hcp.trans hpz⟩
    have := hpc.1; omega

/-- not for two entries of the same table -/
theorem Mis.not_same {A B : Prefix α → Prop} {x y : Prefix α} (h : (A x ∧ A y) ∨ (B x ∧ B y)) : ¬ Mis A B x y := by
  rintro ⟨C, P, Q, ⟨_, h1, h2⟩, h3, h4, h5, h6⟩
  have g1 := h1 x (Or.inl rfl)
  have g2 := h1 y (Or.inr rfl)
  rcases h with ⟨hx, hy⟩ | ⟨hx, hy⟩
  · have := (h2 P h3.1 (two_of (h3.2.1 _ ⟨hx, g1⟩) (h3.2.1 _ ⟨hy, g2⟩))).1
    omega
  · have := (h2 Q h4.1 (two_of (h4.2.1 _ ⟨hx, g1⟩) (h4.2.1 _ ⟨hy, g2⟩))).1
    omega

/-- the root of a trie is the smallest prefix around its entries -/
theorem TInv.root_least {p : Prefix α} {d : Option D} {n h act} {l r : Trie α D} (hi : TInv (node p d n h act l r))
    {P : Prefix α} (hP : ∀ z, Keys (node p d n h act l r) z → SubEq P z) : SubEq P p := by
  obtain ⟨wf, il, ir, hl, hr, two, eme⟩ := hi.inv
  cases act with
  | true => exact hP p ⟨(p, d), mem_node.mpr (Or.inl ⟨rfl, rfl⟩), rfl⟩
  | false =>
    obtain ⟨nl, nr⟩ := two rfl
    obtain ⟨x, hx⟩ := hl.exists_entry nl
    obtain ⟨y, hy⟩ := hr.exists_entry nr
    have g1 := hP x.1 ⟨x, mem_node.mpr (Or.inr (Or.inl hx)), rfl⟩
    have g2 := hP y.1 ⟨y, mem_node.mpr (Or.inr (Or.inr hy)), rfl⟩
    have s1 := hl.side il hx
    have s2 := hr.side ir hy
    have hle : P.len ≤ p.len := by
      apply Nat.le_of_not_lt
      intro hlt
      have : bit x.1.addr p.len = bit y.1.addr p.len := by rw [← g1.2 _ hlt, ← g2.2 _ hlt]
      rw [s1.side, s2.side] at this
      cases this
    exact ⟨hle, g1.2.trans (s1.agree.symm.mono hle)⟩

/-- the order `Diff` reports in: `v` comes before `w` -/
def Reported (a b : Trie α D) (v w : Prefix α) : Prop :=
  (Mis (Keys a) (Keys b) v w → Before w v) ∧ (¬ Mis (Keys a) (Keys b) v w → Before v w)

theorem Reported.of_not {a b : Trie α D} {v w : Prefix α} (h : ¬ Mis (Keys a) (Keys b) v w) (h' : Before v w) :
    Reported a b v w := ⟨fun hm => absurd hm h, fun _ => h'⟩

theorem events_wf {a b : Trie α D} (ha : TInv a) (hb : TInv b) {v} (hv : v ∈ events a b) : v.pfx.WF := by
  obtain ⟨x, hx | hx, e⟩ := events_key ha hb hv
  · rw [← e]; exact ha.entries_wf hx
  · rw [← e]; exact hb.entries_wf hx

theorem events_keys {a b : Trie α D} (ha : TInv a) (hb : TInv b) {v} (hv : v ∈ events a b) :
    Keys a v.pfx ∨ Keys b v.pfx := by
  obtain ⟨x, hx | hx, e⟩ := events_key ha hb hv
  · exact Or.inl ⟨x, hx, e⟩
  · exact Or.inr ⟨x, hx, e⟩

theorem keys_nil {z : Prefix α} : ¬ Keys (nil : Trie α D) z := by rintro ⟨x, hx, _⟩; cases hx

/-- the children inherit the order -/
theorem reported_local {a b a1 b1 : Trie α D} {p : Prefix α} {c : Bool} (hp : p.WF) (h1 : TInv a1) (h1' : TInv b1)
    (s1 : ∀ x, x ∈ a1.entries → Sub p x.1 c) (s1' : ∀ x, x ∈ b1.entries → Sub p x.1 c)
    (loc : ∀ z, Sub p z c → (Keys a z ↔ Keys a1 z)) (loc' : ∀ z, Sub p z c → (Keys b z ↔ Keys b1 z))
    (ih : (events a1 b1).Pairwise (fun v w => Reported a1 b1 v.pfx w.pfx)) :
    (events a1 b1).Pairwise (fun v w => Reported a b v.pfx w.pfx) := by
  refine ih.imp_of_mem fun {v w} hv hw h => ?_
  have sv := events_inside h1 h1' s1 s1' hv
  have sw := events_inside h1 h1' s1 s1' hw
  have wv := events_wf h1 h1' hv
  exact ⟨fun hm => h.1 (hm.local sv sw wv loc loc'),
    fun hm => h.2 fun hm' => hm (hm'.local sv sw wv (fun z hz => (loc z hz).symm) (fun z hz => (loc' z hz).symm))⟩

/-- a node's event, then the left side, then the right side -/
theorem reported_three {a b a1 b1 a2 b2 : Trie α D} {p : Prefix α} (hp : p.WF) {E : List (Event α D)}
    (hE1 : E.Pairwise (fun v w => Reported a b v.pfx w.pfx))
    (hE : ∀ v ∈ E, SameKey p v.pfx ∧ (Keys a v.pfx ∨ Keys b v.pfx))
    (root : (∀ P, (∀ z, Keys a z → SubEq p z → SubEq P z) → P.len ≤ p.len) ∨
      (∀ P, (∀ z, Keys b z → SubEq p z → SubEq P z) → P.len ≤ p.len))
    (h1 : TInv a1) (h1' : TInv b1) (h2 : TInv a2) (h2' : TInv b2)
    (s1 : ∀ x, x ∈ a1.entries → Sub p x.1 false) (s1' : ∀ x, x ∈ b1.entries → Sub p x.1 false)
    (s2 : ∀ x, x ∈ a2.entries → Sub p x.1 true) (s2' : ∀ x, x ∈ b2.entries → Sub p x.1 true)
    (l1 : ∀ z, Sub p z false → (Keys a z ↔ Keys a1 z)) (l1' : ∀ z, Sub p z false → (Keys b z ↔ Keys b1 z))
    (l2 : ∀ z, Sub p z true → (Keys a z ↔ Keys a2 z)) (l2' : ∀ z, Sub p z true → (Keys b z ↔ Keys b2 z))
    (ih1 : (events a1 b1).Pairwise (fun v w => Reported a1 b1 v.pfx w.pfx))
    (ih2 : (events a2 b2).Pairwise (fun v w => Reported a2 b2 v.pfx w.pfx)) :
    (E ++ (events a1 b1 ++ events a2 b2)).Pairwise (fun v w => Reported a b v.pfx w.pfx) := by
  have par : ∀ v ∈ E, ∀ (w : Event α D) c, Sub p w.pfx c → Reported a b v.pfx w.pfx := by
    intro v hv w c hw
    obtain ⟨hs, hk⟩ := hE v hv
    have hsub : Sub v.pfx w.pfx c := hw.congr_left hs
    have hvw : v.pfx.WF := by unfold Prefix.WF; rw [← hs.1]; exact hp
    exact .of_not (Mis.not_parent hvw hsub.subEq hk) (Or.inl ⟨c, hsub⟩)
  refine pairwise_three hE1 (reported_local hp h1 h1' s1 s1' l1 l1' ih1) (reported_local hp h2 h2' s2 s2' l2 l2' ih2)
    (fun v hv w hw => par v hv w _ (events_inside h1 h1' s1 s1' hw))
    (fun v hv w hw => par v hv w _ (events_inside h2 h2' s2 s2' hw)) ?_
  intro v hv w hw
  have sv := events_inside h1 h1' s1 s1' hv
  have sw := events_inside h2 h2' s2 s2' hw
  exact .of_not (Mis.not_sides hp sv sw (by simp) root) (before_of_sides sv sw)

theorem root_le {p : Prefix α} {d : Option D} {n h act} {l r : Trie α D} (hi : TInv (node p d n h act l r)) (P : Prefix α)
    (hP : ∀ z, Keys (node p d n h act l r) z → SubEq p z → SubEq P z) : P.len ≤ p.len :=
  (hi.root_least fun z hz => hP z hz (by obtain ⟨x, hx, rfl⟩ := hz; exact hi.subEq rfl hx)).1

/-- the entries of a node on one side are those of the child -/
theorem keys_side {p q : Prefix α} {d : Option D} {n h act} {l r : Trie α D} (hi : TInv (node p d n h act l r))
    (hs : SameKey p q) {z : Prefix α} {c : Bool} (hz : Sub q z c) :
    Keys (node p d n h act l r) z ↔ Keys (if c then r else l) z := by
  obtain ⟨wf, il, ir, hl, hr, two, eme⟩ := hi.inv
  have hz' := hz.congr_left hs.symm
  constructor
  · rintro ⟨x, hx, rfl⟩
    rcases mem_node.mp hx with ⟨_, rfl⟩ | hx | hx
    · exact absurd hz'.lt (Nat.lt_irrefl _)
    · cases c with
      | false => exact ⟨x, hx, rfl⟩
      | true => have := (hl.side il hx).side; rw [hz'.side] at this; cases this
    · cases c with
      | true => exact ⟨x, hx, rfl⟩
      | false => have := (hr.side ir hx).side; rw [hz'.side] at this; cases this
  · rintro ⟨x, hx, rfl⟩
    refine ⟨x, mem_node.mpr (Or.inr ?_), rfl⟩
    cases c with
    | false => exact Or.inl hx
    | true => exact Or.inr hx

/-- a trie on one side has nothing on the other -/
theorem keys_other {b : Trie α D} {p : Prefix α} {c c' : Bool} (hb : ∀ y, y ∈ b.entries → Sub p y.1 c) (hc : c ≠ c')
    {z : Prefix α} (hz : Sub p z c') : Keys b z ↔ Keys (nil : Trie α D) z := by
  refine ⟨?_, fun h => absurd h keys_nil⟩
  rintro ⟨x, hx, rfl⟩
  exact absurd ((hb x hx).side.symm.trans hz.side) hc

theorem nilTInv_side {p : Prefix α} {c : Bool} : ∀ x, x ∈ (nil : Trie α D).entries → Sub p x.1 c := fun x hx => by cases hx

theorem only_left {a : Trie α D} (ha : TInv a) {v} (hv : v ∈ events a nil) : Keys a v.pfx :=
  (events_keys ha .empty hv).resolve_right keys_nil
theorem only_right {b : Trie α D} (hb : TInv b) {v} (hv : v ∈ events nil b) : Keys b v.pfx :=
  (events_keys .empty hb hv).resolve_left keys_nil

/-- for entries of two tries with disjoint roots -/
theorem mis_disjoint {p : Prefix α} {d : Option D} {n h act} {l r : Trie α D} (hi : TInv (node p d n h act l r))
    {q : Prefix α} {e : Option D} {n' h' act'} {l' r' : Trie α D} (hi' : TInv (node q e n' h' act' l' r')) {k : Nat}
    (h1 : k < p.len) (h2 : k < q.len) (h3 : Agree k p.addr q.addr) (h4 : bit p.addr k ≠ bit q.addr k)
    {x y : Prefix α} (hx : Keys (node p d n h act l r) x) (hy : Keys (node q e n' h' act' l' r') y) :
    Mis (Keys (node p d n h act l r)) (Keys (node q e n' h' act' l' r')) x y ↔ q.len < p.len := by
  have inP : ∀ z, Keys (node p d n h act l r) z → SubEq p z := by rintro z ⟨u, hu, rfl⟩; exact hi.subEq rfl hu
  have inQ : ∀ z, Keys (node q e n' h' act' l' r') z → SubEq q z := by rintro z ⟨u, hu, rfl⟩; exact hi'.subEq rfl hu
  have gx := inP x hx
  have gy := inQ y hy
  have wp := hi.inv.1
  have wq := hi'.inv.1
  have wk : (⟨p.addr, k⟩ : Prefix α).WF := Nat.le_trans (Nat.le_of_lt h1) wp
  have kp : SubEq (⟨p.addr, k⟩ : Prefix α) p := ⟨Nat.le_of_lt h1, Agree.refl _ _⟩
  have kq : SubEq (⟨p.addr, k⟩ : Prefix α) q := ⟨Nat.le_of_lt h2, h3⟩
  have top : ∀ C : Prefix α, SubEq C x → SubEq C y → C.len ≤ k := by
    intro C g1 g2
    apply Nat.le_of_not_lt
    intro hlt
    apply h4
    rw [gx.2 _ h1, gy.2 _ h2, ← g1.2 _ hlt, ← g2.2 _ hlt]
  constructor
  · rintro ⟨C, P, Q, ⟨_, c1, c2⟩, h3, h4, h5, h6⟩
    have g1 := c1 x (Or.inl rfl)
    have g2 := c1 y (Or.inr rfl)
    have hk := top C g1 g2
    have cp : SubEq C p := ⟨by omega, g1.2.trans ((gx.2.mono (by omega)).symm)⟩
    have cq : SubEq C q := ⟨by omega, g2.2.trans ((gy.2.mono (by omega)).symm)⟩
    have e1 := (hi.root_least (P := P) fun z hz => h3.2.1 z ⟨hz, cp.trans (inP z hz)⟩).1
    have e2 := (h4.2.2 q wq fun z hz => inQ z hz.1).1
    omega
  · intro hlt
    refine ⟨⟨p.addr, k⟩, p, q, ⟨wk, ?_, ?_⟩, ⟨wp, fun z hz => inP z hz.1, fun R _ hR => ?_⟩,
      ⟨wq, fun z hz => inQ z hz.1, fun R _ hR => ?_⟩, h2, hlt⟩
    · rintro z (rfl | rfl)
      · exact kp.trans gx
      · exact kq.trans gy
    · intro R _ hR
      have g1 := hR x (Or.inl rfl)
      have g2 := hR y (Or.inr rfl)
      have hk := top R g1 g2
      exact ⟨hk, g1.2.trans ((gx.2.mono (by omega)).symm)⟩
    · exact hi.root_least fun z hz => hR z ⟨hz, kp.trans (inP z hz)⟩
    · exact hi'.root_least fun z hz => hR z ⟨hz, kq.trans (inQ z hz)⟩

/-- The exact order in which `Diff` reports. -/
theorem events_reported (a b : Trie α D) (ha : TInv a) (hb : TInv b) :
    (events a b).Pairwise (fun v w => Reported a b v.pfx w.pfx) := by
  fun_induction events a b with
  | case1 => exact List.Pairwise.nil
  | case2 p d n h act l r ih1 ih2 =>
    obtain ⟨wf, il, ir, hl, hr, two, eme⟩ := ha.inv
    refine reported_three wf pairwise_ev1 ?_ (Or.inl (root_le ha)) hl .empty hr .empty (fun x hx => hl.side il hx)
      nilTInv_side (fun x hx => hr.side ir hx) nilTInv_side (fun z hz => keys_side ha (SameKey.refl _) hz) (fun _ _ => Iff.rfl)
      (fun z hz => keys_side ha (SameKey.refl _) hz) (fun _ _ => Iff.rfl) (ih1 hl .empty) (ih2 hr .empty)
    intro v hv
    obtain ⟨rfl, rfl⟩ := mem_ev1.mp hv
    exact ⟨SameKey.refl _, Or.inl ⟨_, mem_node.mpr (Or.inl ⟨rfl, rfl⟩), rfl⟩⟩
  | case3 p d n h act l r ih1 ih2 =>
    obtain ⟨wf, il, ir, hl, hr, two, eme⟩ := hb.inv
    refine reported_three wf pairwise_ev2 ?_ (Or.inr (root_le hb)) .empty hl .empty hr nilTInv_side (fun x hx => hl.side il hx)
      nilTInv_side (fun x hx => hr.side ir hx) (fun _ _ => Iff.rfl) (fun z hz => keys_side hb (SameKey.refl _) hz)
      (fun _ _ => Iff.rfl) (fun z hz => keys_side hb (SameKey.refl _) hz) (ih1 .empty hl) (ih2 .empty hr)
    intro v hv
    obtain ⟨rfl, rfl⟩ := mem_ev2.mp hv
    exact ⟨SameKey.refl _, Or.inr ⟨_, mem_node.mpr (Or.inl ⟨rfl, rfl⟩), rfl⟩⟩
  | case4 p d n m act l r q e n' m' act' l' r' _ _ _ hc ih1 ih2 =>
    obtain ⟨wf, il, ir, hl, hr, two, eme⟩ := ha.inv
    obtain ⟨wf', il', ir', hl', hr', two', eme'⟩ := hb.inv
    have hs : SameKey p q := by
      rcases compareP_cases wf wf' with ⟨hs, _⟩ | ⟨c, _, h⟩ | ⟨c, _, h⟩ | ⟨_, _, _, _, _, _, _, _, _, h⟩
      · exact hs
      · rw [h] at hc; simp at hc
      · rw [h] at hc; simp at hc
      · rw [h] at hc; simp at hc
    refine reported_three wf pairwise_ev ?_ (Or.inl (root_le ha)) hl hl' hr hr' (fun x hx => hl.side il hx)
      (fun x hx => (hl'.side il' hx).congr_left hs.symm) (fun x hx => hr.side ir hx)
      (fun x hx => (hr'.side ir' hx).congr_left hs.symm)
      (fun z hz => keys_side ha (SameKey.refl _) hz) (fun z hz => keys_side hb hs.symm hz)
      (fun z hz => keys_side ha (SameKey.refl _) hz) (fun z hz => keys_side hb hs.symm hz)
      (ih1 hl hl') (ih2 hr hr')
    intro v hv
    refine ⟨mem_ev hs hv, ?_⟩
    cases act <;> cases act' <;> simp [ev] at hv <;> subst hv
    · exact Or.inr ⟨_, mem_node.mpr (Or.inl ⟨rfl, rfl⟩), rfl⟩
    · exact Or.inl ⟨_, mem_node.mpr (Or.inl ⟨rfl, rfl⟩), rfl⟩
    · exact Or.inl ⟨_, mem_node.mpr (Or.inl ⟨rfl, rfl⟩), rfl⟩
  | case5 p d n m act l r q e n' m' act' l' r' _ _ child hc ih1 ih2 ih3 ih4 =>
    obtain ⟨wf, il, ir, hl, hr, two, eme⟩ := ha.inv
    have wf' := hb.inv.1
    have hs : Sub p q child := by
      rcases compareP_cases wf wf' with ⟨hs, h⟩ | ⟨c, hs, h⟩ | ⟨c, _, h⟩ | ⟨_, _, _, _, _, _, _, _, _, h⟩ <;>
        rw [h] at hc <;> simp at hc
      rw [← hc.2.2]; exact hs
    have hq : ∀ y, y ∈ (node q e n' m' act' l' r').entries → Sub p y.1 child := fun y hy =>
      hs.trans_subEq (hb.subEq rfl hy)
    have hE : ∀ v ∈ ev1 act (p, d), SameKey p v.pfx ∧
        (Keys (node p d n m act l r) v.pfx ∨ Keys (node q e n' m' act' l' r') v.pfx) := by
      intro v hv
      obtain ⟨rfl, rfl⟩ := mem_ev1.mp hv
      exact ⟨SameKey.refl _, Or.inl ⟨_, mem_node.mpr (Or.inl ⟨rfl, rfl⟩), rfl⟩⟩
    cases child with
    | true =>
      simp only [if_true]
      exact reported_three wf pairwise_ev1 hE (Or.inl (root_le ha)) hl .empty hr hb (fun x hx => hl.side il hx)
        nilTInv_side (fun x hx => hr.side ir hx) hq (fun z hz => keys_side ha (SameKey.refl _) hz)
        (fun z hz => keys_other hq (by simp) hz) (fun z hz => keys_side ha (SameKey.refl _) hz) (fun _ _ => Iff.rfl)
        (ih1 hl .empty) (ih2 hr hb)
    | false =>
      simp only [Bool.false_eq_true, if_false]
      exact reported_three wf pairwise_ev1 hE (Or.inl (root_le ha)) hl hb hr .empty (fun x hx => hl.side il hx)
        hq (fun x hx => hr.side ir hx) nilTInv_side (fun z hz => keys_side ha (SameKey.refl _) hz) (fun _ _ => Iff.rfl)
        (fun z hz => keys_side ha (SameKey.refl _) hz) (fun z hz => keys_other hq (by simp) hz)
        (ih3 hl hb) (ih4 hr .empty)
  | case6 p d n m act l r q e n' m' act' l' r' _ _ child hc ih1 ih2 ih3 ih4 =>
    obtain ⟨wf', il, ir, hl, hr, two, eme⟩ := hb.inv
    have wf := ha.inv.1
    have hs : Sub q p child := by
      rcases compareP_cases wf wf' with ⟨hs, h⟩ | ⟨c, hs, h⟩ | ⟨c, hs, h⟩ | ⟨_, _, _, _, _, _, _, _, _, h⟩ <;>
        rw [h] at hc <;> simp at hc
      rw [← hc.2.2]; exact hs
    have hq : ∀ y, y ∈ (node p d n m act l r).entries → Sub q y.1 child := fun y hy =>
      hs.trans_subEq (ha.subEq rfl hy)
    have hE : ∀ v ∈ ev2 act' (q, e), SameKey q v.pfx ∧
        (Keys (node p d n m act l r) v.pfx ∨ Keys (node q e n' m' act' l' r') v.pfx) := by
      intro v hv
      obtain ⟨rfl, rfl⟩ := mem_ev2.mp hv
      exact ⟨SameKey.refl _, Or.inr ⟨_, mem_node.mpr (Or.inl ⟨rfl, rfl⟩), rfl⟩⟩
    cases child with
    | true =>
      simp only [if_true]
      exact reported_three wf' pairwise_ev2 hE (Or.inr (root_le hb)) .empty hl ha hr nilTInv_side
        (fun x hx => hl.side il hx) hq (fun x hx => hr.side ir hx)
        (fun z hz => keys_other hq (by simp) hz) (fun z hz => keys_side hb (SameKey.refl _) hz) (fun _ _ => Iff.rfl)
        (fun z hz => keys_side hb (SameKey.refl _) hz) (ih1 .empty hl) (ih2 ha hr)
    | false =>
      simp only [Bool.false_eq_true, if_false]
      exact reported_three wf' pairwise_ev2 hE (Or.inr (root_le hb)) ha hl .empty hr hq
        (fun x hx => hl.side il hx) nilTInv_side (fun x hx => hr.side ir hx)
        (fun _ _ => Iff.rfl) (fun z hz => keys_side hb (SameKey.refl _) hz) (fun z hz => keys_other hq (by simp) hz)
        (fun z hz => keys_side hb (SameKey.refl _) hz) (ih3 ha hl) (ih4 .empty hr)
  | case7 p d n m act l r q e n' m' act' l' r' _ _ hc ih1 ih2 =>
    rcases compareP_cases ha.inv.1 hb.inv.1 with ⟨hs, h⟩ | ⟨c, hs, h⟩ | ⟨c, hs, h⟩ | ⟨k, rev, c, h1, h2, h3, h4, h5, h6, h⟩ <;>
      rw [h] at hc <;> simp at hc
    rw [List.pairwise_append]
    refine ⟨?_, ?_, fun v hv w hw => ?_⟩
    · refine (events_sorted _ nil ha .empty (Or.inr (Or.inl rfl))).imp_of_mem fun {v w} hv hw h => ?_
      exact .of_not (Mis.not_same (Or.inl ⟨only_left ha hv, only_left ha hw⟩)) h
    · refine (events_sorted nil _ .empty hb (Or.inl rfl)).imp_of_mem fun {v w} hv hw h => ?_
      exact .of_not (Mis.not_same (Or.inr ⟨only_right hb hv, only_right hb hw⟩)) h
    · have kv := only_left ha hv
      have kw := only_right hb hw
      have hm := mis_disjoint ha hb h1 h2 h3 h4 kv kw
      obtain ⟨x, hx, ex⟩ := kv
      obtain ⟨y, hy, ey⟩ := kw
      have gx := ha.subEq rfl hx
      have gy := hb.subEq rfl hy
      rw [ex] at gx; rw [ey] at gy
      have ag : Agree k v.pfx.addr w.pfx.addr :=
        ((gx.2.mono (Nat.le_of_lt h1)).symm.trans h3).trans (gy.2.mono (Nat.le_of_lt h2))
      have bx := gx.2 k h1
      have by' := gy.2 k h2
      have l1 := Nat.lt_of_lt_of_le h1 gx.1
      have l2 := Nat.lt_of_lt_of_le h2 gy.1
      rw [hc.2.2] at h5
      unfold Reported
      rw [hm]
      constructor
      · intro hlt
        rw [h6, decide_eq_true hlt] at h5
        refine Or.inr ⟨k, l2, l1, ag.symm, ?_, ?_⟩
        · rw [← by', h5]; rfl
        · rw [← bx]; revert h4; rw [h5]; cases bit p.addr k <;> simp
      · intro hlt
        rw [h6, decide_eq_false hlt] at h5
        refine Or.inr ⟨k, l1, l2, ag, ?_, ?_⟩
        · rw [← bx]; revert h4; rw [h5]; cases bit p.addr k <;> simp
        · rw [← by', h5]; rfl
  | case8 p d n m act l r q e n' m' act' l' r' _ _ child hc hch ih1 ih2 =>
    rcases compareP_cases ha.inv.1 hb.inv.1 with ⟨hs, h⟩ | ⟨c, hs, h⟩ | ⟨c, hs, h⟩ | ⟨k, rev, c, h1, h2, h3, h4, h5, h6, h⟩ <;>
      rw [h] at hc <;> simp at hc
    rw [List.pairwise_append]
    refine ⟨?_, ?_, fun v hv w hw => ?_⟩
    · refine (events_sorted nil _ .empty hb (Or.inl rfl)).imp_of_mem fun {v w} hv hw h => ?_
      exact .of_not (Mis.not_same (Or.inr ⟨only_right hb hv, only_right hb hw⟩)) h
    · refine (events_sorted _ nil ha .empty (Or.inr (Or.inl rfl))).imp_of_mem fun {v w} hv hw h => ?_
      exact .of_not (Mis.not_same (Or.inl ⟨only_left ha hv, only_left ha hw⟩)) h
    · have kv := only_right hb hv
      have kw := only_left ha hw
      have hm := mis_disjoint ha hb h1 h2 h3 h4 kw kv
      have hm' : Mis (Keys (node p d n m act l r)) (Keys (node q e n' m' act' l' r')) v.pfx w.pfx ↔ q.len < p.len :=
        ⟨fun h => hm.mp h.symm, fun h => (hm.mpr h).symm⟩
      obtain ⟨x, hx, ex⟩ := kw
      obtain ⟨y, hy, ey⟩ := kv
      have gx := ha.subEq rfl hx
      have gy := hb.subEq rfl hy
      rw [ex] at gx; rw [ey] at gy
      have ag : Agree k w.pfx.addr v.pfx.addr :=
        ((gx.2.mono (Nat.le_of_lt h1)).symm.trans h3).trans (gy.2.mono (Nat.le_of_lt h2))
      have bx := gx.2 k h1
      have by' := gy.2 k h2
      have l1 := Nat.lt_of_lt_of_le h1 gx.1
      have l2 := Nat.lt_of_lt_of_le h2 gy.1
      have hcf : c = false := by rw [hc.2.2]; simpa using hch
      rw [hcf] at h5
      unfold Reported
      rw [hm']
      constructor
      · intro hlt
        rw [h6, decide_eq_true hlt] at h5
        refine Or.inr ⟨k, l1, l2, ag, ?_, ?_⟩
        · rw [← bx]; revert h4; rw [h5]; cases bit p.addr k <;> simp
        · rw [← by', h5]; rfl
      · intro hlt
        rw [h6, decide_eq_false hlt] at h5
        refine Or.inr ⟨k, l2, l1, ag.symm, ?_, ?_⟩
        · rw [← by', h5]; rfl
        · rw [← bx]; revert h4; rw [h5]; cases bit p.addr k <;> simp

end
end Trie
end Addrs

import Verif.PanicsAgg
import Verif.TableAgg
/-
  When `Aggregate` meets a node that is no entry and below which it changes nothing, in terms of the entries.
-/
set_option linter.unusedSectionVars false
namespace Addrs
open GoWord LawfulGoWord

namespace Trie
variable {α D : Type} [LawfulGoWord α]
variable {eq geq : Eq' D}

/-- nothing in the trie can be aggregated; `u` is the value in force above it -/
def Calm (eq : Eq' D) : Option (Option D) → Trie α D → Prop
  | _, nil => True
  | u, node p d _ _ act l r => redun eq u d act = false ∧ Calm eq (if act then some d else u) l ∧
    Calm eq (if act then some d else u) r ∧ childrenAggregate eq p l r = false

theorem umb_snd_of {u : Option (Option D)} {d : Option D} {act : Bool} (h : redun eq u d act = false) :
    (umb eq u d act).2 = if act then some d else u := by
  unfold umb
  rw [h]; cases act <;> rfl

/-- `aggregate` leaves alone exactly what is calm -/
theorem aggregate_calm (he : EqOk eq geq) {t : Trie α D} (hi : TInv t) : ∀ u, (aggregate eq geq u t).2 = false ↔ Calm eq u t := by
  induction hi with
  | empty => intro u; exact ⟨fun _ => trivial, fun _ => rfl⟩
  | mk p d act l r wf il ir hl hr two ihl ihr =>
    intro u
    have sl := aggregate_same he.toEqPer hl (umb eq u d act).2
    have sr := aggregate_same he.toEqPer hr (umb eq u d act).2
    have il' := ihl (umb eq u d act).2
    have ir' := ihr (umb eq u d act).2
    have hdef : aggregate eq geq u (mk p d act l r) =
      if childrenAggregate eq p (aggregate eq geq (umb eq u d act).2 l).1 (aggregate eq geq (umb eq u d act).2 r).1 then
        createReturnValue eq geq (mk p d act l r) true (aggregate eq geq (umb eq u d act).2 l).1.data nil nil true
      else if (umb eq u d act).1 then
        createReturnValue eq geq (mk p d act l r) (umb eq u d act).1
          (if redun eq u d act then none else d) (aggregate eq geq (umb eq u d act).2 l).1 (aggregate eq geq (umb eq u d act).2 r).1
          ((aggregate eq geq (umb eq u d act).2 l).2 || (aggregate eq geq (umb eq u d act).2 r).2)
      else if (aggregate eq geq (umb eq u d act).2 l).1.isNil then ((aggregate eq geq (umb eq u d act).2 r).1, true)
      else if (aggregate eq geq (umb eq u d act).2 r).1.isNil then ((aggregate eq geq (umb eq u d act).2 l).1, true)
      else createReturnValue eq geq (mk p d act l r) (umb eq u d act).1 (if redun eq u d act then none else d)
        (aggregate eq geq (umb eq u d act).2 l).1 (aggregate eq geq (umb eq u d act).2 r).1
        ((aggregate eq geq (umb eq u d act).2 l).2 || (aggregate eq geq (umb eq u d act).2 r).2) := rfl
    rw [hdef]
    generalize aggregate eq geq (umb eq u d act).2 l = L at *
    generalize aggregate eq geq (umb eq u d act).2 r = R at *
    obtain ⟨L, fl⟩ := L
    obtain ⟨R, fr⟩ := R
    simp only at sl sr il' ir' ⊢
    have crv : ∀ {a x cc} {l' r' : Trie α D}, (createReturnValue eq geq (mk p d act l r) a x l' r' cc).2 = false → a = act ∧ cc = false := by
      intro a x cc l' r' h
      cases ea : (a == act) with
      | false => simp [createReturnValue, mk, ea] at h
      | true =>
        cases cc with
        | true => simp [createReturnValue, mk] at h
        | false => exact ⟨by simpa using ea, rfl⟩
    constructor
    · intro h
      split at h
      · exact absurd (crv h).2 (by simp)
      · next hca =>
        have key : (umb eq u d act).1 = act ∧ (fl || fr) = false := by
          split at h
          · exact crv h
          · split at h
            · cases h
            · split at h
              · cases h
              · exact crv h
        obtain ⟨k1, k2⟩ := key
        rw [Bool.or_eq_false_iff] at k2
        have hred : redun eq u d act = false := by
          cases e : redun eq u d act with
          | false => rfl
          | true =>
            have : act = true := by unfold redun at e; rw [Bool.and_eq_true] at e; exact e.1
            rw [this] at e; simp [umb, e, this] at k1
        have hu := umb_snd_of hred
        refine ⟨hred, hu ▸ il'.mp k2.1, hu ▸ ir'.mp k2.2, ?_⟩
        rw [← sl k2.1, ← sr k2.2]
        simpa using hca
    · rintro ⟨h1, h2, h3, h4⟩
      have hu := umb_snd_of h1
      rw [← hu] at h2 h3
      have fl' := il'.mpr h2
      have fr' := ir'.mpr h3
      have el := sl fl'
      have er := sr fr'
      subst fl' fr' el er
      have hact : (umb eq u d act).1 = act := by simp [umb, h1]
      have fin : (createReturnValue eq geq (mk p d act L R) (umb eq u d act).1 (if redun eq u d act then none else d) L R (false || false)).2 = false := by
        simp [createReturnValue, mk, h1, hact, he.refl]
      rw [h4]
      simp only [Bool.false_eq_true, if_false]
      split
      · exact fin
      · next ha =>
        rw [hact] at ha
        obtain ⟨n1, n2⟩ := two (by simpa using ha)
        have i1 : L.isNil = false := by cases L <;> first | rfl | exact (n1 rfl).elim
        have i2 : R.isNil = false := by cases R <;> first | rfl | exact (n2 rfl).elim
        rw [i1, i2]
        exact fin

/-- strictly contains -/
def Over (p q : Prefix α) : Prop := p.len < q.len ∧ Agree p.len p.addr q.addr

/-- halves of one prefix, in order -/
def Halves (p q : Prefix α) : Prop := ∃ P, p.len = P.len + 1 ∧ q.len = P.len + 1 ∧ Sub P p false ∧ Sub P q true

/-- the entry `y` is the nearest one above `x` -/
def Nearest (E : Prefix α × Option D → Prop) (y x : Prefix α × Option D) : Prop :=
  E y ∧ Over y.1 x.1 ∧ ∀ z, E z → Over z.1 x.1 → z.1.len ≤ y.1.len

/-- Among the entries `E` that lie in `I` nothing can be aggregated; `u` is the value in force above `E`. -/
structure Quiet (eq : Eq' D) (u : Option (Option D)) (E : Prefix α × Option D → Prop) (I : Prefix α → Prop) : Prop where
  near : ∀ x, E x → I x.1 → ∀ y, Nearest E y x → eq y.2 x.2 = false
  top : ∀ x, E x → I x.1 → (∀ z, E z → ¬ Over z.1 x.1) → ∀ v, u = some v → eq v x.2 = false
  sib : ∀ x y, E x → E y → I x.1 → I y.1 → Halves x.1 y.1 → eq x.2 y.2 = false

section
variable {u : Option (Option D)} {p : Prefix α} {d : Option D} {act : Bool} {b : Bool}
variable {E C O : Prefix α × Option D → Prop}

theorem no_cross {p z x : Prefix α} {b : Bool} (hz : Sub p z (!b)) (hx : Sub p x b) : ¬ Over z x := by
  intro h
  have := h.2 p.len hz.lt
  rw [hz.side, hx.side] at this
  cases b <;> cases this

/-- the nearest entry above an entry of a child -/
theorem nearest_child (hE : ∀ x, E x ↔ (act = true ∧ x = (p, d)) ∨ C x ∨ O x) (hC : ∀ x, C x → Sub p x.1 b)
    (hO : ∀ x, O x → Sub p x.1 (!b)) {x y} (hx : C x) :
    Nearest E y x ↔ Nearest C y x ∨ (act = true ∧ y = (p, d) ∧ ∀ z, C z → ¬ Over z.1 x.1) := by
  have sx := hC x hx
  constructor
  · rintro ⟨h1, h2, h3⟩
    rcases (hE y).mp h1 with ⟨ha, rfl⟩ | h1 | h1
    · refine Or.inr ⟨ha, rfl, fun z hz ho => ?_⟩
      have := h3 z ((hE z).mpr (Or.inr (Or.inl hz))) ho
      have := (hC z hz).lt
      simp only at *
      omega
    · exact Or.inl ⟨h1, h2, fun z hz => h3 z ((hE z).mpr (Or.inr (Or.inl hz)))⟩
    · exact absurd h2 (no_cross (hO y h1) sx)
  · rintro (⟨h1, h2, h3⟩ | ⟨ha, rfl, h3⟩)
    · refine ⟨(hE y).mpr (Or.inr (Or.inl h1)), h2, fun z hz ho => ?_⟩
      rcases (hE z).mp hz with ⟨_, rfl⟩ | hz | hz
      · have := (hC y h1).lt; exact Nat.le_of_lt this
      · exact h3 z hz ho
      · exact absurd ho (no_cross (hO z hz) sx)
    · refine ⟨(hE _).mpr (Or.inl ⟨ha, rfl⟩), ⟨sx.lt, sx.agree⟩, fun z hz ho => ?_⟩
      rcases (hE z).mp hz with ⟨_, rfl⟩ | hz | hz
      · exact Nat.le_refl _
      · exact absurd ho (h3 z hz)
      · exact absurd ho (no_cross (hO z hz) sx)

theorem top_child (hE : ∀ x, E x ↔ (act = true ∧ x = (p, d)) ∨ C x ∨ O x) (hC : ∀ x, C x → Sub p x.1 b)
    (hO : ∀ x, O x → Sub p x.1 (!b)) {x} (hx : C x) :
    (∀ z, E z → ¬ Over z.1 x.1) ↔ act = false ∧ ∀ z, C z → ¬ Over z.1 x.1 := by
  have sx := hC x hx
  constructor
  · intro h
    refine ⟨?_, fun z hz => h z ((hE z).mpr (Or.inr (Or.inl hz)))⟩
    cases ha : act with
    | false => rfl
    | true => exact absurd ⟨sx.lt, sx.agree⟩ (h (p, d) ((hE _).mpr (Or.inl ⟨ha, rfl⟩)))
  · rintro ⟨ha, h⟩ z hz
    rcases (hE z).mp hz with ⟨ha', _⟩ | hz | hz
    · rw [ha] at ha'; cases ha'
    · exact h z hz
    · exact no_cross (hO z hz) sx

/-- the entries of one child -/
theorem quiet_child (he : EqOk eq geq) (hE : ∀ x, E x ↔ (act = true ∧ x = (p, d)) ∨ C x ∨ O x) (hC : ∀ x, C x → Sub p x.1 b)
    (hO : ∀ x, O x → Sub p x.1 (!b)) {I : Prefix α → Prop} (hI : ∀ x, E x → I x.1 → C x) :
    Quiet eq u E I ↔ Quiet eq (umb eq u d act).2 C I := by
  have emb : ∀ {x}, C x → E x := fun {x} h => (hE x).mpr (Or.inr (Or.inl h))
  -- the value in force above the child: that of its parent, or one that compares equal
  have force : act = true → ∀ x : Option D, (∀ v, (umb eq u d act).2 = some v → eq v x = false) ↔ eq d x = false := by
    intro ha x
    subst ha
    unfold umb
    cases hr : redun eq u d true with
    | false => simp
    | true =>
      unfold redun at hr
      cases u with
      | none => simp at hr
      | some w =>
        simp only [Bool.true_and] at hr
        simp only [Bool.not_true, Bool.and_false, Bool.false_eq_true, if_false, Option.some.injEq]
        constructor
        · intro h
          have h := h w rfl
          rw [← Bool.not_eq_true] at h ⊢
          exact fun h' => h (he.trans hr h')
        · rintro h v rfl
          rw [← Bool.not_eq_true] at h ⊢
          exact fun h' => h (he.trans (he.symm hr) h')
  constructor
  · intro q
    refine ⟨fun x hx hi y hy => q.near x (emb hx) hi y ((nearest_child hE hC hO hx).mpr (Or.inl hy)), ?_,
      fun x y hx hy => q.sib x y (emb hx) (emb hy)⟩
    intro x hx hi hn
    cases ha : act with
    | true =>
      have := q.near x (emb hx) hi (p, d) ((nearest_child hE hC hO hx).mpr (Or.inr ⟨ha, rfl, hn⟩))
      have f := (force ha x.2).mpr this
      rw [ha] at f; exact f
    | false =>
      have := q.top x (emb hx) hi ((top_child hE hC hO hx).mpr ⟨ha, hn⟩)
      simpa [umb] using this
  · intro q
    refine ⟨?_, ?_, fun x y hx hy ix iy => q.sib x y (hI x hx ix) (hI y hy iy) ix iy⟩
    · intro x hx hi y hy
      have cx := hI x hx hi
      rcases (nearest_child hE hC hO cx).mp hy with hy | ⟨ha, rfl, hn⟩
      · exact q.near x cx hi y hy
      · exact (force ha x.2).mp (q.top x cx hi hn)
    · intro x hx hi hn
      have cx := hI x hx hi
      obtain ⟨ha, hn⟩ := (top_child hE hC hO cx).mp hn
      have := q.top x cx hi hn
      subst ha
      simpa [umb] using this

end

theorem halves_cross {p x y : Prefix α} {a c : Bool} (hx : Sub p x a) (hy : Sub p y c) (h : Halves x y) :
    a = c ∨ (a = false ∧ c = true ∧ x.len = p.len + 1 ∧ y.len = p.len + 1) := by
  obtain ⟨P, h1, h2, h3, h4⟩ := h
  have hl : p.len ≤ P.len := by have := hx.lt; omega
  by_cases e : p.len = P.len
  · right
    refine ⟨?_, ?_, by omega, by omega⟩
    · rw [← hx.side, e]; exact h3.side
    · rw [← hy.side, e]; exact h4.side
  · left
    have hlt : p.len < P.len := by omega
    rw [← hx.side, ← hy.side, ← h3.agree _ hlt, ← h4.agree _ hlt]

theorem childrenAggregate_iff {p : Prefix α} {l r : Trie α D} (hl : TInv l) (hr : TInv r) (il : Inside p false l) (ir : Inside p true r) :
    childrenAggregate eq p l r = false ↔ ∀ x y, x ∈ l.entries → y ∈ r.entries → x.1.len = p.len + 1 → y.1.len = p.len + 1 →
      eq x.2 y.2 = false := by
  constructor
  · intro h x y hx hy lx ly
    obtain ⟨n, hh, ll, lr, e⟩ := hl.half il hx lx
    obtain ⟨n', hh', rl, rr, e'⟩ := hr.half ir hy ly
    rw [e, e'] at h
    simp only [childrenAggregate, isActive, Trie.len, data, lx, ly, decide_true, Bool.true_and] at h
    exact h
  · intro h
    rw [← Bool.not_eq_true]
    intro hc
    simp only [childrenAggregate, Bool.and_eq_true, decide_eq_true_eq] at hc
    obtain ⟨⟨⟨⟨h1, h2⟩, h3⟩, h4⟩, h5⟩ := hc
    cases l with
    | nil => cases h1
    | node q e n hh act ll lr =>
    cases r with
    | nil => cases h2
    | node q' e' n' hh' act' rl rr =>
      simp only [isActive, Trie.len, data] at h1 h2 h3 h4 h5
      subst h1 h2
      have := h (q, e) (q', e') (by simp [entries]) (by simp [entries]) h3 (by simp only; omega)
      simp only at this
      rw [this] at h5; cases h5

theorem calm_quiet (he : EqOk eq geq) {t : Trie α D} (hi : TInv t) : ∀ u, Calm eq u t ↔ Quiet eq u (· ∈ t.entries) fun _ => True := by
  induction hi with
  | empty => intro u; exact ⟨fun _ => ⟨fun x h => (by cases h), fun x h => (by cases h), fun x y h => (by cases h)⟩, fun _ => trivial⟩
  | mk p d act l r wf il ir hl hr two ihl ihr =>
    intro u
    have hE : ∀ x, x ∈ (Trie.mk p d act l r).entries ↔ (act = true ∧ x = (p, d)) ∨ x ∈ l.entries ∨ x ∈ r.entries := fun x => mem_mk
    have hE' : ∀ x, x ∈ (Trie.mk p d act l r).entries ↔ (act = true ∧ x = (p, d)) ∨ x ∈ r.entries ∨ x ∈ l.entries := fun x => by
      rw [hE, Or.comm (a := x ∈ l.entries)]
    have sl : ∀ x, x ∈ l.entries → Sub p x.1 false := fun x h => hl.side il h
    have sr : ∀ x, x ∈ r.entries → Sub p x.1 true := fun x h => hr.side ir h
    have ql := quiet_child (u := u) he hE sl sr (I := fun q => Sub p q false) (fun x hx hs => by
      rcases (hE x).mp hx with ⟨_, rfl⟩ | h | h
      · exact absurd hs.lt (Nat.lt_irrefl _)
      · exact h
      · have := (sr x h).side; rw [hs.side] at this; cases this)
    have qr := quiet_child (u := u) he hE' sr sl (I := fun q => Sub p q true) (fun x hx hs => by
      rcases (hE x).mp hx with ⟨_, rfl⟩ | h | h
      · exact absurd hs.lt (Nat.lt_irrefl _)
      · have := (sl x h).side; rw [hs.side] at this; cases this
      · exact h)
    have all : ∀ {c : Trie α D} {b : Bool} {v}, (∀ x, x ∈ c.entries → Sub p x.1 b) →
        (Quiet eq v (· ∈ c.entries) (fun q => Sub p q b) ↔ Quiet eq v (· ∈ c.entries) fun _ => True) := by
      intro c b v hc
      exact ⟨fun q => ⟨fun x hx _ => q.near x hx (hc x hx), fun x hx _ => q.top x hx (hc x hx),
        fun x y hx hy _ _ => q.sib x y hx hy (hc x hx) (hc y hy)⟩,
        fun q => ⟨fun x hx _ => q.near x hx trivial, fun x hx _ => q.top x hx trivial, fun x y hx hy _ _ => q.sib x y hx hy trivial trivial⟩⟩
    rw [all sl, ← ihl] at ql
    rw [all sr, ← ihr] at qr
    have hca := childrenAggregate_iff (eq := eq) hl hr il ir
    -- the entry of the node itself has nothing above it
    have own : ∀ z, z ∈ (Trie.mk p d act l r).entries → ¬ Over z.1 p := by
      intro z hz ho
      rcases (hE z).mp hz with ⟨_, rfl⟩ | h | h
      · exact Nat.lt_irrefl _ ho.1
      · have := (sl z h).lt; have := ho.1; omega
      · have := (sr z h).lt; have := ho.1; omega
    have hred : redun eq u d act = false ↔ (act = true → ∀ v, u = some v → eq v d = false) := by
      unfold redun
      cases act <;> cases u <;> simp
    show redun eq u d act = false ∧ Calm eq (if act then some d else u) l ∧ Calm eq (if act then some d else u) r ∧
      childrenAggregate eq p l r = false ↔ _
    constructor
    · rintro ⟨h1, h2, h3, h4⟩
      rw [← umb_snd_of h1] at h2 h3
      have ql := ql.mpr h2
      have qr := qr.mpr h3
      refine ⟨?_, ?_, ?_⟩
      · intro x hx _ y hy
        rcases (hE x).mp hx with ⟨_, rfl⟩ | h | h
        · exact absurd hy.2.1 (own y hy.1)
        · exact ql.near x hx (sl x h) y hy
        · exact qr.near x hx (sr x h) y hy
      · intro x hx _ hn
        rcases (hE x).mp hx with ⟨ha, rfl⟩ | h | h
        · exact hred.mp h1 ha
        · exact ql.top x hx (sl x h) hn
        · exact qr.top x hx (sr x h) hn
      · intro x y hx hy _ _ hh
        rcases (hE x).mp hx with ⟨ha, rfl⟩ | h | h <;> rcases (hE y).mp hy with ⟨ha', rfl⟩ | h' | h'
        · obtain ⟨P, _, _, s1, s2⟩ := hh
          exact absurd (s1.side.symm.trans s2.side) (by simp)
        · obtain ⟨P, h1, h2, _, _⟩ := hh
          have := (sl y h').lt; simp only at h1; omega
        · obtain ⟨P, h1, h2, _, _⟩ := hh
          have := (sr y h').lt; simp only at h1; omega
        · obtain ⟨P, h1, h2, _, _⟩ := hh
          have := (sl x h).lt; simp only at h2; omega
        · exact ql.sib x y hx hy (sl x h) (sl y h') hh
        · rcases halves_cross (sl x h) (sr y h') hh with e | ⟨_, _, e1, e2⟩
          · cases e
          · exact hca.mp h4 x y h h' e1 e2
        · obtain ⟨P, h1, h2, _, _⟩ := hh
          have := (sr x h).lt; simp only at h2; omega
        · rcases halves_cross (sr x h) (sl y h') hh with e | ⟨e, _⟩
          · cases e
          · cases e
        · exact qr.sib x y hx hy (sr x h) (sr y h') hh
    · intro q
      have h1 : redun eq u d act = false := hred.mpr fun ha => q.top (p, d) ((hE _).mpr (Or.inl ⟨ha, rfl⟩)) trivial own
      have sub : ∀ I : Prefix α → Prop, Quiet eq u (· ∈ (Trie.mk p d act l r).entries) I := fun I =>
        ⟨fun x hx _ => q.near x hx trivial, fun x hx _ => q.top x hx trivial, fun x y hx hy _ _ => q.sib x y hx hy trivial trivial⟩
      rw [← umb_snd_of h1]
      refine ⟨h1, ql.mp (sub _), qr.mp (sub _), hca.mpr fun x y hx hy lx ly => ?_⟩
      exact q.sib x y ((hE x).mpr (Or.inr (Or.inl hx))) ((hE y).mpr (Or.inr (Or.inr hy))) trivial trivial ⟨p, lx, ly, sl x hx, sr y hy⟩

/-- `aggregate` meets a node that is no entry and below which it changes nothing -/
theorem aggSafe_iff (he : EqOk eq geq) {t : Trie α D} (hi : TInv t) : ∀ u, AggSafe eq geq u t = false ↔
    ∃ k : Prefix α, k.WF ∧ (∀ x, x ∈ t.entries → ¬ SameKey x.1 k) ∧ (∃ x y, x ∈ t.entries ∧ y ∈ t.entries ∧ Sub k x.1 false ∧ Sub k y.1 true) ∧
      Quiet eq u (· ∈ t.entries) (SubEq k) := by
  induction hi with
  | empty =>
    intro u
    refine ⟨fun h => (by cases h), ?_⟩
    rintro ⟨k, _, _, ⟨x, y, h, _⟩, _⟩
    cases h
  | mk p d act l r wf il ir hl hr two ihl ihr =>
    intro u
    have hE : ∀ x, x ∈ (Trie.mk p d act l r).entries ↔ (act = true ∧ x = (p, d)) ∨ x ∈ l.entries ∨ x ∈ r.entries := fun x => mem_mk
    have hE' : ∀ x, x ∈ (Trie.mk p d act l r).entries ↔ (act = true ∧ x = (p, d)) ∨ x ∈ r.entries ∨ x ∈ l.entries := fun x => by
      rw [hE, Or.comm (a := x ∈ l.entries)]
    have sl : ∀ x, x ∈ l.entries → Sub p x.1 false := fun x h => hl.side il h
    have sr : ∀ x, x ∈ r.entries → Sub p x.1 true := fun x h => hr.side ir h
    have hdef : AggSafe eq geq u (Trie.mk p d act l r) = (AggSafe eq geq (umb eq u d act).2 l && AggSafe eq geq (umb eq u d act).2 r &&
      (act || childrenAggregate eq p (aggregate eq geq (umb eq u d act).2 l).1 (aggregate eq geq (umb eq u d act).2 r).1 ||
        (aggregate eq geq (umb eq u d act).2 l).1.isNil || (aggregate eq geq (umb eq u d act).2 r).1.isNil ||
        (aggregate eq geq (umb eq u d act).2 l).2 || (aggregate eq geq (umb eq u d act).2 r).2)) := rfl
    -- the node itself
    have here : (act || childrenAggregate eq p (aggregate eq geq (umb eq u d act).2 l).1 (aggregate eq geq (umb eq u d act).2 r).1 ||
        (aggregate eq geq (umb eq u d act).2 l).1.isNil || (aggregate eq geq (umb eq u d act).2 r).1.isNil ||
        (aggregate eq geq (umb eq u d act).2 l).2 || (aggregate eq geq (umb eq u d act).2 r).2) = false ↔
        act = false ∧ Calm eq u (Trie.mk p d act l r) := by
      have cl := aggregate_calm he hl (umb eq u d act).2
      have cr := aggregate_calm he hr (umb eq u d act).2
      have al := aggregate_same he.toEqPer hl (umb eq u d act).2
      have ar := aggregate_same he.toEqPer hr (umb eq u d act).2
      simp only [Bool.or_eq_false_iff]
      constructor
      · rintro ⟨⟨⟨⟨⟨rfl, h1⟩, _⟩, _⟩, h2⟩, h3⟩
        rw [al h2, ar h3] at h1
        have hr : redun eq u d false = false := rfl
        rw [umb_snd_of hr] at cl cr h2 h3
        exact ⟨rfl, hr, cl.mp h2, cr.mp h3, h1⟩
      · rintro ⟨rfl, h1, h2, h3, h4⟩
        rw [← umb_snd_of h1] at h2 h3
        have h2 := cl.mpr h2
        have h3 := cr.mpr h3
        obtain ⟨n1, n2⟩ := two rfl
        rw [al h2, ar h3]
        refine ⟨⟨⟨⟨⟨rfl, h4⟩, ?_⟩, ?_⟩, h2⟩, h3⟩
        · cases l <;> first | rfl | exact (n1 rfl).elim
        · cases r <;> first | rfl | exact (n2 rfl).elim
    have split : AggSafe eq geq u (Trie.mk p d act l r) = false ↔
        AggSafe eq geq (umb eq u d act).2 l = false ∨ AggSafe eq geq (umb eq u d act).2 r = false ∨ (act = false ∧ Calm eq u (Trie.mk p d act l r)) := by
      rw [hdef, ← here]
      simp only [Bool.and_eq_false_iff, or_assoc]
    rw [split, ihl, ihr]
    -- a fork of two entries that lie on one side of `p` lies on that side
    have below : ∀ {k x y : Prefix α} {b : Bool}, Sub p x b → Sub p y b → Sub k x false → Sub k y true → Sub p k b := by
      intro k x y b hx hy h1 h2
      have hlt : p.len < k.len := by
        rcases Nat.lt_trichotomy p.len k.len with h | h | h
        · exact h
        · have e1 := hx.side
          have e2 := hy.side
          rw [h, h1.side] at e1
          rw [h, h2.side] at e2
          rw [← e1] at e2; cases e2
        · have := (hx.agree.symm.trans hy.agree) k.len h
          rw [h1.side, h2.side] at this; cases this
      exact ⟨hlt, fun i hi => (hx.agree i hi).trans (h1.agree i (by omega)).symm, by rw [h1.agree _ hlt]; exact hx.side⟩
    constructor
    · rintro (⟨k, wk, no, ⟨x, y, hx, hy, kx, ky⟩, q⟩ | ⟨k, wk, no, ⟨x, y, hx, hy, kx, ky⟩, q⟩ | ⟨ha, hc⟩)
      · have pk := below (sl x hx) (sl y hy) kx ky
        refine ⟨k, wk, ?_, ⟨x, y, (hE x).mpr (Or.inr (Or.inl hx)), (hE y).mpr (Or.inr (Or.inl hy)), kx, ky⟩, (quiet_child he hE sl sr ?_).mpr q⟩
        · intro z hz hs
          rcases (hE z).mp hz with ⟨_, rfl⟩ | h | h
          · exact pk.not_sameKey hs
          · exact no z h hs
          · exact (sr z h).ne_of_side pk (by simp) hs
        · intro z hz hs
          rcases (hE z).mp hz with ⟨_, rfl⟩ | h | h
          · exact absurd pk.lt (Nat.not_lt.mpr hs.1)
          · exact h
          · have := (pk.trans_subEq hs).side; rw [(sr z h).side] at this; cases this
      · have pk := below (sr x hx) (sr y hy) kx ky
        refine ⟨k, wk, ?_, ⟨x, y, (hE x).mpr (Or.inr (Or.inr hx)), (hE y).mpr (Or.inr (Or.inr hy)), kx, ky⟩, (quiet_child he hE' sr sl ?_).mpr q⟩
        · intro z hz hs
          rcases (hE z).mp hz with ⟨_, rfl⟩ | h | h
          · exact pk.not_sameKey hs
          · exact (sl z h).ne_of_side pk (by simp) hs
          · exact no z h hs
        · intro z hz hs
          rcases (hE z).mp hz with ⟨_, rfl⟩ | h | h
          · exact absurd pk.lt (Nat.not_lt.mpr hs.1)
          · have := (pk.trans_subEq hs).side; rw [(sl z h).side] at this; cases this
          · exact h
      · obtain ⟨n1, n2⟩ := two ha
        obtain ⟨x, hx⟩ := hl.exists_entry n1
        obtain ⟨y, hy⟩ := hr.exists_entry n2
        refine ⟨p, wf, ?_, ⟨x, y, (hE x).mpr (Or.inr (Or.inl hx)), (hE y).mpr (Or.inr (Or.inr hy)), sl x hx, sr y hy⟩, ?_⟩
        · intro z hz hs
          rcases (hE z).mp hz with ⟨ha', _⟩ | h | h
          · rw [ha] at ha'; cases ha'
          · exact (sl z h).not_sameKey' hs
          · exact (sr z h).not_sameKey' hs
        · have q := (calm_quiet he (TInv.mk p d act l r wf il ir hl hr two) u).mp hc
          exact ⟨fun x hx _ => q.near x hx trivial, fun x hx _ => q.top x hx trivial, fun x y hx hy _ _ => q.sib x y hx hy trivial trivial⟩
    · rintro ⟨k, wk, no, ⟨x, y, hx, hy, kx, ky⟩, q⟩
      have path : ∀ {x y : Prefix α}, Sub k x false → Sub k y true → ¬ Over x y ∧ ¬ Over y x := by
        intro x y h1 h2
        constructor
        · intro h; have := h.2 k.len h1.lt; rw [h1.side, h2.side] at this; cases this
        · intro h; have := h.2 k.len h2.lt; rw [h1.side, h2.side] at this; cases this
      rcases (hE x).mp hx with ⟨_, rfl⟩ | hx' | hx' <;> rcases (hE y).mp hy with ⟨_, rfl⟩ | hy' | hy'
      · exact absurd (kx.side.symm.trans ky.side) (by simp)
      · exact absurd ⟨(sl y hy').lt, (sl y hy').agree⟩ (path kx ky).1
      · exact absurd ⟨(sr y hy').lt, (sr y hy').agree⟩ (path kx ky).1
      · exact absurd ⟨(sl x hx').lt, (sl x hx').agree⟩ (path kx ky).2
      · have pk := below (sl x hx') (sl y hy') kx ky
        refine Or.inl ⟨k, wk, fun z hz => no z ((hE z).mpr (Or.inr (Or.inl hz))), ⟨x, y, hx', hy', kx, ky⟩, (quiet_child he hE sl sr ?_).mp q⟩
        intro z hz hs
        rcases (hE z).mp hz with ⟨_, rfl⟩ | h | h
        · exact absurd pk.lt (Nat.not_lt.mpr hs.1)
        · exact h
        · have := (pk.trans_subEq hs).side; rw [(sr z h).side] at this; cases this
      · -- the fork is the node itself
        have s1 := sl x hx'
        have s2 := sr y hy'
        have hlen : p.len = k.len := by
          rcases Nat.lt_trichotomy p.len k.len with h | h | h
          · have := (kx.agree.symm.trans ky.agree) p.len h
            rw [s1.side, s2.side] at this; cases this
          · exact h
          · have := (s1.agree.symm.trans s2.agree) k.len h
            rw [kx.side, ky.side] at this; cases this
        have hpk : SameKey p k := ⟨hlen, s1.agree.trans (hlen ▸ kx.agree.symm)⟩
        have hin : ∀ z, z ∈ (Trie.mk p d act l r).entries → SubEq k z.1 := by
          have kp : SubEq k p := ⟨by omega, hlen ▸ hpk.2.symm⟩
          intro z hz
          rcases (hE z).mp hz with ⟨_, rfl⟩ | h | h
          · exact kp
          · exact kp.trans (sl z h).subEq
          · exact kp.trans (sr z h).subEq
        refine Or.inr (Or.inr ⟨?_, (calm_quiet he (TInv.mk p d act l r wf il ir hl hr two) u).mpr ?_⟩)
        · cases ha : act with
          | false => rfl
          | true => exact absurd hpk (no (p, d) ((hE _).mpr (Or.inl ⟨ha, rfl⟩)))
        · exact ⟨fun x hx _ => q.near x hx (hin x hx), fun x hx _ => q.top x hx (hin x hx),
            fun x y hx hy _ _ => q.sib x y hx hy (hin x hx) (hin y hy)⟩
      · exact absurd ⟨(sr x hx').lt, (sr x hx').agree⟩ (path kx ky).2
      · have s1 := sr x hx'
        have s2 := sl y hy'
        have hlen : p.len = k.len := by
          rcases Nat.lt_trichotomy p.len k.len with h | h | h
          · have := (kx.agree.symm.trans ky.agree) p.len h
            rw [s1.side, s2.side] at this; cases this
          · exact h
          · have := (s1.agree.symm.trans s2.agree) k.len h
            rw [kx.side, ky.side] at this; cases this
        have := s1.side
        rw [hlen, kx.side] at this; cases this
      · have pk := below (sr x hx') (sr y hy') kx ky
        refine Or.inr (Or.inl ⟨k, wk, fun z hz => no z ((hE z).mpr (Or.inr (Or.inr hz))), ⟨x, y, hx', hy', kx, ky⟩, (quiet_child he hE' sr sl ?_).mp q⟩)
        intro z hz hs
        rcases (hE z).mp hz with ⟨_, rfl⟩ | h | h
        · exact absurd pk.lt (Nat.not_lt.mpr hs.1)
        · have := (pk.trans_subEq hs).side; rw [(sl z h).side] at this; cases this
        · exact h

end Trie
end Addrs

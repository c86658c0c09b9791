import Verif.TableAgg
/-
  Aggregating again: when it changes nothing, that it otherwise has fewer entries, and that the second time is enough.
-/
set_option linter.unusedSectionVars false
namespace Addrs
open GoWord LawfulGoWord

namespace Trie
section
variable {α D : Type} [LawfulGoWord α]
variable {eq geq : Eq' D}

/-- nothing for `aggregate` to do -/
def Settled (eq : Eq' D) : Option (Option D) → Trie α D → Prop
  | _, nil => True
  | u, node p d _ _ act l r => redun eq u d act = false ∧ childrenAggregate eq p l r = false ∧
      Settled eq (umb eq u d act).2 l ∧ Settled eq (umb eq u d act).2 r

theorem aggregate_clean (he : EqOk eq geq) {t : Trie α D} (hi : TInv t) : ∀ u, t.Settled eq u →
    aggregate eq geq u t = (t, false) := by
  induction hi with
  | empty => intro u _; rfl
  | mk p d act l r wf il ir hl hr two ihl ihr =>
    rintro u ⟨h1, h2, h3, h4⟩
    have e1 := ihl _ h3
    have e2 := ihr _ h4
    have hdef : aggregate eq geq u (mk p d act l r) =
      if childrenAggregate eq p (aggregate eq geq (umb eq u d act).2 l).1 (aggregate eq geq (umb eq u d act).2 r).1 then
        createReturnValue eq geq (mk p d act l r) true (aggregate eq geq (umb eq u d act).2 l).1.data nil nil true
      else if (umb eq u d act).1 then
        createReturnValue eq geq (mk p d act l r) (umb eq u d act).1
          (if redun eq u d act then none else d) (aggregate eq geq (umb eq u d act).2 l).1 (aggregate eq geq (umb eq u d act).2 r).1
          ((aggregate eq geq (umb eq u d act).2 l).2 || (aggregate eq geq (umb eq u d act).2 r).2)
      else if (aggregate eq geq (umb eq u d act).2 l).1.isNil then ((aggregate eq geq (umb eq u d act).2 r).1, true)
      else if (aggregate eq geq (umb eq u d act).2 r).1.isNil then ((aggregate eq geq (umb eq u d act).2 l).1, true)
      else createReturnValue eq geq (mk p d act l r) (umb eq u d act).1 (if redun eq u d act then none else d)
          (aggregate eq geq (umb eq u d act).2 l).1 (aggregate eq geq (umb eq u d act).2 r).1
          ((aggregate eq geq (umb eq u d act).2 l).2 || (aggregate eq geq (umb eq u d act).2 r).2) := rfl
    rw [hdef, e1, e2]
    simp only [h2, h1, Bool.false_eq_true, if_false, Bool.or_self]
    have hu : (umb eq u d act).1 = act := by simp [umb, h1]
    have same : createReturnValue eq geq (mk p d act l r) act d l r false = (mk p d act l r, false) := by
      simp [createReturnValue, Trie.mk, he.refl]
    rw [hu, same]
    cases act with
    | true => simp
    | false =>
      obtain ⟨n1, n2⟩ := two rfl
      have : l.isNil = false := by cases l <;> simp_all [isNil]
      have : r.isNil = false := by cases r <;> simp_all [isNil]
      simp [*]

theorem aggregate_fewer (he : EqOk eq geq) {t : Trie α D} (hi : TInv t) : ∀ u, ¬ t.Settled eq u →
    (aggregate eq geq u t).1.entries.length < t.entries.length := by
  induction hi with
  | empty => intro u h; exact absurd trivial h
  | mk p d act l r wf il ir hl hr two ihl ihr =>
    intro u hn
    have hc := (aggregate_cases he.toEqPer p d act l r u (aggregate_same he.toEqPer hl _) (aggregate_same he.toEqPer hr _)).1
    have ll := aggregate_length he.toEqPer hl (umb eq u d act).2
    have lr := aggregate_length he.toEqPer hr (umb eq u d act).2
    have key : childrenAggregate eq p (aggregate eq geq (umb eq u d act).2 l).1 (aggregate eq geq (umb eq u d act).2 r).1 = false →
        redun eq u d act = false →
        (aggregate eq geq (umb eq u d act).2 l).1.entries.length + (aggregate eq geq (umb eq u d act).2 r).1.entries.length <
          l.entries.length + r.entries.length := by
      intro h1 h2
      by_cases cl : l.Settled eq (umb eq u d act).2
      · by_cases cr : r.Settled eq (umb eq u d act).2
        · rw [aggregate_clean he hl _ cl, aggregate_clean he hr _ cr] at h1
          exact absurd ⟨h2, h1, cl, cr⟩ hn
        · have := ihr _ cr; omega
      · have := ihl _ cl; omega
    have off : (umb eq u d act).1 = false →
        childrenAggregate eq p (aggregate eq geq (umb eq u d act).2 l).1 (aggregate eq geq (umb eq u d act).2 r).1 = false →
        (aggregate eq geq (umb eq u d act).2 l).1.entries.length + (aggregate eq geq (umb eq u d act).2 r).1.entries.length <
          (if act then 1 else 0) + (l.entries.length + r.entries.length) := by
      intro h1 h2
      cases hr' : redun eq u d act with
      | false => have := key h2 hr'; omega
      | true =>
        have : act = true := by simp only [redun, Bool.and_eq_true] at hr'; exact hr'.1
        rw [if_pos this]; omega
    rw [entries_length_mk]
    generalize (aggregate eq geq (umb eq u d act).2 l).1 = l' at *
    generalize (aggregate eq geq (umb eq u d act).2 r).1 = r' at *
    generalize (aggregate eq geq u (mk p d act l r)).1 = t' at *
    cases hc with
    | merge d' ql el nl hl ll' lr' qr er nr hr rl rr el' er' h1 h2 h3 h4 =>
      rw [entries_length_mk]
      subst el' er'
      simp [entries] at ll lr ⊢
      omega
    | keep d' h h1 hn' =>
      have hr' : redun eq u d act = false := by
        simp only [umb, Bool.and_eq_true, Bool.not_eq_true'] at h; exact h.2
      obtain ⟨rfl, -, -⟩ := below_true h
      rw [entries_length_mk]
      have := key hn' hr'
      simp only [if_true]
      omega
    | left h h1 =>
      have := off h (by subst h1; simp [childrenAggregate, isActive])
      omega
    | right h h1 =>
      have := off h (by subst h1; simp [childrenAggregate, isActive])
      omega
    | inner d' h h1 h2 hn' =>
      rw [entries_length_mk]
      have := off h hn'
      simp only [Bool.false_eq_true, if_false]
      omega

/-! ### after one round -/

/-- an entry that repeats the value of its umbrella has nothing below it -/
def Tips (eq : Eq' D) : Option (Option D) → Trie α D → Prop
  | _, nil => True
  | u, node _ d _ _ act l r => (redun eq u d act = true → l = nil ∧ r = nil) ∧
      Tips eq (umb eq u d act).2 l ∧ Tips eq (umb eq u d act).2 r

theorem redun_congr (he : EqOk eq geq) {u v} (h : ORel eq u v) {d d'} (hd : eq d d' = true) (act : Bool) :
    redun eq u d act = redun eq v d' act := by
  cases u <;> cases v <;> simp only [ORel] at h
  · rfl
  · rename_i a b
    simp only [redun]
    have : eq a d = eq b d' := by
      rw [Bool.eq_iff_iff]
      have h := h.same he
      exact ⟨fun k => he.trans (he.symm h) (he.trans k hd), fun k => he.trans h (he.trans k (he.symm hd))⟩
    rw [this]

theorem umb_congr (he : EqOk eq geq) {u v} (h : ORel eq u v) {d d'} (hd : eq d d' = true) (act : Bool) :
    ORel eq (umb eq u d act).2 (umb eq v d' act).2 := by
  simp only [umb, redun_congr he h hd act]
  by_cases hx : (act && !redun eq v d' act) = true
  · rw [if_pos hx, if_pos hx]; exact .inr hd
  · rw [if_neg hx, if_neg hx]; exact h

theorem Tips.congr (he : EqOk eq geq) : ∀ {t : Trie α D} {u v}, ORel eq u v → t.Tips eq u → t.Tips eq v := by
  intro t
  induction t with
  | nil => intro u v _ _; trivial
  | node p d n h act l r ihl ihr =>
    rintro u v huv ⟨h1, h2, h3⟩
    refine ⟨fun h => h1 ?_, ihl (umb_congr he huv (he.refl _) act) h2, ihr (umb_congr he huv (he.refl _) act) h3⟩
    rw [redun_congr he huv (he.refl d)]; exact h

/-- after one round only entries with nothing below them repeat the value of their umbrella -/
theorem aggregate_tips (he : EqOk eq geq) {t : Trie α D} (hi : TInv t) (u) :
    (aggregate eq geq u t).1.Tips eq u := by
  refine aggregate_ind he.toEqPer (fun u _ t' => t'.Tips eq u) ?_ ?_ hi u
  · intro u; trivial
  · intro u p d act l r l' r' t' hi wf il ir hl hr two hl1 hr1 hc
    cases hc with
    | merge d' => exact ⟨fun _ => ⟨rfl, rfl⟩, trivial, trivial⟩
    | keep d' h h1 hn =>
      have h1 := h1.same he
      have hr' : redun eq u d act = false := by
        simp only [umb, Bool.and_eq_true, Bool.not_eq_true'] at h; exact h.2
      obtain ⟨rfl, -, -⟩ := below_true h
      have c := umb_congr he (ORel.refl he.toEqPer u) (he.symm h1) true
      refine ⟨fun h => ?_, hl1.congr he c, hr1.congr he c⟩
      rw [redun_congr he (ORel.refl he.toEqPer u) h1, hr'] at h
      cases h
    | left h h1 => rw [(below_false h).1] at hl1; exact hl1
    | right h h1 => rw [(below_false h).1] at hr1; exact hr1
    | inner d' h h1 h2 hn =>
      rw [(below_false h).1] at hl1 hr1
      exact ⟨fun h => by simp [redun] at h, hl1, hr1⟩

/-- The root after a second round is the root before, or it is longer. -/
def SameRoot (eq : Eq' D) (t t' : Trie α D) : Prop :=
  t'.isActive = true → (t.isActive = true ∧ t'.len = t.len ∧ eq t'.data t.data = true) ∨ t.len < t'.len

/-- the second round leaves nothing for a third one -/
theorem aggregate_second (he : EqOk eq geq) {t : Trie α D} (hi : TInv t) : ∀ u, t.Tips eq u → t.Reduced eq →
    (aggregate eq geq u t).1.Settled eq u ∧ SameRoot eq t (aggregate eq geq u t).1 := by
  induction hi with
  | empty => intro u _ _; exact ⟨trivial, fun h => by cases h⟩
  | mk p d act l r wf il ir hl hr two ihl ihr =>
    rintro u ⟨t1, t2, t3⟩ ⟨r1, r2, r3⟩
    have hc := (aggregate_cases he.toEqPer p d act l r u (aggregate_same he.toEqPer hl _) (aggregate_same he.toEqPer hr _)).1
    obtain ⟨cl, sl⟩ := ihl _ t2 r2
    obtain ⟨cr, sr⟩ := ihr _ t3 r3
    have hlen : ∀ {b : Bool} {s : Trie α D}, Inside p b s → s ≠ nil → p.len < s.len := by
      intro b s hs hn
      cases s with
      | nil => exact absurd rfl hn
      | node q => exact Sub.lt hs
    have tl := aggregate_tinv he.toEqPer hl (umb eq u d act).2
    have tr := aggregate_tinv he.toEqPer hr (umb eq u d act).2
    have il' := tl.2 _ _ il
    have ir' := tr.2 _ _ ir
    have nl : l = nil → (aggregate eq geq (umb eq u d act).2 l).1 = nil := by rintro rfl; rfl
    have nr : r = nil → (aggregate eq geq (umb eq u d act).2 r).1 = nil := by rintro rfl; rfl
    generalize (aggregate eq geq (umb eq u d act).2 l).1 = l' at *
    generalize (aggregate eq geq (umb eq u d act).2 r).1 = r' at *
    generalize (aggregate eq geq u (mk p d act l r)).1 = t' at *
    have one : ∀ {b : Bool} {s s' : Trie α D}, Inside p b s → (s = nil → s' = nil) → SameRoot eq s s' →
        s'.isActive = true → s'.len = p.len + 1 → s.isActive = true ∧ s.len = p.len + 1 ∧ eq s'.data s.data = true := by
      intro b s s' hs hn hsr ha hlen'
      have hne : s ≠ nil := fun h => by rw [hn h] at ha; cases ha
      have := hlen hs hne
      rcases hsr ha with ⟨h1, h2, h3⟩ | h
      · exact ⟨h1, by omega, h3⟩
      · omega
    have longer : ∀ {b : Bool} {s : Trie α D}, Inside p b s → SameRoot eq (mk p d act l r) s := by
      intro b s hs ha
      right
      exact hlen hs (fun h => by rw [h] at ha; cases ha)
    cases hc with
    | merge d' ql el nl' hl' ll lr qr er nr' hr' rl rr el' er' h1 h2 h3 h4 =>
      exfalso
      obtain ⟨a1, a2, a3⟩ := one il nl sl (by rw [el']; rfl) (by rw [el']; exact h1)
      obtain ⟨b1, b2, b3⟩ := one ir nr sr (by rw [er']; rfl) (by rw [er']; exact h2)
      rw [el'] at a3
      rw [er'] at b3
      have : childrenAggregate eq p l r = true := by
        simp only [childrenAggregate, a1, b1, a2, b2, decide_true, Bool.and_self, Bool.true_and]
        exact he.trans (he.symm a3) (he.trans h3 b3)
      rw [this] at r1
      cases r1
    | keep d' h h1 hn =>
      have h1 := h1.same he
      have hr' : redun eq u d act = false := by
        simp only [umb, Bool.and_eq_true, Bool.not_eq_true'] at h; exact h.2
      obtain ⟨rfl, -, -⟩ := below_true h
      have c := umb_congr he (ORel.refl he.toEqPer u) (he.symm h1) true
      have cc : ∀ {s : Trie α D} {v w}, ORel eq v w → s.Settled eq v → s.Settled eq w := by
        intro s
        induction s with
        | nil => intro v w _ _; trivial
        | node q e n k a x y ihx ihy =>
          rintro v w hvw ⟨k1, k2, k3, k4⟩
          exact ⟨by rw [← redun_congr he hvw (he.refl e)]; exact k1, k2, ihx (umb_congr he hvw (he.refl e) a) k3,
            ihy (umb_congr he hvw (he.refl e) a) k4⟩
      refine ⟨⟨by rw [redun_congr he (ORel.refl he.toEqPer u) h1]; exact hr', hn, cc c cl, cc c cr⟩, fun _ => .inl ⟨rfl, rfl, h1⟩⟩
    | left h h1 =>
      rw [(below_false h).1] at cl
      exact ⟨cl, longer il'⟩
    | right h h1 =>
      rw [(below_false h).1] at cr
      exact ⟨cr, longer ir'⟩
    | inner d' h h1 h2 hn =>
      rw [(below_false h).1] at cl cr
      exact ⟨⟨rfl, hn, cl, cr⟩, fun h => by cases h⟩

/-- so the third round changes nothing -/
theorem aggregate_third (he : EqOk eq geq) {t : Trie α D} (hi : TInv t) :
    aggregate eq geq none (aggregate eq geq none (aggregate eq geq none t).1).1 =
      ((aggregate eq geq none (aggregate eq geq none t).1).1, false) := by
  have h1 := (aggregate_tinv he.toEqPer hi none).1
  exact aggregate_clean he (aggregate_tinv he.toEqPer h1 none).1 none
    (aggregate_second he h1 none (aggregate_tips he hi none) (aggregate_reduced he.toEqPer hi none)).1

/-! ### what there is to do, in terms of the entries -/

/-- `x` is the entry that most closely contains `y` -/
def Closest (t : Trie α D) (x y : Prefix α × Option D) : Prop :=
  x ∈ t.entries ∧ y ∈ t.entries ∧ SubEq x.1 y.1 ∧ x.1.len < y.1.len ∧
    ∀ z ∈ t.entries, SubEq z.1 y.1 → z.1.len < y.1.len → z.1.len ≤ x.1.len

/-- `y` is in no other entry -/
def Topmost (t : Trie α D) (y : Prefix α × Option D) : Prop :=
  y ∈ t.entries ∧ ∀ z ∈ t.entries, SubEq z.1 y.1 → ¬ z.1.len < y.1.len

/-- no entry repeats the value of its umbrella -/
def Plain (eq : Eq' D) : Option (Option D) → Trie α D → Prop
  | _, nil => True
  | u, node _ d _ _ act l r => redun eq u d act = false ∧
      Plain eq (umb eq u d act).2 l ∧ Plain eq (umb eq u d act).2 r

theorem clean_iff (t : Trie α D) : ∀ u, t.Settled eq u ↔ t.Plain eq u ∧ t.Reduced eq := by
  induction t with
  | nil => intro u; exact ⟨fun _ => ⟨trivial, trivial⟩, fun _ => trivial⟩
  | node p d n h act l r ihl ihr =>
    intro u
    show (_ ∧ _ ∧ _ ∧ _) ↔ (_ ∧ _ ∧ _) ∧ _ ∧ _ ∧ _
    rw [ihl, ihr]
    exact ⟨fun ⟨a, b, ⟨c, d⟩, e, f⟩ => ⟨⟨a, c, e⟩, b, d, f⟩, fun ⟨⟨a, c, e⟩, b, d, f⟩ => ⟨a, b, ⟨c, d⟩, e, f⟩⟩

theorem plain_iff {t : Trie α D} (hi : TInv t) : ∀ u, t.Plain eq u ↔
    (∀ y, t.Topmost y → ∀ v, u = some v → eq v y.2 = false) ∧ ∀ x y, t.Closest x y → eq x.2 y.2 = false := by
  induction hi with
  | empty => intro u; exact ⟨fun _ => ⟨fun y h => absurd h.1 (by simp [entries]), fun x y h => absurd h.1 (by simp [entries])⟩, fun _ => trivial⟩
  | mk p d act l r wf il ir hl hr two ihl ihr =>
    intro u
    have apart : ∀ {z y : Prefix α × Option D}, (z ∈ l.entries ∧ y ∈ r.entries ∨ z ∈ r.entries ∧ y ∈ l.entries) → ¬ SubEq z.1 y.1 := by
      rintro z y (⟨hz, hy⟩ | ⟨hz, hy⟩) h
      · have a := ((hl.side il hz).trans_subEq h).side
        have b := (hr.side ir hy).side
        rw [a] at b; cases b
      · have a := ((hr.side ir hz).trans_subEq h).side
        have b := (hl.side il hy).side
        rw [a] at b; cases b
    have lenL : ∀ {y}, y ∈ l.entries → p.len < y.1.len := fun h => (hl.side il h).lt
    have lenR : ∀ {y}, y ∈ r.entries → p.len < y.1.len := fun h => (hr.side ir h).lt
    have hue : redun eq u d act = false → (umb eq u d act).2 = if act then some d else u := by
      intro h; simp [umb, h]
    show (_ ∧ _ ∧ _) ↔ _
    constructor
    · rintro ⟨h0, h1, h2⟩
      rw [hue h0] at h1 h2
      obtain ⟨l1, l2⟩ := (ihl _).mp h1
      obtain ⟨r1, r2⟩ := (ihr _).mp h2
      refine ⟨fun y ⟨hy, hty⟩ v hv => ?_, fun x y ⟨hx, hy, hxy, hlt, hcl⟩ => ?_⟩
      · subst hv
        rcases mem_mk.mp hy with ⟨rfl, rfl⟩ | hy' | hy'
        · simpa [redun] using h0
        · have ha : act = false := by
            cases act with
            | false => rfl
            | true => exact absurd (lenL hy') (hty (p, d) (mem_mk.mpr (.inl ⟨rfl, rfl⟩)) (hl.side il hy').subEq)
          subst ha
          exact l1 y ⟨hy', fun z hz => hty z (mem_mk.mpr (.inr (.inl hz)))⟩ v (by simp)
        · have ha : act = false := by
            cases act with
            | false => rfl
            | true => exact absurd (lenR hy') (hty (p, d) (mem_mk.mpr (.inl ⟨rfl, rfl⟩)) (hr.side ir hy').subEq)
          subst ha
          exact r1 y ⟨hy', fun z hz => hty z (mem_mk.mpr (.inr (.inr hz)))⟩ v (by simp)
      · rcases mem_mk.mp hy with ⟨rfl, rfl⟩ | hy' | hy' <;> rcases mem_mk.mp hx with ⟨ha, rfl⟩ | hx' | hx'
        · exact absurd hlt (Nat.lt_irrefl _)
        · exact absurd hlt (Nat.lt_asymm (lenL hx'))
        · exact absurd hlt (Nat.lt_asymm (lenR hx'))
        · subst ha
          refine l1 y ⟨hy', fun z hz h1 h2 => ?_⟩ d rfl
          exact absurd (lenL hz) (Nat.not_lt.mpr (hcl z (mem_mk.mpr (.inr (.inl hz))) h1 h2))
        · exact l2 x y ⟨hx', hy', hxy, hlt, fun z hz => hcl z (mem_mk.mpr (.inr (.inl hz)))⟩
        · exact absurd hxy (apart (.inr ⟨hx', hy'⟩))
        · subst ha
          refine r1 y ⟨hy', fun z hz h1 h2 => ?_⟩ d rfl
          exact absurd (lenR hz) (Nat.not_lt.mpr (hcl z (mem_mk.mpr (.inr (.inr hz))) h1 h2))
        · exact absurd hxy (apart (.inl ⟨hx', hy'⟩))
        · exact r2 x y ⟨hx', hy', hxy, hlt, fun z hz => hcl z (mem_mk.mpr (.inr (.inr hz)))⟩
    · rintro ⟨h1, h2⟩
      have h0 : redun eq u d act = false := by
        cases act with
        | false => rfl
        | true =>
          cases u with
          | none => rfl
          | some v =>
            have := h1 (p, d) ⟨mem_mk.mpr (.inl ⟨rfl, rfl⟩), fun z hz _ hlt => ?_⟩ v rfl
            · simpa [redun] using this
            · rcases mem_mk.mp hz with ⟨-, rfl⟩ | hz | hz
              · exact absurd hlt (Nat.lt_irrefl _)
              · exact absurd hlt (Nat.lt_asymm (lenL hz))
              · exact absurd hlt (Nat.lt_asymm (lenR hz))
      refine ⟨h0, ?_, ?_⟩
      · rw [hue h0, ihl]
        refine ⟨fun y ⟨hy, hty⟩ v hv => ?_, fun x y ⟨hx, hy, hxy, hlt, hcl⟩ => ?_⟩
        · have sub : ∀ z, z ∈ (mk p d act l r).entries → SubEq z.1 y.1 → z.1.len < y.1.len → z = (p, d) := by
            intro z hz k1 k2
            rcases mem_mk.mp hz with ⟨-, rfl⟩ | hz | hz
            · rfl
            · exact absurd k2 (hty z hz k1)
            · exact absurd k1 (apart (.inr ⟨hz, hy⟩))
          cases act with
          | false =>
            refine h1 y ⟨mem_mk.mpr (.inr (.inl hy)), fun z hz k1 k2 => ?_⟩ v (by simpa using hv)
            have := sub z hz k1 k2
            rcases mem_mk.mp hz with ⟨k, -⟩ | hz | hz
            · cases k
            · exact hty z hz k1 k2
            · exact apart (.inr ⟨hz, hy⟩) k1
          | true =>
            simp only [if_true, Option.some.injEq] at hv
            subst hv
            exact h2 (p, d) y ⟨mem_mk.mpr (.inl ⟨rfl, rfl⟩), mem_mk.mpr (.inr (.inl hy)), (hl.side il hy).subEq, lenL hy,
              fun z hz k1 k2 => by rw [sub z hz k1 k2]; exact Nat.le_refl _⟩
        · refine h2 x y ⟨mem_mk.mpr (.inr (.inl hx)), mem_mk.mpr (.inr (.inl hy)), hxy, hlt, fun z hz k1 k2 => ?_⟩
          rcases mem_mk.mp hz with ⟨-, rfl⟩ | hz | hz
          · exact Nat.le_of_lt (lenL hx)
          · exact hcl z hz k1 k2
          · exact absurd k1 (apart (.inr ⟨hz, hy⟩))
      · rw [hue h0, ihr]
        refine ⟨fun y ⟨hy, hty⟩ v hv => ?_, fun x y ⟨hx, hy, hxy, hlt, hcl⟩ => ?_⟩
        · have sub : ∀ z, z ∈ (mk p d act l r).entries → SubEq z.1 y.1 → z.1.len < y.1.len → z = (p, d) := by
            intro z hz k1 k2
            rcases mem_mk.mp hz with ⟨-, rfl⟩ | hz | hz
            · rfl
            · exact absurd k1 (apart (.inl ⟨hz, hy⟩))
            · exact absurd k2 (hty z hz k1)
          cases act with
          | false =>
            refine h1 y ⟨mem_mk.mpr (.inr (.inr hy)), fun z hz k1 k2 => ?_⟩ v (by simpa using hv)
            have := sub z hz k1 k2
            rcases mem_mk.mp hz with ⟨k, -⟩ | hz | hz
            · cases k
            · exact apart (.inl ⟨hz, hy⟩) k1
            · exact hty z hz k1 k2
          | true =>
            simp only [if_true, Option.some.injEq] at hv
            subst hv
            exact h2 (p, d) y ⟨mem_mk.mpr (.inl ⟨rfl, rfl⟩), mem_mk.mpr (.inr (.inr hy)), (hr.side ir hy).subEq, lenR hy,
              fun z hz k1 k2 => by rw [sub z hz k1 k2]; exact Nat.le_refl _⟩
        · refine h2 x y ⟨mem_mk.mpr (.inr (.inr hx)), mem_mk.mpr (.inr (.inr hy)), hxy, hlt, fun z hz k1 k2 => ?_⟩
          rcases mem_mk.mp hz with ⟨-, rfl⟩ | hz | hz
          · exact Nat.le_of_lt (lenR hx)
          · exact absurd k1 (apart (.inl ⟨hz, hy⟩))
          · exact hcl z hz k1 k2

/-- no two halves of one prefix are entries with equal values -/
def NoHalves (eq : Eq' D) (t : Trie α D) : Prop :=
  ∀ P x y, x ∈ t.entries → y ∈ t.entries → x.1.len = P.len + 1 → y.1.len = P.len + 1 →
      Sub P x.1 false → Sub P y.1 true → eq x.2 y.2 = false

theorem reduced_iff {t : Trie α D} (hi : TInv t) : t.Reduced eq ↔ t.NoHalves eq := by
  refine ⟨fun h => h.siblings hi, ?_⟩
  induction hi with
  | empty => intro _; trivial
  | mk p d act l r wf il ir hl hr two ihl ihr =>
    intro h
    refine ⟨?_, ihl fun P x y hx hy => h P x y (mem_mk.mpr (.inr (.inl hx))) (mem_mk.mpr (.inr (.inl hy))),
      ihr fun P x y hx hy => h P x y (mem_mk.mpr (.inr (.inr hx))) (mem_mk.mpr (.inr (.inr hy)))⟩
    cases hc : childrenAggregate eq p l r with
    | false => rfl
    | true =>
      cases l with
      | nil => simp [childrenAggregate, isActive] at hc
      | node ql el nl hl0 al ll lr =>
      cases r with
      | nil => simp [childrenAggregate, isActive] at hc
      | node qr er nr hr0 ar rl rr =>
      simp only [childrenAggregate, isActive, Trie.len, data, Bool.and_eq_true] at hc
      obtain ⟨⟨⟨⟨rfl, rfl⟩, h5⟩, h6⟩, h7⟩ := hc
      have h5 := of_decide_eq_true h5
      have h6 := of_decide_eq_true h6
      have := h p (ql, el) (qr, er) (mem_mk.mpr (.inr (.inl (by simp [entries])))) (mem_mk.mpr (.inr (.inr (by simp [entries]))))
        h5 (by simp only; omega) il ir
      rw [this] at h7
      cases h7

/-- what `aggregate` has to do, in terms of the entries -/
theorem settled_iff {t : Trie α D} (hi : TInv t) :
    t.Settled eq none ↔ (∀ x y, t.Closest x y → eq x.2 y.2 = false) ∧ t.NoHalves eq := by
  rw [clean_iff, plain_iff hi, reduced_iff hi]
  exact ⟨fun h => ⟨h.1.2, h.2⟩, fun h => ⟨⟨(fun _ _ _ h => by cases h), h.1⟩, h.2⟩⟩

/-- an entry that repeats the value of the entry that most closely contains it contains no other entry -/
theorem Tips.entries {t : Trie α D} (hi : TInv t) : ∀ u, t.Tips eq u →
    (∀ y, t.Topmost y → ∀ v, u = some v → eq v y.2 = true → ∀ z ∈ t.entries, SubEq y.1 z.1 → z = y) ∧
    ∀ x y, t.Closest x y → eq x.2 y.2 = true → ∀ z ∈ t.entries, SubEq y.1 z.1 → z = y := by
  induction hi with
  | empty => intro u _; exact ⟨fun y h => absurd h.1 (by simp [Trie.entries]), fun x y h => absurd h.1 (by simp [Trie.entries])⟩
  | mk p d act l r wf il ir hl hr two ihl ihr =>
    rintro u ⟨h0, h1, h2⟩
    have apart : ∀ {z y : Prefix α × Option D}, (z ∈ l.entries ∧ y ∈ r.entries ∨ z ∈ r.entries ∧ y ∈ l.entries) → ¬ SubEq z.1 y.1 := by
      rintro z y (⟨hz, hy⟩ | ⟨hz, hy⟩) h
      · have a := ((hl.side il hz).trans_subEq h).side
        have b := (hr.side ir hy).side
        rw [a] at b; cases b
      · have a := ((hr.side ir hz).trans_subEq h).side
        have b := (hl.side il hy).side
        rw [a] at b; cases b
    have lenL : ∀ {y}, y ∈ l.entries → p.len < y.1.len := fun h => (hl.side il h).lt
    have lenR : ∀ {y}, y ∈ r.entries → p.len < y.1.len := fun h => (hr.side ir h).lt
    -- if the root repeats there is nothing else
    cases hre : redun eq u d act with
    | true =>
      obtain ⟨rfl, rfl⟩ := h0 hre
      have only : ∀ z, z ∈ (mk p d act nil nil : Trie α D).entries → z = (p, d) := by
        intro z hz
        rcases mem_mk.mp hz with ⟨-, h⟩ | h | h
        · exact h
        · cases h
        · cases h
      exact ⟨fun y hy v _ _ z hz _ => by rw [only z hz, only y hy.1], fun x y hy _ z hz _ => by rw [only z hz, only y hy.2.1]⟩
    | false =>
    have hue : (umb eq u d act).2 = if act then some d else u := by simp [umb, hre]
    rw [hue] at h1 h2
    obtain ⟨l1, l2⟩ := ihl _ h1
    obtain ⟨r1, r2⟩ := ihr _ h2
    have inL : ∀ {y z : Prefix α × Option D}, y ∈ l.entries → z ∈ (mk p d act l r).entries → SubEq y.1 z.1 → z ∈ l.entries := by
      intro y z hy hz h
      rcases mem_mk.mp hz with ⟨-, rfl⟩ | hz | hz
      · exact absurd h.1 (Nat.not_le.mpr (lenL hy))
      · exact hz
      · exact absurd h (apart (.inl ⟨hy, hz⟩))
    have inR : ∀ {y z : Prefix α × Option D}, y ∈ r.entries → z ∈ (mk p d act l r).entries → SubEq y.1 z.1 → z ∈ r.entries := by
      intro y z hy hz h
      rcases mem_mk.mp hz with ⟨-, rfl⟩ | hz | hz
      · exact absurd h.1 (Nat.not_le.mpr (lenR hy))
      · exact absurd h (apart (.inr ⟨hy, hz⟩))
      · exact hz
    refine ⟨fun y ⟨hy, hty⟩ v hv hvy z hz hyz => ?_, fun x y ⟨hx, hy, hxy, hlt, hcl⟩ hexy z hz hyz => ?_⟩
    · subst hv
      rcases mem_mk.mp hy with ⟨rfl, rfl⟩ | hy' | hy'
      · simp [redun, hvy] at hre
      · have ha : act = false := by
          cases act with
          | false => rfl
          | true => exact absurd (lenL hy') (hty (p, d) (mem_mk.mpr (.inl ⟨rfl, rfl⟩)) (hl.side il hy').subEq)
        subst ha
        exact l1 y ⟨hy', fun z hz => hty z (mem_mk.mpr (.inr (.inl hz)))⟩ v (by simp) hvy z (inL hy' hz hyz) hyz
      · have ha : act = false := by
          cases act with
          | false => rfl
          | true => exact absurd (lenR hy') (hty (p, d) (mem_mk.mpr (.inl ⟨rfl, rfl⟩)) (hr.side ir hy').subEq)
        subst ha
        exact r1 y ⟨hy', fun z hz => hty z (mem_mk.mpr (.inr (.inr hz)))⟩ v (by simp) hvy z (inR hy' hz hyz) hyz
    · rcases mem_mk.mp hy with ⟨rfl, rfl⟩ | hy' | hy' <;> rcases mem_mk.mp hx with ⟨ha, rfl⟩ | hx' | hx'
      · exact absurd hlt (Nat.lt_irrefl _)
      · exact absurd hlt (Nat.lt_asymm (lenL hx'))
      · exact absurd hlt (Nat.lt_asymm (lenR hx'))
      · subst ha
        refine l1 y ⟨hy', fun z hz h1 h2 => ?_⟩ d rfl hexy z (inL hy' hz hyz) hyz
        exact absurd (lenL hz) (Nat.not_lt.mpr (hcl z (mem_mk.mpr (.inr (.inl hz))) h1 h2))
      · exact l2 x y ⟨hx', hy', hxy, hlt, fun z hz => hcl z (mem_mk.mpr (.inr (.inl hz)))⟩ hexy z (inL hy' hz hyz) hyz
      · exact absurd hxy (apart (.inr ⟨hx', hy'⟩))
      · subst ha
        refine r1 y ⟨hy', fun z hz h1 h2 => ?_⟩ d rfl hexy z (inR hy' hz hyz) hyz
        exact absurd (lenR hz) (Nat.not_lt.mpr (hcl z (mem_mk.mpr (.inr (.inr hz))) h1 h2))
      · exact absurd hxy (apart (.inl ⟨hx', hy'⟩))
      · exact r2 x y ⟨hx', hy', hxy, hlt, fun z hz => hcl z (mem_mk.mpr (.inr (.inr hz)))⟩ hexy z (inR hy' hz hyz) hyz

end
end Trie
end Addrs

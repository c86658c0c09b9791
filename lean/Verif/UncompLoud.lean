import Verif.UncompAgg
import Verif.Calm
/-
  Values that `==` cannot compare: when `Aggregate` copies an entry that stays an entry, in terms of the entries.
-/
set_option linter.unusedSectionVars false
namespace Addrs
open GoWord LawfulGoWord

namespace Trie
variable {α D : Type} [LawfulGoWord α]
variable {eq geq : Eq' D}

/-- something below an entry can be aggregated -/
def Loud (eq : Eq' D) : Trie α D → Prop
  | nil => False
  | node p d _ _ act l r => (act = true ∧ ¬ (Calm eq (some d) l ∧ Calm eq (some d) r ∧ childrenAggregate eq p l r = false)) ∨
    Loud eq l ∨ Loud eq r

theorem aggCrash_mk {u : Option (Option D)} {p : Prefix α} {d : Option D} {act : Bool} {l r : Trie α D} :
    AggCrash eq geq u (Trie.mk p d act l r) ↔ AggCrash eq geq (umb eq u d act).2 l ∨ AggCrash eq geq (umb eq u d act).2 r ∨
      (act = true ∧ (childrenAggregate eq p (aggregate eq geq (umb eq u d act).2 l).1 (aggregate eq geq (umb eq u d act).2 r).1 = true ∨
        (redun eq u d act = false ∧ ((aggregate eq geq (umb eq u d act).2 l).2 || (aggregate eq geq (umb eq u d act).2 r).2) = true))) := Iff.rfl

theorem Calm.congr (he : EqOk eq geq) {v w : Option D} (h : eq v w = true) {t : Trie α D} (hc : Calm eq (some v) t) : Calm eq (some w) t := by
  induction t with
  | nil => trivial
  | node p d n hh act l r ihl ihr =>
    obtain ⟨h1, h2, h3, h4⟩ := hc
    cases act with
    | true =>
      refine ⟨?_, h2, h3, h4⟩
      simp only [redun, Bool.true_and] at h1 ⊢
      rw [← Bool.not_eq_true] at h1 ⊢
      exact fun h' => h1 (he.trans h h')
    | false => exact ⟨rfl, ihl h2, ihr h3, h4⟩

theorem Calm.not_loud {t : Trie α D} : ∀ {u}, Calm eq u t → ¬ Loud eq t := by
  induction t with
  | nil => intro u _ h; exact h
  | node p d n hh act l r ihl ihr =>
    rintro u ⟨h1, h2, h3, h4⟩ (⟨ha, hn⟩ | h | h)
    · subst ha; exact hn ⟨h2, h3, h4⟩
    · exact ihl h2 h
    · exact ihr h3 h

theorem AggCrash.loud (he : EqOk eq geq) {t : Trie α D} (hi : TInv t) : ∀ {u}, AggCrash eq geq u t → Loud eq t := by
  induction hi with
  | empty => intro u h; exact h
  | mk p d act l r wf il ir hl hr two ihl ihr =>
    intro u h
    rcases aggCrash_mk.mp h with h | h | ⟨ha, h⟩
    · exact Or.inr (Or.inl (ihl h))
    · exact Or.inr (Or.inr (ihr h))
    · refine Or.inl ⟨ha, ?_⟩
      rintro ⟨c1, c2, c3⟩
      -- the value in force below is that of the entry or an equal one
      have hu : ∀ {t : Trie α D}, Calm eq (some d) t → Calm eq (umb eq u d act).2 t := by
        intro t hc
        subst ha
        unfold umb
        cases hr : redun eq u d true with
        | false => simpa using hc
        | true =>
          unfold redun at hr
          cases u with
          | none => simp at hr
          | some w =>
            simp only [Bool.true_and] at hr
            simp only [Bool.not_true, Bool.and_false, Bool.false_eq_true, if_false]
            exact hc.congr he (he.symm hr)
      have f1 := (aggregate_calm he hl _).mpr (hu c1)
      have f2 := (aggregate_calm he hr _).mpr (hu c2)
      rw [aggregate_same he.toEqPer hl _ f1, aggregate_same he.toEqPer hr _ f2, f1, f2, c3] at h
      rcases h with h | ⟨_, h⟩ <;> cases h

theorem Loud.crash (he : EqOk eq geq) {t : Trie α D} (hi : TInv t) : ∀ {u}, Loud eq t → AggCrash eq geq u t ∨ (∃ v, u = some v) ∧ ¬ Calm eq u t := by
  induction hi with
  | empty => intro u h; exact h.elim
  | mk p d act l r wf il ir hl hr two ihl ihr =>
    intro u h
    rw [aggCrash_mk]
    cases hred : redun eq u d act with
    | true =>
      refine Or.inr ⟨?_, fun hc => ?_⟩
      · unfold redun at hred
        cases u with
        | none => simp at hred
        | some v => exact ⟨v, rfl⟩
      · have := hc.1; rw [hred] at this; cases this
    | false =>
    have hu := umb_snd_of hred
    have own : ∀ {c : Trie α D}, TInv c → (∃ v, (umb eq u d act).2 = some v) ∧ ¬ Calm eq (umb eq u d act).2 c → (c = l ∨ c = r) →
        (act = true ∧ (childrenAggregate eq p (aggregate eq geq (umb eq u d act).2 l).1 (aggregate eq geq (umb eq u d act).2 r).1 = true ∨
        (False = False ∧ ((aggregate eq geq (umb eq u d act).2 l).2 || (aggregate eq geq (umb eq u d act).2 r).2) = true))) ∨
        (∃ v, u = some v) ∧ ¬ Calm eq u (Trie.mk p d act l r) := by
      rintro c hc ⟨⟨v, hv⟩, hn⟩ hm
      cases ha : act with
      | true =>
        left
        rw [ha] at hn
        refine ⟨rfl, Or.inr ⟨rfl, ?_⟩⟩
        have : (aggregate eq geq (umb eq u d true).2 c).2 = true := by
          rw [← Bool.not_eq_false]
          exact fun h => hn ((aggregate_calm he hc _).mp h)
        rcases hm with rfl | rfl
        · rw [this]; rfl
        · rw [this, Bool.or_true]
      | false =>
        right
        rw [ha] at hu hv hn
        simp only [Bool.false_eq_true, if_false] at hu
        rw [hu] at hv hn
        refine ⟨⟨v, hv⟩, fun hc => hn ?_⟩
        rcases hm with rfl | rfl
        · exact hc.2.1
        · exact hc.2.2.1
    rcases h with ⟨ha, hn⟩ | h | h
    · left; right; right
      refine ⟨ha, ?_⟩
      apply Classical.byContradiction
      intro hno
      rw [not_or] at hno
      obtain ⟨n1, n2⟩ := hno
      have n2 : ((aggregate eq geq (umb eq u d act).2 l).2 || (aggregate eq geq (umb eq u d act).2 r).2) = false := by
        rw [← Bool.not_eq_true]
        exact fun h => n2 ⟨rfl, h⟩
      rw [Bool.or_eq_false_iff] at n2
      rw [aggregate_same he.toEqPer hl _ n2.1, aggregate_same he.toEqPer hr _ n2.2] at n1
      have c1 := (aggregate_calm he hl _).mp n2.1
      have c2 := (aggregate_calm he hr _).mp n2.2
      rw [hu, if_pos ha] at c1 c2
      exact hn ⟨c1, c2, by simpa using n1⟩
    · rcases ihl (u := (umb eq u d act).2) h with h | h
      · exact Or.inl (Or.inl h)
      · rcases own hl h (Or.inl rfl) with ⟨ha, h⟩ | h
        · exact Or.inl (Or.inr (Or.inr ⟨ha, h.imp id fun h => ⟨rfl, h.2⟩⟩))
        · exact Or.inr h
    · rcases ihr (u := (umb eq u d act).2) h with h | h
      · exact Or.inl (Or.inr (Or.inl h))
      · rcases own hr h (Or.inr rfl) with ⟨ha, h⟩ | h
        · exact Or.inl (Or.inr (Or.inr ⟨ha, h.imp id fun h => ⟨rfl, h.2⟩⟩))
        · exact Or.inr h

theorem aggCrash_none (he : EqOk eq geq) {t : Trie α D} (hi : TInv t) : AggCrash eq geq none t ↔ Loud eq t := by
  refine ⟨AggCrash.loud he hi, fun h => ?_⟩
  rcases Loud.crash he hi (u := none) h with h | ⟨⟨v, h⟩, _⟩
  · exact h
  · cases h

/-- among the entries `E`, something below an entry can be aggregated -/
def LoudE (eq : Eq' D) (E : Prefix α × Option D → Prop) : Prop :=
  (∃ x y, E x ∧ Nearest E y x ∧ eq y.2 x.2 = true) ∨
  (∃ x y z, E x ∧ E y ∧ E z ∧ Halves x.1 y.1 ∧ eq x.2 y.2 = true ∧ Over z.1 x.1)

theorem loud_iff (he : EqOk eq geq) {t : Trie α D} (hi : TInv t) : Loud eq t ↔ LoudE eq (· ∈ t.entries) := by
  induction hi with
  | empty =>
    refine ⟨fun h => h.elim, ?_⟩
    rintro (⟨x, _, h, _⟩ | ⟨x, _, _, h, _⟩) <;> cases h
  | mk p d act l r wf il ir hl hr two ihl ihr =>
    have hE : ∀ x, x ∈ (Trie.mk p d act l r).entries ↔ (act = true ∧ x = (p, d)) ∨ x ∈ l.entries ∨ x ∈ r.entries := fun x => mem_mk
    have hE' : ∀ x, x ∈ (Trie.mk p d act l r).entries ↔ (act = true ∧ x = (p, d)) ∨ x ∈ r.entries ∨ x ∈ l.entries := fun x => by
      rw [hE, Or.comm (a := x ∈ l.entries)]
    have sl : ∀ x, x ∈ l.entries → Sub p x.1 false := fun x h => hl.side il h
    have sr : ∀ x, x ∈ r.entries → Sub p x.1 true := fun x h => hr.side ir h
    have hin := TInv.mk p d act l r wf il ir hl hr two
    cases act with
    | true =>
      have h1 : Loud eq (Trie.mk p d true l r) ↔ ¬ Calm eq none (Trie.mk p d true l r) := by
        constructor
        · exact fun h hc => hc.not_loud h
        · intro hn
          refine Or.inl ⟨rfl, fun ⟨c1, c2, c3⟩ => hn ⟨rfl, c1, c2, c3⟩⟩
      rw [h1, calm_quiet he hin]
      constructor
      · intro hn
        apply Classical.byContradiction
        intro hno
        refine hn ⟨?_, fun _ _ _ _ v hv => (by cases hv), ?_⟩
        · intro x hx _ y hy
          rw [← Bool.not_eq_true]
          exact fun h => hno (Or.inl ⟨x, y, hx, hy, h⟩)
        · intro x y hx hy _ _ hh
          rw [← Bool.not_eq_true]
          intro h
          refine hno (Or.inr ⟨x, y, (p, d), hx, hy, (hE _).mpr (Or.inl ⟨rfl, rfl⟩), hh, h, ?_⟩)
          have hl : ∀ {z}, z ∈ (Trie.mk p d true l r).entries → z.1.len ≥ p.len := by
            intro z hz
            rcases (hE z).mp hz with ⟨_, rfl⟩ | hz | hz
            · exact Nat.le_refl _
            · exact Nat.le_of_lt (sl z hz).lt
            · exact Nat.le_of_lt (sr z hz).lt
          rcases (hE x).mp hx with ⟨_, rfl⟩ | hx | hx
          · exfalso
            obtain ⟨P, l1, l2, s1, s2⟩ := hh
            simp only at l1
            rcases (hE y).mp hy with ⟨_, rfl⟩ | hy | hy
            · exact absurd (s1.side.symm.trans s2.side) (by simp)
            · have := (sl y hy).lt; omega
            · have := (sr y hy).lt; omega
          · exact ⟨(sl x hx).lt, (sl x hx).agree⟩
          · exact ⟨(sr x hx).lt, (sr x hx).agree⟩
      · rintro (⟨x, y, hx, hy, h⟩ | ⟨x, y, z, hx, hy, _, hh, h, _⟩) q
        · rw [q.near x hx trivial y hy] at h; cases h
        · rw [q.sib x y hx hy trivial trivial hh] at h; cases h
    | false =>
      have h1 : Loud eq (Trie.mk p d false l r) ↔ Loud eq l ∨ Loud eq r := by
        constructor
        · rintro (⟨h, _⟩ | h)
          · cases h
          · exact h
        · exact Or.inr
      rw [h1, ihl, ihr]
      have nl : ∀ {x y}, x ∈ l.entries → (Nearest (· ∈ (Trie.mk p d false l r).entries) y x ↔ Nearest (· ∈ l.entries) y x) := fun hx =>
        (nearest_child hE sl sr hx).trans (by simp)
      have nr : ∀ {x y}, x ∈ r.entries → (Nearest (· ∈ (Trie.mk p d false l r).entries) y x ↔ Nearest (· ∈ r.entries) y x) := fun hx =>
        (nearest_child hE' sr sl hx).trans (by simp)
      constructor
      · rintro ((⟨x, y, hx, hy, h⟩ | ⟨x, y, z, hx, hy, hz, h⟩) | (⟨x, y, hx, hy, h⟩ | ⟨x, y, z, hx, hy, hz, h⟩))
        · exact Or.inl ⟨x, y, (hE x).mpr (Or.inr (Or.inl hx)), (nl hx).mpr hy, h⟩
        · exact Or.inr ⟨x, y, z, (hE x).mpr (Or.inr (Or.inl hx)), (hE y).mpr (Or.inr (Or.inl hy)), (hE z).mpr (Or.inr (Or.inl hz)), h⟩
        · exact Or.inl ⟨x, y, (hE x).mpr (Or.inr (Or.inr hx)), (nr hx).mpr hy, h⟩
        · exact Or.inr ⟨x, y, z, (hE x).mpr (Or.inr (Or.inr hx)), (hE y).mpr (Or.inr (Or.inr hy)), (hE z).mpr (Or.inr (Or.inr hz)), h⟩
      · have plen : ∀ {z}, z ∈ (Trie.mk p d false l r).entries → p.len < z.1.len := by
          intro z hz
          rcases (hE z).mp hz with ⟨h, _⟩ | hz | hz
          · cases h
          · exact (sl z hz).lt
          · exact (sr z hz).lt
        rintro (⟨x, y, hx, hy, h⟩ | ⟨x, y, z, hx, hy, hz, hh, h, ho⟩)
        · rcases (hE x).mp hx with ⟨h, _⟩ | hx | hx
          · cases h
          · exact Or.inl (Or.inl ⟨x, y, hx, (nl hx).mp hy, h⟩)
          · exact Or.inr (Or.inl ⟨x, y, hx, (nr hx).mp hy, h⟩)
        · have hzl := plen hz
          have hol := ho.1
          rcases (hE x).mp hx with ⟨h, _⟩ | hx | hx
          · cases h
          · have hz' : z ∈ l.entries := by
              rcases (hE z).mp hz with ⟨h, _⟩ | hz | hz
              · cases h
              · exact hz
              · exact absurd ho (no_cross (sr z hz) (sl x hx))
            rcases (hE y).mp hy with ⟨h, _⟩ | hy | hy
            · cases h
            · exact Or.inl (Or.inr ⟨x, y, z, hx, hy, hz', hh, h, ho⟩)
            · rcases halves_cross (sl x hx) (sr y hy) hh with e | ⟨_, _, e1, e2⟩
              · cases e
              · omega
          · have hz' : z ∈ r.entries := by
              rcases (hE z).mp hz with ⟨h, _⟩ | hz | hz
              · cases h
              · exact absurd ho (no_cross (b := true) (sl z hz) (sr x hx))
              · exact hz
            rcases (hE y).mp hy with ⟨h, _⟩ | hy | hy
            · cases h
            · rcases halves_cross (sr x hx) (sl y hy) hh with e | ⟨e, _⟩
              · cases e
              · cases e
            · exact Or.inr (Or.inr ⟨x, y, z, hx, hy, hz', hh, h, ho⟩)

end Trie
end Addrs

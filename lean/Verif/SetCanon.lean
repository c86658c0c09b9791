import Verif.SetRange
/-
  Canonicity, maximality and minimality of set tries.
-/
namespace Addrs
open GoWord LawfulGoWord

section
variable {α : Type} [LawfulGoWord α]

/-- the prefixes of the active nodes, in order of traversal -/
def Trie.prefixes {D : Type} (t : Trie α D) : List (Prefix α) := t.entries.map (·.1)

/-- every prefix of length below the width has an address off a given longer prefix, on its side -/
theorem exists_off {p q : Prefix α} {b : Bool} (hs : Sub p q b) (hl : p.len + 1 < q.len)
    (hq : q.WF) : ∃ x, Covers p x ∧ bit x p.len = b ∧ ¬ Covers q x := by
  have hq' : q.len ≤ width α := hq
  obtain ⟨x, h1, h2⟩ := exists_with_bit q.addr (n := p.len + 1) (by omega) (!bit q.addr (p.len + 1))
  refine ⟨x, hs.agree.trans (h1.mono (by omega)), ?_, fun h => ?_⟩
  · rw [← h1 p.len (by omega)]; exact hs.side
  · rw [← h (p.len + 1) hl] at h2
    cases h3 : bit q.addr (p.len + 1) <;> simp [h3] at h2

/-- a strictly shorter prefix covers an address the longer does not -/
theorem exists_outside {p q : Prefix α} (hl : p.len < q.len) (hq : q.WF)
    (ha : Agree p.len p.addr q.addr) : ∃ x, Covers p x ∧ ¬ Covers q x := by
  have hq' : q.len ≤ width α := hq
  obtain ⟨x, h1, h2⟩ := exists_with_bit q.addr (n := p.len) (by omega) (!bit q.addr p.len)
  refine ⟨x, ha.trans h1, fun h => ?_⟩
  rw [← h p.len hl] at h2
  cases h3 : bit q.addr p.len <;> simp [h3] at h2

/-- if everything in `q` is in `p` then `q` is below or equal to `p` -/
theorem covers_le {p q : Prefix α} (hp : p.WF) (h : ∀ x, Covers q x → Covers p x) :
    p.len ≤ q.len ∧ Agree p.len p.addr q.addr := by
  refine ⟨?_, h _ (Covers.self q)⟩
  apply Nat.le_of_not_lt
  intro hlt
  obtain ⟨x, h1, h2⟩ := exists_outside hlt hp ((h _ (Covers.self q)).mono (Nat.le_of_lt hlt)).symm
  exact h2 (h x h1)

theorem sameKey_of_covers {p q : Prefix α} (hp : p.WF) (hq : q.WF)
    (h : ∀ x, Covers p x ↔ Covers q x) : SameKey p q := by
  have h1 := covers_le hp (fun x => (h x).mpr)
  have h2 := covers_le hq (fun x => (h x).mp)
  exact ⟨by omega, h1.2⟩

theorem SameKey.network {p q : Prefix α} (h : SameKey p q) (hp : p.WF) : p.network = q.network := by
  have := (masked_eq_iff (n := p.len) hp).mpr h.2
  simp only [Prefix.network, Prefix.mask, lengthToMask]
  rw [this, h.1]

namespace SetNode
open Trie

/-- A trie that contains its whole root prefix is a leaf. -/
theorem Inv.full {t : SetNode α} (hi : Inv t) : ∀ {p d n h a l r}, t = .node p d n h a l r →
    (∀ x, Covers p x → Mem t x) → a = true := by
  induction hi with
  | nil => intro _ _ _ _ _ _ _ e; cases e
  | leaf p hp => intro _ _ _ _ _ _ _ e _; cases e; rfl
  | inner p l r hz ul ur hl hr nm ihl ihr =>
    intro _ _ _ _ _ _ _ e hx; cases e
    exfalso; apply nm
    have fl : ∀ x, Covers p x → bit x p.len = false → Mem l x := by
      intro x h1 h2
      rcases mem_mk.mp (hx x h1) with h | h
      · exact h
      · have := (hr.within_mem ur.within h).2; rw [h2] at this; cases this
    have fr : ∀ x, Covers p x → bit x p.len = true → Mem r x := by
      intro x h1 h2
      rcases mem_mk.mp (hx x h1) with h | h
      · have := (hl.within_mem ul.within h).2; rw [h2] at this; cases this
      · exact h
    cases l with
    | nil => exact ul.elim
    | node q d n h act ll lr =>
      cases r with
      | nil => exact ur.elim
      | node q' d' n' h' act' rl rr =>
        have ul : Sub p q false := ul
        have ur : Sub p q' true := ur
        have a1 := ihl rfl (fun x h => fl x (ul.covers h).1 (ul.covers h).2)
        have a2 := ihr rfl (fun x h => fr x (ur.covers h).1 (ur.covers h).2)
        refine ⟨a1, a2, ?_, ?_⟩
        · apply Nat.le_antisymm _ ul.lt
          apply Nat.le_of_not_lt; intro hlt
          obtain ⟨x, h1, h2, h3⟩ := exists_off ul hlt hl.wf
          exact h3 (hl.covers rfl (fl x h1 h2))
        · apply Nat.le_antisymm _ ur.lt
          apply Nat.le_of_not_lt; intro hlt
          obtain ⟨x, h1, h2, h3⟩ := exists_off ur hlt hr.wf
          exact h3 (hr.covers rfl (fr x h1 h2))

theorem Inv.inner_not_full {p : Prefix α} {l r : SetNode α} (h : Inv (mk p none false l r)) :
    ∃ x, Covers p x ∧ ¬ Mem (mk p none false l r : SetNode α) x := by
  apply Classical.byContradiction
  intro hn
  have := h.full (p := p) rfl (fun x hx => Classical.byContradiction fun hm => hn ⟨x, hx, hm⟩)
  cases this

/-- two tries equal up to host bits of the prefixes of leaves -/
def Eqv : SetNode α → SetNode α → Prop
  | .nil, .nil => True
  | .node p _ n h a l r, .node p' _ n' h' a' l' r' =>
    n = n' ∧ h = h' ∧ a = a' ∧ (if a then SameKey p p' else p = p') ∧ Eqv l l' ∧ Eqv r r'
  | _, _ => False

theorem Inv.split {p : Prefix α} {l r : SetNode α} (hl : Inv l) (hr : Inv r)
    (ul : Under p false l) (ur : Under p true r) :
    ∃ x y, Mem (mk p none false l r : SetNode α) x ∧ Mem (mk p none false l r : SetNode α) y ∧
      bit x p.len = false ∧ bit y p.len = true := by
  obtain ⟨x, hx⟩ := hl.exists_mem ul.ne_nil
  obtain ⟨y, hy⟩ := hr.exists_mem ur.ne_nil
  exact ⟨x, y, mem_mk.mpr (.inl hx), mem_mk.mpr (.inr hy), (hl.within_mem ul.within hx).2,
    (hr.within_mem ur.within hy).2⟩

/-- a prefix covering members on both sides of `p` is at least as short as `p` -/
theorem len_le_of_split {p q : Prefix α} {x y : α} (hx : Covers q x) (hy : Covers q y)
    (bx : bit x p.len = false) (by_ : bit y p.len = true) : q.len ≤ p.len := by
  apply Nat.le_of_not_lt
  intro hlt
  rw [← hx _ hlt] at bx
  rw [← hy _ hlt, bx] at by_
  cases by_

theorem leaf_ne_inner {q p : Prefix α} {l r : SetNode α} (hq : q.WF)
    (hl : Inv l) (hr : Inv r) (ul : Under p false l) (ur : Under p true r)
    (hi : Inv (mk p none false l r))
    (h : ∀ x, Covers q x ↔ Mem (mk p none false l r : SetNode α) x) : False := by
  obtain ⟨x, y, hx, hy, bx, by_⟩ := Inv.split hl hr ul ur
  have hle := len_le_of_split (q := q) ((h x).mpr hx) ((h y).mpr hy) bx by_
  obtain ⟨z, hz, hz'⟩ := hi.inner_not_full
  apply hz'
  apply (h z).mp
  have c1 : Covers p x := hi.covers rfl hx
  exact (Agree.trans ((h x).mpr hx) (c1.symm.mono hle)).trans (Agree.mono hz hle)

theorem Eqv.sizes {a b : SetNode α} (h : Eqv a b) : a.numNodes = b.numNodes ∧ a.height = b.height := by
  cases a <;> cases b <;> simp_all [Eqv, numNodes, height]

/-- The trie is determined by its addresses (up to host bits of leaves). -/
theorem Inv.canonical {a : SetNode α} (ha : Inv a) : ∀ {b : SetNode α}, Inv b →
    (∀ x, Mem a x ↔ Mem b x) → Eqv a b := by
  induction ha with
  | nil =>
    intro b hb h
    cases b with
    | nil => trivial
    | node =>
      obtain ⟨x, hx⟩ := hb.exists_mem (by simp)
      exact ((h x).mpr hx).elim
  | leaf p hp =>
    intro b hb h
    cases hb with
    | nil => exact ((h p.addr).mp (mem_fromPrefix.mpr (Covers.self p))).elim
    | leaf q hq =>
      refine ⟨rfl, rfl, rfl, ?_, trivial, trivial⟩
      simp only [if_true]
      exact sameKey_of_covers hp hq fun x => by
        rw [← mem_fromPrefix, ← mem_fromPrefix]; exact h x
    | inner q l r hz ul ur hl hr nm =>
      exact (leaf_ne_inner hp hl hr ul ur (.inner q l r hz ul ur hl hr nm)
        (fun x => mem_fromPrefix.symm.trans (h x))).elim
  | inner p l r hz ul ur hl hr nm ihl ihr =>
    intro b hb h
    have hi : Inv (mk p none false l r) := .inner p l r hz ul ur hl hr nm
    cases hb with
    | nil =>
      obtain ⟨x, hx⟩ := hi.exists_mem (by simp [Trie.mk])
      exact ((h x).mp hx).elim
    | leaf q hq =>
      exact (leaf_ne_inner hq hl hr ul ur hi
        (fun x => mem_fromPrefix.symm.trans (h x).symm)).elim
    | inner q l' r' hz' ul' ur' hl' hr' nm' =>
      have hi' : Inv (mk q none false l' r') := .inner q l' r' hz' ul' ur' hl' hr' nm'
      obtain ⟨x, y, hx, hy, bx, by_⟩ := Inv.split hl hr ul ur
      obtain ⟨x', y', hx', hy', bx', by'⟩ := Inv.split hl' hr' ul' ur'
      have e1 := len_le_of_split (p := p) (q := q) (hi'.covers rfl ((h x).mp hx))
        (hi'.covers rfl ((h y).mp hy)) bx by_
      have e2 := len_le_of_split (p := q) (q := p) (hi.covers rfl ((h x').mpr hx'))
        (hi.covers rfl ((h y').mpr hy')) bx' by'
      have el : p.len = q.len := by omega
      have ag : Agree p.len p.addr q.addr :=
        Agree.trans (hi.covers rfl hx) (el ▸ (hi'.covers rfl ((h x).mp hx)).symm)
      have ea : p.addr = q.addr := by
        apply ext_bit
        intro i _
        by_cases hlt : i < p.len
        · exact ag i hlt
        · rw [hz i (by omega), hz' i (by omega)]
      have epq : p = q := by cases p; cases q; simp_all
      subst epq
      have hL : ∀ x, Mem l x ↔ Mem l' x := by
        intro x
        constructor
        · intro hm
          rcases mem_mk.mp ((h x).mp (mem_mk.mpr (.inl hm))) with h1 | h1
          · exact h1
          · have := (hl.within_mem ul.within hm).2
            rw [(hr'.within_mem ur'.within h1).2] at this; cases this
        · intro hm
          rcases mem_mk.mp ((h x).mpr (mem_mk.mpr (.inl hm))) with h1 | h1
          · exact h1
          · have := (hl'.within_mem ul'.within hm).2
            rw [(hr.within_mem ur.within h1).2] at this; cases this
      have hR : ∀ x, Mem r x ↔ Mem r' x := by
        intro x
        constructor
        · intro hm
          rcases mem_mk.mp ((h x).mp (mem_mk.mpr (.inr hm))) with h1 | h1
          · have := (hr.within_mem ur.within hm).2
            rw [(hl'.within_mem ul'.within h1).2] at this; cases this
          · exact h1
        · intro hm
          rcases mem_mk.mp ((h x).mpr (mem_mk.mpr (.inr hm))) with h1 | h1
          · have := (hr'.within_mem ur'.within hm).2
            rw [(hl.within_mem ul.within h1).2] at this; cases this
          · exact h1
      have vL := ihl hl' hL
      have vR := ihr hr' hR
      refine ⟨?_, ?_, rfl, by simp, vL, vR⟩
      · simp [vL.sizes.1, vR.sizes.1]
      · simp [vL.sizes.2, vR.sizes.2]

/-! ### the list of prefixes -/

@[simp] theorem prefixes_nil : prefixes (.nil : SetNode α) = [] := rfl
@[simp] theorem prefixes_leaf (p : Prefix α) : prefixes (fromPrefix p) = [p] := rfl
@[simp] theorem prefixes_mk (p : Prefix α) (d) (l r : SetNode α) :
    prefixes (mk p d false l r) = prefixes l ++ prefixes r := by
  simp [prefixes, Trie.mk, entries]

theorem Inv.mem_iff {t : SetNode α} (hi : Inv t) {x : α} :
    Mem t x ↔ ∃ p ∈ t.prefixes, Covers p x := by
  induction hi with
  | nil => simp [Mem]
  | leaf p hp => rw [mem_fromPrefix]; simp
  | inner p l r hz ul ur hl hr nm ihl ihr =>
    rw [mem_mk, ihl, ihr]
    simp only [prefixes_mk, List.mem_append]
    constructor
    · rintro (⟨q, h1, h2⟩ | ⟨q, h1, h2⟩)
      · exact ⟨q, .inl h1, h2⟩
      · exact ⟨q, .inr h1, h2⟩
    · rintro ⟨q, h1 | h1, h2⟩
      · exact .inl ⟨q, h1, h2⟩
      · exact .inr ⟨q, h1, h2⟩

theorem Inv.prefixes_wf {t : SetNode α} (hi : Inv t) : ∀ p ∈ t.prefixes, p.WF := by
  induction hi with
  | nil => simp
  | leaf p hp => simpa using hp
  | inner p l r hz ul ur hl hr nm ihl ihr =>
    simp only [prefixes_mk, List.mem_append]
    rintro q (h | h)
    · exact ihl q h
    · exact ihr q h

theorem Inv.prefixes_mem {t : SetNode α} (hi : Inv t) {p : Prefix α} (hp : p ∈ t.prefixes) {x : α}
    (hx : Covers p x) : Mem t x := hi.mem_iff.mpr ⟨p, hp, hx⟩

/-- the prefixes are disjoint and ascending: all addresses of an earlier one come before all
    addresses of a later one -/
theorem Inv.sorted {t : SetNode α} (hi : Inv t) :
    t.prefixes.Pairwise fun p q => ∀ x y, Covers p x → Covers q y → toNat x < toNat y := by
  induction hi with
  | nil => simp
  | leaf p hp => simp
  | inner p l r hz ul ur hl hr nm ihl ihr =>
    rw [prefixes_mk, List.pairwise_append]
    refine ⟨ihl, ihr, ?_⟩
    intro q hq q' hq' x y hx hy
    have h1 := hl.within_mem ul.within (hl.prefixes_mem hq hx)
    have h2 := hr.within_mem ur.within (hr.prefixes_mem hq' hy)
    have hpw : p.len < width α := by
      cases l with
      | nil => exact ul.elim
      | node => exact Nat.lt_of_lt_of_le ul.lt hl.wf
    exact toNat_lt_of_bit hpw (Agree.trans h1.1.symm h2.1) h1.2 h2.2

/-- every listed prefix is maximal: no strictly larger prefix around it is inside the set -/
theorem Inv.maximal {t : SetNode α} (hi : Inv t) : ∀ q ∈ t.prefixes, ∀ P : Prefix α,
    P.len < q.len → Agree P.len P.addr q.addr → ∃ x, Covers P x ∧ ¬ Mem t x := by
  induction hi with
  | nil => simp
  | leaf p hp =>
    intro q hq P h1 h2
    simp at hq; subst hq
    obtain ⟨x, h3, h4⟩ := exists_outside h1 hp h2
    exact ⟨x, h3, fun h => h4 (mem_fromPrefix.mp h)⟩
  | inner p l r hz ul ur hl hr nm ihl ihr =>
    intro q hq P h1 h2
    have hi : Inv (mk p none false l r) := .inner p l r hz ul ur hl hr nm
    have hqp : Covers p q.addr := hi.covers rfl (hi.prefixes_mem hq (Covers.self q))
    by_cases hle : P.len ≤ p.len
    · obtain ⟨x, hx, hm⟩ := hi.inner_not_full
      exact ⟨x, h2.trans ((Agree.mono hqp hle).symm.trans (Agree.mono hx hle)), hm⟩
    · have hPp : ∀ x, Covers P x → bit x p.len = bit q.addr p.len := by
        intro x hx
        rw [← hx p.len (by omega), h2 p.len (by omega)]
      rw [prefixes_mk, List.mem_append] at hq
      rcases hq with hq | hq
      · obtain ⟨x, hx, hm⟩ := ihl q hq P h1 h2
        refine ⟨x, hx, fun h => ?_⟩
        rcases mem_mk.mp h with h | h
        · exact hm h
        · have b1 := (hr.within_mem ur.within h).2
          have b2 := (hl.within_mem ul.within (hl.prefixes_mem hq (Covers.self q))).2
          rw [hPp x hx, b2] at b1; cases b1
      · obtain ⟨x, hx, hm⟩ := ihr q hq P h1 h2
        refine ⟨x, hx, fun h => ?_⟩
        rcases mem_mk.mp h with h | h
        · have b1 := (hl.within_mem ul.within h).2
          have b2 := (hr.within_mem ur.within (hr.prefixes_mem hq (Covers.self q))).2
          rw [hPp x hx, b2] at b1; cases b1
        · exact hm h

/-- every list of prefixes with the same addresses is at least as long -/
theorem Inv.minimal {t : SetNode α} (hi : Inv t) : ∀ L : List (Prefix α),
    (∀ x, Mem t x ↔ ∃ p ∈ L, Covers p x) → t.prefixes.length ≤ L.length := by
  induction hi with
  | nil => simp
  | leaf p hp =>
    intro L h
    obtain ⟨q, hq, _⟩ := (h p.addr).mp (mem_fromPrefix.mpr (Covers.self p))
    simp
    exact List.length_pos_of_mem hq
  | inner p l r hz ul ur hl hr nm ihl ihr =>
    intro L h
    have hi : Inv (mk p none false l r) := .inner p l r hz ul ur hl hr nm
    have hin : ∀ q ∈ L, ∀ x, Covers q x → bit x p.len = bit q.addr p.len := by
      intro q hq x hx
      by_cases hle : q.len ≤ p.len
      · exfalso
        obtain ⟨z, hz1, hz2⟩ := hi.inner_not_full
        apply hz2
        have hqp : Covers p q.addr := hi.covers rfl ((h _).mpr ⟨q, hq, Covers.self q⟩)
        exact (h z).mpr ⟨q, hq, (Agree.mono hqp hle).symm.trans (Agree.mono hz1 hle)⟩
      · exact (hx p.len (by omega)).symm
    have hL := ihl (L.filter fun q => !bit q.addr p.len) (fun x => by
      constructor
      · intro hm
        obtain ⟨q, hq, hx⟩ := (h x).mp (mem_mk.mpr (.inl hm))
        refine ⟨q, List.mem_filter.mpr ⟨hq, ?_⟩, hx⟩
        rw [← hin q hq x hx, (hl.within_mem ul.within hm).2]; rfl
      · rintro ⟨q, hq, hx⟩
        obtain ⟨hq, hb⟩ := List.mem_filter.mp hq
        rcases mem_mk.mp ((h x).mpr ⟨q, hq, hx⟩) with h1 | h1
        · exact h1
        · have := (hr.within_mem ur.within h1).2
          rw [hin q hq x hx] at this; simp [this] at hb)
    have hR := ihr (L.filter fun q => bit q.addr p.len) (fun x => by
      constructor
      · intro hm
        obtain ⟨q, hq, hx⟩ := (h x).mp (mem_mk.mpr (.inr hm))
        refine ⟨q, List.mem_filter.mpr ⟨hq, ?_⟩, hx⟩
        rw [← hin q hq x hx, (hr.within_mem ur.within hm).2]
      · rintro ⟨q, hq, hx⟩
        obtain ⟨hq, hb⟩ := List.mem_filter.mp hq
        rcases mem_mk.mp ((h x).mpr ⟨q, hq, hx⟩) with h1 | h1
        · have := (hl.within_mem ul.within h1).2
          rw [hin q hq x hx] at this; simp [this] at hb
        · exact h1)
    have hsum : (L.filter fun q => !bit q.addr p.len).length
        + (L.filter fun q => bit q.addr p.len).length = L.length := by
      clear hL hR hin h ihl ihr
      induction L with
      | nil => rfl
      | cons q L ih =>
        simp only [List.filter_cons]
        cases hb : bit q.addr p.len <;> simp <;> omega
    rw [prefixes_mk, List.length_append]
    omega

/-- Eqv tries list the same prefixes up to host bits -/
theorem Eqv.prefixes {a : SetNode α} : ∀ {b : SetNode α}, Eqv a b → (∀ p ∈ a.prefixes, p.WF) →
    a.prefixes.map Prefix.network = b.prefixes.map Prefix.network := by
  induction a with
  | nil => intro b h _; cases b with
    | nil => rfl
    | node => exact h.elim
  | node p d n h act l r ihl ihr =>
    intro b hb hw
    cases b with
    | nil => exact hb.elim
    | node q e n' h' act' l' r' =>
      obtain ⟨_, _, rfl, h3, h4, h5⟩ := hb
      have hl := ihl h4 (fun p hp => hw p (by
        simp only [Trie.prefixes, entries, List.map_append, List.mem_append]
        exact .inr (.inl hp)))
      have hr := ihr h5 (fun p hp => hw p (by
        simp only [Trie.prefixes, entries, List.map_append, List.mem_append]
        exact .inr (.inr hp)))
      simp only [Trie.prefixes] at hl hr hw
      cases act with
      | true =>
        simp only [if_true] at h3
        simp only [Trie.prefixes, entries, if_true, List.map_append, List.map_cons, List.map_nil, hl,
          hr, h3.network (hw p (by simp [entries]))]
      | false =>
        simp only [Trie.prefixes, entries, List.map_append, Bool.false_eq_true, if_false, hl, hr,
          List.map_nil]

/-! ### sizes and heights -/

/-- real height -/
def depth : SetNode α → Nat
  | .nil => 0
  | .node _ _ _ _ _ l r => 1 + max (depth l) (depth r)

theorem Inv.depth_le {t : SetNode α} (hi : Inv t) : ∀ {p d n h a l r}, t = .node p d n h a l r →
    depth t + p.len ≤ width α + 1 := by
  induction hi with
  | nil => intro _ _ _ _ _ _ _ e; cases e
  | leaf p hp =>
    intro _ _ _ _ _ _ _ e; cases e
    have : p.len ≤ width α := hp
    simp [depth, fromPrefix]; omega
  | inner p l r hz ul ur hl hr nm ihl ihr =>
    intro _ _ _ _ _ _ _ e; cases e
    cases l with
    | nil => exact ul.elim
    | node =>
      cases r with
      | nil => exact ur.elim
      | node =>
        have h1 := ihl rfl
        have h2 := ihr rfl
        have h3 := Sub.lt ul
        have h4 := Sub.lt ur
        rw [Trie.mk, depth]
        omega

/-- the stored size is the number of prefixes (mod 2^32) -/
theorem Inv.size {t : SetNode α} (hi : Inv t) : t.numNodes = t.prefixes.length % 2 ^ 32 := by
  induction hi with
  | nil => rfl
  | leaf p hp => rfl
  | inner p l r hz ul ur hl hr nm ihl ihr =>
    rw [prefixes_mk, List.length_append]
    have e : (mk p none false l r : SetNode α).numNodes
        = (numNodes l + numNodes r) % 2 ^ 32 := rfl
    rw [e, ihl, ihr, ← Nat.add_mod]

/-- the number of nodes is twice the number of prefixes minus one -/
theorem Inv.nodes_eq {t : SetNode α} (hi : Inv t) (hn : t ≠ .nil) :
    t.nodes + 1 = 2 * t.prefixes.length := by
  induction hi with
  | nil => exact absurd rfl hn
  | leaf p hp => rfl
  | inner p l r hz ul ur hl hr nm ihl ihr =>
    rw [prefixes_mk, List.length_append]
    have h1 := ihl ul.ne_nil
    have h2 := ihr ur.ne_nil
    simp only [Trie.mk, nodes]
    omega

theorem Inv.height_eq {t : SetNode α} (hi : Inv t) (hw : width α + 1 < 2 ^ 16) :
    t.height = depth t := by
  induction hi with
  | nil => rfl
  | leaf p hp => rfl
  | inner p l r hz ul ur hl hr nm ihl ihr =>
    have := (Inv.inner p l r hz ul ur hl hr nm).depth_le rfl
    have e : (mk p none false l r : SetNode α).height
        = (1 + max (height l) (height r)) % 2 ^ 16 := rfl
    have e' : depth (mk p none false l r : SetNode α) = 1 + max (depth l) (depth r) := rfl
    rw [e'] at this
    rw [e, e', ihl, ihr]
    apply Nat.mod_eq_of_lt
    omega

end SetNode
end
end Addrs

import Verif.SetEdit
import Verif.PropSetExact
/-
  Property C81: `Insert` and `Remove` of the package's own set tries (setnode.go), which its tests build their sets with.
-/
namespace Addrs
open GoWord LawfulGoWord

section
variable {α : Type} [LawfulGoWord α]
namespace SetNode
open Trie

/-- a trie all of whose addresses lie strictly inside `P`, on side `s`, has its root there -/
theorem Inv.within_of {t : SetNode α} (ht : Inv t) {P : Prefix α} {s : Bool} (hP : P.len < width α)
    (h : ∀ x, Mem t x → Covers P x ∧ bit x P.len = s) : Within P s t := by
  have key : ∀ (q : Prefix α) (x : α), Mem t x → Covers q x → P.len < q.len → Sub P q s := by
    intro q x hx hq hl
    obtain ⟨h1, h2⟩ := h x hx
    refine ⟨hl, fun i hi => ?_, ?_⟩
    · rw [h1 i hi, hq i (by omega)]
    · rw [hq _ hl]; exact h2
  cases ht with
  | nil => trivial
  | leaf q hq =>
    have hx : Mem (fromPrefix q) q.addr := mem_fromPrefix.mpr (Covers.self q)
    refine key q _ hx (Covers.self q) ?_
    apply Nat.lt_of_not_le
    intro hle
    obtain ⟨g1, g2, _, _⟩ := halves_sub hP
    have hc := (h _ hx).1
    have inQ : ∀ y, Covers P y → Covers q y := fun y hy i hi => by
      rw [← hy i (by omega), hc i (by omega)]
    have e1 := (g1.covers (Covers.self _))
    have e2 := (g2.covers (Covers.self _))
    have f1 := (h _ (mem_fromPrefix.mpr (inQ _ e1.1))).2
    have f2 := (h _ (mem_fromPrefix.mpr (inQ _ e2.1))).2
    rw [e1.2] at f1; rw [e2.2] at f2
    rw [← f1] at f2; cases f2
  | inner q l r hz ul ur hl hr nm =>
    obtain ⟨x, hx⟩ := hl.exists_mem ul.ne_nil
    obtain ⟨y, hy⟩ := hr.exists_mem ur.ne_nil
    have cx := hl.within_mem ul.within hx
    have cy := hr.within_mem ur.within hy
    have hx' : Mem (mk q none false l r) x := mem_mk.mpr (.inl hx)
    have hy' : Mem (mk q none false l r) y := mem_mk.mpr (.inr hy)
    refine key q x hx' cx.1 ?_
    apply Nat.lt_of_not_le
    intro hle
    have dx := h x hx'
    have dy := h y hy'
    have : bit x q.len = bit y q.len := by
      by_cases e : q.len = P.len
      · rw [e, dx.2, dy.2]
      · rw [← dx.1 _ (by omega), ← dy.1 _ (by omega)]
    rw [cx.2, cy.2] at this; cases this

/-- the set has addresses in both halves of `k` -/
def Straddles (t : SetNode α) (k : Prefix α) : Prop :=
  ∃ x y, Mem t x ∧ Mem t y ∧ Covers k x ∧ Covers k y ∧ bit x k.len = false ∧ bit y k.len = true

theorem flatEdit_some {p : Prefix α} {l r : SetNode α} (hl : l ≠ .nil) (hr : r ≠ .nil) :
    flatEdit p l r = some (mkFlat p l r) := by
  cases l with
  | nil => exact absurd rfl hl
  | node => cases r with
    | nil => exact absurd rfl hr
    | node => rfl

theorem fromPrefix_ne_nil (k : Prefix α) : (fromPrefix k : SetNode α) ≠ .nil := by simp [fromPrefix]

theorem mkFlat_same {p : Prefix α} {l r : SetNode α} (nm : ¬ Mergeable p l r) (hl : l ≠ .nil) (hr : r ≠ .nil) :
    mkFlat p l r = mk p none false l r := by
  cases l with
  | nil => exact absurd rfl hl
  | node lp ld ln lh la ll lr =>
    cases r with
    | nil => exact absurd rfl hr
    | node rp rd rn rh ra rl rr =>
      have e : flatten p false (Trie.node lp ld ln lh la ll lr : SetNode α) (Trie.node rp rd rn rh ra rl rr) =
          (false, .node lp ld ln lh la ll lr, .node rp rd rn rh ra rl rr) := by
        unfold flatten
        simp only [Bool.false_eq_true, if_false]
        split
        · rfl
        · split
          · rfl
          · split
            · rfl
            · rename_i h1 h2 h3
              exfalso; apply nm
              simp at h1 h2 h3
              exact ⟨h3.1, h3.2, h2, by omega⟩
      unfold mkFlat
      rw [e]

/-- `Insert` is `Union` with the prefix, except that it does nothing when the trie has addresses in both halves of it. -/
theorem insertKey_eq (k : Prefix α) (hk : k.WF) : ∀ (t : SetNode α), Inv t →
    (Straddles t k → insertKey k t = some t) ∧ (¬ Straddles t k → insertKey k t = some (union t (fromPrefix k)))
  | .nil, _ => by
    refine ⟨fun ⟨x, _, h, _⟩ => h.elim, fun _ => ?_⟩
    rw [union_nil_left]; rfl
  | .node p d n m act l r, ht => by
    have wp := ht.wf
    rw [insertKey, fromPrefix, union]
    rcases compareP_cases wp hk with ⟨hs, he⟩ | ⟨c, hs, he⟩ | ⟨c, hs, he⟩ | ⟨j, rev, c, h1, h2, h3, h4, h5, h6, he⟩
    · -- the same prefix
      simp only [he]
      refine ⟨fun _ => trivial, fun hn => ?_⟩
      cases act with
      | true => simp
      | false =>
        exfalso; apply hn
        obtain ⟨ea, hz, ul, ur, il, ir, nm⟩ := ht.inactive
        obtain ⟨x, hx⟩ := il.exists_mem ul.ne_nil
        obtain ⟨y, hy⟩ := ir.exists_mem ur.ne_nil
        have cx := il.within_mem ul.within hx
        have cy := ir.within_mem ur.within hy
        refine ⟨x, y, ?_, ?_, hs.covers.mp cx.1, hs.covers.mp cy.1, ?_, ?_⟩
        · rw [ea]; exact mem_mk.mpr (.inl hx)
        · rw [ea]; exact mem_mk.mpr (.inr hy)
        · rw [← hs.1]; exact cx.2
        · rw [← hs.1]; exact cy.2
    · -- inside the node's prefix
      simp only [he]
      cases act with
      | true => simp
      | false =>
        obtain ⟨ea, hz, ul, ur, il, ir, nm⟩ := ht.inactive
        simp only [Bool.false_eq_true, if_false]
        -- only the child on that side has addresses of `k`
        have side : ∀ x, Covers k x → bit x p.len = c := fun x hx => (hs.covers hx).2
        cases c with
        | true =>
          obtain ⟨ih1, ih2⟩ := insertKey_eq k hk r ir
          have hstr : Straddles (.node p d n m false l r) k ↔ Straddles r k := by
            rw [ea]
            have one : ∀ x, Mem (mk p none false l r) x → Covers k x → Mem r x := fun x hx hc => by
              rcases mem_mk.mp hx with hx | hx
              · have := (il.within_mem ul.within hx).2
                rw [side x hc] at this; cases this
              · exact hx
            constructor
            · rintro ⟨x, y, a1, a2, a3, a4, a5⟩
              exact ⟨x, y, one x a1 a3, one y a2 a4, a3, a4, a5⟩
            · rintro ⟨x, y, a1, a2, a5⟩
              exact ⟨x, y, mem_mk.mpr (.inr a1), mem_mk.mpr (.inr a2), a5⟩
          simp only [if_true]
          refine ⟨fun h => ?_, fun h => ?_⟩
          · rw [ih1 (hstr.mp h)]
            simp only []
            rw [flatEdit_some ul.ne_nil ur.ne_nil, mkFlat_same nm ul.ne_nil ur.ne_nil, ea]
          · rw [ih2 fun h' => h (hstr.mpr h')]
            have hu := union_spec ir (.leaf k hk)
            simp only []
            rw [flatEdit_some ul.ne_nil (hu.ne_nil ir ur.ne_nil)]
            rfl
        | false =>
          obtain ⟨ih1, ih2⟩ := insertKey_eq k hk l il
          have hstr : Straddles (.node p d n m false l r) k ↔ Straddles l k := by
            rw [ea]
            have one : ∀ x, Mem (mk p none false l r) x → Covers k x → Mem l x := fun x hx hc => by
              rcases mem_mk.mp hx with hx | hx
              · exact hx
              · have := (ir.within_mem ur.within hx).2
                rw [side x hc] at this; cases this
            constructor
            · rintro ⟨x, y, a1, a2, a3, a4, a5⟩
              exact ⟨x, y, one x a1 a3, one y a2 a4, a3, a4, a5⟩
            · rintro ⟨x, y, a1, a2, a5⟩
              exact ⟨x, y, mem_mk.mpr (.inl a1), mem_mk.mpr (.inl a2), a5⟩
          simp only [Bool.false_eq_true, if_false]
          refine ⟨fun h => ?_, fun h => ?_⟩
          · rw [ih1 (hstr.mp h)]
            simp only []
            rw [flatEdit_some ul.ne_nil ur.ne_nil, mkFlat_same nm ul.ne_nil ur.ne_nil, ea]
          · rw [ih2 fun h' => h (hstr.mpr h')]
            have hu := union_spec il (.leaf k hk)
            simp only []
            rw [flatEdit_some (hu.ne_nil il ul.ne_nil) ur.ne_nil]
            rfl
    · -- around the node's prefix
      simp only [he, if_true]
      refine ⟨fun ⟨x, y, a1, a2, a3, a4, a5, a6⟩ => ?_, fun _ => rfl⟩
      have e1 := (hs.covers (ht.covers rfl a1)).2
      have e2 := (hs.covers (ht.covers rfl a2)).2
      rw [a5] at e1; rw [a6] at e2; rw [← e1] at e2; cases e2
    · -- apart
      simp only [he]
      refine ⟨fun ⟨x, y, a1, a2, a3, a4, a5, a6⟩ => ?_, fun _ => ?_⟩
      · exfalso; apply h4
        rw [ht.covers rfl a1 j h1, a3 j h2]
      · by_cases hc : (c != rev) = true
        · simp only [hc, if_true]
          rw [flatEdit_some (by simp) (by simp [Trie.mk])]; rfl
        · simp only [hc, Bool.false_eq_true, if_false]
          rw [flatEdit_some (by simp [Trie.mk]) (by simp)]; rfl

/-! ### Remove -/

theorem range_first_bits {p : Prefix α} (hp : p.WF) : Agree p.len p.addr p.range.first ∧ ZeroFrom p.len p.range.first := by
  rw [range_eq hp]
  refine ⟨(agree_network hp).symm, fun i hi => ?_⟩
  have : ¬ i < p.len := by omega
  show bit p.network.addr i = false
  rw [bit_network hp]; simp [this]

theorem range_last_bits {p : Prefix α} (hp : p.WF) : Agree p.len p.addr p.range.last ∧
    ∀ i, p.len ≤ i → i < width α → bit p.range.last i = true := by
  rw [range_eq hp]
  refine ⟨(covers_iff_range hp).mpr ⟨network_le_broadcast hp, Nat.le_refl _⟩, fun i hi hw => ?_⟩
  have : ¬ i < p.len := by omega
  show bit p.broadcast.addr i = true
  rw [bit_broadcast hp hw]; simp [this]

/-- a range inside a prefix that starts or ends where the prefix does is never one of the bad ones -/
theorem good_start {p : Prefix α} (hp : p.WF) {x : α} (hx : Covers p x) : ¬ BadRange ⟨p.range.first, x⟩ := by
  obtain ⟨h1, h2⟩ := range_first_bits hp
  intro hb
  obtain ⟨_, hz⟩ := (badRange_iff _).mp hb
  apply hz
  have := lz_xor_ge hp (h1.symm.trans hx)
  exact fun i hi => h2 i (by simp only [] at hi; omega)

theorem good_end {p : Prefix α} (hp : p.WF) {x : α} (hx : Covers p x) : ¬ BadRange ⟨x, p.range.last⟩ := by
  obtain ⟨h1, h2⟩ := range_last_bits hp
  intro hb
  obtain ⟨had, hz⟩ := (badRange_iff _).mp hb
  apply hz
  have hge := lz_xor_ge hp (Agree.symm hx |>.trans h1)
  intro i hi
  by_cases hw : i < width α
  · have a1 := had i hi hw
    rw [bit_xor, h2 i (by simp only [] at hi; omega) hw] at a1
    simpa using a1
  · exact bit_ge (by omega)

/-- taking a prefix out of one it lies strictly inside of -/
theorem splitOut_spec {p k : Prefix α} {b : Bool} (hp : p.WF) (hk : k.WF) (h : Sub p k b) :
    ∃ s, splitOut p k = some s ∧ Inv s ∧ ∀ x, Mem s x ↔ Covers p x ∧ ¬ Covers k x := by
  have vp : p.range.Valid := (C04_range p hp zero).2.2
  have vk : k.range.Valid := (C04_range k hk zero).2.2
  obtain ⟨m1, ⟨m2, _⟩, m3⟩ := C06_minus p.range k.range vp vk
  have inp : ∀ {q : Prefix α}, q.WF → ∀ a, InRange q.range a ↔ Covers q a := fun hq a =>
    ((C04_range _ hq a).1.symm).trans (inPrefix_iff hq)
  -- every piece starts or ends with `p`
  have good : ∀ t ∈ p.range.minus k.range, ¬ BadRange t := by
    intro t ht
    have hv := m2 t ht
    have e1 : Covers p t.first := ((inp hp _).mp ((m3 t.first).mp ⟨t, ht, Nat.le_refl _, hv⟩).1)
    have e2 : Covers p t.last := ((inp hp _).mp ((m3 t.last).mp ⟨t, ht, hv, Nat.le_refl _⟩).1)
    rw [Range.minus, List.mem_append] at ht
    rcases ht with ht | ht
    · split at ht
      · simp only [List.mem_singleton] at ht
        rw [ht] at e2 ⊢
        exact good_start hp e2
      · cases ht
    · split at ht
      · simp only [List.mem_singleton] at ht
        rw [ht] at e1 ⊢
        exact good_end hp e1
      · cases ht
  have mem : ∀ x, (∃ t ∈ p.range.minus k.range, InRange t x) ↔ Covers p x ∧ ¬ Covers k x := fun x => by
    rw [m3, inp hp, inp hk]
  unfold splitOut
  match hL : p.range.minus k.range, m1 with
  | [], _ =>
    exfalso
    -- the other half of `p` is left
    have hlt : p.len < width α := Nat.lt_of_lt_of_le h.lt hk
    obtain ⟨g1, g2, _, _⟩ := halves_sub hlt
    have : ∃ y, Covers p y ∧ bit y p.len = !b := by
      cases b
      · exact ⟨_, g2.covers (Covers.self _)⟩
      · exact ⟨_, g1.covers (Covers.self _)⟩
    obtain ⟨y, y1, y2⟩ := this
    have : ¬ Covers k y := fun hc => by
      rw [(h.covers hc).2] at y2; cases b <;> cases y2
    obtain ⟨t, ht, _⟩ := (mem y).mpr ⟨y1, this⟩
    rw [hL] at ht; cases ht
  | [a], _ =>
    rw [hL] at mem m2 good
    obtain ⟨f1, f2⟩ := fromRange_good (m2 a (by simp)) (good a (by simp))
    refine ⟨_, rfl, f1, fun x => ?_⟩
    rw [f2, ← mem]
    simp [InRange]
  | [a, c], _ =>
    rw [hL] at mem m2 good
    obtain ⟨f1, f2⟩ := fromRange_good (m2 a (by simp)) (good a (by simp))
    obtain ⟨g1, g2⟩ := fromRange_good (m2 c (by simp)) (good c (by simp))
    have hu := union_spec f1 g1
    refine ⟨_, rfl, hu.inv, fun x => ?_⟩
    rw [hu.mem, f2, g2, ← mem]
    simp [InRange]
  | _ :: _ :: _ :: _, hl => simp at hl

/-- What `del` with `flatten` must do; an error only if nothing is removed. -/
structure DelSpec (k : Prefix α) (t : SetNode α) (x : SetNode α × Bool) : Prop where
  inv : Inv x.1
  mem : ∀ a, Mem x.1 a ↔ Mem t a ∧ ¬ Covers k a
  err : x.2 = true → x.1 = t

/-- a child one bit longer than its parent and active holds that half of the parent -/
theorem half_full {p q k : Prefix α} {b : Bool} (h : Sub p q b) (hl : q.len = p.len + 1) (hk : Sub p k b) : Covers q k.addr := by
  intro i hi
  by_cases e : i = p.len
  · rw [e, h.side, hk.side]
  · rw [← h.agree i (by omega), hk.agree i (by omega)]

theorem delKey_spec (k : Prefix α) (hk : k.WF) : ∀ (t : SetNode α), Inv t → ∃ x, delKey k t = some x ∧ DelSpec k t x
  | .nil, h => ⟨_, rfl, h, fun a => by simp [Mem], fun h => by cases h⟩
  | .node p d n m act l r, ht => by
    have wp := ht.wf
    rw [delKey]
    rcases compareP_cases wp hk with ⟨hs, he⟩ | ⟨c, hs, he⟩ | ⟨c, hs, he⟩ | ⟨j, rev, c, h1, h2, h3, h4, h5, h6, he⟩
    · simp only [he]
      refine ⟨_, rfl, .nil, fun a => ⟨fun h => h.elim, fun ⟨h, h'⟩ => ?_⟩, fun h => by cases h⟩
      exact (h' (hs.covers.mp (ht.covers rfl h))).elim
    · simp only [he]
      cases act with
      | true =>
        obtain ⟨ea, _⟩ := ht.active
        obtain ⟨s, e1, e2, e3⟩ := splitOut_spec wp hk hs
        simp only [if_true, e1, Option.map_some]
        refine ⟨_, rfl, e2, fun a => ?_, fun h => by cases h⟩
        rw [ea, mem_fromPrefix, e3]
      | false =>
        obtain ⟨ea, hz, ul, ur, il, ir, nm⟩ := ht.inactive
        have hlt : p.len < width α := Nat.lt_of_lt_of_le hs.lt hk
        have side : ∀ x, Covers k x → bit x p.len = c := fun x hx => (hs.covers hx).2
        simp only [Bool.false_eq_true, if_false]
        cases c with
        | true =>
          obtain ⟨⟨r', err⟩, e1, sp⟩ := delKey_spec k hk r ir
          have lmem : ∀ x, Mem l x → ¬ Covers k x := fun x hx hc => by
            have := (il.within_mem ul.within hx).2
            rw [side x hc] at this; cases this
          have memeq : ∀ x, (Mem l x ∨ Mem r' x) ↔ Mem (.node p d n m false l r) x ∧ ¬ Covers k x := fun x => by
            rw [ea, mem_mk, sp.mem]
            constructor
            · rintro (h | ⟨h, h'⟩)
              · exact ⟨.inl h, lmem x h⟩
              · exact ⟨.inr h, h'⟩
            · rintro ⟨h | h, h'⟩
              · exact .inl h
              · exact .inr ⟨h, h'⟩
          simp only [if_true, e1]
          cases err with
          | true =>
            refine ⟨_, rfl, ht, fun x => ?_, fun _ => rfl⟩
            rw [← memeq, ea, mem_mk, show r' = r from sp.err rfl]
          | false =>
            cases r' with
            | nil =>
              refine ⟨_, rfl, il, fun x => ?_, fun h => by cases h⟩
              rw [← memeq]; simp [Mem]
            | node q d' n' m' a' l' r' =>
              have hd : d = none := data_none d
              subst hd
              have hw := sp.inv.within_of hlt (s := true) fun x hx =>
                ir.within_mem ur.within ((sp.mem x).mp hx).1
              refine ⟨_, rfl, .inner p l _ hz ul (hw.under (by simp)) il sp.inv ?_, fun x => ?_, fun h => by cases h⟩
              · intro hm
                cases l with
                | nil => exact ul.elim
                | node lp _ _ _ la _ _ =>
                  obtain ⟨_, ha, _, hl⟩ := hm
                  subst ha
                  obtain ⟨eq, _⟩ := sp.inv.active
                  have hin : Mem (Trie.node q d' n' m' true l' r') k.addr := by
                    rw [eq]; exact mem_fromPrefix.mpr (half_full hw hl hs)
                  exact ((sp.mem _).mp hin).2 (Covers.self k)
              · rw [← memeq]; exact mem_mk
        | false =>
          obtain ⟨⟨l', err⟩, e1, sp⟩ := delKey_spec k hk l il
          have rmem : ∀ x, Mem r x → ¬ Covers k x := fun x hx hc => by
            have := (ir.within_mem ur.within hx).2
            rw [side x hc] at this; cases this
          have memeq : ∀ x, (Mem l' x ∨ Mem r x) ↔ Mem (.node p d n m false l r) x ∧ ¬ Covers k x := fun x => by
            rw [ea, mem_mk, sp.mem]
            constructor
            · rintro (⟨h, h'⟩ | h)
              · exact ⟨.inl h, h'⟩
              · exact ⟨.inr h, rmem x h⟩
            · rintro ⟨h | h, h'⟩
              · exact .inl ⟨h, h'⟩
              · exact .inr h
          simp only [Bool.false_eq_true, if_false, e1]
          cases err with
          | true =>
            refine ⟨_, rfl, ht, fun x => ?_, fun _ => rfl⟩
            rw [← memeq, ea, mem_mk, show l' = l from sp.err rfl]
          | false =>
            cases l' with
            | nil =>
              refine ⟨_, rfl, ir, fun x => ?_, fun h => by cases h⟩
              rw [← memeq]; simp [Mem]
            | node q d' n' m' a' l' r' =>
              have hd : d = none := data_none d
              subst hd
              have hw := sp.inv.within_of hlt (s := false) fun x hx =>
                il.within_mem ul.within ((sp.mem x).mp hx).1
              refine ⟨_, rfl, .inner p _ r hz (hw.under (by simp)) ur sp.inv ir ?_, fun x => ?_, fun h => by cases h⟩
              · intro hm
                cases r with
                | nil => exact ur.elim
                | node lp _ _ _ la _ _ =>
                  obtain ⟨ha, _, hl, _⟩ := hm
                  subst ha
                  obtain ⟨eq, _⟩ := sp.inv.active
                  have hin : Mem (Trie.node q d' n' m' true l' r') k.addr := by
                    rw [eq]; exact mem_fromPrefix.mpr (half_full hw hl hs)
                  exact ((sp.mem _).mp hin).2 (Covers.self k)
              · rw [← memeq]; exact mem_mk
    · simp only [he]
      refine ⟨_, rfl, .nil, fun a => ⟨fun h => h.elim, fun ⟨h, h'⟩ => ?_⟩, fun h => by cases h⟩
      exact (h' (hs.covers (ht.covers rfl h)).1).elim
    · simp only [he]
      refine ⟨_, rfl, ht, fun a => ⟨fun h => ⟨h, fun hc => ?_⟩, fun h => h.1⟩, fun _ => rfl⟩
      apply h4
      rw [ht.covers rfl h j h1, hc j h2]

end SetNode
end

/-! ### the property -/

/-- the two calls -/
inductive TrieEdit (α : Type) where
  | insert (p : Prefix α)
  | remove (p : Prefix α)

/-- calls one after the other; `none` is a panic -/
def SetNode.edits {α : Type} [GoWord α] : List (TrieEdit α) → SetNode α → Option (SetNode α)
  | [], t => some t
  | .insert p :: es, t => (SetNode.insertKey p t).bind (SetNode.edits es)
  | .remove p :: es, t => (SetNode.removeKey p t).bind (SetNode.edits es)

section
variable {α : Type} [LawfulGoWord α]

/-- the prefix of the call is one -/
def TrieEdit.Valid : TrieEdit α → Prop
  | .insert p => p.WF
  | .remove p => p.WF

/-- what the names and comments of the two calls promise, on sets of addresses -/
def TrieEdit.promised (S : α → Prop) : TrieEdit α → α → Prop
  | .insert p => fun a => S a ∨ InPrefix p a
  | .remove p => fun a => S a ∧ ¬ InPrefix p a

/-- the set has addresses in both halves of the prefix -/
def BothHalves (S : α → Prop) (p : Prefix α) : Prop :=
  p.len < width α ∧ ∃ x y, S x ∧ S y ∧ InPrefix p.halves.1 x ∧ InPrefix p.halves.2 y

/-- what they do: `Insert` does nothing when the set has addresses in both halves of the prefix -/
def TrieEdit.actual (S : α → Prop) : TrieEdit α → α → Prop
  | .insert p => fun a => S a ∨ (InPrefix p a ∧ ¬ BothHalves S p)
  | .remove p => fun a => S a ∧ ¬ InPrefix p a

/-- a history in which no `Insert` meets a set with addresses in both halves of its prefix, except for prefixes that
    are in the set already -/
def Harmless : (α → Prop) → List (TrieEdit α) → Prop
  | _, [] => True
  | S, e :: es => (∀ p, e = .insert p → BothHalves S p → ∀ a, InPrefix p a → S a) ∧ Harmless (e.promised S) es

namespace SetNode

theorem bothHalves_iff {t : SetNode α} {S : α → Prop} (hS : ∀ a, S a ↔ Mem t a) {p : Prefix α} (_hp : p.WF) :
    BothHalves S p ↔ Straddles t p := by
  constructor
  · rintro ⟨hlt, x, y, a1, a2, a3, a4⟩
    obtain ⟨g1, g2, g3, g4⟩ := halves_sub hlt
    have b1 := g1.covers ((inPrefix_iff (by rw [Prefix.WF, g3]; omega)).mp a3)
    have b2 := g2.covers ((inPrefix_iff (by rw [Prefix.WF, g4]; omega)).mp a4)
    exact ⟨x, y, (hS x).mp a1, (hS y).mp a2, b1.1, b2.1, b1.2, b2.2⟩
  · rintro ⟨x, y, a1, a2, a3, a4, a5, a6⟩
    have hlt : p.len < width α := by
      apply Nat.lt_of_not_le
      intro h
      rw [bit_ge h] at a6; cases a6
    obtain ⟨g1, g2, g3, g4⟩ := halves_sub hlt
    have in1 : Covers p.halves.1 x := fun i hi => by
      by_cases e : i = p.len
      · rw [e, g1.side, a5]
      · rw [← g1.agree i (by omega)]; exact a3 i (by omega)
    have in2 : Covers p.halves.2 y := fun i hi => by
      by_cases e : i = p.len
      · rw [e, g2.side, a6]
      · rw [← g2.agree i (by omega)]; exact a4 i (by omega)
    exact ⟨hlt, x, y, (hS x).mpr a1, (hS y).mpr a2, (inPrefix_iff (by rw [Prefix.WF, g3]; omega)).mpr in1,
      (inPrefix_iff (by rw [Prefix.WF, g4]; omega)).mpr in2⟩

theorem removeKey_spec {k : Prefix α} (hk : k.WF) {t : SetNode α} (ht : Inv t) :
    ∃ t', removeKey k t = some t' ∧ Inv t' ∧ ∀ a, Mem t' a ↔ Mem t a ∧ ¬ Covers k a := by
  obtain ⟨x, e, sp⟩ := delKey_spec k hk t ht
  exact ⟨x.1, by rw [removeKey, e]; rfl, sp.inv, sp.mem⟩

theorem edits_spec : ∀ (es : List (TrieEdit α)), (∀ e ∈ es, e.Valid) → ∀ {t : SetNode α} {S : α → Prop}, Inv t →
    (∀ a, S a ↔ Mem t a) → ∃ t', edits es t = some t' ∧ Inv t' ∧ ∀ a, es.foldl TrieEdit.actual S a ↔ Mem t' a
  | [], _, t, S, ht, hS => ⟨t, rfl, ht, hS⟩
  | .insert p :: es, hv, t, S, ht, hS => by
    have hp : p.WF := hv _ List.mem_cons_self
    obtain ⟨h1, h2⟩ := insertKey_eq p hp t ht
    by_cases hb : Straddles t p
    · rw [edits, h1 hb]
      refine edits_spec es (fun e he => hv e (List.mem_cons_of_mem _ he)) ht fun a => ?_
      have : BothHalves S p := (bothHalves_iff hS hp).mpr hb
      simp only [TrieEdit.actual, this, not_true_eq_false, and_false, or_false]
      exact hS a
    · rw [edits, h2 hb]
      have hu := union_spec ht (.leaf p hp)
      refine edits_spec es (fun e he => hv e (List.mem_cons_of_mem _ he)) hu.inv fun a => ?_
      have : ¬ BothHalves S p := fun h => hb ((bothHalves_iff hS hp).mp h)
      simp only [TrieEdit.actual, this, not_false_eq_true, and_true]
      rw [hu.mem, mem_fromPrefix, hS, inPrefix_iff hp]
  | .remove p :: es, hv, t, S, ht, hS => by
    have hp : p.WF := hv _ List.mem_cons_self
    obtain ⟨t1, e1, i1, m1⟩ := removeKey_spec hp ht
    rw [edits, e1]
    refine edits_spec es (fun e he => hv e (List.mem_cons_of_mem _ he)) i1 fun a => ?_
    simp only [TrieEdit.actual]
    rw [m1, hS, inPrefix_iff hp]

theorem harmless_fold : ∀ (es : List (TrieEdit α)) (S S' : α → Prop), (∀ a, S a ↔ S' a) → Harmless S es →
    ∀ a, es.foldl TrieEdit.actual S' a ↔ es.foldl TrieEdit.promised S a
  | [], S, S', h, _ => fun a => (h a).symm
  | e :: es, S, S', h, hh => by
    have hSS : S = S' := funext fun a => propext (h a)
    subst hSS
    refine harmless_fold es _ _ (fun a => ?_) hh.2
    cases e with
    | remove p => exact Iff.rfl
    | insert p =>
      simp only [TrieEdit.promised, TrieEdit.actual]
      constructor
      · rintro (h | h)
        · exact .inl h
        · by_cases hb : BothHalves S p
          · exact .inl (hh.1 p rfl hb a h)
          · exact .inr ⟨h, hb⟩
      · rintro (h | h)
        · exact .inl h
        · exact .inr h.1

end SetNode
end

section
variable {α : Type} [LawfulIPFamily α]
open SetNode

/-- Any sequence of `Insert` and `Remove`, from the empty trie: no panic, and exactly the addresses of the same sequence
    on sets, where `Insert` does nothing when the set has addresses in both halves of the prefix. -/
theorem C81_history_exact (es : List (TrieEdit α)) (hv : ∀ e ∈ es, e.Valid) :
    ∃ t, SetNode.edits es .nil = some t ∧ ∀ a, (IPSet.mk t).has a ↔ es.foldl TrieEdit.actual (fun _ => False) a := by
  obtain ⟨t, e, i, m⟩ := edits_spec es hv (t := .nil) (S := fun _ => False) .nil fun a => by simp [Mem]
  exact ⟨t, e, fun a => by rw [IPSet.has_iff i, m]⟩

/-- Full statement: without `hh`, false (`C81_counterexample`); `C81_history_exact` says what happens then. -/
theorem C81_history_partial (es : List (TrieEdit α)) (hv : ∀ e ∈ es, e.Valid) (hh : Harmless (fun _ => False) es) :
    ∃ t, SetNode.edits es .nil = some t ∧ ∀ a, (IPSet.mk t).has a ↔ es.foldl TrieEdit.promised (fun _ => False) a := by
  obtain ⟨t, e, m⟩ := C81_history_exact es hv
  exact ⟨t, e, fun a => (m a).trans (harmless_fold es _ _ (fun _ => Iff.rfl) hh a)⟩

/-- The trie so made has the same shape as that of any set of the API with the same addresses: as many nodes and the
    same prefixes. -/
theorem C81_canonical (es : List (TrieEdit α)) (hv : ∀ e ∈ es, e.Valid) (t : SetNode α) (h : SetNode.edits es .nil = some t)
    (s : IPSet α) (hs : s.Reachable) (he : ∀ a, (IPSet.mk t).has a ↔ s.has a) :
    t.prefixes.map Prefix.network = s.trie.prefixes.map Prefix.network ∧ t.height = s.trie.height ∧
      t.numNodes = s.trie.numNodes := by
  obtain ⟨t', e, i, m⟩ := edits_spec es hv (t := .nil) (S := fun _ => False) .nil fun a => by simp [Mem]
  rw [h] at e; cases e
  have hE : Eqv t s.trie := i.canonical hs.inv fun x => by
    rw [← IPSet.has_iff (s := ⟨t⟩) i, ← hs.has_iff]; exact he x
  refine ⟨hE.prefixes i.prefixes_wf, hE.sizes.2, hE.sizes.1⟩

/-- `Remove` is `Difference` with the prefix, for every set of the API. -/
theorem C81_remove (s : IPSet α) (hs : s.Reachable) (p : Prefix α) (hp : p.WF) :
    ∃ t, removeKey p s.trie = some t ∧ ∀ a, (IPSet.mk t).has a ↔ (s.difference (.prefix p)).has a := by
  obtain ⟨t, e, i, m⟩ := removeKey_spec hp hs.inv
  refine ⟨t, e, fun a => ?_⟩
  rw [IPSet.has_iff i, C11_difference s (.prefix p) hs hp, m, C08_prefix p hp, hs.has_iff, inPrefix_iff hp]

/-- `Insert` is `Union` with the prefix, the very same trie, for every set of the API that does not have addresses in
    both halves of the prefix. -/
theorem C81_insert_partial (s : IPSet α) (hs : s.Reachable) (p : Prefix α) (hp : p.WF) (hb : ¬ BothHalves s.has p) :
    insertKey p s.trie = some (s.union (.prefix p)).trie :=
  (insertKey_eq p hp s.trie hs.inv).2 fun h => hb ((bothHalves_iff (fun _ => hs.has_iff) hp).mpr h)

/-- and nothing at all for the others -/
theorem C81_insert_lost (s : IPSet α) (hs : s.Reachable) (p : Prefix α) (hp : p.WF) (hb : BothHalves s.has p) :
    insertKey p s.trie = some s.trie :=
  (insertKey_eq p hp s.trie hs.inv).1 ((bothHalves_iff (fun _ => hs.has_iff) hp).mp hb)

end

/-- After 10.0.0.0/26 and 10.0.0.128/25, `Insert` of 10.0.0.0/24 does nothing: 10.0.0.64 is not in the set. -/
theorem C81_counterexample : ∃ (es : List (TrieEdit (BitVec 32))) (t : SetNode (BitVec 32)) (a : BitVec 32),
    (∀ e ∈ es, e.Valid) ∧ SetNode.edits es .nil = some t ∧ es.foldl TrieEdit.promised (fun _ => False) a ∧
      ¬ (IPSet.mk t).has a := by
  refine ⟨[.insert ⟨0x0a000000#32, 26⟩, .insert ⟨0x0a000080#32, 25⟩, .insert ⟨0x0a000000#32, 24⟩],
    (SetNode.edits [.insert ⟨0x0a000000#32, 26⟩, .insert ⟨0x0a000080#32, 25⟩, .insert ⟨0x0a000000#32, 24⟩] .nil).getD .nil,
    0x0a000040#32, ?_, by decide +kernel, ?_, ?_⟩
  · intro e he
    simp only [List.mem_cons, List.not_mem_nil, or_false] at he
    rcases he with rfl | rfl | rfl <;> (show _ ≤ _; decide)
  · refine Or.inr ?_
    show (0x0a000000#32).toNat / 2 ^ (32 - 24) = (0x0a000040#32).toNat / 2 ^ (32 - 24)
    decide
  · rw [IPSet.has]
    decide +kernel

/-- what the package's test "test remove one address" looks at (ipv4/setnode_test.go:317-325), and one in a deeper trie -/
example : (SetNode.edits [.insert ⟨0xcb007100#32, 24⟩, .remove ⟨0xcb0071e9#32, 32⟩] .nil).map (fun t => t.prefixes.length) = some 8 ∧
    (SetNode.edits [.insert ⟨0xc6336400#32, 25⟩, .insert ⟨0xcb007100#32, 25⟩, .insert ⟨0xcb007180#32, 25⟩,
      .remove ⟨0xcb007140#32, 26⟩] .nil).map (fun t => (t.prefixes, t.numNodes)) =
      some ([⟨0xc6336400#32, 25⟩, ⟨0xcb007100#32, 26⟩, ⟨0xcb007180#32, 25⟩], 3) := by
  decide +kernel

/-- and such histories are `Harmless`: the hypothesis of `C81_history_partial` is met -/
example : Harmless (fun _ => False) [TrieEdit.insert (⟨0xcb007100#32, 24⟩ : Prefix (BitVec 32)), .remove ⟨0xcb0071e9#32, 32⟩] := by
  refine ⟨fun p _ hb => ?_, fun p h => ?_, trivial⟩
  · obtain ⟨_, x, _, h, _⟩ := hb; exact h.elim
  · cases h

end Addrs

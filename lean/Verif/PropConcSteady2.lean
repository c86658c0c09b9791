import Verif.PropConcSteady
/-
  Property C36 for mutable sets whose members keep the same span.
-/
set_option linter.unusedSectionVars false
namespace Addrs
open GoWord LawfulGoWord

section
variable {α : Type} [LawfulGoWord α]

namespace SetNode
open Trie

/-- a prefix that covers all members is not longer than the root -/
theorem Inv.span_le {p : Prefix α} {d n h act l r} (hi : Inv (.node p d n h act l r : SetNode α)) {q : Prefix α}
    (hq : q.WF) (hc : ∀ x, Mem (.node p d n h act l r : SetNode α) x → Covers q x) : q.len ≤ p.len := by
  cases act with
  | true =>
    rw [hi.active.1] at hc
    exact (covers_le hq fun x hx => hc x (mem_fromPrefix.mpr hx)).1
  | false =>
    obtain ⟨e, _, ul, ur, hl, hr, _⟩ := hi.inactive
    rw [e] at hc
    obtain ⟨x, y, hx, hy, bx, by_⟩ := Inv.split hl hr ul ur
    exact len_le_of_split (hc x hx) (hc y hy) bx by_

end SetNode

open SetNode in
/-- what lies below the root is the root, nothing, or has a longer prefix -/
theorem Heap.Desc.longer {v : View α Empty} {p q : Ptr} (h : Desc v p q) {t : SetNode α} (d : Den v p t) (hi : Inv t) :
    q = p ∨ q = none ∨ ∃ P d n h a l r P' d' n' h' a' l' r', t = .node P d n h a l r ∧
      Den v q (.node P' d' n' h' a' l' r') ∧ Inv (.node P' d' n' h' a' l' r' : SetNode α) ∧ P.len < P'.len := by
  have child : ∀ {x : Ptr} {P d n h a l r u}, Inv (.node P d n h a l r : SetNode α) → (u = l ∨ u = r) → Den v x u →
      x = none ∨ ∃ P' d' n' h' a' l' r', u = .node P' d' n' h' a' l' r' ∧ Inv u ∧ P.len < P'.len := by
    intro x P d n h a l r u hi hu hd
    cases hd with
    | nil => exact .inl rfl
    | node hc dl dr =>
      cases a with
      | true =>
        have e := hi.active.1
        cases e
        rcases hu with hu | hu <;> cases hu
      | false =>
        obtain ⟨_, _, ul, ur, hl, hr, _⟩ := hi.inactive
        rcases hu with rfl | rfl
        · exact .inr ⟨_, _, _, _, _, _, _, rfl, hl, Sub.lt ul⟩
        · exact .inr ⟨_, _, _, _, _, _, _, rfl, hr, Sub.lt ur⟩
  have step : ∀ {a : Nat} {c : Cell α Empty} {x : Ptr}, v a = some c → (x = c.l ∨ x = c.r) →
      ((some a : Ptr) = p ∨ (some a : Ptr) = none ∨ ∃ P d n h b l r P' d' n' h' b' l' r', t = .node P d n h b l r ∧
        Den v (some a) (.node P' d' n' h' b' l' r') ∧ Inv (.node P' d' n' h' b' l' r' : SetNode α) ∧ P.len < P'.len) →
      x = none ∨ ∃ P d n h b l r P' d' n' h' b' l' r', t = .node P d n h b l r ∧
        Den v x (.node P' d' n' h' b' l' r') ∧ Inv (.node P' d' n' h' b' l' r' : SetNode α) ∧ P.len < P'.len := by
    intro a c x hc hx ih
    rcases ih with rfl | h | ⟨P, d, n, h, b, l, r, P', d', n', h', b', l', r', e1, e2, e3, e4⟩
    · obtain ⟨c', l, r, h1, h2, h3, e⟩ := d.some_inv
      rw [hc] at h1; cases h1
      subst e
      have hd : ∃ u, Den v x u ∧ (u = l ∨ u = r) := by
        rcases hx with rfl | rfl
        · exact ⟨_, h2, .inl rfl⟩
        · exact ⟨_, h3, .inr rfl⟩
      obtain ⟨u, hd, hu⟩ := hd
      rcases child hi hu hd with h | ⟨P', d', n', h', a', l', r', rfl, g1, g2⟩
      · exact .inl h
      · exact .inr ⟨_, _, _, _, _, _, _, _, _, _, _, _, _, _, rfl, hd, g1, g2⟩
    · cases h
    · obtain ⟨c', l2, r2, h1, h2, h3, e⟩ := e2.some_inv
      rw [hc] at h1; cases h1
      cases e
      have hd : ∃ u, Den v x u ∧ (u = l' ∨ u = r') := by
        rcases hx with rfl | rfl
        · exact ⟨_, h2, .inl rfl⟩
        · exact ⟨_, h3, .inr rfl⟩
      obtain ⟨u, hd, hu⟩ := hd
      rcases child e3 hu hd with h | ⟨P'', d'', n'', h'', a'', l'', r'', rfl, g1, g2⟩
      · exact .inl h
      · exact .inr ⟨_, _, _, _, _, _, _, _, _, _, _, _, _, _, e1, hd, g1, by omega⟩
  induction h with
  | nil => exact .inr (.inl rfl)
  | self => exact .inl rfl
  | left _ hc ih => exact .inr (step hc (.inl rfl) ih)
  | right _ hc ih => exact .inr (step hc (.inr rfl) ih)

end

section
variable {α σ : Type} [HeapFamily α] {F : Nat}

/-- every member of the set lies in `q` -/
def IPSet.In (S : IPSet α) (q : Prefix α) : Prop := ∀ x, S.has x → InPrefix q x

/-- the members of both sets have the same span: they lie in the same prefixes (so the smallest prefix that
    contains all the members is the same) -/
def IPSet.SameSpan (S S' : IPSet α) : Prop := ∀ q : Prefix α, q.WF → (S.In q ↔ S'.In q)

theorem IPSet.in_iff {S : IPSet α} (hS : S.Reachable) {q : Prefix α} (hq : q.WF) :
    S.In q ↔ ∀ x, SetNode.Mem S.trie x → Covers q x := by
  unfold IPSet.In
  constructor
  · intro h x hx; exact (inPrefix_iff hq).mp (h x (hS.has_iff.mpr hx))
  · intro h x hx; exact (inPrefix_iff hq).mpr (h x (hS.has_iff.mp hx))

/-- a set with the same span as the empty set is empty -/
theorem IPSet.SameSpan.nil {S S' : IPSet α} (hS : S.Reachable) (hS' : S'.Reachable) (hs : S.SameSpan S')
    (h : S'.trie = .nil) : S.trie = .nil := by
  apply Classical.byContradiction
  intro hn
  obtain ⟨x, hx⟩ := hS.inv.exists_mem hn
  have hw : 1 ≤ width α := width_pos
  have key : ∀ a : α, bit a 0 ≠ bit x 0 → False := by
    intro a ha
    have h1 : S'.In ⟨a, 1⟩ := (IPSet.in_iff hS' (q := ⟨a, 1⟩) hw).mpr (by rw [h]; exact fun x hx => (SetNode.mem_nil hx).elim)
    have h2 := (IPSet.in_iff hS (q := ⟨a, 1⟩) hw).mp ((hs ⟨a, 1⟩ hw).mpr h1) x hx
    exact ha (h2 0 (by show 0 < 1; omega))
  cases hb : bit x 0 with
  | false => exact key ones (by rw [hb, bit_ones hw]; simp)
  | true => exact key zero (by rw [hb, bit_zero]; simp)

/-- below the root of a set there is no other root of a set with the same span -/
theorem IPSet.SameSpan.root {S S' : IPSet α} (hS : S.Reachable) (hS' : S'.Reachable) (hs : S.SameSpan S')
    {v : View α Empty} {p q : Ptr} (h1 : Den v p S.trie) (h2 : Den v q S'.trie) (h : Heap.Desc v p q) : q = p := by
  rcases h.longer h1 hS.inv with h3 | rfl | ⟨P, d, n, h', a, l, r, P', d', n', h'', a', l', r', e1, e2, e3, e4⟩
  · exact h3
  · have e := hs.nil hS hS' h2.none_inv
    rw [e] at h1
    cases h1
    rfl
  · exfalso
    have e := h2.functional e2
    have hi := hS.inv
    have key : S.In P' := (hs P' e3.wf).mpr ((IPSet.in_iff hS' e3.wf).mpr (by rw [e]; exact fun x hx => e3.covers rfl hx))
    rw [IPSet.in_iff hS e3.wf, e1] at key
    rw [e1] at hi
    have := hi.span_le e3.wf key
    omega

/-- The span of the members of set `o` has been the same since time `t`. -/
def SetSteadySpan (s : SState α σ F) (o t : Nat) : Prop :=
  ∀ k k' ob ob' S S', t ≤ k → t ≤ k' → objAt s.log k o = some ob → objAt s.log k' o = some ob' →
    ob.Holds s.mem S → ob'.Holds s.mem S' → S.SameSpan S'

/-- Every `Insert` on set `o` that was called since time `t` has an argument that is an address, a prefix, a range
    or nil (not a `Set` or a `Set_`). -/
def PlainInserts (s : SState α σ F) (o t : Nat) : Prop :=
  ∀ b i c arg, t ≤ b → s.log[b]? = some (.start i c) → c.Inserts o arg → arg.Lit = true

theorem steady_root (hF : setBound α ≤ F) {s : SState α σ F} (h : s.Reach) {o t k k' : Nat}
    (hs : SetSteadySpan s o t) {ob ob' : Obj Empty} (hk : t ≤ k) (hk' : t ≤ k') (h1 : objAt s.log k o = some ob)
    (h2 : objAt s.log k' o = some ob') (hd : Heap.Desc s.mem ob.trie ob'.trie) : ob'.trie = ob.trie := by
  obtain ⟨S, a1⟩ := set_at hF h h1
  obtain ⟨S', b1⟩ := set_at hF h h2
  exact (hs k k' ob ob' S S' hk hk' h1 h2 a1 b1).root a1.2.1 b1.2.1 a1.1 b1.1 hd

/-- writes that are running after a quiet time were started after it -/
theorem Quiet.act_later (hF : setBound α ≤ F) {s : SState α σ F} (h : s.Reach) {o t : Nat}
    (hq : Quiet SCall.role s.log o t) {a m i : Nat} {c : SCall α σ} {κ : Bool} {e : Event Empty}
    (ha : s.log[a]? = some (.start i c)) (hr : SCall.role c = some (o, some κ)) (hm : At s.log m i e) (htm : t ≤ m) :
    t ≤ a := by
  have ok := setLib_ok (α := α) (σ := σ) hF
  apply Classical.byContradiction
  intro hn
  have hin : .start i c ∈ s.log.take t := List.mem_of_getElem? (i := a) (by rw [List.getElem?_take_of_lt (by omega)]; exact ha)
  obtain ⟨_, h2, h3⟩ := started_before ok h (at_split hm) (by intros; simp)
  have sub : ∀ e, e ∈ s.log.take t → e ∈ s.log.take m := by
    intro e he
    have : s.log.take t = (s.log.take m).take t := by rw [List.take_take, Nat.min_eq_left htm]
    rw [this] at he
    exact List.mem_of_mem_take he
  rcases hq i c κ hin hr with ⟨z, hz⟩ | ⟨o', q, hf⟩
  · exact h2 z (sub _ hz)
  · exact h3 o' q (sub _ hf)

/-- the old roots that a write can put in, if the span is steady: only those that it has read -/
theorem olds_steady (hF : setBound α ≤ F) {s : SState α σ F} (h : s.Reach) {o t b i : Nat} {c : SCall α σ}
    (hp : PlainInserts s o t) (hs : SetSteadySpan s o t) (htb : t ≤ b) (hb : s.log[b]? = some (.start i c)) {κ : Bool}
    (hr : SCall.role c = some (o, some κ)) {v : View α Empty} (hv : v ≤ s.mem) {tr : List (Event Empty)} {y : Ptr}
    (ho : SCall.olds c v tr o y) (hat : ∀ ob, .load o ob ∈ tr → ∃ k, t ≤ k ∧ objAt s.log k o = some ob)
    {ob' : Obj Empty} (hy : ∃ k, t ≤ k ∧ objAt s.log k o = some ob') (e : ob'.trie = y) :
    ∃ ob, .load o ob ∈ tr ∧ ob.trie = y := by
  cases c with
  | insert hd a l =>
    cases hd with
    | none => cases hr
    | some o' =>
      cases hr
      exact ho (hp b i _ a htb hb ⟨l, rfl⟩)
  | remove hd a l =>
    obtain ⟨ob, h1, h2⟩ := ho
    obtain ⟨k, hk, h3⟩ := hat ob h1
    obtain ⟨k', hk', h4⟩ := hy
    subst e
    exact ⟨ob, h1, (steady_root hF h hs hk hk' h3 h4 (h2.mono hv)).symm⟩
  | _ => exact ho.elim

/-- every root that is put in is new -/
theorem set_steady_anew (hF : setBound α ≤ F) {s : SState α σ F} {g : Ghost α Empty}
    (ex : Exec sval SCall.olds SCall.spec s g) {o t : Nat} (hq : Quiet SCall.role s.log o t)
    (hp : PlainInserts s o t) (hs : SetSteadySpan s o t) :
    ∀ (k i : Nat) (x y : Ptr), t ≤ k → At s.log k i (.swap o x y) → ∃ p, y = some p ∧ ¬ Seen (s.log.take k) (some p) := by
  have ok := setLib_ok (α := α) (σ := σ) hF
  intro k
  induction k using Nat.strongRecOn with
  | ind k ih =>
  intro i x y htk hk
  obtain ⟨c, κ, k1, k2, ob1, ob2, a2, a', z, v, F⟩ := swap_facts ok setLin ex hk
  have hlog := ex.inv.entryOk
  have hst := start_take ok ex hk F.start
  obtain ⟨b, hb⟩ := List.mem_iff_getElem?.mp F.start
  have htb : t ≤ b := hq.later ok ex.reach hb F.role_ hk htk
  rcases ex.inv.roots _ _ _ (at_split hk) i o x y c rfl hst with h | h
  · exact h
  · exfalso
    have find : ∀ ob, .load o ob ∈ own i (s.log.take k) → ∃ l, l < k ∧ At s.log l i (.load o ob) := by
      intro ob h1
      rw [mem_own] at h1
      obtain ⟨l, hl⟩ := List.mem_iff_getElem?.mp h1
      have hlk : l < k := by
        have := (List.getElem?_eq_some_iff.mp hl).1
        rw [List.length_take] at this; omega
      exact ⟨l, hlk, by unfold At; rw [← hl, List.getElem?_take_of_lt hlk]⟩
    have later : ∀ l e, At s.log l i e → b < l := fun l e hl => start_first ok ex.reach hb hl rfl (by intros; simp)
    obtain ⟨ob, h1, h2⟩ := olds_steady hF ex.reach hp hs htb hb F.role_ ex.inv.mem.fz_le h
      (fun ob h1 => by
        obtain ⟨l, _, hl⟩ := find ob h1
        exact ⟨l, by have := later l _ hl; omega, objAt_load hlog hl⟩)
      ⟨k + 1, by omega, F.next⟩ rfl
    obtain ⟨l, hlk, hl⟩ := find ob h1
    have hbl := later l _ hl
    have h1l := F.first l _ hl
    have hneq : y ≠ x := F.ne
    rcases last_swap hlog (Nat.le_of_lt hlk) (objAt_load hlog hl) with h3 | ⟨p, j, x', y', ob', h3, h4, h5, h6, h7, _⟩
    · rw [F.cur] at h3
      cases h3
      exact hneq (h2.symm.trans F.old)
    · rw [F.cur] at h6
      cases h6
      have hy' : y' = x := h7.symm.trans F.old
      subst hy'
      obtain ⟨q, hq, hns⟩ := ih p h4 j x' _ (by omega) h5
      apply hns
      rw [← hq, ← F.old]
      exact objAt_seen (by omega) (objAt_load hlog F.at1)

/-- Full statement: `SetAtomic s o` for every reachable `s`.  It is false of the code.  It holds, whatever the
    interleaving of calls to `Insert`, `Remove` and readers, if the smallest prefix that contains all the members has
    been the same since a time `t` at which no write was in progress, no `Insert` overlapped a `Remove` before, and the
    arguments of `Insert` since then are addresses, prefixes and ranges. -/
theorem C36_set_steady_partial (hF : setBound α ≤ F) {s : SState α σ F} (h : s.Reach) {o t : Nat}
    (ho : o < s.objs.length) (hq : Quiet SCall.role s.log o t) (hd : DisciplinedUntil SCall.role s.log o t)
    (hp : PlainInserts s o t) (hs : SetSteadySpan s o t) : SetAtomic s o := by
  have ok := setLib_ok (α := α) (σ := σ) hF
  refine linearizable_tame ok setLin h ho fun g ex => ⟨hd, set_steady_anew hF ex hq hp hs, ?_⟩
  intro i c κ ob1 ob2 a1 a2 k1 k2 hst hr htk hkk h1 h2 hfr ha1 ha2
  have hlog := ex.inv.entryOk
  have e1 := objAt_load hlog h1
  have e2 := objAt_load hlog h2
  obtain ⟨b, hb⟩ := List.mem_iff_getElem?.mp hst
  have htb : t ≤ b := hq.act_later hF h hb hr h1 htk
  obtain ⟨ob, g1, g2⟩ := olds_steady hF h hp hs htb hb hr ex.inv.mem.fz_le hfr
    (fun ob g1 => by cases List.mem_singleton.mp g1; exact ⟨k2, by omega, e2⟩) ⟨k1, htk, e1⟩ rfl
  cases List.mem_singleton.mp g1
  obtain ⟨ob', e3, e4⟩ := objAt_later hlog (Nat.le_of_lt hkk) e1
  rw [e2] at e3
  cases e3
  have : ob1 = ob2 := by cases ob1; cases ob2; simp only at g2 e4; rw [g2, e4]
  subst this
  exact (setLin (F := F) (σ := σ)).abs_fun ha1 ha2

/-- A set that had, at a time `t` at which no write was in progress, members `x` and `y` and only members in `P`, the
    smallest prefix that contains `x` and `y`: if since then nobody has called `Remove` with an argument that has `x` or
    `y`, and `Insert` has only been called with addresses, prefixes and ranges, all in `P`, then writes, however they
    overlap, take effect atomically or panic. -/
theorem C36_set_pinned_partial (hF : setBound α ≤ F) {s : SState α σ F} (h : s.Reach) {o t : Nat} {ob : Obj Empty}
    {S : IPSet α} {P : Prefix α} {x y : α}
    (hP : ∀ q : Prefix α, q.WF → InPrefix q x → InPrefix q y → ∀ z, InPrefix P z → InPrefix q z)
    (hq : Quiet SCall.role s.log o t) (hd : DisciplinedUntil SCall.role s.log o t) (h1 : objAt s.log t o = some ob)
    (h2 : ob.Holds s.mem S) (hx : S.has x) (hy : S.has y) (hin : S.In P)
    (hi : ∀ b i c arg, t ≤ b → s.log[b]? = some (.start i c) → c.Inserts o arg →
      arg.Lit = true ∧ ∀ A, arg.During s b s.log.length A → A.In P)
    (hr : ∀ b i c arg A, t ≤ b → s.log[b]? = some (.start i c) → c.Removes o arg →
      arg.During s b s.log.length A → ¬ A.has x ∧ ¬ A.has y) : SetAtomic s o := by
  obtain ⟨g, inv⟩ := h.inv (setLib_ok hF)
  have span : ∀ k ob' S', t ≤ k → objAt s.log k o = some ob' → ob'.Holds s.mem S' → ∀ q : Prefix α, q.WF →
      (S'.In q ↔ ∀ z, InPrefix P z → InPrefix q z) := by
    intro k ob' S' hk h5 h6 q hq'
    have keep := set_keeps hF h (n := s.log.length + k) hq
      (R := fun m => m x ∧ m y ∧ ∀ z, m z → InPrefix P z)
      (fun b i c arg A m g1 g2 hs ha hm => ⟨fun hc => ⟨.inl hm.1, .inl hm.2.1, fun z hz =>
          hz.elim (hm.2.2 z) ((hi b i c arg g1 hs hc).2 A ha z)⟩, fun hc =>
          ⟨⟨hm.1, (hr b i c arg A g1 hs hc ha).1⟩, ⟨hm.2.1, (hr b i c arg A g1 hs hc ha).2⟩, fun z hz => hm.2.2 z hz.1⟩⟩)
      (show k ≤ s.log.length + k by omega) (Nat.le_refl t) hk h1 h2 ⟨hx, hy, hin⟩ h5 h6
    exact ⟨fun hh => hP q hq' (hh x keep.1) (hh y keep.2.1), fun hh z hz => hh z (keep.2.2 z hz)⟩
  refine C36_set_steady_partial hF h ?_ hq hd (fun b i c arg g1 g2 g3 => (hi b i c arg g1 g2 g3).1) ?_
  · rcases Nat.le_total t s.log.length with hle | hle
    · obtain ⟨ob', h5, _⟩ := objAt_later inv.entryOk hle h1
      rw [inv.objAt_end] at h5
      exact (List.getElem?_eq_some_iff.mp h5).1
    · have h5 := h1
      unfold objAt at h5
      rw [List.take_of_length_le hle, inv.replayed] at h5
      exact (List.getElem?_eq_some_iff.mp h5).1
  · intro k k' ob ob' T T' g1 g2 g3 g4 g5 g6 q hq'
    rw [span k ob T g1 g3 g5 q hq', span k' ob' T' g2 g4 g6 q hq']

/-- The case of all addresses: a set with a member in the lower half and a member in the upper half of all addresses
    that nobody removes. -/
theorem C36_set_halves_partial (hF : setBound α ≤ F) {s : SState α σ F} (h : s.Reach) {o t : Nat} {ob : Obj Empty}
    {S : IPSet α} {x y : α} (hxl : toNat x < 2 ^ (width α - 1)) (hyu : 2 ^ (width α - 1) ≤ toNat y)
    (hq : Quiet SCall.role s.log o t) (hd : DisciplinedUntil SCall.role s.log o t) (h1 : objAt s.log t o = some ob)
    (h2 : ob.Holds s.mem S) (hx : S.has x) (hy : S.has y)
    (hi : ∀ b i c arg, t ≤ b → s.log[b]? = some (.start i c) → c.Inserts o arg → arg.Lit = true)
    (hr : ∀ b i c arg A, t ≤ b → s.log[b]? = some (.start i c) → c.Removes o arg →
      arg.During s b s.log.length A → ¬ A.has x ∧ ¬ A.has y) : SetAtomic s o := by
  have h0 : ∀ z : α, InPrefix ⟨(zero : α), 0⟩ z := fun z =>
    (inPrefix_iff (p := ⟨(zero : α), 0⟩) (Nat.zero_le _)).mpr fun i hi => absurd hi (by show ¬ i < 0; omega)
  refine C36_set_pinned_partial hF h (P := ⟨zero, 0⟩) ?_ hq hd h1 h2 hx hy (fun z _ => h0 z)
    (fun b i c arg g1 g2 g3 => ⟨hi b i c arg g1 g2 g3, fun _ _ z _ => h0 z⟩) hr
  intro q hq' qx qy z _
  have hl : q.len = 0 := by
    apply Classical.byContradiction
    intro hn
    have hpos : 0 < 2 ^ (width α - q.len) := Nat.two_pow_pos _
    have e : toNat x / 2 ^ (width α - q.len) = toNat y / 2 ^ (width α - q.len) := qx.symm.trans qy
    have hw : (2 : Nat) ^ (width α - 1) = 2 ^ (q.len - 1) * 2 ^ (width α - q.len) := by
      rw [← Nat.pow_add]
      unfold Prefix.WF at hq'
      congr 1; omega
    have a1 : toNat x / 2 ^ (width α - q.len) < 2 ^ (q.len - 1) := by
      rw [Nat.div_lt_iff_lt_mul hpos, ← hw]; exact hxl
    have a2 : 2 ^ (q.len - 1) ≤ toNat y / 2 ^ (width α - q.len) := by
      rw [Nat.le_div_iff_mul_le hpos, ← hw]; exact hyu
    omega
  exact (inPrefix_iff hq').mpr fun i hi => absurd hi (by omega)

end

namespace SetSteady
open Bad (a1 a2 SL)

/-- 1.0.0.1 -/
def lo : SetArg (BitVec 32) := .address 0x01000001#32
/-- 129.0.0.1 -/
def hi : SetArg (BitVec 32) := .address 0x81000001#32

/-- `lo` and `hi` are inserted into a new set.  One goroutine calls `Insert(a2)` and has read the root once; another one
    inserts `a1`; the first reads the root again; the other removes `a1`; the first goes on, and panics (in `Bad.sback`,
    without the other members, it brings back `a1`).  `Contains(a1)` is false.
    Then `a1` is inserted again; `Insert(a2)` reads the root once, `a1` is removed, and `Insert` goes on and panics. -/
def run : List (Sched SL) :=
  [.call .new_, .finish 0, .call (.insert (some 0) lo false), .finish 1, .call (.insert (some 0) hi false), .finish 2,
   .call (.insert (some 0) a2 false), .step 3, .call (.insert (some 0) a1 false), .finish 4,
   .step 3, .call (.remove (some 0) a1 false), .finish 5, .finish 3, .call (.contains (.obj (some 0)) a1), .finish 6,
   .call (.insert (some 0) a1 false), .finish 7, .call (.insert (some 0) a2 false), .step 8,
   .call (.remove (some 0) a1 false), .finish 9, .finish 8]

def log : List (Entry Empty SL.Call SL.Val) :=
  [.start 0 .new_, .act 0 (.made 0 ⟨none, .nil⟩), .done 0 (.handle 0),
   .start 1 (.insert (some 0) lo false), .act 1 (.load 0 ⟨none, .nil⟩), .act 1 (.load 0 ⟨none, .nil⟩),
   .act 1 (.swap 0 none (some 0)), .done 1 .unit,
   .start 2 (.insert (some 0) hi false), .act 2 (.load 0 ⟨some 0, .nil⟩), .act 2 (.load 0 ⟨some 0, .nil⟩),
   .act 2 (.swap 0 (some 0) (some 2)), .done 2 .unit,
   .start 3 (.insert (some 0) a2 false), .act 3 (.load 0 ⟨some 2, .nil⟩),
   .start 4 (.insert (some 0) a1 false), .act 4 (.load 0 ⟨some 2, .nil⟩), .act 4 (.load 0 ⟨some 2, .nil⟩),
   .act 4 (.swap 0 (some 2) (some 5)), .done 4 .unit, .act 3 (.load 0 ⟨some 5, .nil⟩),
   .start 5 (.remove (some 0) a1 false), .act 5 (.load 0 ⟨some 5, .nil⟩), .act 5 (.load 0 ⟨some 5, .nil⟩),
   .act 5 (.swap 0 (some 5) (some 7)), .done 5 .unit, .fail 3 0 (some 2),
   .start 6 (.contains (.obj (some 0)) a1), .act 6 (.load 0 ⟨some 7, .nil⟩), .done 6 (.bool false),
   .start 7 (.insert (some 0) a1 false), .act 7 (.load 0 ⟨some 7, .nil⟩), .act 7 (.load 0 ⟨some 7, .nil⟩),
   .act 7 (.swap 0 (some 7) (some 15)), .done 7 .unit,
   .start 8 (.insert (some 0) a2 false), .act 8 (.load 0 ⟨some 15, .nil⟩),
   .start 9 (.remove (some 0) a1 false), .act 9 (.load 0 ⟨some 15, .nil⟩), .act 9 (.load 0 ⟨some 15, .nil⟩),
   .act 9 (.swap 0 (some 15) (some 17)), .done 9 .unit, .act 8 (.load 0 ⟨some 17, .nil⟩), .fail 8 0 (some 15)]

set_option maxRecDepth 100000 in
theorem run_ok : (exec State.init run).isSome := rfl
set_option maxRecDepth 100000 in
theorem run_log : (final run run_ok).log = log := rfl

theorem run_reach : (final run run_ok).Reach := by
  refine final_reach run_ok ?_
  intro c hc
  simp only [run, List.mem_cons, reduceCtorEq, List.not_mem_nil, or_false, false_or] at hc
  rcases hc with h | h | h | h | h | h | h | h | h | h <;> cases h
  · exact ⟨trivial, rfl⟩
  · exact ⟨⟨by simp, trivial⟩, rfl⟩
  · exact ⟨⟨by simp, trivial⟩, rfl⟩
  · exact ⟨⟨by simp, trivial⟩, rfl⟩
  · exact ⟨⟨by simp, trivial⟩, rfl⟩
  · exact ⟨⟨by simp, trivial⟩, rfl⟩
  · exact ⟨trivial, rfl⟩
  · exact ⟨⟨by simp, trivial⟩, rfl⟩
  · exact ⟨⟨by simp, trivial⟩, rfl⟩
  · exact ⟨⟨by simp, trivial⟩, rfl⟩

/-- after the first two insertions no write is in progress -/
theorem run_quiet : Quiet SCall.role (final run run_ok).log 0 13 := by
  intro i c κ h hr
  rw [run_log] at h ⊢
  simp only [log, List.take, List.mem_cons, reduceCtorEq, List.not_mem_nil, or_false, false_or] at h
  rcases h with h | h | h <;> cases h
  · cases hr
  · exact Or.inl ⟨.unit, by simp [log]⟩
  · exact Or.inl ⟨.unit, by simp [log]⟩

theorem start_uniq' {i : Nat} {c c' : SL.Call} (h : .start i c ∈ log) (h' : .start i c' ∈ log) : c = c' := by
  obtain ⟨g, inv⟩ := run_reach.inv (setLib_ok (by decide))
  rw [← run_log] at h h'
  exact inv.start_uniq i c c' h h'

/-- the first insertions were alone -/
theorem run_disc : DisciplinedUntil SCall.role (final run run_ok).log 0 13 := by
  intro i j ci cj κ k p l ob x y e hji hk hkp hpl h1 h2 h3 hsi hsj hr
  rw [run_log] at h1 h2 h3 hsi hsj
  unfold At at h1 h2 h3
  have hi12 : i = 1 ∨ i = 2 := by
    have : .act i (.load 0 ob) ∈ log.take 13 := List.mem_of_getElem? (i := k) (by rw [List.getElem?_take_of_lt hk]; exact h1)
    simp [log] at this
    omega
  have hl : l < 13 := by
    apply Nat.lt_of_not_le
    intro hl
    have : .act i e ∈ log.drop 13 := by
      refine List.mem_of_getElem? (i := l - 13) ?_
      rw [List.getElem?_drop, Nat.add_sub_cancel' hl]; exact h3
    rcases hi12 with rfl | rfl <;> simp [log] at this
  have hj12 : j = 1 ∨ j = 2 := by
    have : .act j (.swap 0 x y) ∈ log.take 13 := List.mem_of_getElem? (i := p) (by
      rw [List.getElem?_take_of_lt (by omega)]; exact h2)
    simp [log] at this
    omega
  have hci : SCall.role ci = some (0, some false) := by
    rcases hi12 with rfl | rfl
    · cases start_uniq' hsi (c' := .insert (some 0) lo false) (by simp [log]); rfl
    · cases start_uniq' hsi (c' := .insert (some 0) hi false) (by simp [log]); rfl
  have hcj : SCall.role cj = some (0, some false) := by
    rcases hj12 with rfl | rfl
    · cases start_uniq' hsj (c' := .insert (some 0) lo false) (by simp [log]); rfl
    · cases start_uniq' hsj (c' := .insert (some 0) hi false) (by simp [log]); rfl
  rw [hcj, ← hci, hr]

/-- the nodes of the set with the first two members -/
def t0 : SetNode (BitVec 32) :=
  .node ⟨0#32, 0⟩ none 2 2 false (.node ⟨0x01000001#32, 32⟩ none 1 1 true .nil .nil)
    (.node ⟨0x81000001#32, 32⟩ none 1 1 true .nil .nil)

set_option maxRecDepth 100000 in
theorem run_den : Den (final run run_ok).mem (some 2) t0 :=
  .node (c := ⟨⟨0#32, 0⟩, none, 2, 2, false, some 0, some 1⟩) rfl
    (.node (c := ⟨⟨0x01000001#32, 32⟩, none, 1, 1, true, none, none⟩) rfl .nil .nil)
    (.node (c := ⟨⟨0x81000001#32, 32⟩, none, 1, 1, true, none, none⟩) rfl .nil .nil)

theorem run_start {i : Nat} {c : SL.Call} (h : .start i c ∈ (final run run_ok).log) :
    c = .new_ ∨ c = .insert (some 0) lo false ∨ c = .insert (some 0) hi false ∨ c = .insert (some 0) a2 false ∨
      c = .insert (some 0) a1 false ∨ c = .remove (some 0) a1 false ∨ c = .contains (.obj (some 0)) a1 := by
  rw [run_log] at h
  simp only [log, List.mem_cons, reduceCtorEq, List.not_mem_nil, or_false, false_or] at h
  rcases h with h | h | h | h | h | h | h | h | h | h <;> cases h <;> repeat (first | exact rfl | exact Or.inl rfl | apply Or.inr)

/-- the hypotheses are met by an execution in which `Remove` and `Insert` interfere with each other -/
example : SetAtomic (final run run_ok) 0 := by
  have h1 : objAt (final run run_ok).log 13 0 = some ⟨some 2, .nil⟩ := by rw [run_log]; rfl
  obtain ⟨S, hS⟩ := set_at (by decide) run_reach h1
  have e : S.trie = t0 := hS.1.functional run_den
  refine C36_set_halves_partial (by decide) run_reach (t := 13) (x := 0x01000001#32) (y := 0x81000001#32) (by decide)
    (by decide) run_quiet run_disc h1 hS ?_ ?_ ?_ ?_
  · rw [hS.2.1.has_iff, e]
    exact .inr (.inl (.inl ⟨rfl, Covers.self _⟩))
  · rw [hS.2.1.has_iff, e]
    exact .inr (.inr (.inl ⟨rfl, Covers.self _⟩))
  · rintro b i c arg hb hs ⟨l, rfl⟩
    rcases run_start (List.mem_of_getElem? hs) with h | h | h | h | h | h | h <;> cases h <;> rfl
  · rintro b i c arg A hb hs ⟨l, rfl⟩ hA
    rcases run_start (List.mem_of_getElem? hs) with h | h | h | h | h | h | h <;> cases h
    cases hA
    exact ⟨fun h => absurd ((C08_address _ _).mp h) (by decide), fun h => absurd ((C08_address _ _).mp h) (by decide)⟩

/-- they do -/
example : ¬ Disciplined SCall.role (final run run_ok).log 0 := by
  intro h
  have := h 8 9 (.insert (some 0) a2 false) (.remove (some 0) a1 false) false
    ⟨by decide, 36, 40, 42, _, _, _, _, by decide, by decide, by rw [run_log]; rfl, by rw [run_log]; rfl,
      by rw [run_log]; rfl⟩ (List.mem_of_getElem? (i := 35) (by rw [run_log]; rfl))
    (List.mem_of_getElem? (i := 37) (by rw [run_log]; rfl)) rfl
  cases this

end SetSteady
end Addrs

import Verif.PropReenter
/-
  Sequential programs: from the program logic of Verif/Conc.lean to `Prog.run`.
-/
set_option linter.unusedSectionVars false
namespace Addrs
open GoWord

/-- The accesses `tr` to the mutable objects, one after the other without interference, lead from `objs` to
    `objs'`. -/
def Plays {D : Type} (objs : List (Obj D)) : List (Event D) → List (Obj D) → Prop
  | [], objs' => objs' = objs
  | .load o ob :: tr, objs' => objs[o]? = some ob ∧ Plays objs tr objs'
  | .swap o old new :: tr, objs' => ∃ ob, objs[o]? = some ob ∧ ob.trie = old ∧ Plays (objs.set o { ob with trie := new }) tr objs'
  | .made o ob :: tr, objs' => o = objs.length ∧ Plays (objs ++ [ob]) tr objs'

theorem View.ofHeap_set {α D : Type} {h : List (Cell α D)} {p : Nat} {c : Cell α D} (hp : p < h.length) :
    View.ofHeap (h.set p c) = (View.ofHeap h).set p c := by
  funext n
  simp only [View.ofHeap, View.set]
  by_cases e : n = p
  · subst e; simp [hp]
  · rw [List.getElem?_set_ne (fun h => e h.symm)]; simp [e]

theorem View.ofHeap_push {α D : Type} {h : List (Cell α D)} {c : Cell α D} :
    View.ofHeap (h ++ [c]) = (View.ofHeap h).set h.length c := by
  funext n
  simp only [View.ofHeap, View.set]
  by_cases e : n = h.length
  · subst e; simp
  · simp only [e, if_false]
    rcases Nat.lt_or_ge n h.length with hl | hl
    · rw [List.getElem?_append_left hl]
    · rw [List.getElem?_eq_none (by simp; omega), List.getElem?_eq_none (by omega)]

namespace Prog
variable {α D β : Type} {good : View α D → Obj D → Prop} {fr : OldRoots α D}

/-- Code that satisfies its specification returns, if it runs alone.  It relies on the nodes `v` only, and on
    no other node that existed before. -/
theorem run_cwp (mono : ∀ {v v' ob}, v ≤ v' → good v ob → good v' ob) {Q : List (Event D) → β → View α D → Prop} (P : Prog α D β) :
    ∀ {v base : View α D} {W : Nat → Prop} {n : Nat → Prop} {tr : List (Event D)} {m : Mem α D},
    cwp good fr Q P v base W n tr → v ≤ m.nodes → (∀ o, n o → o < m.objs.length) → base ≤ v → (∀ a, W a → base a = none) →
    (∀ ob, ob ∈ m.objs → good base ob) →
    (∀ o ob, .load o ob ∈ tr → ∃ ob', m.objs[o]? = some ob' ∧ ob'.eq = ob.eq ∧
      ((∀ o' x y, .swap o' x y ∉ tr) → ob' = ob)) →
    ∃ evs b v' m', P.run m = (.ret b, m') ∧ Q (tr ++ evs) b v' ∧ Plays m.objs evs m'.objs ∧ base ≤ v' ∧
      (∀ ob, ob ∈ m'.objs → good v' ob) ∧ v' ≤ m'.nodes ∧ m.heap.length ≤ m'.heap.length ∧
      ∀ a, a < m.heap.length → v a = none → v' a = none := by
  induction P with
  | ret b =>
    intro v base W n tr m h hv hn hb hW hg hl
    exact ⟨[], b, v, m, rfl, by rwa [List.append_nil], rfl, hb, fun ob ho => mono hb (hg ob ho), hv, Nat.le_refl _, fun _ _ h => h⟩
  | panic => intro v base W n tr m h; exact h.elim
  | stuck => intro v base W n tr m h; exact h.elim
  | alloc c k ih =>
    intro v base W n tr m h hv hn hb hW hg hl
    have hnone : m.nodes m.heap.length = none := by simp [View.ofHeap]
    have hvn : v m.heap.length = none := by
      cases e : v m.heap.length with
      | none => rfl
      | some c => have := hv _ _ e; rw [hnone] at this; cases this
    have h' := h m.heap.length hvn
    have hbn : base m.heap.length = none := by
      cases e : base m.heap.length with
      | none => rfl
      | some c => have := hb _ _ e; rw [hvn] at this; cases this
    obtain ⟨evs, b, v', m', h1, h2, h3, h4, h5, h6, h7, h8⟩ := ih m.heap.length (m := { m with heap := m.heap ++ [c] }) h'
      (by
        show _ ≤ View.ofHeap (m.heap ++ [c])
        rw [View.ofHeap_push]
        intro a d e
        unfold View.set at e ⊢
        split
        · next e' => rw [if_pos e'] at e; exact e
        · next e' => rw [if_neg e'] at e; exact hv a d e) hn
      (fun a d e => by
        unfold View.set
        split
        · next e' => subst e'; rw [hbn] at e; cases e
        · exact hb a d e)
      (fun a ha => ha.elim (fun e => e ▸ hbn) (hW a)) hg hl
    simp only [List.length_append, List.length_cons, List.length_nil] at h7 h8
    refine ⟨evs, b, v', m', h1, h2, h3, h4, h5, h6, by omega, fun a ha hva => h8 a (by omega) ?_⟩
    rw [View.set_ne _ _ (by omega)]; exact hva
  | read p k ih =>
    intro v base W n tr m h hv hn hb hW hg hl
    obtain ⟨c, hc, h⟩ := h
    obtain ⟨evs, b, v', m', h1, h2⟩ := ih c h hv hn hb hW hg hl
    refine ⟨evs, b, v', m', ?_, h2⟩
    have hc' : m.heap[p]? = some c := hv _ _ hc
    simp only [run, hc', h1]
  | write p c k ih =>
    intro v base W n tr m h hv hn hb hW hg hl
    obtain ⟨hw, ⟨c0, hc⟩, h⟩ := h
    have hp : p < m.heap.length := (List.getElem?_eq_some_iff.mp (hv _ _ hc : m.heap[p]? = some c0)).1
    obtain ⟨evs, b, v', m', h1, h2, h3, h4, h5, h6, h7, h8⟩ := ih (m := { m with heap := m.heap.set p c }) h
      (by
        show _ ≤ View.ofHeap (m.heap.set p c)
        rw [View.ofHeap_set hp]
        intro a d e
        unfold View.set at e ⊢
        split
        · next e' => rw [if_pos e'] at e; exact e
        · next e' => rw [if_neg e'] at e; exact hv a d e) hn
      (fun a d e => by
        unfold View.set
        split
        · next e' => subst e'; rw [hW _ hw] at e; cases e
        · exact hb a d e)
      hW hg hl
    simp only [List.length_set] at h7 h8
    refine ⟨evs, b, v', m', ?_, h2, h3, h4, h5, h6, h7, fun a ha hva => h8 a ha ?_⟩
    · simp only [run, hp, if_true, h1]
    · unfold View.set
      split
      · next e => subst e; rw [hc] at hva; cases hva
      · exact hva
  | load o k ih =>
    intro v base W n tr m h hv hn hb hW hg hl
    obtain ⟨ho, h⟩ := h
    have hlt : o < m.objs.length := hn o ho
    have e : m.objs[o]? = some m.objs[o] := List.getElem?_eq_getElem hlt
    have h' := h v base m.objs[o] (fun _ _ h => h) (fun _ _ h => h) ⟨hb, fun _ _ h => h⟩ (mono hb (hg _ (List.getElem_mem hlt)))
      (fun ob' hm => by
        obtain ⟨ob'', e1, e2, _⟩ := hl o ob' hm
        rw [e] at e1; cases e1; exact e2.symm)
    obtain ⟨evs, b, v', m', h1, h2, h3, h4⟩ := ih m.objs[o] h' hv hn hb hW hg (by
      intro o' ob' hm
      rcases List.mem_append.mp hm with hm | hm
      · obtain ⟨ob'', e1, e2, e3⟩ := hl o' ob' hm
        exact ⟨ob'', e1, e2, fun hs => e3 fun o' x y hm => hs o' x y (List.mem_append_left _ hm)⟩
      · simp only [List.mem_singleton, Event.load.injEq] at hm
        obtain ⟨rfl, rfl⟩ := hm
        exact ⟨_, e, rfl, fun _ => rfl⟩)
    refine ⟨.load o m.objs[o] :: evs, b, v', m', ?_, by rwa [List.append_assoc] at h2, ⟨e, h3⟩, h4⟩
    simp only [run, e, h1]
  | cas o old new k ih =>
    intro v base W n tr m h hv hn hb hW hg hl
    obtain ⟨ho, ⟨ob, hm, ht, hgood⟩, hsw, _, _, h⟩ := h
    obtain ⟨ob', e1, e2, e3⟩ := hl o ob hm
    have := e3 hsw
    subst this
    have hlt : o < m.objs.length := hn o ho
    have h' := h v (fun _ _ h => h)
    obtain ⟨evs, b, v', m', h1, h2, h3, h4, h5⟩ := ih true (m := { m with objs := m.objs.set o { ob' with trie := new } }) h' hv
      (by simpa using hn) (fun _ _ h => h) (fun _ h => h.elim)
      (fun x hx => by
        rcases List.mem_or_eq_of_mem_set hx with hx | rfl
        · exact mono hb (hg _ hx)
        · exact hgood)
      (by
        intro o' x hx
        rcases List.mem_append.mp hx with hx | hx
        · obtain ⟨y, f1, f2, f3⟩ := hl o' x hx
          by_cases ee : o' = o
          · subst ee
            refine ⟨{ ob' with trie := new }, by simp [hlt], ?_, ?_⟩
            · rw [e1] at f1; cases f1; exact f2
            · intro hs; exact (hs o' old new (List.mem_append_right _ (List.mem_singleton_self _))).elim
          · refine ⟨y, ?_, f2, fun hs => (hs o old new (List.mem_append_right _ (List.mem_singleton_self _))).elim⟩
            show (m.objs.set o _)[o']? = _
            rw [List.getElem?_set_ne (fun h => ee h.symm)]; exact f1
        · simp at hx)
    refine ⟨.swap o old new :: evs, b, v', m', ?_, by rwa [List.append_assoc] at h2, ⟨ob', e1, ht, h3⟩, ?_, h5⟩
    · simp only [run, e1, ht, if_true, h1]
    · exact View.le_trans hb h4
  | newObj ob k ih =>
    intro v base W n tr m h hv hn hb hW hg hl
    obtain ⟨hgood, h⟩ := h
    have h' := h v m.objs.length (fun _ _ h => h) fun h => Nat.lt_irrefl _ (hn _ h)
    obtain ⟨evs, b, v', m', h1, h2, h3, h4, h5⟩ := ih m.objs.length (m := { m with objs := m.objs ++ [ob] }) h' hv
      (by
        rintro x (rfl | hx)
        · simp
        · have := hn x hx; simp; omega) (fun _ _ h => h) (fun _ h => h.elim)
      (fun x hx => by
        rcases List.mem_append.mp hx with hx | hx
        · exact mono hb (hg _ hx)
        · rw [List.mem_singleton.mp hx]; exact hgood)
      (by
        intro o' x hx
        rcases List.mem_append.mp hx with hx | hx
        · obtain ⟨y, f1, f2, f3⟩ := hl o' x hx
          refine ⟨y, ?_, f2, fun hs => f3 fun o' x y hm => hs o' x y (List.mem_append_left _ hm)⟩
          show (m.objs ++ [ob])[o']? = _
          rw [List.getElem?_append_left (List.getElem?_eq_some_iff.mp f1).1]; exact f1
        · simp at hx)
    exact ⟨.made m.objs.length ob :: evs, b, v', m', h1, by rwa [List.append_assoc] at h2, ⟨rfl, h3⟩, View.le_trans hb h4, h5⟩

end Prog

/-- what somebody can see of the memory: some of the nodes, and the mutable objects -/
structure Sight (α D : Type) where
  nodes : View α D
  objs : List (Obj D)

/-- all of the memory -/
def Mem.sight {α D : Type} (m : Mem α D) : Sight α D := ⟨m.nodes, m.objs⟩
/-- the memory without the nodes of `H` -/
def Mem.without {α D : Type} (m : Mem α D) (H : List Nat) : Sight α D := ⟨Heap.hide H m.nodes, m.objs⟩

/-- A call that can be made returns, if it runs alone, and does what is specified.  It does not rely on the nodes
    of `H` if its arguments do not. -/
theorem LibOk.run {α D : Type} {L : Lib α D} {good gval : View α D → Obj D → Prop} {fr : L.Call → OldRoots α D}
    {Q : L.Call → List (Event D) → L.Val → View α D → Prop} (ok : LibOk L good gval fr Q) (c : L.Call) (hc : L.pre c)
    {m : Mem α D} {H : List Nat} (hH : ∀ k ∈ H, k < m.heap.length)
    (hv : ∀ x ∈ L.vals c, gval (m.without H).nodes x) (hr : ∀ o ∈ L.refs c, o < m.objs.length)
    (hg : ∀ ob, ob ∈ m.objs → good (m.without H).nodes ob) :
    ∃ tr x v' m', (L.code c).run m = (.ret x, m') ∧ Q c tr x v' ∧ Plays m.objs tr m'.objs ∧ (m.without H).nodes ≤ v' ∧
      v' ≤ (m'.without H).nodes ∧ m.heap.length ≤ m'.heap.length := by
  obtain ⟨tr, x, v', m', h1, h2, h3, h4, h5, h6, h7, h8⟩ := Prog.run_cwp (tr := []) (m := m) (v := (m.without H).nodes) (base := (m.without H).nodes) (W := Prog.Nowhere) (good := good) (fun {v v' ob} h => ok.good_mono h) (L.code c) (ok.code c hc (m.without H).nodes (fun o => o < m.objs.length) hv hr)
    Heap.hide_le (fun _ h => h) (fun _ _ h => h) (fun _ (h : Prog.Nowhere _) => h.elim) hg (fun o ob h => by cases h)
  refine ⟨tr, x, v', m', h1, h2, h3, h4, fun a c e => ?_, h7⟩
  simp only [Mem.without, Heap.hide]
  split
  · next ha =>
    have := h8 a (hH a ha) (by simp only [Mem.without, Heap.hide, if_pos ha])
    rw [this] at e; cases e
  · exact h6 _ _ e

end Addrs

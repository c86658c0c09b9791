import Verif.ConcLog
/-
  The log by position: the content of an object at each time.
-/
set_option linter.unusedSectionVars false
namespace Addrs
open GoWord Prog

section
variable {D C V : Type}

/-- the object `o` before entry number `k` of the log -/
def objAt (log : List (Entry D C V)) (k o : Nat) : Option (Obj D) := (replay (log.take k))[o]?

/-- entry `k` is an action of thread `i` -/
def At (log : List (Entry D C V)) (k i : Nat) (e : Event D) : Prop := log[k]? = some (.act i e)

theorem At.lt {log : List (Entry D C V)} {k i : Nat} {e : Event D} (h : At log k i e) : k < log.length :=
  (List.getElem?_eq_some_iff.mp h).1

theorem At.mem {log : List (Entry D C V)} {k i : Nat} {e : Event D} (h : At log k i e) : .act i e ∈ log :=
  List.mem_of_getElem? h

theorem at_split {log : List (Entry D C V)} {k : Nat} {x : Entry D C V} (h : log[k]? = some x) :
    log = log.take k ++ x :: log.drop (k + 1) := by
  obtain ⟨hk, rfl⟩ := List.getElem?_eq_some_iff.mp h
  rw [List.getElem_cons_drop, List.take_append_drop]

theorem take_succ_at {log : List (Entry D C V)} {k : Nat} {x : Entry D C V} (h : log[k]? = some x) :
    log.take (k + 1) = log.take k ++ [x] := by
  rw [List.take_add_one, h]; rfl

theorem objAt_succ {log : List (Entry D C V)} {k o : Nat} {x : Entry D C V} (h : log[k]? = some x) :
    objAt log (k + 1) o = (replay1 (replay (log.take k)) x)[o]? := by
  unfold objAt
  rw [take_succ_at h, replay_snoc]

/-- the object exists from its creation on -/
theorem objAt_other {log : List (Entry D C V)} {k o : Nat} {ob : Obj D} (h : objAt log k o = some ob)
    (hn : ∀ i x y, ¬ At log k i (.swap o x y)) : objAt log (k + 1) o = some ob := by
  cases hx : log[k]? with
  | none =>
    have hk : log.length ≤ k := by
      apply Classical.byContradiction
      intro hh
      rw [List.getElem?_eq_getElem (by omega)] at hx
      cases hx
    unfold objAt at *
    rw [List.take_of_length_le (by omega)]
    rw [List.take_of_length_le hk] at h
    exact h
  | some x =>
    rw [objAt_succ hx]
    unfold objAt at h
    cases x with
    | act i e =>
      cases e with
      | load o' ob' => exact h
      | made o' ob' =>
        show (_ ++ [ob'])[o]? = _
        rw [List.getElem?_append_left (List.getElem?_eq_some_iff.mp h).1]
        exact h
      | swap o' x y =>
        have hne : o' ≠ o := by
          rintro rfl
          exact hn i x y hx
        simp only [replay1]
        split
        · rw [List.getElem?_set_ne hne]; exact h
        · exact h
    | start i c => exact h
    | fail i o' q => exact h
    | done i x => exact h

theorem objAt_swap {log : List (Entry D C V)} (ok : LogOk EntryOk log) {k i o : Nat} {x y : Ptr}
    (h : At log k i (.swap o x y)) :
    ∃ ob, objAt log k o = some ob ∧ ob.trie = x ∧ objAt log (k + 1) o = some { ob with trie := y } := by
  obtain ⟨ob, h1, h2⟩ := ok _ _ _ (at_split h)
  refine ⟨ob, h1, h2, ?_⟩
  rw [objAt_succ h]
  simp only [replay1, h1]
  exact List.getElem?_set_self (List.getElem?_eq_some_iff.mp h1).1

theorem objAt_load {log : List (Entry D C V)} (ok : LogOk EntryOk log) {k i o : Nat} {ob : Obj D}
    (h : At log k i (.load o ob)) : objAt log k o = some ob := ok _ _ _ (at_split h)

/-- without a swap the object stays the same -/
theorem objAt_const {log : List (Entry D C V)} {k l o : Nat} (hkl : k ≤ l) {ob : Obj D} (h : objAt log k o = some ob)
    (hn : ∀ p i x y, k ≤ p → p < l → ¬ At log p i (.swap o x y)) : objAt log l o = some ob := by
  induction l with
  | zero =>
    have : k = 0 := by omega
    subst this; exact h
  | succ l ih =>
    rcases Nat.lt_or_ge l k with hlt | hge
    · have : k = l + 1 := by omega
      subst this; exact h
    · exact objAt_other (ih hge fun p i x y h1 h2 => hn p i x y h1 (by omega)) fun i x y => hn l i x y hge (by omega)

/-- the last swap before a time -/
theorem last_swap {log : List (Entry D C V)} (ok : LogOk EntryOk log) {k l o : Nat} (hkl : k ≤ l) {ob : Obj D}
    (h : objAt log k o = some ob) :
    objAt log l o = some ob ∨
    ∃ p i x y ob', k ≤ p ∧ p < l ∧ At log p i (.swap o x y) ∧ objAt log l o = some ob' ∧ ob'.trie = y ∧
      ∀ p' i x y, p < p' → p' < l → ¬ At log p' i (.swap o x y) := by
  induction l with
  | zero =>
    have : k = 0 := by omega
    subst this; exact Or.inl h
  | succ l ih =>
    rcases Nat.lt_or_ge l k with hlt | hge
    · have : k = l + 1 := by omega
      subst this; exact Or.inl h
    · by_cases hs : ∃ i x y, At log l i (.swap o x y)
      · obtain ⟨i, x, y, hs⟩ := hs
        obtain ⟨ob', h1, h2, h3⟩ := objAt_swap ok hs
        exact Or.inr ⟨l, i, x, y, _, hge, by omega, hs, h3, rfl, fun p' _ _ _ h1 h2 => by omega⟩
      · have hn : ∀ i x y, ¬ At log l i (.swap o x y) := fun i x y h => hs ⟨i, x, y, h⟩
        rcases ih hge with h1 | ⟨p, i, x, y, ob', h1, h2, h3, h4, h5, h6⟩
        · exact Or.inl (objAt_other h1 hn)
        · refine Or.inr ⟨p, i, x, y, ob', h1, by omega, h3, objAt_other h4 hn, h5, ?_⟩
          intro p' i' x' y' h7 h8
          rcases Nat.lt_or_ge p' l with h9 | h9
          · exact h6 p' i' x' y' h7 h9
          · have : p' = l := by omega
            subst this; exact hn i' x' y'

/-- an object keeps existing, with the same comparison function -/
theorem objAt_later {log : List (Entry D C V)} (ok : LogOk EntryOk log) {k l o : Nat} (hkl : k ≤ l) {ob : Obj D}
    (h : objAt log k o = some ob) : ∃ ob', objAt log l o = some ob' ∧ ob'.eq = ob.eq := by
  induction l with
  | zero =>
    have : k = 0 := by omega
    subst this; exact ⟨ob, h, rfl⟩
  | succ l ih =>
    rcases Nat.lt_or_ge l k with hlt | hge
    · have : k = l + 1 := by omega
      subst this; exact ⟨ob, h, rfl⟩
    · obtain ⟨ob', h1, h2⟩ := ih hge
      by_cases hs : ∃ i x y, At log l i (.swap o x y)
      · obtain ⟨i, x, y, hs⟩ := hs
        obtain ⟨ob'', h3, h4, h5⟩ := objAt_swap ok hs
        rw [h1] at h3
        cases h3
        exact ⟨_, h5, h2⟩
      · exact ⟨ob', objAt_other h1 fun i x y h => hs ⟨i, x, y, h⟩, h2⟩

/-- what was a root at some time has been seen -/
theorem objAt_seen {log : List (Entry D C V)} {k l o : Nat} (hkl : k ≤ l) {ob : Obj D} (h : objAt log k o = some ob) :
    Seen (log.take l) ob.trie := by
  refine ⟨log.take k, (log.take l).drop k, o, ob, ?_, h, rfl⟩
  have : log.take k = (log.take l).take k := by rw [List.take_take, Nat.min_eq_left hkl]
  rw [this, List.take_append_drop]

/-! ### the actions of one thread -/

theorem own_split {i : Nat} {log : List (Entry D C V)} {x y : List (Event D)} {e : Event D}
    (h : own i log = x ++ e :: y) : ∃ k, At log k i e ∧ own i (log.take k) = x ∧ own i (log.drop (k + 1)) = y := by
  unfold own at h
  rw [List.filterMap_eq_append_iff] at h
  obtain ⟨l1, l2, rfl, h1, h2⟩ := h
  rw [List.filterMap_eq_cons_iff] at h2
  obtain ⟨m1, z, m2, rfl, h3, h4, h5⟩ := h2
  have hz : z = .act i e := by
    cases z <;> simp at h4
    obtain ⟨rfl, rfl⟩ := h4
    rfl
  subst hz
  have hm1 : own i m1 = [] := by
    unfold own
    rw [List.filterMap_eq_nil_iff]
    exact h3
  refine ⟨(l1 ++ m1).length, ?_, ?_, ?_⟩
  · unfold At
    rw [← List.append_assoc, List.getElem?_append_right (Nat.le_refl _), Nat.sub_self]
    rfl
  · rw [← List.append_assoc, List.take_left' rfl, own_append, hm1, List.append_nil]
    exact h1
  · rw [← List.append_assoc, ← List.singleton_append, ← List.append_assoc,
      List.drop_left' (by simp; omega)]
    exact h5

theorem own_take_le {i : Nat} {log : List (Entry D C V)} {k l : Nat} (h : k ≤ l) :
    (own i (log.take k)).length ≤ (own i (log.take l)).length := by
  have : log.take k = (log.take l).take k := by rw [List.take_take, Nat.min_eq_left h]
  have h2 : log.take l = log.take k ++ (log.take l).drop k := by rw [this, List.take_append_drop]
  rw [h2, own_append, List.length_append]; omega

theorem own_lt {i : Nat} {log : List (Entry D C V)} {k l : Nat}
    (h : (own i (log.take k)).length < (own i (log.take l)).length) : k < l := by
  apply Classical.byContradiction
  intro hn
  have := own_take_le (i := i) (log := log) (k := l) (l := k) (by omega)
  omega

/-- the position of an action of the thread among its actions -/
theorem own_at {i : Nat} {log : List (Entry D C V)} {k : Nat} {e : Event D} (h : At log k i e) :
    own i log = own i (log.take k) ++ e :: own i (log.drop (k + 1)) := by
  conv => lhs; rw [at_split h]
  rw [own_append]
  congr 1
  simp [own]

/-- two actions of one thread with the same number of earlier actions are the same -/
theorem own_at_inj {i : Nat} {log : List (Entry D C V)} {k l : Nat} {e e' : Event D} (h : At log k i e)
    (h' : At log l i e') (he : (own i (log.take k)).length = (own i (log.take l)).length) : k = l := by
  rcases Nat.lt_trichotomy k l with hlt | rfl | hlt
  · have h1 := own_take_le (i := i) (log := log) (k := k + 1) (l := l) hlt
    rw [take_succ_at h, own_snoc_act, List.length_append] at h1
    simp at h1; omega
  · rfl
  · have h1 := own_take_le (i := i) (log := log) (k := l + 1) (l := k) hlt
    rw [take_succ_at h', own_snoc_act, List.length_append] at h1
    simp at h1; omega

end

section
variable {α D : Type} {L : Lib α D} {good gval : View α D → Obj D → Prop} {fr : L.Call → OldRoots α D}
  {Q : L.Call → List (Event D) → L.Val → View α D → Prop}

theorem MInv.entryOk {s : State L} {g : Ghost α D} (m : MInv good fr Q s g) : LogOk EntryOk s.log :=
  fun a e b h => (m.ok a e b h).1

theorem MInv.objAt_end {s : State L} {g : Ghost α D} (m : MInv good fr Q s g) (o : Nat) :
    objAt s.log s.log.length o = s.objs[o]? := by
  unfold objAt
  rw [List.take_length, m.replayed]

/-- a thread that swapped does not fail -/
theorem no_fail_swap (ok : LibOk L good gval fr Q) {s : State L} (h : s.Reach) {i o o' : Nat} {x y q : Ptr}
    (hs : .act i (.swap o x y) ∈ s.log) (hf : .fail i o' q ∈ s.log) : False := by
  obtain ⟨g, m⟩ := h.inv ok
  obtain ⟨a, b, hab⟩ := List.append_of_mem hf
  have h1 := ((m.ok a _ b hab).2 i o' q (Or.inr rfl)).2
  rw [hab] at hs
  rcases List.mem_append.mp hs with hs | hs
  · exact h1 _ _ _ hs
  · have hs' : (.act i (.swap o x y) : Entry D L.Call L.Val) ∈ b := by
      cases hs with
      | tail _ h => exact h
    obtain ⟨b1, b2, hb⟩ := List.append_of_mem hs'
    rw [hb] at hab
    have h2 := (started_before ok h (a := a ++ .fail i o' q :: b1) (b := b2) (e := .act i (.swap o x y))
      (by rw [hab]; simp) (by intros; simp)).2.2
    exact h2 o' q (by simp [Entry.tid])

/-- what a call that has swapped will have done at its end -/
theorem swap_spec (ok : LibOk L good gval fr Q) {s : State L} (h : s.Reach) {g : Ghost α D} (m : MInv good fr Q s g)
    {i o : Nat} {x y : Ptr} (hs : .act i (.swap o x y) ∈ s.log) :
    ∃ c z ext v, .start i c ∈ s.log ∧ g.fz ≤ v ∧ Q c (own i s.log ++ ext) z v ∧
      ∀ z', .done i z' ∈ s.log → z' = z ∧ v = g.fz ∧ ext = [] := by
  by_cases hd : ∃ z, .done i z ∈ s.log
  · obtain ⟨z, hz⟩ := hd
    obtain ⟨c, h1, h2⟩ := m.done_spec i z hz
    refine ⟨c, z, [], g.fz, h1, View.le_refl _, by simpa using h2, ?_⟩
    intro z' hz'
    refine ⟨?_, rfl, rfl⟩
    obtain ⟨a, b, hab⟩ := List.append_of_mem hz
    rw [hab] at hz'
    have key : ∀ a b : List (Entry D L.Call L.Val), ∀ z z', s.log = a ++ .done i z :: b → .done i z' ∉ b := by
      intro a b z z' hab hb
      obtain ⟨b1, b2, hb⟩ := List.append_of_mem hb
      rw [hb] at hab
      have h2 := (started_before ok h (a := a ++ .done i z :: b1) (b := b2) (e := .done i z')
        (by rw [hab]; simp) (by intros; simp)).2.1
      exact h2 z (by simp [Entry.tid])
    rcases List.mem_append.mp hz' with h3 | h3
    · obtain ⟨b1, b2, hb⟩ := List.append_of_mem h3
      rw [hb] at hab
      exact (key b1 (b2 ++ .done i z :: b) z' z (by rw [hab]; simp) (by simp)).elim
    · cases h3 with
      | head => rfl
      | tail _ h3 => exact (key a b z z' hab h3).elim
  · have hrun : ∃ P, s.threads[i]? = some (some P) := by
      rcases m.thread_cases hs with h1 | h1
      · exact (hd (h.none_done h1)).elim
      · exact h1
    obtain ⟨P, hP⟩ := hrun
    obtain ⟨t, h1, h2⟩ := run_to_end ok P h hP
    obtain ⟨g', m', hle⟩ := m.steps ok h1.steps
    obtain ⟨b, hb, hb'⟩ := h1.log
    rcases h2 with ⟨z, hz⟩ | ⟨o', q, hf⟩
    · obtain ⟨c, h3, h4⟩ := m'.done_spec i z hz
      rw [hb, own_append] at h4
      refine ⟨c, z, own i b, g'.fz, ?_, hle, h4, fun z' hz' => (hd ⟨z', hz'⟩).elim⟩
      rw [hb] at h3
      rcases List.mem_append.mp h3 with h3 | h3
      · exact h3
      · exact ((hb' _ h3).2 _ _ rfl).elim
    · exact (no_fail_swap ok (h.steps h1.steps) (s := t) (by rw [hb]; exact List.mem_append.mpr (Or.inl hs)) hf).elim

end
end Addrs

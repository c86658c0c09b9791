import Verif.ConcProps
/-
  What holds of the versions of an object under every interleaving, also of writes that interfere.
-/
set_option linter.unusedSectionVars false
namespace Addrs
open GoWord Prog

section
variable {D C V : Type}

/-- an object that exists was made -/
theorem objAt_from {log : List (Entry D C V)} (ok : LogOk EntryOk log) {k o : Nat} {ob : Obj D}
    (h : objAt log k o = some ob) : ∃ m i ob0, m < k ∧ At log m i (.made o ob0) := by
  induction k generalizing ob with
  | zero => simp [objAt, replay] at h
  | succ k ih =>
    cases hx : objAt log k o with
    | some ob' =>
      obtain ⟨m, i, ob0, h1, h2⟩ := ih hx
      exact ⟨m, i, ob0, by omega, h2⟩
    | none =>
      cases hl : log[k]? with
      | none =>
        have hk : log.length ≤ k := by
          apply Classical.byContradiction
          intro hh
          rw [List.getElem?_eq_getElem (by omega)] at hl
          cases hl
        unfold objAt at *
        rw [List.take_of_length_le (by omega)] at h
        rw [List.take_of_length_le hk, h] at hx
        cases hx
      | some e =>
        rw [objAt_succ hl] at h
        unfold objAt at hx
        cases e with
        | act i e =>
          cases e with
          | load o' ob' => simp only [replay1] at h; rw [hx] at h; cases h
          | made o' ob' =>
            have ho : o' = (replay (log.take k)).length := ok _ _ _ (at_split hl)
            simp only [replay1] at h
            rw [List.getElem?_append_right (by
              apply Classical.byContradiction
              intro hh
              rw [List.getElem?_eq_getElem (by omega)] at hx
              cases hx)] at h
            have : o = o' := by
              have h2 := (List.getElem?_eq_some_iff.mp h).1
              simp only [List.length_singleton] at h2
              have h3 : (replay (log.take k)).length ≤ o := by
                apply Classical.byContradiction
                intro hh
                rw [List.getElem?_eq_getElem (by omega)] at hx
                cases hx
              omega
            subst this
            exact ⟨k, i, ob', by omega, hl⟩
          | swap o' x y =>
            simp only [replay1] at h
            split at h
            · next ob'' h1 =>
              by_cases hne : o' = o
              · subst hne; rw [hx] at h1; cases h1
              · rw [List.getElem?_set_ne hne, hx] at h; cases h
            · rw [hx] at h; cases h
        | start i c => simp only [replay1] at h; rw [hx] at h; cases h
        | fail i o' q => simp only [replay1] at h; rw [hx] at h; cases h
        | done i x => simp only [replay1] at h; rw [hx] at h; cases h

end

section
variable {α D : Type} {L : Lib α D} {good gval : View α D → Obj D → Prop} {fr : L.Call → OldRoots α D}
  {Q : L.Call → List (Event D) → L.Val → View α D → Prop} {A K : Type} {role : L.Call → Option (Nat × Option K)}
  {abs : View α D → Obj D → A → Prop} {eff : L.Call → List (Event D) → View α D → A → L.Val → A → Prop}
  {frc : K → Bool} {le : K → A → A → Prop}

/-- arguments of started calls were known -/
theorem State.Reach.vals {s : State L} (h : s.Reach) {i : Nat} {c : L.Call} (hs : .start i c ∈ s.log) :
    ∀ x ∈ L.vals c, s.Known x := by
  induction h with
  | init => cases hs
  | step s s' hr hst ih =>
    have key : ∀ {x : Obj D}, s.Known x → s'.Known x := by
      intro x hx
      obtain ⟨b, hb⟩ := (State.Steps.step _ _ (.refl) hst).log
      rcases hx with h | ⟨j, v, h1, h2⟩
      · exact Or.inl h
      · exact Or.inr ⟨j, v, by rw [hb]; exact List.mem_append_left _ h1, h2⟩
    cases hst with
    | spawn c' hc =>
      rcases List.mem_append.mp hs with h | h
      · exact fun x hx => key (ih h x hx)
      · simp only [List.mem_singleton, Entry.start.injEq] at h
        rw [h.2]; exact fun x hx => key (hc.2.2 x hx)
    | act j _ ha =>
      obtain ⟨_, _, _, h5 | ⟨e, h5, _, h6⟩, _⟩ := State.act_log ha
      · rw [h5] at hs; exact fun x hx => key (ih hs x hx)
      · rw [h5] at hs
        rcases List.mem_append.mp hs with h | h
        · exact fun x hx => key (ih h x hx)
        · simp only [List.mem_singleton] at h
          exact (h6 _ _ h.symm).elim

/-- At time `t` no write on `o` is in progress. -/
def Quiet (role : L.Call → Option (Nat × Option K)) (log : List (Entry D L.Call L.Val)) (o t : Nat) : Prop :=
  ∀ i c κ, .start i c ∈ log.take t → role c = some (o, some κ) →
    (∃ z, .done i z ∈ log.take t) ∨ ∃ o' q, .fail i o' q ∈ log.take t

theorem Quiet.zero (role : L.Call → Option (Nat × Option K)) (log : List (Entry D L.Call L.Val)) (o : Nat) :
    Quiet role log o 0 := by
  intro i c κ h; simp at h

/-- writes that take effect after a quiet time were started after it -/
theorem Quiet.later (ok : LibOk L good gval fr Q) {s : State L} (h : s.Reach) {o t : Nat} (hq : Quiet role s.log o t)
    {a m i : Nat} {c : L.Call} {κ : K} {x y : Ptr} (ha : s.log[a]? = some (.start i c)) (hr : role c = some (o, some κ))
    (hm : At s.log m i (.swap o x y)) (htm : t ≤ m) : t ≤ a := by
  apply Classical.byContradiction
  intro hn
  have : .start i c ∈ s.log.take t := List.mem_of_getElem? (i := a) (by rw [List.getElem?_take_of_lt (by omega)]; exact ha)
  rcases hq i c κ this hr with ⟨z, hz⟩ | ⟨o', q, hf⟩
  · obtain ⟨b, hb⟩ := List.mem_iff_getElem?.mp hz
    have hbt : b < t := by
      have := (List.getElem?_eq_some_iff.mp hb).1
      simp at this; omega
    rw [List.getElem?_take_of_lt hbt] at hb
    have := before_done ok h hb hm
    omega
  · exact no_fail_swap ok h hm.mem (List.mem_of_mem_take hf)

/-- A property of the contents that no write on the object can end, once it holds, holds in all later
    versions, whatever the interleaving of the writes that are started after a quiet time. -/
theorem keeps (ok : LibOk L good gval fr Q) (lin : LinOk good fr Q role abs eff frc le) {s : State L} {g : Ghost α D}
    (ex : Exec good fr Q s g) {o t n : Nat} (hq : Quiet role s.log o t) {P : A → Prop}
    (hstep : ∀ i c κ v a z a' b, t ≤ b → b < n → s.log[b]? = some (.start i c) → role c = some (o, some κ) → g.fz ≤ v →
      eff c (own i s.log) v a z a' → P a → P a') {l : Nat} (hln : l ≤ n) :
    ∀ {k : Nat} {ob ob' : Obj D} {a a' : A}, t ≤ k → k ≤ l → objAt s.log k o = some ob → abs g.fz ob a → P a →
      objAt s.log l o = some ob' → abs g.fz ob' a' → P a' := by
  induction l using Nat.strongRecOn with
  | ind l ih =>
    intro k ob ob' a a' htk hkl h1 h2 h3 h4 h5
    rcases last_swap ex.inv.entryOk hkl h1 with h6 | ⟨p, i, x, y, ob'', h6, h7, h8, h9, h10, h11⟩
    · rw [h6] at h4; cases h4
      rw [lin.abs_fun h5 h2]; exact h3
    · obtain ⟨c, κ, k1, k2, ob1, ob2, a2, a3, z, v, F⟩ := swap_facts ok lin ex h8
      have hcur : objAt s.log l o = some { ob1 with trie := y } :=
        objAt_const (show p + 1 ≤ l from h7) F.next fun p' i x y g1 g2 => h11 p' i x y (by omega) g2
      rw [hcur] at h4; cases h4
      rw [lin.abs_fun h5 F.absNew]
      obtain ⟨a1, ha1⟩ := lin.abs_good (ex.good_at F.cur)
      obtain ⟨b, hb⟩ := List.mem_iff_getElem?.mp F.start
      have htb : t ≤ b := hq.later ok ex.reach hb F.role_ h8 (by omega)
      have hbk : b < k1 := start_first ok ex.reach hb F.at1 rfl (by intros; simp)
      have k12 := F.k12
      have k2k := F.k2k
      have q1 : P a1 := ih p h7 (by omega) htk h6 h1 h2 h3 F.cur ha1
      have q2 : P a2 := ih k2 (by omega) (by omega) (k := k1) (by omega) (by omega)
        (objAt_load ex.inv.entryOk F.at1) ha1 q1 (objAt_load ex.inv.entryOk F.at2) F.abs2
      exact hstep i c κ v a2 z a3 b htb (by omega) hb F.role_ F.vle F.eff_ q2

/-- Every version of an object after the first is what some write on it makes of an earlier version, one that
    the object had since that write was started. -/
theorem version (ok : LibOk L good gval fr Q) (lin : LinOk good fr Q role abs eff frc le) {s : State L} {g : Ghost α D}
    (ex : Exec good fr Q s g) {o k l : Nat} {ob ob' : Obj D} (hkl : k ≤ l) (h1 : objAt s.log k o = some ob)
    (h2 : objAt s.log l o = some ob') (hne : ob' ≠ ob) :
    ∃ m i c κ p k2 ob2 a2 a' z v, k ≤ m ∧ m < l ∧ (∃ x y, At s.log m i (.swap o x y)) ∧
      s.log[p]? = some (.start i c) ∧ role c = some (o, some κ) ∧ p < k2 ∧ k2 < m ∧
      objAt s.log k2 o = some ob2 ∧ abs g.fz ob2 a2 ∧ g.fz ≤ v ∧ eff c (own i s.log) v a2 z a' ∧ abs g.fz ob' a' ∧
      ∀ z', .done i z' ∈ s.log → z' = z ∧ v = g.fz := by
  rcases last_swap ex.inv.entryOk hkl h1 with h6 | ⟨m, i, x, y, ob'', h6, h7, h8, h9, h10, h11⟩
  · rw [h6] at h2; cases h2; exact (hne rfl).elim
  · obtain ⟨c, κ, k1, k2, ob1, ob2, a2, a3, z, v, F⟩ := swap_facts ok lin ex h8
    have hcur : objAt s.log l o = some { ob1 with trie := y } :=
      objAt_const (show m + 1 ≤ l from h7) F.next fun p' i x y g1 g2 => h11 p' i x y (by omega) g2
    rw [hcur] at h2; cases h2
    obtain ⟨p, hp⟩ := List.mem_iff_getElem?.mp F.start
    exact ⟨m, i, c, κ, p, k2, ob2, a2, a3, z, v, h6, h7, ⟨x, y, h8⟩, hp, F.role_,
      start_first ok ex.reach hp F.at2 rfl (by intros; simp), F.k2k, objAt_load ex.inv.entryOk F.at2, F.abs2, F.vle,
      F.eff_, F.absNew, F.done⟩

/-- the times of the accesses of a call -/
theorem swap_between (ok : LibOk L good gval fr Q) {s : State L} (h : s.Reach) {i : Nat} {c : L.Call} {z : L.Val}
    {a b : Nat} (ha : s.log[a]? = some (.start i c)) (hb : s.log[b]? = some (.done i z)) {o : Nat} {x y : Ptr}
    (hl : (.swap o x y : Event D) ∈ own i s.log) :
    ∃ k, a < k ∧ k < b ∧ At s.log k i (.swap o x y) := by
  obtain ⟨g, m⟩ := h.inv ok
  obtain ⟨k, hk⟩ := List.mem_iff_getElem?.mp (mem_own.mp hl)
  exact ⟨k, start_first ok h ha hk rfl (by intros; simp), before_done ok h hb hk, hk⟩

end
end Addrs

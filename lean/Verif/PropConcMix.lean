import Verif.ConcKeep
import Verif.PropConcTables
import Verif.PropConcSets
import Verif.PropConcBad
/-
  Property C62: what is guaranteed when writes of any kind interleave in any way.
-/
set_option linter.unusedSectionVars false
namespace Addrs
open GoWord LawfulGoWord

/-! ### tables -/

section
variable {α D σ : Type} [LawfulGoWord α] [Inhabited D] [Comparable D] {F : Nat}

/-- the call can give the key a value where there was none -/
def TableOp.Adds (p : TableOp α D) (key : Nat × Nat) : Prop :=
  match p with
  | .insert k _ | .insertOrUpdate k _ | .getOrInsert k _ => keyOf k.toPrefix = key
  | _ => False

/-- the call can give the key the value `v` -/
def TableOp.Stores (p : TableOp α D) (key : Nat × Nat) (v : D) : Prop :=
  match p with
  | .insert k w | .update k w | .insertOrUpdate k w | .getOrInsert k w => keyOf k.toPrefix = key ∧ w = v
  | _ => False

/-- the call is `Remove` of the key -/
def TableOp.Drops (p : TableOp α D) (key : Nat × Nat) : Prop :=
  match p with
  | .remove k => keyOf k.toPrefix = key
  | _ => False

theorem PMap.step_keeps {e : D → D → Bool} {m : PMap D} {p : TableOp α D} {key : Nat × Nat} (h : m key ≠ none)
    (hp : ¬ p.Drops key) : (m.step e p).1 key ≠ none := by
  cases p with
  | remove k =>
    have : key ≠ keyOf k.toPrefix := fun e => hp e.symm
    simp only [PMap.step, PMap.erase, this, if_false]; exact h
  | insert k v =>
    cases hk : m (keyOf k.toPrefix) <;> simp only [PMap.step, hk, PMap.set] <;> try split
    all_goals first | exact h | simp
  | update k v =>
    cases hk : m (keyOf k.toPrefix) <;> simp only [PMap.step, hk, PMap.set] <;> try split
    all_goals first | exact h | simp
  | insertOrUpdate k v =>
    cases hk : m (keyOf k.toPrefix) <;> simp only [PMap.step, hk, PMap.set] <;> split
    all_goals first | exact h | simp
  | get k => cases hk : m (keyOf k.toPrefix) <;> simp only [PMap.step, hk] <;> exact h
  | getOrInsert k v =>
    cases hk : m (keyOf k.toPrefix) <;> simp only [PMap.step, hk, PMap.set] <;> try split
    all_goals first | exact h | simp

theorem PMap.step_adds {e : D → D → Bool} {m : PMap D} {p : TableOp α D} {key : Nat × Nat} (hp : p.Adds key) :
    (m.step e p).1 key ≠ none := by
  cases p with
  | insert k v =>
    cases hp
    cases hk : m (keyOf k.toPrefix) <;> simp [PMap.step, hk, PMap.set]
  | insertOrUpdate k v =>
    cases hp
    cases hk : m (keyOf k.toPrefix) <;> simp [PMap.step, hk, PMap.set]
  | getOrInsert k v =>
    cases hp
    cases hk : m (keyOf k.toPrefix) <;> simp [PMap.step, hk, PMap.set]
  | _ => exact hp.elim

theorem PMap.step_absent {e : D → D → Bool} {m : PMap D} {p : TableOp α D} {key : Nat × Nat} (h : m key = none)
    (hp : ¬ p.Adds key) : (m.step e p).1 key = none := by
  cases p with
  | remove k => simp only [PMap.step, PMap.erase]; split <;> first | rfl | exact h
  | insert k v =>
    have : key ≠ keyOf k.toPrefix := fun e => hp e.symm
    cases hk : m (keyOf k.toPrefix) <;> simp only [PMap.step, hk, PMap.set, this, if_false] <;> exact h
  | update k v =>
    cases hk : m (keyOf k.toPrefix) with
    | none => simp only [PMap.step, hk]; exact h
    | some w =>
      have : key ≠ keyOf k.toPrefix := by rintro rfl; rw [hk] at h; cases h
      simp only [PMap.step, hk, PMap.set, this, if_false]; exact h
  | insertOrUpdate k v =>
    have : key ≠ keyOf k.toPrefix := fun e => hp e.symm
    cases hk : m (keyOf k.toPrefix) <;> simp only [PMap.step, hk, PMap.set, this, if_false] <;> exact h
  | get k => cases hk : m (keyOf k.toPrefix) <;> simp only [PMap.step, hk] <;> exact h
  | getOrInsert k v =>
    have : key ≠ keyOf k.toPrefix := fun e => hp e.symm
    cases hk : m (keyOf k.toPrefix) <;> simp only [PMap.step, hk, PMap.set, this, if_false] <;> exact h

theorem PMap.step_stores {e : D → D → Bool} {m : PMap D} {p : TableOp α D} {key : Nat × Nat} {v : D}
    (h : m key ≠ some v) (hp : ¬ p.Stores key v) : (m.step e p).1 key ≠ some v := by
  have two : ∀ {k : PrefixI α} {w : D}, ¬ (keyOf k.toPrefix = key ∧ w = v) → key = keyOf k.toPrefix → w ≠ v :=
    fun hp e e' => hp ⟨e.symm, e'⟩
  cases p with
  | remove k => simp only [PMap.step, PMap.erase]; split <;> first | exact h | simp
  | insert k w =>
    cases hk : m (keyOf k.toPrefix) <;> simp only [PMap.step, hk, PMap.set]
    · split
      · next e => intro hh; exact two hp e (Option.some.inj hh)
      · exact h
    · exact h
  | update k w =>
    cases hk : m (keyOf k.toPrefix) <;> simp only [PMap.step, hk, PMap.set]
    · exact h
    · split
      · next w' e =>
        subst e
        rw [hk] at h
        split
        · exact h
        · intro hh; exact two hp rfl (Option.some.inj hh)
      · exact h
  | insertOrUpdate k w =>
    cases hk : m (keyOf k.toPrefix) <;> simp only [PMap.step, hk, PMap.set]
    · split
      · next e => intro hh; exact two hp e (Option.some.inj hh)
      · exact h
    · split
      · next w' e =>
        subst e
        rw [hk] at h
        split
        · exact h
        · intro hh; exact two hp rfl (Option.some.inj hh)
      · exact h
  | get k => cases hk : m (keyOf k.toPrefix) <;> simp only [PMap.step, hk] <;> exact h
  | getOrInsert k w =>
    cases hk : m (keyOf k.toPrefix) <;> simp only [PMap.step, hk, PMap.set]
    · split
      · next e => intro hh; exact two hp e (Option.some.inj hh)
      · exact h
    · exact h

theorem table_at (hF : 2 * width α + 3 ≤ F) {s : TState α D σ F} (h : s.Reach) {k o : Nat} {ob : Obj D}
    (hk : objAt s.log k o = some ob) : ∃ T : Table α D, ob.Is s.mem T ∧ T.Reachable ∧ ∃ e, T.eq = some e := by
  have ok := tableLib_ok (α := α) (D := D) (σ := σ) hF
  obtain ⟨g, inv, hist⟩ := h.inv' ok
  have ex : Exec tobj TCall.olds TCall.spec s g := ⟨h, inv, hist⟩
  obtain ⟨⟨T, h1, h2⟩, h3⟩ := ex.good_at hk
  refine ⟨T, h1.mono inv.mem.fz_le, h2, ?_⟩
  have h4 := h1.2
  cases hq : ob.eq with
  | nil => exact (h3 hq).elim
  | dflt => rw [hq] at h4; exact ⟨_, h4⟩
  | custom cmp => rw [hq] at h4; exact ⟨_, h4⟩

/-- a property of the map that no write on the table ends -/
theorem table_keeps (hF : 2 * width α + 3 ≤ F) {s : TState α D σ F} (h : s.Reach) {o t n k l : Nat}
    (hq : Quiet TCall.role s.log o t) {R : PMap D → Prop}
    (hR : ∀ b i p e m, t ≤ b → b < n → s.log[b]? = some (.start i (.op (some o) p)) → R m → R (m.step e p).1)
    (hln : l ≤ n) (htk : t ≤ k) (hkl : k ≤ l)
    {ob ob' : Obj D} {T T' : Table α D} {m : PMap D} (h1 : objAt s.log k o = some ob) (h2 : ob.Is s.mem T)
    (h3 : T.Shows m) (h4 : R m) (h5 : objAt s.log l o = some ob') (h6 : ob'.Is s.mem T') :
    ∃ m', T'.Shows m' ∧ R m' := by
  have ok := tableLib_ok (α := α) (D := D) (σ := σ) hF
  obtain ⟨g, inv, hist⟩ := h.inv' ok
  have ex : Exec tobj TCall.olds TCall.spec s g := ⟨h, inv, hist⟩
  obtain ⟨⟨T0, g1, g2⟩, g3⟩ := ex.good_at h1
  obtain ⟨⟨T1, g4, g5⟩, g6⟩ := ex.good_at h5
  cases (g1.mono inv.mem.fz_le).functional h2
  cases (g4.mono inv.mem.fz_le).functional h6
  obtain ⟨T2, k1, k2, e, k3⟩ := table_at hF h h1
  cases k1.functional h2
  have main := keeps ok tableLin ex (o := o) (n := n) hq
    (P := fun a => ∃ T : Table α D, ∃ m, T.Reachable ∧ a = T.contents ∧ T.eq = some e ∧ T.Shows m ∧ R m) ?_ hln htk hkl h1
    ⟨T, g1, g2, rfl⟩ ⟨T, m, g2, rfl, k3, h3, h4⟩ h5 ⟨T', g4, g5, rfl⟩
  · obtain ⟨T3, m3, q1, q2, q3, q4, q5⟩ := main
    unfold Table.contents at q2
    rw [Prod.mk.injEq] at q2
    exact ⟨m3, q4.congr q1 g5 q2.2.symm, q5⟩
  · rintro i c κ v a z a' b hb1 hb2 hs hr hv ⟨T3, q1, q2, q3⟩ ⟨T4, m4, q4, rfl, q6, q7, q8⟩
    unfold Table.contents at q2
    rw [Prod.mk.injEq] at q2
    have hT : T3.eq = some e := q2.1.symm.trans q6
    have hsh : T3.Shows m4 := q7.congr q4 q1 q2.2
    cases c with
    | op hd p =>
      cases hd with
      | none => cases hr
      | some o' =>
        simp only [TCall.role] at hr
        split at hr
        · next hw =>
          cases hr
          obtain ⟨_, rfl⟩ := q3
          have hk := (h.pre (List.mem_of_getElem? hs) hw).1
          obtain ⟨r1, r2, _⟩ := Table.step_spec (hsh.repr q1.good) hT p hk
          exact ⟨_, _, .step T3 p q1 (by rw [hT]; simp) hk, rfl, r2, r1.shows, hR b i p e m4 hb1 hb2 hs q8⟩
        · cases hr
    | longest hd k => cases hd <;> cases hr
    | num hd => cases hd <;> cases hr
    | freeze hd => cases hd <;> cases hr
    | _ => cases hr

/-- A write that returned was applied to contents `T` that the table had at a time `k` during the call: its
    result is the one for `T`, and the contents that it makes of `T` are what the table held at some time `l`
    during the call. -/
theorem C62_table_write (hF : 2 * width α + 3 ≤ F) {s : TState α D σ F} (h : s.Reach) {i o p q : Nat}
    {w : TableOp α D} {z : TVal α D σ} (hw : w.writes = true) (hp : s.log[p]? = some (.start i (.op (some o) w)))
    (hq : s.log[q]? = some (.done i z)) :
    ∃ k ob T l ob', p < k ∧ k < q ∧ objAt s.log k o = some ob ∧ ob.Is s.mem T ∧ T.Reachable ∧
      z = .result (T.step w).2 ∧ p < l ∧ l ≤ q ∧ objAt s.log l o = some ob' ∧ ob'.Is s.mem (T.step w).1 ∧
      (T.step w).1.Reachable := by
  have ok := tableLib_ok (α := α) (D := D) (σ := σ) hF
  have hQ : TCall.spec _ (own i s.log) z s.mem := done_spec' ok h (List.mem_of_getElem? hp) (List.mem_of_getElem? hq)
  obtain ⟨g, inv⟩ := h.inv ok
  simp only [TCall.spec, OpSpec, hw, if_true] at hQ
  obtain ⟨_, r, ho, rfl, ob1, ob2, T2, h1, h2, h3, h4, h5, rfl, h6⟩ := hQ
  cases ho
  have l2 : ∃ k, p < k ∧ k < q ∧ objAt s.log k o = some ob2 := by
    refine load_between ok h hp hq ?_
    rcases h6 with ⟨h6, _⟩ | ⟨_, h6, _⟩ <;> rw [h6] <;> simp
  obtain ⟨k2, a1, a2, a3⟩ := l2
  rcases h6 with ⟨h6, h7 | ⟨h7, h8⟩⟩ | ⟨new, h6, h7, h8⟩
  · exact ⟨k2, ob2, T2, k2, ob2, a1, a2, a3, h3, h4, rfl, a1, by omega, a3, by rw [h7]; exact h3, h5⟩
  · obtain ⟨k1, b1, b2, b3⟩ := load_between ok h hp hq (o := o) (ob := ob1) (by rw [h6]; simp)
    exact ⟨k2, ob2, T2, k1, ob1, a1, a2, a3, h3, h4, rfl, b1, by omega, b3, h8.1, h5⟩
  · obtain ⟨m, b1, b2, b3⟩ := swap_between ok h hp hq (o := o) (x := ob1.trie) (y := new) (by rw [h6]; simp)
    obtain ⟨ob, c1, c2, c3⟩ := objAt_swap inv.entryOk b3
    have he : ob.eq = ob2.eq := by
      rcases Nat.le_total k2 m with hle | hle
      · obtain ⟨ob', d1, d2⟩ := objAt_later inv.entryOk hle a3
        rw [c1] at d1; cases d1; exact d2
      · obtain ⟨ob', d1, d2⟩ := objAt_later inv.entryOk hle c1
        rw [a3] at d1; cases d1; exact d2.symm
    exact ⟨k2, ob2, T2, m + 1, _, a1, a2, a3, h3, h4, rfl, by omega, by omega, c3, by rw [he]; exact h8.1, h5⟩

/-- the table of `C36_lost_remove`: the removal returned although the key was inserted again -/
example := C62_table_write (by decide) Bad.lost_reach (i := 1) (o := 0) (p := 3) (q := 11) (w := .remove Bad.k1) rfl
  (by rw [Bad.lost_log]; rfl) (by rw [Bad.lost_log]; rfl)

/-- what a write that has changed a table did -/
theorem table_swap_exact (hF : 2 * width α + 3 ≤ F) {s : TState α D σ F} (h : s.Reach) {o m i : Nat} {x y : Ptr}
    (hm : At s.log m i (.swap o x y)) :
    ∃ w p k ob T ob', s.log[p]? = some (.start i (.op (some o) w)) ∧ w.writes = true ∧ p < k ∧ k < m ∧
      objAt s.log k o = some ob ∧ ob.Is s.mem T ∧ T.Reachable ∧ objAt s.log (m + 1) o = some ob' ∧
      ob'.Is s.mem (T.step w).1 ∧ (∀ z, .done i z ∈ s.log → z = .result (T.step w).2) ∧
      Shares s.mem w.key.toPrefix ob.trie ob'.trie := by
  have ok := tableLib_ok (α := α) (D := D) (σ := σ) hF
  obtain ⟨g, inv, hist⟩ := h.inv' ok
  have ex : Exec tobj TCall.olds TCall.spec s g := ⟨h, inv, hist⟩
  obtain ⟨w, hs, hw⟩ := table_swap hF h hm
  obtain ⟨c, z, ext, v, h1, h2, h3, h4⟩ := swap_spec ok h inv hm.mem
  cases inv.start_uniq i _ _ hs h1
  have h3 : TCall.spec (.op (some o) w) (own i s.log ++ ext) z v := h3
  simp only [TCall.spec, OpSpec, hw, if_true] at h3
  obtain ⟨_, r, ho, rfl, ob1, ob2, T2, g1, g2, g3, g4, g5, rfl, g6⟩ := h3
  cases ho
  have hown := own_at hm
  rcases g6 with ⟨g6, _⟩ | ⟨new, g6, g7, g8⟩
  · have : (.swap o x y : Event D) ∈ own i s.log ++ ext := by rw [hown]; simp
    rw [g6] at this
    simp at this
  · rw [hown, List.append_assoc, List.cons_append] at g6
    obtain ⟨e1, _, rfl, rfl, e5⟩ := snoc_swap (L := [.load o ob1, .load o ob2]) g6 (by simp)
    obtain ⟨e6, rfl⟩ := List.append_eq_nil_iff.mp e5
    rw [e1, e6] at hown
    obtain ⟨k2, q1, q2, _⟩ := own_split (i := i) (log := s.log) (x := [.load o ob1]) (e := .load o ob2)
      (y := [.swap o ob1.trie y]) (by rw [hown]; rfl)
    have k2m : k2 < m := own_lt (i := i) (log := s.log) (by rw [q2, e1]; simp)
    obtain ⟨p, hp⟩ := List.mem_iff_getElem?.mp hs
    have a3 := objAt_load inv.entryOk q1
    obtain ⟨ob, c1, c2, c3⟩ := objAt_swap inv.entryOk hm
    obtain ⟨ob', d1, d2⟩ := objAt_later inv.entryOk (Nat.le_of_lt k2m) a3
    rw [c1] at d1; cases d1
    obtain ⟨⟨T2', t1, t2⟩, _⟩ := ex.good_at a3
    cases (t1.mono h2).functional g3
    obtain ⟨⟨T3, t3, t4⟩, _⟩ := ex.good_at c3
    have g9 := g8.2
    have g8 : Obj.Is v ⟨y, ob.eq⟩ (T2.step w).1 := by rw [d2]; exact g8.1
    cases (t3.mono h2).functional g8
    exact ⟨w, p, k2, ob2, T2, _, hp, hw, start_first ok h hp q1 rfl (by intros; simp), k2m, a3,
      t1.mono inv.mem.fz_le, g4, c3, t3.mono inv.mem.fz_le, fun z hz => (h4 z hz).1,
      (g9.anti h2 t1.1 t3.1).mono inv.mem.fz_le t1.1 t3.1⟩

/-- Every change of a table is one write: the new contents are what that write makes of contents the table had
    since it was started; if the write has returned, its result was the one for those contents. -/
theorem C62_table_versions (hF : 2 * width α + 3 ≤ F) {s : TState α D σ F} (h : s.Reach) {o l : Nat} {ob ob' : Obj D}
    (h1 : objAt s.log l o = some ob) (h2 : objAt s.log (l + 1) o = some ob') (hne : ob' ≠ ob) :
    ∃ i w p k ob2 T, s.log[p]? = some (.start i (.op (some o) w)) ∧ w.writes = true ∧ p < k ∧ k < l ∧
      objAt s.log k o = some ob2 ∧ ob2.Is s.mem T ∧ T.Reachable ∧ ob'.Is s.mem (T.step w).1 ∧
      ∀ z, .done i z ∈ s.log → z = .result (T.step w).2 := by
  by_cases hs : ∃ i x y, At s.log l i (.swap o x y)
  · obtain ⟨i, x, y, hs⟩ := hs
    obtain ⟨w, p, k, ob2, T, ob3, a1, a2, a3, a4, a5, a6, a7, a8, a9, a10, _⟩ := table_swap_exact hF h hs
    rw [h2] at a8; cases a8
    exact ⟨i, w, p, k, ob2, T, a1, a2, a3, a4, a5, a6, a7, a9, a10⟩
  · rw [objAt_other h1 fun i x y hh => hs ⟨i, x, y, hh⟩] at h2
    cases h2; exact (hne rfl).elim

example := C62_table_versions (by decide) Bad.back_reach (o := 0) (l := 16) (ob := ⟨none, .dflt⟩)
  (ob' := ⟨some 2, .dflt⟩) (by rw [Bad.back_log]; rfl) (by rw [Bad.back_log]; rfl) (by intro h; cases h)

/-- At every time a table is a proper table. -/
theorem C62_table_valid (hF : 2 * width α + 3 ≤ F) {s : TState α D σ F} (h : s.Reach) {k o : Nat} {ob : Obj D}
    (hk : objAt s.log k o = some ob) : ∃ T : Table α D, ob.Is s.mem T ∧ T.Reachable := by
  obtain ⟨T, h1, h2, _⟩ := table_at hF h hk
  exact ⟨T, h1, h2⟩

example := C62_table_valid (by decide) Bad.back_reach (o := 0) (k := 17) (by rw [Bad.back_log]; rfl)

/-- the present key -/
theorem Table.Shows.found {T : Table α D} {m : PMap D} (h : T.Shows m) {k : PrefixI α} (hk : k.toPrefix.WF) :
    m (keyOf k.toPrefix) ≠ none ↔ (T.get k).2 = true := by
  have := h k hk
  cases hm : m (keyOf k.toPrefix) <;> rw [hm] at this <;> simp [this]

/-- Once `Insert`, `InsertOrUpdate` or `GetOrInsert` of a key has returned, every `Get` of the key that is started
    later finds a value, whatever else is running, if nobody has called `Remove` with this key since a time `t` at
    which no write on the table was in progress (for instance the beginning, `t = 0`). -/
theorem C62_table_kept (hF : 2 * width α + 3 ≤ F) {s : TState α D σ F} (h : s.Reach) {i j o t p q p' q' : Nat}
    {w : TableOp α D} {k : PrefixI α} {z y : TVal α D σ} (hw : w.Adds (keyOf k.toPrefix)) (hk : k.toPrefix.WF)
    (ht : Quiet TCall.role s.log o t) (htp : t ≤ p)
    (hp : s.log[p]? = some (.start i (.op (some o) w))) (hq : s.log[q]? = some (.done i z)) (hqp : q < p')
    (hp' : s.log[p']? = some (.start j (.op (some o) (.get k)))) (hq' : s.log[q']? = some (.done j y))
    (hno : ∀ b i' w', t ≤ b → b < q' → s.log[b]? = some (.start i' (.op (some o) w')) → ¬ w'.Drops (keyOf k.toPrefix)) :
    ∃ v, y = .result (.found v true) := by
  have hww : w.writes = true := by
    cases w with
    | get k => exact hw.elim
    | _ => rfl
  obtain ⟨_, _, T, l, ob', a1, a2, a3, a4, a5, _, a6, a7, a8, a9, a10⟩ := C62_table_write hF h hww hp hq
  obtain ⟨k2, ob2, T2, b1, b2, b3, b4, b5, b6⟩ := C37_table hF h hp' hq' (Or.inl ⟨k, rfl⟩)
  obtain ⟨T', c1, c2, e, c3⟩ := table_at hF h a3
  cases c1.functional a4
  obtain ⟨m, hm⟩ := C23_shows T a5
  have hwk := (h.pre (List.mem_of_getElem? hp) hww).1
  have r1 := (Table.step_spec (hm.repr a5.good) c3 w hwk).1.shows
  obtain ⟨m', d1, d2⟩ := table_keeps hF h (n := q') ht (R := fun m => m (keyOf k.toPrefix) ≠ none)
    (fun b i' w' e m g1 g2 hs hh => PMap.step_keeps hh (hno b i' w' g1 g2 hs)) (Nat.le_of_lt b2) (show t ≤ l by omega)
    (show l ≤ k2 by omega) a8 a9 r1 (PMap.step_adds hw) b3 b4
  have := (d1.found hk).mp d2
  refine ⟨(T2.get k).1, ?_⟩
  rw [b6, this]

/-- Once `Remove` of a key has returned, no `Get` of the key that is started later finds a value, whatever else is
    running, if nobody has called `Insert`, `InsertOrUpdate` or `GetOrInsert` with this key since a time `t` at which
    no write on the table was in progress. -/
theorem C62_table_gone (hF : 2 * width α + 3 ≤ F) {s : TState α D σ F} (h : s.Reach) {i j o t p q p' q' : Nat}
    {k k' : PrefixI α} {z y : TVal α D σ} (hkk : keyOf k'.toPrefix = keyOf k.toPrefix) (hk : k.toPrefix.WF)
    (ht : Quiet TCall.role s.log o t) (htp : t ≤ p)
    (hp : s.log[p]? = some (.start i (.op (some o) (.remove k')))) (hq : s.log[q]? = some (.done i z)) (hqp : q < p')
    (hp' : s.log[p']? = some (.start j (.op (some o) (.get k)))) (hq' : s.log[q']? = some (.done j y))
    (hno : ∀ b i' w', t ≤ b → b < q' → s.log[b]? = some (.start i' (.op (some o) w')) → ¬ w'.Adds (keyOf k.toPrefix)) :
    y = .result (.found default false) := by
  obtain ⟨_, _, T, l, ob', a1, a2, a3, a4, a5, _, a6, a7, a8, a9, a10⟩ := C62_table_write hF h rfl hp hq
  obtain ⟨k2, ob2, T2, b1, b2, b3, b4, b5, b6⟩ := C37_table hF h hp' hq' (Or.inl ⟨k, rfl⟩)
  obtain ⟨T', c1, c2, e, c3⟩ := table_at hF h a3
  cases c1.functional a4
  obtain ⟨m, hm⟩ := C23_shows T a5
  have hwk := (h.pre (List.mem_of_getElem? hp) rfl).1
  have r1 := (Table.step_spec (hm.repr a5.good) c3 _ hwk).1.shows
  obtain ⟨m', d1, d2⟩ := table_keeps hF h (n := q') ht (R := fun m => m (keyOf k.toPrefix) = none)
    (fun b i' w' e m g1 g2 hs hh => PMap.step_absent hh (hno b i' w' g1 g2 hs)) (Nat.le_of_lt b2) (show t ≤ l by omega)
    (show l ≤ k2 by omega) a8 a9 r1 (by show PMap.erase _ _ _ = none; simp only [PMap.erase, hkk, if_true]) b3 b4
  have := d1 k hk
  rw [d2] at this
  simp only at b6 this
  rw [b6, this]

/-- A value that `Get` finds was given to this key by a call on this table, or it came with the `Table` that this
    table was made from. -/
theorem C62_table_origin (hF : 2 * width α + 3 ≤ F) {s : TState α D σ F} (h : s.Reach) {j o p q : Nat}
    {k : PrefixI α} {v : D} (hk : k.toPrefix.WF) (hp : s.log[p]? = some (.start j (.op (some o) (.get k))))
    (hq : s.log[q]? = some (.done j (.result (.found v true)))) :
    (∃ i w, .start i (.op (some o) w) ∈ s.log.take q ∧ w.Stores (keyOf k.toPrefix) v) ∨
    ∃ (i : Nat) (ob : Obj D) (T : Table α D), .act i (.made o ob) ∈ s.log ∧ ob.Is s.mem T ∧ T.get k = (v, true) := by
  apply Classical.byContradiction
  intro hn
  have ok := tableLib_ok (α := α) (D := D) (σ := σ) hF
  obtain ⟨g, inv⟩ := h.inv ok
  obtain ⟨k2, ob2, T2, b1, b2, b3, b4, b5, b6⟩ := C37_table hF h hp hq (Or.inl ⟨k, rfl⟩)
  obtain ⟨m, i, ob, c1, c2⟩ : ∃ m i ob, m < k2 ∧ At s.log m i (.made o ob) := objAt_from inv.entryOk b3
  have c3 := (objAt_made inv.entryOk c2).2
  obtain ⟨T, d1, d2, _⟩ := table_at hF h c3
  obtain ⟨mm, hmm⟩ := C23_shows T d2
  have h0 : mm (keyOf k.toPrefix) ≠ some v := by
    intro hh
    have := hmm k hk
    rw [hh] at this
    exact hn (Or.inr ⟨i, ob, T, c2.mem, d1, this⟩)
  obtain ⟨m', e1, e2⟩ := table_keeps hF h (n := q) (Quiet.zero _ _ _) (R := fun m => m (keyOf k.toPrefix) ≠ some v)
    (fun b i' w' e m g1 g2 hs hh => PMap.step_stores hh fun hst => hn (Or.inl ⟨i', w', List.mem_of_getElem? (i := b)
      (by rw [List.getElem?_take_of_lt g2]; exact hs), hst⟩)) (Nat.le_of_lt b2)
    (Nat.zero_le _) (show m + 1 ≤ k2 by omega) c3 d1 hmm h0 b3 b4
  have := e1 k hk
  simp only [TVal.result.injEq, Result.found.injEq] at b6
  cases hm : m' (keyOf k.toPrefix) with
  | none => rw [hm] at this; simp only at this; rw [this] at b6; cases b6.2
  | some u =>
    rw [hm] at this; simp only at this; rw [this] at b6
    rw [b6.1] at e2; exact e2 hm

end

/-! ### sets -/

section
variable {α σ : Type} [HeapFamily α] {F : Nat}

theorem set_at (hF : setBound α ≤ F) {s : SState α σ F} (h : s.Reach) {k o : Nat} {ob : Obj Empty}
    (hk : objAt s.log k o = some ob) : ∃ S : IPSet α, ob.Holds s.mem S := by
  have ok := setLib_ok (α := α) (σ := σ) hF
  obtain ⟨g, inv, hist⟩ := h.inv' ok
  have ex : Exec sval SCall.olds SCall.spec s g := ⟨h, inv, hist⟩
  obtain ⟨S, h1⟩ := ex.good_at hk
  exact ⟨S, h1.mono inv.mem.fz_le⟩

/-- what the argument of a write was -/
theorem SetArg.Has.during (hF : setBound α ≤ F) {s : SState α σ F} (h : s.Reach) {g : Ghost α Empty}
    (ex : Exec sval SCall.olds SCall.spec s g) {i b : Nat} {c : SCall α σ}
    (hb : s.log[b]? = some (.start i c)) {arg : SetArg α} (hv : ∀ x ∈ arg.vals, x ∈ c.vals) {v : View α Empty}
    (le : g.fz ≤ v) {B : α → Prop} (ha : arg.Has v (own i s.log) B) :
    ∃ A, arg.During s b s.log.length A ∧ A.Reachable ∧ B = A.has := by
  have ok := setLib_ok (α := α) (σ := σ) hF
  obtain ⟨evs, A, h1, h2, h3, rfl⟩ := ha
  cases arg with
  | nil => exact ⟨A, h2.2, h3, rfl⟩
  | address x => exact ⟨A, h2.2, h3, rfl⟩
  | «prefix» x => exact ⟨A, h2.2.1, h3, rfl⟩
  | range x => exact ⟨A, h2.2.1, h3, rfl⟩
  | set t =>
    have hk : s.Known t := h.vals (List.mem_of_getElem? hb) t (hv t (List.mem_singleton_self _))
    obtain ⟨A', h4⟩ := ex.inv.known ok hk
    cases (h4.mono le).functional h2.2
    exact ⟨A, h4.mono ex.inv.mem.fz_le, h3, rfl⟩
  | obj o' =>
    cases o' with
    | none => exact ⟨A, h2.2, h3, rfl⟩
    | some o' =>
      obtain ⟨ob, rfl, h4⟩ := h2
      obtain ⟨k, hk⟩ := List.mem_iff_getElem?.mp (mem_own.mp (h1 (.load o' ob) (by simp)))
      have h5 := objAt_load ex.inv.entryOk hk
      obtain ⟨A', h6⟩ := ex.good_at h5
      cases (h6.mono le).functional h4
      exact ⟨A, ⟨k, ob, start_first ok h hb hk rfl (by intros; simp), At.lt hk, h5, h6.mono ex.inv.mem.fz_le⟩, h3, rfl⟩

/-- the call is `Insert` on `o` with this argument -/
def SCall.Inserts (c : SCall α σ) (o : Nat) (arg : SetArg α) : Prop := ∃ l, c = .insert (some o) arg l
/-- the call is `Remove` on `o` with this argument -/
def SCall.Removes (c : SCall α σ) (o : Nat) (arg : SetArg α) : Prop := ∃ l, c = .remove (some o) arg l

/-- An `Insert` or `Remove` that returned was applied to members `S` that the set had at a time `k` during the call, with an
    argument `A` as it was during the call, and the members that this makes are what the set held at some time `l`
    during the call. -/
theorem C62_set_write (hF : setBound α ≤ F) {s : SState α σ F} (h : s.Reach) {i o p q : Nat} {arg : SetArg α}
    {c : SCall α σ} {z : SVal α σ} (hw : c.Inserts o arg ∨ c.Removes o arg)
    (hp : s.log[p]? = some (.start i c)) (hq : s.log[q]? = some (.done i z)) :
    ∃ k ob S A l ob' S', p < k ∧ k < q ∧ objAt s.log k o = some ob ∧ ob.Holds s.mem S ∧ arg.During s p q A ∧
      p < l ∧ l ≤ q ∧ objAt s.log l o = some ob' ∧ ob'.Holds s.mem S' ∧
      (c.Inserts o arg → ∀ x, S'.has x ↔ S.has x ∨ A.has x) ∧
      (c.Removes o arg → ∀ x, S'.has x ↔ S.has x ∧ ¬ A.has x) := by
  have ok := setLib_ok (α := α) (σ := σ) hF
  have hQ : SCall.spec _ (own i s.log) z s.mem := done_spec' ok h (List.mem_of_getElem? hp) (List.mem_of_getElem? hq)
  obtain ⟨g, inv⟩ := h.inv ok
  have key : ∀ (f : IPSet α → SetI α → IPSet α) (fr : OldRoots α Empty), SWriteSpec o arg f fr (own i s.log) s.mem →
      ∃ k ob S A l ob', p < k ∧ k < q ∧ objAt s.log k o = some ob ∧ ob.Holds s.mem S ∧ arg.During s p q A ∧
      A.Reachable ∧ p < l ∧ l ≤ q ∧ objAt s.log l o = some ob' ∧ ob'.Holds s.mem (f S (.set A)) := by
    rintro f fr ⟨ob1, ob2, S2, A, evs, pre, post, h1, h2, h3, h4, h5⟩
    have hsub : ∀ e ∈ evs, e ∈ own i s.log := by
      intro e he
      rcases h5 with ⟨h5, _⟩ | ⟨new, h5, _⟩ <;> rw [h5] <;> rcases h4 with ⟨rfl, rfl⟩ | ⟨rfl, rfl⟩ <;> simp [he]
    have hd := h3.during hF h hp hq hsub
    obtain ⟨k2, a1, a2, a3⟩ : ∃ k, p < k ∧ k < q ∧ objAt s.log k o = some ob2 := by
      refine load_between ok h hp hq ?_
      rcases h5 with ⟨h5, _⟩ | ⟨_, h5, _⟩ <;> rw [h5] <;> simp
    rcases h5 with ⟨h5, h6, _⟩ | ⟨new, h5, h6, h7⟩
    · obtain ⟨k1, b1, b2, b3⟩ := load_between ok h hp hq (o := o) (ob := ob1) (by rw [h5]; simp)
      exact ⟨k2, ob2, S2, A, k1, ob1, a1, a2, a3, h2, hd, h3.reachable, b1, by omega, b3, h6⟩
    · obtain ⟨m, b1, b2, b3⟩ := swap_between ok h hp hq (o := o) (x := ob1.trie) (y := new) (by rw [h5]; simp)
      obtain ⟨ob, c1, c2, c3⟩ := objAt_swap inv.entryOk b3
      obtain ⟨S1, d1⟩ := set_at hF h c1
      exact ⟨k2, ob2, S2, A, m + 1, _, a1, a2, a3, h2, hd, h3.reachable, by omega, by omega, c3,
        ⟨h7.1, h7.2.1, d1.2.2⟩⟩
  rcases hw with ⟨l, rfl⟩ | ⟨l, rfl⟩
  · obtain ⟨o', e, _, hQ⟩ := hQ
    cases e
    obtain ⟨k, ob, S, A, l, ob', b1, b2, b3, b4, b5, b6, b7, b8, b9, b10⟩ := key _ _ hQ
    refine ⟨k, ob, S, A, l, ob', _, b1, b2, b3, b4, b5, b7, b8, b9, b10, fun _ x => ?_, ?_⟩
    · rw [IPSet.has_union b4.2.1 b6]
    · rintro ⟨_, e⟩; cases e
  · obtain ⟨o', e, _, hQ⟩ := hQ
    cases e
    obtain ⟨k, ob, S, A, l, ob', b1, b2, b3, b4, b5, b6, b7, b8, b9, b10⟩ := key _ _ hQ
    refine ⟨k, ob, S, A, l, ob', _, b1, b2, b3, b4, b5, b7, b8, b9, b10, ?_, fun _ x => ?_⟩
    · rintro ⟨_, e⟩; cases e
    · rw [IPSet.has_difference b4.2.1 b6]

example := C62_set_write (by decide) Bad.sback_reach (i := 1) (o := 0) (p := 3) (q := 17) (arg := Bad.a2)
  (Or.inl ⟨false, rfl⟩) (by rw [Bad.sback_log]; rfl) (by rw [Bad.sback_log]; rfl)

/-- what a write of a set does to its members -/
theorem SCall.eff_write {c : SCall α σ} {tr : List (Event Empty)} {v : View α Empty} {a a' : α → Prop} {z : SVal α σ}
    {o : Nat} {κ : Bool} (he : c.eff tr v a z a') (hr : c.role = some (o, some κ)) :
    ∃ arg B, (∀ x ∈ arg.vals, x ∈ c.vals) ∧ arg.Has v tr B ∧
      ((c.Inserts o arg ∧ a' = fun x => a x ∨ B x) ∨ (c.Removes o arg ∧ a' = fun x => a x ∧ ¬ B x)) := by
  cases c with
  | insert hd arg l =>
    cases hd <;> cases hr
    obtain ⟨B, h1, _, h2⟩ := he
    exact ⟨arg, B, fun x hx => hx, h1, Or.inl ⟨⟨l, rfl⟩, h2⟩⟩
  | remove hd arg l =>
    cases hd <;> cases hr
    obtain ⟨B, h1, _, h2⟩ := he
    exact ⟨arg, B, fun x hx => hx, h1, Or.inr ⟨⟨l, rfl⟩, h2⟩⟩
  | freeze hd => cases hd <;> cases hr
  | size r => rcases r with (_ | o') | t <;> cases hr
  | isEmpty r => rcases r with (_ | o') | t <;> cases hr
  | contains r arg => rcases r with (_ | o') | t <;> cases hr
  | equal_ hd hd' l => cases hd <;> cases hr
  | union r arg => rcases r with (_ | o') | t <;> cases hr
  | intersection r arg => rcases r with (_ | o') | t <;> cases hr
  | difference r arg => rcases r with (_ | o') | t <;> cases hr
  | _ => cases hr

/-- Every change of a set is one `Insert` or `Remove`: the new members are what that call makes of the members that the set
    had at a time since the call was started, with the argument as it was at a time since then. -/
theorem C62_set_versions (hF : setBound α ≤ F) {s : SState α σ F} (h : s.Reach) {o l : Nat} {ob ob' : Obj Empty}
    {S' : IPSet α} (h1 : objAt s.log l o = some ob) (h2 : objAt s.log (l + 1) o = some ob') (hne : ob' ≠ ob)
    (h3 : ob'.Holds s.mem S') :
    ∃ i c p k ob2 S arg A, s.log[p]? = some (.start i c) ∧ p < k ∧ k < l ∧ objAt s.log k o = some ob2 ∧
      ob2.Holds s.mem S ∧ arg.During s p s.log.length A ∧
      ((c.Inserts o arg ∧ ∀ x, S'.has x ↔ S.has x ∨ A.has x) ∨
        (c.Removes o arg ∧ ∀ x, S'.has x ↔ S.has x ∧ ¬ A.has x)) := by
  have ok := setLib_ok (α := α) (σ := σ) hF
  obtain ⟨g, inv, hist⟩ := h.inv' ok
  have ex : Exec sval SCall.olds SCall.spec s g := ⟨h, inv, hist⟩
  obtain ⟨m, i, c, κ, p, k2, ob2, a2, a', z, v, q1, q2, q3, q4, q5, q6, q7, q8, ⟨S2, r1, rfl⟩, q10, r3,
    ⟨S4, r6, rfl⟩, q13⟩ := version ok setLin ex (Nat.le_succ l) h1 h2 hne
  cases (r6.mono inv.mem.fz_le).functional h3
  obtain ⟨arg, B, u1, u2, u3⟩ := SCall.eff_write r3 q5
  obtain ⟨A, u4, u5, rfl⟩ := u2.during hF h ex q4 u1 q10
  refine ⟨i, c, p, k2, ob2, S2, arg, A, q4, q6, by omega, q8, r1.mono inv.mem.fz_le, u4, ?_⟩
  rcases u3 with ⟨u3, u6⟩ | ⟨u3, u6⟩
  · exact Or.inl ⟨u3, fun x => by rw [u6]⟩
  · exact Or.inr ⟨u3, fun x => by rw [u6]⟩

/-- At every time a set is a proper set. -/
theorem C62_set_valid (hF : setBound α ≤ F) {s : SState α σ F} (h : s.Reach) {k o : Nat} {ob : Obj Empty}
    (hk : objAt s.log k o = some ob) : ∃ S : IPSet α, ob.Holds s.mem S ∧ S.Reachable := by
  obtain ⟨S, h1⟩ := set_at hF h hk
  exact ⟨S, h1, h1.2.1⟩

example := C62_set_valid (by decide) Bad.sback_reach (o := 0) (k := 17) (by rw [Bad.sback_log]; rfl)

/-- a property of the members that no write on the set ends -/
theorem set_keeps (hF : setBound α ≤ F) {s : SState α σ F} (h : s.Reach) {o t n k l : Nat}
    (hq : Quiet SCall.role s.log o t) {R : (α → Prop) → Prop}
    (hR : ∀ b i c arg A a, t ≤ b → b < n → s.log[b]? = some (.start i c) → arg.During s b s.log.length A → R a →
      (c.Inserts o arg → R fun x => a x ∨ A.has x) ∧ (c.Removes o arg → R fun x => a x ∧ ¬ A.has x))
    (hln : l ≤ n) (htk : t ≤ k) (hkl : k ≤ l)
    {ob ob' : Obj Empty} {S S' : IPSet α} (h1 : objAt s.log k o = some ob) (h2 : ob.Holds s.mem S)
    (h4 : R S.has) (h5 : objAt s.log l o = some ob') (h6 : ob'.Holds s.mem S') : R S'.has := by
  have ok := setLib_ok (α := α) (σ := σ) hF
  obtain ⟨g, inv, hist⟩ := h.inv' ok
  have ex : Exec sval SCall.olds SCall.spec s g := ⟨h, inv, hist⟩
  obtain ⟨S0, g1⟩ := ex.good_at h1
  obtain ⟨S1, g4⟩ := ex.good_at h5
  cases (g1.mono inv.mem.fz_le).functional h2
  cases (g4.mono inv.mem.fz_le).functional h6
  refine keeps ok setLin ex (o := o) (n := n) hq (P := R) ?_ hln htk hkl h1 ⟨S, g1, rfl⟩ h4 h5 ⟨S', g4, rfl⟩
  intro i c κ v a z a' b hb1 hb2 hs hr hv he hRa
  obtain ⟨arg, B, u1, u2, u3⟩ := SCall.eff_write he hr
  obtain ⟨A, u4, u5, rfl⟩ := u2.during hF h ex hs u1 hv
  have := hR b i c arg A a hb1 hb2 hs u4 hRa
  rcases u3 with ⟨u3, rfl⟩ | ⟨u3, rfl⟩
  · exact this.1 u3
  · exact this.2 u3

/-- what `Contains` of an address says -/
theorem contains_address (hF : setBound α ≤ F) {s : SState α σ F} (h : s.Reach) {j o p q : Nat} {x : α} {y : SVal α σ}
    (hp : s.log[p]? = some (.start j (.contains (.obj (some o)) (.address x)))) (hq : s.log[q]? = some (.done j y)) :
    ∃ k ob S, p < k ∧ k < q ∧ objAt s.log k o = some ob ∧ ob.Holds s.mem S ∧ ∃ b, y = .bool b ∧ (b = true ↔ S.has x) := by
  obtain ⟨k, ob, a, h1, h2, h3, ⟨S, h4, rfl⟩, h5⟩ := read_consistent (setLib_ok hF) setLin h hp hq rfl
  obtain ⟨⟨B, b, ⟨evs, A, _, ⟨_, rfl⟩, _, rfl⟩, h7, h8⟩, _⟩ := h5
  refine ⟨k, ob, S, h1, h2, h3, h4, b, h7, h8.trans ?_⟩
  constructor
  · intro hh; exact hh x ((C08_address x x).mpr rfl)
  · intro hh y hy; rw [← (C08_address x y).mp hy]; exact hh

/-- Once `Insert` has returned, `Contains` of an address that the argument had is true, whatever else is running, if nobody
    has called `Remove` with an argument that had this address since a time `t` at which no write on the set was in
    progress. -/
theorem C62_set_kept (hF : setBound α ≤ F) {s : SState α σ F} (h : s.Reach) {i j o t p q p' q' : Nat}
    {arg : SetArg α} {c : SCall α σ} {x : α} {z y : SVal α σ} (hw : c.Inserts o arg)
    (hx : ∀ A, arg.During s p q A → A.has x) (ht : Quiet SCall.role s.log o t) (htp : t ≤ p)
    (hp : s.log[p]? = some (.start i c)) (hq : s.log[q]? = some (.done i z)) (hqp : q < p')
    (hp' : s.log[p']? = some (.start j (.contains (.obj (some o)) (.address x)))) (hq' : s.log[q']? = some (.done j y))
    (hno : ∀ b i' c' arg' A, t ≤ b → b < q' → s.log[b]? = some (.start i' c') → c'.Removes o arg' →
      arg'.During s b s.log.length A → ¬ A.has x) :
    y = .bool true := by
  obtain ⟨k, ob, S, A, l, ob', S', a1, a2, a3, a4, a5, a6, a7, a8, a9, a10, _⟩ := C62_set_write hF h (Or.inl hw) hp hq
  obtain ⟨k2, ob2, S2, b1, b2, b3, b4, b, rfl, b6⟩ := contains_address hF h hp' hq'
  have := set_keeps hF h (n := q') ht (R := fun a => a x)
    (fun b i' c' arg' A a g1 g2 g3 g4 g5 => ⟨fun _ => Or.inl g5, fun g6 => ⟨g5, hno b i' c' arg' A g1 g2 g3 g6 g4⟩⟩)
    (Nat.le_of_lt b2) (show t ≤ l by omega) (show l ≤ k2 by omega) a8 a9 ((a10 hw x).mpr (Or.inr (hx A a5))) b3 b4
  rw [b6.mpr this]

/-- Once `Remove` has returned, `Contains` of an address that the argument had is false, whatever else is running, if nobody
    has called `Insert` with an argument that had this address since a time `t` at which no write on the set was in
    progress. -/
theorem C62_set_gone (hF : setBound α ≤ F) {s : SState α σ F} (h : s.Reach) {i j o t p q p' q' : Nat}
    {arg : SetArg α} {c : SCall α σ} {x : α} {z y : SVal α σ} (hw : c.Removes o arg)
    (hx : ∀ A, arg.During s p q A → A.has x) (ht : Quiet SCall.role s.log o t) (htp : t ≤ p)
    (hp : s.log[p]? = some (.start i c)) (hq : s.log[q]? = some (.done i z)) (hqp : q < p')
    (hp' : s.log[p']? = some (.start j (.contains (.obj (some o)) (.address x)))) (hq' : s.log[q']? = some (.done j y))
    (hno : ∀ b i' c' arg' A, t ≤ b → b < q' → s.log[b]? = some (.start i' c') → c'.Inserts o arg' →
      arg'.During s b s.log.length A → ¬ A.has x) :
    y = .bool false := by
  obtain ⟨k, ob, S, A, l, ob', S', a1, a2, a3, a4, a5, a6, a7, a8, a9, _, a10⟩ := C62_set_write hF h (Or.inr hw) hp hq
  obtain ⟨k2, ob2, S2, b1, b2, b3, b4, b, rfl, b6⟩ := contains_address hF h hp' hq'
  have := set_keeps hF h (n := q') ht (R := fun a => ¬ a x)
    (fun b i' c' arg' A a g1 g2 g3 g4 g5 => ⟨fun g6 g7 => g7.elim g5 (hno b i' c' arg' A g1 g2 g3 g6 g4), fun _ g7 => g5 g7.1⟩)
    (Nat.le_of_lt b2) (show t ≤ l by omega) (show l ≤ k2 by omega) a8 a9 (fun hh => ((a10 hw x).mp hh).2 (hx A a5)) b3 b4
  cases b with
  | false => rfl
  | true => exact (this (b6.mp rfl)).elim

/-- An address that a set contains was in the argument of an `Insert` on this set, or in the `Set` that it was made from. -/
theorem C62_set_origin (hF : setBound α ≤ F) {s : SState α σ F} (h : s.Reach) {j o p q : Nat} {x : α}
    (hp : s.log[p]? = some (.start j (.contains (.obj (some o)) (.address x))))
    (hq : s.log[q]? = some (.done j (.bool true))) :
    (∃ (b i : Nat) (c : SCall α σ) (arg : SetArg α) (A : IPSet α), b < q ∧ s.log[b]? = some (.start i c) ∧ c.Inserts o arg ∧
      arg.During s b s.log.length A ∧ A.has x) ∨
    ∃ (i : Nat) (ob : Obj Empty) (S : IPSet α), .act i (.made o ob) ∈ s.log ∧ ob.Holds s.mem S ∧ S.has x := by
  apply Classical.byContradiction
  intro hn
  have ok := setLib_ok (α := α) (σ := σ) hF
  obtain ⟨g, inv⟩ := h.inv ok
  obtain ⟨k2, ob2, S2, b1, b2, b3, b4, b, hb, b6⟩ := contains_address hF h hp hq
  cases hb
  obtain ⟨m, i, ob, c1, c2⟩ : ∃ m i ob, m < k2 ∧ At s.log m i (.made o ob) := objAt_from inv.entryOk b3
  have c3 := (objAt_made inv.entryOk c2).2
  obtain ⟨S, d1⟩ := set_at hF h c3
  refine set_keeps hF h (n := q) (Quiet.zero _ _ _) (R := fun a => ¬ a x) ?_ (Nat.le_of_lt b2)
    (Nat.zero_le _) (show m + 1 ≤ k2 by omega) c3 d1 (fun hh => hn (Or.inr ⟨i, ob, S, c2.mem, d1, hh⟩)) b3 b4 (b6.mp rfl)
  intro b i' c' arg' A a g1 g2 g3 g4 g5
  exact ⟨fun g6 g7 => g7.elim g5 fun g8 => hn (Or.inl ⟨b, i', c', arg', A, g2, g3, g6, g4, g8⟩), fun _ g7 => g5 g7.1⟩

end
end Addrs

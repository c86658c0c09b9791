import Verif.TableLin
import Verif.ConcProps
import Verif.PropTables
import Verif.PropTableExact
import Verif.ConcSamples
/-
  Properties C34–C38, C41 and C42 for tables: statements about every execution of the machine of
  `Verif/Machine.lean` running the calls of `Verif/HeapTable.lean`, with any number of goroutines and any
  interleaving.  `F` is the recursion depth that is available; everything holds from a bound that depends
  only on the address family.
-/
set_option linter.unusedSectionVars false
namespace Addrs
open GoWord LawfulGoWord

section
variable {α D σ : Type} [LawfulGoWord α] [Inhabited D] [Comparable D] {F : Nat}

/-- the states of the machine for tables -/
abbrev TState (α D σ : Type) [LawfulGoWord α] [Inhabited D] [Comparable D] (F : Nat) := State (tableLib α D σ F)

/-- the nodes of the machine's memory -/
abbrev State.mem {α D : Type} {L : Lib α D} (s : State L) : View α D := View.ofHeap s.heap

/-! ### C34 -/

/-- the result that a read of the `Table` `x` with contents `T` has; other calls may return anything -/
def TCall.ReadsAs (x : Obj D) (T : Table α D) (v : View α D) (z : TVal α D σ) : TCall α D σ → Prop
  | xget t k => t = x → z = .result (.found (T.get k).1 (T.get k).2)
  | xlongest t k => t = x → z = .match (T.longestMatch k)
  | xnum t => t = x → z = .num T.numEntries
  | walk t cb s => t = x → z = .walked (T.walk cb s)
  | diff t u cb s => (t = x → ∃ U : Table α D, u.Is v U ∧ z = .walked (T.diff U cb s)) ∧
    (u = x → ∃ U : Table α D, t.Is v U ∧ z = .walked (U.diff T cb s))
  | map t f s => t = x → ∃ t', z = .mapped t' (T.map f s).2 ∧ t'.Is v (T.map f s).1
  | aggregate t => t = x → ∃ t', z = .table t' ∧ t'.Is v T.aggregate
  | thaw t => t = x → ∃ o, z = .handle o
  | _ => True

/-- Every `Table` that a program has stands for one table `T`, now and forever, and every read of it, made
    at any time, by any goroutine, whatever else has happened or is happening, returns what `T` says. -/
theorem C34_table (hF : 2 * width α + 3 ≤ F) {s : TState α D σ F} (h : s.Reach) {x : Obj D} (hx : s.Known x) :
    ∃ T : Table α D, T.Reachable ∧ ∀ t, s.Steps t → x.Is t.mem T ∧
      ∀ i c z, .start i c ∈ t.log → .done i z ∈ t.log → TCall.ReadsAs x T t.mem z c := by
  have ok := tableLib_ok (α := α) (D := D) (σ := σ) hF
  obtain ⟨v, ⟨T, h1, h2⟩, h3⟩ := known_good ok h hx
  refine ⟨T, h2, fun t ht => ⟨h1.mono (h3 t ht), ?_⟩⟩
  have hT := h1.mono (h3 t ht)
  intro i c z hs hd
  have hQ : c.spec (own i t.log) z t.mem := done_spec' ok (h.steps ht) hs hd
  have key : ∀ {ρ : Type} {f : Table α D → ρ} {r : ρ}, ValSpec x f (own i t.log) r t.mem → r = f T := by
    rintro ρ f r ⟨_, T', h1', _, rfl⟩
    rw [h1'.functional hT]
  cases c with
  | xget u k => rintro rfl; exact key hQ
  | xlongest u k => rintro rfl; exact key hQ
  | xnum u => rintro rfl; exact key hQ
  | walk u cb st => rintro rfl; exact key hQ
  | diff u w cb st =>
    obtain ⟨W, h4, h5, h6⟩ := hQ
    constructor
    · rintro rfl
      exact ⟨W, h4, key h6⟩
    · rintro rfl
      obtain ⟨_, U, h7, h8, h9⟩ := h6
      cases h4.functional hT
      exact ⟨U, h7, h9⟩
  | map u f st =>
    rintro rfl
    obtain ⟨t', s', rfl, T', h4, h5⟩ := hQ
    have h6 := key h5
    rw [Prod.mk.injEq] at h6
    obtain ⟨rfl, rfl⟩ := h6
    exact ⟨t', rfl, h4⟩
  | aggregate u =>
    rintro rfl
    obtain ⟨t', rfl, T', h4, _, h5⟩ := hQ
    cases key h5
    exact ⟨t', rfl, h4⟩
  | thaw u => rintro rfl; obtain ⟨o, _, _, rfl, _⟩ := hQ; exact ⟨o, rfl⟩
  | _ => trivial

/-- a snapshot that was taken, then its table was modified, cloned and the clone modified -/
example := C34_table (by decide) Sample.s1_reach Sample.x1_known

/-- Asking a `Table` the same question twice, at any two times, gives the same answer. -/
theorem C34_table_repeat (hF : 2 * width α + 3 ≤ F) {s : TState α D σ F} (h : s.Reach) {i j : Nat} {x : Obj D}
    {k : PrefixI α} {z z' : TVal α D σ} {c : TCall α D σ} (hc : c = .xget x k ∨ c = .xlongest x k ∨ c = .xnum x ∨
      ∃ cb st, c = .walk x cb st)
    (hi : .start i c ∈ s.log) (hj : .start j c ∈ s.log) (hz : .done i z ∈ s.log) (hz' : .done j z' ∈ s.log) : z = z' := by
  have ok := tableLib_ok (α := α) (D := D) (σ := σ) hF
  have h1 : c.spec (own i s.log) z s.mem := done_spec' ok h hi hz
  have h2 : c.spec (own j s.log) z' s.mem := done_spec' ok h hj hz'
  have key : ∀ {f : Table α D → TVal α D σ} , ValSpec x f (own i s.log) z s.mem →
      ValSpec x f (own j s.log) z' s.mem → z = z' := by
    rintro f ⟨_, T, g1, _, rfl⟩ ⟨_, T', g2, _, rfl⟩
    rw [g1.functional g2]
  rcases hc with rfl | rfl | rfl | ⟨cb, st, rfl⟩ <;> exact key h1 h2

example := C34_table_repeat (by decide) Sample.s2_reach (i := 6) (j := 11) (x := Sample.x1) (k := Sample.c1)
  (c := .xget Sample.x1 Sample.c1) (Or.inl rfl) (by rw [Sample.s2_log]; simp [Sample.log2])
  (by rw [Sample.s2_log]; simp [Sample.log2]) (z := .result (.found 7 true)) (z' := .result (.found 7 true))
  (by rw [Sample.s2_log]; simp [Sample.log2]) (by rw [Sample.s2_log]; simp [Sample.log2])

/-! ### C37 -/

/-- A read on a mutable table (`Get`, `LongestMatch`, `NumEntries`, `Table()`) returns the answer for one
    state that the table had at a time `k` between the call's start `p` and its end `q`. -/
theorem C37_table (hF : 2 * width α + 3 ≤ F) {s : TState α D σ F} (h : s.Reach) {i o p q : Nat} {c : TCall α D σ}
    {z : TVal α D σ} (hp : s.log[p]? = some (.start i c)) (hq : s.log[q]? = some (.done i z))
    (hr : (∃ k, c = .op (some o) (.get k)) ∨ (∃ k, c = .longest (some o) k) ∨ c = .num (some o) ∨ c = .freeze (some o)) :
    ∃ k ob T, p < k ∧ k < q ∧ objAt s.log k o = some ob ∧ ob.Is s.mem T ∧ T.Reachable ∧
      match c with
      | .op _ (.get k) => z = .result (.found (T.get k).1 (T.get k).2)
      | .longest _ k => z = .match (T.longestMatch k)
      | .num _ => z = .num T.numEntries
      | .freeze _ => z = .table ob
      | _ => False := by
  have ok := tableLib_ok (α := α) (D := D) (σ := σ) hF
  have hQ : c.spec (own i s.log) z s.mem := done_spec' ok h (List.mem_of_getElem? hp) (List.mem_of_getElem? hq)
  have key : ∀ {f : Table α D → TVal α D σ}, ReadSpec (some o) f (own i s.log) z s.mem →
      ∃ k ob T, p < k ∧ k < q ∧ objAt s.log k o = some ob ∧ ob.Is s.mem T ∧ T.Reachable ∧ z = f T := by
    rintro f ⟨ob, T, h1, h2, h3, h4⟩
    obtain ⟨k, h5, h6, h7⟩ := load_between ok h hp hq (o := o) (ob := ob) (by rw [h1]; simp)
    exact ⟨k, ob, T, h5, h6, h7, h2, h3, h4⟩
  rcases hr with ⟨k, rfl⟩ | ⟨k, rfl⟩ | rfl | rfl
  · exact key hQ
  · exact key hQ
  · exact key hQ
  · obtain ⟨ob, h1, rfl, T, h2, h3⟩ := hQ
    obtain ⟨k, h5, h6, h7⟩ := load_between ok h hp hq (o := o) (ob := ob) (by rw [h1]; simp)
    exact ⟨k, ob, T, h5, h6, h7, h2, h3, rfl⟩

/-- thread 5 reads while thread 3 is still running -/
example := C37_table (by decide) Sample.s1_reach (i := 5) (p := 20) (q := 22) (by rw [Sample.s1_log]; rfl)
  (by rw [Sample.s1_log]; rfl) (Or.inl ⟨Sample.c3, rfl⟩)

/-! ### C35 -/

/-- only a write on a table changes it -/
theorem table_swap (hF : 2 * width α + 3 ≤ F) {s : TState α D σ F} (h : s.Reach) {o m i : Nat} {x y : Ptr}
    (hm : At s.log m i (.swap o x y)) : ∃ p, .start i (.op (some o) p) ∈ s.log ∧ TableOp.writes p = true := by
  have ok := tableLib_ok (α := α) (D := D) (σ := σ) hF
  obtain ⟨g, inv, hist⟩ := h.inv' ok
  obtain ⟨c, κ, _, _, _, _, _, _, _, _, F⟩ := swap_facts ok tableLin ⟨h, inv, hist⟩ hm
  have hr := F.role_
  have hs := F.start
  cases c with
  | op hd w =>
    cases hd with
    | none => cases hr
    | some o' =>
      simp only [TCall.role] at hr
      split at hr
      · next hw => cases hr; exact ⟨w, hs, hw⟩
      · cases hr
  | longest hd k => cases hd <;> cases hr
  | num hd => cases hd <;> cases hr
  | freeze hd => cases hd <;> cases hr
  | _ => cases hr

/-- A mutable table changes only through writes on that very table: if it is not the same at two times,
    then in between some goroutine's write on it took effect. -/
theorem C35_table_own_writes (hF : 2 * width α + 3 ≤ F) {s : TState α D σ F} (h : s.Reach) {o k l : Nat} {ob ob' : Obj D}
    (hkl : k ≤ l) (h1 : objAt s.log k o = some ob) (h2 : objAt s.log l o = some ob') (hne : ob ≠ ob') :
    ∃ m i x y p, k ≤ m ∧ m < l ∧ At s.log m i (.swap o x y) ∧ .start i (.op (some o) p) ∈ s.log ∧
      TableOp.writes p = true := by
  have ok := tableLib_ok (α := α) (D := D) (σ := σ) hF
  obtain ⟨g, inv, hist⟩ := h.inv' ok
  rcases last_swap inv.entryOk hkl h1 with h3 | ⟨p, j, x', y', ob'', h3, h4, h5, h6, h7, _⟩
  · rw [h2] at h3; cases h3; exact (hne rfl).elim
  · obtain ⟨w, hs, hw⟩ := table_swap hF h h5
    exact ⟨p, j, x', y', w, h3, h4, h5, hs, hw⟩

example := C35_table_own_writes (by decide) Sample.s1_reach (o := 0) (k := 9) (l := 20) (by decide)
  (by rw [Sample.s1_log]; rfl) (by rw [Sample.s1_log]; rfl) (ob := Sample.x1) (ob' := ⟨some 2, .dflt⟩)
  (by intro h; cases h)

/-- `Table_()`, `NewTable_` and `NewTableCustomCompare_` return a new mutable table each time. -/
theorem C35_table_fresh (hF : 2 * width α + 3 ≤ F) {s : TState α D σ F} (h : s.Reach) {i j o : Nat}
    (hi : .done i (.handle o) ∈ s.log) (hj : .done j (.handle o) ∈ s.log) : i = j := by
  have ok := tableLib_ok (α := α) (D := D) (σ := σ) hF
  obtain ⟨g, inv⟩ := h.inv ok
  have made : ∀ i, .done i (.handle o) ∈ s.log → ∃ ob, .act i (.made o ob) ∈ s.log := by
    intro i hi
    obtain ⟨c, h1, h2⟩ := inv.done_spec i _ hi
    have h2 : c.spec _ _ _ := h2
    cases c with
    | new_ => obtain ⟨o', h3, h4⟩ := h2; cases h4; exact ⟨_, mem_own.mp (by rw [h3]; exact List.mem_singleton_self _)⟩
    | newCustom cmp => obtain ⟨o', h3, h4⟩ := h2; cases h4; exact ⟨_, mem_own.mp (by rw [h3]; exact List.mem_singleton_self _)⟩
    | thaw t => obtain ⟨o', _, h3, h4, _⟩ := h2; cases h4; exact ⟨_, mem_own.mp (by rw [h3]; exact List.mem_singleton_self _)⟩
    | op hd p =>
      simp only [TCall.spec, OpSpec] at h2
      split at h2
      · obtain ⟨_, _, _, h3, _⟩ := h2; cases h3
      · cases hd with
        | none => cases h2.2
        | some o => obtain ⟨_, _, _, _, _, h3⟩ := h2; cases h3
    | longest hd k => cases hd with
      | none => cases h2.2
      | some o => obtain ⟨_, _, _, _, _, h3⟩ := h2; cases h3
    | num hd => cases hd with
      | none => cases h2.2
      | some o => obtain ⟨_, _, _, _, _, h3⟩ := h2; cases h3
    | freeze hd => cases hd with
      | none => cases h2.2
      | some o => obtain ⟨_, _, h3, _⟩ := h2; cases h3
    | xget t k => obtain ⟨_, _, _, _, h3⟩ := h2; cases h3
    | xlongest t k => obtain ⟨_, _, _, _, h3⟩ := h2; cases h3
    | xnum t => obtain ⟨_, _, _, _, h3⟩ := h2; cases h3
    | walk t cb st => obtain ⟨_, _, _, _, h3⟩ := h2; cases h3
    | diff t u cb st => obtain ⟨_, _, _, _, _, _, _, h3⟩ := h2; cases h3
    | map t f st => obtain ⟨_, _, h3, _⟩ := h2; cases h3
    | aggregate t => obtain ⟨_, h3, _⟩ := h2; cases h3
  obtain ⟨ob, h1⟩ := made i hi
  obtain ⟨ob', h2⟩ := made j hj
  exact (made_once inv.entryOk h1 h2).1

example := C35_table_fresh (by decide) Sample.s2_reach (i := 7) (j := 7) (o := 1)
  (by rw [Sample.s2_log]; simp [Sample.log2]) (by rw [Sample.s2_log]; simp [Sample.log2])

/-- `t.Table_()` returns a mutable table `o` with the contents of `t` (and with `==` if `t` has no comparison
    function). -/
theorem C35_table_clone (hF : 2 * width α + 3 ≤ F) {s : TState α D σ F} (h : s.Reach) {i o : Nat} {t : Obj D}
    (hs : .start i (.thaw t) ∈ s.log) (hd : .done i (.handle o) ∈ s.log) :
    ∃ m ob T, At s.log m i (.made o ob) ∧ objAt s.log m o = none ∧ objAt s.log (m + 1) o = some ob ∧
      T.Reachable ∧ t.Is s.mem T ∧ ob.Is s.mem T.table_ := by
  have ok := tableLib_ok (α := α) (D := D) (σ := σ) hF
  obtain ⟨g, inv⟩ := h.inv ok
  obtain ⟨o', e, h1, h2, T, h3, h4, h5⟩ := done_spec' ok h hs hd
  cases h2
  obtain ⟨m, hm⟩ := List.mem_iff_getElem?.mp (mem_own.mp (by rw [h1]; exact List.mem_singleton_self _))
  exact ⟨m, _, T, hm, (objAt_made inv.entryOk hm).1, (objAt_made inv.entryOk hm).2, h5, h3, h4⟩

example := C35_table_clone (by decide) Sample.s2_reach (i := 7) (o := 1) (t := Sample.x1)
  (by rw [Sample.s2_log]; simp [Sample.log2]) (by rw [Sample.s2_log]; simp [Sample.log2])

/-! ### C38 -/

/-- A call on tables panics only if another goroutine's write on the same table took effect between two
    actions of the call; then the call itself has changed nothing. -/
theorem C38_table_panics (hF : 2 * width α + 3 ≤ F) {s : TState α D σ F} (h : s.Reach) {i : Nat}
    (hp : s.threads[i]? = some (some .panic)) :
    (∃ o j k l m ob x y q p, j ≠ i ∧ k < l ∧ l < m ∧ At s.log k i (.load o ob) ∧ At s.log l j (.swap o x y) ∧
      s.log[m]? = some (.fail i o q) ∧ .start j (.op (some o) p) ∈ s.log ∧ TableOp.writes p = true) ∧
    ∀ o x y, .act i (.swap o x y) ∉ s.log := by
  obtain ⟨o, j, k, l, m, ob, x, y, q, h1, h2, h3, h4, h5, h6, h7⟩ := panic_only_on_race (tableLib_ok hF) h hp
  obtain ⟨p, h8, h9⟩ := table_swap hF h h5
  exact ⟨⟨o, j, k, l, m, ob, x, y, q, p, h1, h2, h3, h4, h5, h6, h8, h9⟩, h7⟩

/-- thread 3 has panicked -/
example := C38_table_panics (by decide) Sample.s1_reach Sample.s1_panic

/-- A call that has neither returned nor panicked can take a step, and never exceeds the available depth of
    recursion. -/
theorem C38_table_progress (hF : 2 * width α + 3 ≤ F) {s : TState α D σ F} (h : s.Reach) {i : Nat}
    {P : Prog α D (TVal α D σ)} (hi : s.threads[i]? = some (some P)) :
    P ≠ .stuck ∧ (P ≠ .panic → ∃ s', s.act i = some s') :=
  ⟨fun e => never_stuck (tableLib_ok (σ := σ) hF) h (e ▸ hi), can_go_on (tableLib_ok hF) h hi⟩

example := C38_table_progress (by decide) Sample.s1_reach Sample.s1_panic

/-- In every infinite execution, every call takes only finitely many steps, whatever the other goroutines
    do. -/
theorem C38_table_terminates {f : Nat → TState α D σ F} {lab : Nat → Label (tableLib α D σ F)} (h : Execution f lab)
    (i : Nat) : ∃ N, ∀ n, N ≤ n → lab n ≠ .act i := finitely_many_steps h i

/-- From every state, a call that runs alone returns or panics; the latter only if it had already read the
    table and another write has taken effect since. -/
theorem C38_table_returns (hF : 2 * width α + 3 ≤ F) {s : TState α D σ F} (h : s.Reach) {i : Nat}
    {P : Prog α D (TVal α D σ)} (hi : s.threads[i]? = some (some P)) :
    ∃ t, State.Solo i s t ∧ ((∃ z, .done i z ∈ t.log) ∨ ∃ o q, .fail i o q ∈ t.log) :=
  run_to_end (tableLib_ok hF) P h hi

example := C38_table_returns (by decide) Sample.s1_reach Sample.s1_panic

/-! ### C36 -/

/-- What a call does to a plain map, and what it returns. -/
def TCall.mapEff (e : D → D → Bool) (c : TCall α D σ) (_ : List (Event D)) (v : View α D) (m : PMap D)
    (z : TVal α D σ) (m' : PMap D) : Prop :=
  match c with
  | op _ p => m' = (m.stepExact e p).1 ∧ ∃ r, z = .result r ∧ (p.key.toPrefix.WF → r = (m.stepExact e p).2)
  | freeze _ => m' = m ∧ ∃ t T, z = .table t ∧ t.Is v T ∧ T.Shows m
  | longest _ _ | num _ => m' = m
  | _ => False

/-- the object is a table with the comparison function `e` that reads as the map -/
def mapAbs (e : D → D → Bool) (v : View α D) (ob : Obj D) (m : PMap D) : Prop :=
  ∃ T : Table α D, ob.Is v T ∧ T.Reachable ∧ T.eq = some e ∧ T.Shows m

/-- The calls on the mutable table `o` can be put in one order that contains every call that has returned
    and no call that has panicked, that respects real time, and in which every call returns what it would
    return if the calls were made one after the other, and that ends with the table's present contents.
    The first part is about the entries as `Walk` lists them, the second about a plain map. -/
def TableAtomic (s : TState α D σ F) (o : Nat) : Prop :=
  Linearizable TCall.role tableAbs TCall.eff s o ∧
    ∃ e, Linearizable TCall.role (mapAbs e) (TCall.mapEff e) s o

theorem Table.Shows.congr {T T' : Table α D} {m : PMap D} (h : T.Shows m) (hT : T.Reachable) (hT' : T'.Reachable)
    (he : T.listed = T'.listed) : T'.Shows m := by
  intro k hk
  have h1 := h k hk
  cases hm : m (keyOf k.toPrefix) with
  | some v =>
    rw [hm] at h1
    simp only at h1 ⊢
    rw [C27_complete T hT, he, ← C27_complete T' hT'] at h1
    exact h1
  | none =>
    rw [hm] at h1
    simp only at h1 ⊢
    obtain ⟨m', hm'⟩ := C23_shows T' hT'
    have h2 := hm' k hk
    cases hm2 : m' (keyOf k.toPrefix) with
    | none => rw [hm2] at h2; exact h2
    | some v =>
      rw [hm2] at h2
      simp only at h2
      rw [C27_complete T' hT', ← he, ← C27_complete T hT, h1] at h2
      cases h2

theorem table_atomic_of (hF : 2 * width α + 3 ≤ F) {s : TState α D σ F} (h : s.Reach) {o : Nat} (ho : o < s.objs.length)
    (hl : Linearizable TCall.role tableAbs TCall.eff s o) : TableAtomic s o := by
  have ok := tableLib_ok (α := α) (D := D) (σ := σ) hF
  refine ⟨hl, ?_⟩
  obtain ⟨g, inv⟩ := h.inv ok
  obtain ⟨⟨T0, h1, h2⟩, h3⟩ := inv.objs_good s.objs[o] (List.getElem_mem ho)
  obtain ⟨e, he⟩ : ∃ e, EqFn.val s.objs[o].eq = some e := by
    cases hq : s.objs[o].eq with
    | nil => exact (h3 hq).elim
    | dflt => exact ⟨_, rfl⟩
    | custom cmp => exact ⟨_, rfl⟩
  have hcur : s.objs[o]? = some s.objs[o] := List.getElem?_eq_getElem ho
  refine ⟨e, hl.simulate ok h (fun a m => ∃ T : Table α D, T.Reachable ∧ a = T.contents ∧ T.eq = some e ∧ T.Shows m) ?_ ?_ ?_⟩
  · rintro m ob0 a0 hm ⟨T, k1, k2, rfl⟩
    obtain ⟨p, hp⟩ := List.mem_iff_getElem?.mp hm
    have hp' : At s.log p m (.made o ob0) := hp
    obtain ⟨ob', k3, k4⟩ := objAt_later inv.entryOk (show p + 1 ≤ s.log.length from hp'.lt) (objAt_made inv.entryOk hp').2
    rw [inv.objAt_end, hcur] at k3
    cases k3
    have k5 : T.eq = some e := by rw [k1.2, ← k4, he]
    obtain ⟨mm, hmm⟩ := C23_shows T k2
    exact ⟨mm, ⟨T, k2, rfl, k5, hmm⟩, T, k1, k2, k5, hmm⟩
  · rintro ob a b hob ⟨T, k1, k2, rfl⟩ ⟨T', k3, k4, k5, k6⟩
    unfold Table.contents at k4
    rw [Prod.mk.injEq] at k4
    exact ⟨T, k1, k2, k4.1.trans k5, k6.congr k3 k2 k4.2.symm⟩
  · rintro i c v a z a' m hs ⟨κ, hr⟩ ⟨T', k3, rfl, k5, k6⟩ ⟨T, k1, k2, k7⟩
    unfold Table.contents at k2
    rw [Prod.mk.injEq] at k2
    have hT : T.eq = some e := k2.1.symm.trans k5
    have hsh : T.Shows m := k6.congr k3 k1 k2.2
    have same : ∃ T' : Table α D, T'.Reachable ∧ T.contents = T'.contents ∧ T'.eq = some e ∧ T'.Shows m :=
      ⟨T, k1, rfl, hT, hsh⟩
    have hcon : T'.contents = T.contents := by unfold Table.contents; rw [k2.1, k2.2]
    cases c with
    | op hd p =>
      obtain ⟨rfl, rfl⟩ := k7
      by_cases hk : p.key.toPrefix.WF
      · obtain ⟨g1, g2, g3⟩ := Table.step_spec (hsh.repr k1.good) hT p hk
        have g4 := Table.step_exact k1 hsh hT p hk
        rw [← PMap.stepExact_map] at g1
        exact ⟨_, ⟨(T.step p).1, .step T p k1 (by rw [hT]; simp) hk, rfl, g2, g1.shows⟩, rfl, _, rfl, fun _ => g4⟩
      · have hw : p.writes = false := by
          have hpre : TCall.pre (.op hd p : TCall α D σ) := h.pre hs
          cases hw : p.writes with
          | false => rfl
          | true => exact (hk (hpre hw).1).elim
        cases p with
        | get k =>
          refine ⟨m, same, ?_, _, rfl, fun h => (hk h).elim⟩
          show m = (match m (keyOf k.toPrefix) with
            | some w => (m, _)
            | none => (m, _)).1
          cases m (keyOf k.toPrefix) <;> rfl
        | _ => cases hw
    | longest hd k => obtain ⟨_, rfl⟩ := k7; exact ⟨m, hcon ▸ same, rfl⟩
    | num hd => obtain ⟨_, rfl⟩ := k7; exact ⟨m, hcon ▸ same, rfl⟩
    | freeze hd =>
      obtain ⟨t, rfl, k8, rfl⟩ := k7
      exact ⟨m, hcon ▸ same, rfl, t, T, rfl, k8, hsh⟩
    | _ => exact k7.elim

theorem table_atomic (hF : 2 * width α + 3 ≤ F) {s : TState α D σ F} (h : s.Reach) {o : Nat} (ho : o < s.objs.length)
    (disc : Disciplined TCall.role s.log o) : TableAtomic s o :=
  table_atomic_of hF h ho (linearizable (tableLib_ok hF) tableLin h ho disc)

/-- Full statement: `TableAtomic s o` for every reachable `s`.  It is false of the code (see
    `C36_lost_remove` and `C36_resurrected_insert`); it holds if no `Remove` on the table overlaps a write of
    another kind: then every write takes effect atomically or panics. -/
theorem C36_table_partial (hF : 2 * width α + 3 ≤ F) {s : TState α D σ F} (h : s.Reach) {o : Nat} (ho : o < s.objs.length)
    (disc : Disciplined TCall.role s.log o) : TableAtomic s o := table_atomic hF h ho disc

/-- any number of concurrent `Insert`, `Update`, `InsertOrUpdate` and `GetOrInsert` calls (or any number of
    concurrent `Remove` calls) on a table, and any number of readers -/
theorem C36_table_oneKind_partial (hF : 2 * width α + 3 ≤ F) {s : TState α D σ F} (h : s.Reach) {o : Nat}
    (ho : o < s.objs.length) (one : OneKind TCall.role s.log o) : TableAtomic s o :=
  table_atomic hF h ho (one.disciplined (tableLib_ok hF) tableLin h)

/-- two overlapping insertions, of which one panics, and readers -/
example := C36_table_oneKind_partial (by decide) Sample.s1_reach (o := 0) (by rw [Sample.s1_objs]; decide)
  Sample.s1_oneKind

/-- one writer at a time, and any number of readers -/
theorem C36_table_oneWriter_partial (hF : 2 * width α + 3 ≤ F) {s : TState α D σ F} (h : s.Reach) {o : Nat}
    (ho : o < s.objs.length) (one : WritesApart TCall.role s.log o) : TableAtomic s o :=
  table_atomic hF h ho (one.disciplined (tableLib_ok hF) tableLin h)

/-- a removal and an insertion, one after the other -/
example := C36_table_oneWriter_partial (by decide) Sample.s2_reach (o := 1) (by rw [Sample.s2_objs]; decide)
  Sample.s2_apart

/-! ### C41 -/

/-- modifying an uninitialised `Table_` panics -/
theorem C41_table_write (p : TableOp α D) (hp : p.writes = true) :
    (tableLib α D σ F).code (.op none p) = .panic := by
  cases p with
  | get k => cases hp
  | _ => rfl

/-- an uninitialised `Table_` reads as empty -/
theorem C41_table_read (hF : 2 * width α + 3 ≤ F) {s : TState α D σ F} (h : s.Reach) {i : Nat} {c : TCall α D σ}
    {z : TVal α D σ} (hs : .start i c ∈ s.log) (hd : .done i z ∈ s.log) :
    (∀ k, c = .op none (.get k) → z = .result (.found default false)) ∧
    (∀ k, c = .longest none k → z = .match (default, false, Prefix.zeroValue)) ∧
    (c = .num none → z = .num 0) ∧
    (c = .freeze none → ∃ x, z = .table x ∧ x.Is s.mem Table.empty) := by
  have hQ := done_spec' (tableLib_ok (α := α) (D := D) (σ := σ) hF) h hs hd
  refine ⟨?_, ?_, ?_, ?_⟩
  · rintro k rfl; exact hQ.2
  · rintro k rfl; exact hQ.2
  · rintro rfl; exact hQ.2
  · rintro rfl; exact ⟨_, hQ.2, .nil, rfl⟩

/-- nil as a `PrefixI` is the zero prefix 0.0.0.0/0, in every method -/
theorem C41_table_nil (h : Option Nat) (t : Obj D) (v : D) :
    let code := (tableLib α D σ F).code
    let zero : PrefixI α := .prefix Prefix.zeroValue
    code (.op h (.insert .nil v)) = code (.op h (.insert zero v)) ∧
    code (.op h (.update .nil v)) = code (.op h (.update zero v)) ∧
    code (.op h (.insertOrUpdate .nil v)) = code (.op h (.insertOrUpdate zero v)) ∧
    code (.op h (.get .nil)) = code (.op h (.get zero)) ∧
    code (.op h (.getOrInsert .nil v)) = code (.op h (.getOrInsert zero v)) ∧
    code (.op h (.remove .nil)) = code (.op h (.remove zero)) ∧
    code (.longest h .nil) = code (.longest h zero) ∧
    code (.xget t .nil) = code (.xget t zero) ∧ code (.xlongest t .nil) = code (.xlongest t zero) :=
  ⟨rfl, rfl, rfl, rfl, rfl, rfl, rfl, rfl, rfl⟩

/-! ### C42 -/

/-- `t.Build(builder)` returned `x` (ipv4/table.go:156-162; ipv4/tablex.go:241-247 `tableX.Build`, which only the
    tests call, is the same code): goroutine `i` cloned `t` as `o`, the builder did
    whatever it did and returned `b`; if that was true, goroutine `j` then took the snapshot `x` of `o` between
    times `p` and `q`. -/
def BuildReturns (s : TState α D σ F) (t x : Obj D) (b : Bool) (i o j p q : Nat) : Prop :=
  .start i (.thaw t) ∈ s.log ∧ .done i (.handle o) ∈ s.log ∧
    if b then s.log[p]? = some (.start j (.freeze (some o))) ∧ s.log[q]? = some (.done j (.table x))
    else x = t

/-- Whatever the builder and the rest of the program do: the original is the same table `T` before, during and
    after; the builder works on a new object that starts with the contents of `T` and changes only through
    writes on it; `Build` returns the original if the builder returns false, and otherwise what that object
    was when the snapshot was taken. -/
theorem C42_table (hF : 2 * width α + 3 ≤ F) {s : TState α D σ F} (h : s.Reach) {t x : Obj D} {b : Bool} {i o j p q : Nat}
    (hb : BuildReturns s t x b i o j p q) :
    ∃ T : Table α D, T.Reachable ∧ (∀ s', s.Steps s' → t.Is s'.mem T) ∧
      (∃ m ob, At s.log m i (.made o ob) ∧ objAt s.log m o = none ∧ objAt s.log (m + 1) o = some ob ∧
        ob.Is s.mem T.table_) ∧
      (b = false → x = t) ∧
      (b = true → ∃ k, p < k ∧ k < q ∧ objAt s.log k o = some x) := by
  obtain ⟨h1, h2, h3⟩ := hb
  have ok := tableLib_ok (α := α) (D := D) (σ := σ) hF
  obtain ⟨m, ob, T, g1, g2, g3, g4, g5, g6⟩ := C35_table_clone hF h h1 h2
  have hk : ∃ v : View α D, t.Is v T ∧ ∀ s', s.Steps s' → v ≤ s'.mem := by
    obtain ⟨g, inv⟩ := h.inv ok
    obtain ⟨c, hc, hQ⟩ := inv.done_spec i _ h2
    cases inv.start_uniq i _ _ h1 hc
    obtain ⟨_, _, _, _, T', e1, _, _⟩ := hQ
    cases (e1.mono inv.mem.fz_le).functional g5
    refine ⟨g.fz, e1, fun s' hs' => ?_⟩
    obtain ⟨g', inv', le⟩ := inv.steps ok hs'
    exact View.le_trans le inv'.mem.fz_le
  obtain ⟨v, hv, hle⟩ := hk
  refine ⟨T, g4, fun s' hs' => hv.mono (hle s' hs'), ⟨m, ob, g1, g2, g3, g6⟩, ?_, ?_⟩
  · rintro rfl; exact h3
  · rintro rfl
    obtain ⟨k, ob', T', k1, k2, k3, _, _, k4⟩ := C37_table hF h h3.1 h3.2 (Or.inr (Or.inr (Or.inr rfl)))
    cases k4
    exact ⟨k, k1, k2, k3⟩

example := C42_table (by decide) Sample.s2_reach (t := Sample.x1) (x := Sample.x2) (b := true) (i := 7) (o := 1)
  (j := 10) (p := 37) (q := 39) ⟨by rw [Sample.s2_log]; simp [Sample.log2], by rw [Sample.s2_log]; simp [Sample.log2],
    by rw [Sample.s2_log]; rfl, by rw [Sample.s2_log]; rfl⟩

end
end Addrs

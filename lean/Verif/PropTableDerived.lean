import Verif.PropTableCustom
/-
  Property C40: what can be done with the result of `Aggregate`.  The property is false of the code:
  `Aggregate` forgets the comparison function.
-/
set_option linter.unusedSectionVars false
namespace Addrs
open GoWord LawfulGoWord

section
variable {α D σ : Type} [GoWord α] [GoType D] [Inhabited D]

/-- Arguments that a client of tables with the default comparison function may pass: valid prefixes and
    `Table_`s that have been initialised. -/
def TCall.plainPre : TCall α D σ → Prop
  | newCustom _ => False
  | op h o => o.writes = true → o.key.toPrefix.WF ∧ h ≠ none
  | _ => True

/-- the package, of which only tables with the default comparison function are used -/
def plainLib (α D σ : Type) [GoWord α] [GoType D] [Inhabited D] (F : Nat) : Lib α D :=
  { tableLib α D σ F with pre := TCall.plainPre }

/-- The first half of C40: in no execution does a call panic, unless it lost a race against another write on
    the same table. -/
def DerivedTablesWork (α D : Type) [GoWord α] [GoType D] [Inhabited D] : Prop :=
  ∀ (σ : Type) (F : Nat), 2 * width α + 3 ≤ F → ∀ s : State (plainLib α D σ F), s.Reach →
    ∀ i, s.threads[i]? = some (some .panic) → ∃ o q, .fail i o q ∈ s.log
end

namespace Derived
open Sample (c1 c2 c3 c1_wf c2_wf c3_wf)

/-- tables of numbers with IPv4 prefixes -/
abbrev PL := plainLib (BitVec 32) Nat Unit 67

/-- a table with the entry 10.0.0.0/8 ↦ 7, and a snapshot of it -/
def base : List (Sched PL) :=
  [.call .new_, .finish 0, .call (.op (some 0) (.insert c1 7)), .finish 1, .call (.freeze (some 0)), .finish 2]
def snap : Obj Nat := ⟨some 0, .dflt⟩
def baseLog : List (Entry Nat PL.Call PL.Val) :=
  [.start 0 .new_, .act 0 (.made 0 ⟨none, .dflt⟩), .done 0 (.handle 0),
   .start 1 (.op (some 0) (.insert c1 7)), .act 1 (.load 0 ⟨none, .dflt⟩), .act 1 (.load 0 ⟨none, .dflt⟩),
   .act 1 (.swap 0 none (some 0)), .done 1 (.result (.bool true)),
   .start 2 (.freeze (some 0)), .act 2 (.load 0 snap), .done 2 (.table snap)]
set_option maxRecDepth 100000 in
theorem base_ok : (exec State.init base).isSome := rfl
def baseState : State PL := final base base_ok
set_option maxRecDepth 100000 in
theorem base_log : baseState.log = baseLog := rfl
theorem base_reach : baseState.Reach := by
  refine final_reach base_ok ?_
  intro c hc
  simp only [base, List.mem_cons, reduceCtorEq, List.not_mem_nil, or_false, false_or] at hc
  rcases hc with h | h | h <;> cases h
  · exact ⟨trivial, rfl⟩
  · exact ⟨fun _ => ⟨c1_wf, by simp⟩, rfl⟩
  · exact ⟨trivial, rfl⟩
theorem snap_known : baseState.Known snap := Or.inr ⟨2, .table snap, by rw [base_log]; simp [baseLog], List.mem_singleton_self _⟩

/-- the snapshot is aggregated -/
def agg : List (Sched PL) := [.call (.aggregate snap), .finish 3]
/-- the result of `Aggregate`: the same node, but no comparison function -/
def res : Obj Nat := ⟨some 0, .nil⟩
def aggLog : List (Entry Nat PL.Call PL.Val) := baseLog ++ [.start 3 (.aggregate snap), .done 3 (.table res)]
set_option maxRecDepth 100000 in
theorem agg_ok : (exec baseState agg).isSome := rfl
def aggState : State PL := after baseState agg agg_ok
set_option maxRecDepth 100000 in
theorem agg_log : aggState.log = aggLog := rfl
theorem agg_reach : aggState.Reach := by
  refine base_reach.steps (after_steps agg_ok ?_)
  intro c hc
  simp only [agg, List.mem_cons, reduceCtorEq, List.not_mem_nil, or_false] at hc
  cases hc
  refine ⟨trivial, ?_⟩
  intro x hx
  cases List.mem_singleton.mp hx
  exact snap_known
theorem res_known : aggState.Known res :=
  Or.inr ⟨3, .table res, by rw [agg_log]; simp [aggLog, baseLog], List.mem_singleton_self _⟩

/-- what may be done with the result of `Aggregate` -/
theorem agg_then {c : PL.Call} (hp : PL.pre c) (hv : ∀ x ∈ PL.vals c, x = res)
    {h : (exec aggState [.call c, .finish 4]).isSome} : (after aggState [.call c, .finish 4] h).Reach := by
  refine agg_reach.steps (after_steps h ?_)
  intro c' hc
  simp only [List.mem_cons, reduceCtorEq, List.not_mem_nil, or_false] at hc
  cases hc
  refine ⟨hp, ?_⟩
  intro x hx
  cases hv x hx
  exact res_known

/-- aggregating again -/
def again : PL.Call := .aggregate res
/-- doubling the values -/
def double : PL.Call := .map res (some fun _ d s => (d * 2, s)) ()
/-- comparing the result with itself, with a callback for unchanged entries -/
def compare : PL.Call := .diff res res
  { changed := none, left := none, right := none, unchanged := some fun _ _ s => (s, true) } ()

set_option maxRecDepth 100000 in
theorem again_ok : (exec aggState [.call again, .finish 4]).isSome := rfl
theorem again_panic : (after aggState _ again_ok).threads[4]? = some (some .panic) := by
  set_option maxRecDepth 100000 in rfl
set_option maxRecDepth 100000 in
theorem again_log : (after aggState _ again_ok).log = aggLog ++ [.start 4 again] := rfl
set_option maxRecDepth 100000 in
theorem double_ok : (exec aggState [.call double, .finish 4]).isSome := rfl
theorem double_panic : (after aggState _ double_ok).threads[4]? = some (some .panic) := by
  set_option maxRecDepth 100000 in rfl
set_option maxRecDepth 100000 in
theorem double_log : (after aggState _ double_ok).log = aggLog ++ [.start 4 double] := rfl
set_option maxRecDepth 100000 in
theorem compare_ok : (exec aggState [.call compare, .finish 4]).isSome := rfl
theorem compare_panic : (after aggState _ compare_ok).threads[4]? = some (some .panic) := by
  set_option maxRecDepth 100000 in rfl
set_option maxRecDepth 100000 in
theorem compare_log : (after aggState _ compare_ok).log = aggLog ++ [.start 4 compare] := rfl

/-! a custom comparison function, and `Table_()` -/

/-- tables of numbers with custom comparison functions -/
abbrev CL := customLib (BitVec 32) Nat Unit 67
/-- equal modulo 10 -/
def mod10 (a b : Nat) : Bool := decide (a % 10 = b % 10)

/-- a table that compares modulo 10, with the entry 10.0.0.0/8 ↦ 3; a snapshot of it -/
def cbase : List (Sched CL) :=
  [.call (.newCustom mod10), .finish 0, .call (.op (some 0) (.insert c1 3)), .finish 1, .call (.freeze (some 0)), .finish 2]
def csnap : Obj Nat := ⟨some 0, .custom mod10⟩
def cbaseLog : List (Entry Nat CL.Call CL.Val) :=
  [.start 0 (.newCustom mod10), .act 0 (.made 0 ⟨none, .custom mod10⟩), .done 0 (.handle 0),
   .start 1 (.op (some 0) (.insert c1 3)), .act 1 (.load 0 ⟨none, .custom mod10⟩), .act 1 (.load 0 ⟨none, .custom mod10⟩),
   .act 1 (.swap 0 none (some 0)), .done 1 (.result (.bool true)),
   .start 2 (.freeze (some 0)), .act 2 (.load 0 csnap), .done 2 (.table csnap)]
set_option maxRecDepth 100000 in
theorem cbase_ok : (exec State.init cbase).isSome := rfl
def cbaseState : State CL := final cbase cbase_ok
set_option maxRecDepth 100000 in
theorem cbase_log : cbaseState.log = cbaseLog := rfl
theorem cbase_reach : cbaseState.Reach := by
  refine final_reach cbase_ok ?_
  intro c hc
  simp only [cbase, List.mem_cons, reduceCtorEq, List.not_mem_nil, or_false, false_or] at hc
  rcases hc with h | h | h <;> cases h
  · exact ⟨trivial, rfl⟩
  · exact ⟨fun _ => ⟨c1_wf, by simp⟩, rfl⟩
  · exact ⟨trivial, rfl⟩
theorem csnap_known : cbaseState.Known csnap :=
  Or.inr ⟨2, .table csnap, by rw [cbase_log]; simp [cbaseLog], List.mem_singleton_self _⟩

/-- the snapshot is aggregated; it is also turned into a mutable table, in which the entry is updated to 13 and
    read -/
def cagg : List (Sched CL) :=
  [.call (.aggregate csnap), .finish 3, .call (.thaw csnap), .finish 4,
   .call (.op (some 1) (.update c1 13)), .finish 5, .call (.op (some 1) (.get c1)), .finish 6]
def caggLog : List (Entry Nat CL.Call CL.Val) := cbaseLog ++
  [.start 3 (.aggregate csnap), .done 3 (.table res),
   .start 4 (.thaw csnap), .act 4 (.made 1 csnap), .done 4 (.handle 1),
   .start 5 (.op (some 1) (.update c1 13)), .act 5 (.load 1 csnap), .act 5 (.load 1 csnap),
   .act 5 (.swap 1 (some 0) (some 1)), .done 5 (.result (.bool true)),
   .start 6 (.op (some 1) (.get c1)), .act 6 (.load 1 ⟨some 1, .custom mod10⟩), .done 6 (.result (.found 3 true))]
set_option maxRecDepth 100000 in
theorem cagg_ok : (exec cbaseState cagg).isSome := rfl
def caggState : State CL := after cbaseState cagg cagg_ok
set_option maxRecDepth 100000 in
theorem cagg_log : caggState.log = caggLog := rfl
theorem cagg_reach : caggState.Reach := by
  refine cbase_reach.steps (after_steps cagg_ok ?_)
  have hx : ∀ x ∈ [csnap], cbaseState.Known x := by intro x hx; cases List.mem_singleton.mp hx; exact csnap_known
  have no : ∀ x ∈ ([] : List (Obj Nat)), cbaseState.Known x := by intro x hx; cases hx
  intro c hc
  simp only [cagg, List.mem_cons, reduceCtorEq, List.not_mem_nil, or_false, false_or] at hc
  rcases hc with h | h | h | h <;> cases h
  · exact ⟨fun (h : EqFn.custom _ = EqFn.nil) => (by cases h), hx⟩
  · exact ⟨trivial, hx⟩
  · exact ⟨fun _ => ⟨c1_wf, by simp⟩, no⟩
  · exact ⟨fun _ => ⟨c1_wf, by simp⟩, no⟩
theorem cres_known : caggState.Known res :=
  Or.inr ⟨3, .table res, by rw [cagg_log]; simp [caggLog, cbaseLog], List.mem_singleton_self _⟩

/-- the same with the result of `Aggregate` -/
def cthaw : List (Sched CL) :=
  [.call (.thaw res), .finish 7, .call (.op (some 2) (.update c1 13)), .finish 8, .call (.op (some 2) (.get c1)), .finish 9]
def cthawLog : List (Entry Nat CL.Call CL.Val) := caggLog ++
  [.start 7 (.thaw res), .act 7 (.made 2 ⟨some 0, .dflt⟩), .done 7 (.handle 2),
   .start 8 (.op (some 2) (.update c1 13)), .act 8 (.load 2 ⟨some 0, .dflt⟩), .act 8 (.load 2 ⟨some 0, .dflt⟩),
   .act 8 (.swap 2 (some 0) (some 2)), .done 8 (.result (.bool true)),
   .start 9 (.op (some 2) (.get c1)), .act 9 (.load 2 ⟨some 2, .dflt⟩), .done 9 (.result (.found 13 true))]
set_option maxRecDepth 100000 in
theorem cthaw_ok : (exec caggState cthaw).isSome := rfl
set_option maxRecDepth 100000 in
theorem cthaw_log : (after caggState cthaw cthaw_ok).log = cthawLog := rfl
theorem cthaw_reach : (after caggState cthaw cthaw_ok).Reach := by
  refine cagg_reach.steps (after_steps cthaw_ok ?_)
  have hx : ∀ x ∈ [res], caggState.Known x := by intro x hx; cases List.mem_singleton.mp hx; exact cres_known
  have no : ∀ x ∈ ([] : List (Obj Nat)), caggState.Known x := by intro x hx; cases hx
  intro c hc
  simp only [cthaw, List.mem_cons, reduceCtorEq, List.not_mem_nil, or_false, false_or] at hc
  rcases hc with h | h | h <;> cases h
  · exact ⟨trivial, hx⟩
  · exact ⟨fun _ => ⟨c1_wf, by simp⟩, no⟩
  · exact ⟨fun _ => ⟨c1_wf, by simp⟩, no⟩

end Derived
open Derived

/-- C40 is false of the code: `Aggregate` on the result of `Aggregate` panics. -/
theorem C40_aggregate_again_panics : ∃ s : State PL, s.Reach ∧ s.threads[4]? = some (some .panic) ∧
    s.log = aggLog ++ [.start 4 again] :=
  ⟨_, agg_then (c := again) trivial (fun _ hx => List.mem_singleton.mp hx), again_panic, again_log⟩

/-- C40 is false of the code: `Map` on the result of `Aggregate` panics. -/
theorem C40_map_panics : ∃ s : State PL, s.Reach ∧ s.threads[4]? = some (some .panic) ∧
    s.log = aggLog ++ [.start 4 double] :=
  ⟨_, agg_then (c := double) trivial (fun _ hx => List.mem_singleton.mp hx), double_panic, double_log⟩

/-- C40 is false of the code: `Diff` on the result of `Aggregate` panics. -/
theorem C40_diff_panics : ∃ s : State PL, s.Reach ∧ s.threads[4]? = some (some .panic) ∧
    s.log = aggLog ++ [.start 4 compare] := by
  refine ⟨_, agg_then (c := compare) trivial (fun x hx => ?_), compare_panic, compare_log⟩
  have hx : x ∈ [res, res] := hx
  simpa using hx

theorem C40_fails : ¬ DerivedTablesWork (BitVec 32) Nat := by
  intro h
  obtain ⟨o, q, hf⟩ := h Unit 67 (by decide) _
    (agg_then (c := again) trivial (fun _ hx => List.mem_singleton.mp hx)) 4 again_panic
  rw [again_log] at hf
  simp [aggLog, baseLog] at hf

/-- C40 is false of the code: the second half, about the notion of equality.  In a table that compares values modulo 10, `Update` to 13
    leaves an existing 3 as it is (calls 4 to 6); after `Aggregate`, which does not change the entries here,
    and `Table_()`, it does not (calls 7 to 9). -/
theorem C40_other_equality : ∃ s : State CL, s.Reach ∧ s.log = cthawLog ∧
    .done 6 (.result (.found 3 true)) ∈ s.log ∧ .done 9 (.result (.found 13 true)) ∈ s.log := by
  refine ⟨_, cthaw_reach, cthaw_log, ?_, ?_⟩ <;> rw [cthaw_log] <;> simp [cthawLog, caggLog]

section
variable {α D σ : Type} [LawfulGoWord α] [Inhabited D] [Comparable D] {F : Nat}

/-- What holds of C40: the result of `Aggregate` on a table with the default comparison function reads as the
    aggregated table forever, and a mutable table made from it has the same contents and the comparison
    function of the original.  Missing: `Diff`, `Map` and `Aggregate` on it, and custom comparison functions
    (all false of the code, see above). -/
theorem C40_partial (hF : 2 * width α + 3 ≤ F) {s : TState α D σ F} (h : s.Reach) {i : Nat} {t t' : Obj D}
    (ht : t.eq = .dflt) (hs : .start i (.aggregate t) ∈ s.log) (hd : .done i (.table t') ∈ s.log) :
    ∃ T : Table α D, T.Reachable ∧ t.Is s.mem T ∧ T.eq = some (fun x y => decide (x = y)) ∧
      (∀ u, s.Steps u → ∀ j c z, .start j c ∈ u.log → .done j z ∈ u.log → TCall.ReadsAs t' T.aggregate u.mem z c) ∧
      ∀ j o, .start j (.thaw t') ∈ s.log → .done j (.handle o) ∈ s.log →
        ∃ m ob, At s.log m j (.made o ob) ∧ objAt s.log (m + 1) o = some ob ∧
          ob.Is s.mem { T.aggregate with eq := T.eq } := by
  have ok := tableLib_ok (α := α) (D := D) (σ := σ) hF
  obtain ⟨t'', h1, T', h2, h3, _, T, h4, h5, rfl⟩ := done_spec' ok h hs hd
  cases h1
  have hT : T.eq = some (fun x y => decide (x = y)) := by rw [h4.2, ht]; rfl
  obtain ⟨T2, h6, h7⟩ := C34_table hF h (x := t') (Or.inr ⟨i, _, hd, List.mem_singleton_self _⟩)
  have e2 : T2 = T.aggregate := (h7 s .refl).1.functional h2
  subst e2
  refine ⟨T, h5, h4, hT, fun u hu => (h7 u hu).2, ?_⟩
  intro j o hj hjd
  obtain ⟨m, ob, T3, g1, g2, g3, g4, g5, g6⟩ := C35_table_clone hF h hj hjd
  have e3 : T3 = T.aggregate := g5.functional h2
  subst e3
  refine ⟨m, ob, g1, g3, ?_⟩
  have e4 : T.aggregate.table_ = { T.aggregate with eq := T.eq } := by
    rw [hT]; simp [Table.table_, Table.aggregate]
  rwa [e4] at g6
end

namespace Derived
open Sample (c1 c2 c1_wf c2_wf)

/-- a table with two entries is aggregated and thawed -/
def good1 : List (Sched Sample.TL) :=
  [.call .new_, .finish 0, .call (.op (some 0) (.insert c1 7)), .finish 1, .call (.op (some 0) (.insert c2 7)), .finish 2,
   .call (.freeze (some 0)), .finish 3]
def gsnap : Obj Nat := ⟨some 2, .dflt⟩
set_option maxRecDepth 100000 in
theorem good1_ok : (exec State.init good1).isSome := rfl
def good1State : State Sample.TL := final good1 good1_ok
theorem good1_reach : good1State.Reach := by
  refine final_reach good1_ok ?_
  intro c hc
  simp only [good1, List.mem_cons, reduceCtorEq, List.not_mem_nil, or_false, false_or] at hc
  rcases hc with h | h | h | h <;> cases h
  · exact ⟨trivial, rfl⟩
  · exact ⟨fun _ => ⟨c1_wf, by simp⟩, rfl⟩
  · exact ⟨fun _ => ⟨c2_wf, by simp⟩, rfl⟩
  · exact ⟨trivial, rfl⟩
theorem gsnap_at : good1State.log[15]? = some (.done 3 (.table gsnap)) := by
  set_option maxRecDepth 100000 in rfl
theorem gsnap_known : good1State.Known gsnap := Or.inr ⟨3, .table gsnap, List.mem_of_getElem? gsnap_at, List.mem_singleton_self _⟩
def good2 : List (Sched Sample.TL) := [.call (.aggregate gsnap), .finish 4]
def gres : Obj Nat := ⟨some 3, .nil⟩
set_option maxRecDepth 100000 in
theorem good2_ok : (exec good1State good2).isSome := rfl
def good2State : State Sample.TL := after good1State good2 good2_ok
theorem good2_reach : good2State.Reach := by
  refine good1_reach.steps (after_steps good2_ok ?_)
  intro c hc
  simp only [good2, List.mem_cons, reduceCtorEq, List.not_mem_nil, or_false] at hc
  cases hc
  refine ⟨Or.inr rfl, ?_⟩
  intro x hx
  cases List.mem_singleton.mp hx
  exact gsnap_known
theorem good2_start : good2State.log[16]? = some (.start 4 (.aggregate gsnap)) := by
  set_option maxRecDepth 100000 in rfl
theorem good2_done : good2State.log[17]? = some (.done 4 (.table gres)) := by
  set_option maxRecDepth 100000 in rfl

end Derived

example := C40_partial (by decide) good2_reach (t := gsnap) rfl (List.mem_of_getElem? good2_start)
  (List.mem_of_getElem? good2_done)

end Addrs

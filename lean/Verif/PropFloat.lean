import Verif.FloatRun
/-
  Property C73: tables of values for which `==` is not identity, such as floating point numbers.
-/
set_option linter.unusedSectionVars false
namespace Addrs
open GoWord LawfulGoWord Heap Prog

section
variable {α D σ : Type} [LawfulGoWord α] [Inhabited D] [Total D] {F : Nat}

/-- Tables of values on which `==` does not panic but need not be identity (`Total`): on the heap, a sequential program sees what it would see if
    `Table_` were a variable that holds a map from prefixes to values and `Table` such a map, with values that are compared with `==`, or with the
    custom comparison function; no call panics or runs for ever.  `FineF`: if `Diff` gets `changed` and not `unchanged`, then an entry of both
    tables has a value that is equal to itself. -/
theorem C73_tables_partial (hF : 2 * width α + 3 ≤ F) (p : TProgram α D σ) (hp : TProgram.ProperF p) (n : Nat) :
    ∃ r w, TProgram.onHeap F p n = some r ∧ TProgram.Sees p n w r.seen := by
  classical
  obtain ⟨r, w, h1, h2, _⟩ := TProgram.seesF hF p hp n
  exact ⟨r, w, h1, h2⟩

end

/-- A stand-in for floating point numbers: two zeros, one that is not a number, and the others. -/
inductive Flt where
  | zero
  | negZero
  | nan
  | num (n : Nat)
deriving DecidableEq, Repr

namespace Flt
/-- `==` of IEEE 754 -/
def eqq : Flt → Flt → Bool
  | nan, _ | _, nan => false
  | zero, zero | zero, negZero | negZero, zero | negZero, negZero => true
  | num a, num b => decide (a = b)
  | _, _ => false
/-- negation of the zeros -/
def neg : Flt → Flt
  | zero => negZero
  | negZero => zero
  | x => x
end Flt

instance : Inhabited Flt := ⟨.zero⟩
instance : Total Flt where
  eqq a b := some (a.eqq b)
  same := Flt.eqq
  total _ _ := rfl
  symm a b := by cases a <;> cases b <;> simp [Flt.eqq, eq_comm]
  trans a b c := by cases a <;> cases b <;> cases c <;> simp [Flt.eqq] <;> exact fun h1 h2 => h1.trans h2

namespace Sample

/-- counts the entries that are reported as changed -/
def countChanged : TableDiffCallbacks (BitVec 32) Flt Nat :=
  { left := none, right := none, changed := some fun _ _ _ s => (s + 1, true), unchanged := none }

/-- Two tables are filled with the same entry, a value that is not a number; then one of them is compared with itself, and with the other. -/
def fbad : TProgram (BitVec 32) Flt Nat := fun h =>
  match h with
  | [] => some .new_
  | [_] => some (.op (some 0) (.insert (.prefix p8) .nan))
  | [_, _] => some (.freeze (some 0))
  | [_, _, _] => some .new_
  | [_, _, _, _] => some (.op (some 1) (.insert (.prefix p8) .nan))
  | [_, _, _, _, _] => some (.freeze (some 1))
  | [_, _, _, _, _, _] => some (.diff 1 1 countChanged 0)
  | [_, _, _, _, _, _, _] => some (.diff 1 2 countChanged 0)
  | _ => none

/-- the table with this entry -/
def nanTable : MTable (BitVec 32) Flt := ⟨Entries.empty.set (p8, .nan), .dflt⟩

/-- the world after each call -/
def fbadWorld : Nat → SWorld (MTable (BitVec 32) Flt)
  | 0 => ⟨[], [⟨Entries.empty, .nil⟩]⟩
  | 1 => ⟨[⟨Entries.empty, .dflt⟩], [⟨Entries.empty, .nil⟩]⟩
  | 2 => ⟨[nanTable], [⟨Entries.empty, .nil⟩]⟩
  | 3 => ⟨[nanTable], [⟨Entries.empty, .nil⟩, nanTable]⟩
  | 4 => ⟨[nanTable, ⟨Entries.empty, .dflt⟩], [⟨Entries.empty, .nil⟩, nanTable]⟩
  | 5 => ⟨[nanTable, nanTable], [⟨Entries.empty, .nil⟩, nanTable]⟩
  | _ => ⟨[nanTable, nanTable], [⟨Entries.empty, .nil⟩, nanTable, nanTable]⟩

theorem fbad_world {n : Nat} {w : SWorld (MTable (BitVec 32) Flt)} {h : List (TSeen (BitVec 32) Flt Nat)} (hs : TProgram.Sees fbad n w h) :
    w = fbadWorld h.length := by
  induction hs with
  | init => rfl
  | done hs hc ih => exact ih
  | @call n w w' h c o hs hc he ih =>
    simp only [fbad] at hc
    split at hc
    · cases hc; obtain ⟨_, he⟩ := he; rw [he, ih]; rfl
    · cases hc; obtain ⟨_, he⟩ := he; rw [he, ih]; rfl
    · cases hc; obtain ⟨_, he⟩ := he; rw [he, ih]; rfl
    · cases hc; obtain ⟨_, he⟩ := he; rw [he, ih]; rfl
    · cases hc; obtain ⟨_, he⟩ := he; rw [he, ih]; rfl
    · cases hc; obtain ⟨_, he⟩ := he; rw [he, ih]; rfl
    · cases hc; obtain ⟨_, he⟩ := he; rw [he, ih]; rfl
    · cases hc; obtain ⟨_, he⟩ := he; rw [he, ih]; rfl
    · cases hc

theorem fbad_proper : TProgram.Proper fbad := by
  intro n w h c hs hc
  have hw := fbad_world hs
  have l8 : (p8 : Prefix (BitVec 32)).WF := by decide
  simp only [fbad] at hc
  split at hc <;> subst hw
  · cases hc; trivial
  · cases hc; exact ⟨fun i e => (by cases e; show 0 < 1; omega), fun _ => ⟨l8, by simp⟩⟩
  · cases hc; exact fun i e => (by cases e; show 0 < 1; omega)
  · cases hc; trivial
  · cases hc; exact ⟨fun i e => (by cases e; show 1 < 2; omega), fun _ => ⟨l8, by simp⟩⟩
  · cases hc; exact fun i e => (by cases e; show 1 < 2; omega)
  · cases hc; exact ⟨(by show 1 < 3; omega), (by show 1 < 3; omega), fun e => (by cases e), fun _ e h => (by cases h)⟩
  · cases hc; exact ⟨(by show 1 < 3; omega), (by show 2 < 3; omega), fun e => (by cases e), fun _ e h => (by cases h)⟩
  · cases hc

/-- what it sees on the heap -/
theorem fbad_sees : (TProgram.onHeap 67 fbad 8).map TRun.seen = some [.handle 0, .result (.bool true), .table, .handle 1, .result (.bool true), .table,
    .walked (0, true), .walked (1, true)] := rfl

theorem nan_listed : nanTable.entries.Listed [(p8, .nan)] where
  valid := by
    intro x hx
    rw [List.mem_singleton.mp hx]
    show (p8 : Prefix (BitVec 32)).WF
    decide
  sorted := List.pairwise_singleton _ _
  exact := fun x => by
    simp only [List.mem_singleton, nanTable, Entries.Has, Entries.set, Entries.empty]
    constructor
    · rintro rfl; simp
    · intro h
      split at h
      · exact (Option.some.inj h).symm
      · cases h

/-- what `Diff` should report of two tables with this entry -/
theorem nan_differ : nanTable.entries.Differ nanTable.entries [.both p8 .nan p8 .nan] where
  left := nan_listed
  right := nan_listed
  pairs := fun c hc => by rw [List.mem_singleton.mp hc]
  order := List.pairwise_singleton _ _
  outer := List.pairwise_singleton _ _
  sorted := fun _ => List.pairwise_singleton _ _

end Sample

/-- C60 for tables of floating point numbers is false of the code: here is a program whose calls can be made, and which does not see maps.  The
    comparison of the table with itself is silent, but `NaN == NaN` is false. -/
theorem C73_nan_false : ∃ p : TProgram (BitVec 32) Flt Nat, TProgram.Proper p ∧
    ∃ n r, TProgram.onHeap 67 p n = some r ∧ ∀ w, ¬ TProgram.Sees p n w r.seen := by
  refine ⟨Sample.fbad, Sample.fbad_proper, 7, _, rfl, ?_⟩
  intro w hs
  have hw : ∀ {n w h}, TProgram.Sees Sample.fbad n w h → ∀ {h' o}, h = h' ++ [o] → h'.length = 6 → o = .walked (1, true) := by
    intro n w h hs
    induction hs with
    | init => intro h' o e; cases h' <;> cases e
    | done hs hc ih => exact ih
    | @call n w w' h c o hs hc he ih =>
      intro h' o' e hl
      obtain ⟨rfl, e2⟩ := List.append_inj' e rfl
      cases e2
      match h, hl with
      | [a, b, c, d, e, f], _ =>
        cases hc
        have := Sample.fbad_world hs
        subst this
        obtain ⟨⟨C, hC, ho⟩, _⟩ := he
        have : C = [.both Sample.p8 .nan Sample.p8 .nan] := C60_differ_unique hC Sample.nan_differ
        rw [ho, this]
        rfl
  have := hw hs (h' := [.handle 0, .result (.bool true), .table, .handle 1, .result (.bool true), .table]) (o := .walked (0, true)) rfl rfl
  cases this

/-- Whether `Diff` reports such a value as changed depends on whether the tables share nodes, not on their entries: the program compares a table
    with itself (nothing is reported), and with a table that has the same entries (the entry is reported). -/
theorem C73_nan_shared : ∃ p : TProgram (BitVec 32) Flt Nat, (∀ w h, TProgram.Sees p 6 w h → w.val 1 = w.val 2) ∧
    (∀ h, h.length = 6 → p h = some (.diff 1 1 Sample.countChanged 0)) ∧ (∀ h, h.length = 7 → p h = some (.diff 1 2 Sample.countChanged 0)) ∧
    ∃ r o, TProgram.onHeap 67 p 8 = some r ∧ r.seen = o ++ [.walked (0, true), .walked (1, true)] := by
  refine ⟨Sample.fbad, ?_, ?_, ?_, _, [.handle 0, .result (.bool true), .table, .handle 1, .result (.bool true), .table], rfl, rfl⟩
  · intro w h hs
    have hl : ∀ {n w h}, TProgram.Sees Sample.fbad n w h → n ≤ 6 → h.length = n := by
      intro n w h hs
      induction hs with
      | init => intro _; rfl
      | call hs hc he ih => intro hn; rw [List.length_append, ih (by omega)]; rfl
      | @done n w h hs hc ih =>
        intro hn
        have e := ih (by omega)
        match h, e, hn with
        | [], _, _ => cases hc
        | [_], _, _ => cases hc
        | [_, _], _, _ => cases hc
        | [_, _, _], _, _ => cases hc
        | [_, _, _, _], _, _ => cases hc
        | [_, _, _, _, _], _, _ => cases hc
        | _ :: _ :: _ :: _ :: _ :: _ :: _, e, hn => simp only [List.length_cons] at e; omega
    rw [Sample.fbad_world hs, hl hs (Nat.le_refl _)]
    rfl
  · intro h e
    match h, e with
    | [_, _, _, _, _, _], _ => rfl
  · intro h e
    match h, e with
    | [_, _, _, _, _, _, _], _ => rfl

/-- The mapper of `Map` negates; the comparison function of the table tells the zeros apart; and yet the result has the old value, because the
    node is changed only if `==` sees a difference. -/
theorem C73_map_false : ∃ p : TProgram (BitVec 32) Flt Nat,
    p = (fun h => match h with
      | [] => some (.newCustom fun a b => decide (a = b))
      | [_] => some (.op (some 0) (.insert (.prefix Sample.p8) .zero))
      | [_, _] => some (.freeze (some 0))
      | [_, _, _] => some (.map 1 (some fun _ v s => (v.neg, s + 1)) 0)
      | [_, _, _, _] => some (.xget 2 (.prefix Sample.p8))
      | _ => none) ∧
    ∃ r, TProgram.onHeap 67 p 5 = some r ∧ r.seen = [.handle 0, .result (.bool true), .table, .mapped 1, .result (.found .zero true)] :=
  ⟨_, rfl, _, rfl, rfl⟩

/-! ### a concrete program -/
namespace Sample

/-- It stores a zero, replaces it by the other zero (which is equal), stores a value that is not a number twice (which is not), and compares. -/
def fgood : TProgram (BitVec 32) Flt Nat := fun h =>
  match h with
  | [] => some .new_
  | [_] => some (.op (some 0) (.insertOrUpdate (.prefix p8) .zero))
  | [_, _] => some (.op (some 0) (.insertOrUpdate (.prefix p8) .negZero))
  | [_, _, _] => some (.op (some 0) (.get (.prefix p8)))
  | [_, _, _, _] => some (.op (some 0) (.insertOrUpdate (.prefix p16) .nan))
  | [_, _, _, _, _] => some (.freeze (some 0))
  | [_, _, _, _, _, _] => some (.map 1 (some fun _ v s => (v.neg, s + 1)) 0)
  | [_, _, _, _, _, _, .mapped n] => some (.diff 1 2 { countChanged with unchanged := some fun _ _ s => (s + 10, true) } n)
  | _ => none

theorem fgood_proper : TProgram.ProperF fgood := by
  have inv : ∀ n w h, TProgram.Sees fgood n w h →
      w.vars.map MTable.cmp = [EqFn.dflt].take h.length ∧
      w.vals.map MTable.cmp = [EqFn.nil] ++ [EqFn.dflt].take (h.length - 5) ++ [EqFn.dflt].take (h.length - 6) := by
    intro n w h hs
    induction hs with
    | init => simp
    | done hs hc ih => exact ih
    | @call n w w' h c o hs hc he ih =>
      obtain ⟨i2, i3⟩ := ih
      simp only [fgood] at hc
      split at hc
      · cases hc; obtain ⟨_, he⟩ := he; rw [he]; simp [SWorld.declare, i2, i3]
      · cases hc; obtain ⟨_, he⟩ := he; rw [he, cmps_assign]; simp [SWorld.assign, i2, i3]
      · cases hc; obtain ⟨_, he⟩ := he; rw [he, cmps_assign]; simp [SWorld.assign, i2, i3]
      · cases hc; obtain ⟨_, he⟩ := he; rw [he, cmps_assign]; simp [SWorld.assign, i2, i3]
      · cases hc; obtain ⟨_, he⟩ := he; rw [he, cmps_assign]; simp [SWorld.assign, i2, i3]
      · cases hc; obtain ⟨_, he⟩ := he; rw [he]; simp [SWorld.got, i2, i3, cmp_var]
      · cases hc; obtain ⟨_, _, _, _, _, he⟩ := he; rw [he]; simp [SWorld.got, i2, i3, cmp_val]
      · cases hc; obtain ⟨_, he⟩ := he; rw [he]; simp [i2, i3]
      · cases hc
  intro n w h c hs hc
  obtain ⟨i2, i3⟩ := inv n w h hs
  have l2 := congrArg List.length i2
  have l3 := congrArg List.length i3
  have v : w.vars.length = 1 → w.HasVar (some 0) := fun e i hi => by cases hi; omega
  have l8 : (p8 : Prefix (BitVec 32)).WF := by decide
  have l16 : (p16 : Prefix (BitVec 32)).WF := by decide
  simp only [fgood] at hc
  split at hc
  · cases hc; trivial
  · cases hc; exact ⟨v (by simpa using l2), fun _ => ⟨l8, by simp⟩⟩
  · cases hc; exact ⟨v (by simpa using l2), fun _ => ⟨l8, by simp⟩⟩
  · cases hc; exact ⟨v (by simpa using l2), fun _ => ⟨l8, by simp⟩⟩
  · cases hc; exact ⟨v (by simpa using l2), fun _ => ⟨l16, by simp⟩⟩
  · cases hc; exact v (by simpa using l2)
  · cases hc
    refine ⟨?_, Or.inr (Or.inr ?_)⟩
    · show 1 < w.vals.length; simp at l3; omega
    · rw [cmp_val, i3]; rfl
  · cases hc
    refine ⟨?_, ?_, fun e => ?_, fun e => ?_⟩
    · show 1 < w.vals.length; simp at l3; omega
    · show 2 < w.vals.length; simp at l3; omega
    · rw [cmp_val, i3] at e; cases e
    · cases e
  · cases hc

example : ∃ r w, TProgram.onHeap 67 fgood 8 = some r ∧ TProgram.Sees fgood 8 w r.seen := C73_tables_partial (by decide) fgood fgood_proper 8

/-- what it sees: the zero is not replaced; `Map` calls back for the two entries; of these, one is reported as unchanged, one as changed -/
theorem fgood_sees : (TProgram.onHeap 67 fgood 8).map TRun.seen = some [.handle 0, .result .unit, .result .unit, .result (.found .zero true), .result .unit,
    .table, .mapped 2, .walked (13, true)] := rfl

/-- Two halves with equal zeros, and two halves whose values are not numbers. -/
def fagg : TProgram (BitVec 32) Flt Nat := fun h =>
  match h with
  | [] => some .new_
  | [_] => some (.op (some 0) (.insert (.prefix ⟨0x0a000000, 9⟩) .zero))
  | [_, _] => some (.op (some 0) (.insert (.prefix ⟨0x0a800000, 9⟩) .negZero))
  | [_, _, _] => some (.op (some 0) (.insert (.prefix ⟨0x0b000000, 9⟩) .nan))
  | [_, _, _, _] => some (.op (some 0) (.insert (.prefix ⟨0x0b800000, 9⟩) .nan))
  | [_, _, _, _, _] => some (.freeze (some 0))
  | [_, _, _, _, _, _] => some (.aggregate 1)
  | [_, _, _, _, _, _, _] => some (.xnum 2)
  | [_, _, _, _, _, _, _, _] => some (.xget 2 (.prefix ⟨0x0a000000, 8⟩))
  | _ => none

theorem fagg_proper : TProgram.ProperF fagg := by
  have inv : ∀ n w h, TProgram.Sees fagg n w h →
      w.vars.map MTable.cmp = [EqFn.dflt].take h.length ∧
      w.vals.map MTable.cmp = [EqFn.nil] ++ [EqFn.dflt].take (h.length - 5) ++ [EqFn.nil].take (h.length - 6) := by
    intro n w h hs
    induction hs with
    | init => simp
    | done hs hc ih => exact ih
    | @call n w w' h c o hs hc he ih =>
      obtain ⟨i2, i3⟩ := ih
      simp only [fagg] at hc
      split at hc
      · cases hc; obtain ⟨_, he⟩ := he; rw [he]; simp [SWorld.declare, i2, i3]
      · cases hc; obtain ⟨_, he⟩ := he; rw [he, cmps_assign]; simp [SWorld.assign, i2, i3]
      · cases hc; obtain ⟨_, he⟩ := he; rw [he, cmps_assign]; simp [SWorld.assign, i2, i3]
      · cases hc; obtain ⟨_, he⟩ := he; rw [he, cmps_assign]; simp [SWorld.assign, i2, i3]
      · cases hc; obtain ⟨_, he⟩ := he; rw [he, cmps_assign]; simp [SWorld.assign, i2, i3]
      · cases hc; obtain ⟨_, he⟩ := he; rw [he]; simp [SWorld.got, i2, i3, cmp_var]
      · cases hc; obtain ⟨_, _, _, he⟩ := he; rw [he]; simp [SWorld.got, i2, i3]
      · cases hc; obtain ⟨_, he⟩ := he; rw [he]; simp [i2, i3]
      · cases hc; obtain ⟨_, he⟩ := he; rw [he]; simp [i2, i3]
      · cases hc
  intro n w h c hs hc
  obtain ⟨i2, i3⟩ := inv n w h hs
  have l2 := congrArg List.length i2
  have l3 := congrArg List.length i3
  have v : w.vars.length = 1 → w.HasVar (some 0) := fun e i hi => by cases hi; omega
  have wf : ∀ a : BitVec 32, (⟨a, 9⟩ : Prefix (BitVec 32)).WF := fun a => by show 9 ≤ 32; omega
  simp only [fagg] at hc
  split at hc
  · cases hc; trivial
  · cases hc; exact ⟨v (by simpa using l2), fun _ => ⟨wf _, by simp⟩⟩
  · cases hc; exact ⟨v (by simpa using l2), fun _ => ⟨wf _, by simp⟩⟩
  · cases hc; exact ⟨v (by simpa using l2), fun _ => ⟨wf _, by simp⟩⟩
  · cases hc; exact ⟨v (by simpa using l2), fun _ => ⟨wf _, by simp⟩⟩
  · cases hc; exact v (by simpa using l2)
  · cases hc
    refine ⟨?_, Or.inr ?_⟩
    · show 1 < w.vals.length; simp at l3; omega
    · rw [cmp_val, i3]; rfl
  · cases hc; show 2 < w.vals.length; simp at l3; omega
  · cases hc; show 2 < w.vals.length; simp at l3; omega
  · cases hc

example : ∃ r w, TProgram.onHeap 67 fagg 9 = some r ∧ TProgram.Sees fagg 9 w r.seen := C73_tables_partial (by decide) fagg fagg_proper 9

/-- what it sees: the zeros become one entry, the others remain -/
theorem fagg_sees : (TProgram.onHeap 67 fagg 9).map TRun.seen = some [.handle 0, .result (.bool true), .result (.bool true), .result (.bool true),
    .result (.bool true), .table, .table, .num 3, .result (.found .zero true)] := rfl

end Sample
end Addrs

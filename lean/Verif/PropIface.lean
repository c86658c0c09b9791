import Verif.IfaceRun
import Verif.PropSeqTables
/-
  Property C72: in tables of an interface type, nil is a value like any other - except that a custom comparison function cannot get it.
-/
set_option linter.unusedSectionVars false
namespace Addrs
open GoWord LawfulGoWord Heap Prog

section
variable {α V σ : Type} [LawfulGoWord α] [Comparable V] {F : Nat}

/-- The values of the interface type `T`, with nil (`none`), can be compared with `==`. -/
@[reducible] def ifaceComparable : Comparable (Option V) where
  eqq a b := some (decide (a = b))
  dec := inferInstance
  eqq_eq _ _ := rfl

attribute [local instance] ifaceComparable

/-- the table has a custom comparison function -/
def MTable.Custom {D : Type} (a : MTable α D) : Prop := ∃ c, a.cmp = .custom c

/-- The call gives no nil to a custom comparison function: `Update` and `InsertOrUpdate` compare the value of the entry, if there is one, with
    the new one; `Diff` compares the values of the entries for a prefix that is in both tables. -/
def TCmd.NoNil (w : SWorld (MTable α (Option V))) : TCmd α (Option V) σ → Prop
  | .op (some o) (.update k v) | .op (some o) (.insertOrUpdate k v) =>
    (w.var (some o)).Custom → ∀ x, (w.var (some o)).entries (keyOf k.toPrefix) = some x → x.2 ≠ none ∧ v ≠ none
  | .diff t u _ _ => (w.val t).Custom → ∀ κ x y, (w.val t).entries κ = some x → (w.val u).entries κ = some y → x.2 ≠ none ∧ y.2 ≠ none
  | _ => True

/-- whatever the program sees, it gives no nil to a custom comparison function -/
def TProgram.NoNil (p : TProgram α (Option V) σ) : Prop :=
  ∀ n w h c, TProgram.Sees p n w h → p h = some c → c.NoNil w

/-- the program makes no table with a custom comparison function -/
def TProgram.NoCustom {D : Type} (p : TProgram α D σ) : Prop := ∀ h cmp, p h ≠ some (.newCustom cmp)

/-! ### the condition on maps and on tables -/

theorem picky_iff {c : EqFn (Option V)} : c.Picky ↔ ∃ e, c = .custom e := by
  cases c with
  | nil => exact ⟨fun h => h.elim, fun ⟨_, h⟩ => by cases h⟩
  | dflt => exact ⟨fun h => h.elim, fun ⟨_, h⟩ => by cases h⟩
  | custom e => exact ⟨fun _ => ⟨e, rfl⟩, fun _ => trivial⟩

theorem get_iff {T : Table α (Option V)} {m : Entries α (Option V)} (hT : T.Reachable) (hm : T.Holds m) (k : PrefixI α) (v : Option V) :
    ((T.get k).2 = true ∧ ((T.get k).1 = none ∨ v = none)) ↔ ∃ x, m (keyOf k.toPrefix) = some x ∧ (x.2 = none ∨ v = none) := by
  have h := hm.get hT (fun _ _ => false) k
  simp only [Entries.step] at h
  cases e : m (keyOf k.toPrefix) with
  | none =>
    rw [e] at h
    injection h with h1 h2
    rw [h2]
    exact ⟨fun h => (by cases h.1), fun ⟨_, h, _⟩ => (by cases h)⟩
  | some x =>
    rw [e] at h
    injection h with h1 h2
    rw [h1, h2]
    exact ⟨fun h => ⟨x, rfl, h.2⟩, fun ⟨y, hy, h⟩ => by cases hy; exact ⟨rfl, h⟩⟩

theorem op_noNil {w : TWorld α (Option V)} {u : SWorld (MTable α (Option V))} (M : w.Stands u) {o : Nat} {a : AbsTable α (Option V)}
    (ha : w.vars[o]? = some a) {q : TableOp α (Option V)} : (TCmd.op (some o) q : TCmd α (Option V) σ).NoNil u ↔ ¬ q.NilCrash a := by
  have hu : u.var (some o) = a.toMap := by simp only [SWorld.var, M.vars, List.getElem?_map, ha]; rfl
  have ok := (M.okvars _ (List.mem_of_getElem? ha)).1
  have key : ∀ (k : PrefixI α) (v : Option V), (a.toMap.Custom → ∀ x, a.toMap.entries (keyOf k.toPrefix) = some x → x.2 ≠ none ∧ v ≠ none) ↔
      ¬ (a.cmp.Picky ∧ (a.table.get k).2 = true ∧ ((a.table.get k).1 = none ∨ v = none)) := by
    intro k v
    rw [get_iff ok.reachable ok.holds, picky_iff]
    constructor
    · rintro h ⟨hc, x, hx, h'⟩
      have := h hc x hx
      rcases h' with h' | h'
      · exact this.1 h'
      · exact this.2 h'
    · intro h hc x hx
      exact ⟨fun e => h ⟨hc, x, hx, Or.inl e⟩, fun e => h ⟨hc, x, hx, Or.inr e⟩⟩
  cases q with
  | update k v => simp only [TCmd.NoNil, hu]; exact key k v
  | insertOrUpdate k v => simp only [TCmd.NoNil, hu]; exact key k v
  | insert k v => exact ⟨fun _ h => h, fun _ => trivial⟩
  | get k => exact ⟨fun _ h => h, fun _ => trivial⟩
  | getOrInsert k v => exact ⟨fun _ h => h, fun _ => trivial⟩
  | remove k => exact ⟨fun _ h => h, fun _ => trivial⟩

theorem TCmd.NoNil.safe {w : TWorld α (Option V)} {u : SWorld (MTable α (Option V))} (M : w.Stands u) {c : TCmd α (Option V) σ} (h : c.NoNil u) : c.NilSafe w := by
  cases c with
  | op h' q =>
    cases h' with
    | none => trivial
    | some o => exact fun a ha => (op_noNil (σ := σ) M ha).mp h
  | diff t t' cb s =>
    intro hp k
    obtain ⟨e1, ok1⟩ := M.val t
    obtain ⟨e2, ok2⟩ := M.val t'
    have hc : (u.val t).Custom := by rw [e1]; exact picky_iff.mp hp
    have at' : ∀ {a : AbsTable α (Option V)}, a.Ok → (a.table.get k).2 = true →
        ∃ x, a.toMap.entries (keyOf k.toPrefix) = some x ∧ (a.table.get k).1 = x.2 := by
      intro a ok hg
      obtain ⟨x, h1, _⟩ := (get_iff ok.reachable ok.holds k (none : Option V)).mp ⟨hg, Or.inr rfl⟩
      obtain ⟨h3, h4⟩ := (ok.holds _ x).mp h1
      exact ⟨x, h1, by rw [(C25_get a.table ok.reachable k x.2).mpr ⟨x.1, h3, h4⟩]⟩
    intro g1 g2
    obtain ⟨x, x1, x2⟩ := at' ok1 g1
    obtain ⟨y, y1, y2⟩ := at' ok2 g2
    rw [x2, y2]
    exact h hc _ x y (by rw [e1]; exact x1) (by rw [e2]; exact y1)
  | _ => trivial

/-! ### programs -/

/-- the heap follows the world -/
theorem onHeapI_ok (hF : 2 * width α + 3 ≤ F) (p : TProgram α (Option V) σ) (hp : TProgram.Proper p) (hn : TProgram.NoNil p) (n : Nat) :
    ∃ r u, p.onHeapI F n = some r ∧ r.seen = (TProgram.ideally p n).2 ∧ (TProgram.ideally p n).1.MatchesI r.mem r.regs ∧
      (TProgram.ideally p n).1.Stands u ∧ TProgram.Sees p n u (TProgram.ideally p n).2 := by
  obtain ⟨u, s1, s2⟩ := TProgram.sees p hp n
  suffices h : ∃ r, p.onHeapI F n = some r ∧ r.seen = (TProgram.ideally p n).2 ∧ (TProgram.ideally p n).1.MatchesI r.mem r.regs by
    obtain ⟨r, h1, h2, h3⟩ := h
    exact ⟨r, u, h1, h2, h3, s1, s2⟩
  clear s1 s2 u
  induction n with
  | zero =>
    refine ⟨_, rfl, rfl, ?_⟩
    exact {
      nvars := rfl
      vars := fun h _ => by simp at h
      nvals := rfl
      vals := by
        intro t ob a h1 h2
        cases t with
        | zero =>
          simp [TProgram.ideally] at h1 h2
          subst h1 h2
          exact ⟨.nil, .empty, .nil, rfl⟩
        | succ t => simp at h1 }
  | succ n ih =>
    obtain ⟨r, h1, h2, h3⟩ := ih
    obtain ⟨u, s1, s2⟩ := TProgram.sees p hp n
    simp only [TProgram.onHeapI, h1, TProgram.ideally]
    rw [h2]
    cases hc : p (TProgram.ideally p n).2 with
    | none => exact ⟨r, rfl, h2, h3⟩
    | some c =>
      obtain ⟨x, m', e1, e2, e3⟩ := TCmd.stepI hF h3 (hp.legal n c hc) ((hn n u _ c s2 hc).safe s1)
      simp only [e1]
      exact ⟨_, rfl, by rw [e2], e3⟩

/-- Tables of an interface type `T` (its values are `Option V`, `none` is nil): on the heap, a sequential program sees what it would see if
    `Table_` were a variable that holds a map from prefixes to values, nil among them, and `Table` such a map; no call panics or runs for ever.
    It must not give a nil to a custom comparison function (`NoNil`). -/
theorem C72_tables_partial (hF : 2 * width α + 3 ≤ F) (p : TProgram α (Option V) σ) (hp : TProgram.Proper p) (hn : TProgram.NoNil p) (n : Nat) :
    ∃ r w, TProgram.onHeapI F p n = some r ∧ TProgram.Sees p n w r.seen := by
  obtain ⟨r, u, h1, h2, _, _, h3⟩ := onHeapI_ok hF p hp hn n
  exact ⟨r, u, h1, h2 ▸ h3⟩

/-- In such a program, a method of a `Table_` with valid arguments panics exactly if it gives a nil to a custom comparison function. -/
theorem C72_panics (hF : 2 * width α + 3 ≤ F) (p : TProgram α (Option V) σ) (hp : TProgram.Proper p) (hn : TProgram.NoNil p) (n : Nat) :
    ∃ r w, TProgram.onHeapI F p n = some r ∧ TProgram.Sees p n w r.seen ∧ ∀ (o : Nat) (q : TableOp α (Option V)),
      (TCmd.op (some o) q : TCmd α (Option V) σ).Fine w →
      ((((TCmd.op (some o) q : TCmd α (Option V) σ).codeI F r.regs).run r.mem).1 = .panic ↔ ¬ (TCmd.op (some o) q : TCmd α (Option V) σ).NoNil w) := by
  obtain ⟨r, u, h1, h2, M, S, h3⟩ := onHeapI_ok hF p hp hn n
  refine ⟨r, u, h1, h2 ▸ h3, fun o q hq => ?_⟩
  have hl := S.legal hq
  obtain ⟨ob, a, e1, e2, e3, e4, e5⟩ := M.var (hl.1 o rfl)
  rw [op_noNil (σ := σ) S e2]
  constructor
  · intro hpan hno
    obtain ⟨m', g1, _⟩ := opI_ok hF M e1 e2 (p := q) (fun hw => (hl.2 hw).1) hno
    rw [show (TCmd.op (some o) q : TCmd α (Option V) σ).codeI F r.regs = (opCodeI F (some o) q >>= fun x => pure (TSeen.result x, [])) from rfl,
      run_then g1] at hpan
    cases hpan
  · intro hno
    have hc : q.NilCrash a := Classical.byContradiction hno
    have hw : q.writes = true := by
      cases q with
      | get k => exact hc.elim
      | _ => rfl
    exact run_bind_panic (opI_panics hF M e1 e2 (hl.2 hw).1 hc) _

theorem noCustom_inv {D : Type} [Inhabited D] [Comparable D] {p : TProgram α D σ} (hp : TProgram.NoCustom p) {n : Nat} {w : SWorld (MTable α D)}
    {h : List (TSeen α D σ)} (hs : TProgram.Sees p n w h) : (∀ a ∈ w.vars, ¬ a.Custom) ∧ ∀ a ∈ w.vals, ¬ a.Custom := by
  have nc : ∀ {m : Entries α D}, ¬ (⟨m, .nil⟩ : MTable α D).Custom := fun ⟨_, h⟩ => by cases h
  have nd : ∀ {m : Entries α D}, ¬ (⟨m, .dflt⟩ : MTable α D).Custom := fun ⟨_, h⟩ => by cases h
  induction hs with
  | init => exact ⟨fun a h => (by cases h), fun a h => by rw [List.mem_singleton.mp h]; exact nc⟩
  | done hs hc ih => exact ih
  | @call n w w' h c o hs hc he ih =>
    obtain ⟨i1, i2⟩ := ih
    have val : ∀ t, ¬ (w.val t).Custom := by
      intro t
      simp only [SWorld.val]
      cases e : w.vals[t]? with
      | none => exact nc
      | some a => exact i2 a (List.mem_of_getElem? e)
    have var : ∀ h, ¬ (w.var h).Custom := by
      intro h
      cases h with
      | none => exact nc
      | some o =>
        simp only [SWorld.var]
        cases e : w.vars[o]? with
        | none => exact nc
        | some a => exact i1 a (List.mem_of_getElem? e)
    have dec : ∀ {a : MTable α D}, ¬ a.Custom → (∀ b ∈ (w.declare a).vars, ¬ b.Custom) ∧ ∀ b ∈ (w.declare a).vals, ¬ b.Custom := by
      intro a ha
      refine ⟨fun b hb => ?_, i2⟩
      rcases List.mem_append.mp hb with hb | hb
      · exact i1 b hb
      · rw [List.mem_singleton.mp hb]; exact ha
    have got : ∀ {a : MTable α D}, ¬ a.Custom → (∀ b ∈ (w.got a).vars, ¬ b.Custom) ∧ ∀ b ∈ (w.got a).vals, ¬ b.Custom := by
      intro a ha
      refine ⟨i1, fun b hb => ?_⟩
      rcases List.mem_append.mp hb with hb | hb
      · exact i2 b hb
      · rw [List.mem_singleton.mp hb]; exact ha
    cases c with
    | new_ => rw [he.2]; exact dec nd
    | newCustom cmp => exact absurd hc (hp _ _)
    | op h q =>
      rw [he.2]
      refine ⟨fun b hb => ?_, ?_⟩
      · cases h with
        | none => exact i1 b hb
        | some o =>
          simp only [SWorld.assign] at hb
          rcases List.mem_or_eq_of_mem_set hb with hb | hb
          · exact i1 b hb
          · rw [hb]
            exact fun ⟨e, h⟩ => var (some o) ⟨e, h⟩
      · cases h with
        | none => exact i2
        | some o => exact i2
    | longest h k => rw [he.2]; exact ⟨i1, i2⟩
    | num h => rw [he.2]; exact ⟨i1, i2⟩
    | freeze h => rw [he.2]; exact got (var h)
    | thaw t =>
      rw [he.2]
      refine dec fun ⟨e, h⟩ => ?_
      simp only at h
      cases hcm : (w.val t).cmp with
      | nil => rw [hcm] at h; cases h
      | dflt => rw [hcm] at h; cases h
      | custom e => exact val t ⟨e, hcm⟩
    | xget t k => rw [he.2]; exact ⟨i1, i2⟩
    | xlongest t k => rw [he.2]; exact ⟨i1, i2⟩
    | xnum t => rw [he.2]; exact ⟨i1, i2⟩
    | walk t cb s => rw [he.2]; exact ⟨i1, i2⟩
    | diff t u cb s => rw [he.2]; exact ⟨i1, i2⟩
    | map t f s =>
      cases f with
      | none => rw [he.2]; exact got (val t)
      | some f =>
        obtain ⟨N, m', _, _, _, he⟩ := he
        rw [he]
        exact got fun ⟨e, h⟩ => val t ⟨e, h⟩
    | aggregate t =>
      obtain ⟨m', _, _, he⟩ := he
      rw [he]; exact got nc

/-- A program that makes no table with a custom comparison function gives it no nil: it needs no condition on the values. -/
theorem C72_default (hF : 2 * width α + 3 ≤ F) (p : TProgram α (Option V) σ) (hp : TProgram.Proper p) (hc : TProgram.NoCustom p) (n : Nat) :
    ∃ r w, TProgram.onHeapI F p n = some r ∧ TProgram.Sees p n w r.seen := by
  refine C72_tables_partial hF p hp ?_ n
  intro n w h c hs hpc
  obtain ⟨i1, i2⟩ := noCustom_inv hc hs
  have nc : ∀ {m : Entries α (Option V)}, ¬ (⟨m, .nil⟩ : MTable α (Option V)).Custom := fun ⟨_, h⟩ => by cases h
  have val : ∀ t, ¬ (w.val t).Custom := by
    intro t
    simp only [SWorld.val]
    cases e : w.vals[t]? with
    | none => exact nc
    | some a => exact i2 a (List.mem_of_getElem? e)
  have var : ∀ h, ¬ (w.var h).Custom := by
    intro h
    cases h with
    | none => exact nc
    | some o =>
      simp only [SWorld.var]
      cases e : w.vars[o]? with
      | none => exact nc
      | some a => exact i1 a (List.mem_of_getElem? e)
  cases c with
  | op h q =>
    cases h with
    | none => trivial
    | some o => cases q <;> first | exact fun h => absurd h (var _) | trivial
  | diff t u cb s => exact fun h => absurd h (val _)
  | _ => trivial

end

/-! ### concrete programs -/
namespace Sample
attribute [local instance] ifaceComparable

/-- It stores nil, reads it back, maps, compares and aggregates. -/
def iprog : TProgram (BitVec 32) (Option Nat) Nat := fun h =>
  match h with
  | [] => some .new_
  | [_] => some (.op (some 0) (.insertOrUpdate (.prefix p8) none))
  | [_, _] => some (.op (some 0) (.getOrInsert (.prefix p8) (some 5)))
  | [_, _, _] => some (.op (some 0) (.insert (.prefix p16) (some 1)))
  | [_, _, _, _] => some (.op (some 0) (.update (.prefix p16) none))
  | [_, _, _, _, _] => some (.op (some 0) (.get (.prefix p16)))
  | [_, _, _, _, _, _] => some (.freeze (some 0))
  | [_, _, _, _, _, _, _] => some (.aggregate 1)
  | [_, _, _, _, _, _, _, _] => some (.walk 2 (fun _ v s => (s + (if v = none then 10 else 1), true)) 0)
  | _ => none

theorem iprog_proper : TProgram.Proper iprog := by
  have inv : ∀ n w h, TProgram.Sees iprog n w h →
      h.length ≤ 9 ∧ w.vars.map MTable.cmp = [EqFn.dflt].take h.length ∧
      w.vals.map MTable.cmp = [EqFn.nil] ++ [EqFn.dflt].take (h.length - 6) ++ [EqFn.nil].take (h.length - 7) := by
    intro n w h hs
    induction hs with
    | init => simp
    | done hs hc ih => exact ih
    | @call n w w' h c o hs hc he ih =>
      obtain ⟨i1, i2, i3⟩ := ih
      simp only [iprog] at hc
      split at hc
      · cases hc; obtain ⟨_, he⟩ := he; rw [he]; simp [SWorld.declare, i2, i3]
      · cases hc; obtain ⟨_, he⟩ := he; rw [he, cmps_assign]; simp [SWorld.assign, i2, i3]
      · cases hc; obtain ⟨_, he⟩ := he; rw [he, cmps_assign]; simp [SWorld.assign, i2, i3]
      · cases hc; obtain ⟨_, he⟩ := he; rw [he, cmps_assign]; simp [SWorld.assign, i2, i3]
      · cases hc; obtain ⟨_, he⟩ := he; rw [he, cmps_assign]; simp [SWorld.assign, i2, i3]
      · cases hc; obtain ⟨_, he⟩ := he; rw [he, cmps_assign]; simp [SWorld.assign, i2, i3]
      · cases hc; obtain ⟨_, he⟩ := he; rw [he]; simp [SWorld.got, i2, i3, cmp_var]
      · cases hc; obtain ⟨_, _, _, he⟩ := he; rw [he]; simp [SWorld.got, i2, i3]
      · cases hc; obtain ⟨_, he⟩ := he; rw [he]; simp [i2, i3]
      · cases hc
  intro n w h c hs hc
  obtain ⟨i1, i2, i3⟩ := inv n w h hs
  have l2 := congrArg List.length i2
  have l3 := congrArg List.length i3
  have v : w.vars.length = 1 → w.HasVar (some 0) := fun e i hi => by cases hi; omega
  simp only [iprog] at hc
  split at hc
  · cases hc; trivial
  · cases hc; exact ⟨v (by simpa using l2), fun _ => ⟨by show p8.WF; decide, by simp⟩⟩
  · cases hc; exact ⟨v (by simpa using l2), fun _ => ⟨by show p8.WF; decide, by simp⟩⟩
  · cases hc; exact ⟨v (by simpa using l2), fun _ => ⟨by show p16.WF; decide, by simp⟩⟩
  · cases hc; exact ⟨v (by simpa using l2), fun _ => ⟨by show p16.WF; decide, by simp⟩⟩
  · cases hc; exact ⟨v (by simpa using l2), fun _ => ⟨by show p16.WF; decide, by simp⟩⟩
  · cases hc; exact v (by simpa using l2)
  · cases hc
    refine ⟨?_, Or.inr ?_⟩
    · show 1 < w.vals.length; simp at l3; omega
    · rw [cmp_val, i3]; rfl
  · cases hc; show 2 < w.vals.length; simp at l3; omega
  · cases hc

theorem iprog_noCustom : TProgram.NoCustom iprog := by
  intro h cmp hc
  unfold iprog at hc
  split at hc <;> cases hc

/-- it runs to its end on the heap -/
example : ∃ r w, TProgram.onHeapI 67 iprog 9 = some r ∧ TProgram.Sees iprog 9 w r.seen :=
  C72_default (by decide) iprog iprog_proper iprog_noCustom 9

/-- what it sees there: nil is returned with `true`, and `Aggregate` keeps one of the two equal (nil) values -/
theorem iprog_sees : (TProgram.onHeapI 67 iprog 9).map IRun.seen = some [.handle 0, .result .unit, .result (.value none), .result (.bool true),
    .result (.bool true), .result (.found none true), .table, .table, .walked (10, true)] := rfl

/-- A table with a custom comparison function, which is given the nil that it holds. -/
def ibad : TProgram (BitVec 32) (Option Nat) Nat := fun h =>
  match h with
  | [] => some (.newCustom fun a b => decide (a = b))
  | [_] => some (.op (some 0) (.insert (.prefix p8) none))
  | [_, _] => some (.op (some 0) (.update (.prefix p8) (some 1)))
  | _ => none

/-- The same calls in a table without: the update returns `true`, and the value can be read. -/
def igood : TProgram (BitVec 32) (Option Nat) Nat := fun h =>
  match h with
  | [] => some .new_
  | [_, _, _] => some (.op (some 0) (.get (.prefix p8)))
  | h => ibad h

theorem ibad_proper : TProgram.Proper ibad := by
  have inv : ∀ n w h, TProgram.Sees ibad n w h → h.length ≤ 3 ∧ w.vars.length = min 1 h.length := by
    intro n w h hs
    induction hs with
    | init => simp
    | done hs hc ih => exact ih
    | @call n w w' h c o hs hc he ih =>
      obtain ⟨i1, i2⟩ := ih
      simp only [ibad] at hc
      split at hc
      · cases hc; obtain ⟨_, he⟩ := he; rw [he]
        simp [SWorld.declare, i2]
      · cases hc; obtain ⟨_, he⟩ := he; rw [he]; simp [SWorld.assign, i2]
      · cases hc; obtain ⟨_, he⟩ := he; rw [he]; simp [SWorld.assign, i2]
      · cases hc
  intro n w h c hs hc
  obtain ⟨i1, i2⟩ := inv n w h hs
  have v : w.vars.length = 1 → w.HasVar (some 0) := fun e i hi => by cases hi; omega
  simp only [ibad] at hc
  split at hc
  · cases hc; trivial
  · cases hc; exact ⟨v (by rw [i2]; rfl), fun _ => ⟨by show p8.WF; decide, by simp⟩⟩
  · cases hc; exact ⟨v (by rw [i2]; rfl), fun _ => ⟨by show p8.WF; decide, by simp⟩⟩
  · cases hc

/-- A table with a custom comparison function can hold nil. -/
def icustom : TProgram (BitVec 32) (Option Nat) Nat := fun h =>
  match h with
  | [_, _] => some (.op (some 0) (.get (.prefix p8)))
  | h => ibad h

theorem icustom_proper : TProgram.Proper icustom := by
  have inv : ∀ n w h, TProgram.Sees icustom n w h → h.length ≤ 3 ∧ w.vars.length = min 1 h.length := by
    intro n w h hs
    induction hs with
    | init => simp
    | done hs hc ih => exact ih
    | @call n w w' h c o hs hc he ih =>
      obtain ⟨i1, i2⟩ := ih
      simp only [icustom, ibad] at hc
      split at hc
      · cases hc; obtain ⟨_, he⟩ := he; rw [he]; simp [SWorld.assign, i2]
      split at hc
      · cases hc; obtain ⟨_, he⟩ := he; rw [he]; simp [SWorld.declare, i2]
      · cases hc; obtain ⟨_, he⟩ := he; rw [he]; simp [SWorld.assign, i2]
      · cases hc; obtain ⟨_, he⟩ := he; rw [he]; simp [SWorld.assign, i2]
      · cases hc
  intro n w h c hs hc
  obtain ⟨i1, i2⟩ := inv n w h hs
  have v : w.vars.length = 1 → w.HasVar (some 0) := fun e i hi => by cases hi; omega
  simp only [icustom, ibad] at hc
  split at hc
  · cases hc; exact ⟨v (by rw [i2]; rfl), fun _ => ⟨by show p8.WF; decide, by simp⟩⟩
  split at hc
  · cases hc; trivial
  · cases hc; exact ⟨v (by rw [i2]; rfl), fun _ => ⟨by show p8.WF; decide, by simp⟩⟩
  · cases hc; exact ⟨v (by rw [i2]; rfl), fun _ => ⟨by show p8.WF; decide, by simp⟩⟩
  · cases hc

theorem icustom_noNil : TProgram.NoNil icustom := by
  intro n w h c _ hc
  simp only [icustom, ibad] at hc
  split at hc
  · cases hc; trivial
  next hne =>
    split at hc
    · cases hc; trivial
    · cases hc; trivial
    · exact absurd rfl (hne _ _)
    · cases hc

/-- it reads the nil back; a method would panic exactly if it gave the nil to the comparison function -/
example : ∃ r w, TProgram.onHeapI 67 icustom 3 = some r ∧ TProgram.Sees icustom 3 w r.seen :=
  C72_tables_partial (by decide) icustom icustom_proper icustom_noNil 3
example := C72_panics (F := 67) (by decide) icustom icustom_proper icustom_noNil 3

end Sample

section
attribute [local instance] ifaceComparable

/-- Without the condition `NoNil` the statement is false: a program all of whose calls can be made panics (in `Update`, on the nil that it
    inserted before). -/
theorem C72_custom_nil_false : ¬ ∀ (p : TProgram (BitVec 32) (Option Nat) Nat), TProgram.Proper p → ∀ n,
    ∃ r w, TProgram.onHeapI 67 p n = some r ∧ TProgram.Sees p n w r.seen := by
  intro h
  obtain ⟨r, w, h1, _⟩ := h Sample.ibad Sample.ibad_proper 3
  have : TProgram.onHeapI 67 Sample.ibad 3 = none := by decide +kernel
  rw [this] at h1
  cases h1

end

/-- The same two calls succeed in a table that compares with `==`. -/
theorem C72_custom_nil_same_calls : TProgram.onHeapI 67 Sample.ibad 3 = none ∧ (TProgram.onHeapI 67 Sample.igood 4).map IRun.seen =
    some [.handle 0, .result (.bool true), .result (.bool true), .result (.found (some 1) true)] := ⟨rfl, rfl⟩

end Addrs

import Verif.PropSeqSets
import Verif.PropTableEntries
import Verif.PropAggExact
import Verif.PropDiffOrder
/-
  Property C60: a sequential program that uses tables sees maps from prefixes to values.
-/
set_option linter.unusedSectionVars false
set_option linter.unusedSimpArgs false
namespace Addrs
open GoWord LawfulGoWord Heap

/-- a table as the program should see it: its entries and its comparison function -/
structure MTable (α D : Type) where
  entries : Entries α D
  cmp : EqFn D

section
variable {α D σ : Type} [LawfulGoWord α] [Inhabited D] [Total D]

/-- `Table{}` -/
instance : Inhabited (MTable α D) := ⟨⟨Entries.empty, .nil⟩⟩

/-- the comparison of values, by default `==`; without a comparison function it is never called -/
def MTable.same (a : MTable α D) : D → D → Bool :=
  match a.cmp with
  | .nil => fun _ _ => false
  | .dflt => fun x y => Total.same x y
  | .custom c => c

/-- `L` is the list of all entries in lexicographic order -/
structure Entries.Listed (m : Entries α D) (L : List (Prefix α × D)) : Prop where
  valid : ∀ x ∈ L, x.1.WF
  sorted : L.Pairwise fun x y => LexBefore x.1 y.1
  exact : ∀ x, x ∈ L ↔ m.Has x

/-- `r` is what `LongestMatch` should return: the longest entry that contains `k`, or zero values -/
def Entries.Longest (m : Entries α D) (k : Prefix α) (r : D × Bool × Prefix α) : Prop :=
  (r = (default, false, ⟨zero, 0⟩) ∧ ∀ x, m.Has x → ¬ ContainsP x.1 k) ∨
  ∃ x, r = (x.2, true, x.1) ∧ m.Has x ∧ ContainsP x.1 k ∧ ∀ y, m.Has y → ContainsP y.1 k → y.1.len ≤ x.1.len

/-- `C` is what `Diff` should report: every entry of both tables once, those with the same key together.  All is in
    lexicographic order, except the pairs in the condition `KeysSwap`, which are in the opposite order (C29); so a
    prefix is reported before what it contains, and all is in order if the keys of one table are keys of the other. -/
structure Entries.Differ (l r : Entries α D) (C : List (Change α D)) : Prop where
  left : l.Listed (C.filterMap Change.left)
  right : r.Listed (C.filterMap Change.right)
  pairs : ∀ c ∈ C, match c with
    | .onlyLeft p _ => r (keyOf p) = none
    | .onlyRight p _ => l (keyOf p) = none
    | .both p _ q _ => keyOf p = keyOf q
  order : C.Pairwise fun c d =>
    (KeysSwap (fun z => ∃ v, l.Has (z, v)) (fun z => ∃ v, r.Has (z, v)) c.pfx d.pfx → LexBefore d.pfx c.pfx) ∧
    (¬ KeysSwap (fun z => ∃ v, l.Has (z, v)) (fun z => ∃ v, r.Has (z, v)) c.pfx d.pfx → LexBefore c.pfx d.pfx)
  outer : C.Pairwise fun c d => ¬ ContainsP d.pfx c.pfx
  sorted : (∀ κ, l κ ≠ none → r κ ≠ none) ∨ (∀ κ, r κ ≠ none → l κ ≠ none) → C.Pairwise fun c d => LexBefore c.pfx d.pfx

/-- `N` are the calls that `Map` makes: for the entries, and (C31) for the prefixes that are no entries but have
    entries in both halves; in lexicographic order. -/
structure Entries.Calls (m : Entries α D) (N : List (Prefix α × D × Bool)) : Prop where
  entries : m.Listed ((N.filter fun n => n.2.2).map fun n => (n.1, n.2.1))
  sorted : N.Pairwise fun n n' => LexBefore n.1 n'.1
  others : ∀ n ∈ N, n.2.2 = false → n.1.WF ∧ m (keyOf n.1) = none ∧ InBothHalves m.values n.1
  complete : ∀ p : Prefix α, p.WF → m (keyOf p) = none → InBothHalves m.values p → ∃ n ∈ N, n.2.2 = false ∧ keyOf n.1 = keyOf p

/-- What `Aggregate` should do, as far as it does (C32, C33): it has exactly the keys that the specification
    `PMap.aggregate` says, with the same or equal values; it finds something for the same addresses; the value
    found is one of an entry for the address, and the same value as before or an equal one if nothing more specific is lost; it
    has no more entries than before, and never both halves of a prefix with equal values. -/
structure Entries.Aggregated (e : D → D → Bool) (m m' : Entries α D) : Prop where
  exact : ∀ p : Prefix α, p.WF → match m.values.aggregate (width α) e (keyOf p) with
    | some w => ∃ x, m' (keyOf p) = some x ∧ (x.2 = w ∨ e x.2 w = true)
    | none => m' (keyOf p) = none
  fewer : ∀ L L', m.Listed L → m'.Listed L' → L'.length ≤ L.length
  found : ∀ a, (∃ x, m'.Has x ∧ InPrefix x.1 a) ↔ ∃ x, m.Has x ∧ InPrefix x.1 a
  value : ∀ a r, m'.Longest ⟨a, width α⟩ r → r.2.1 = true → ∃ x, m.Has x ∧ InPrefix x.1 a ∧ (r.1 = x.2 ∨ e r.1 x.2 = true)
  lookup : ∀ L, m.Listed L → NothingLost e L → ∀ a r r', m.Longest ⟨a, width α⟩ r → m'.Longest ⟨a, width α⟩ r' →
    r.2.1 = true → r'.1 = r.1 ∨ e r'.1 r.1 = true
  halves : ∀ x y, m'.Has x → m'.Has y → SiblingHalves x.1 y.1 → e x.2 y.2 = false

/-- What the program should see (`o`) and what the world should be afterwards (`w'`), if `Table_` is a variable
    that holds a map and `Table` is a map. -/
def TCmd.Explained (w : SWorld (MTable α D)) (c : TCmd α D σ) (o : TSeen α D σ) (w' : SWorld (MTable α D)) : Prop :=
  match c with
  | .new_ => o = .handle w.vars.length ∧ w' = w.declare ⟨Entries.empty, .dflt⟩
  | .newCustom cmp => o = .handle w.vars.length ∧ w' = w.declare ⟨Entries.empty, .custom cmp⟩
  | .op h p => o = .result ((w.var h).entries.step (w.var h).same p).2 ∧
    w' = w.assign h ⟨((w.var h).entries.step (w.var h).same p).1, (w.var h).cmp⟩
  | .longest h k => (∃ r, o = .match r ∧ (w.var h).entries.Longest k.toPrefix r) ∧ w' = w
  | .num h => (∃ L, (w.var h).entries.Listed L ∧ o = .num (L.length % 2 ^ 32)) ∧ w' = w
  | .freeze h => o = .table ∧ w' = w.got (w.var h)
  | .thaw t => o = .handle w.vars.length ∧ w' = w.declare ⟨(w.val t).entries, match (w.val t).cmp with
    | .nil => .dflt
    | e => e⟩
  | .xget t k => o = .result ((w.val t).entries.step (w.val t).same (.get k)).2 ∧ w' = w
  | .xlongest t k => (∃ r, o = .match r ∧ (w.val t).entries.Longest k.toPrefix r) ∧ w' = w
  | .xnum t => (∃ L, (w.val t).entries.Listed L ∧ o = .num (L.length % 2 ^ 32)) ∧ w' = w
  | .walk t cb s => (∃ L, (w.val t).entries.Listed L ∧ o = .walked (visit (fun x => cb x.1 x.2) L s)) ∧ w' = w
  | .diff t u cb s => (∃ C, (w.val t).entries.Differ (w.val u).entries C ∧
    o = .walked (visit (Change.report (w.val t).same cb) C s)) ∧ w' = w
  | .map t none s => o = .mapped s ∧ w' = w.got (w.val t)
  | .map t (some f) s => ∃ N m', (w.val t).entries.Calls N ∧ m'.Listed (N.foldl (mapCall (w.val t).same f) ([], s)).1 ∧
    o = .mapped (N.foldl (mapCall (w.val t).same f) ([], s)).2 ∧ w' = w.got ⟨m', (w.val t).cmp⟩
  | .aggregate t => ∃ m', (w.val t).entries.Aggregated (w.val t).same m' ∧ o = .table ∧ w' = w.got ⟨m', .nil⟩

/-- The call can be made: the variables and values exist; inserted and removed prefixes are valid; an
    uninitialised `Table_` is not modified (C41); `Diff` has a comparison function (a table that `Aggregate`
    returned has none, C40), and it is reflexive if `unchanged` is nil; `Map` and `Aggregate` are not called on a
    table with a custom comparison function (C39). -/
def TCmd.Fine (w : SWorld (MTable α D)) : TCmd α D σ → Prop
  | new_ | newCustom _ => True
  | op h o => w.HasVar h ∧ (o.writes = true → o.key.toPrefix.WF ∧ h ≠ none)
  | longest h _ | num h | freeze h => w.HasVar h
  | thaw t | xget t _ | xlongest t _ | xnum t | walk t _ _ => w.HasVal t
  | diff t u cb _ => w.HasVal t ∧ w.HasVal u ∧ ((w.val t).cmp = .nil → (w.val t).entries = Entries.empty) ∧
    (cb.unchanged = none → ∀ e, (w.val t).cmp = .custom e → (∀ x, e x x = true) ∨ cb.changed = none)
  | map t f _ => w.HasVal t ∧ (f = none ∨ (w.val t).entries = Entries.empty ∨ (w.val t).cmp = .dflt)
  | aggregate t => w.HasVal t ∧ ((w.val t).entries = Entries.empty ∨ (w.val t).cmp = .dflt)

/-- After `n` calls the program can have seen `h`, and the world can be `w`, if tables are maps. -/
inductive TProgram.Sees (p : TProgram α D σ) : Nat → SWorld (MTable α D) → List (TSeen α D σ) → Prop
  | init : Sees p 0 ⟨[], [⟨Entries.empty, .nil⟩]⟩ []
  | call {n : Nat} {w w' : SWorld (MTable α D)} {h : List (TSeen α D σ)} {c : TCmd α D σ} {o : TSeen α D σ} (hs : Sees p n w h)
      (hc : p h = some c) (he : c.Explained w o w') : Sees p (n + 1) w' (h ++ [o])
  | done {n : Nat} {w : SWorld (MTable α D)} {h : List (TSeen α D σ)} (hs : Sees p n w h) (hc : p h = none) : Sees p (n + 1) w h

/-- whatever the program sees, the calls that it makes can be made -/
def TProgram.Proper (p : TProgram α D σ) : Prop :=
  ∀ n w h c, TProgram.Sees p n w h → p h = some c → c.Fine w

end

section
variable {α D σ : Type} [LawfulGoWord α] [Inhabited D] [DecidableEq D] [Total D]

/-! ### the world of tables stands for the world of maps -/

open Classical in
/-- the map of the entries that `Walk` lists -/
noncomputable def Table.entriesOf (t : Table α D) : Entries α D := fun κ =>
  if h : ∃ x, x ∈ t.listed ∧ keyOf x.1 = κ then some (Classical.choose h) else none

theorem Table.Reachable.holds' {t : Table α D} (ht : t.Reachable) : t.Holds t.entriesOf := by
  obtain ⟨m, hm⟩ := ht.holds
  intro κ x
  unfold Table.entriesOf
  by_cases h : ∃ x, x ∈ t.listed ∧ keyOf x.1 = κ
  · rw [dif_pos h]
    have e := (hm _ _).mpr (Classical.choose_spec h)
    rw [← hm, e]
  · rw [dif_neg h]
    exact ⟨fun e => (by cases e), fun e => (h ⟨x, e⟩).elim⟩

theorem Table.Holds.eq {t : Table α D} {m : Entries α D} (h : t.Holds m) (ht : t.Reachable) : m = t.entriesOf :=
  h.unique ht.holds'

theorem Table.Holds.listed {t : Table α D} {m : Entries α D} (h : t.Holds m) (ht : t.Reachable) : m.Listed t.listed where
  valid := fun x hx => ht.good.inv.entries_wf ((Table.mem_listed (p := x.1) (v := x.2) ht.good).mp hx)
  sorted := C27_sorted t ht
  exact := fun _ => h.mem

theorem Table.Holds.longest {t : Table α D} {m : Entries α D} (h : t.Holds m) (ht : t.Reachable) (k : PrefixI α) :
    m.Longest k.toPrefix (t.longestMatch k) := by
  cases e : (t.longestMatch k).2.1 with
  | false =>
    exact Or.inl ⟨C25_longestMatch_zero t k e, fun x hx => (C25_longestMatch_notFound t ht k).mp e x (h.mem.mpr hx)⟩
  | true =>
    obtain ⟨h1, h2, h3⟩ := C25_longestMatch_found t ht k (t.longestMatch k).1 (t.longestMatch k).2.2 (by rw [← e])
    exact Or.inr ⟨((t.longestMatch k).2.2, (t.longestMatch k).1), by rw [← e], h.mem.mp h1, h2, fun y hy => h3 y (h.mem.mpr hy)⟩

/-- there is one longest match -/
theorem Table.Holds.longest_eq {t : Table α D} {m : Entries α D} (h : t.Holds m) (ht : t.Reachable) (k : PrefixI α) {r}
    (hr : m.Longest k.toPrefix r) : r = t.longestMatch k := by
  rcases hr with ⟨h1, h2⟩ | ⟨x, h1, h2, h3, h4⟩ <;> rcases h.longest ht k with ⟨g1, g2⟩ | ⟨y, g1, g2, g3, g4⟩
  · rw [h1, g1]
  · exact (h2 y g2 g3).elim
  · exact (g2 x h2 h3).elim
  · have hl : x.1.len = y.1.len := by have := h4 y g2 g3; have := g4 x h2 h3; omega
    have hk : keyOf x.1 = keyOf y.1 := by
      have a1 := h3.2
      have a2 := g3.2
      unfold InPrefix at a1 a2
      simp only [keyOf, Prod.mk.injEq]
      refine ⟨hl, ?_⟩
      rw [a1, hl, ← a2]
    have : some x = some y := by
      have h2 : m (keyOf x.1) = some x := h2
      have g2 : m (keyOf y.1) = some y := g2
      rw [← h2, hk, g2]
    cases this
    rw [h1, g1]

theorem Table.Holds.get {t : Table α D} {m : Entries α D} (h : t.Holds m) (ht : t.Reachable) (e : D → D → Bool) (k : PrefixI α) :
    Result.found (t.get k).1 (t.get k).2 = (m.step e (.get k)).2 := by
  simp only [Entries.step]
  cases hm : m (keyOf k.toPrefix) with
  | some x =>
    obtain ⟨h1, h2⟩ := (h _ x).mp hm
    rw [(C25_get t ht k x.2).mpr ⟨x.1, h1, h2⟩]
  | none =>
    have := (Table.get_spec ht.good k).2 (h.absent ht.good hm)
    rw [this]

theorem Table.Holds.nil {t : Table α D} {m : Entries α D} (h : t.Holds m) (ht : t.Reachable) (hm : m = Entries.empty) : t.trie = .nil := by
  apply Classical.byContradiction
  intro hn
  obtain ⟨x, hx⟩ := ht.good.inv.entry hn
  refine h.absent ht.good (k := x.1) ?_ x hx (SameKey.refl _)
  rw [hm]; rfl

theorem Table.Holds.differ {l r : Table α D} {m n : Entries α D} (hl : l.Holds m) (hr : r.Holds n) (rl : l.Reachable) (rr : r.Reachable) :
    m.Differ n (Table.changes l r) := by
  obtain ⟨_, h2, h3, _, h5⟩ := Table.changes_diff' l r rl rr _ rfl
  obtain ⟨_, _, _, g4, g5⟩ := Table.changes_order' l r rl rr _ rfl
  have nokey : ∀ {t : Table α D} {m : Entries α D}, t.Holds m → t.Reachable → ∀ p : Prefix α, (t.get (.prefix p)).2 = false → m (keyOf p) = none := by
    intro t m h ht p hp
    cases hm : m (keyOf p) with
    | none => rfl
    | some x =>
      obtain ⟨h1, h2⟩ := (h _ x).mp hm
      rw [(C25_get t ht (.prefix p) x.2).mpr ⟨x.1, h1, h2⟩] at hp; cases hp
  have haskey : ∀ {t : Table α D} {m : Entries α D}, t.Holds m → t.Reachable → ∀ p : Prefix α, m (keyOf p) ≠ none → (t.get (.prefix p)).2 = true := by
    intro t m h ht p hp
    cases hm : m (keyOf p) with
    | none => exact (hp hm).elim
    | some x =>
      obtain ⟨h1, h2⟩ := (h _ x).mp hm
      rw [(C25_get t ht (.prefix p) x.2).mpr ⟨x.1, h1, h2⟩]
  have swaps : ∀ x y, DiffSwaps l r x y ↔ KeysSwap (fun z => ∃ v, m.Has (z, v)) (fun z => ∃ v, n.Has (z, v)) x y := fun x y => by
    unfold DiffSwaps
    simp only [hl.mem, hr.mem]
  refine ⟨h2 ▸ hl.listed rl, h3 ▸ hr.listed rr, ?_, ?_, g4, ?_⟩
  · intro c hc
    have := h5 c hc
    cases c with
    | onlyLeft p v => exact nokey hr rr p this.2
    | onlyRight p v => exact nokey hl rl p this.1
    | both p v q w => exact this.1
  · simp only [← swaps]
    exact changes_exact rl.good rr.good
  · intro h
    refine g5 (h.imp ?_ ?_)
    · intro h x hx
      exact haskey hr rr _ (h _ (by rw [show m (keyOf x.1) = some x from hl.mem.mp hx]; simp))
    · intro h x hx
      exact haskey hl rl _ (h _ (by rw [show n (keyOf x.1) = some x from hr.mem.mp hx]; simp))

theorem Table.Holds.mapNodes {t : Table α D} {m : Entries α D} (h : t.Holds m) (ht : t.Reachable) {e : D → D → Bool} (he : t.eq = some e) :
    m.Calls t.mapNodes := by
  obtain ⟨h1, h2, h3, h4, h5⟩ := Table.mapNodes_exact t ht e he m.values (h.shows ht)
  have hv : ∀ κ, m.values κ = none ↔ m κ = none := fun κ => by simp only [Entries.values, Option.map_eq_none_iff]
  refine { entries := h1 ▸ h.listed ht, sorted := h2, others := fun n hn hf => ?_, complete := fun p hp hm hb => ?_ }
  · obtain ⟨g1, g2, g3⟩ := h3 n hn hf
    exact ⟨g1, (hv _).mp g2, g3⟩
  · exact h4 p hp ((hv _).mpr hm) hb

theorem Table.Holds.calls {t : Table α D} {m : Entries α D} (h : t.Holds m) (ht : t.Reachable) {e : D → D → Bool} (he : t.eq = some e) :
    ∃ N, m.Calls N ∧ ∀ {σ : Type} (f : Prefix α → D → σ → D × σ) (s : σ),
        N.foldl (mapCall e f) ([], s) = ((t.map (some f) s).1.listed, (t.map (some f) s).2) :=
  ⟨t.mapNodes, h.mapNodes ht he, (Table.mapNodes_ok t ht e he).2⟩

omit [DecidableEq D] in
theorem Entries.Listed.eq {m : Entries α D} {L L' : List (Prefix α × D)} (h : m.Listed L) (h' : m.Listed L') : L = L' := by
  refine eq_of_sorted ?_ h.sorted h'.sorted fun x => (h.exact x).trans (h'.exact x).symm
  intro p q h1 h2
  unfold LexBefore at h1 h2
  omega

theorem Table.Holds.aggregatedBy {t : Table α D} {m m' : Entries α D} (h : t.Holds m) (ht : t.Reachable) {e : D → D → Bool} (he : t.eq = some e)
    {geq : Option D → Option D → Bool} (hp : Trie.EqPer t.cmp geq) {c : Option (D → D → Bool)}
    (ht' : (⟨(t.aggregateBy geq).trie, c⟩ : Table α D).Reachable) (h' : (⟨(t.aggregateBy geq).trie, c⟩ : Table α D).Holds m') : m.Aggregated e m' := by
  have lm : ∀ {t : Table α D} {m : Entries α D}, t.Holds m → t.Reachable → ∀ a : α,
      (t.longestMatch (.address a)).2.1 = true ↔ ∃ x, m.Has x ∧ InPrefix x.1 a := by
    intro t m h ht a
    rcases h.longest ht (.address a) with ⟨h1, h2⟩ | ⟨x, h1, h2, h3, _⟩
    · rw [h1]
      refine ⟨fun h => (by cases h), fun ⟨x, hx, hi⟩ => (h2 x hx ⟨?_, hi⟩).elim⟩
      exact (h.listed ht).valid x ((h.listed ht).exact x |>.mpr hx)
    · rw [h1]; exact ⟨fun _ => ⟨x, h2, h3.2⟩, fun _ => rfl⟩
  refine ⟨?_, ?_, ?_, ?_, ?_, ?_⟩
  · intro p hwf
    have hx := aggBy_exact (c := c) ht.good he hp (h.shows ht) (.prefix p) hwf
    have hy := h'.shows ht' (.prefix p) hwf
    simp only [PrefixI.toPrefix, Entries.values] at hx hy
    cases hz : m' (keyOf p) with
    | none =>
      rw [hz] at hy
      simp only [Option.map_none] at hy
      rw [hy] at hx
      cases ha : PMap.aggregate (width α) e m.values (keyOf p) with
      | none => rfl
      | some w =>
        rw [ha] at hx
        obtain ⟨v, h1, _⟩ := hx
        cases h1
    | some x =>
      rw [hz] at hy
      simp only [Option.map_some] at hy
      rw [hy] at hx
      cases ha : PMap.aggregate (width α) e m.values (keyOf p) with
      | none =>
        rw [ha] at hx
        exact (Bool.noConfusion (Prod.mk.inj hx).2)
      | some w =>
        rw [ha] at hx
        obtain ⟨v, h1, h2⟩ := hx
        cases h1
        exact ⟨x, rfl, h2⟩
  · intro L L' hL hL'
    rw [hL.eq (h.listed ht), hL'.eq (h'.listed ht')]
    exact aggBy_length ht.good hp
  · intro a
    rw [← lm h ht a, ← lm h' ht' a, aggBy_found ht.good hp a]
  · intro a r hr hf
    rw [h'.longest_eq ht' (.address a) hr] at hf ⊢
    obtain ⟨x, h1, h2, h3⟩ := aggBy_value ht.good hp he a hf
    exact ⟨x, h.mem.mp h1, h2, h3⟩
  · intro L hL hn a r r' hr hr' hf
    rw [h.longest_eq ht (.address a) hr] at hf ⊢
    rw [h'.longest_eq ht' (.address a) hr']
    exact aggBy_lookup ht.good hp he (hL.eq (h.listed ht) ▸ hn) a hf
  · intro x y hx hy hs
    exact aggBy_siblings ht.good hp he (h'.mem.mpr hx) (h'.mem.mpr hy) hs

theorem Table.Holds.aggregated {t : Table α D} {m m' : Entries α D} (h : t.Holds m) (ht : t.Reachable) {e : D → D → Bool} (he : t.eq = some e)
    (hc : t.CmpOk) (h' : t.aggregate.Holds m') : m.Aggregated e m' :=
  h.aggregatedBy ht he hc.eqOk.toEqPer (.aggregate t ht hc) h'

theorem Entries.Aggregated.empty (e : D → D → Bool) : (Entries.empty : Entries α D).Aggregated e Entries.empty where
  exact := fun p hp => by
    have h0 := agg_none (e := e) (m := (Entries.empty : Entries α D).values) (width α) none (⟨zero, 0⟩ : Prefix α) (Nat.zero_le _) (Nat.zero_add _)
      (fun _ _ _ => rfl) (keyOf p)
    rw [keyOf_root] at h0
    unfold PMap.aggregate
    rw [h0]
    rfl
  fewer := fun L L' h h' => by rw [h.eq h']; exact Nat.le_refl _
  found := fun a => Iff.rfl
  value := fun a r hr hf => by
    rcases hr with ⟨h1, _⟩ | ⟨x, _, h2, _⟩
    · rw [h1] at hf; cases hf
    · cases h2
  lookup := fun L _ _ a r r' hr _ hf => by
    rcases hr with ⟨h1, _⟩ | ⟨x, _, h2, _⟩
    · rw [h1] at hf; cases hf
    · cases h2
  halves := fun x y hx => by cases hx

end

section
variable {α D σ : Type} [LawfulGoWord α] [Inhabited D] [Comparable D]

/-- a table that carries the comparison function `cmp` -/
structure AbsTable.Ok (a : AbsTable α D) : Prop where
  reachable : a.table.Reachable
  eq : a.table.eq = a.cmp.val

/-- as a map -/
noncomputable def AbsTable.toMap (a : AbsTable α D) : MTable α D := ⟨a.table.entriesOf, a.cmp⟩

theorem AbsTable.Ok.holds {a : AbsTable α D} (h : a.Ok) : a.table.Holds a.toMap.entries := h.reachable.holds'

theorem AbsTable.Ok.same {a : AbsTable α D} (h : a.Ok) {e : D → D → Bool} (he : a.table.eq = some e) : a.toMap.same = e := by
  have := h.eq
  rw [he] at this
  unfold MTable.same AbsTable.toMap
  cases hc : a.cmp with
  | nil => rw [hc] at this; cases this
  | dflt => rw [hc] at this; injection this with this; exact this.symm
  | custom c => rw [hc] at this; injection this with this; exact this.symm

theorem AbsTable.toMap_eq {t : Table α D} {m : Entries α D} {c : EqFn D} (h : t.Holds m) (ht : t.Reachable) :
    AbsTable.toMap ⟨t, c⟩ = ⟨m, c⟩ := by
  simp only [AbsTable.toMap]
  rw [h.eq ht]

theorem AbsTable.zero_ok : (AbsTable.zero : AbsTable α D).Ok := ⟨.empty, rfl⟩
theorem AbsTable.zero_map : (AbsTable.zero : AbsTable α D).toMap = default := AbsTable.toMap_eq (Table.holds_nil _) .empty

structure TWorld.Stands (w : TWorld α D) (u : SWorld (MTable α D)) : Prop where
  vars : u.vars = w.vars.map AbsTable.toMap
  vals : u.vals = w.vals.map AbsTable.toMap
  okvars : ∀ a ∈ w.vars, a.Ok ∧ a.cmp ≠ .nil
  okvals : ∀ a ∈ w.vals, a.Ok

namespace TWorld.Stands
variable {w : TWorld α D} {u : SWorld (MTable α D)}

theorem val (M : w.Stands u) (t : Nat) : u.val t = (w.val t).toMap ∧ (w.val t).Ok := by
  simp only [SWorld.val, TWorld.val, M.vals, List.getElem?_map]
  cases e : w.vals[t]? with
  | none => exact ⟨AbsTable.zero_map.symm, AbsTable.zero_ok⟩
  | some a => exact ⟨rfl, M.okvals _ (List.mem_of_getElem? e)⟩

/-- the table of a variable -/
theorem var (M : w.Stands u) (h : Option Nat) : ∃ a : AbsTable α D, w.var h = a.table ∧ u.var h = a.toMap ∧ a.Ok := by
  cases h with
  | none => exact ⟨.zero, rfl, AbsTable.zero_map.symm, AbsTable.zero_ok⟩
  | some o =>
    simp only [SWorld.var, TWorld.var, M.vars, List.getElem?_map]
    cases e : w.vars[o]? with
    | none => exact ⟨.zero, rfl, AbsTable.zero_map.symm, AbsTable.zero_ok⟩
    | some a => exact ⟨a, rfl, rfl, (M.okvars _ (List.mem_of_getElem? e)).1⟩

theorem declare (M : w.Stands u) {a : AbsTable α D} (h : a.Ok) (hc : a.cmp ≠ .nil) :
    TWorld.Stands { w with vars := w.vars ++ [a] } (u.declare a.toMap) where
  vars := by simp [SWorld.declare, M.vars]
  vals := M.vals
  okvars := fun b hb => by
    rcases List.mem_append.mp hb with hb | hb
    · exact M.okvars b hb
    · rw [List.mem_singleton.mp hb]; exact ⟨h, hc⟩
  okvals := M.okvals

theorem got (M : w.Stands u) {a : AbsTable α D} (h : a.Ok) : TWorld.Stands (w.got a) (u.got a.toMap) where
  vars := M.vars
  vals := by simp [SWorld.got, TWorld.got, M.vals]
  okvals := fun b hb => by
    rcases List.mem_append.mp hb with hb | hb
    · exact M.okvals b hb
    · rw [List.mem_singleton.mp hb]; exact h
  okvars := M.okvars

theorem legal (M : w.Stands u) {c : TCmd α D σ} (h : c.Fine u) : c.Legal w := by
  have l1 : u.vars.length = w.vars.length := by rw [M.vars, List.length_map]
  have l2 : u.vals.length = w.vals.length := by rw [M.vals, List.length_map]
  have v : ∀ {h}, u.HasVar h → ∀ i, h = some i → i < w.vars.length := fun h i e => l1 ▸ h i e
  have t : ∀ {h}, u.HasVal h → h < w.vals.length := fun {x} (h : x < u.vals.length) => (show x < w.vals.length from l2 ▸ h)
  have em : ∀ {t}, (u.val t).entries = Entries.empty → (w.val t).table.trie = .nil := by
    intro t h
    obtain ⟨e, ok⟩ := M.val t
    rw [e] at h
    exact ok.holds.nil ok.reachable h
  have cm : ∀ {t}, (u.val t).cmp = (w.val t).cmp := fun {t} => by rw [(M.val t).1]; rfl
  cases c with
  | new_ => trivial
  | newCustom _ => trivial
  | op h o => exact ⟨v h.1, h.2⟩
  | longest _ _ => exact v h
  | num _ => exact v h
  | freeze _ => exact v h
  | thaw _ => exact t h
  | xget _ _ => exact t h
  | xlongest _ _ => exact t h
  | xnum _ => exact t h
  | walk _ _ _ => exact t h
  | diff a b cb s =>
    obtain ⟨h1, h2, h3, h4⟩ := h
    exact ⟨t h1, t h2, fun e => em (h3 (cm.trans e)), fun hn e he => h4 hn e (cm.trans he)⟩
  | map a f s => exact ⟨t h.1, h.2.imp id fun h => h.imp em fun h => cm.symm.trans h⟩
  | aggregate a => exact ⟨t h.1, h.2.imp em fun h => cm.symm.trans h⟩

end TWorld.Stands

/-! ### the calls -/

theorem EqFn.val_some {c : EqFn D} (h : c ≠ .nil) : ∃ e, c.val = some e := by
  cases c with
  | nil => exact (h rfl).elim
  | dflt => exact ⟨_, rfl⟩
  | custom c => exact ⟨_, rfl⟩

/-- a table whose comparison function is used only if it has entries: we may give it one -/
theorem AbsTable.Ok.dress {a : AbsTable α D} (h : a.Ok) (hn : a.cmp = .nil → a.table.trie = .nil) :
    (⟨a.table.trie, some a.toMap.same⟩ : Table α D).Reachable ∧ (⟨a.table.trie, some a.toMap.same⟩ : Table α D).cmp = a.table.cmp := by
  cases he : a.table.eq with
  | some e =>
    have hs := h.same he
    have : (⟨a.table.trie, some a.toMap.same⟩ : Table α D) = a.table := by rw [hs, ← he]
    rw [this]; exact ⟨h.reachable, rfl⟩
  | none =>
    have hc : a.cmp = .nil := by
      have := h.eq
      rw [he] at this
      cases hc : a.cmp with
      | nil => rfl
      | dflt => rw [hc] at this; cases this
      | custom c => rw [hc] at this; cases this
    rw [hn hc]
    refine ⟨.newCustom _, ?_⟩
    simp only [Table.cmp, he, AbsTable.toMap, MTable.same, hc]
    rfl

/-- `==` is an equivalence -/
theorem Table.cmpOk_dflt {t : Table α D} (h : t.eq = some fun x y => decide (x = y)) : t.CmpOk :=
  ⟨_, h, by simp, by simp only [decide_eq_true_eq]; exact fun _ _ h => h.symm, by simp only [decide_eq_true_eq]; exact fun _ _ _ h g => h.trans g⟩

theorem TWorld.Stands.assign {w : TWorld α D} {u : SWorld (MTable α D)} (M : w.Stands u) (o : Nat) {T : Table α D}
    (h : AbsTable.Ok ⟨T, ((w.vars[o]?).getD .zero).cmp⟩) :
    TWorld.Stands (w.assign (some o) T) (u.assign (some o) (AbsTable.toMap ⟨T, ((w.vars[o]?).getD .zero).cmp⟩)) where
  vars := by
    simp only [SWorld.assign, TWorld.assign, M.vars]
    apply List.ext_getElem?
    intro i
    simp only [List.getElem?_set, List.getElem?_map, List.getElem?_modify, List.length_map]
    by_cases hi : o = i
    · subst hi
      cases e : w.vars[o]? with
      | none => simp [List.getElem?_eq_none_iff.mp e]
      | some a => 
        obtain ⟨hl, _⟩ := List.getElem?_eq_some_iff.mp e
        simp [hl]
    · simp [hi]
  vals := M.vals
  okvals := M.okvals
  okvars := fun b hb => by
    obtain ⟨i, hi⟩ := List.mem_iff_getElem?.mp hb
    simp only [TWorld.assign, List.getElem?_modify] at hi
    by_cases e : o = i
    · subst e
      cases ev : w.vars[o]? with
      | none => rw [ev] at hi; cases hi
      | some a =>
        rw [ev] at hi h
        simp only [if_true, Option.map_eq_map, Option.map_some, Option.some.injEq] at hi
        subst hi
        exact ⟨h, (M.okvars a (List.mem_of_getElem? ev)).2⟩
    · simp only [if_neg e, Option.map_eq_map, Option.map_id', id] at hi
      exact M.okvars b (List.mem_of_getElem? hi)

/-- one operation -/
theorem AbsTable.Ok.step {a : AbsTable α D} (ok : a.Ok) (o : TableOp α D) (hw : o.writes = true → o.key.toPrefix.WF ∧ a.cmp ≠ .nil) :
    AbsTable.Ok ⟨(a.table.step o).1, a.cmp⟩ ∧ (a.table.step o).1.Holds (a.toMap.entries.step a.toMap.same o).1 ∧
    (a.table.step o).2 = (a.toMap.entries.step a.toMap.same o).2 := by
  cases hv : o.writes with
  | true =>
    obtain ⟨hk, hn⟩ := hw hv
    obtain ⟨e, he⟩ := EqFn.val_some hn
    have he' : a.table.eq = some e := ok.eq.trans he
    have hs : a.toMap.same = e := ok.same he'
    rw [hs]
    have heq : (a.table.step o).1.eq = some e := by
      obtain ⟨m', hm'⟩ := C23_shows a.table ok.reachable
      exact (Table.step_spec (hm'.repr ok.reachable.good) he' o hk).2.1
    exact ⟨⟨.step _ o ok.reachable (by rw [he']; simp) hk, by rw [heq]; exact he.symm⟩, ok.holds.step_map ok.reachable he' o hk,
      ok.holds.step_result ok.reachable he' o hk⟩
  | false =>
    cases o with
    | get k =>
      have : (a.toMap.entries.step a.toMap.same (.get k)).1 = a.toMap.entries := by simp only [Entries.step]; split <;> rfl
      exact ⟨ok, by rw [this]; exact ok.holds, ok.holds.get ok.reachable _ k⟩
    | _ => cases hv

/-- one call -/
theorem TCmd.explained {w : TWorld α D} {u : SWorld (MTable α D)} (M : w.Stands u) {c : TCmd α D σ} (hf : c.Fine u) :
    ∃ u', c.Explained u (c.ideal w).1 u' ∧ (c.ideal w).2.Stands u' := by
  have l1 : u.vars.length = w.vars.length := by rw [M.vars, List.length_map]
  have l2 : u.vals.length = w.vals.length := by rw [M.vals, List.length_map]
  have em : ∀ {t}, (u.val t).entries = Entries.empty → (w.val t).table.trie = .nil := by
    intro t h
    obtain ⟨e, ok⟩ := M.val t
    rw [e] at h
    exact ok.holds.nil ok.reachable h
  cases c with
  | new_ =>
    refine ⟨_, ⟨congrArg _ l1.symm, rfl⟩, ?_⟩
    have := M.declare (a := ⟨Table.new_, .dflt⟩) ⟨.new_, rfl⟩ (by simp)
    rwa [AbsTable.toMap_eq (t := Table.new_) (Table.holds_nil _) .new_] at this
  | newCustom cmp =>
    refine ⟨_, ⟨congrArg _ l1.symm, rfl⟩, ?_⟩
    have := M.declare (a := ⟨Table.newCustom cmp, .custom cmp⟩) ⟨.newCustom _, rfl⟩ (by simp)
    rwa [AbsTable.toMap_eq (t := Table.newCustom cmp) (Table.holds_nil _) (.newCustom _)] at this
  | op h o =>
    obtain ⟨hh, hw⟩ := hf
    cases h with
    | none =>
      obtain ⟨h1, h2, h3⟩ := AbsTable.zero_ok.step o fun e => ((hw e).2 rfl).elim
      refine ⟨u, ⟨?_, rfl⟩, M⟩
      have : u.var none = AbsTable.zero.toMap := AbsTable.zero_map.symm
      rw [this]; exact congrArg _ h3
    | some i =>
      have hi : i < w.vars.length := l1 ▸ hh i rfl
      have ev : w.vars[i]? = some w.vars[i] := List.getElem?_eq_getElem hi
      obtain ⟨ok, hc⟩ := M.okvars w.vars[i] (List.getElem_mem hi)
      have h1 : w.var (some i) = w.vars[i].table := by simp only [TWorld.var, ev]; rfl
      have h2 : u.var (some i) = w.vars[i].toMap := by simp only [SWorld.var, M.vars, List.getElem?_map, ev]; rfl
      obtain ⟨s1, s2, s3⟩ := ok.step o fun e => ⟨(hw e).1, hc⟩
      refine ⟨_, ⟨?_, rfl⟩, ?_⟩
      · rw [h2]; simp only [TCmd.ideal, h1]; exact congrArg _ s3
      · have := M.assign i (T := (w.vars[i].table.step o).1) (by rw [ev]; exact s1)
        rw [AbsTable.toMap_eq s2 s1.reachable, ev] at this
        simp only [TCmd.ideal, h1, h2]
        exact this
  | longest h k =>
    obtain ⟨a, h1, h2, ok⟩ := M.var h
    refine ⟨u, ⟨⟨_, rfl, ?_⟩, rfl⟩, M⟩
    rw [h1, h2]; exact ok.holds.longest ok.reachable k
  | num h =>
    obtain ⟨a, h1, h2, ok⟩ := M.var h
    refine ⟨u, ⟨⟨_, ?_, congrArg _ (C26_numEntries_mod _ (h1 ▸ ok.reachable))⟩, rfl⟩, M⟩
    rw [h1, h2]; exact ok.holds.listed ok.reachable
  | freeze h =>
    cases h with
    | none => 
      refine ⟨_, ⟨rfl, rfl⟩, ?_⟩
      have := M.got (a := .zero) AbsTable.zero_ok
      rwa [AbsTable.zero_map] at this
    | some o =>
      refine ⟨_, ⟨rfl, rfl⟩, ?_⟩
      have hi : o < w.vars.length := l1 ▸ hf o rfl
      have ev : w.vars[o]? = some w.vars[o] := List.getElem?_eq_getElem hi
      have h2 : u.var (some o) = w.vars[o].toMap := by simp only [SWorld.var, M.vars, List.getElem?_map, ev]; rfl
      simp only [TCmd.ideal, ev, h2]
      exact M.got (M.okvars w.vars[o] (List.getElem_mem hi)).1
  | thaw t =>
    obtain ⟨h1, ok⟩ := M.val t
    refine ⟨_, ⟨congrArg _ l1.symm, rfl⟩, ?_⟩
    rw [h1]
    have hh : (w.val t).table.table_.Holds (w.val t).toMap.entries := ok.holds
    have hr : (w.val t).table.table_.Reachable := .table_ _ ok.reachable
    have he := ok.eq
    cases hc : (w.val t).cmp with
    | nil =>
      have := M.declare (a := ⟨(w.val t).table.table_, .dflt⟩) ⟨hr, by simp only [Table.table_, he, hc]; rfl⟩ (by simp)
      rw [AbsTable.toMap_eq hh hr] at this
      simp only [TCmd.ideal, hc, AbsTable.toMap]
      exact this
    | dflt =>
      have := M.declare (a := ⟨(w.val t).table.table_, .dflt⟩) ⟨hr, by simp only [Table.table_, he, hc]; rfl⟩ (by simp)
      rw [AbsTable.toMap_eq hh hr] at this
      simp only [TCmd.ideal, hc, AbsTable.toMap]
      exact this
    | custom c =>
      have := M.declare (a := ⟨(w.val t).table.table_, .custom c⟩) ⟨hr, by simp only [Table.table_, he, hc]; rfl⟩ (by simp)
      rw [AbsTable.toMap_eq hh hr] at this
      simp only [TCmd.ideal, hc, AbsTable.toMap]
      exact this
  | xget t k =>
    obtain ⟨h1, ok⟩ := M.val t
    refine ⟨u, ⟨?_, rfl⟩, M⟩
    rw [h1]; exact congrArg _ (ok.holds.get ok.reachable _ k)
  | xlongest t k =>
    obtain ⟨h1, ok⟩ := M.val t
    refine ⟨u, ⟨⟨_, rfl, ?_⟩, rfl⟩, M⟩
    rw [h1]; exact ok.holds.longest ok.reachable k
  | xnum t =>
    obtain ⟨h1, ok⟩ := M.val t
    refine ⟨u, ⟨⟨_, ?_, congrArg _ (C26_numEntries_mod _ ok.reachable)⟩, rfl⟩, M⟩
    rw [h1]; exact ok.holds.listed ok.reachable
  | walk t cb s =>
    obtain ⟨h1, ok⟩ := M.val t
    refine ⟨u, ⟨⟨_, ?_, congrArg _ (C27_walk _ cb s)⟩, rfl⟩, M⟩
    rw [h1]; exact ok.holds.listed ok.reachable
  | diff t t' cb s =>
    obtain ⟨h1, ok⟩ := M.val t
    obtain ⟨h1', ok'⟩ := M.val t'
    obtain ⟨_, _, hn, _⟩ := hf
    obtain ⟨d1, d2⟩ := ok.dress fun e => em (hn (by rw [h1]; exact e))
    refine ⟨u, ⟨⟨Table.changes ⟨(w.val t).table.trie, some (w.val t).toMap.same⟩ (w.val t').table, ?_, ?_⟩, rfl⟩, M⟩
    · rw [h1, h1']
      exact Table.Holds.differ (l := ⟨(w.val t).table.trie, some (w.val t).toMap.same⟩) ok.holds ok'.holds d1 ok'.reachable
    · rw [h1]
      refine congrArg _ (Eq.trans ?_ ((Table.changes_diff _ _ d1 ok'.reachable _ rfl).1 cb s))
      simp only [Table.diff, d2]
  | map t f s =>
    obtain ⟨h1, ok⟩ := M.val t
    cases f with
    | none =>
      refine ⟨_, ⟨rfl, rfl⟩, ?_⟩
      have := M.got (a := w.val t) ok
      rw [h1]; exact this
    | some f =>
      obtain ⟨d1, d2⟩ := ok.dress fun e => by
        rcases hf.2 with h | h | h
        · cases h
        · exact em h
        · rw [h1] at h; exact (by rw [show (w.val t).cmp = .dflt from h] at e; cases e)
      obtain ⟨N, c1, c2⟩ := Table.Holds.calls (t := ⟨(w.val t).table.trie, some (w.val t).toMap.same⟩) ok.holds d1 rfl
      have mk : (Table.map ⟨(w.val t).table.trie, some (w.val t).toMap.same⟩ (some f) s) =
          (⟨((w.val t).table.map (some f) s).1.trie, some (w.val t).toMap.same⟩, ((w.val t).table.map (some f) s).2) := by
        simp only [Table.map, d2]
      have r := Table.Reachable.map (w.val t).table (some f) s ok.reachable
      have e := c2 f s
      rw [mk] at e
      refine ⟨_, ⟨N, (AbsTable.toMap ⟨((w.val t).table.map (some f) s).1, (w.val t).cmp⟩).entries, ?_, ?_, ?_, rfl⟩, ?_⟩
      · rw [h1]; exact c1
      · rw [h1, e]; exact (AbsTable.Ok.holds (a := ⟨_, (w.val t).cmp⟩) ⟨r, ok.eq⟩).listed r
      · rw [h1, e]; rfl
      · rw [h1]
        exact M.got (a := ⟨((w.val t).table.map (some f) s).1, (w.val t).cmp⟩) ⟨r, ok.eq⟩
  | aggregate t =>
    obtain ⟨h1, ok⟩ := M.val t
    by_cases hn : (w.val t).table.trie = .nil
    · have e : (w.val t).table.aggregate = Table.empty := by simp only [Table.aggregate, hn]; rfl
      refine ⟨_, ⟨Entries.empty, ?_, rfl, rfl⟩, ?_⟩
      · rw [h1]
        have : (w.val t).toMap.entries = Entries.empty := ok.holds.unique (by
          have := Table.holds_nil (α := α) (w.val t).table.eq
          rwa [← hn] at this)
        rw [this]; exact .empty _
      · have := M.got (a := ⟨(w.val t).table.aggregate, .nil⟩) ⟨e ▸ .empty, rfl⟩
        rw [AbsTable.toMap_eq (m := Entries.empty) (e ▸ Table.holds_nil _) (e ▸ .empty)] at this
        exact this
    · have hc : (w.val t).cmp = .dflt := by
        rcases hf.2 with h | h
        · exact (hn (em h)).elim
        · rw [h1] at h; exact h
      have he : (w.val t).table.eq = some fun x y => decide (x = y) := by rw [ok.eq, hc]; rfl
      have r : (w.val t).table.aggregate.Reachable := .aggregate _ ok.reachable (Table.cmpOk_dflt he)
      refine ⟨_, ⟨_, ?_, rfl, rfl⟩, M.got (a := ⟨(w.val t).table.aggregate, .nil⟩) ⟨r, rfl⟩⟩
      rw [h1, ok.same he]
      exact ok.holds.aggregated ok.reachable he (Table.cmpOk_dflt he) r.holds'

theorem TProgram.sees (p : TProgram α D σ) (hp : TProgram.Proper p) (n : Nat) :
    ∃ u, (TProgram.ideally p n).1.Stands u ∧ TProgram.Sees p n u (TProgram.ideally p n).2 := by
  induction n with
  | zero =>
    refine ⟨_, { vars := rfl, vals := ?_, okvars := fun a h => by simp [TProgram.ideally] at h, okvals := ?_ }, .init⟩
    · simp only [TProgram.ideally, List.map_cons, List.map_nil, AbsTable.zero_map]; rfl
    · intro a ha
      rw [List.mem_singleton.mp ha]; exact AbsTable.zero_ok
  | succ n ih =>
    obtain ⟨u, h1, h2⟩ := ih
    simp only [TProgram.ideally]
    cases hc : p (TProgram.ideally p n).2 with
    | none => exact ⟨u, h1, .done h2 hc⟩
    | some c =>
      obtain ⟨u', e1, e2⟩ := TCmd.explained h1 (hp n u _ c h2 hc)
      exact ⟨u', e2, .call h2 hc e1⟩

theorem TProgram.Proper.legal {p : TProgram α D σ} (hp : TProgram.Proper p) : TProgram.Legal p := by
  intro n c hc
  obtain ⟨u, h1, h2⟩ := TProgram.sees p hp n
  exact h1.legal (hp n u _ c h2 hc)

/-- On the heap, a sequential program sees what it would see if `Table_` were a variable that holds a map from
    prefixes to values and `Table` such a map; no call panics or runs for ever. -/
theorem C60_tables {F : Nat} (hF : 2 * width α + 3 ≤ F) (p : TProgram α D σ) (hp : TProgram.Proper p) (n : Nat) :
    ∃ r w, TProgram.onHeap F p n = some r ∧ TProgram.Sees p n w r.seen := by
  obtain ⟨r, h1, h2, _⟩ := C58_tables hF p hp.legal n
  obtain ⟨w, _, h3⟩ := TProgram.sees p hp n
  exact ⟨r, w, h1, h2 ▸ h3⟩

end

section
variable {α D σ : Type} [LawfulGoWord α] [Inhabited D] [Total D]

/-- The listing of a map is unique, so the calls that `Walk` makes are determined by the entries. -/
theorem C60_listing_unique {m : Entries α D} {L L' : List (Prefix α × D)} (h : m.Listed L) (h' : m.Listed L') : L = L' := h.eq h'

theorem Entries.Differ.mem_left {l r : Entries α D} {C : List (Change α D)} (h : l.Differ r C) {x : Prefix α × D} :
    l.Has x ↔ ∃ c ∈ C, c.left = some x := by
  rw [← h.left.exact x, List.mem_filterMap]

theorem Entries.Differ.mem_right {l r : Entries α D} {C : List (Change α D)} (h : l.Differ r C) {x : Prefix α × D} :
    r.Has x ↔ ∃ c ∈ C, c.right = some x := by
  rw [← h.right.exact x, List.mem_filterMap]

theorem Entries.Differ.sub {l r : Entries α D} {C C' : List (Change α D)} (h : l.Differ r C) (h' : l.Differ r C') (c : Change α D) (hc : c ∈ C) : c ∈ C' := by
  have hp := h.pairs c hc
  cases c with
  | onlyLeft p v =>
    obtain ⟨c', h1, h2⟩ := h'.mem_left.mp (h.mem_left.mpr ⟨_, hc, rfl⟩)
    have hp' := h'.pairs c' h1
    cases c' with
    | onlyLeft p' v' => cases h2; exact h1
    | onlyRight p' v' => cases h2
    | both p' v' q' w' =>
      cases h2
      have hr : r (keyOf q') = some (q', w') := h'.mem_right.mpr ⟨_, h1, rfl⟩
      simp only at hp hp'
      rw [← hp', hp] at hr
      cases hr
  | onlyRight p v =>
    obtain ⟨c', h1, h2⟩ := h'.mem_right.mp (h.mem_right.mpr ⟨_, hc, rfl⟩)
    have hp' := h'.pairs c' h1
    cases c' with
    | onlyRight p' v' => cases h2; exact h1
    | onlyLeft p' v' => cases h2
    | both p' v' q' w' =>
      cases h2
      have hr : l (keyOf p') = some (p', v') := h'.mem_left.mpr ⟨_, h1, rfl⟩
      simp only at hp hp'
      rw [hp', hp] at hr
      cases hr
  | both p v q w =>
    obtain ⟨c', h1, h2⟩ := h'.mem_left.mp (h.mem_left.mpr ⟨_, hc, rfl⟩)
    have hr : r (keyOf q) = some (q, w) := h.mem_right.mpr ⟨_, hc, rfl⟩
    have hp' := h'.pairs c' h1
    simp only at hp
    cases c' with
    | onlyRight p' v' => cases h2
    | onlyLeft p' v' =>
      cases h2
      simp only at hp'
      rw [← hp, hp'] at hr
      cases hr
    | both p' v' q' w' =>
      cases h2
      have hr' : r (keyOf q') = some (q', w') := h'.mem_right.mpr ⟨_, h1, rfl⟩
      simp only at hp'
      rw [← hp', hp, hr] at hr'
      cases hr'
      exact h1

/-- What `Diff` should report is unique, so the callbacks that `Diff` calls, and in which order, are determined by
    the entries of both tables. -/
theorem C60_differ_unique {l r : Entries α D} {C C' : List (Change α D)} (h : l.Differ r C) (h' : l.Differ r C') : C = C' := by
  refine eq_of_sorted ?_ h.order h'.order fun c => ⟨h.sub h' c, h'.sub h c⟩
  intro c d h1 h2
  by_cases hs : KeysSwap (fun z => ∃ v, l.Has (z, v)) (fun z => ∃ v, r.Has (z, v)) c.pfx d.pfx
  · exact (h1.1 hs).asymm (h2.1 hs.symm)
  · exact (h1.2 hs).asymm (h2.2 fun hd => hs hd.symm)

end

/-! ### a concrete program -/
namespace Sample

/-- It fills a table, maps it, compares the result with the original and aggregates. -/
def tprog2 : TProgram (BitVec 32) Nat Nat := fun h =>
  match h with
  | [] => some .new_
  | [_] => some (.op (some 0) (.insertOrUpdate (.prefix p8) 1))
  | [_, _] => some (.op (some 0) (.getOrInsert (.prefix p16) 1))
  | [_, _, _] => some (.freeze (some 0))
  | [_, _, _, _] => some (.map 1 (some fun _ v s => (v + 1, s + 1)) 0)
  -- what it does next depends on what it has seen
  | [_, _, _, _, .mapped n] => if n = 0 then none else some (.diff 2 1 { left := some fun _ _ s => (s + 1, true), right := none, changed := some fun _ _ _ s => (s, false), unchanged := none } n)
  | [_, _, _, _, _, _] => some (.aggregate 2)
  | [_, _, _, _, _, _, _] => some (.walk 3 (fun _ _ s => (s + 1, true)) 0)
  | _ => none

theorem cmp_var {D : Type} (w : SWorld (MTable (BitVec 32) D)) (i : Nat) : (w.var (some i)).cmp = ((w.vars.map MTable.cmp)[i]?).getD .nil := by
  simp only [SWorld.var, List.getElem?_map]
  cases w.vars[i]? <;> rfl
theorem cmp_val {D : Type} (w : SWorld (MTable (BitVec 32) D)) (i : Nat) : (w.val i).cmp = ((w.vals.map MTable.cmp)[i]?).getD .nil := by
  simp only [SWorld.val, List.getElem?_map]
  cases w.vals[i]? <;> rfl
theorem cmps_assign {D : Type} (w : SWorld (MTable (BitVec 32) D)) (i : Nat) (m : Entries (BitVec 32) D) :
    (w.assign (some i) ⟨m, (w.var (some i)).cmp⟩).vars.map MTable.cmp = w.vars.map MTable.cmp := by
  simp only [SWorld.assign, List.map_set, cmp_var]
  apply List.ext_getElem?
  intro j
  simp only [List.getElem?_set]
  split
  · next h =>
    subst h
    split
    · next h => rw [List.getElem?_eq_getElem h]; rfl
    · next h => rw [List.getElem?_eq_none (by omega)]
  · rfl

theorem tprog2_proper : TProgram.Proper tprog2 := by
  have inv : ∀ n w h, TProgram.Sees tprog2 n w h →
      h.length ≤ 8 ∧ w.vars.map MTable.cmp = [EqFn.dflt].take h.length ∧
      w.vals.map MTable.cmp = [EqFn.nil] ++ [EqFn.dflt].take (h.length - 3) ++ [EqFn.dflt].take (h.length - 4) ++ [EqFn.nil].take (h.length - 6) := by
    intro n w h hs
    induction hs with
    | init => simp
    | done hs hc ih => exact ih
    | @call n w w' h c o hs hc he ih =>
      obtain ⟨i1, i2, i3⟩ := ih
      simp only [tprog2] at hc
      split at hc
      · cases hc; obtain ⟨_, he⟩ := he; rw [he]; simp [SWorld.declare, i2, i3]
      · cases hc; obtain ⟨_, he⟩ := he; rw [he, cmps_assign]; simp [SWorld.assign, i2, i3]
      · cases hc; obtain ⟨_, he⟩ := he; rw [he, cmps_assign]; simp [SWorld.assign, i2, i3]
      · cases hc; obtain ⟨_, he⟩ := he; rw [he]; simp [SWorld.got, i2, i3, cmp_var]
      · cases hc; obtain ⟨_, _, _, _, _, he⟩ := he; rw [he]; simp [SWorld.got, i2, i3, cmp_val]
      · split at hc <;> cases hc; obtain ⟨_, he⟩ := he; rw [he]; simp [i2, i3]
      · cases hc; obtain ⟨_, _, _, he⟩ := he; rw [he]; simp [SWorld.got, i2, i3]
      · cases hc; obtain ⟨_, he⟩ := he; rw [he]; simp [i2, i3]
      · cases hc
  intro n w h c hs hc
  obtain ⟨i1, i2, i3⟩ := inv n w h hs
  have l2 := congrArg List.length i2
  have l3 := congrArg List.length i3
  have v : w.vars.length = 1 → w.HasVar (some 0) := fun e i hi => by cases hi; omega
  simp only [tprog2] at hc
  split at hc
  · cases hc; trivial
  · cases hc; exact ⟨v (by simpa using l2), fun _ => ⟨by show p8.WF; decide, by simp⟩⟩
  · cases hc; exact ⟨v (by simpa using l2), fun _ => ⟨by show p16.WF; decide, by simp⟩⟩
  · cases hc; exact v (by simpa using l2)
  · cases hc
    refine ⟨?_, Or.inr (Or.inr ?_)⟩
    · show 1 < w.vals.length; simp at l3; omega
    · rw [cmp_val, i3]; rfl
  · split at hc <;> cases hc
    have hd : (w.val 2).cmp = .dflt := by rw [cmp_val, i3]; rfl
    refine ⟨?_, ?_, fun e => ?_, fun _ e h => ?_⟩
    · show 2 < w.vals.length; simp at l3; omega
    · show 1 < w.vals.length; simp at l3; omega
    · rw [hd] at e; cases e
    · rw [hd] at h; cases h
  · cases hc
    refine ⟨?_, Or.inr ?_⟩
    · show 2 < w.vals.length; simp at l3; omega
    · rw [cmp_val, i3]; rfl
  · cases hc; show 3 < w.vals.length; simp at l3; omega
  · cases hc

/-- it runs to its end on the heap -/
example : ∃ r w, TProgram.onHeap 67 tprog2 8 = some r ∧ TProgram.Sees tprog2 8 w r.seen :=
  C60_tables (by decide) tprog2 tprog2_proper 8

end Sample
end Addrs

import Verif.Calm
import Verif.PanicStep
import Verif.PropSeqTables
/-
  Property C68: exactly which calls of a sequential program panic.
-/
set_option linter.unusedSectionVars false
set_option linter.unusedSimpArgs false
namespace Addrs
open GoWord LawfulGoWord Heap

section
variable {α D σ : Type} [LawfulGoWord α] [Inhabited D] [Comparable D]

/-! ### the specification -/

/-- `p` strictly contains `q` -/
def StrictlyContains (p q : Prefix α) : Prop := ContainsP p q ∧ p.len < q.len

/-- `p` is no entry, but there are entries in both its halves -/
def Entries.Fork (m : Entries α D) (p : Prefix α) : Prop := p.WF ∧ m (keyOf p) = none ∧ InBothHalves m.values p

/-- Nothing inside `p` can be aggregated: no entry there has the value of the nearest entry that strictly contains
    it, and no two entries there are the two halves of one prefix and have equal values. -/
structure Entries.Irreducible (e : D → D → Bool) (m : Entries α D) (p : Prefix α) : Prop where
  nearest : ∀ x y, m.Has x → m.Has y → ContainsP p x.1 → StrictlyContains y.1 x.1 →
    (∀ z, m.Has z → StrictlyContains z.1 x.1 → z.1.len ≤ y.1.len) → e y.2 x.2 = false
  halves : ∀ x y, m.Has x → m.Has y → ContainsP p x.1 → ContainsP p y.1 → SiblingHalves x.1 y.1 → e x.2 y.2 = false

/-- `Map` with a mapper panics -/
def MTable.MapPanics (a : MTable α D) : Prop :=
  match a.cmp with
  | .nil => a.entries ≠ Entries.empty
  | .dflt => False
  | .custom _ => ∃ p, a.entries.Fork p

/-- `Aggregate` panics -/
def MTable.AggregatePanics (a : MTable α D) : Prop :=
  match a.cmp with
  | .nil => a.entries ≠ Entries.empty
  | .dflt => False
  | .custom e => ∃ p, a.entries.Fork p ∧ a.entries.Irreducible e p

/-- `Diff` panics: the table has no comparison function, and the callbacks have been told all changes up to an entry
    that both tables have. -/
def MTable.DiffPanics (a b : MTable α D) (cb : TableDiffCallbacks α D σ) (s : σ) : Prop :=
  a.cmp = .nil ∧ ∃ C, a.entries.Differ b.entries C ∧ MeetsCommon cb C s

/-- The call panics: it modifies an uninitialised `Table_`; or it is `Map` or `Aggregate` of a table that has
    entries but no comparison function (because `Aggregate` returned it); or `Map` of a table with a custom
    comparison function in which some prefix is no entry but has entries in both halves; or `Aggregate` of such a
    table, and nothing inside that prefix can be aggregated; or `Diff` of a table that has no comparison function
    gets to an entry that both tables have. -/
def TCmd.Panics (w : SWorld (MTable α D)) : TCmd α D σ → Prop
  | op h o => h = none ∧ o.writes = true
  | map t f _ => f ≠ none ∧ (w.val t).MapPanics
  | aggregate t => (w.val t).AggregatePanics
  | diff t u cb s => (w.val t).DiffPanics (w.val u) cb s
  | _ => False

/-- The call can be made, though it may panic: the variables and values exist; inserted and removed prefixes are
    valid; the comparison function of `Aggregate` is an equivalence; for `Diff` with nil `unchanged` a custom comparison
    function is reflexive, or `changed` is nil too, and a table without comparison function has no entry in common
    with the other one (`Diff` skips shared parts then, which programs cannot see otherwise). -/
def TCmd.Askable (w : SWorld (MTable α D)) : TCmd α D σ → Prop
  | op h o => w.HasVar h ∧ (o.writes = true → o.key.toPrefix.WF)
  | map t _ _ => w.HasVal t
  | aggregate t => w.HasVal t ∧ ∀ e, (w.val t).cmp = .custom e →
    (∀ x, e x x = true) ∧ (∀ x y, e x y = true → e y x = true) ∧ ∀ x y z, e x y = true → e y z = true → e x z = true
  | diff t u cb _ => w.HasVal t ∧ w.HasVal u ∧
    ((w.val t).cmp = .nil → cb.unchanged ≠ none ∨ ∀ κ, (w.val t).entries κ = none ∨ (w.val u).entries κ = none) ∧
    (cb.unchanged = none → ∀ e, (w.val t).cmp = .custom e → (∀ x, e x x = true) ∨ cb.changed = none)
  | c => c.Fine w

/-- After `n` calls the program can have seen `h`, and the world can be `w`, if tables are maps; `b` says whether
    the program has panicked. -/
inductive TProgram.SeesOr (p : TProgram α D σ) : Nat → SWorld (MTable α D) → List (TSeen α D σ) → Bool → Prop
  | init : SeesOr p 0 ⟨[], [⟨Entries.empty, .nil⟩]⟩ [] false
  | call {n : Nat} {w w' : SWorld (MTable α D)} {h : List (TSeen α D σ)} {c : TCmd α D σ} {o : TSeen α D σ} (hs : SeesOr p n w h false)
      (hc : p h = some c) (hp : ¬ c.Panics w) (he : c.Explained w o w') : SeesOr p (n + 1) w' (h ++ [o]) false
  | panic {n : Nat} {w : SWorld (MTable α D)} {h : List (TSeen α D σ)} {c : TCmd α D σ} (hs : SeesOr p n w h false)
      (hc : p h = some c) (hp : c.Panics w) : SeesOr p (n + 1) w h true
  | done {n : Nat} {w : SWorld (MTable α D)} {h : List (TSeen α D σ)} (hs : SeesOr p n w h false) (hc : p h = none) : SeesOr p (n + 1) w h false
  | over {n : Nat} {w : SWorld (MTable α D)} {h : List (TSeen α D σ)} (hs : SeesOr p n w h true) : SeesOr p (n + 1) w h true

/-- whatever the program sees, the calls that it makes can be made -/
def TProgram.Sensible (p : TProgram α D σ) : Prop :=
  ∀ n w h c, TProgram.SeesOr p n w h false → p h = some c → c.Askable w

/-- what has become of a program: it is still running, it has panicked, or a call has not returned -/
inductive TEnd (α D σ : Type) where
  | running (r : TRun α D σ)
  | panicked (seen : List (TSeen α D σ))
  | hung

/-- the first `n` calls of the program on the heap -/
def TProgram.runs [GoType D] (F : Nat) (p : TProgram α D σ) : Nat → TEnd α D σ
  | 0 => .running ⟨⟨[], []⟩, [.zero], []⟩
  | n + 1 =>
    match p.runs F n with
    | .running r =>
      match p r.seen with
      | none => .running r
      | some c =>
        match ((c.call r.regs).code F).run r.mem with
        | (.ret x, m) => .running ⟨m, r.regs ++ x.outs, r.seen ++ [x.seen]⟩
        | (.panic, _) => .panicked r.seen
        | (.stuck, _) => .hung
    | e => e

/-! ### tables as maps -/

theorem Trie.solid_iff {t : Trie α D} : t.Solid ↔ ∀ n ∈ t.allNodes, n.2.2 = true := by
  induction t with
  | nil => exact ⟨fun _ n h => (by cases h), fun _ => trivial⟩
  | node p d n hh act l r ihl ihr =>
    simp only [Trie.Solid, Trie.allNodes, List.mem_cons, List.mem_append, ihl, ihr]
    constructor
    · rintro ⟨h1, h2, h3⟩ n (rfl | h | h)
      · exact h1
      · exact h2 n h
      · exact h3 n h
    · intro h
      exact ⟨h _ (Or.inl rfl), fun n hn => h n (Or.inr (Or.inl hn)), fun n hn => h n (Or.inr (Or.inr hn))⟩

theorem Table.Holds.solid {t : Table α D} {m : Entries α D} (h : t.Holds m) (ht : t.Reachable) {e : D → D → Bool} (he : t.eq = some e) :
    ¬ t.trie.Solid ↔ ∃ p, m.Fork p := by
  obtain ⟨_, _, h3, h4, _⟩ := Table.mapNodes_exact t ht e he m.values (h.shows ht)
  have hv : ∀ κ, m.values κ = none ↔ m κ = none := fun κ => by simp only [Entries.values, Option.map_eq_none_iff]
  rw [Trie.solid_iff]
  constructor
  · intro hn
    obtain ⟨n, hn⟩ := Classical.not_forall.mp hn
    obtain ⟨hn, ha⟩ := Classical.not_imp.mp hn
    obtain ⟨g1, g2, g3⟩ := h3 (n.1, Table.unbox n.2.1, n.2.2) (List.mem_map.mpr ⟨n, hn, rfl⟩) (by simpa using ha)
    exact ⟨n.1, g1, (hv _).mp g2, g3⟩
  · rintro ⟨p, h1, h2, h3⟩ hs
    obtain ⟨n, hn, ha, _⟩ := h4 p h1 ((hv _).mpr h2) h3
    obtain ⟨z, hz, rfl⟩ := List.mem_map.mp hn
    rw [hs z hz] at ha; cases ha

theorem strictly_iff {p q : Prefix α} (hp : p.WF) : StrictlyContains p q ↔ Trie.Over p q := by
  unfold StrictlyContains Trie.Over
  rw [containsP_iff hp]
  exact ⟨fun ⟨h, h'⟩ => ⟨h', h.2⟩, fun ⟨h, h'⟩ => ⟨⟨Nat.le_of_lt h, h'⟩, h⟩⟩

theorem Table.Holds.aggSafe {t : Table α D} {m : Entries α D} (h : t.Holds m) (ht : t.Reachable) {e : D → D → Bool} (he : t.eq = some e)
    (hc : t.CmpOk) : Trie.AggSafe t.cmp goEq none t.trie = false ↔ ∃ p, m.Fork p ∧ m.Irreducible e p := by
  have hg := ht.good
  have hok := hc.eqOk
  rw [Trie.aggSafe_iff hok hg.inv none]
  have hm : t.Shows m.values := h.shows ht
  have hcmp : ∀ a b : D, t.cmp (some a) (some b) = e a b := fun a b => by simp [Table.cmp, he, liftEq]
  have mem : ∀ {p : Prefix α} {v : D}, (p, some v) ∈ t.trie.entries ↔ m.Has (p, v) := fun {p v} => by
    rw [← Table.mem_listed hg]; exact h.mem
  have boxed : ∀ {x}, x ∈ t.trie.entries → ∃ v, x = (x.1, some v) := fun {x} hx => by
    obtain ⟨v, hv⟩ := Option.isSome_iff_exists.mp (hg.some x hx)
    exact ⟨v, by rw [← hv]⟩
  have nokey : ∀ {k : Prefix α}, k.WF → ((∀ x, x ∈ t.trie.entries → ¬ SameKey x.1 k) ↔ m (keyOf k) = none) := by
    intro k hk
    constructor
    · intro hn
      cases e : m (keyOf k) with
      | none => rfl
      | some x =>
        obtain ⟨h1, h2⟩ := (h _ x).mp e
        have hx := (Table.mem_listed (p := x.1) (v := x.2) hg).mp h1
        exact absurd ((keyOf_eq (hg.inv.entries_wf hx)).mp h2) (hn _ hx)
    · intro hn
      exact h.absent hg hn
  have halves : ∀ {k : Prefix α}, k.WF → ((∃ x y, x ∈ t.trie.entries ∧ y ∈ t.trie.entries ∧ Sub k x.1 false ∧ Sub k y.1 true) ↔
      InBothHalves m.values k) := fun hk => (halves_iff ht hk).trans (inBothHalves_iff ht hm _)
  have quiet : ∀ {k : Prefix α}, k.WF → (Trie.Quiet t.cmp none (· ∈ t.trie.entries) (SubEq k) ↔ m.Irreducible e k) := by
    intro k hk
    constructor
    · intro q
      refine ⟨?_, ?_⟩
      · intro x y hx hy hin ho hn
        have wy := hg.inv.entries_wf (mem.mpr hy)
        rw [← hcmp]
        refine q.near (x.1, some x.2) (mem.mpr hx) ((containsP_iff hk).mp hin) (y.1, some y.2) ⟨mem.mpr hy, (strictly_iff wy).mp ho, ?_⟩
        intro z hz hzo
        obtain ⟨v, hv⟩ := boxed hz
        have hz' := hz
        rw [hv] at hz'
        exact hn (z.1, v) (mem.mp hz') ((strictly_iff (hg.inv.entries_wf hz)).mpr hzo)
      · intro x y hx hy ix iy hs
        have wx := hg.inv.entries_wf (mem.mpr hx)
        obtain ⟨P, b, hP, h1, h2⟩ := halves_sibling wx hs
        have hl := hs.1
        cases b with
        | false =>
          rw [← hcmp]
          exact q.sib (x.1, some x.2) (y.1, some y.2) (mem.mpr hx) (mem.mpr hy) ((containsP_iff hk).mp ix) ((containsP_iff hk).mp iy)
            ⟨P, hP.symm, by rw [← hl]; exact hP.symm, h1, h2⟩
        | true =>
          have := q.sib (y.1, some y.2) (x.1, some x.2) (mem.mpr hy) (mem.mpr hx) ((containsP_iff hk).mp iy) ((containsP_iff hk).mp ix)
            ⟨P, by rw [← hl]; exact hP.symm, hP.symm, h2, h1⟩
          rw [← hcmp, ← Bool.not_eq_true]
          intro h'
          rw [hok.symm h'] at this
          cases this
    · intro q
      refine ⟨?_, fun _ _ _ _ v hv => (by cases hv), ?_⟩
      · intro x hx hin y ⟨hy, ho, hn⟩
        obtain ⟨v, hv⟩ := boxed hx
        obtain ⟨v', hv'⟩ := boxed hy
        have wy := hg.inv.entries_wf hy
        rw [hv] at hx
        rw [hv'] at hy
        rw [hv, hv', hcmp]
        refine q.nearest (x.1, v) (y.1, v') (mem.mp hx) (mem.mp hy) ((containsP_iff hk).mpr hin) ((strictly_iff wy).mpr ho) ?_
        intro z hz hzo
        have hz := mem.mpr hz
        exact hn _ hz ((strictly_iff (hg.inv.entries_wf hz)).mp hzo)
      · intro x y hx hy ix iy ⟨P, l1, l2, s1, s2⟩
        have wx := hg.inv.entries_wf hx
        have wy := hg.inv.entries_wf hy
        obtain ⟨v, hv⟩ := boxed hx
        obtain ⟨v', hv'⟩ := boxed hy
        rw [hv] at hx
        rw [hv'] at hy
        rw [hv, hv', hcmp]
        exact q.halves (x.1, v) (y.1, v') (mem.mp hx) (mem.mp hy) ((containsP_iff hk).mpr ix) ((containsP_iff hk).mpr iy)
          (sibling_halves wx wy ⟨l1.trans l2.symm, P, false, l1.symm, s1, s2⟩)
  constructor
  · rintro ⟨k, wk, h1, h2, h3⟩
    exact ⟨k, ⟨wk, (nokey wk).mp h1, (halves wk).mp h2⟩, (quiet wk).mp h3⟩
  · rintro ⟨k, ⟨wk, h1, h2⟩, h3⟩
    exact ⟨k, wk, (nokey wk).mpr h1, (halves wk).mpr h2, (quiet wk).mpr h3⟩

theorem AbsTable.Ok.empty_iff {a : AbsTable α D} (ok : a.Ok) : a.toMap.entries = Entries.empty ↔ a.table.trie = .nil := by
  refine ⟨ok.holds.nil ok.reachable, fun hn => ok.holds.unique ?_⟩
  have := Table.holds_nil (α := α) a.table.eq
  rwa [← hn] at this

theorem AbsTable.Ok.custom {a : AbsTable α D} (ok : a.Ok) {e : D → D → Bool} (h : a.cmp = .custom e) : a.table.eq = some e := by
  rw [ok.eq, h]; rfl

/-- the comparison function of the table is an equivalence -/
theorem AbsTable.Ok.cmpOk {a : AbsTable α D} (ok : a.Ok) {e : D → D → Bool} (h : a.cmp = .custom e)
    (he : (∀ x, e x x = true) ∧ (∀ x y, e x y = true → e y x = true) ∧ ∀ x y z, e x y = true → e y z = true → e x z = true) : a.table.CmpOk :=
  ⟨e, ok.custom h, he⟩

namespace TWorld.Stands
variable {w : TWorld α D} {u : SWorld (MTable α D)}

theorem allowed (M : w.Stands u) {c : TCmd α D σ} (h : c.Askable u) : c.Allowed w := by
  have l1 : u.vars.length = w.vars.length := by rw [M.vars, List.length_map]
  have l2 : u.vals.length = w.vals.length := by rw [M.vals, List.length_map]
  cases c with
  | op x o => exact ⟨fun i e => l1 ▸ h.1 i e, h.2⟩
  | map t f s => exact (show t < w.vals.length from l2 ▸ h)
  | aggregate t =>
    refine ⟨(show t < w.vals.length from l2 ▸ h.1), fun e he => ?_⟩
    obtain ⟨h1, ok⟩ := M.val t
    exact ok.cmpOk he (h.2 e (by rw [h1]; exact he))
  | new_ => exact M.legal (c := (.new_ : TCmd α D σ)) h
  | newCustom e => exact M.legal (c := (.newCustom e : TCmd α D σ)) h
  | longest x k => exact M.legal (c := (.longest x k : TCmd α D σ)) h
  | num x => exact M.legal (c := (.num x : TCmd α D σ)) h
  | freeze x => exact M.legal (c := (.freeze x : TCmd α D σ)) h
  | thaw x => exact M.legal (c := (.thaw x : TCmd α D σ)) h
  | xget x k => exact M.legal (c := (.xget x k : TCmd α D σ)) h
  | xlongest x k => exact M.legal (c := (.xlongest x k : TCmd α D σ)) h
  | xnum x => exact M.legal (c := (.xnum x : TCmd α D σ)) h
  | walk x k s => exact M.legal (c := (.walk x k s : TCmd α D σ)) h
  | diff x y k s =>
    obtain ⟨h1, h2, h3, h4⟩ := h
    obtain ⟨e, ok⟩ := M.val x
    obtain ⟨e', ok'⟩ := M.val y
    have cm : (u.val x).cmp = (w.val x).cmp := by rw [e]; rfl
    refine ⟨(show x < w.vals.length from l2 ▸ h1), (show y < w.vals.length from l2 ▸ h2), fun hn => ?_, fun hu c hc => h4 hu c (cm.trans hc)⟩
    refine (h3 (cm.trans hn)).imp id fun hk c hc => ?_
    have hd := ok.holds.differ ok'.holds ok.reachable ok'.reachable
    have hp := hd.pairs c hc
    cases c with
    | onlyLeft p v => rfl
    | onlyRight p v => rfl
    | both p v q z =>
      exfalso
      have a1 : (w.val x).toMap.entries (keyOf p) = some (p, v) := hd.mem_left.mpr ⟨_, hc, rfl⟩
      have a2 : (w.val y).toMap.entries (keyOf q) = some (q, z) := hd.mem_right.mpr ⟨_, hc, rfl⟩
      simp only at hp
      rw [← hp] at a2
      rcases hk (keyOf p) with hk | hk
      · rw [e, a1] at hk; cases hk
      · rw [e', a2] at hk; cases hk

theorem crash (M : w.Stands u) {c : TCmd α D σ} (h : c.Askable u) : c.Crash w ↔ c.Panics u := by
  cases c with
  | op x o => exact Iff.rfl
  | map t f s =>
    obtain ⟨h1, ok⟩ := M.val t
    have : f.isSome = true ↔ f ≠ none := by cases f <;> simp
    simp only [TCmd.Crash, TCmd.Panics, this, h1]
    refine and_congr_right fun _ => ?_
    unfold MTable.MapPanics
    have hc : (w.val t).toMap.cmp = (w.val t).cmp := rfl
    rw [hc]
    cases e : (w.val t).cmp with
    | nil => exact not_congr ok.empty_iff.symm
    | dflt => exact Iff.rfl
    | custom e' => exact ok.holds.solid ok.reachable (ok.custom e)
  | aggregate t =>
    obtain ⟨h1, ok⟩ := M.val t
    simp only [TCmd.Crash, TCmd.Panics, h1]
    unfold MTable.AggregatePanics
    have hc : (w.val t).toMap.cmp = (w.val t).cmp := rfl
    rw [hc]
    cases e : (w.val t).cmp with
    | nil => exact not_congr ok.empty_iff.symm
    | dflt => exact Iff.rfl
    | custom e' => exact ok.holds.aggSafe ok.reachable (ok.custom e) (ok.cmpOk e (h.2 e' (by rw [h1]; exact e)))
  | new_ => exact Iff.rfl
  | newCustom _ => exact Iff.rfl
  | longest _ _ => exact Iff.rfl
  | num _ => exact Iff.rfl
  | freeze _ => exact Iff.rfl
  | thaw _ => exact Iff.rfl
  | xget _ _ => exact Iff.rfl
  | xlongest _ _ => exact Iff.rfl
  | xnum _ => exact Iff.rfl
  | walk _ _ _ => exact Iff.rfl
  | diff x y k s =>
    obtain ⟨e, ok⟩ := M.val x
    obtain ⟨e', ok'⟩ := M.val y
    have hd := ok.holds.differ ok'.holds ok.reachable ok'.reachable
    simp only [TCmd.Crash, TCmd.Panics, MTable.DiffPanics, e, e']
    refine and_congr_right fun _ => ⟨fun h => ⟨_, hd, h⟩, ?_⟩
    rintro ⟨C, hC, h⟩
    rwa [C60_differ_unique hC hd] at h

end TWorld.Stands

/-- a call that does not panic -/
theorem TCmd.explained' {w : TWorld α D} {u : SWorld (MTable α D)} (M : w.Stands u) {c : TCmd α D σ} (hf : c.Askable u)
    (hp : ¬ c.Panics u) : ∃ u', c.Explained u (c.ideal w).1 u' ∧ (c.ideal w).2.Stands u' := by
  by_cases h : c.Fine u
  · exact TCmd.explained M h
  cases c with
  | op x o =>
    refine (h ⟨hf.1, fun hw => ⟨hf.2 hw, ?_⟩⟩).elim
    rintro rfl
    exact hp ⟨rfl, hw⟩
  | map t f s =>
    obtain ⟨h1, ok⟩ := M.val t
    cases f with
    | none => exact (h ⟨hf, Or.inl rfl⟩).elim
    | some f =>
      have hn : (w.val t).cmp ≠ .nil := by
        intro e
        refine h ⟨hf, Or.inr (Or.inl ?_)⟩
        apply Classical.byContradiction
        intro hne
        refine hp ⟨by simp, ?_⟩
        unfold MTable.MapPanics
        rw [show (u.val t).cmp = .nil by rw [h1]; exact e]
        exact hne
      obtain ⟨d1, d2⟩ := ok.dress fun e => (hn e).elim
      obtain ⟨N, c1, c2⟩ := Table.Holds.calls (t := ⟨(w.val t).table.trie, some (w.val t).toMap.same⟩) ok.holds d1 rfl
      have mk : (Table.map ⟨(w.val t).table.trie, some (w.val t).toMap.same⟩ (some f) s) =
          (⟨((w.val t).table.map (some f) s).1.trie, some (w.val t).toMap.same⟩, ((w.val t).table.map (some f) s).2) := by
        simp only [Table.map, d2]
      have r := Table.Reachable.map (w.val t).table (some f) s ok.reachable
      have e := c2 f s
      rw [mk] at e
      refine ⟨_, ⟨N, (AbsTable.toMap ⟨((w.val t).table.map (some f) s).1, (w.val t).cmp⟩).entries, ?_, ?_, ?_, rfl⟩, ?_⟩
      · rw [h1]; exact c1
      · rw [h1, e]; exact (AbsTable.Ok.holds (a := ⟨_, (w.val t).cmp⟩) ⟨r, ok.eq⟩).listed r
      · rw [h1, e]; rfl
      · rw [h1]
        exact M.got (a := ⟨((w.val t).table.map (some f) s).1, (w.val t).cmp⟩) ⟨r, ok.eq⟩
  | aggregate t =>
    obtain ⟨h1, ok⟩ := M.val t
    have hcm : (u.val t).cmp = (w.val t).cmp := by rw [h1]; rfl
    cases e : (w.val t).cmp with
    | nil =>
      refine (h ⟨hf.1, Or.inl ?_⟩).elim
      apply Classical.byContradiction
      intro hne
      apply hp
      show MTable.AggregatePanics _
      unfold MTable.AggregatePanics
      rw [hcm, e]
      exact hne
    | dflt => exact (h ⟨hf.1, Or.inr (hcm.trans e)⟩).elim
    | custom e' =>
      have he := ok.custom e
      have hc := ok.cmpOk e (hf.2 e' (hcm.trans e))
      have r : (w.val t).table.aggregate.Reachable := .aggregate _ ok.reachable hc
      refine ⟨_, ⟨_, ?_, rfl, rfl⟩, M.got (a := ⟨(w.val t).table.aggregate, .nil⟩) ⟨r, rfl⟩⟩
      rw [h1, ok.same he]
      exact ok.holds.aggregated ok.reachable he hc r.holds'
  | new_ => exact (h hf).elim
  | newCustom _ => exact (h hf).elim
  | longest _ _ => exact (h hf).elim
  | num _ => exact (h hf).elim
  | freeze _ => exact (h hf).elim
  | thaw _ => exact (h hf).elim
  | xget _ _ => exact (h hf).elim
  | xlongest _ _ => exact (h hf).elim
  | xnum _ => exact (h hf).elim
  | walk _ _ _ => exact (h hf).elim
  | diff x y k s =>
    obtain ⟨e, ok⟩ := M.val x
    obtain ⟨e', ok'⟩ := M.val y
    obtain ⟨f1, f2, f3, f4⟩ := hf
    have hn : (u.val x).cmp = .nil := Classical.byContradiction fun hn => h ⟨f1, f2, fun h => (hn h).elim, f4⟩
    have hn' : (w.val x).cmp = .nil := by rw [e] at hn; exact hn
    refine ⟨u, ⟨⟨Table.changes (w.val x).table (w.val y).table, ?_, ?_⟩, rfl⟩, M⟩
    · rw [e, e']
      exact ok.holds.differ ok'.holds ok.reachable ok'.reachable
    · have hs : (u.val x).same = fun _ _ => false := by
        unfold MTable.same; rw [hn]
      rw [hs]
      refine congrArg _ (Table.diff_changes' ok.reachable.good ok'.reachable.good ?_ k s)
      rw [ok.eq, hn']; rfl

/-! ### the theorem -/

/-- On the heap, a sequential program sees what it would see if `Table_` were a variable that holds a map from
    prefixes to values and `Table` such a map, and it panics exactly when it makes one of the calls `TCmd.Panics`. -/
theorem C68_exact {F : Nat} (hF : 2 * width α + 3 ≤ F) (p : TProgram α D σ) (hp : TProgram.Sensible p) (n : Nat) :
    ∃ w h, (TProgram.SeesOr p n w h false ∧ ∃ r, TProgram.runs F p n = .running r ∧ r.seen = h) ∨
      (TProgram.SeesOr p n w h true ∧ TProgram.runs F p n = .panicked h) := by
  suffices h : (∃ (u : SWorld (MTable α D)) (h : List (TSeen α D σ)) (w : TWorld α D) (r : TRun α D σ), TProgram.SeesOr p n u h false ∧ w.Stands u ∧ w.Neat ∧ TProgram.runs F p n = .running r ∧ r.seen = h ∧
      w.Matches r.mem.sight r.regs) ∨ ∃ u h, TProgram.SeesOr p n u h true ∧ TProgram.runs F p n = .panicked h by
    rcases h with ⟨u, h, w, r, h1, _, _, h2, h3, _⟩ | ⟨u, h, h1, h2⟩
    · exact ⟨u, h, Or.inl ⟨h1, r, h2, h3⟩⟩
    · exact ⟨u, h, Or.inr ⟨h1, h2⟩⟩
  induction n with
  | zero =>
    refine Or.inl ⟨_, _, ⟨[], [.zero]⟩, _, .init, { vars := rfl, vals := ?_, okvars := fun a h => by simp at h, okvals := ?_ }, .init, rfl, rfl, ?_⟩
    · simp only [List.map_cons, List.map_nil, AbsTable.zero_map]; rfl
    · intro a ha
      rw [List.mem_singleton.mp ha]; exact AbsTable.zero_ok
    · refine { nvars := rfl, vars := fun h => by simp [Mem.sight] at h, nvals := rfl, vals := ?_ }
      intro t ob a h1 h2
      have e1 := List.mem_of_getElem? h1
      have e2 := List.mem_of_getElem? h2
      rw [List.mem_singleton.mp e1, List.mem_singleton.mp e2]
      exact ⟨⟨.nil, rfl⟩, .empty, rfl⟩
  | succ n ih =>
    rcases ih with ⟨u, h, w, r, h1, h2, h3, h4, h5, h6⟩ | ⟨u, h, h1, h2⟩
    · subst h5
      cases hc : p r.seen with
      | none => exact Or.inl ⟨u, _, w, r, .done h1 hc, h2, h3, by simp only [TProgram.runs, h4, hc], rfl, h6⟩
      | some c =>
        have ask := hp n u _ c h1 hc
        by_cases hpan : c.Panics u
        · have := TCmd.step_panic hF h6 h3 (h2.allowed ask) ((h2.crash ask).mpr hpan)
          refine Or.inr ⟨u, _, .panic h1 hc hpan, ?_⟩
          simp only [TProgram.runs, h4, hc]
          generalize hrun : ((c.call r.regs).code F).run r.mem = x at *
          obtain ⟨x, m⟩ := x
          simp only at this
          subst this
          rfl
        · have ncr : ¬ c.Crash w := fun hcr => hpan ((h2.crash ask).mp hcr)
          obtain ⟨x, m', e1, e2, e3⟩ := TCmd.step_returns hF h6 h3 (h2.allowed ask) ncr
          obtain ⟨u', e4, e5⟩ := TCmd.explained' h2 ask hpan
          refine Or.inl ⟨u', _, _, ⟨m', r.regs ++ x.outs, r.seen ++ [x.seen]⟩, .call h1 hc hpan e4, e5, h3.ideal ncr, ?_, by rw [e2], e3⟩
          simp only [TProgram.runs, h4, hc, e1]
    · exact Or.inr ⟨u, h, .over h1, by simp only [TProgram.runs, h2]⟩

end

/-! ### concrete programs -/

namespace Sample
/-- 11.0.0.0/8, the other half of 10.0.0.0/7 -/
def p11 : Prefix (BitVec 32) := ⟨0x0b000000#32, 8⟩

/-- It puts the two halves of 10.0.0.0/7 in a table with a custom comparison function. If their values are not
    equal it calls `Aggregate`. If they are, it calls `Aggregate` and then `Map` on the result. -/
def pprog (v : Nat) : TProgram (BitVec 32) Nat Nat := fun h =>
  match h with
  | [] => some (.newCustom fun x y => x == y)
  | [_] => some (.op (some 0) (.insertOrUpdate (.prefix p8) 1))
  | [_, _] => some (.op (some 0) (.insertOrUpdate (.prefix p11) v))
  | [_, _, _] => some (.freeze (some 0))
  | [_, _, _, _] => some (.aggregate 1)
  | [_, _, _, _, _] => some (.map 2 (some fun _ v s => (v + 1, s + 1)) 0)
  | _ => none

theorem pprog_sensible (v : Nat) : TProgram.Sensible (pprog v) := by
  have inv : ∀ n w h b, TProgram.SeesOr (pprog v) n w h b →
      h.length ≤ 6 ∧ w.vars.map MTable.cmp = [EqFn.custom fun x y => x == y].take h.length ∧
      w.vals.map MTable.cmp = [EqFn.nil] ++ [EqFn.custom fun x y => x == y].take (h.length - 3) ++ [EqFn.nil].take (h.length - 4) ++ [EqFn.nil].take (h.length - 5) := by
    intro n w h b hs
    induction hs with
    | init => simp
    | done hs hc ih => exact ih
    | over hs ih => exact ih
    | panic hs hc hp ih => exact ih
    | @call n w w' h c o hs hc hp he ih =>
      obtain ⟨i1, i2, i3⟩ := ih
      simp only [pprog] at hc
      split at hc
      · cases hc; obtain ⟨_, he⟩ := he; rw [he]; simp [SWorld.declare, i2, i3]
      · cases hc; obtain ⟨_, he⟩ := he; rw [he, cmps_assign]; simp [SWorld.assign, i2, i3]
      · cases hc; obtain ⟨_, he⟩ := he; rw [he, cmps_assign]; simp [SWorld.assign, i2, i3]
      · cases hc; obtain ⟨_, he⟩ := he; rw [he]; simp [SWorld.got, i2, i3, cmp_var]
      · cases hc; obtain ⟨_, _, _, he⟩ := he; rw [he]; simp [SWorld.got, i2, i3]
      · cases hc; obtain ⟨_, _, _, _, _, he⟩ := he; rw [he]; simp [SWorld.got, i2, i3, cmp_val]
      · cases hc
  intro n w h c hs hc
  obtain ⟨i1, i2, i3⟩ := inv n w h _ hs
  have l2 := congrArg List.length i2
  have l3 := congrArg List.length i3
  have hv : w.vars.length = 1 → w.HasVar (some 0) := fun e i hi => by cases hi; omega
  simp only [pprog] at hc
  split at hc
  · cases hc; trivial
  · cases hc; exact ⟨hv (by simpa using l2), fun _ => by show p8.WF; decide⟩
  · cases hc; exact ⟨hv (by simpa using l2), fun _ => by show p11.WF; decide⟩
  · cases hc; exact hv (by simpa using l2)
  · cases hc
    refine ⟨?_, fun e he => ?_⟩
    · show 1 < w.vals.length; simp at l3; omega
    · rw [cmp_val, i3] at he
      cases he
      refine ⟨fun x => by simp, fun x y h => ?_, fun x y z h h' => ?_⟩
      · simp at h ⊢; exact h.symm
      · simp at h h' ⊢; exact h.trans h'
  · cases hc; show 2 < w.vals.length; simp at l3; omega
  · cases hc

/-- how many calls have returned, and whether the program has panicked -/
def TEnd.report : TEnd (BitVec 32) Nat Nat → Option (Nat × Bool)
  | .running r => some (r.seen.length, false)
  | .panicked h => some (h.length, true)
  | .hung => none

/-- Equal values: `Aggregate` returns, although 10.0.0.0/7 is no entry and has entries in both halves, and `Map` of
    the result panics. -/
example : TEnd.report (TProgram.runs 67 (pprog 1) 9) = some (5, true) := by decide +kernel
/-- Unequal values: `Aggregate` panics. -/
example : TEnd.report (TProgram.runs 67 (pprog 2) 9) = some (4, true) := by decide +kernel

/-- so both cases of `C68_exact` occur -/
example : (∃ w h, TProgram.SeesOr (pprog 1) 5 w h false) ∧ ∃ w h, TProgram.SeesOr (pprog 1) 6 w h true := by
  constructor
  · obtain ⟨w, h, ⟨h1, _⟩ | ⟨_, h2⟩⟩ := C68_exact (F := 67) (by decide) (pprog 1) (pprog_sensible 1) 5
    · exact ⟨w, h, h1⟩
    · have : TEnd.report (TProgram.runs 67 (pprog 1) 5) = some (5, false) := by decide +kernel
      rw [h2] at this; simp [TEnd.report] at this
  · obtain ⟨w, h, ⟨_, r, h2, _⟩ | ⟨h1, _⟩⟩ := C68_exact (F := 67) (by decide) (pprog 1) (pprog_sensible 1) 6
    · have : TEnd.report (TProgram.runs 67 (pprog 1) 6) = some (5, true) := by decide +kernel
      rw [h2] at this; simp [TEnd.report] at this
    · exact ⟨w, h, h1⟩

/-- It aggregates a table with one entry, and compares the result with the table `u`. -/
def dprog (u : Nat) : TProgram (BitVec 32) Nat Nat := fun h =>
  match h with
  | [] => some .new_
  | [_] => some (.op (some 0) (.insertOrUpdate (.prefix p8) 1))
  | [_, _] => some (.freeze (some 0))
  | [_, _, _] => some (.aggregate 1)
  | [_, _, _, _] => some (.diff 2 u ⟨none, some fun _ _ s => (s + 1, true), none, some fun _ _ s => (s + 100, true)⟩ 0)
  | _ => none

theorem dprog_sensible {u : Nat} (hu : u < 3) : TProgram.Sensible (dprog u) := by
  have inv : ∀ n w h b, TProgram.SeesOr (dprog u) n w h b →
      h.length ≤ 5 ∧ w.vars.map MTable.cmp = [EqFn.dflt].take h.length ∧
      w.vals.map MTable.cmp = [EqFn.nil] ++ [EqFn.dflt].take (h.length - 2) ++ [EqFn.nil].take (h.length - 3) := by
    intro n w h b hs
    induction hs with
    | init => simp
    | done hs hc ih => exact ih
    | over hs ih => exact ih
    | panic hs hc hp ih => exact ih
    | @call n w w' h c o hs hc hp he ih =>
      obtain ⟨i1, i2, i3⟩ := ih
      simp only [dprog] at hc
      split at hc
      · cases hc; obtain ⟨_, he⟩ := he; rw [he]; simp [SWorld.declare, i2, i3]
      · cases hc; obtain ⟨_, he⟩ := he; rw [he, cmps_assign]; simp [SWorld.assign, i2, i3]
      · cases hc; obtain ⟨_, he⟩ := he; rw [he]; simp [SWorld.got, i2, i3, cmp_var]
      · cases hc; obtain ⟨_, _, _, he⟩ := he; rw [he]; simp [SWorld.got, i2, i3]
      · cases hc; obtain ⟨_, he⟩ := he; rw [he]; simp [i2, i3]
      · cases hc
  intro n w h c hs hc
  obtain ⟨i1, i2, i3⟩ := inv n w h _ hs
  have l2 := congrArg List.length i2
  have l3 := congrArg List.length i3
  have hv : w.vars.length = 1 → w.HasVar (some 0) := fun e i hi => by cases hi; omega
  simp only [dprog] at hc
  split at hc
  · cases hc; trivial
  · cases hc; exact ⟨hv (by simpa using l2), fun _ => by show p8.WF; decide⟩
  · cases hc; exact hv (by simpa using l2)
  · cases hc
    refine ⟨?_, fun e he => ?_⟩
    · show 1 < w.vals.length; simp at l3; omega
    · rw [cmp_val, i3] at he
      cases he
  · cases hc
    simp at l3
    exact ⟨by show 2 < w.vals.length; omega, by show u < w.vals.length; omega, fun _ => Or.inl (by simp), fun h => by cases h⟩
  · cases hc

/-- `Diff` with the original table panics, for the entry is in both; `Diff` with an empty table returns. -/
example : TEnd.report (TProgram.runs 67 (dprog 1) 9) = some (4, true) ∧ TEnd.report (TProgram.runs 67 (dprog 0) 9) = some (5, false) := by
  decide +kernel
example := C68_exact (F := 67) (by decide) (dprog 1) (dprog_sensible (by decide)) 5

end Sample
end Addrs

import Verif.UncompCmd
import Verif.PropPanics
import Verif.UncompLoud
import Verif.PropTableCustom
/-
  Property C70: exactly which calls of a sequential program panic, when no two values can be compared with `==`
  (slices, maps, functions, and structs with such fields).
-/
set_option linter.unusedSectionVars false
namespace Addrs
open GoWord LawfulGoWord Heap

section
variable {α D σ : Type} [LawfulGoWord α] [Inhabited D] [Comparable D]

/-! ### the specification -/

/-- some entry strictly contains `p` -/
def Entries.Covered (m : Entries α D) (p : Prefix α) : Prop := ∃ x, m.Has x ∧ StrictlyContains x.1 p

/-- the method panics on a table of values that cannot be compared -/
def TableOp.PanicsUn (a : MTable α D) : TableOp α D → Prop
  | .insert k _ => a.entries (keyOf k.toPrefix) = none ∧ a.entries.Covered k.toPrefix
  | .update k _ => a.entries (keyOf k.toPrefix) ≠ none ∧ (a.entries.Covered k.toPrefix ∨ a.cmp = .dflt)
  | .insertOrUpdate k _ => a.entries.Covered k.toPrefix ∨ (a.entries (keyOf k.toPrefix) ≠ none ∧ a.cmp = .dflt)
  | .get _ => False
  | .getOrInsert k _ => a.entries.Covered k.toPrefix
  | .remove k => (a.entries (keyOf k.toPrefix) ≠ none ∨ a.entries.Fork k.toPrefix) ∧ a.entries.Covered k.toPrefix

/-- Below an entry something can be aggregated: an entry is equal to the nearest entry that strictly contains it, or
    two entries are the two halves of one prefix and have equal values, and some entry strictly contains them. -/
def Entries.Reducible (e : D → D → Bool) (m : Entries α D) : Prop :=
  (∃ x y, m.Has x ∧ m.Has y ∧ StrictlyContains y.1 x.1 ∧ (∀ z, m.Has z → StrictlyContains z.1 x.1 → z.1.len ≤ y.1.len) ∧ e y.2 x.2 = true) ∨
  ∃ x y, m.Has x ∧ m.Has y ∧ SiblingHalves x.1 y.1 ∧ e x.2 y.2 = true ∧ m.Covered x.1

/-- `Aggregate` panics -/
def MTable.AggregatePanicsUn (a : MTable α D) : Prop :=
  match a.cmp with
  | .custom e => (∃ p, a.entries.Fork p ∧ a.entries.Irreducible e p) ∨ a.entries.Reducible e
  | _ => a.entries ≠ Entries.empty

/-- The call panics: it modifies an uninitialised `Table_`; it adds an entry below another one, updates one there, or
    removes one there, or it asks with `GetOrInsert` for one there; it updates an entry of a table with the default
    comparison function; it is `Map` of a table that has entries; it is `Aggregate` of a table that has entries and
    no custom comparison function, or of one with a custom comparison function in which something below an entry can
    be aggregated, or in which nothing can be aggregated inside some prefix that is no entry but has entries in both
    halves; or it is `Diff` of a table without custom comparison function and gets to an entry that both tables have. -/
def TCmd.PanicsUn (w : SWorld (MTable α D)) : TCmd α D σ → Prop
  | op none o => o.writes = true
  | op (some i) o => o.PanicsUn (w.var (some i))
  | map t f _ => f ≠ none ∧ (w.val t).entries ≠ Entries.empty
  | aggregate t => (w.val t).AggregatePanicsUn
  | diff t u cb s => (∀ e, (w.val t).cmp ≠ .custom e) ∧ ∃ C, (w.val t).entries.Differ (w.val u).entries C ∧ MeetsCommon cb C s
  | _ => False

/-- The call can be made, though it may panic: as `TCmd.Askable`, and for `Diff` with nil `unchanged` a table with the
    default comparison function has no entry in common with the other one. -/
def TCmd.AskableUn (w : SWorld (MTable α D)) (c : TCmd α D σ) : Prop :=
  c.Askable w ∧ ∀ t u cb s, c = .diff t u cb s → (w.val t).cmp = .dflt →
    cb.unchanged ≠ none ∨ ∀ κ, (w.val t).entries κ = none ∨ (w.val u).entries κ = none

/-- After `n` calls the program can have seen `h`, and the world can be `w`, if tables are maps; `b` says whether
    the program has panicked. -/
inductive TProgram.SeesUn (p : TProgram α D σ) : Nat → SWorld (MTable α D) → List (TSeen α D σ) → Bool → Prop
  | init : SeesUn p 0 ⟨[], [⟨Entries.empty, .nil⟩]⟩ [] false
  | call {n : Nat} {w w' : SWorld (MTable α D)} {h : List (TSeen α D σ)} {c : TCmd α D σ} {o : TSeen α D σ} (hs : SeesUn p n w h false)
      (hc : p h = some c) (hp : ¬ c.PanicsUn w) (he : c.Explained w o w') : SeesUn p (n + 1) w' (h ++ [o]) false
  | panic {n : Nat} {w : SWorld (MTable α D)} {h : List (TSeen α D σ)} {c : TCmd α D σ} (hs : SeesUn p n w h false)
      (hc : p h = some c) (hp : c.PanicsUn w) : SeesUn p (n + 1) w h true
  | done {n : Nat} {w : SWorld (MTable α D)} {h : List (TSeen α D σ)} (hs : SeesUn p n w h false) (hc : p h = none) : SeesUn p (n + 1) w h false
  | over {n : Nat} {w : SWorld (MTable α D)} {h : List (TSeen α D σ)} (hs : SeesUn p n w h true) : SeesUn p (n + 1) w h true

/-- whatever the program sees, the calls that it makes can be made -/
def TProgram.SensibleUn (p : TProgram α D σ) : Prop :=
  ∀ n w h c, TProgram.SeesUn p n w h false → p h = some c → c.AskableUn w

/-! ### tables as maps -/

namespace Table.Holds
variable {t : Table α D} {m : Entries α D}

theorem at_entry (h : t.Holds m) (ht : t.Reachable) {p : Prefix α} {v : D} : (p, some v) ∈ t.trie.entries ↔ m.Has (p, v) := by
  rw [← Table.mem_listed ht.good]; exact h.mem

theorem boxed (_h : t.Holds m) (ht : t.Reachable) {x} (hx : x ∈ t.trie.entries) : ∃ v, x = (x.1, some v) := by
  obtain ⟨v, hv⟩ := Option.isSome_iff_exists.mp (ht.good.some x hx)
  exact ⟨v, by rw [← hv]⟩

theorem keyed (h : t.Holds m) (ht : t.Reachable) {k : Prefix α} : t.trie.Keyed k ↔ m (keyOf k) ≠ none := by
  constructor
  · rintro ⟨x, hx, hk⟩ hn
    exact h.absent ht.good hn x hx hk
  · intro hn
    cases e : m (keyOf k) with
    | none => exact (hn e).elim
    | some x =>
      obtain ⟨h1, h2⟩ := (h _ x).mp e
      have hx := (Table.mem_listed (p := x.1) (v := x.2) ht.good).mp h1
      exact ⟨_, hx, (keyOf_eq (ht.good.inv.entries_wf hx)).mp h2⟩

theorem above (h : t.Holds m) (ht : t.Reachable) {k : Prefix α} : t.trie.Above k ↔ m.Covered k := by
  constructor
  · rintro ⟨x, hx, ho⟩
    obtain ⟨v, hv⟩ := h.boxed ht hx
    have wf := ht.good.inv.entries_wf hx
    rw [hv] at hx
    exact ⟨(x.1, v), (h.at_entry ht).mp hx, (strictly_iff wf).mpr ho⟩
  · rintro ⟨x, hx, ho⟩
    have hx := (h.at_entry ht).mpr hx
    exact ⟨_, hx, (strictly_iff (ht.good.inv.entries_wf hx)).mp ho⟩

theorem del_isSome (h : t.Holds m) (ht : t.Reachable) {k : Prefix α} (hk : k.WF) :
    (Trie.del k t.trie).isSome = true ↔ m (keyOf k) ≠ none ∨ m.Fork k := by
  have hs := Trie.del_spec k hk t.trie ht.good.inv
  by_cases hx : t.trie.Keyed k
  · have hn := (h.keyed ht).mp hx
    obtain ⟨x, hx, hxk⟩ := hx
    obtain ⟨t', ht', _⟩ := hs.found x hx hxk
    rw [ht']
    exact ⟨fun _ => Or.inl hn, fun _ => rfl⟩
  · have hn : m (keyOf k) = none := Classical.byContradiction fun hn => hx ((h.keyed ht).mpr hn)
    have hv : (∃ x y, x ∈ t.trie.entries ∧ y ∈ t.trie.entries ∧ Sub k x.1 false ∧ Sub k y.1 true) ↔ InBothHalves m.values k :=
      (halves_iff ht hk).trans (inBothHalves_iff ht (h.shows ht) _)
    rcases hs.absent fun x hx' hxk => hx ⟨x, hx', hxk⟩ with ⟨e, hno⟩ | ⟨t', e, _, hyes⟩
    · rw [e]
      refine ⟨fun h => by (cases h), ?_⟩
      rintro (h' | ⟨_, _, h'⟩)
      · exact (h' hn).elim
      · exact (hno (hv.mpr h')).elim
    · rw [e]
      exact ⟨fun _ => Or.inr ⟨hk, hn, hv.mp hyes⟩, fun _ => rfl⟩

theorem loud (h : t.Holds m) (ht : t.Reachable) {e : D → D → Bool} (he : t.eq = some e) (hc : t.CmpOk) :
    Trie.AggCrash t.cmp goEq none t.trie ↔ m.Reducible e := by
  have hok := hc.eqOk
  have inv := ht.good.inv
  have hcmp : ∀ a b : D, t.cmp (some a) (some b) = e a b := fun a b => by simp [Table.cmp, he, liftEq]
  rw [Trie.aggCrash_none hok inv, Trie.loud_iff hok inv]
  constructor
  · rintro (⟨x, y, hx, ⟨hy, ho, hn⟩, heq⟩ | ⟨x, y, z, hx, hy, hz, hh, heq, ho⟩)
    · obtain ⟨a, ha⟩ := h.boxed ht hx
      obtain ⟨b, hb⟩ := h.boxed ht hy
      have wy := inv.entries_wf hy
      rw [ha] at hx
      rw [hb] at hy
      rw [ha, hb, hcmp] at heq
      refine Or.inl ⟨(x.1, a), (y.1, b), (h.at_entry ht).mp hx, (h.at_entry ht).mp hy, (strictly_iff wy).mpr ho, ?_, heq⟩
      intro z hz hzo
      have hz := (h.at_entry ht).mpr hz
      exact hn _ hz ((strictly_iff (inv.entries_wf hz)).mp hzo)
    · obtain ⟨a, ha⟩ := h.boxed ht hx
      obtain ⟨b, hb⟩ := h.boxed ht hy
      have wx := inv.entries_wf hx
      have wy := inv.entries_wf hy
      obtain ⟨P, l1, l2, s1, s2⟩ := hh
      have hab := (h.above ht (k := x.1)).mp ⟨z, hz, ho⟩
      rw [ha] at hx
      rw [hb] at hy
      rw [ha, hb, hcmp] at heq
      exact Or.inr ⟨(x.1, a), (y.1, b), (h.at_entry ht).mp hx, (h.at_entry ht).mp hy,
        sibling_halves wx wy ⟨l1.trans l2.symm, P, false, l1.symm, s1, s2⟩, heq, hab⟩
  · rintro (⟨x, y, hx, hy, ho, hn, heq⟩ | ⟨x, y, hx, hy, hh, heq, hab⟩)
    · have hx := (h.at_entry ht).mpr hx
      have hy := (h.at_entry ht).mpr hy
      refine Or.inl ⟨(x.1, some x.2), (y.1, some y.2), hx, ⟨hy, (strictly_iff (inv.entries_wf hy)).mp ho, ?_⟩, (hcmp _ _).trans heq⟩
      intro z hz hzo
      obtain ⟨v, hv⟩ := h.boxed ht hz
      have wz := inv.entries_wf hz
      rw [hv] at hz
      exact hn (z.1, v) ((h.at_entry ht).mp hz) ((strictly_iff wz).mpr hzo)
    · have hx := (h.at_entry ht).mpr hx
      have hy := (h.at_entry ht).mpr hy
      have wx := inv.entries_wf hx
      obtain ⟨P, b, hP, h1, h2⟩ := halves_sibling wx hh
      have hl := hh.1
      obtain ⟨z, hz, ho⟩ := (h.above ht).mpr hab
      cases b with
      | false =>
        exact Or.inr ⟨(x.1, some x.2), (y.1, some y.2), z, hx, hy, hz, ⟨P, hP.symm, by rw [← hl]; exact hP.symm, h1, h2⟩, (hcmp _ _).trans heq, ho⟩
      | true =>
        refine Or.inr ⟨(y.1, some y.2), (x.1, some x.2), z, hy, hx, hz, ⟨P, by rw [← hl]; exact hP.symm, hP.symm, h2, h1⟩, hok.symm ((hcmp _ _).trans heq), ?_⟩
        obtain ⟨o1, o2⟩ := ho
        have hP : P.len + 1 = x.1.len := hP
        refine ⟨hl ▸ o1, fun i hi => (o2 i hi).trans ((h1.agree i (by omega)).symm.trans (h2.agree i (by omega)))⟩

end Table.Holds

theorem TableOp.un_iff {a : AbsTable α D} (ok : a.Ok) {o : TableOp α D} (hk : o.writes = true → o.key.toPrefix.WF) :
    o.UCrash a ↔ o.PanicsUn a.toMap := by
  have key := fun k => ok.holds.keyed ok.reachable (k := k)
  have nokey : ∀ k, (¬ a.table.trie.Keyed k) ↔ a.toMap.entries (keyOf k) = none := fun k => by rw [key]; exact Classical.not_not
  have above := fun k => ok.holds.above ok.reachable (k := k)
  have cm : a.toMap.cmp = a.cmp := rfl
  cases o with
  | insert k d => simp only [TableOp.UCrash, TableOp.PanicsUn, nokey, above]
  | update k d => simp only [TableOp.UCrash, TableOp.PanicsUn, key, above, cm]
  | insertOrUpdate k d => simp only [TableOp.UCrash, TableOp.PanicsUn, key, above, cm]
  | get k => exact Iff.rfl
  | getOrInsert k d => simp only [TableOp.UCrash, TableOp.PanicsUn, above]
  | remove k =>
    have hk : k.toPrefix.WF := hk rfl
    simp only [TableOp.UCrash, TableOp.PanicsUn, above, ok.holds.del_isSome ok.reachable hk]

theorem TWorld.Stands.cell {w : TWorld α D} {u : SWorld (MTable α D)} (M : w.Stands u) (i : Nat) :
    u.var (some i) = (w.cell i).toMap ∧ (w.cell i).Ok := by
  simp only [SWorld.var, TWorld.cell, M.vars, List.getElem?_map]
  cases e : w.vars[i]? with
  | none => exact ⟨AbsTable.zero_map.symm, AbsTable.zero_ok⟩
  | some a => exact ⟨rfl, (M.okvars _ (List.mem_of_getElem? e)).1⟩

theorem TWorld.Stands.ucrash {w : TWorld α D} {u : SWorld (MTable α D)} (M : w.Stands u) {c : TCmd α D σ} (h : c.Askable u) :
    c.UCrash w ↔ c.PanicsUn u := by
  cases c with
  | op x o =>
    cases x with
    | none => exact Iff.rfl
    | some i =>
      obtain ⟨e, ok⟩ := M.cell i
      simp only [TCmd.UCrash, TCmd.PanicsUn, e]
      exact TableOp.un_iff ok h.2
  | map t f s =>
    obtain ⟨h1, ok⟩ := M.val t
    have : f.isSome = true ↔ f ≠ none := by cases f <;> simp
    simp only [TCmd.UCrash, TCmd.PanicsUn, this, h1]
    exact and_congr_right fun _ => not_congr ok.empty_iff.symm
  | aggregate t =>
    obtain ⟨h1, ok⟩ := M.val t
    simp only [TCmd.UCrash, TCmd.PanicsUn, h1]
    unfold MTable.AggregatePanicsUn
    have hc : (w.val t).toMap.cmp = (w.val t).cmp := rfl
    rw [hc]
    cases e : (w.val t).cmp with
    | nil => exact not_congr ok.empty_iff.symm
    | dflt => exact not_congr ok.empty_iff.symm
    | custom e' =>
      have cok := ok.cmpOk e (h.2 e' (by rw [h1]; exact e))
      exact or_congr (ok.holds.aggSafe ok.reachable (ok.custom e) cok) (ok.holds.loud ok.reachable (ok.custom e) cok)
  | new_ => exact Iff.rfl
  | newCustom _ => exact Iff.rfl
  | longest _ _ => exact Iff.rfl
  | num _ => exact Iff.rfl
  | freeze _ => exact Iff.rfl
  | thaw _ => exact Iff.rfl
  | xget _ _ => exact Iff.rfl
  | xlongest _ _ => exact Iff.rfl
  | xnum _ => exact Iff.rfl
  | walk _ _ _ => exact Iff.rfl
  | diff x y k s =>
    obtain ⟨e, ok⟩ := M.val x
    obtain ⟨e', ok'⟩ := M.val y
    have hd := ok.holds.differ ok'.holds ok.reachable ok'.reachable
    simp only [TCmd.UCrash, TCmd.PanicsUn, e, e']
    refine and_congr Iff.rfl ⟨fun h => ⟨_, hd, h⟩, ?_⟩
    rintro ⟨C, hC, h⟩
    rwa [C60_differ_unique hC hd] at h

theorem TWorld.Stands.uallowed {w : TWorld α D} {u : SWorld (MTable α D)} (M : w.Stands u) {c : TCmd α D σ} (h : c.AskableUn u) : c.UAllowed w := by
  refine ⟨M.allowed h.1, ?_⟩
  rintro x y k s rfl hc
  obtain ⟨e, ok⟩ := M.val x
  obtain ⟨e', ok'⟩ := M.val y
  have cm : (u.val x).cmp = (w.val x).cmp := by rw [e]; rfl
  refine (h.2 x y k s rfl (cm.trans hc)).imp id fun hk c hc => ?_
  have hd := ok.holds.differ ok'.holds ok.reachable ok'.reachable
  have hp := hd.pairs c hc
  cases c with
  | onlyLeft p v => rfl
  | onlyRight p v => rfl
  | both p v q z =>
    exfalso
    have a1 : (w.val x).toMap.entries (keyOf p) = some (p, v) := hd.mem_left.mpr ⟨_, hc, rfl⟩
    have a2 : (w.val y).toMap.entries (keyOf q) = some (q, z) := hd.mem_right.mpr ⟨_, hc, rfl⟩
    simp only at hp
    rw [← hp] at a2
    rcases hk (keyOf p) with hk | hk
    · rw [e, a1] at hk; cases hk
    · rw [e', a2] at hk; cases hk

/-! ### the theorem -/

theorem TProgram.runs_un {A : GoType D} (hle : A.Le Comparable.toGoType) (hA : ∀ a b, A.eqq a b = none) {F : Nat} (hF : 2 * width α + 3 ≤ F)
    (p : TProgram α D σ) (hp : TProgram.SensibleUn p) (n : Nat) :
    ∃ w h, (TProgram.SeesUn p n w h false ∧ ∃ r, @TProgram.runs α D σ _ _ A F p n = .running r ∧ r.seen = h) ∨
      (TProgram.SeesUn p n w h true ∧ @TProgram.runs α D σ _ _ A F p n = .panicked h) := by
  suffices h : (∃ (u : SWorld (MTable α D)) (h : List (TSeen α D σ)) (w : TWorld α D) (r : TRun α D σ), TProgram.SeesUn p n u h false ∧ w.Stands u ∧ w.Tidy ∧
      @TProgram.runs α D σ _ _ A F p n = .running r ∧ r.seen = h ∧ w.Matches r.mem.sight r.regs) ∨
      ∃ u h, TProgram.SeesUn p n u h true ∧ @TProgram.runs α D σ _ _ A F p n = .panicked h by
    rcases h with ⟨u, h, w, r, h1, _, _, h2, h3, _⟩ | ⟨u, h, h1, h2⟩
    · exact ⟨u, h, Or.inl ⟨h1, r, h2, h3⟩⟩
    · exact ⟨u, h, Or.inr ⟨h1, h2⟩⟩
  induction n with
  | zero =>
    refine Or.inl ⟨_, _, ⟨[], [.zero]⟩, _, .init, { vars := rfl, vals := ?_, okvars := fun a h => by simp at h, okvals := ?_ }, .init, rfl, rfl, ?_⟩
    · simp only [List.map_cons, List.map_nil, AbsTable.zero_map]; rfl
    · intro a ha
      rw [List.mem_singleton.mp ha]; exact AbsTable.zero_ok
    · refine { nvars := rfl, vars := fun h => by simp [Mem.sight] at h, nvals := rfl, vals := ?_ }
      intro t ob a h1 h2
      have e1 := List.mem_of_getElem? h1
      have e2 := List.mem_of_getElem? h2
      rw [List.mem_singleton.mp e1, List.mem_singleton.mp e2]
      exact ⟨⟨.nil, rfl⟩, .empty, rfl⟩
  | succ n ih =>
    rcases ih with ⟨u, h, w, r, h1, h2, h3, h4, h5, h6⟩ | ⟨u, h, h1, h2⟩
    · subst h5
      cases hc : p r.seen with
      | none => exact Or.inl ⟨u, _, w, r, .done h1 hc, h2, h3, by simp only [TProgram.runs, h4, hc], rfl, h6⟩
      | some c =>
        have ask := hp n u _ c h1 hc
        obtain ⟨k1, k2⟩ := TCmd.step_un hle hA hF h6 h3 (h2.uallowed ask)
        by_cases hpan : c.PanicsUn u
        · have := k1 ((h2.ucrash ask.1).mpr hpan)
          refine Or.inr ⟨u, _, .panic h1 hc hpan, ?_⟩
          simp only [TProgram.runs, h4, hc]
          generalize hrun : (@TCall.code α D σ _ A _ F (c.call r.regs)).run r.mem = x at *
          obtain ⟨x, m⟩ := x
          simp only at this
          subst this
          rfl
        · have nu : ¬ c.UCrash w := fun hcr => hpan ((h2.ucrash ask.1).mp hcr)
          obtain ⟨same, ncr⟩ := k2 nu
          obtain ⟨x, m', e1, e2, e3⟩ := TCmd.step_returns hF h6 h3.neat (h2.allowed ask.1) ncr
          obtain ⟨u', e4, e5⟩ := TCmd.explained' h2 ask.1 fun hcr => ncr ((h2.crash ask.1).mpr hcr)
          refine Or.inl ⟨u', _, _, ⟨m', r.regs ++ x.outs, r.seen ++ [x.seen]⟩, .call h1 hc hpan e4, e5, h3.ideal nu, ?_, by rw [e2], e3⟩
          simp only [TProgram.runs, h4, hc, same, e1]
    · exact Or.inr ⟨u, h, .over h1, by simp only [TProgram.runs, h2]⟩

end

section
variable {α D σ : Type} [LawfulGoWord α] [Inhabited D] [Storable D]

/-- the specification of the results of calls is the one for values that can be compared (the calls that would show
    whether two values are equal panic) -/
local instance (priority := low) asTotal : Comparable D := Storable.total D

/-- On the heap, with values no two of which can be compared with `==`, a sequential program sees what it would see if
    `Table_` were a variable that holds a map from prefixes to values and `Table` such a map, and it panics exactly
    when it makes one of the calls `TCmd.PanicsUn`. -/
theorem C70_exact (hA : ∀ a b : D, Storable.toGoType.eqq a b = none) {F : Nat} (hF : 2 * width α + 3 ≤ F) (p : TProgram α D σ)
    (hp : TProgram.SensibleUn p) (n : Nat) :
    ∃ w h, (TProgram.SeesUn p n w h false ∧ ∃ r, @TProgram.runs α D σ _ _ Storable.toGoType F p n = .running r ∧ r.seen = h) ∨
      (TProgram.SeesUn p n w h true ∧ @TProgram.runs α D σ _ _ Storable.toGoType F p n = .panicked h) :=
  TProgram.runs_un Storable.le hA hF p hp n

end

/-! ### concrete programs -/

namespace Slices
open Sample (p8 p11 p16 cmp_var cmp_val cmps_assign)
open Custom (sliceEq)

local instance totalSlices : Comparable GoSlice := Storable.total GoSlice

/-- It puts the two halves of 10.0.0.0/7 in a table of slices, the first one again with another slice, asks for it and
    takes a snapshot; aggregates the snapshot; then it does `last`. -/
def uprog (v : GoSlice) (last : TCmd (BitVec 32) GoSlice Nat) : TProgram (BitVec 32) GoSlice Nat := fun h =>
  match h with
  | [] => some (.newCustom sliceEq)
  | [_] => some (.op (some 0) (.insert (.prefix p8) ⟨[7]⟩))
  | [_, _] => some (.op (some 0) (.insert (.prefix p11) v))
  | [_, _, _] => some (.op (some 0) (.insertOrUpdate (.prefix p8) ⟨[1]⟩))
  | [_, _, _, _] => some (.op (some 0) (.get (.prefix p8)))
  | [_, _, _, _, _] => some (.freeze (some 0))
  | [_, _, _, _, _, _] => some (.aggregate 1)
  | [_, _, _, _, _, _, _] => some last
  | _ => none

theorem sliceEq_equiv : (∀ x, sliceEq x x = true) ∧ (∀ x y, sliceEq x y = true → sliceEq y x = true) ∧
    ∀ x y z, sliceEq x y = true → sliceEq y z = true → sliceEq x z = true := by
  refine ⟨fun x => by simp [sliceEq], fun x y h => ?_, fun x y z h h' => ?_⟩
  · simp [sliceEq] at h ⊢; exact h.symm
  · simp [sliceEq] at h h' ⊢; exact h.trans h'

theorem uprog_sensible (v : GoSlice) (last : TCmd (BitVec 32) GoSlice Nat)
    (hl : ∀ w : SWorld (MTable (BitVec 32) GoSlice), w.vars.map MTable.cmp = [.custom sliceEq] → w.vals.map MTable.cmp = [.nil, .custom sliceEq, .nil] → last.AskableUn w)
    : TProgram.SensibleUn (uprog v last) := by
  have inv : ∀ n w h b, TProgram.SeesUn (uprog v last) n w h b → h.length ≤ 7 →
      w.vars.map MTable.cmp = [EqFn.custom sliceEq].take h.length ∧
      w.vals.map MTable.cmp = [EqFn.nil] ++ [EqFn.custom sliceEq].take (h.length - 5) ++ [EqFn.nil].take (h.length - 6) := by
    intro n w h b hs
    induction hs with
    | init => intro _; simp
    | done hs hc ih => exact ih
    | over hs ih => exact ih
    | panic hs hc hp ih => exact ih
    | @call n w w' h c o hs hc hp he ih =>
      intro hlen
      obtain ⟨i2, i3⟩ := ih (by simp at hlen; omega)
      simp only [uprog] at hc
      split at hc
      · cases hc; obtain ⟨_, he⟩ := he; rw [he]; simp [SWorld.declare, i2, i3]
      · cases hc; obtain ⟨_, he⟩ := he; rw [he, cmps_assign]; simp [SWorld.assign, i2, i3]
      · cases hc; obtain ⟨_, he⟩ := he; rw [he, cmps_assign]; simp [SWorld.assign, i2, i3]
      · cases hc; obtain ⟨_, he⟩ := he; rw [he, cmps_assign]; simp [SWorld.assign, i2, i3]
      · cases hc; obtain ⟨_, he⟩ := he; rw [he, cmps_assign]; simp [SWorld.assign, i2, i3]
      · cases hc; obtain ⟨_, he⟩ := he; rw [he]; simp [SWorld.got, i2, i3, cmp_var]
      · cases hc; obtain ⟨_, _, _, he⟩ := he; rw [he]; simp [SWorld.got, i2, i3]
      · simp at hlen
      · cases hc
  intro n w h c hs hc
  have i1 : h.length ≤ 7 := by
    simp only [uprog] at hc
    split at hc <;> first | (simp; done) | cases hc
  obtain ⟨i2, i3⟩ := inv n w h _ hs i1
  have l2 := congrArg List.length i2
  have l3 := congrArg List.length i3
  have hv : w.vars.length = 1 → w.HasVar (some 0) := fun e i hi => by cases hi; omega
  simp only [uprog] at hc
  split at hc
  · cases hc; exact ⟨trivial, fun _ _ _ _ h => by cases h⟩
  · cases hc; exact ⟨⟨hv (by simpa using l2), fun _ => by show p8.WF; decide⟩, fun _ _ _ _ h => by cases h⟩
  · cases hc; exact ⟨⟨hv (by simpa using l2), fun _ => by show p11.WF; decide⟩, fun _ _ _ _ h => by cases h⟩
  · cases hc; exact ⟨⟨hv (by simpa using l2), fun _ => by show p8.WF; decide⟩, fun _ _ _ _ h => by cases h⟩
  · cases hc; exact ⟨⟨hv (by simpa using l2), fun _ => by show p8.WF; decide⟩, fun _ _ _ _ h => by cases h⟩
  · cases hc; exact ⟨hv (by simpa using l2), fun _ _ _ _ h => by cases h⟩
  · cases hc
    refine ⟨⟨?_, fun e he => ?_⟩, fun _ _ _ _ h => by cases h⟩
    · show 1 < w.vals.length; simp at l3; omega
    · rw [cmp_val, i3] at he
      cases he
      exact sliceEq_equiv
  · cases hc; exact hl w (by simpa using i2) (by simpa using i3)
  · cases hc

/-- how many calls have returned, and whether the program has panicked -/
def report : TEnd (BitVec 32) GoSlice Nat → Option (Nat × Bool)
  | .running r => some (r.seen.length, false)
  | .panicked h => some (h.length, true)
  | .hung => none

/-- the run of `uprog` on the heap -/
abbrev urun (v : GoSlice) (last : TCmd (BitVec 32) GoSlice Nat) (n : Nat) := report (@TProgram.runs _ _ _ _ _ Storable.toGoType 67 (uprog v last) n)

/-- Equal slices: `Aggregate` returns, for no entry contains the two.  Then an `Insert` below one of the entries
    panics, an `Insert` of an entry that is there and a `Remove` of a prefix that is not there do not, nor does the
    `Remove` of an entry that no other one contains. -/
example : urun ⟨[1]⟩ (.op (some 0) (.insert (.prefix p16) ⟨[2]⟩)) 9 = some (7, true) := by decide +kernel
example : urun ⟨[1]⟩ (.op (some 0) (.insert (.prefix p8) ⟨[2]⟩)) 9 = some (8, false) := by decide +kernel
example : urun ⟨[1]⟩ (.op (some 0) (.remove (.prefix p16))) 9 = some (8, false) := by decide +kernel
example : urun ⟨[1]⟩ (.op (some 0) (.remove (.prefix p8))) 9 = some (8, false) := by decide +kernel
/-- `GetOrInsert` there panics, and so does `Map`. -/
example : urun ⟨[1]⟩ (.op (some 0) (.getOrInsert (.prefix p16) ⟨[2]⟩)) 9 = some (7, true) := by decide +kernel
example : urun ⟨[1]⟩ (.map 1 (some fun _ v s => (v, s + 1)) 0) 9 = some (7, true) := by decide +kernel
/-- Unequal slices: `Aggregate` panics (C39). -/
example : urun ⟨[2]⟩ (.map 1 none 0) 9 = some (6, true) := by decide +kernel

theorem insert_askable : ∀ w : SWorld (MTable (BitVec 32) GoSlice), w.vars.map MTable.cmp = [.custom sliceEq] →
    w.vals.map MTable.cmp = [.nil, .custom sliceEq, .nil] → (TCmd.op (some 0) (.insert (.prefix p16) ⟨[2]⟩) : TCmd (BitVec 32) GoSlice Nat).AskableUn w := by
  intro w h1 _
  refine ⟨⟨fun i hi => ?_, fun _ => by show p16.WF; decide⟩, fun _ _ _ _ h => by cases h⟩
  cases hi
  have := congrArg List.length h1
  simp at this; omega

/-- both cases of `C70_exact` occur -/
example : (∃ w h, TProgram.SeesUn (uprog ⟨[1]⟩ (.op (some 0) (.insert (.prefix p16) ⟨[2]⟩))) 7 w h false) ∧
    ∃ w h, TProgram.SeesUn (uprog ⟨[1]⟩ (.op (some 0) (.insert (.prefix p16) ⟨[2]⟩))) 8 w h true := by
  constructor
  · obtain ⟨w, h, ⟨h1, _⟩ | ⟨_, h2⟩⟩ := C70_exact (F := 67) (fun _ _ => rfl) (by decide) _ (uprog_sensible ⟨[1]⟩ _ insert_askable) 7
    · exact ⟨w, h, h1⟩
    · have : urun ⟨[1]⟩ (.op (some 0) (.insert (.prefix p16) ⟨[2]⟩)) 7 = some (7, false) := by decide +kernel
      simp only [urun] at this
      rw [h2] at this; simp [report] at this
  · obtain ⟨w, h, ⟨_, r, h2, _⟩ | ⟨h1, _⟩⟩ := C70_exact (F := 67) (fun _ _ => rfl) (by decide) _ (uprog_sensible ⟨[1]⟩ _ insert_askable) 8
    · have : urun ⟨[1]⟩ (.op (some 0) (.insert (.prefix p16) ⟨[2]⟩)) 8 = some (7, true) := by decide +kernel
      simp only [urun] at this
      rw [h2] at this; simp [report] at this
    · exact ⟨w, h, h1⟩

end Slices
end Addrs

import Verif.PropDiffOrder
import Verif.PropTableEntries
/-
  Property C75: copying a table entry by entry, bringing a table up to date with the changes `Diff` reports, and
  exchanging the arguments of `Diff`.
-/
set_option linter.unusedSectionVars false
namespace Addrs
open GoWord LawfulGoWord

section
variable {α D : Type} [LawfulGoWord α] [Inhabited D] [DecidableEq D]

/-- What a program does that wants to turn a `Table_` into another one: `Remove` what is only in the left table,
    `Insert` what is only in the right table, `Update` what has changed.  The state is the `Table_` and whether
    all calls so far have returned true. -/
def syncCbs : TableDiffCallbacks α D (Table α D × Bool) where
  left := some fun p _ s => (((s.1.remove (.prefix p)).1, s.2 && (s.1.remove (.prefix p)).2), true)
  right := some fun p v s => (((s.1.insert (.prefix p) v).1, s.2 && (s.1.insert (.prefix p) v).2), true)
  changed := some fun p _ w s => (((s.1.update (.prefix p) w).1, s.2 && (s.1.update (.prefix p) w).2), true)
  unchanged := none

/-- the change is possible with the map `m` before it -/
def Change.Fits (m : PMap D) : Change α D → Prop
  | .onlyLeft p v => m (keyOf p) = some v
  | .onlyRight p _ => m (keyOf p) = none
  | .both p v _ _ => m (keyOf p) = some v

theorem Change.apply_other (e : D → D → Bool) (m : PMap D) (c : Change α D) (κ : Nat × Nat) (h : keyOf c.pfx ≠ κ) :
    Change.apply e m c κ = m κ := by
  cases c with
  | onlyLeft p v => simp only [Change.apply, PMap.erase]; rw [if_neg (fun e => h e.symm)]
  | onlyRight p v => simp only [Change.apply, PMap.set]; rw [if_neg (fun e => h e.symm)]
  | both p v q w =>
    simp only [Change.apply]
    split
    · rfl
    · simp only [PMap.set]; rw [if_neg (fun e => h e.symm)]

theorem Change.Fits.congr {m m' : PMap D} {c : Change α D} (h : c.Fits m) (e : m' (keyOf c.pfx) = m (keyOf c.pfx)) :
    c.Fits m' := by
  cases c <;> simp only [Change.Fits, Change.pfx] at * <;> rw [e, h]

/-- one change -/
theorem sync_one {e : D → D → Bool} {t : Table α D} {m : PMap D} (ht : t.Reachable) (he : t.eq = some e)
    (hm : t.Shows m) (c : Change α D) (hc : c.pfx.WF) (hf : c.Fits m) (b : Bool) :
    ∃ t', Change.report e syncCbs c (t, b) = ((t', b), true) ∧ t'.Reachable ∧ t'.eq = some e ∧
      t'.Shows (Change.apply e m c) := by
  have key := fun (o : TableOp α D) (hk : o.key.toPrefix.WF) =>
    let s := Table.step_spec (hm.repr ht.good) he o hk
    (⟨Table.Reachable.step t o ht (by rw [he]; simp) hk, s.2.1, s.1.shows, s.2.2⟩ :
      (t.step o).1.Reachable ∧ (t.step o).1.eq = some e ∧ (t.step o).1.Shows (m.step e o).1 ∧
        ResultOk (t.step o).2 (m.step e o).2)
  cases c with
  | onlyLeft p v =>
    obtain ⟨h1, h2, h3, h4⟩ := key (.remove (.prefix p)) hc
    have hf : m (keyOf p) = some v := hf
    have hr : (t.remove (.prefix p)).2 = true := h4 (by simp [PrefixI.toPrefix, hf])
    refine ⟨(t.remove (.prefix p)).1, ?_, h1, h2, h3⟩
    simp only [Change.report, syncCbs, hr, Bool.and_true]
  | onlyRight p v =>
    obtain ⟨h1, h2, h3, h4⟩ := key (.insert (.prefix p) v) hc
    have hf : m (keyOf p) = none := hf
    simp only [PMap.step, PrefixI.toPrefix, hf] at h3 h4
    have hr : (t.insert (.prefix p) v).2 = true := by injection h4
    refine ⟨(t.insert (.prefix p) v).1, ?_, h1, h2, h3⟩
    simp only [Change.report, syncCbs, hr, Bool.and_true]
  | both p v q w =>
    by_cases hvw : e v w = true
    · refine ⟨t, ?_, ht, he, ?_⟩
      · simp only [Change.report, syncCbs, hvw, if_true]
      · simp only [Change.apply, hvw, if_true]; exact hm
    · obtain ⟨h1, h2, h3, h4⟩ := key (.update (.prefix p) w) hc
      have hf : m (keyOf p) = some v := hf
      simp only [PMap.step, PrefixI.toPrefix, hf, if_neg hvw] at h3 h4
      have hr : (t.update (.prefix p) w).2 = true := by injection h4
      refine ⟨(t.update (.prefix p) w).1, ?_, h1, h2, ?_⟩
      · simp only [Change.report, syncCbs, if_neg hvw, hr, Bool.and_true]
      · simp only [Change.apply, if_neg hvw]; exact h3

theorem sync_all {e : D → D → Bool} (L : List (Change α D)) : ∀ {t : Table α D} {m : PMap D}, t.Reachable →
    t.eq = some e → t.Shows m → (∀ c ∈ L, c.pfx.WF) → (∀ c ∈ L, c.Fits m) →
    L.Pairwise (fun c d => keyOf c.pfx ≠ keyOf d.pfx) → ∀ b : Bool,
    ∃ t', visit (Change.report e syncCbs) L (t, b) = ((t', b), true) ∧ t'.Reachable ∧ t'.eq = some e ∧
      t'.Shows (L.foldl (Change.apply e) m) := by
  induction L with
  | nil => intro t m ht he hm _ _ _ b; exact ⟨t, rfl, ht, he, hm⟩
  | cons c L ih =>
    intro t m ht he hm hw hf hp b
    obtain ⟨hp1, hp2⟩ := List.pairwise_cons.mp hp
    obtain ⟨t1, h1, h2, h3, h4⟩ := sync_one ht he hm c (hw c List.mem_cons_self) (hf c List.mem_cons_self) b
    obtain ⟨t2, k1, k2, k3, k4⟩ := ih h2 h3 h4 (fun d hd => hw d (List.mem_cons_of_mem _ hd))
      (fun d hd => (hf d (List.mem_cons_of_mem _ hd)).congr (Change.apply_other e m c _ (hp1 d hd))) hp2 b
    refine ⟨t2, ?_, k2, k3, k4⟩
    simp only [visit, h1]
    exact k1

theorem Table.Shows.mem {t : Table α D} {m : PMap D} (hm : t.Shows m) {p : Prefix α} {v : D} (hp : p.WF)
    (h : t.get (.prefix p) = (v, true)) : m (keyOf p) = some v := by
  have := hm (.prefix p) hp
  rw [h] at this
  cases e : m (keyOf p) with
  | none => simp only [PrefixI.toPrefix, e] at this; simp at this
  | some w => simp only [PrefixI.toPrefix, e, Prod.mk.injEq, and_true] at this; rw [this]

theorem Table.Shows.absent {t : Table α D} {m : PMap D} (hm : t.Shows m) {p : Prefix α} (hp : p.WF)
    (h : (t.get (.prefix p)).2 = false) : m (keyOf p) = none := by
  have := hm (.prefix p) hp
  cases e : m (keyOf p) with
  | none => rfl
  | some w => simp only [PrefixI.toPrefix, e] at this; rw [this] at h; cases h

theorem sync_diff (l r : Table α D) (hl : l.Reachable) (hr : r.Reachable) (e : D → D → Bool) (he : l.eq = some e) :
    ∃ t', l.diff r syncCbs (l, true) = ((t', true), true) ∧ t'.Reachable ∧ t'.eq = some e ∧
      ∀ k : PrefixI α, k.toPrefix.WF → (t'.get k).2 = (r.get k).2 ∧
        ((t'.get k).1 = (r.get k).1 ∨ e (t'.get k).1 (r.get k).1 = true) := by
  obtain ⟨m, hm⟩ := C23_shows l hl
  obtain ⟨d1, d2, d3, d4, d5⟩ := Table.changes_diff l r hl hr e he
  have wfl : ∀ {p v}, (p, v) ∈ l.listed → p.WF := fun h => hl.good.inv.entries_wf ((Table.mem_listed hl.good).mp h)
  have wfr : ∀ {p v}, (p, v) ∈ r.listed → p.WF := fun h => hr.good.inv.entries_wf ((Table.mem_listed hr.good).mp h)
  have wf : ∀ c ∈ Table.changes l r, c.pfx.WF := by
    intro c hc
    cases c with
    | onlyLeft p v => exact wfl (p := p) (v := v) (by rw [← d2]; exact List.mem_filterMap.mpr ⟨_, hc, rfl⟩)
    | onlyRight p v => exact wfr (p := p) (v := v) (by rw [← d3]; exact List.mem_filterMap.mpr ⟨_, hc, rfl⟩)
    | both p v q w => exact wfl (p := p) (v := v) (by rw [← d2]; exact List.mem_filterMap.mpr ⟨_, hc, rfl⟩)
  obtain ⟨t', k1, k2, k3, k4⟩ := sync_all (Table.changes l r) hl he hm wf (fun c hc => by
    have ok := d5 c hc
    have w := wf c hc
    cases c with
    | onlyLeft p v => exact hm.mem w ok.1
    | onlyRight p v => exact hm.absent w ok.1
    | both p v q u => exact hm.mem w ok.2.1) d4 true
  refine ⟨t', by rw [d1, k1], k2, k3, fun k hk => ?_⟩
  have ap : match (Table.changes l r).foldl (Change.apply e) m (keyOf k.toPrefix) with
        | none => (r.get k).2 = false
        | some v => (r.get k).2 = true ∧ (v = (r.get k).1 ∨ e v (r.get k).1 = true) := apply_changes l r hl hr e he m hm k hk
  have g := k4 k hk
  cases hx : (Table.changes l r).foldl (Change.apply e) m (keyOf k.toPrefix) with
  | none =>
    rw [hx] at ap g
    obtain ⟨n, hn⟩ := C23_shows r hr
    have hn := hn k hk
    have ap : (r.get k).2 = false := ap
    cases e' : n (keyOf k.toPrefix) with
    | none => rw [e'] at hn; rw [g, hn]; exact ⟨rfl, .inl rfl⟩
    | some v => rw [e'] at hn; rw [hn] at ap; cases ap
  | some v =>
    rw [hx] at ap g
    rw [g]
    exact ⟨ap.1.symm, ap.2⟩


/-! ### C75 -/

/-- Replaying the differences on a `Table_` made from the left table: every `Remove`, `Insert` and `Update` returns
    true, `Diff` returns true, and afterwards `Get` finds in the `Table_` what it finds in the right table (where the
    table's comparison takes two values for equal, the old one is still there). -/
theorem C75_sync (l r : Table α D) (hl : l.Reachable) (hr : r.Reachable) (e : D → D → Bool) (he : l.eq = some e) :
    ∃ t : Table α D, l.diff r syncCbs (l.table_, true) = ((t, true), true) ∧
      ∀ k : PrefixI α, k.toPrefix.WF → (t.get k).2 = (r.get k).2 ∧
        ((t.get k).1 = (r.get k).1 ∨ e (t.get k).1 (r.get k).1 = true) := by
  have ht : l.table_ = l := by cases l; simp only at he; subst he; rfl
  obtain ⟨t, h1, _, _, h4⟩ := sync_diff l r hl hr e he
  exact ⟨t, by rw [ht]; exact h1, h4⟩

/-- with `==` for the comparison, `Get` returns the same for both tables -/
theorem C75_sync_same (l r : Table α D) (hl : l.Reachable) (hr : r.Reachable)
    (he : l.eq = some fun a b => decide (a = b)) :
    ∃ t : Table α D, l.diff r syncCbs (l.table_, true) = ((t, true), true) ∧
      ∀ k : PrefixI α, k.toPrefix.WF → t.get k = r.get k := by
  obtain ⟨t, h1, h2⟩ := C75_sync l r hl hr _ he
  refine ⟨t, h1, fun k hk => ?_⟩
  obtain ⟨h3, h4⟩ := h2 k hk
  refine Prod.ext ?_ h3
  rcases h4 with h4 | h4
  · exact h4
  · exact of_decide_eq_true h4

/-- Afterwards there is nothing left to do: `Diff` of the new table and the right one calls only the callback for
    unchanged entries. -/
theorem C75_sync_done (l r : Table α D) (hl : l.Reachable) (hr : r.Reachable) (e : D → D → Bool) (he : l.eq = some e)
    (hrefl : ∀ x, e x x = true) :
    ∃ t : Table α D, l.diff r syncCbs (l.table_, true) = ((t, true), true) ∧
      ∀ {σ : Type} (cb cb' : TableDiffCallbacks α D σ) (s : σ), cb.unchanged = cb'.unchanged →
        t.diff r cb s = t.diff r cb' s := by
  have ht : l.table_ = l := by cases l; simp only at he; subst he; rfl
  obtain ⟨t, h1, h2, h3, h4⟩ := sync_diff l r hl hr e he
  refine ⟨t, by rw [ht]; exact h1, fun cb cb' s hu => ?_⟩
  obtain ⟨d1, d2, d3, d4, d5⟩ := Table.changes_diff t r h2 hr e h3
  have wfl : ∀ {p v}, (p, v) ∈ t.listed → p.WF := fun h => h2.good.inv.entries_wf ((Table.mem_listed h2.good).mp h)
  have wfr : ∀ {p v}, (p, v) ∈ r.listed → p.WF := fun h => hr.good.inv.entries_wf ((Table.mem_listed hr.good).mp h)
  rw [d1, d1]
  have : ∀ c ∈ Table.changes t r, ∃ p v q w, c = .both p v q w ∧ e v w = true := by
    intro c hc
    have ok := d5 c hc
    cases c with
    | onlyLeft p v =>
      have w := wfl (p := p) (v := v) (by rw [← d2]; exact List.mem_filterMap.mpr ⟨_, hc, rfl⟩)
      have := (h4 (.prefix p) w).1
      rw [ok.1, ok.2] at this; cases this
    | onlyRight p v =>
      have w := wfr (p := p) (v := v) (by rw [← d3]; exact List.mem_filterMap.mpr ⟨_, hc, rfl⟩)
      have := (h4 (.prefix p) w).1
      rw [ok.1, ok.2] at this; cases this
    | both p v q u =>
      have w := wfl (p := p) (v := v) (by rw [← d2]; exact List.mem_filterMap.mpr ⟨_, hc, rfl⟩)
      have := (h4 (.prefix p) w).2
      rw [ok.2.1, ok.2.2] at this
      refine ⟨p, v, q, u, rfl, ?_⟩
      rcases this with this | this
      · have this : v = u := this
        rw [this]; exact hrefl u
      · exact this
  have all := this
  clear this
  generalize Table.changes t r = L at all
  induction L generalizing s with
  | nil => rfl
  | cons c L ih =>
    obtain ⟨p, v, q, w, rfl, hvw⟩ := all c List.mem_cons_self
    have : Change.report e cb (.both p v q w) s = Change.report e cb' (.both p v q w) s := by
      simp only [Change.report, hvw, if_true, hu]
    simp only [visit, this]
    cases h : Change.report e cb' (.both p v q w) s with
    | mk s' b =>
      cases b with
      | false => rfl
      | true => exact ih s' fun d hd => all d (List.mem_cons_of_mem _ hd)

/-- the callback of `Walk` that inserts every entry into a `Table_`; the state is the `Table_` and whether all calls
    so far have returned true -/
def copyInto (p : Prefix α) (v : D) (s : Table α D × Bool) : (Table α D × Bool) × Bool :=
  (((s.1.insert (.prefix p) v).1, s.2 && (s.1.insert (.prefix p) v).2), true)

theorem copy_all {e : D → D → Bool} (L : List (Prefix α × D)) : ∀ {t : Table α D} {m : Entries α D}, t.Reachable →
    t.eq = some e → t.Holds m → (∀ x ∈ L, x.1.WF) → (∀ x ∈ L, m (keyOf x.1) = none) →
    L.Pairwise (fun x y => keyOf x.1 ≠ keyOf y.1) → ∀ b : Bool,
    ∃ t', visit (fun x => copyInto x.1 x.2) L (t, b) = ((t', b), true) ∧ t'.Reachable ∧ t'.eq = some e ∧
      ∀ x, x ∈ t'.listed ↔ x ∈ t.listed ∨ x ∈ L := by
  induction L with
  | nil => intro t m ht he hm _ _ _ b; exact ⟨t, rfl, ht, he, fun x => by simp⟩
  | cons x L ih =>
    intro t m ht he hm hw hf hp b
    obtain ⟨hp1, hp2⟩ := List.pairwise_cons.mp hp
    have hk : ((.insert (.prefix x.1) x.2 : TableOp α D)).key.toPrefix.WF := hw x List.mem_cons_self
    have hx := hf x List.mem_cons_self
    have s1 := hm.step_map ht he _ hk
    have s2 := hm.step_result ht he _ hk
    simp only [Entries.step, PrefixI.toPrefix, hx] at s1 s2
    have hr : (t.insert (.prefix x.1) x.2).2 = true := by injection s2
    have he' : (t.step (.insert (.prefix x.1) x.2)).1.eq = some e := by
      obtain ⟨m', hm'⟩ := C23_shows t ht
      exact (Table.step_spec (hm'.repr ht.good) he _ hk).2.1
    obtain ⟨t2, k1, k2, k3, k4⟩ := ih (.step t _ ht (by rw [he]; simp) hk) he' s1
      (fun d hd => hw d (List.mem_cons_of_mem _ hd))
      (fun d hd => by
        simp only [Entries.set]
        rw [if_neg (fun h => hp1 d hd h.symm)]
        exact hf d (List.mem_cons_of_mem _ hd)) hp2 b
    refine ⟨t2, ?_, k2, k3, fun y => ?_⟩
    · simp only [visit, copyInto, hr, Bool.and_true]
      exact k1
    · rw [k4, s1.mem, hm.mem]
      simp only [Entries.Has, Entries.set, List.mem_cons]
      by_cases hy : keyOf y.1 = keyOf x.1
      · rw [if_pos hy, hy, hx]
        simp only [Option.some.injEq, reduceCtorEq, false_or]
        exact ⟨fun h => h.imp (fun h => h.symm) id, fun h => h.imp (fun h => h.symm) id⟩
      · rw [if_neg hy]
        constructor
        · rintro (h | h)
          · exact .inl h
          · exact .inr (.inr h)
        · rintro (h | rfl | h)
          · exact .inl h
          · exact (hy rfl).elim
          · exact .inr h

/-- Copying a table: going through it with `Walk` and inserting every entry into a new `Table_` (with any comparison
    function `e`).  Every `Insert` returns true and the copy has the same entries, in the same order. -/
theorem C75_copy (t : Table α D) (ht : t.Reachable) (e : D → D → Bool) :
    ∃ u : Table α D, t.walk copyInto (Table.newCustom e, true) = ((u, true), true) ∧ u.listed = t.listed ∧
      ∀ k : PrefixI α, k.toPrefix.WF → u.get k = t.get k := by
  have wf : ∀ x ∈ t.listed, x.1.WF := fun x h => ht.good.inv.entries_wf ((Table.mem_listed (p := x.1) (v := x.2) ht.good).mp h)
  have srt := C27_sorted t ht
  have pw : t.listed.Pairwise (fun x y => keyOf x.1 ≠ keyOf y.1) := by
    rw [Table.listed_eq]
    unfold Table.pairs
    rw [List.pairwise_map]
    refine (ht.good.inv.sorted).imp_of_mem fun {x y} hx hy h hk => before_not_sameKey h ?_
    exact (keyOf_eq (ht.good.inv.entries_wf hx)).mp hk
  obtain ⟨u, h1, h2, h3, h4⟩ := copy_all t.listed (t := Table.newCustom e) (e := e) (m := Entries.empty) (.newCustom e) rfl
    (Table.holds_nil _) wf (fun _ _ => rfl) pw true
  have hlist : u.listed = t.listed := by
    refine eq_of_sorted (R := fun x y => LexBefore x.1 y.1) (fun h h' => h.asymm h') (C27_sorted u h2) srt fun x => ?_
    rw [h4, show (Table.newCustom e : Table α D).listed = [] from Table.listed_nil _]
    simp
  refine ⟨u, by rw [C27_walk]; exact h1, hlist, fun k hk => ?_⟩
  obtain ⟨m, hm⟩ := h2.holds
  have hm' : t.Holds m := fun κ x => by rw [← hlist]; exact hm κ x
  rw [hm.shows h2 k hk, hm'.shows ht k hk]

/-- the change seen from the other side -/
def Change.mirror : Change α D → Change α D
  | .onlyLeft p v => .onlyRight p v
  | .onlyRight p v => .onlyLeft p v
  | .both p v q w => .both q w p v

theorem mem_changes {l r : Table α D} (hl : l.Reachable) (hr : r.Reachable) (c : Change α D) :
    c ∈ Table.changes l r ↔ match c with
      | .onlyLeft p v => (p, v) ∈ l.listed ∧ (r.get (.prefix p)).2 = false
      | .onlyRight p v => (p, v) ∈ r.listed ∧ (l.get (.prefix p)).2 = false
      | .both p v q w => (p, v) ∈ l.listed ∧ (q, w) ∈ r.listed ∧ keyOf p = keyOf q := by
  obtain ⟨_, d2, d3, d4, d5⟩ := Table.changes_diff' l r hl hr _ rfl
  have getl : ∀ {p v}, (p, v) ∈ l.listed → l.get (.prefix p) = (v, true) := fun h => (C25_get l hl _ _).mpr ⟨_, h, rfl⟩
  have getr : ∀ {p v}, (p, v) ∈ r.listed → r.get (.prefix p) = (v, true) := fun h => (C25_get r hr _ _).mpr ⟨_, h, rfl⟩
  constructor
  · intro hc
    have ok := d5 c hc
    cases c with
    | onlyLeft p v => exact ⟨by rw [← d2]; exact List.mem_filterMap.mpr ⟨_, hc, rfl⟩, ok.2⟩
    | onlyRight p v => exact ⟨by rw [← d3]; exact List.mem_filterMap.mpr ⟨_, hc, rfl⟩, ok.1⟩
    | both p v q w =>
      exact ⟨by rw [← d2]; exact List.mem_filterMap.mpr ⟨_, hc, rfl⟩,
        by rw [← d3]; exact List.mem_filterMap.mpr ⟨_, hc, rfl⟩, ok.1⟩
  · intro h
    cases c with
    | onlyLeft p v =>
      obtain ⟨h1, h2⟩ := h
      have h1' := h1
      rw [← d2] at h1'
      obtain ⟨c, hc, ec⟩ := List.mem_filterMap.mp h1'
      have ok := d5 c hc
      cases c with
      | onlyLeft p' v' => injection ec with ec; injection ec with e1 e2; subst e1; subst e2; exact hc
      | onlyRight p' v' => cases ec
      | both p' v' q w =>
        injection ec with ec; injection ec with e1 e2; subst e1
        rw [ok.2.2] at h2; cases h2
    | onlyRight p v =>
      obtain ⟨h1, h2⟩ := h
      have h1' := h1
      rw [← d3] at h1'
      obtain ⟨c, hc, ec⟩ := List.mem_filterMap.mp h1'
      have ok := d5 c hc
      cases c with
      | onlyLeft p' v' => cases ec
      | onlyRight p' v' => injection ec with ec; injection ec with e1 e2; subst e1; subst e2; exact hc
      | both p' v' q w =>
        injection ec with ec; injection ec with e1 e2; subst e1
        have hp' : (p', v') ∈ l.listed := by rw [← d2]; exact List.mem_filterMap.mpr ⟨_, hc, rfl⟩
        have := (C25_get l hl (.prefix q) v').mpr ⟨p', hp', ok.1⟩
        rw [this] at h2; cases h2
    | both p v q w =>
      obtain ⟨h1, h2, h3⟩ := h
      have h1' := h1
      rw [← d2] at h1'
      obtain ⟨c, hc, ec⟩ := List.mem_filterMap.mp h1'
      have ok := d5 c hc
      have hq : r.get (.prefix p) = (w, true) := (C25_get r hr _ _).mpr ⟨q, h2, h3.symm⟩
      cases c with
      | onlyLeft p' v' =>
        injection ec with ec; injection ec with e1 e2; subst e1
        have ok := ok.2
        rw [hq] at ok; cases ok
      | onlyRight p' v' => cases ec
      | both p' v' q' w' =>
        injection ec with ec; injection ec with e1 e2; subst e1; subst e2
        have hq' : (q', w') ∈ r.listed := by rw [← d3]; exact List.mem_filterMap.mpr ⟨_, hc, rfl⟩
        obtain ⟨m, hm⟩ := hr.holds
        have a := (hm (keyOf p') (q, w)).mpr ⟨h2, h3.symm⟩
        have b := (hm (keyOf p') (q', w')).mpr ⟨hq', ok.1.symm⟩
        rw [a] at b; injection b with b; injection b with e1 e2; subst e1; subst e2
        exact hc

theorem changes_nodup {l r : Table α D} (hl : l.Reachable) (hr : r.Reachable) : (Table.changes l r).Nodup :=
  (Table.changes_pairwise hl.good hr.good).imp fun h e => h (by rw [e])

/-- Exchanging the arguments: `Diff` of `r` and `l` reports the same changes seen from the other side, each once
    (the order can be different, see C29). -/
theorem C75_mirror (l r : Table α D) (hl : l.Reachable) (hr : r.Reachable) (e e' : D → D → Bool)
    (he : l.eq = some e) (he' : r.eq = some e') :
    ∃ L R : List (Change α D),
      (∀ {σ : Type} (cb : TableDiffCallbacks α D σ) (s : σ), l.diff r cb s = visit (Change.report e cb) L s) ∧
      (∀ {σ : Type} (cb : TableDiffCallbacks α D σ) (s : σ), r.diff l cb s = visit (Change.report e' cb) R s) ∧
      L.Nodup ∧ R.Nodup ∧ (∀ c, c ∈ R ↔ c.mirror ∈ L) ∧ R.Perm (L.map Change.mirror) := by
  have inv : ∀ c : Change α D, c.mirror.mirror = c := fun c => by cases c <;> rfl
  have hm : ∀ c, c ∈ Table.changes r l ↔ c.mirror ∈ Table.changes l r := by
    intro c
    rw [mem_changes hr hl, mem_changes hl hr]
    cases c with
    | onlyLeft p v => exact Iff.rfl
    | onlyRight p v => exact Iff.rfl
    | both p v q w => exact ⟨fun ⟨a, b, c⟩ => ⟨b, a, c.symm⟩, fun ⟨a, b, c⟩ => ⟨b, a, c.symm⟩⟩
  have nd : (((Table.changes l r)).map Change.mirror).Nodup := by
    unfold List.Nodup
    rw [List.pairwise_map]
    exact (changes_nodup hl hr).imp fun {c d} h e => h (by rw [← inv c, e, inv])
  refine ⟨Table.changes l r, Table.changes r l, (Table.changes_diff l r hl hr e he).1,
    (Table.changes_diff r l hr hl e' he').1, changes_nodup hl hr, changes_nodup hr hl, hm, ?_⟩
  classical
  refine (List.perm_ext_iff_of_nodup (changes_nodup hr hl) nd).mpr fun c => ?_
  rw [hm, List.mem_map]
  exact ⟨fun h => ⟨_, h, inv c⟩, fun ⟨d, hd, e⟩ => by rw [← e, inv]; exact hd⟩

/-- how often `Diff` calls each of its callbacks if none returns false -/
def tally : TableDiffCallbacks α D (Nat × Nat × Nat × Nat) where
  left := some fun _ _ s => ((s.1 + 1, s.2), true)
  right := some fun _ _ s => ((s.1, s.2.1 + 1, s.2.2), true)
  changed := some fun _ _ _ s => ((s.1, s.2.1, s.2.2.1 + 1, s.2.2.2), true)
  unchanged := some fun _ _ s => ((s.1, s.2.1, s.2.2.1, s.2.2.2 + 1), true)

theorem tally_perm {e : D → D → Bool} {L R : List (Change α D)} (h : L.Perm R) : ∀ s,
    visit (Change.report e tally) L s = visit (Change.report e tally) R s := by
  have step : ∀ (c : Change α D) s, (Change.report e tally c s).2 = true := by
    intro c s
    cases c with
    | onlyLeft p v => rfl
    | onlyRight p v => rfl
    | both p v q w => simp only [Change.report, tally]; split <;> rfl
  have next : ∀ c (L : List (Change α D)) s,
      visit (Change.report e tally) (c :: L) s = visit (Change.report e tally) L (Change.report e tally c s).1 := by
    intro c L s
    have := step c s
    simp only [visit]
    cases h : Change.report e tally c s with
    | mk s' b => rw [h] at this; cases this; rfl
  induction h with
  | nil => intro s; rfl
  | cons c _ ih => intro s; rw [next, next, ih]
  | swap c d L =>
    intro s
    rw [next, next, next, next]
    congr 1
    cases c <;> cases d <;> simp only [Change.report, tally] <;> (repeat' split) <;> rfl
  | trans _ _ ih1 ih2 => intro s; rw [ih1, ih2]

theorem tally_mirror {e e' : D → D → Bool} (hs : ∀ x y, e' x y = e y x) (L : List (Change α D)) : ∀ a b c d,
    visit (Change.report e' tally) (L.map Change.mirror) (b, a, c, d) =
      (((visit (Change.report e tally) L (a, b, c, d)).1.2.1, (visit (Change.report e tally) L (a, b, c, d)).1.1,
        (visit (Change.report e tally) L (a, b, c, d)).1.2.2), true) := by
  induction L with
  | nil => intro a b c d; rfl
  | cons x L ih =>
    intro a b c d
    cases x with
    | onlyLeft p v => simp only [List.map_cons, visit, Change.mirror, Change.report, tally]; exact ih _ _ _ _
    | onlyRight p v => simp only [List.map_cons, visit, Change.mirror, Change.report, tally]; exact ih _ _ _ _
    | both p v q w =>
      simp only [List.map_cons, visit, Change.mirror, Change.report, hs]
      cases e v w with
      | true => simp only [if_true, tally]; exact ih _ _ _ _
      | false => simp only [Bool.false_eq_true, if_false, tally]; exact ih _ _ _ _

/-- So with the arguments exchanged the callbacks for the left and the right table are called as often as the
    callbacks for the right and the left table were, and the other two as often as before. -/
theorem C75_mirror_counts (l r : Table α D) (hl : l.Reachable) (hr : r.Reachable) (e e' : D → D → Bool)
    (he : l.eq = some e) (he' : r.eq = some e') (hs : ∀ x y, e' x y = e y x) (a b c d : Nat)
    (h : l.diff r tally (0, 0, 0, 0) = ((a, b, c, d), true)) :
    r.diff l tally (0, 0, 0, 0) = ((b, a, c, d), true) := by
  obtain ⟨L, R, h1, h2, _, _, _, h6⟩ := C75_mirror l r hl hr e e' he he'
  rw [h2, tally_perm h6, tally_mirror (e := e) hs]
  rw [h1] at h
  rw [h]

namespace Sample
/-- two tables: 10.0.0.0/24, 10.0.0.0/25 and 10.0.0.128/25 against 10.0.0.0/24 (another value), 10.0.0.128/25 and
    11.0.0.0/8 -/
def syncL : Table (BitVec 32) Nat := (runOps Table.step Table.new_ [.insert (.prefix ⟨0x0a000000#32, 24⟩) 1,
  .insert (.prefix ⟨0x0a000000#32, 25⟩) 2, .insert (.prefix ⟨0x0a000080#32, 25⟩) 3]).1
def syncR : Table (BitVec 32) Nat := (runOps Table.step Table.new_ [.insert (.prefix ⟨0x0a000000#32, 24⟩) 4,
  .insert (.prefix ⟨0x0a000080#32, 25⟩) 3, .insert (.prefix ⟨0x0b000000#32, 8⟩) 5]).1
theorem syncL_reachable : syncL.Reachable := (run_reachable _ _ .new_ (by simp [Table.new_]) (by decide)).1
theorem syncR_reachable : syncR.Reachable := (run_reachable _ _ .new_ (by simp [Table.new_]) (by decide)).1
end Sample

/-- a table that gains, loses, keeps and changes entries -/
example : ∃ t : Table (BitVec 32) Nat, Sample.syncL.diff Sample.syncR syncCbs (Sample.syncL.table_, true) = ((t, true), true) ∧
    t.get (.prefix ⟨0x0a000000#32, 24⟩) = (4, true) ∧ (t.get (.prefix ⟨0x0a000000#32, 25⟩)).2 = false ∧
    t.get (.prefix ⟨0x0a000080#32, 25⟩) = (3, true) ∧ t.get (.prefix ⟨0x0b000000#32, 8⟩) = (5, true) := by
  obtain ⟨t, h1, h2⟩ := C75_sync_same _ _ Sample.syncL_reachable Sample.syncR_reachable rfl
  refine ⟨t, h1, ?_, ?_, ?_, ?_⟩ <;> rw [h2 _ (by decide)] <;> decide

example : Sample.syncL.listed.length = 3 ∧ Sample.syncR.listed.length = 3 := by
  rw [Table.listed_eq, Table.listed_eq]; decide

end
end Addrs

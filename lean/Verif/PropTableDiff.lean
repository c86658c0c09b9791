import Verif.PropTables
/-
  Properties C28, C29, C31 (Diff and Map of tables).
-/
set_option linter.unusedSectionVars false
namespace Addrs
open GoWord LawfulGoWord

section
variable {α D : Type} [LawfulGoWord α] [Inhabited D] [DecidableEq D]
open Table

theorem before_not_sameKey {p q : Prefix α} (h : Trie.Before p q) : ¬ SameKey p q := by
  rcases h with ⟨b, h⟩ | ⟨n, h1, _, _, h4, h5⟩
  · exact h.not_sameKey
  · intro hs
    have := hs.2 n h1
    rw [h4, h5] at this; cases this

namespace Table

/-- an event of the tries as an API change -/
def toChange : Trie.Event α D → Change α D
  | .removed x => .onlyLeft x.1 (unbox x.2)
  | .added y => .onlyRight y.1 (unbox y.2)
  | .both x y => .both x.1 (unbox x.2) y.1 (unbox y.2)

/-- the list of changes `Diff` reports -/
def changes (l r : Table α D) : List (Change α D) := (l.trie.events r.trie).map toChange

theorem changes_left (l r : Table α D) : (changes l r).filterMap Change.left = l.listed := by
  rw [listed_eq, pairs, ← Trie.events_left l.trie r.trie, changes, List.filterMap_map, List.map_filterMap]
  congr 1
  funext v
  cases v <;> rfl

theorem changes_right (l r : Table α D) : (changes l r).filterMap Change.right = r.listed := by
  rw [listed_eq, pairs, ← Trie.events_right l.trie r.trie, changes, List.filterMap_map, List.map_filterMap]
  congr 1
  funext v
  cases v <;> rfl

theorem diff_changes' {l r : Table α D} (hl : l.Good) (hr : r.Good) {e : D → D → Bool} (he : l.eq.getD (fun _ _ => false) = e)
    {σ : Type} (cb : TableDiffCallbacks α D σ) (s : σ) :
    l.diff r cb s = visit (Change.report e cb) (changes l r) s := by
  unfold diff changes
  rw [Trie.Diff_eq, visit_map]
  have ok := Trie.events_ok l.trie r.trie hl.inv hr.inv
  revert ok s
  generalize Trie.events l.trie r.trie = L
  induction L with
  | nil => intro s _; rfl
  | cons v L ih =>
    intro s ok
    have hv : ∀ s, Trie.dispatch
        { removed := cb.left.map fun f p d => f p (unbox d)
          added := cb.right.map fun f p d => f p (unbox d)
          modified := cb.changed.map fun f p d e => f p (unbox d) (unbox e)
          same := cb.unchanged.map fun f p d => f p (unbox d) } l.cmp v s = Change.report e cb (toChange v) s := by
      intro s
      have h := ok v List.mem_cons_self
      cases v with
      | removed x =>
        simp only [Trie.dispatch, toChange, Change.report, Trie.orNoop1]
        cases cb.left <;> rfl
      | added x =>
        simp only [Trie.dispatch, toChange, Change.report, Trie.orNoop1]
        cases cb.right <;> rfl
      | both x y =>
        obtain ⟨a, ha⟩ := Option.isSome_iff_exists.mp (hl.some x h.1)
        obtain ⟨b, hb⟩ := Option.isSome_iff_exists.mp (hr.some y h.2.1)
        have hcmp : l.cmp (Option.some a) (Option.some b) = e a b := by
          simp only [cmp, he, liftEq]
        simp only [Trie.dispatch, toChange, Change.report, ha, hb, hcmp, unbox, Option.getD_some]
        cases e a b with
        | true => simp only [if_true, Trie.orNoop1]; cases cb.unchanged <;> rfl
        | false => simp only [Bool.false_eq_true, if_false, Trie.orNoop2]; cases cb.changed <;> rfl
    simp only [visit, hv]
    cases h : Change.report e cb (toChange v) s with
    | mk s' b =>
      cases b with
      | true => exact ih s' fun v hv => ok v (List.mem_cons_of_mem _ hv)
      | false => rfl

theorem diff_changes {l r : Table α D} (hl : l.Good) (hr : r.Good) {e : D → D → Bool} (he : l.eq = Option.some e)
    {σ : Type} (cb : TableDiffCallbacks α D σ) (s : σ) :
    l.diff r cb s = visit (Change.report e cb) (changes l r) s := diff_changes' hl hr (by rw [he]; rfl) cb s

theorem changes_pairwise {l r : Table α D} (hl : l.Good) (hr : r.Good) :
    (changes l r).Pairwise (fun c d => keyOf c.pfx ≠ keyOf d.pfx) := by
  have ok := Trie.events_ok l.trie r.trie hl.inv hr.inv
  have wfl : ∀ {x}, x ∈ l.trie.entries → x.1.WF := fun h => hl.inv.entries_wf h
  have wfr : ∀ {x}, x ∈ r.trie.entries → x.1.WF := fun h => hr.inv.entries_wf h
  have pl : (l.trie.entries).Pairwise (fun x y => ¬ SameKey x.1 y.1) :=
    hl.inv.sorted.imp fun h => before_not_sameKey h
  have pr : (r.trie.entries).Pairwise (fun x y => ¬ SameKey x.1 y.1) :=
    hr.inv.sorted.imp fun h => before_not_sameKey h
  unfold changes
  rw [List.pairwise_map]
  rw [← Trie.events_left l.trie r.trie, List.pairwise_filterMap] at pl
  rw [← Trie.events_right l.trie r.trie, List.pairwise_filterMap] at pr
  refine (pl.and pr).imp_of_mem fun {v w} hv hw h hk => ?_
  obtain ⟨h1, h2⟩ := h
  have ov := ok v hv
  have ow := ok w hw
  cases v with
  | removed x =>
    cases w with
    | removed y => exact h1 x rfl y rfl ((keyOf_eq (wfl ov.1)).mp hk)
    | added y => exact ov.2 y ow.1 ((keyOf_eq (wfl ov.1)).mp hk)
    | both y z => exact h1 x rfl y rfl ((keyOf_eq (wfl ov.1)).mp hk)
  | added x =>
    cases w with
    | removed y => exact ow.2 x ov.1 ((keyOf_eq (wfr ov.1)).mp hk).symm
    | added y => exact h2 x rfl y rfl ((keyOf_eq (wfr ov.1)).mp hk)
    | both y z => exact h2 x rfl z rfl (((keyOf_eq (wfr ov.1)).mp hk).trans ow.2.2)
  | both x x' =>
    cases w with
    | removed y => exact h1 x rfl y rfl ((keyOf_eq (wfl ov.1)).mp hk)
    | added y => exact h2 x' rfl y rfl (ov.2.2.symm.trans ((keyOf_eq (wfl ov.1)).mp hk))
    | both y z => exact h1 x rfl y rfl ((keyOf_eq (wfl ov.1)).mp hk)

end Table

/-! ### C28 -/

theorem Table.changes_diff' (l r : Table α D) (hl : l.Reachable) (hr : r.Reachable) (e : D → D → Bool)
    (he : l.eq.getD (fun _ _ => false) = e) :
      (∀ {σ : Type} (cb : TableDiffCallbacks α D σ) (s : σ), l.diff r cb s = visit (Change.report e cb) (changes l r) s) ∧
      (changes l r).filterMap Change.left = l.listed ∧ (changes l r).filterMap Change.right = r.listed ∧
      (changes l r).Pairwise (fun c d => keyOf c.pfx ≠ keyOf d.pfx) ∧
      ∀ c ∈ (changes l r), match c with
        | .onlyLeft p v => l.get (.prefix p) = (v, true) ∧ (r.get (.prefix p)).2 = false
        | .onlyRight p v => (l.get (.prefix p)).2 = false ∧ r.get (.prefix p) = (v, true)
        | .both p v q w => keyOf p = keyOf q ∧ l.get (.prefix p) = (v, true) ∧ r.get (.prefix p) = (w, true) := by
  have ok := Trie.events_ok l.trie r.trie hl.good.inv hr.good.inv
  have wfl : ∀ {x}, x ∈ l.trie.entries → x.1.WF := fun h => hl.good.inv.entries_wf h
  have gl := fun p => get_spec hl.good (.prefix p)
  have gr := fun p => get_spec hr.good (.prefix p)
  have sl : ∀ {x}, x ∈ l.trie.entries → l.get (.prefix x.1) = (unbox x.2, true) := fun h =>
    (gl _).1 _ h (SameKey.refl _)
  have sr : ∀ {x}, x ∈ r.trie.entries → r.get (.prefix x.1) = (unbox x.2, true) := fun h =>
    (gr _).1 _ h (SameKey.refl _)
  refine ⟨fun cb s => diff_changes' hl.good hr.good he cb s, changes_left l r, changes_right l r, ?_, ?_⟩
  · exact changes_pairwise hl.good hr.good
  · intro c hc
    obtain ⟨v, hv, rfl⟩ := List.mem_map.mp hc
    have ov := ok v hv
    cases v with
    | removed x =>
      refine ⟨sl ov.1, ?_⟩
      rw [(gr x.1).2 fun y hy hs => ov.2 y hy hs.symm]
    | added x =>
      refine ⟨?_, sr ov.1⟩
      rw [(gl x.1).2 ov.2]
    | both x y =>
      refine ⟨(keyOf_eq (wfl ov.1)).mpr ov.2.2, sl ov.1, ?_⟩
      exact (gr x.1).1 y ov.2.1 ov.2.2.symm

theorem Table.changes_diff (l r : Table α D) (hl : l.Reachable) (hr : r.Reachable) (e : D → D → Bool)
    (he : l.eq = some e) :
      (∀ {σ : Type} (cb : TableDiffCallbacks α D σ) (s : σ), l.diff r cb s = visit (Change.report e cb) (changes l r) s) ∧
      (changes l r).filterMap Change.left = l.listed ∧ (changes l r).filterMap Change.right = r.listed ∧
      (changes l r).Pairwise (fun c d => keyOf c.pfx ≠ keyOf d.pfx) ∧
      ∀ c ∈ (changes l r), match c with
        | .onlyLeft p v => l.get (.prefix p) = (v, true) ∧ (r.get (.prefix p)).2 = false
        | .onlyRight p v => (l.get (.prefix p)).2 = false ∧ r.get (.prefix p) = (v, true)
        | .both p v q w => keyOf p = keyOf q ∧ l.get (.prefix p) = (v, true) ∧ r.get (.prefix p) = (w, true) :=
  Table.changes_diff' l r hl hr e (by rw [he]; rfl)

/-- `Diff` reports a list of changes (each change with the callback for its kind, until a callback
    returns false) that contains every entry of the left table once, every entry of the right table
    once, pairs the entries with the same key, and nothing else. -/
theorem C28_diff (l r : Table α D) (hl : l.Reachable) (hr : r.Reachable) (e : D → D → Bool)
    (he : l.eq = some e) :
    ∃ L : List (Change α D),
      (∀ {σ : Type} (cb : TableDiffCallbacks α D σ) (s : σ), l.diff r cb s = visit (Change.report e cb) L s) ∧
      L.filterMap Change.left = l.listed ∧ L.filterMap Change.right = r.listed ∧
      L.Pairwise (fun c d => keyOf c.pfx ≠ keyOf d.pfx) ∧
      ∀ c ∈ L, match c with
        | .onlyLeft p v => l.get (.prefix p) = (v, true) ∧ (r.get (.prefix p)).2 = false
        | .onlyRight p v => (l.get (.prefix p)).2 = false ∧ r.get (.prefix p) = (v, true)
        | .both p v q w => keyOf p = keyOf q ∧ l.get (.prefix p) = (v, true) ∧ r.get (.prefix p) = (w, true) :=
  ⟨changes l r, Table.changes_diff l r hl hr e he⟩


theorem foldl_apply (e : D → D → Bool) (L : List (Change α D)) :
    ∀ (m : PMap D), L.Pairwise (fun c d => keyOf c.pfx ≠ keyOf d.pfx) →
      (∀ κ, (∀ c ∈ L, keyOf c.pfx ≠ κ) → L.foldl (Change.apply e) m κ = m κ) ∧
      (∀ c ∈ L, L.foldl (Change.apply e) m (keyOf c.pfx) = Change.apply e m c (keyOf c.pfx)) := by
  have one : ∀ (m : PMap D) (c : Change α D) κ, keyOf c.pfx ≠ κ → Change.apply e m c κ = m κ := by
    intro m c κ h
    cases c with
    | onlyLeft p v => simp only [Change.apply, PMap.erase]; rw [if_neg (fun e => h e.symm)]
    | onlyRight p v => simp only [Change.apply, PMap.set]; rw [if_neg (fun e => h e.symm)]
    | both p v q w =>
      simp only [Change.apply]
      split
      · rfl
      · simp only [PMap.set]; rw [if_neg (fun e => h e.symm)]
  have congr : ∀ (m m' : PMap D) (c : Change α D), m (keyOf c.pfx) = m' (keyOf c.pfx) →
      Change.apply e m c (keyOf c.pfx) = Change.apply e m' c (keyOf c.pfx) := by
    intro m m' c h
    cases c with
    | onlyLeft p v => simp [Change.apply, PMap.erase, Change.pfx]
    | onlyRight p v => simp [Change.apply, PMap.set, Change.pfx]
    | both p v q w =>
      simp only [Change.apply]
      split
      · exact h
      · simp [PMap.set, Change.pfx]
  induction L with
  | nil => intro m _; exact ⟨fun _ _ => rfl, fun c hc => by cases hc⟩
  | cons c L ih =>
    intro m hp
    obtain ⟨hp1, hp2⟩ := List.pairwise_cons.mp hp
    obtain ⟨ih1, ih2⟩ := ih (Change.apply e m c) hp2
    constructor
    · intro κ h
      rw [List.foldl_cons, ih1 κ fun d hd => h d (List.mem_cons_of_mem _ hd), one _ _ _ (h c List.mem_cons_self)]
    · intro d hd
      rw [List.foldl_cons]
      rcases List.mem_cons.mp hd with rfl | hd
      · rw [ih1 _ fun d hd => Ne.symm (hp1 d hd)]
      · rw [ih2 d hd]
        exact congr _ _ _ (one _ _ _ (hp1 d hd))

theorem apply_changes (l r : Table α D) (hl : l.Reachable) (hr : r.Reachable) (e : D → D → Bool)
    (he : l.eq = some e) (m : PMap D) (hm : l.Shows m) (k : PrefixI α) (hk : k.toPrefix.WF) :
    match (Table.changes l r).foldl (Change.apply e) m (keyOf k.toPrefix) with
    | none => (r.get k).2 = false
    | some v => (r.get k).2 = true ∧ (v = (r.get k).1 ∨ e v (r.get k).1 = true) := by
  obtain ⟨_, h2, h3, h4, h5⟩ := Table.changes_diff l r hl hr e he
  generalize Table.changes l r = L at h2 h3 h4 h5
  obtain ⟨f1, f2⟩ := foldl_apply e L m h4
  have wfl : ∀ {p v}, (p, v) ∈ l.listed → p.WF := fun h => hl.good.inv.entries_wf ((mem_listed hl.good).mp h)
  have wfr : ∀ {p v}, (p, v) ∈ r.listed → p.WF := fun h => hr.good.inv.entries_wf ((mem_listed hr.good).mp h)
  have getcongr : ∀ (t : Table α D) (_ : t.Reachable) (p : Prefix α), p.WF → keyOf p = keyOf k.toPrefix →
      t.get (.prefix p) = t.get k := by
    intro t ht p hp hkey
    obtain ⟨m, hm⟩ := C23_shows t ht
    rw [hm k hk, hm (.prefix p) hp]
    simp only [PrefixI.toPrefix] at hkey ⊢
    rw [hkey]
  by_cases hc : ∃ c ∈ L, keyOf c.pfx = keyOf k.toPrefix
  · obtain ⟨c, hc, hkey⟩ := hc
    have ok := h5 c hc
    rw [← hkey, f2 c hc]
    cases c with
    | onlyLeft p v =>
      simp only [Change.apply, PMap.erase, Change.pfx, if_true]
      have : (p, v) ∈ l.listed := by rw [← h2]; exact List.mem_filterMap.mpr ⟨_, hc, rfl⟩
      rw [← getcongr r hr p (wfl this) hkey]
      exact ok.2
    | onlyRight p v =>
      simp only [Change.apply, PMap.set, Change.pfx, if_true]
      have : (p, v) ∈ r.listed := by rw [← h3]; exact List.mem_filterMap.mpr ⟨_, hc, rfl⟩
      rw [← getcongr r hr p (wfr this) hkey, ok.2]
      exact ⟨rfl, Or.inl rfl⟩
    | both p v q w =>
      have hp : (p, v) ∈ l.listed := by rw [← h2]; exact List.mem_filterMap.mpr ⟨_, hc, rfl⟩
      have hg := getcongr r hr p (wfl hp) hkey
      have hgl := getcongr l hl p (wfl hp) hkey
      simp only [Change.apply, Change.pfx]
      by_cases hvw : e v w = true
      · rw [if_pos hvw]
        have hmk := hm (.prefix p) (wfl hp)
        rw [ok.2.1] at hmk
        cases hmp : m (keyOf p) with
        | none => simp only [PrefixI.toPrefix, hmp] at hmk; simp at hmk
        | some v' =>
          simp only [PrefixI.toPrefix, hmp, Prod.mk.injEq, and_true] at hmk
          subst hmk
          rw [← hg, ok.2.2]
          exact ⟨rfl, Or.inr hvw⟩
      · rw [if_neg hvw]
        simp only [PMap.set, if_true]
        rw [← hg, ok.2.2]
        exact ⟨rfl, Or.inl rfl⟩
  · have hc : ∀ c ∈ L, keyOf c.pfx ≠ keyOf k.toPrefix := fun c h1 h2 => hc ⟨c, h1, h2⟩
    rw [f1 _ hc]
    have hlk : (l.get k).2 = false := by
      cases hg : (l.get k).2 with
      | false => rfl
      | true =>
        obtain ⟨p, hp, hkey⟩ := (C25_get l hl k (l.get k).1).mp (by rw [← hg])
        rw [← h2] at hp
        obtain ⟨c, hc', e'⟩ := List.mem_filterMap.mp hp
        have ok := h5 c hc'
        cases c with
        | onlyLeft p' v => injection e' with e'; injection e' with e1 e2; subst e1; exact absurd hkey (hc _ hc')
        | onlyRight p' v => cases e'
        | both p' v q w => injection e' with e'; injection e' with e1 e2; subst e1; exact absurd hkey (hc _ hc')
    have hrk : (r.get k).2 = false := by
      cases hg : (r.get k).2 with
      | false => rfl
      | true =>
        obtain ⟨p, hp, hkey⟩ := (C25_get r hr k (r.get k).1).mp (by rw [← hg])
        rw [← h3] at hp
        obtain ⟨c, hc', e'⟩ := List.mem_filterMap.mp hp
        have ok := h5 c hc'
        cases c with
        | onlyLeft p' v => cases e'
        | onlyRight p' v => injection e' with e'; injection e' with e1 e2; subst e1; exact absurd hkey (hc _ hc')
        | both p' v q w =>
          injection e' with e'; injection e' with e1 e2; subst e1
          exact absurd (ok.1.trans hkey) (hc _ hc')
    have := hm k hk
    cases hmk : m (keyOf k.toPrefix) with
    | none => exact hrk
    | some v => rw [hmk] at this; rw [this] at hlk; cases hlk

/-- Applying the reported changes to (the contents of) the left table yields the contents of the right
    table, up to values that compare equal. -/
theorem C28_apply (l r : Table α D) (hl : l.Reachable) (hr : r.Reachable) (e : D → D → Bool)
    (he : l.eq = some e) (m : PMap D) (hm : l.Shows m) :
    ∃ L : List (Change α D),
      (∀ {σ : Type} (cb : TableDiffCallbacks α D σ) (s : σ), l.diff r cb s = visit (Change.report e cb) L s) ∧
      ∀ k : PrefixI α, k.toPrefix.WF →
        match L.foldl (Change.apply e) m (keyOf k.toPrefix) with
        | none => (r.get k).2 = false
        | some v => (r.get k).2 = true ∧ (v = (r.get k).1 ∨ e v (r.get k).1 = true) :=
  ⟨Table.changes l r, (Table.changes_diff l r hl hr e he).1, apply_changes l r hl hr e he m hm⟩

/-! ### C29 -/

theorem Table.changes_order' (l r : Table α D) (hl : l.Reachable) (hr : r.Reachable) (e : D → D → Bool)
    (he : l.eq.getD (fun _ _ => false) = e) :
      (∀ {σ : Type} (cb : TableDiffCallbacks α D σ) (s : σ), l.diff r cb s = visit (Change.report e cb) (changes l r) s) ∧
      ((changes l r).filterMap Change.left).Pairwise (fun x y => LexBefore x.1 y.1) ∧
      ((changes l r).filterMap Change.right).Pairwise (fun x y => LexBefore x.1 y.1) ∧
      (changes l r).Pairwise (fun c d => ¬ ContainsP d.pfx c.pfx) ∧
      (((∀ x ∈ l.listed, (r.get (.prefix x.1)).2 = true) ∨ (∀ x ∈ r.listed, (l.get (.prefix x.1)).2 = true)) →
        (changes l r).Pairwise (fun c d => LexBefore c.pfx d.pfx)) := by
  refine ⟨fun cb s => diff_changes' hl.good hr.good he cb s, ?_, ?_, ?_, ?_⟩
  · rw [changes_left]; exact C27_sorted l hl
  · rw [changes_right]; exact C27_sorted r hr
  · unfold changes
    rw [List.pairwise_map]
    refine (Trie.events_parent_first l.trie r.trie hl.good.inv hr.good.inv).imp_of_mem fun {v w} hv hw h hc => h ?_
    have pv : (toChange w).pfx = w.pfx := by cases w <;> rfl
    have pw : (toChange v).pfx = v.pfx := by cases v <;> rfl
    rw [pv, pw] at hc
    obtain ⟨x, hx, ex⟩ := Trie.events_key hl.good.inv hr.good.inv hw
    refine (containsP_iff ?_).mp hc
    rw [← ex]
    rcases hx with hx | hx
    · exact hl.good.inv.entries_wf hx
    · exact hr.good.inv.entries_wf hx
  · intro hk
    have sub : ∀ (a b : Table α D), a.Reachable → b.Reachable →
        (∀ x ∈ a.listed, (b.get (.prefix x.1)).2 = true) → Trie.KeySub a.trie b.trie := by
      intro a b ha hb h x hx
      have hx' : (x.1, unbox x.2) ∈ a.listed := by rw [listed_eq]; exact List.mem_map.mpr ⟨x, hx, rfl⟩
      have hg := h _ hx'
      apply Classical.byContradiction
      intro hn
      rw [(get_spec hb.good (.prefix x.1)).2 fun y hy hs => hn ⟨y, hy, hs.symm⟩] at hg
      cases hg
    have ho : Trie.Ordered l.trie r.trie := by
      rcases hk with hk | hk
      · exact Or.inr (Or.inr (Or.inl (sub l r hl hr hk)))
      · exact Or.inr (Or.inr (Or.inr (sub r l hr hl hk)))
    unfold changes
    rw [List.pairwise_map]
    refine (Trie.events_sorted l.trie r.trie hl.good.inv hr.good.inv ho).imp_of_mem fun {v w} hv hw h => ?_
    have pv : (toChange w).pfx = w.pfx := by cases w <;> rfl
    have pw : (toChange v).pfx = v.pfx := by cases v <;> rfl
    rw [pv, pw]
    have wf : ∀ {v}, v ∈ l.trie.events r.trie → v.pfx.WF := by
      intro v hv
      obtain ⟨x, hx, ex⟩ := Trie.events_key hl.good.inv hr.good.inv hv
      rw [← ex]
      rcases hx with hx | hx
      · exact hl.good.inv.entries_wf hx
      · exact hr.good.inv.entries_wf hx
    exact h.lex (wf hv) (wf hw)

theorem Table.changes_order (l r : Table α D) (hl : l.Reachable) (hr : r.Reachable) (e : D → D → Bool)
    (he : l.eq = some e) :
      (∀ {σ : Type} (cb : TableDiffCallbacks α D σ) (s : σ), l.diff r cb s = visit (Change.report e cb) (changes l r) s) ∧
      ((changes l r).filterMap Change.left).Pairwise (fun x y => LexBefore x.1 y.1) ∧
      ((changes l r).filterMap Change.right).Pairwise (fun x y => LexBefore x.1 y.1) ∧
      (changes l r).Pairwise (fun c d => ¬ ContainsP d.pfx c.pfx) ∧
      (((∀ x ∈ l.listed, (r.get (.prefix x.1)).2 = true) ∨ (∀ x ∈ r.listed, (l.get (.prefix x.1)).2 = true)) →
        (changes l r).Pairwise (fun c d => LexBefore c.pfx d.pfx)) :=
  Table.changes_order' l r hl hr e (by rw [he]; rfl)

/-- Full statement: `L.Pairwise LexBefore` for all pairs of tables.  It is false
    (`C29_order_counterexample`).  What holds: two reported entries of the same table are in order, and
    nothing is reported before a prefix that contains it; and if all keys of one table are keys of the
    other, everything is in order. -/
theorem C29_order_partial (l r : Table α D) (hl : l.Reachable) (hr : r.Reachable) (e : D → D → Bool)
    (he : l.eq = some e) :
    ∃ L : List (Change α D),
      (∀ {σ : Type} (cb : TableDiffCallbacks α D σ) (s : σ), l.diff r cb s = visit (Change.report e cb) L s) ∧
      (L.filterMap Change.left).Pairwise (fun x y => LexBefore x.1 y.1) ∧
      (L.filterMap Change.right).Pairwise (fun x y => LexBefore x.1 y.1) ∧
      L.Pairwise (fun c d => ¬ ContainsP d.pfx c.pfx) ∧
      (((∀ x ∈ l.listed, (r.get (.prefix x.1)).2 = true) ∨ (∀ x ∈ r.listed, (l.get (.prefix x.1)).2 = true)) →
        L.Pairwise (fun c d => LexBefore c.pfx d.pfx)) :=
  ⟨changes l r, Table.changes_order l r hl hr e he⟩

end

namespace Sample
/-- {10.0.0.0/24 ↦ 1} -/
def d1 : Table (BitVec 32) Nat := (Table.new_.insert (.prefix ⟨0x0a000000#32, 24⟩) 1).1
/-- {11.0.0.0/8 ↦ 2} -/
def d2 : Table (BitVec 32) Nat := (Table.new_.insert (.prefix ⟨0x0b000000#32, 8⟩) 2).1
theorem d1_reachable : d1.Reachable := .step _ (.insert _ _) .new_ (by simp [Table.new_]) (by decide)
theorem d2_reachable : d2.Reachable := .step _ (.insert _ _) .new_ (by simp [Table.new_]) (by decide)
/-- callbacks that write down the prefixes they are called with -/
def record : TableDiffCallbacks (BitVec 32) Nat (List (Prefix (BitVec 32))) where
  changed := some fun p _ _ s => (s ++ [p], true)
  left := some fun p _ s => (s ++ [p], true)
  right := some fun p _ s => (s ++ [p], true)
  unchanged := some fun p _ s => (s ++ [p], true)
end Sample

/-- Diff of {10.0.0.0/24} and {11.0.0.0/8} reports 11.0.0.0/8 first. -/
theorem C29_order_counterexample : ∃ l r : Table (BitVec 32) Nat, l.Reachable ∧ r.Reachable ∧
    (l.diff r Sample.record []).1 = [⟨0x0b000000#32, 8⟩, ⟨0x0a000000#32, 24⟩] ∧
    LexBefore (⟨0x0a000000#32, 24⟩ : Prefix (BitVec 32)) ⟨0x0b000000#32, 8⟩ := by
  refine ⟨Sample.d1, Sample.d2, Sample.d1_reachable, Sample.d2_reachable, ?_, ?_⟩
  · rw [Table.diff_changes Sample.d1_reachable.good Sample.d2_reachable.good rfl]
    have e1 : Sample.d1.trie = .node ⟨0x0a000000#32, 24⟩ (some 1) 1 1 true .nil .nil := by decide
    have e2 : Sample.d2.trie = .node ⟨0x0b000000#32, 8⟩ (some 2) 1 1 true .nil .nil := by decide
    have hc : compareP (⟨0x0a000000#32, 24⟩ : Prefix (BitVec 32)) ⟨0x0b000000#32, 8⟩ = (.disjoint, true, 7, false) := by
      decide
    unfold Table.changes
    rw [e1, e2]
    simp only [Trie.events, hc, Trie.ev1, Trie.ev2]
    decide
  · unfold LexBefore; decide

/-- the hypotheses of C28 and C29 are met by tables with nested, shared, changed and new entries -/
example : Sample.tbl.Reachable ∧ (Sample.tbl.step (.update Sample.k26 8)).1.Reachable ∧
    Sample.tbl.eq = some (fun a b => decide (a = b)) ∧
    (∀ x ∈ Sample.tbl.listed, ((Sample.tbl.step (.update Sample.k26 8)).1.get (.prefix x.1)).2 = true) := by
  refine ⟨Sample.tbl_reachable, .step _ _ Sample.tbl_reachable ?_ (by decide), rfl, ?_⟩
  · simp [Sample.tbl, runOps, Sample.ops, Table.step, Table.new_, Table.insertOrUpdate, Table.getOrInsert]; decide
  · rw [Table.listed_eq]; decide

/-! ### C31 -/

section
variable {α D : Type} [LawfulGoWord α] [Inhabited D] [DecidableEq D]
open Table

/-- A mapper without side effects: the result has the same prefixes, in the same order, with the mapped
    values, except that a value that compares equal is kept. -/
theorem C31_map (t : Table α D) (ht : t.Reachable) (e : D → D → Bool) (he : t.eq = some e)
    (f : Prefix α → D → D) :
    (t.map (some fun p v (s : Unit) => (f p v, s)) ()).1.listed =
      t.listed.map fun x => (x.1, if e x.2 (f x.1 x.2) then x.2 else f x.1 x.2) := by
  rw [listed_eq, listed_eq]
  unfold pairs map
  have hs := ht.good.some
  revert hs
  generalize t.trie = u
  induction u with
  | nil => intro _; rfl
  | node p d n h act l r ihl ihr =>
    intro hs
    have ihl := ihl fun x hx => hs x (Trie.mem_node.mpr (Or.inr (Or.inl hx)))
    have ihr := ihr fun x hx => hs x (Trie.mem_node.mpr (Or.inr (Or.inr hx)))
    simp only at ihl ihr
    simp only [Trie.map, Trie.mk, Trie.entries, List.map_append, ihl, ihr]
    congr 1
    cases act with
    | false => rfl
    | true =>
      obtain ⟨v, hv⟩ := Option.isSome_iff_exists.mp (hs (p, d) (Trie.mem_node.mpr (Or.inl ⟨rfl, rfl⟩)))
      simp only at hv
      subst hv
      have hcmp : ∀ w, t.cmp (Option.some v) (Option.some w) = e v w := by
        intro w; simp only [cmp, he, Option.getD_some, liftEq]
      simp only [if_true, List.map_cons, List.map_nil, hcmp, unbox, Option.getD_some]
      cases e v (f p v) <;> rfl

/-- what `Map` calls the mapper for -/
def Table.mapNodes (t : Table α D) : List (Prefix α × D × Bool) := t.trie.allNodes.map fun n => (n.1, unbox n.2.1, n.2.2)

theorem Table.mapNodes_ok (t : Table α D) (ht : t.Reachable) (e : D → D → Bool) (he : t.eq = some e) :
    (t.mapNodes.filter fun n => n.2.2).map (fun n => (n.1, n.2.1)) = t.listed ∧
    ∀ {σ : Type} (f : Prefix α → D → σ → D × σ) (s : σ),
      t.mapNodes.foldl (mapCall e f) ([], s) = ((t.map (some f) s).1.listed, (t.map (some f) s).2) := by
  unfold mapNodes
  refine ⟨?_, fun {σ} f s => ?_⟩
  · rw [listed_eq, pairs, Trie.entries_allNodes]
    rw [List.filter_map, List.map_map, List.map_map]
    rfl
  · rw [listed_eq]
    unfold pairs map
    have hs := ht.good.some
    have key : ∀ (u : Trie α D) (s : σ) (L : List (Prefix α × D)), (∀ x, x ∈ u.entries → x.2.isSome = true) →
        (u.allNodes.map fun n => (n.1, unbox n.2.1, n.2.2)).foldl (mapCall e f) (L, s) =
        (L ++ ((u.map (fun p d s => let y := f p (unbox d) s; (Option.some y.1, y.2)) t.cmp s).1.entries.map
            fun x => (x.1, unbox x.2)),
          (u.map (fun p d s => let y := f p (unbox d) s; (Option.some y.1, y.2)) t.cmp s).2) := by
      intro u
      induction u with
      | nil => intro s L _; simp [Trie.allNodes, Trie.map, Trie.entries]
      | node p d n h act l r ihl ihr =>
        intro s L hs
        have ihl := fun s L => ihl s L fun x hx => hs x (Trie.mem_node.mpr (Or.inr (Or.inl hx)))
        have ihr := fun s L => ihr s L fun x hx => hs x (Trie.mem_node.mpr (Or.inr (Or.inr hx)))
        simp only [Trie.allNodes, List.map_cons, List.map_append, List.foldl_cons, List.foldl_append, mapCall]
        rw [ihl, ihr]
        simp only [Trie.map, Trie.mk, Trie.entries, List.map_append]
        cases act with
        | false => simp
        | true =>
          obtain ⟨v, hv⟩ := Option.isSome_iff_exists.mp (hs (p, d) (Trie.mem_node.mpr (Or.inl ⟨rfl, rfl⟩)))
          simp only at hv
          subst hv
          have hcmp : ∀ w, t.cmp (Option.some v) (Option.some w) = e v w := by
            intro w; simp only [cmp, he, Option.getD_some, liftEq]
          simp only [if_true, List.map_cons, List.map_nil, hcmp, unbox, Option.getD_some, List.append_assoc]
          have : ∀ c : Bool, (if c = true then Option.some v else Option.some (f p v s).1).getD default =
              if c = true then v else (f p v s).1 := fun c => by cases c <;> rfl
          rw [this]; rfl
    have := key t.trie s [] hs
    rw [List.nil_append] at this
    exact this

/-- Any mapper, also one with side effects: there is a list of nodes, of which the table's entries are
    exactly the active ones, in order; the mapper is called once for each, in order, and the values of
    the new table are the results of the calls.  Full statement: the mapper is called for entries only,
    i.e. `N` has active nodes only.  That is false (`C31_calls_counterexample`). -/
theorem C31_calls_partial (t : Table α D) (ht : t.Reachable) (e : D → D → Bool) (he : t.eq = some e) :
    ∃ N : List (Prefix α × D × Bool),
      (N.filter fun n => n.2.2).map (fun n => (n.1, n.2.1)) = t.listed ∧
      ∀ {σ : Type} (f : Prefix α → D → σ → D × σ) (s : σ),
        N.foldl (mapCall e f) ([], s) = ((t.map (some f) s).1.listed, (t.map (some f) s).2) :=
  ⟨t.mapNodes, Table.mapNodes_ok t ht e he⟩

/-- a nil mapper returns the table itself -/
theorem C31_nil {σ : Type} (t : Table α D) (s : σ) : t.map none s = (t, s) := rfl

end

/-- The mapper is called for 10.0.0.0/24, which is not an entry of the table
    {10.0.0.0/25, 10.0.0.128/25}. -/
theorem C31_calls_counterexample : ∃ t : Table (BitVec 32) Nat, t.Reachable ∧
    (t.get (.prefix ⟨0x0a000000#32, 24⟩)).2 = false ∧
    (t.map (some fun p v s => (v, s ++ [p])) []).2 =
      [⟨0x0a000000#32, 24⟩, ⟨0x0a000000#32, 25⟩, ⟨0x0a000080#32, 25⟩] := by
  refine ⟨(runOps Table.step Table.new_ [.insert Sample.k25a 1, .insert Sample.k25b 2]).1,
    (Sample.run_reachable _ _ .new_ (by simp [Table.new_]) (by decide)).1, by decide, by decide⟩

example : (Sample.tbl.map (some fun p v (s : Unit) => (v + p.len, s)) ()).1.listed.map (fun x => (x.1.len, x.2)) =
    [(0, 9), (32, 35), (25, 26), (26, 28)] := by
  rw [Table.listed_eq]; decide

end Addrs

import Verif.SpecTable
import Verif.TableAgg
import Verif.TableDiff
/-
  From tries to the table API.
-/
namespace Addrs
open GoWord LawfulGoWord

section
variable {α D : Type} [LawfulGoWord α]

theorem keyOf_eq {p q : Prefix α} (hp : p.WF) : keyOf p = keyOf q ↔ SameKey p q := by
  unfold keyOf SameKey
  rw [Prod.mk.injEq]
  constructor
  · rintro ⟨h1, h2⟩
    refine ⟨h1, (agree_iff_div hp).mpr ?_⟩
    unfold blockSize at h2
    rw [h2, h1]
  · rintro ⟨h1, h2⟩
    refine ⟨h1, ?_⟩
    have := (agree_iff_div hp).mp h2
    unfold blockSize
    rw [this, h1]

theorem containsP_iff {p q : Prefix α} (hp : p.WF) : ContainsP p q ↔ SubEq p q := by
  unfold ContainsP SubEq
  rw [inPrefix_iff hp]
  rfl

namespace Table

/-- what holds of every table trie -/
structure Good (t : Table α D) : Prop where
  inv : t.trie.TInv
  some : ∀ x, x ∈ t.trie.entries → x.2.isSome = true

variable [Inhabited D]

theorem get_spec {t : Table α D} (ht : t.Good) (k : PrefixI α) :
    (∀ x, x ∈ t.trie.entries → SameKey x.1 k.toPrefix → t.get k = (unbox x.2, true)) ∧
    ((∀ x, x ∈ t.trie.entries → ¬ SameKey x.1 k.toPrefix) → t.get k = (default, false)) := by
  have ms := Trie.match_spec k.toPrefix _ ht.inv
  constructor
  · intro x hx hs
    unfold get longestMatch'
    rw [PrefixI.code_eq]
    cases hm : t.trie.match k.toPrefix with
    | none => exact absurd hs.subEq (ms.2 hm x hx)
    | some y =>
      obtain ⟨y1, y2, y3⟩ := ms.1 y hm
      have h1 := y3 x hx hs.subEq
      have hlen : y.1.len = k.toPrefix.len := by have := h1.1; have := y2.1; have := hs.1; omega
      have : SameKey y.1 x.1 := SameKey.trans (y2.sameKey (by omega)) hs.symm
      have := ht.inv.unique y1 hx this
      subst this
      simp [hlen]
  · intro h
    unfold get longestMatch'
    rw [PrefixI.code_eq]
    cases hm : t.trie.match k.toPrefix with
    | none => rfl
    | some y =>
      obtain ⟨y1, y2, y3⟩ := ms.1 y hm
      have : ¬ y.1.len = k.toPrefix.len := fun e => h y y1 (y2.sameKey (by omega))
      simp [this]

/-- the entries, unboxed -/
def pairs (t : Table α D) : List (Prefix α × D) := t.trie.entries.map fun x => (x.1, unbox x.2)

theorem walk_pairs {σ : Type} (t : Table α D) (cb : Prefix α → D → σ → σ × Bool) (s : σ) :
    t.walk cb s = visit (fun x => cb x.1 x.2) t.pairs s := by
  unfold walk pairs
  rw [Trie.walk_eq, visit_map]

theorem listed_eq (t : Table α D) : t.listed = t.pairs := by
  unfold listed
  rw [walk_pairs]
  have : ∀ (L acc : List (Prefix α × D)),
      (visit (fun x acc => (acc ++ [(x.1, x.2)], true)) L acc).1 = acc ++ L := by
    intro L
    induction L with
    | nil => intro acc; simp [visit]
    | cons x L ih => intro acc; simp [visit, ih]
  rw [this]
  rfl

/-- the state of a table and a plain map agree -/
structure Repr (t : Table α D) (m : PMap D) : Prop where
  good : t.Good
  eqv : ∀ p : Prefix α, p.WF → ∀ v, m (keyOf p) = some v ↔
    ∃ x, x ∈ t.trie.entries ∧ SameKey x.1 p ∧ x.2 = some v

theorem Repr.some {t : Table α D} {m : PMap D} (h : Repr t m) {k : Prefix α} (hk : k.WF) {v : D}
    (hv : m (keyOf k) = some v) : ∃ x, x ∈ t.trie.entries ∧ SameKey x.1 k ∧ x.2 = some v :=
  (h.eqv k hk v).mp hv

theorem Repr.none {t : Table α D} {m : PMap D} (h : Repr t m) {k : Prefix α} (hk : k.WF)
    (hv : m (keyOf k) = none) : ∀ x, x ∈ t.trie.entries → ¬ SameKey x.1 k := by
  intro x hx hs
  obtain ⟨v, hv'⟩ := Option.isSome_iff_exists.mp (h.good.some x hx)
  have := (h.eqv k hk v).mpr ⟨x, hx, hs, hv'⟩
  rw [hv] at this; cases this

/-- adding or replacing an entry -/
theorem Repr.put {t : Table α D} {m : PMap D} (h : Repr t m) {k : Prefix α} (hk : k.WF) {v : D}
    {n : Trie α D} {e} (hi : n.TInv)
    (hm : ∀ y, y ∈ n.entries ↔ (y ∈ t.trie.entries ∧ ¬ SameKey y.1 k) ∨ y = (k, Option.some v)) :
    Repr (⟨n, e⟩ : Table α D) (m.set (keyOf k) v) := by
  constructor
  · refine ⟨hi, fun x hx => ?_⟩
    rcases (hm x).mp hx with ⟨hx, _⟩ | rfl
    · exact h.good.some x hx
    · rfl
  · intro p hp w
    unfold PMap.set
    by_cases hkp : keyOf p = keyOf k
    · rw [if_pos hkp]
      have hs : SameKey p k := (keyOf_eq hp).mp hkp
      constructor
      · intro e
        injection e with e
        subst e
        exact ⟨(k, Option.some v), (hm _).mpr (Or.inr rfl), hs.symm, rfl⟩
      · rintro ⟨x, hx, hxs, hxv⟩
        rcases (hm x).mp hx with ⟨_, hn⟩ | rfl
        · exact absurd (hxs.trans hs) hn
        · exact hxv
    · rw [if_neg hkp, h.eqv p hp w]
      have hs : ¬ SameKey p k := fun hs => hkp ((keyOf_eq hp).mpr hs)
      constructor
      · rintro ⟨x, hx, hxs, hxv⟩
        exact ⟨x, (hm x).mpr (Or.inl ⟨hx, fun e => hs (hxs.symm.trans e)⟩), hxs, hxv⟩
      · rintro ⟨x, hx, hxs, hxv⟩
        rcases (hm x).mp hx with ⟨hx, _⟩ | rfl
        · exact ⟨x, hx, hxs, hxv⟩
        · exact absurd hxs.symm hs

theorem Repr.same {t : Table α D} {m : PMap D} (h : Repr t m) {n : Trie α D} {e} (hi : n.TInv)
    (hm : ∀ y, y ∈ n.entries ↔ y ∈ t.trie.entries) : Repr (⟨n, e⟩ : Table α D) m :=
  ⟨⟨hi, fun x hx => h.good.some x ((hm x).mp hx)⟩, fun p hp v => by
    rw [h.eqv p hp v]
    constructor
    · rintro ⟨x, hx, hh⟩; exact ⟨x, (hm x).mpr hx, hh⟩
    · rintro ⟨x, hx, hh⟩; exact ⟨x, (hm x).mp hx, hh⟩⟩

theorem Repr.drop {t : Table α D} {m : PMap D} (h : Repr t m) {k : Prefix α} (hk : k.WF)
    {n : Trie α D} {e} (hi : n.TInv)
    (hm : ∀ y, y ∈ n.entries ↔ y ∈ t.trie.entries ∧ ¬ SameKey y.1 k) :
    Repr (⟨n, e⟩ : Table α D) (m.erase (keyOf k)) := by
  constructor
  · exact ⟨hi, fun x hx => h.good.some x ((hm x).mp hx).1⟩
  · intro p hp w
    unfold PMap.erase
    by_cases hkp : keyOf p = keyOf k
    · rw [if_pos hkp]
      have hs : SameKey p k := (keyOf_eq hp).mp hkp
      constructor
      · intro e; cases e
      · rintro ⟨x, hx, hxs, _⟩
        exact absurd (hxs.trans hs) ((hm x).mp hx).2
    · rw [if_neg hkp, h.eqv p hp w]
      have hs : ¬ SameKey p k := fun hs => hkp ((keyOf_eq hp).mpr hs)
      constructor
      · rintro ⟨x, hx, hxs, hxv⟩
        exact ⟨x, (hm x).mpr ⟨hx, fun e => hs (hxs.symm.trans e)⟩, hxs, hxv⟩
      · rintro ⟨x, hx, hxs, hxv⟩
        exact ⟨x, ((hm x).mp hx).1, hxs, hxv⟩

theorem Repr.erase_none {t : Table α D} {m : PMap D} (h : Repr t m) {k : Prefix α} (hk : k.WF)
    (hv : m (keyOf k) = Option.none) : Repr t (m.erase (keyOf k)) := by
  have := h.drop hk (e := t.eq) h.good.inv (fun y => ⟨fun hy => ⟨hy, h.none hk hv y hy⟩, fun hy => hy.1⟩)
  exact this

theorem step_spec {t : Table α D} {m : PMap D} (h : Repr t m) {e : D → D → Bool} (he : t.eq = Option.some e)
    (o : TableOp α D) (hk : o.key.toPrefix.WF) :
    Repr (t.step o).1 (m.step e o).1 ∧ (t.step o).1.eq = Option.some e ∧ ResultOk (t.step o).2 (m.step e o).2 := by
  have hcmp : ∀ a b, t.cmp (Option.some a) (Option.some b) = e a b := by
    intro a b; simp only [cmp, he, Option.getD_some, liftEq]
  cases o with
  | insert k v =>
    have hk : k.toPrefix.WF := hk
    have is := Trie.insert_spec ⟨true, false, fun _ _ => false⟩ k.toPrefix hk (Option.some v) t.trie h.good.inv
    simp only [step, PMap.step, insert, PrefixI.code_eq]
    cases hm : m (keyOf k.toPrefix) with
    | some w =>
      obtain ⟨x, hx, hs, hv⟩ := h.some hk hm
      rw [(is.found x hx hs).1 rfl]
      exact ⟨h, he, rfl⟩
    | none =>
      obtain ⟨n, hn, hn'⟩ := (is.absent (h.none hk hm)).2 rfl
      rw [hn]
      refine ⟨h.put hk (is.inv n hn).1 fun y => ?_, he, rfl⟩
      rw [hn']
      exact or_congr ⟨fun hy => ⟨hy, h.none hk hm y hy⟩, fun hy => hy.1⟩ Iff.rfl
  | update k v =>
    have hk : k.toPrefix.WF := hk
    have is := Trie.insert_spec ⟨false, true, t.cmp⟩ k.toPrefix hk (Option.some v) t.trie h.good.inv
    simp only [step, PMap.step, update, PrefixI.code_eq]
    cases hm : m (keyOf k.toPrefix) with
    | some w =>
      obtain ⟨x, hx, hs, hv⟩ := h.some hk hm
      obtain ⟨n, hn, hn'⟩ := (is.found x hx hs).2 rfl
      rw [hn]
      simp only [hv, hcmp] at hn'
      refine ⟨h.put hk (is.inv n hn).1 fun y => ?_, he, rfl⟩
      rw [hn']
      cases e w v <;> rfl
    | none =>
      rw [(is.absent (h.none hk hm)).1 rfl]
      exact ⟨h, he, rfl⟩
  | insertOrUpdate k v =>
    have hk : k.toPrefix.WF := hk
    have is := Trie.insert_spec ⟨true, true, t.cmp⟩ k.toPrefix hk (Option.some v) t.trie h.good.inv
    simp only [step, PMap.step, insertOrUpdate, PrefixI.code_eq]
    cases hm : m (keyOf k.toPrefix) with
    | some w =>
      obtain ⟨x, hx, hs, hv⟩ := h.some hk hm
      obtain ⟨n, hn, hn'⟩ := (is.found x hx hs).2 rfl
      rw [hn]
      simp only [hv, hcmp] at hn'
      refine ⟨h.put hk (is.inv n hn).1 fun y => ?_, he, rfl⟩
      rw [hn']
      cases e w v <;> rfl
    | none =>
      obtain ⟨n, hn, hn'⟩ := (is.absent (h.none hk hm)).2 rfl
      rw [hn]
      refine ⟨h.put hk (is.inv n hn).1 fun y => ?_, he, rfl⟩
      rw [hn']
      exact or_congr ⟨fun hy => ⟨hy, h.none hk hm y hy⟩, fun hy => hy.1⟩ Iff.rfl
  | get k =>
    have hk : k.toPrefix.WF := hk
    simp only [step, PMap.step]
    cases hm : m (keyOf k.toPrefix) with
    | some w =>
      obtain ⟨x, hx, hs, hv⟩ := h.some hk hm
      rw [(get_spec h.good k).1 x hx hs, hv]
      exact ⟨h, he, rfl⟩
    | none =>
      rw [(get_spec h.good k).2 (h.none hk hm)]
      exact ⟨h, he, rfl⟩
  | getOrInsert k v =>
    have hk : k.toPrefix.WF := hk
    have gs := Trie.getOrInsert_spec k.toPrefix hk (Option.some v) t.trie h.good.inv
    have is := Trie.insert_spec ⟨true, false, fun _ _ => false⟩ k.toPrefix hk (Option.some v) t.trie h.good.inv
    simp only [step, PMap.step, getOrInsert, PrefixI.code_eq]
    cases hm : m (keyOf k.toPrefix) with
    | some w =>
      obtain ⟨x, hx, hs, hv⟩ := h.some hk hm
      rw [gs.1 x hx hs, hv]
      exact ⟨h, he, rfl⟩
    | none =>
      obtain ⟨n, hn, hg⟩ := gs.2 (h.none hk hm)
      obtain ⟨n', hn1, hn'⟩ := (is.absent (h.none hk hm)).2 rfl
      rw [hn] at hn1
      injection hn1 with hn1
      subst hn1
      rw [hg]
      refine ⟨h.put hk (is.inv n hn).1 fun y => ?_, he, rfl⟩
      rw [hn']
      exact or_congr ⟨fun hy => ⟨hy, h.none hk hm y hy⟩, fun hy => hy.1⟩ Iff.rfl
  | remove k =>
    have hk : k.toPrefix.WF := hk
    have ds := Trie.del_spec k.toPrefix hk t.trie h.good.inv
    simp only [step, PMap.step, remove, PrefixI.code_eq]
    cases hm : m (keyOf k.toPrefix) with
    | some w =>
      obtain ⟨x, hx, hs, hv⟩ := h.some hk hm
      obtain ⟨n, hn, hn'⟩ := ds.found x hx hs
      rw [hn]
      exact ⟨h.drop hk (ds.inv n hn).1 hn', he, fun _ => rfl⟩
    | none =>
      rcases ds.absent (h.none hk hm) with ⟨hn, _⟩ | ⟨n, hn, hn', _⟩
      · rw [hn]
        exact ⟨h.erase_none hk hm, he, fun h => by cases h⟩
      · rw [hn]
        exact ⟨(h.same (ds.inv n hn).1 hn').erase_none hk hm, he, fun h => by cases h⟩

/-- the map a good table stands for -/
noncomputable def abs (t : Table α D) : PMap D := fun k =>
  open Classical in
  if h : ∃ x, x ∈ t.trie.entries ∧ keyOf x.1 = k then (Classical.choose h).2 else Option.none

theorem repr_abs {t : Table α D} (ht : t.Good) : Repr t t.abs := by
  refine ⟨ht, fun p hp v => ?_⟩
  unfold abs
  by_cases h : ∃ x, x ∈ t.trie.entries ∧ keyOf x.1 = keyOf p
  · rw [dif_pos h]
    have hs := Classical.choose_spec h
    generalize Classical.choose h = y at *
    have hy : SameKey y.1 p := (keyOf_eq (ht.inv.entries_wf hs.1)).mp hs.2
    constructor
    · intro hv; exact ⟨y, hs.1, hy, hv⟩
    · rintro ⟨x, hx, hxs, hxv⟩
      rw [ht.inv.unique hs.1 hx (hy.trans hxs.symm)]
      exact hxv
  · rw [dif_neg h]
    constructor
    · intro e; cases e
    · rintro ⟨x, hx, hxs, _⟩
      exact absurd ⟨x, hx, (keyOf_eq (ht.inv.entries_wf hx)).mpr hxs⟩ h

theorem Shows.repr {t : Table α D} (ht : t.Good) {m : PMap D} (h : t.Shows m) : Repr t m := by
  refine ⟨ht, fun p hp v => ?_⟩
  have hg := h (.prefix p) hp
  have gs := get_spec ht (.prefix p)
  constructor
  · intro hv
    rw [show m (keyOf (PrefixI.prefix p).toPrefix) = Option.some v from hv] at hg
    by_cases hx : ∃ x, x ∈ t.trie.entries ∧ SameKey x.1 p
    · obtain ⟨x, hx, hs⟩ := hx
      rw [gs.1 x hx hs] at hg
      obtain ⟨w, hw⟩ := Option.isSome_iff_exists.mp (ht.some x hx)
      refine ⟨x, hx, hs, ?_⟩
      simp only [hw, unbox, Option.getD_some, Prod.mk.injEq] at hg
      rw [hw, hg.1]
    · rw [gs.2 fun x hx' hs => hx ⟨x, hx', hs⟩] at hg
      simp at hg
  · rintro ⟨x, hx, hs, hv⟩
    rw [gs.1 x hx hs, hv] at hg
    cases hm : m (keyOf p) with
    | some w =>
      rw [show m (keyOf (PrefixI.prefix p).toPrefix) = Option.some w from hm] at hg
      simp only [unbox, Option.getD_some, Prod.mk.injEq, and_true] at hg
      rw [hg]
    | none =>
      rw [show m (keyOf (PrefixI.prefix p).toPrefix) = Option.none from hm] at hg
      simp at hg

theorem Repr.shows {t : Table α D} {m : PMap D} (h : Repr t m) : t.Shows m := by
  intro k hk
  cases hm : m (keyOf k.toPrefix) with
  | some w =>
    obtain ⟨x, hx, hs, hv⟩ := h.some hk hm
    rw [(get_spec h.good k).1 x hx hs, hv]
    rfl
  | none => rw [(get_spec h.good k).2 (h.none hk hm)]

theorem run_spec {e : D → D → Bool} (ops : List (TableOp α D)) : ∀ {t : Table α D} {m : PMap D}, Repr t m →
    t.eq = Option.some e → (∀ o ∈ ops, o.key.toPrefix.WF) →
    Repr (runOps Table.step t ops).1 (runOps (PMap.step e) m ops).1 ∧
    ResultsOk (runOps Table.step t ops).2 (runOps (PMap.step e) m ops).2 := by
  induction ops with
  | nil => intro t m h _ _; exact ⟨h, trivial⟩
  | cons o ops ih =>
    intro t m h he hk
    obtain ⟨h1, h2, h3⟩ := step_spec h he o (hk o List.mem_cons_self)
    obtain ⟨h4, h5⟩ := ih h1 h2 fun o ho => hk o (List.mem_cons_of_mem _ ho)
    exact ⟨h4, h3, h5⟩

theorem CmpOk.eqOk [DecidableEq D] {t : Table α D} (h : t.CmpOk) : Trie.EqOk t.cmp goEq := by
  obtain ⟨e, he, h1, h2, h3⟩ := h
  have hc : t.cmp = liftEq e := by simp only [cmp, he, Option.getD_some]
  rw [hc]
  refine ⟨⟨fun {x y} h => ?_, fun {x y z} h h' => ?_, fun {x y} h => ?_⟩, fun x => ?_⟩
  · cases x <;> cases y <;> simp_all [liftEq]
  · cases x <;> cases y <;> cases z <;> simp only [liftEq] at * <;> first | exact h3 _ _ _ h h' | trivial | simp_all
  · simp only [goEq, decide_eq_true_eq] at h
    subst h
    cases x <;> simp [liftEq, h1]
  · cases x <;> simp [liftEq, h1]

/-- the trie of `Map` -/
theorem map_good {σ : Type} {t : Table α D} (ht : t.Good) (f : Option (Prefix α → D → σ → D × σ)) (s : σ) :
    (t.map f s).1.Good := by
  cases f with
  | none => exact ht
  | some f =>
    refine ⟨(Trie.map_tinv _ _ ht.inv s).1, fun x hx => ?_⟩
    simp only [map] at hx
    have key : ∀ (u : Trie α D) (s : σ), (∀ x, x ∈ u.entries → x.2.isSome = true) →
        ∀ x, x ∈ (Trie.map (fun p d s => let y := f p (unbox d) s; (Option.some y.1, y.2)) t.cmp u s).1.entries →
        x.2.isSome = true := by
      intro u
      induction u with
      | nil => intro s _ x hx; cases hx
      | node p d n h act l r ihl ihr =>
        intro s hu x hx
        rcases Trie.mem_mk.mp hx with ⟨ha, rfl⟩ | hx | hx
        · simp only
          split
          · exact hu (p, d) (Trie.mem_node.mpr (Or.inl ⟨ha, rfl⟩))
          · rfl
        · exact ihl _ (fun x hx => hu x (Trie.mem_node.mpr (Or.inr (Or.inl hx)))) x hx
        · exact ihr _ (fun x hx => hu x (Trie.mem_node.mpr (Or.inr (Or.inr hx)))) x hx
    exact key _ _ ht.some x hx

/-- symmetric and transitive comparisons -/
theorem eqPer {e : D → D → Bool} (h2 : ∀ x y, e x y = e y x) (h3 : ∀ x y z, e x y = true → e y z = true → e x z = true) :
    Trie.EqPer (liftEq e) (liftEq e) := by
  refine ⟨fun {x y} h => ?_, fun {x y z} h h' => ?_, fun h => h⟩
  · cases x <;> cases y <;> simp_all [liftEq]
  · cases x <;> cases y <;> cases z <;> simp only [liftEq] at * <;> first | exact h3 _ _ _ h h' | trivial | simp_all

theorem aggregateBy_good {geq : Option D → Option D → Bool} {t : Table α D} (ht : t.Good) (hp : Trie.EqPer t.cmp geq) {e : Option (D → D → Bool)} :
    (⟨(t.aggregateBy geq).trie, e⟩ : Table α D).Good := by
  refine ⟨(Trie.aggregate_tinv hp ht.inv Option.none).1, fun x hx => ?_⟩
  obtain ⟨y, hy, -, -, he⟩ := Trie.aggregate_entries hp ht.inv Option.none x hx x.1.addr (Covers.self _)
  have := ht.some y hy
  simp only [cmp] at he
  rcases he with he | he
  · rw [he]; exact this
  cases hx2 : x.2 with
  | some w => rfl
  | none =>
    rw [hx2] at he
    cases hy2 : y.2 with
    | some w => rw [hy2] at he; simp [liftEq] at he
    | none => rw [hy2] at this; simp at this

theorem aggregate_good [DecidableEq D] {t : Table α D} (ht : t.Good) (hc : t.CmpOk) : t.aggregate.Good :=
  aggregateBy_good ht hc.eqOk.toEqPer

theorem Reachable.good [DecidableEq D] {t : Table α D} (h : t.Reachable) : t.Good := by
  induction h with
  | empty => exact ⟨.empty, fun x hx => by cases hx⟩
  | new_ => exact ⟨.empty, fun x hx => by cases hx⟩
  | newCustom cmp => exact ⟨.empty, fun x hx => by cases hx⟩
  | step t o _ he hk ih =>
    obtain ⟨e, he⟩ := Option.ne_none_iff_exists'.mp he
    exact (step_spec (repr_abs ih) he o hk).1.good
  | map t f s _ ih => exact map_good ih f s
  | aggregate t _ hc ih => exact aggregate_good ih hc
  | table_ t _ ih => exact ⟨ih.inv, ih.some⟩
  | aggregateBy t e _ he symm trans ih =>
    refine aggregateBy_good ih ?_
    have : t.cmp = liftEq e := by simp only [cmp, he, Option.getD_some]
    rw [this]
    exact eqPer symm trans

/-- the entries as API pairs -/
theorem mem_listed {t : Table α D} (ht : t.Good) {p : Prefix α} {v : D} :
    (p, v) ∈ t.listed ↔ (p, Option.some v) ∈ t.trie.entries := by
  rw [listed_eq, pairs, List.mem_map]
  constructor
  · rintro ⟨x, hx, e⟩
    obtain ⟨w, hw⟩ := Option.isSome_iff_exists.mp (ht.some x hx)
    simp only [Prod.mk.injEq] at e
    obtain ⟨rfl, rfl⟩ := e
    rw [hw]
    simp only [unbox, Option.getD_some]
    rw [← hw]; exact hx
  · intro h
    exact ⟨_, h, rfl⟩

end Table
end
end Addrs

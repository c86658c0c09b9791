import Verif.PropConcMix
/-
  Property C36 for tables whose entries keep the same span: writes of all kinds that overlap in any way take
  effect atomically or panic, as long as the smallest prefix that contains all the entries stays the same.
-/
set_option linter.unusedSectionVars false
namespace Addrs
open GoWord LawfulGoWord

section
variable {α D : Type} [LawfulGoWord α]

namespace Trie

/-- a prefix contains all entries iff it contains the root -/
theorem TInv.spans {p : Prefix α} {d : Option D} {n h : Nat} {act : Bool} {l r : Trie α D}
    (hi : TInv (.node p d n h act l r)) (q : Prefix α) :
    (∀ x ∈ (Trie.node p d n h act l r).entries, SubEq q x.1) ↔ SubEq q p := by
  constructor
  · intro hq
    obtain ⟨_, il, ir, hl, hr, two, e⟩ := hi.inv
    rw [e] at hq
    cases act with
    | true => exact hq (p, d) (mem_mk.mpr (Or.inl ⟨rfl, rfl⟩))
    | false =>
      obtain ⟨x, hx⟩ := hl.exists_entry (two rfl).1
      obtain ⟨y, hy⟩ := hr.exists_entry (two rfl).2
      have h1 := hl.side il hx
      have h2 := hr.side ir hy
      have h3 := hq x (mem_mk.mpr (Or.inr (Or.inl hx)))
      have h4 := hq y (mem_mk.mpr (Or.inr (Or.inr hy)))
      have hle : q.len ≤ p.len := by
        apply Nat.le_of_not_lt
        intro hlt
        have e1 := h3.2 p.len hlt
        have e2 := h4.2 p.len hlt
        rw [h1.side] at e1
        rw [h2.side] at e2
        rw [e1] at e2
        cases e2
      exact ⟨hle, h3.2.trans (h1.agree.symm.mono hle)⟩
  · intro hq x hx
    exact hq.trans (hi.subEq rfl hx)

/-- a child does not span what its parent spans -/
theorem TInv.child_spans {p : Prefix α} {d : Option D} {n h : Nat} {act : Bool} {l r c : Trie α D}
    (hi : TInv (.node p d n h act l r)) (hc : c = l ∨ c = r) :
    ∃ q : Prefix α, q.WF ∧ (∀ x ∈ c.entries, SubEq q x.1) ∧ ¬ ∀ x ∈ (Trie.node p d n h act l r).entries, SubEq q x.1 := by
  obtain ⟨wf, il, ir, hl, hr, two, e⟩ := hi.inv
  cases c with
  | nil =>
    obtain ⟨x, hx⟩ := hi.exists_entry (by intro h; cases h)
    have hw : 1 ≤ width α := width_pos
    have key : ∀ a : α, bit a 0 ≠ bit x.1.addr 0 →
        ∃ q : Prefix α, q.WF ∧ (∀ x ∈ (Trie.nil : Trie α D).entries, SubEq q x.1) ∧
          ¬ ∀ x ∈ (Trie.node p d n h act l r).entries, SubEq q x.1 := by
      intro a ha
      exact ⟨⟨a, 1⟩, hw, (fun _ h => by cases h), fun hh => ha ((hh x hx).2 0 (by show 0 < 1; omega))⟩
    cases hb : bit x.1.addr 0 with
    | false => exact key ones (by rw [hb, bit_ones hw]; simp)
    | true => exact key zero (by rw [hb, bit_zero]; simp)
  | node q dq nq hq aq lq rq =>
    have hq' : TInv (.node q dq nq hq aq lq rq) ∧ p.len < q.len := by
      rcases hc with rfl | rfl
      · exact ⟨hl, Sub.lt il⟩
      · exact ⟨hr, Sub.lt ir⟩
    refine ⟨q, hq'.1.inv.1, (hq'.1.spans q).mpr (SubEq.refl q), fun hh => ?_⟩
    have := ((hi.spans q).mp hh).1
    omega

end Trie

variable [Inhabited D]

/-- every entry of the table lies in `q` -/
def Table.In (T : Table α D) (q : Prefix α) : Prop := ∀ e ∈ T.listed, ContainsP q e.1

/-- the entries of both tables have the same span: they lie in the same prefixes (so the smallest prefix that
    contains all the entries is the same) -/
def Table.SameSpan (T T' : Table α D) : Prop := ∀ q : Prefix α, q.WF → (T.In q ↔ T'.In q)

theorem Table.in_iff {T : Table α D} {q : Prefix α} (hq : q.WF) : T.In q ↔ ∀ x ∈ T.trie.entries, SubEq q x.1 := by
  unfold Table.In
  rw [Table.listed_eq]
  unfold Table.pairs
  constructor
  · intro h x hx
    exact (containsP_iff hq).mp (h _ (List.mem_map.mpr ⟨x, hx, rfl⟩))
  · intro h e he
    obtain ⟨x, hx, rfl⟩ := List.mem_map.mp he
    exact (containsP_iff hq).mpr (h x hx)

theorem Table.SameSpan.not_child {T T' : Table α D} (hT : T.trie.TInv) (hs : T.SameSpan T') {v : View α D} {p q : Ptr}
    (h1 : Den v p T.trie) (h2 : Den v q T'.trie) : ¬ Heap.ChildOf v p q := by
  rintro ⟨a, c, rfl, hv, hc⟩
  generalize ht : T.trie = t at h1
  cases h1 with
  | node h hl hr =>
    rw [hv] at h
    cases h
    rw [ht] at hT
    have hc' : T'.trie = _ ∨ T'.trie = _ := hc.imp (fun e => (e ▸ h2).functional hl) (fun e => (e ▸ h2).functional hr)
    obtain ⟨q, hq, g1, g2⟩ := hT.child_spans hc'
    refine g2 ?_
    rw [← ht]
    exact (Table.in_iff hq).mp ((hs q hq).mpr ((Table.in_iff hq).mpr g1))

end

section
variable {α D σ : Type} [LawfulGoWord α] [Inhabited D] [Comparable D] {F : Nat}

/-- The span of the entries of table `o` has been the same since time `t`. -/
def SteadySpan (s : TState α D σ F) (o t : Nat) : Prop :=
  ∀ k k' ob ob' T T', t ≤ k → t ≤ k' → objAt s.log k o = some ob → objAt s.log k' o = some ob' →
    ob.Is s.mem T → ob'.Is s.mem T' → T.SameSpan T'

theorem steady_not_child (hF : 2 * width α + 3 ≤ F) {s : TState α D σ F} (h : s.Reach) {o t k k' : Nat}
    (hs : SteadySpan s o t) {ob ob' : Obj D} (hk : t ≤ k) (hk' : t ≤ k') (h1 : objAt s.log k o = some ob)
    (h2 : objAt s.log k' o = some ob') : ¬ Heap.ChildOf s.mem ob.trie ob'.trie := by
  obtain ⟨T, a1, a2, _⟩ := table_at hF h h1
  obtain ⟨T', b1, _, _⟩ := table_at hF h h2
  exact (hs k k' ob ob' T T' hk hk' h1 h2 a1 b1).not_child a2.good.inv a1.1 b1.1

/-- every root that is put in is new -/
theorem steady_anew (hF : 2 * width α + 3 ≤ F) {s : TState α D σ F} {g : Ghost α D}
    (ex : Exec tobj TCall.olds TCall.spec s g) {o t : Nat} (hq : Quiet TCall.role s.log o t) (hs : SteadySpan s o t) :
    ∀ (k i : Nat) (x y : Ptr), t ≤ k → At s.log k i (.swap o x y) → ∃ p, y = some p ∧ ¬ Seen (s.log.take k) (some p) := by
  have ok := tableLib_ok (α := α) (D := D) (σ := σ) hF
  intro k
  induction k using Nat.strongRecOn with
  | ind k ih =>
  intro i x y htk hk
  obtain ⟨c, κ, k1, k2, ob1, ob2, a2, a', z, v, F⟩ := swap_facts ok tableLin ex hk
  have hlog := ex.inv.entryOk
  have hst := start_take ok ex hk F.start
  obtain ⟨b, hb⟩ := List.mem_iff_getElem?.mp F.start
  have htb : t ≤ b := hq.later ok ex.reach hb F.role_ hk htk
  rcases ex.inv.roots _ _ _ (at_split hk) i o x y c rfl hst with h | h
  · exact h
  · exfalso
    obtain ⟨ob, h1, h2⟩ : ∃ ob, .load o ob ∈ own i (s.log.take k) ∧ (ob.trie = y ∨ Heap.ChildOf g.fz ob.trie y) := by
      cases c with
      | op hd p =>
        obtain ⟨ob, h1, h2⟩ := h
        exact ⟨ob, h1, h2.imp id And.right⟩
      | _ => exact h.elim
    rw [mem_own] at h1
    obtain ⟨l, hl⟩ := List.mem_iff_getElem?.mp h1
    have hlk : l < k := by
      have := (List.getElem?_eq_some_iff.mp hl).1
      rw [List.length_take] at this; omega
    have hl' : At s.log l i (.load o ob) := by
      unfold At; rw [← hl, List.getElem?_take_of_lt hlk]
    have hbl : b < l := start_first ok ex.reach hb hl' rfl (by intros; simp)
    have h1l := F.first l _ hl'
    rcases h2 with h2 | h2
    · have hneq : y ≠ x := F.ne
      rcases last_swap hlog (Nat.le_of_lt hlk) (objAt_load hlog hl') with h3 | ⟨p, j, x', y', ob', h3, h4, h5, h6, h7, _⟩
      · rw [F.cur] at h3
        cases h3
        exact hneq (h2.symm.trans F.old)
      · rw [F.cur] at h6
        cases h6
        have hy' : y' = x := h7.symm.trans F.old
        subst hy'
        obtain ⟨q, hq, hns⟩ := ih p h4 j x' _ (by omega) h5
        apply hns
        rw [← hq, ← F.old]
        exact objAt_seen (by omega) (objAt_load hlog F.at1)
    · exact steady_not_child hF ex.reach hs (by omega) (show t ≤ k + 1 by omega) (objAt_load hlog hl') F.next
        (h2.mono ex.inv.mem.fz_le)

/-- Full statement: `TableAtomic s o` for every reachable `s`.  It is false of the code.  It holds, whatever the
    interleaving of calls to `Insert`, `Update`, `InsertOrUpdate`, `GetOrInsert`, `Remove` and readers, if the smallest
    prefix that contains all the entries has been the same since a time `t` at which no write was in progress, and
    no `Remove` overlapped a write of another kind before. -/
theorem C36_table_steady_partial (hF : 2 * width α + 3 ≤ F) {s : TState α D σ F} (h : s.Reach) {o t : Nat}
    (ho : o < s.objs.length) (hq : Quiet TCall.role s.log o t) (hd : DisciplinedUntil TCall.role s.log o t)
    (hs : SteadySpan s o t) : TableAtomic s o := by
  have ok := tableLib_ok (α := α) (D := D) (σ := σ) hF
  refine table_atomic_of hF h ho (linearizable_tame ok tableLin h ho fun g ex => ⟨hd, steady_anew hF ex hq hs, ?_⟩)
  intro i c _ ob1 ob2 a1 a2 k1 k2 hst _ htk hkk h1 h2 hfr ha1 ha2
  have hlog := ex.inv.entryOk
  have e1 := objAt_load hlog h1
  have e2 := objAt_load hlog h2
  obtain ⟨ob, g1, g2⟩ : ∃ ob, .load o ob ∈ [(.load o ob2 : Event D)] ∧ (ob.trie = ob1.trie ∨ Heap.ChildOf g.fz ob.trie ob1.trie) := by
    cases c with
    | op hd p =>
      obtain ⟨ob, g1, g2⟩ := hfr
      exact ⟨ob, g1, g2.imp id And.right⟩
    | _ => exact hfr.elim
  cases List.mem_singleton.mp g1
  rcases g2 with g2 | g2
  · obtain ⟨ob', e3, e4⟩ := objAt_later hlog (Nat.le_of_lt hkk) e1
    rw [e2] at e3
    cases e3
    have : ob1 = ob2 := by cases ob1; cases ob2; simp only at g2 e4; rw [g2, e4]
    subst this
    exact (tableLin (F := F) (σ := σ)).abs_fun ha1 ha2
  · exact (steady_not_child hF h hs (by omega) htk e2 e1 (g2.mono ex.inv.mem.fz_le)).elim

theorem Table.Shows.listed {T : Table α D} {m : PMap D} (hT : T.Reachable) (h : T.Shows m) {q : Prefix α} (hq : q.WF) :
    m (keyOf q) ≠ none ↔ ∃ e ∈ T.listed, keyOf e.1 = keyOf q := by
  have h1 := h (.prefix q) hq
  constructor
  · intro hm
    obtain ⟨v, hv⟩ := Option.ne_none_iff_exists'.mp hm
    simp only [PrefixI.toPrefix, hv] at h1
    obtain ⟨p, h2, h3⟩ := (C27_complete T hT _ _).mp h1
    exact ⟨(p, v), h2, h3⟩
  · rintro ⟨⟨p, v⟩, h2, h3⟩ hm
    simp only [PrefixI.toPrefix, hm] at h1
    rw [(C27_complete T hT (.prefix q) v).mpr ⟨p, h2, h3⟩] at h1
    cases h1

theorem ContainsP.congr {p q q' : Prefix α} (hp : p.WF) (hq : q.WF) (he : keyOf q = keyOf q') (h : ContainsP p q) :
    ContainsP p q' := by
  rw [containsP_iff hp] at h ⊢
  obtain ⟨h1, h2⟩ := (keyOf_eq hq).mp he
  exact ⟨by rw [← h1]; exact h.1, h.2.trans (h2.mono h.1)⟩

theorem Table.listed_wf {T : Table α D} (hT : T.Reachable) {e : Prefix α × D} (he : e ∈ T.listed) : e.1.WF := by
  rw [Table.listed_eq] at he
  obtain ⟨x, hx, rfl⟩ := List.mem_map.mp he
  exact hT.good.inv.entries_wf hx

/-- A table that has an entry that contains all the others has the span of that entry. -/
theorem Table.pinned_span {T : Table α D} {m : PMap D} (hT : T.Reachable) (h : T.Shows m) {P : Prefix α} (hP : P.WF)
    (h1 : m (keyOf P) ≠ none) (h2 : ∀ q : Prefix α, q.WF → m (keyOf q) ≠ none → ContainsP P q) (q : Prefix α) (hq : q.WF) :
    T.In q ↔ ContainsP q P := by
  constructor
  · intro hin
    obtain ⟨e, h3, h4⟩ := (h.listed hT hP).mp h1
    exact (hin e h3).congr hq (Table.listed_wf hT h3) h4
  · intro hin e he
    have hw := Table.listed_wf hT he
    have h3 := h2 e.1 hw ((h.listed hT hw).mpr ⟨e, he, rfl⟩)
    rw [containsP_iff hq] at hin ⊢
    exact hin.trans ((containsP_iff hP).mp h3)

/-- A table that had, at a time `t` at which no write was in progress, an entry for a prefix `P` that contains all its
    entries: if since then nobody has called `Remove` with `P`, and all prefixes that were added lie in `P`, then
    writes of all kinds, however they overlap, take effect atomically or panic. -/
theorem C36_table_pinned_partial (hF : 2 * width α + 3 ≤ F) {s : TState α D σ F} (h : s.Reach) {o t : Nat} {ob : Obj D}
    {T : Table α D} {P : Prefix α} (hP : P.WF) (hq : Quiet TCall.role s.log o t)
    (hd : DisciplinedUntil TCall.role s.log o t) (h1 : objAt s.log t o = some ob) (h2 : ob.Is s.mem T)
    (h3 : (T.get (.prefix P)).2 = true) (h4 : T.In P)
    (hw : ∀ b i w, t ≤ b → s.log[b]? = some (.start i (.op (some o) w)) →
      ¬ w.Drops (keyOf P) ∧ ∀ q : Prefix α, q.WF → w.Adds (keyOf q) → ContainsP P q) : TableAtomic s o := by
  obtain ⟨g, inv⟩ := h.inv (tableLib_ok hF)
  obtain ⟨T', a1, a2, _⟩ := table_at hF h h1
  cases a1.functional h2
  obtain ⟨m, hm⟩ := C23_shows T a2
  have span : ∀ k ob' T', t ≤ k → objAt s.log k o = some ob' → ob'.Is s.mem T' → ∀ q : Prefix α, q.WF →
      (T'.In q ↔ ContainsP q P) := by
    intro k ob' T' hk h5 h6
    obtain ⟨T'', b1, b2, _⟩ := table_at hF h h5
    cases b1.functional h6
    obtain ⟨m', c1, c2, c3⟩ := table_keeps hF h (n := s.log.length + k) hq
      (R := fun m => m (keyOf P) ≠ none ∧ ∀ q : Prefix α, q.WF → m (keyOf q) ≠ none → ContainsP P q)
      (fun b i w e m g1 g2 hs hh => ⟨PMap.step_keeps hh.1 (hw b i w g1 hs).1, fun q hq' hne => by
        apply Classical.byContradiction
        intro hc
        have : m (keyOf q) = none := by
          cases hmq : m (keyOf q) with
          | none => rfl
          | some v => exact (hc (hh.2 q hq' (by rw [hmq]; simp))).elim
        exact hne (PMap.step_absent this fun ha => hc ((hw b i w g1 hs).2 q hq' ha))⟩)
      (show k ≤ s.log.length + k by omega) (Nat.le_refl t) hk h1 h2 hm
      ⟨(hm.found (k := .prefix P) hP).mpr h3, fun q hq' hne => by
        obtain ⟨e, he, hk⟩ := (hm.listed a2 hq').mp hne
        exact (h4 e he).congr hP (Table.listed_wf a2 he) hk⟩ h5 h6
    exact Table.pinned_span b2 c1 hP c2 c3
  refine C36_table_steady_partial hF h ?_ hq hd ?_
  · rcases Nat.le_total t s.log.length with hle | hle
    · obtain ⟨ob', h5, _⟩ := objAt_later inv.entryOk hle h1
      rw [inv.objAt_end] at h5
      exact (List.getElem?_eq_some_iff.mp h5).1
    · have h5 := h1
      unfold objAt at h5
      rw [List.take_of_length_le hle, inv.replayed] at h5
      exact (List.getElem?_eq_some_iff.mp h5).1
  · intro k k' ob ob' T T' g1 g2 g3 g4 g5 g6 q hq'
    rw [span k ob T g1 g3 g5 q hq', span k' ob' T' g2 g4 g6 q hq']

/-- The prefix with length 0 contains everything. -/
theorem containsP_zero (p q : Prefix α) (hp : p.WF) (h0 : p.len = 0) : ContainsP p q := by
  rw [containsP_iff hp]
  exact ⟨by omega, fun i hi => absurd hi (by omega)⟩

/-- A table that had a default route at a time `t` at which no write was in progress, and from which nobody has
    removed the default route since: writes of all kinds, however they overlap, take effect atomically or panic. -/
theorem C36_table_defaultRoute_partial (hF : 2 * width α + 3 ≤ F) {s : TState α D σ F} (h : s.Reach) {o t : Nat}
    {ob : Obj D} {T : Table α D} {P : Prefix α} (h0 : P.len = 0) (hq : Quiet TCall.role s.log o t)
    (hd : DisciplinedUntil TCall.role s.log o t) (h1 : objAt s.log t o = some ob) (h2 : ob.Is s.mem T)
    (h3 : (T.get (.prefix P)).2 = true)
    (hw : ∀ b i k, t ≤ b → s.log[b]? = some (.start i (.op (some o) (.remove k))) → k.toPrefix.len ≠ 0) :
    TableAtomic s o := by
  have hP : P.WF := by unfold Prefix.WF; omega
  refine C36_table_pinned_partial hF h hP hq hd h1 h2 h3 (fun e _ => containsP_zero P e.1 hP h0) ?_
  intro b i w hb hs
  refine ⟨fun hdr => ?_, fun q _ _ => containsP_zero P q hP h0⟩
  cases w with
  | remove k => exact hw b i k hb hs ((congrArg Prod.fst hdr).trans h0)
  | _ => exact hdr

end

namespace Steady
open Bad (k1 k2 wf1 wf2 TL)

/-- 0.0.0.0/0 -/
def k0 : PrefixI (BitVec 32) := .prefix ⟨0#32, 0⟩
theorem wf0 : k0.toPrefix.WF := by decide

/-- The default route is inserted into a new table.  One goroutine calls `Insert(k2)` and has read the root once;
    another one inserts `k1`; the first reads the root again; the other removes `k1`; the first goes on, and panics
    (in `Bad.back`, without a default route, it brings back `k1`).  Then `k1` is
    inserted again; `Insert(k0)` reads the root once, `k1` is removed, and `Insert` goes on and fails. -/
def run : List (Sched TL) :=
  [.call .new_, .finish 0, .call (.op (some 0) (.insert k0 9)), .finish 1,
   .call (.op (some 0) (.insert k2 5)), .step 2, .call (.op (some 0) (.insert k1 7)), .finish 3, .step 2,
   .call (.op (some 0) (.remove k1)), .finish 4, .finish 2,
   .call (.op (some 0) (.insert k1 8)), .finish 5,
   .call (.op (some 0) (.insert k0 1)), .step 6, .call (.op (some 0) (.remove k1)), .finish 7, .finish 6]

def log : List (Entry Nat TL.Call TL.Val) :=
  [.start 0 .new_, .act 0 (.made 0 ⟨none, .dflt⟩), .done 0 (.handle 0),
   .start 1 (.op (some 0) (.insert k0 9)), .act 1 (.load 0 ⟨none, .dflt⟩), .act 1 (.load 0 ⟨none, .dflt⟩),
   .act 1 (.swap 0 none (some 0)), .done 1 (.result (.bool true)),
   .start 2 (.op (some 0) (.insert k2 5)), .act 2 (.load 0 ⟨some 0, .dflt⟩),
   .start 3 (.op (some 0) (.insert k1 7)), .act 3 (.load 0 ⟨some 0, .dflt⟩), .act 3 (.load 0 ⟨some 0, .dflt⟩),
   .act 3 (.swap 0 (some 0) (some 2)), .done 3 (.result (.bool true)), .act 2 (.load 0 ⟨some 2, .dflt⟩),
   .start 4 (.op (some 0) (.remove k1)), .act 4 (.load 0 ⟨some 2, .dflt⟩), .act 4 (.load 0 ⟨some 2, .dflt⟩),
   .act 4 (.swap 0 (some 2) (some 3)), .done 4 (.result (.removed true)), .fail 2 0 (some 0),
   .start 5 (.op (some 0) (.insert k1 8)), .act 5 (.load 0 ⟨some 3, .dflt⟩), .act 5 (.load 0 ⟨some 3, .dflt⟩),
   .act 5 (.swap 0 (some 3) (some 8)), .done 5 (.result (.bool true)),
   .start 6 (.op (some 0) (.insert k0 1)), .act 6 (.load 0 ⟨some 8, .dflt⟩),
   .start 7 (.op (some 0) (.remove k1)), .act 7 (.load 0 ⟨some 8, .dflt⟩), .act 7 (.load 0 ⟨some 8, .dflt⟩),
   .act 7 (.swap 0 (some 8) (some 9)), .done 7 (.result (.removed true)), .act 6 (.load 0 ⟨some 9, .dflt⟩),
   .done 6 (.result (.bool false))]

set_option maxRecDepth 100000 in
theorem run_ok : (exec State.init run).isSome := rfl
set_option maxRecDepth 100000 in
theorem run_log : (final run run_ok).log = log := rfl

theorem run_reach : (final run run_ok).Reach := by
  refine final_reach run_ok ?_
  intro c hc
  simp only [run, List.mem_cons, reduceCtorEq, List.not_mem_nil, or_false, false_or] at hc
  rcases hc with h | h | h | h | h | h | h | h <;> cases h
  · exact ⟨trivial, rfl⟩
  · exact ⟨fun _ => ⟨wf0, by simp⟩, rfl⟩
  · exact ⟨fun _ => ⟨wf2, by simp⟩, rfl⟩
  · exact ⟨fun _ => ⟨wf1, by simp⟩, rfl⟩
  · exact ⟨fun _ => ⟨wf1, by simp⟩, rfl⟩
  · exact ⟨fun _ => ⟨wf1, by simp⟩, rfl⟩
  · exact ⟨fun _ => ⟨wf0, by simp⟩, rfl⟩
  · exact ⟨fun _ => ⟨wf1, by simp⟩, rfl⟩

/-- after the first insertion no write is in progress -/
theorem run_quiet : Quiet TCall.role (final run run_ok).log 0 8 := by
  intro i c κ h hr
  rw [run_log] at h ⊢
  simp only [log, List.take, List.mem_cons, reduceCtorEq, List.not_mem_nil, or_false, false_or] at h
  rcases h with h | h <;> cases h
  · cases hr
  · exact Or.inl ⟨.result (.bool true), by simp [log]⟩

/-- the first insertion was alone -/
theorem run_disc : DisciplinedUntil TCall.role (final run run_ok).log 0 8 := by
  intro i j ci cj κ k p l ob x y e hji hk hkp hpl h1 h2 h3
  exfalso
  rw [run_log] at h1 h2 h3
  unfold At at h1 h2 h3
  have hi : i = 1 := by
    have : .act i (.load 0 ob) ∈ log.take 8 := List.mem_of_getElem? (i := k) (by rw [List.getElem?_take_of_lt hk]; exact h1)
    simp [log] at this
    omega
  subst hi
  have hl : l < 7 := by
    apply Nat.lt_of_not_le
    intro hl
    have : .act 1 e ∈ log.drop 7 := by
      refine List.mem_of_getElem? (i := l - 7) ?_
      rw [List.getElem?_drop, Nat.add_sub_cancel' hl]; exact h3
    simp [log] at this
  have : .act j (.swap 0 x y) ∈ log.take 6 := List.mem_of_getElem? (i := p) (by
    rw [List.getElem?_take_of_lt (by omega)]; exact h2)
  simp [log] at this

/-- the table with the default route only -/
def T0 : Table (BitVec 32) Nat := ⟨.node ⟨0#32, 0⟩ (some 9) 1 1 true .nil .nil, some fun a b => decide (a = b)⟩

set_option maxRecDepth 100000 in
theorem run_is : Obj.Is (final run run_ok).mem ⟨some 0, .dflt⟩ T0 :=
  ⟨.node (c := ⟨⟨0#32, 0⟩, some 9, 1, 1, true, none, none⟩) rfl .nil .nil, rfl⟩

/-- the hypotheses are met by an execution in which `Remove` and `Insert` interfere with each other -/
example : TableAtomic (final run run_ok) 0 :=
  C36_table_defaultRoute_partial (by decide) run_reach (t := 8) (P := ⟨0#32, 0⟩) rfl run_quiet run_disc
    (by rw [run_log]; rfl) run_is (by decide) (by
      intro b i k hb hs
      have : .start i (.op (some 0) (.remove k)) ∈ (final run run_ok).log := List.mem_of_getElem? hs
      rw [run_log] at this
      have hk : k = k1 := by
        simp [log] at this
        rcases this with h | h | h | h | h | h | h | h <;> cases h <;> rfl
      subst hk
      decide)

/-- they do -/
example : ¬ Disciplined TCall.role (final run run_ok).log 0 := by
  intro h
  have := h 6 7 (.op (some 0) (.insert k0 1)) (.op (some 0) (.remove k1)) false
    ⟨by decide, 28, 32, 34, _, _, _, _, by decide, by decide, by rw [run_log]; rfl, by rw [run_log]; rfl,
      by rw [run_log]; rfl⟩ (List.mem_of_getElem? (i := 27) (by rw [run_log]; rfl))
    (List.mem_of_getElem? (i := 29) (by rw [run_log]; rfl)) rfl
  cases this

end Steady
end Addrs

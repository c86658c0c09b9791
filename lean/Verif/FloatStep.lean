import Verif.IfaceRun
import Verif.PropSeqTables
/-
  Tables of values on which `==` does not panic but need not be identity (floating point numbers): each call on the heap.
-/
set_option linter.unusedSectionVars false
namespace Addrs
open GoWord LawfulGoWord Heap Prog

section
variable {α D σ : Type} [LawfulGoWord α] [Inhabited D] [DecidableEq D] [Total D] {F : Nat}

/-- `ob` on the heap is the map `a`; `e` compares values -/
structure Obj.Carries (v : View α D) (ob : Obj D) (a : MTable α D) (e : D → D → Bool) (T : Table α D) : Prop where
  den : Den v ob.trie T.trie
  reach : T.Reachable
  eq : T.eq = some e
  holds : T.Holds a.entries
  cmp : ob.eq = a.cmp

/-- the comparison that the table has, or would get from `Table_` -/
def MTable.sameF (a : MTable α D) : D → D → Bool :=
  match a.cmp with
  | .custom c => c
  | _ => fun x y => Total.same x y

theorem MTable.sameF_eq {a : MTable α D} (h : a.cmp ≠ .nil) : a.sameF = a.same := by
  unfold MTable.sameF MTable.same
  cases hc : a.cmp with
  | nil => exact (h hc).elim
  | dflt => rfl
  | custom c => rfl

def Obj.StandsF (v : View α D) (ob : Obj D) (a : MTable α D) : Prop := ∃ T, ob.Carries v a a.sameF T

/-- if a table without comparison function is empty, it does not matter which it has -/
theorem Obj.StandsF.usual {v : View α D} {ob : Obj D} {a : MTable α D} (h : ob.StandsF v a) (hn : a.cmp = .nil → a.entries = Entries.empty) :
    ∃ T, ob.Carries v a a.same T := by
  obtain ⟨T, hs⟩ := h
  by_cases hc : a.cmp = .nil
  · have he := hn hc
    have h0 := hs.holds.nil hs.reach he
    refine ⟨Table.newCustom a.same, ?_, .newCustom _, rfl, ?_, hs.cmp⟩
    · have := hs.den
      rw [h0] at this
      exact this
    · rw [he]; exact Table.holds_nil _
  · rw [← MTable.sameF_eq hc]
    exact ⟨T, hs⟩

theorem Obj.Carries.mono {v v' : View α D} (h : v ≤ v') {ob : Obj D} {a : MTable α D} {e : D → D → Bool} {T : Table α D} (hs : ob.Carries v a e T) : ob.Carries v' a e T :=
  { hs with den := hs.den.mono h }

theorem Obj.StandsF.mono {v v' : View α D} (h : v ≤ v') {ob : Obj D} {a : MTable α D} : ob.StandsF v a → ob.StandsF v' a
  | ⟨T, hs⟩ => ⟨T, hs.mono h⟩

theorem Obj.Carries.deep {v : View α D} {ob : Obj D} {a : MTable α D} {e : D → D → Bool} {T : Table α D} (hs : ob.Carries v a e T) : T.trie.deep ≤ width α + 1 :=
  hs.reach.good.inv.deep_le'

theorem Obj.Carries.cmp_eq {v : View α D} {ob : Obj D} {a : MTable α D} {e : D → D → Bool} {T : Table α D} (hs : ob.Carries v a e T) : T.cmp = liftEq e := by
  unfold Table.cmp; rw [hs.eq]; rfl

theorem Obj.StandsF.zero {v : View α D} : (Obj.zero : Obj D).StandsF v (default : MTable α D) :=
  ⟨Table.newCustom Total.same, .nil, .newCustom _, rfl, Table.holds_nil _, rfl⟩

/-- the comparison functions agree on values -/
theorem MTable.call_some {a : MTable α D} (hn : a.cmp ≠ .nil) (x y : D) : a.cmp.call (some x) (some y) = some (liftEq a.same (some x) (some y)) := by
  unfold MTable.same
  cases h : a.cmp with
  | nil => exact (hn h).elim
  | dflt => simp [EqFn.call, defaultComparator, ifaceEq, liftEq, Total.total]
  | custom c => simp [EqFn.call, customComparator, liftEq]

theorem MTable.call_dflt {a : MTable α D} (h : a.cmp = .dflt) (x y : Option D) : a.cmp.call x y = some (liftEq a.same x y) := by
  unfold MTable.same
  rw [h]
  cases x <;> cases y <;> simp [EqFn.call, defaultComparator, ifaceEq, liftEq, Total.total]

/-- the nodes and the variables are the world of maps -/
structure MatchesF (w : SWorld (MTable α D)) (m : Mem α D) (regs : List (Obj D)) : Prop where
  nvars : m.objs.length = w.vars.length
  vars : ∀ {o : Nat} {ob : Obj D} {a : MTable α D}, m.objs[o]? = some ob → w.vars[o]? = some a → ob.StandsF m.nodes a ∧ a.cmp ≠ .nil
  nvals : regs.length = w.vals.length
  vals : ∀ {t : Nat} {ob : Obj D} {a : MTable α D}, regs[t]? = some ob → w.vals[t]? = some a → ob.StandsF m.nodes a

namespace MatchesF
variable {w : SWorld (MTable α D)} {m m' : Mem α D} {regs : List (Obj D)}

theorem val (M : MatchesF w m regs) {t : Nat} (ht : t < w.vals.length) : (regs.getD t .zero).StandsF m.nodes (w.val t) := by
  have ht' : t < regs.length := by rw [M.nvals]; exact ht
  have h1 : regs[t]? = some regs[t] := List.getElem?_eq_getElem ht'
  have h2 : w.vals[t]? = some w.vals[t] := List.getElem?_eq_getElem ht
  have := M.vals h1 h2
  rw [List.getD_eq_getElem?_getD, h1, SWorld.val, h2]
  exact this

theorem var (M : MatchesF w m regs) {o : Nat} (ho : o < w.vars.length) : ∃ ob a, m.objs[o]? = some ob ∧ w.vars[o]? = some a ∧
    w.var (some o) = a ∧ ob.StandsF m.nodes a ∧ a.cmp ≠ .nil := by
  have ho' : o < m.objs.length := by rw [M.nvars]; exact ho
  have h1 : m.objs[o]? = some m.objs[o] := List.getElem?_eq_getElem ho'
  have h2 : w.vars[o]? = some w.vars[o] := List.getElem?_eq_getElem ho
  exact ⟨_, _, h1, h2, by simp [SWorld.var, h2], M.vars h1 h2⟩

theorem keep (M : MatchesF w m regs) (h : m'.objs = m.objs) (le : m.nodes ≤ m'.nodes) : MatchesF w m' regs where
  nvars := by rw [h]; exact M.nvars
  vars := fun h1 h2 => by rw [h] at h1; exact ⟨(M.vars h1 h2).1.mono le, (M.vars h1 h2).2⟩
  nvals := M.nvals
  vals := fun h1 h2 => (M.vals h1 h2).mono le

theorem got (M : MatchesF w m regs) {t : Obj D} {a : MTable α D} (h : t.StandsF m.nodes a) : MatchesF (w.got a) m (regs ++ [t]) where
  nvars := M.nvars
  vars := M.vars
  nvals := by simp [SWorld.got, M.nvals]
  vals := by
    intro i ob b h1 h2
    simp only [SWorld.got] at h2
    rcases Nat.lt_or_ge i regs.length with hl | hl
    · rw [List.getElem?_append_left hl] at h1
      rw [List.getElem?_append_left (by rw [← M.nvals]; exact hl)] at h2
      exact M.vals h1 h2
    · rw [List.getElem?_append_right hl] at h1
      rw [List.getElem?_append_right (by rw [← M.nvals]; exact hl), ← M.nvals] at h2
      have : i - regs.length = 0 := by
        have := (List.getElem?_eq_some_iff.mp h1).1
        simp at this; omega
      rw [this] at h1 h2
      simp at h1 h2
      subst h1 h2
      exact h

theorem declare (M : MatchesF w m regs) {ob : Obj D} {a : MTable α D} (h : m'.objs = m.objs ++ [ob]) (le : m.nodes ≤ m'.nodes)
    (hs : ob.StandsF m'.nodes a) (hn : a.cmp ≠ .nil) : MatchesF (w.declare a) m' regs where
  nvars := by rw [h]; simp [SWorld.declare, M.nvars]
  nvals := M.nvals
  vals := fun h1 h2 => (M.vals h1 h2).mono le
  vars := by
    intro i x b h1 h2
    rw [h] at h1
    simp only [SWorld.declare] at h2
    rcases Nat.lt_or_ge i m.objs.length with hl | hl
    · rw [List.getElem?_append_left hl] at h1
      rw [List.getElem?_append_left (by rw [← M.nvars]; exact hl)] at h2
      exact ⟨(M.vars h1 h2).1.mono le, (M.vars h1 h2).2⟩
    · rw [List.getElem?_append_right hl] at h1
      rw [List.getElem?_append_right (by rw [← M.nvars]; exact hl), ← M.nvars] at h2
      have : i - m.objs.length = 0 := by
        have := (List.getElem?_eq_some_iff.mp h1).1
        simp at this; omega
      rw [this] at h1 h2
      simp at h1 h2
      subst h1 h2
      exact ⟨hs, hn⟩

theorem assign (M : MatchesF w m regs) {o : Nat} {ob : Obj D} {a b : MTable α D} {new : Ptr} 
    (ho : m.objs[o]? = some ob) (ha : w.vars[o]? = some a) (h : m'.objs = m.objs.set o { ob with trie := new }) (le : m.nodes ≤ m'.nodes)
    (hs : Obj.StandsF m'.nodes { ob with trie := new } b) (hb : b.cmp = a.cmp) : MatchesF (w.assign (some o) b) m' regs where
  nvars := by rw [h]; simp [SWorld.assign, M.nvars]
  nvals := M.nvals
  vals := fun h1 h2 => (M.vals h1 h2).mono le
  vars := by
    intro i x c h1 h2
    rw [h] at h1
    simp only [SWorld.assign] at h2
    obtain ⟨hst, hn⟩ := M.vars ho ha
    by_cases e : o = i
    · subst e
      rw [List.getElem?_set_self (List.getElem?_eq_some_iff.mp ha).1] at h2
      rw [List.getElem?_set_self (List.getElem?_eq_some_iff.mp ho).1] at h1
      cases h1
      cases h2
      exact ⟨hs, by rw [hb]; exact hn⟩
    · rw [List.getElem?_set_ne e] at h1 h2
      exact ⟨(M.vars h1 h2).1.mono le, (M.vars h1 h2).2⟩

end MatchesF

/-! ### reads -/

theorem wp_xNumF {v : View α D} {ob : Obj D} {a : MTable α D} {e : D → D → Bool} {T : Table α D} (hs : ob.Carries v a e T) {W : Nat → Prop} :
    wp False (fun x _ => x = T.numEntries) (xNumEntries ob) v W := by
  unfold xNumEntries Table.numEntries
  have h1 := hs.den
  generalize ob.trie = p at h1
  generalize T.trie = t at h1
  cases h1 with
  | nil => exact rfl
  | node hc hl hr => exact ⟨_, hc, rfl⟩

theorem wp_xLongestMatchF {v : View α D} {ob : Obj D} {a : MTable α D} {e : D → D → Bool} {T : Table α D} (hs : ob.Carries v a e T) (hF : width α + 2 ≤ F) (k : PrefixI α)
    {W : Nat → Prop} : wp False (fun x _ => x = T.longestMatch' k) (xLongestMatch F ob k) v W := by
  have hd := hs.deep
  unfold xLongestMatch
  refine wp_call (wp_match k.code F (by omega) hs.den) ?_
  intro x v' le hx
  cases x with
  | none => simp only at hx ⊢; simp only [Table.longestMatch', hx]; exact rfl
  | some a =>
    obtain ⟨c, hc, hm⟩ := hx
    refine wp_deref (le _ _ hc) ?_
    simp only [Table.longestMatch', hm]
    exact rfl

theorem wp_xGetF {v : View α D} {ob : Obj D} {a : MTable α D} {e : D → D → Bool} {T : Table α D} (hs : ob.Carries v a e T) (hF : width α + 2 ≤ F) (k : PrefixI α)
    {W : Nat → Prop} : wp False (fun x _ => x = T.get k) (xGet F ob k) v W := by
  unfold xGet
  refine wp_call (wp_xLongestMatchF hs hF k) ?_
  intro x v' le hx
  subst hx
  unfold Table.get
  rcases T.longestMatch' k with _ | ⟨v, _ | _, p⟩ <;> exact rfl

theorem wp_xLongestF {v : View α D} {ob : Obj D} {a : MTable α D} {e : D → D → Bool} {T : Table α D} (hs : ob.Carries v a e T) (hF : width α + 2 ≤ F) (k : PrefixI α)
    {W : Nat → Prop} : wp False (fun x _ => x = T.longestMatch k) (xLongest F ob k) v W := by
  unfold xLongest
  refine wp_call (wp_xLongestMatchF hs hF k) ?_
  intro x v' le hx
  subst hx
  unfold Table.longestMatch
  rcases T.longestMatch' k with _ | ⟨v, _, p⟩ <;> exact rfl

/-! ### writes -/

theorem MTable.entries_step {a : MTable α D} (o : TableOp α D) (T : Table α D) (hT : T.Reachable) (he : T.eq = some a.same) (hh : T.Holds a.entries)
    (hk : o.key.toPrefix.WF) :
    (T.step o).1.Reachable ∧ (T.step o).1.eq = some a.same ∧ (T.step o).1.Holds (a.entries.step a.same o).1 ∧ (T.step o).2 = (a.entries.step a.same o).2 :=
  ⟨.step T o hT (by rw [he]; simp) hk, (by
    obtain ⟨m', hm'⟩ := C23_shows T hT
    exact (Table.step_spec (hm'.repr hT.good) he o hk).2.1), hh.step_map hT he o hk, hh.step_result hT he o hk⟩

/-- a call of a method of `Table_` -/
theorem opF_ok (hF : 2 * width α + 3 ≤ F) {w : SWorld (MTable α D)} {m : Mem α D} {regs : List (Obj D)} (M : MatchesF w m regs) {o : Nat} {ob : Obj D}
    {a : MTable α D} (ho : m.objs[o]? = some ob) (ha : w.vars[o]? = some a) {p : TableOp α D} (hk : p.writes = true → p.key.toPrefix.WF) :
    ∃ m', (opCode F (some o) p).run m = (.ret (a.entries.step a.same p).2, m') ∧
      MatchesF (w.assign (some o) ⟨(a.entries.step a.same p).1, a.cmp⟩) m' regs := by
  obtain ⟨⟨T, hs⟩, hne⟩ := M.vars ho ha
  rw [MTable.sameF_eq hne] at hs
  have hd := hs.deep
  have hcmp := hs.cmp_eq
  have hcall : ∀ {k : Prefix α} {v : D} (x : Prefix α × Option D), x ∈ T.trie.entries → ob.eq.call x.2 (some v) = some (T.cmp x.2 (some v)) := by
    intro k v x hx
    obtain ⟨y, hy⟩ := Option.isSome_iff_exists.mp (hs.reach.good.some x hx)
    rw [hy, hs.cmp, hcmp]
    exact MTable.call_some hne y v
  have fin : ∀ {m' : Mem α D} {new : Ptr}, m.nodes ≤ m'.nodes → m'.objs = m.objs.set o { ob with trie := new } →
      Den m'.nodes new (T.step p).1.trie → p.key.toPrefix.WF → MatchesF (w.assign (some o) ⟨(a.entries.step a.same p).1, a.cmp⟩) m' regs := by
    intro m' new h1 h2 h3 h4
    obtain ⟨e1, e2, e3, _⟩ := MTable.entries_step p T hs.reach hs.eq hs.holds h4
    exact M.assign ho ha h2 h1 ⟨(T.step p).1, h3, e1, by rw [MTable.sameF_eq (by exact hne)]; exact e2, e3, hs.cmp⟩ rfl
  have res : p.key.toPrefix.WF → (a.entries.step a.same p).2 = (T.step p).2 := fun h =>
    (MTable.entries_step p T hs.reach hs.eq hs.holds h).2.2.2.symm
  cases p with
  | get k =>
    obtain ⟨b, m', h1, ⟨v', h2, _⟩, h3, h4⟩ := run_nodes (wp_xGetF (F := F) hs (by omega) k)
    subst h2
    have e1 : (a.entries.step a.same (.get k)).1 = a.entries := by simp only [Entries.step]; split <;> rfl
    refine ⟨m', ?_, ?_⟩
    · simp only [opCode, tGet]
      rw [run_then ((readObj_run ho _).trans h1), ← hs.holds.get hs.reach a.same k]
      rfl
    · rw [e1]
      refine M.assign (new := ob.trie) ho ha ?_ h4 ⟨T, by rw [MTable.sameF_eq (by exact hne)]; exact hs.mono h4⟩ rfl
      rw [h3]
      obtain ⟨e1, e2⟩ := List.getElem?_eq_some_iff.mp ho
      rw [← e2]; exact (List.set_getElem_self e1).symm
  | insert k v =>
    have hk : k.toPrefix.WF := hk rfl
    have hw := wp_Insert (st := False) (F := F) (t := T.trie) (W := Nowhere) (by omega) (k := k.code) (d := some v) (ve := fun _ _ => false) hs.den
    obtain ⟨x, m', h1, ⟨v', h2, h3⟩, h4, h5⟩ := run_mutator (f := fun m => do
      let x ← Insert F m.trie k.code (some v)
      pure (if x.2 then ((false, none), false) else ((true, x.1), true))) ho
      (Q := fun x v' => x.2 = (T.insert k v).2 ∧ Den v' (if x.1.1 then x.1.2 else ob.trie) (T.insert k v).1.trie) (by
      refine wp_call hw ?_
      intro x v' le h
      unfold TablePost at h
      unfold Table.insert
      cases hi : Trie.insert ⟨true, false, fun _ _ => false⟩ k.code (some v) T.trie with
      | none =>
        rw [hi] at h
        simp only at h
        subst h
        exact ⟨rfl, hs.den.mono le⟩
      | some t' =>
        rw [hi] at h
        obtain ⟨h1, h2, _⟩ := h
        rw [h1]
        exact ⟨rfl, h2⟩)
    refine ⟨m', ?_, fin h4 h5 (h2.2.mono h3) hk⟩
    rw [res hk]
    simp only [opCode, tInsert]
    rw [run_then h1, h2.1]
    rfl
  | update k v =>
    have hk : k.toPrefix.WF := hk rfl
    have hw := wp_Update (st := False) (F := F) (t := T.trie) (W := Nowhere) (by omega) (k := k.code) (d := some v) (eq := ob.eq.call) (ve := T.cmp)
      (fun x hx => hcall (k := k.code) x hx) hs.den
    obtain ⟨x, m', h1, ⟨v', h2, h3⟩, h4, h5⟩ := run_mutator (f := fun m => do
      let x ← Update F m.eq.call m.trie k.code (some v)
      pure (if x.2 then ((false, none), false) else ((true, x.1), true))) ho
      (Q := fun x v' => x.2 = (T.update k v).2 ∧ Den v' (if x.1.1 then x.1.2 else ob.trie) (T.update k v).1.trie) (by
      refine wp_call hw ?_
      intro x v' le h
      unfold TablePost at h
      unfold Table.update
      cases hi : Trie.insert ⟨false, true, T.cmp⟩ k.code (some v) T.trie with
      | none =>
        rw [hi] at h
        simp only at h
        subst h
        exact ⟨rfl, hs.den.mono le⟩
      | some t' =>
        rw [hi] at h
        obtain ⟨h1, h2, _⟩ := h
        rw [h1]
        exact ⟨rfl, h2⟩)
    refine ⟨m', ?_, fin h4 h5 (h2.2.mono h3) hk⟩
    rw [res hk]
    simp only [opCode, tUpdate]
    rw [run_then h1, h2.1]
    rfl
  | insertOrUpdate k v =>
    have hk : k.toPrefix.WF := hk rfl
    have hw := wp_InsertOrUpdate (st := False) (F := F) (t := T.trie) (W := Nowhere) (by omega) (k := k.code) (d := some v) (eq := ob.eq.call) (ve := T.cmp)
      (fun x hx => hcall (k := k.code) x hx) hs.den
    obtain ⟨x, m', h1, ⟨v', h2, h3⟩, h4, h5⟩ := run_mutator (f := fun m => do
      let x ← InsertOrUpdate F m.eq.call m.trie k.code (some v)
      pure ((true, x), ())) ho
      (Q := fun x v' => Den v' (if x.1.1 then x.1.2 else ob.trie) (T.insertOrUpdate k v).trie) (by
      refine wp_call hw ?_
      rintro x v' le ⟨t', ht', h, _⟩
      unfold Table.insertOrUpdate
      rw [ht']
      exact h)
    refine ⟨m', ?_, fin h4 h5 (h2.mono h3) hk⟩
    rw [res hk]
    simp only [opCode, tInsertOrUpdate]
    rw [run_then h1]
    rfl
  | getOrInsert k v =>
    have hk : k.toPrefix.WF := hk rfl
    have hk' : k.code.WF := by rw [PrefixI.code_eq]; exact hk
    obtain ⟨x, m', h1, ⟨v', h2, h3⟩, h4, h5⟩ := run_mutator (f := fun m => do
      let x ← getOrInsert k.code (some v) F m.trie
      pure ((true, x.1), x.2)) ho
      (Q := fun x v' => Den v' (if x.1.1 then x.1.2 else ob.trie) (T.getOrInsert k v).1.trie ∧
        ∃ n c, x.2 = some n ∧ v' n = some c ∧ Table.unbox c.data = (T.getOrInsert k v).2) (by
      refine wp_call (wp_getOrInsert hk' F (t := T.trie) (by omega) hs.reach.good.inv hs.den) ?_
      rintro ⟨x, y⟩ v' le ⟨h1, _, ⟨n, c, e1, e2, e3⟩, _⟩
      exact ⟨h1, n, c, e1, e2, by rw [e3]; rfl⟩)
    obtain ⟨h2, n, c, e1, e2, e3⟩ := h2
    refine ⟨m', ?_, fin h4 h5 (h2.mono h3) hk⟩
    rw [res hk]
    simp only [opCode, tGetOrInsert]
    rw [run_then (b := Table.unbox c.data) (m' := m')]
    · rw [e3]; rfl
    · rw [run_then h1, e1]
      have : m'.heap[n]? = some c := h3 _ _ e2
      show (deref (some n) >>= fun c => pure (Table.unbox c.data)).run m' = _
      rw [run_bind]
      simp only [deref, Prog.run, this]
      rfl
  | remove k =>
    have hk : k.toPrefix.WF := hk rfl
    obtain ⟨x, m', h1, ⟨v', h2, h3⟩, h4, h5⟩ := run_mutator (f := fun m => do
      let x ← del k.code F m.trie
      pure ((true, x.1), !x.2)) ho
      (Q := fun x v' => x.2 = (T.remove k).2 ∧ Den v' (if x.1.1 then x.1.2 else ob.trie) (T.remove k).1.trie) (by
      refine wp_call (wp_del F (t := T.trie) (by omega) hs.den) ?_
      intro x v' le h
      unfold Table.remove
      cases hi : Trie.del k.code T.trie with
      | none =>
        rw [hi] at h
        simp only at h
        subst h
        exact ⟨rfl, hs.den.mono le⟩
      | some t' =>
        rw [hi] at h
        obtain ⟨h1, h2, _⟩ := h
        rw [h1]
        exact ⟨rfl, h2⟩)
    refine ⟨m', ?_, fin h4 h5 (h2.2.mono h3) hk⟩
    rw [res hk]
    simp only [opCode, tRemove]
    rw [run_then h1, h2.1]
    rfl

end
end Addrs

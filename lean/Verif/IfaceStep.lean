import Verif.IfaceFlat
/-
  Tables of an interface type `T`: each call on the heap does what it should, and which calls panic.
-/
set_option linter.unusedSectionVars false
namespace Addrs
open GoWord LawfulGoWord Heap Prog

/-! ### Programs that run alone -/
namespace Prog
variable {α D β γ τ : Type}

/-- a program on nodes returns, and leaves what was there -/
theorem run_nodes {Q : β → View α D → Prop} {P : Prog α D β} {m : Mem α D} (h : wp False Q P m.nodes Nowhere) :
    ∃ b m', P.run m = (.ret b, m') ∧ (∃ v', Q b v' ∧ v' ≤ m'.nodes) ∧ m'.objs = m.objs ∧ m.nodes ≤ m'.nodes := by
  obtain ⟨b, v', m', h1, h2, h3, h4, h5, h6⟩ := run_wp h (m := m) (fun _ _ h => h)
  refine ⟨b, m', h1, ⟨v', h2, h3⟩, h4, fun n c hn => ?_⟩
  have hl : n < m.heap.length := (List.getElem?_eq_some_iff.mp hn).1
  show m'.heap[n]? = some c
  rw [h6 n hl (fun h => h)]
  exact hn

theorem run_then {P : Prog α D β} {f : β → Prog α D γ} {m m' : Mem α D} {b : β} (h : P.run m = (.ret b, m')) : (P >>= f).run m = (f b).run m' := by
  rw [run_bind, h]

/-- a call that modifies an object returns, and stores the new pointer -/
theorem run_mutator {o : Nat} {m : Mem α D} {ob : Obj D} (ho : m.objs[o]? = some ob) {f : Obj D → Prog α D ((Bool × Ptr) × τ)}
    {Q : (Bool × Ptr) × τ → View α D → Prop} (h : wp False Q (f ob) m.nodes Nowhere) :
    ∃ x m', (tmutate o (readObj o >>= f)).run m = (.ret x.2, m') ∧ (∃ v', Q x v' ∧ v' ≤ m'.nodes) ∧ m.nodes ≤ m'.nodes ∧
      m'.objs = m.objs.set o { ob with trie := if x.1.1 then x.1.2 else ob.trie } := by
  obtain ⟨x, m', h1, h2, h3, h4⟩ := run_nodes h
  rw [run_tmutate ho, run_then h1]
  have hset : m.objs.set o ob = m.objs := by
    obtain ⟨e1, e2⟩ := List.getElem?_eq_some_iff.mp ho
    rw [← e2]; exact List.set_getElem_self e1
  by_cases hc : (x.1.1 && decide (ob.trie ≠ x.1.2)) = true
  · rw [if_pos hc]
    simp only [Bool.and_eq_true] at hc
    refine ⟨x, { m' with objs := m.objs.set o { ob with trie := x.1.2 } }, ?_, h2, h4, ?_⟩
    · show (swap o ob.trie x.1.2 >>= fun ok => if !ok then panic else pure x.2).run m' = _
      rw [run_bind]
      simp only [swap, Prog.run, h3, ho, if_true]
      rfl
    · rw [if_pos hc.1]
  · rw [if_neg hc]
    refine ⟨x, m', rfl, h2, h4, ?_⟩
    rw [h3]
    have : (if x.1.1 then x.1.2 else ob.trie) = ob.trie := by
      cases hx : x.1.1 with
      | false => rfl
      | true => rw [hx] at hc; simp at hc; exact hc.symm
    rw [this]
    exact hset.symm

end Prog

/-! ### When `insert` panics, with values that can be compared -/
namespace Trie
variable {α D : Type} [LawfulGoWord α] [Comparable D]

/-- `insert` panics only where it compares the old value with the new one -/
theorem insCrash_cmp {c : Comparator D} {o : InsertOpts D} {k : Prefix α} (hk : k.WF) {d : Option D} {t : Trie α D} (hi : TInv t) :
    InsCrash Comparable.toGoType c o k d t ↔ o.upd = true ∧ ∃ x, x ∈ t.entries ∧ SameKey x.1 k ∧ c x.2 d = none := by
  have hu : ∀ e : Option D, ¬ Unc Comparable.toGoType e := by
    intro e h
    unfold Unc at h
    rw [ifaceEq_eq] at h
    cases h
  induction t with
  | nil => exact ⟨fun h => h.elim, fun ⟨_, x, h, _⟩ => by cases h⟩
  | node p e n h act l r ihl ihr =>
    obtain ⟨wf, il, ir, hl, hr, two, eme⟩ := hi.inv
    have ihl := ihl hl
    have ihr := ihr hr
    have off : ∀ {m}, m < p.len → bit p.addr m ≠ bit k.addr m → m < k.len → ∀ x, x ∈ (node p e n h act l r).entries → ¬ SameKey x.1 k := by
      intro m h1 h2 h3 x hx hs
      have hs' := hi.subEq rfl hx
      exact h2 ((hs'.2 m h1).trans (hs.2 m (by have := hs'.1; omega)))
    rw [InsCrash]
    rcases compareP_cases wf hk with ⟨hs, hc⟩ | ⟨b, hs, hc⟩ | ⟨b, hs, hc⟩ | ⟨m, rev, b, h1, h2, h3, h4, h5, h6, hc⟩
    · rw [hc]
      constructor
      · rintro ⟨ha, hu, hcm⟩
        exact ⟨hu, (p, e), mem_node.mpr (Or.inl ⟨ha, rfl⟩), hs, hcm⟩
      · rintro ⟨hu, x, hx, hxk, hcm⟩
        rcases mem_node.mp hx with ⟨ha, rfl⟩ | hx | hx
        · exact ⟨ha, hu, hcm⟩
        · exact absurd (hs.trans hxk.symm) (hl.side il hx).not_sameKey
        · exact absurd (hs.trans hxk.symm) (hr.side ir hx).not_sameKey
    · have hsame : (∃ x, x ∈ (node p e n h act l r).entries ∧ SameKey x.1 k ∧ c x.2 d = none) ↔
          ∃ x, x ∈ (if b then r else l).entries ∧ SameKey x.1 k ∧ c x.2 d = none := by
        constructor
        · rintro ⟨x, hx, hxk, hcm⟩
          rcases mem_node.mp hx with ⟨_, rfl⟩ | hx | hx
          · exact absurd hxk hs.not_sameKey
          · cases b with
            | false => exact ⟨x, hx, hxk, hcm⟩
            | true => exact absurd hxk ((hl.side il hx).ne_of_side hs (by simp))
          · cases b with
            | true => exact ⟨x, hx, hxk, hcm⟩
            | false => exact absurd hxk ((hr.side ir hx).ne_of_side hs (by simp))
        · rintro ⟨x, hx, hxk, hcm⟩
          refine ⟨x, mem_node.mpr ?_, hxk, hcm⟩
          cases b
          · exact Or.inr (Or.inl hx)
          · exact Or.inr (Or.inr hx)
      rw [hsame, hc]
      cases b with
      | true => simp only [if_true, ihr, hu, and_false, or_false]
      | false => simp only [Bool.false_eq_true, if_false, ihl, hu, and_false, or_false]
    · rw [hc]
      refine ⟨fun h => h.elim, ?_⟩
      rintro ⟨_, x, hx, hxk, _⟩
      exact not_sameKey_of_shorter hs.lt (hi.subEq rfl hx) hxk
    · rw [hc]
      refine ⟨fun h => h.elim, ?_⟩
      rintro ⟨_, x, hx, hxk, _⟩
      exact off h1 h4 h2 x hx hxk

end Trie

section
variable {α V σ : Type} [LawfulGoWord α] [Comparable V] {F : Nat}

/-- The comparison function that the table carries on the heap, and the one on values of `T`. -/
inductive EqFn.IfaceOf : EqFn V → EqFn (Option V) → Prop
  | nil : IfaceOf .nil .nil
  | dflt : IfaceOf .dflt .dflt
  | custom (c : Option V → Option V → Bool) : IfaceOf (ifaceCustom c) (.custom c)

/-- the comparison function as a function on values of `T` -/
def EqFn.valI : EqFn (Option V) → Option (Option V → Option V → Bool)
  | .nil => none
  | .dflt => some fun a b => decide (a = b)
  | .custom cmp => some cmp

/-- `ob` on the heap is the table `a` -/
def Obj.StandsI (v : View α V) (ob : Obj V) (a : AbsTable α (Option V)) : Prop :=
  Den v ob.trie a.table.trie.flat ∧ a.table.Reachable ∧ EqFn.IfaceOf ob.eq a.cmp ∧ a.table.eq = a.cmp.valI

theorem Obj.StandsI.mono {v v' : View α V} (h : v ≤ v') {ob : Obj V} {a : AbsTable α (Option V)} (hs : ob.StandsI v a) : ob.StandsI v' a :=
  ⟨hs.1.mono h, hs.2⟩

theorem Obj.StandsI.full {v : View α V} {ob : Obj V} {a : AbsTable α (Option V)} (hs : ob.StandsI v a) : a.table.trie.Full :=
  Trie.full_of hs.2.1.good.some

theorem Obj.StandsI.deep {v : View α V} {ob : Obj V} {a : AbsTable α (Option V)} (hs : ob.StandsI v a) : a.table.trie.flat.deep ≤ width α + 1 := by
  rw [Trie.flat_deep]; exact hs.2.1.good.inv.deep_le'

theorem Obj.StandsI.inv {v : View α V} {ob : Obj V} {a : AbsTable α (Option V)} (hs : ob.StandsI v a) : a.table.trie.flat.TInv :=
  hs.2.1.good.inv.flat

/-- the comparison function does not panic unless it is custom and gets a nil -/
theorem EqFn.IfaceOf.le {e : EqFn V} {c : EqFn (Option V)} (h : EqFn.IfaceOf e c) {f : Option V → Option V → Bool} (hf : c.valI = some f) :
    CmpLe e.call (fun a b => some (f a b)) := by
  intro a b x hx
  cases h with
  | nil => cases hf
  | dflt =>
    cases hf
    rw [← hx]
    exact (ifaceEq_eq a b).symm
  | custom c =>
    cases hf
    cases a <;> cases b <;> first | exact hx | (cases hx; done)

/-- a nil cannot be given to the comparison function -/
def EqFn.Picky : EqFn (Option V) → Prop
  | .custom _ => True
  | _ => False

theorem EqFn.IfaceOf.call_none {e : EqFn V} {c : EqFn (Option V)} (h : EqFn.IfaceOf e c) (hn : c ≠ .nil) {a b : Option V} :
    e.call a b = none ↔ c.Picky ∧ (a = none ∨ b = none) := by
  cases h with
  | nil => exact (hn rfl).elim
  | dflt =>
    show ifaceEq a b = none ↔ _
    rw [ifaceEq_eq]
    exact ⟨fun h => (by cases h), fun h => h.1.elim⟩
  | custom c =>
    show customComparator _ a b = none ↔ _
    cases a <;> cases b <;> simp [customComparator, EqFn.Picky]

theorem EqFn.valI_some {c : EqFn (Option V)} (h : c ≠ .nil) : ∃ f, c.valI = some f := by
  cases c with
  | nil => exact (h rfl).elim
  | dflt => exact ⟨_, rfl⟩
  | custom c => exact ⟨_, rfl⟩

/-- what the program can see of the memory, and the `Table`s that it has got, are the world -/
structure TWorld.MatchesI (w : TWorld α (Option V)) (m : Mem α V) (regs : List (Obj V)) : Prop where
  nvars : m.objs.length = w.vars.length
  vars : ∀ {o : Nat} {ob : Obj V} {a : AbsTable α (Option V)}, m.objs[o]? = some ob → w.vars[o]? = some a → ob.StandsI m.nodes a ∧ a.cmp ≠ .nil
  nvals : regs.length = w.vals.length
  vals : ∀ {t : Nat} {ob : Obj V} {a : AbsTable α (Option V)}, regs[t]? = some ob → w.vals[t]? = some a → ob.StandsI m.nodes a

namespace TWorld.MatchesI
variable {w : TWorld α (Option V)} {m m' : Mem α V} {regs : List (Obj V)}

theorem val (M : w.MatchesI m regs) {t : Nat} (ht : t < w.vals.length) : (regs.getD t .zero).StandsI m.nodes (w.val t) := by
  have ht' : t < regs.length := by rw [M.nvals]; exact ht
  have h1 : regs[t]? = some regs[t] := List.getElem?_eq_getElem ht'
  have h2 : w.vals[t]? = some w.vals[t] := List.getElem?_eq_getElem ht
  have := M.vals h1 h2
  rw [List.getD_eq_getElem?_getD, h1, TWorld.val, h2]
  exact this

theorem var (M : w.MatchesI m regs) {o : Nat} (ho : o < w.vars.length) : ∃ ob a, m.objs[o]? = some ob ∧ w.vars[o]? = some a ∧
    w.var (some o) = a.table ∧ ob.StandsI m.nodes a ∧ a.cmp ≠ .nil := by
  have ho' : o < m.objs.length := by rw [M.nvars]; exact ho
  have h1 : m.objs[o]? = some m.objs[o] := List.getElem?_eq_getElem ho'
  have h2 : w.vars[o]? = some w.vars[o] := List.getElem?_eq_getElem ho
  exact ⟨_, _, h1, h2, by simp [TWorld.var, h2], M.vars h1 h2⟩

theorem keep (M : w.MatchesI m regs) (h : m'.objs = m.objs) (le : m.nodes ≤ m'.nodes) : w.MatchesI m' regs where
  nvars := by rw [h]; exact M.nvars
  vars := fun h1 h2 => by rw [h] at h1; exact ⟨(M.vars h1 h2).1.mono le, (M.vars h1 h2).2⟩
  nvals := M.nvals
  vals := fun h1 h2 => (M.vals h1 h2).mono le

theorem got (M : w.MatchesI m regs) {t : Obj V} {a : AbsTable α (Option V)} (h : t.StandsI m.nodes a) : (w.got a).MatchesI m (regs ++ [t]) where
  nvars := M.nvars
  vars := M.vars
  nvals := by simp [TWorld.got, M.nvals]
  vals := by
    intro i ob b h1 h2
    simp only [TWorld.got] at h2
    rcases Nat.lt_or_ge i regs.length with hl | hl
    · rw [List.getElem?_append_left hl] at h1
      rw [List.getElem?_append_left (by rw [← M.nvals]; exact hl)] at h2
      exact M.vals h1 h2
    · rw [List.getElem?_append_right hl] at h1
      rw [List.getElem?_append_right (by rw [← M.nvals]; exact hl), ← M.nvals] at h2
      have : i - regs.length = 0 := by
        have := (List.getElem?_eq_some_iff.mp h1).1
        simp at this; omega
      rw [this] at h1 h2
      simp at h1 h2
      subst h1 h2
      exact h

theorem declare (M : w.MatchesI m regs) {ob : Obj V} {a : AbsTable α (Option V)} (h : m'.objs = m.objs ++ [ob]) (le : m.nodes ≤ m'.nodes)
    (hs : ob.StandsI m'.nodes a) (hn : a.cmp ≠ .nil) : TWorld.MatchesI { w with vars := w.vars ++ [a] } m' regs where
  nvars := by rw [h]; simp [M.nvars]
  nvals := M.nvals
  vals := fun h1 h2 => (M.vals h1 h2).mono le
  vars := by
    intro i x b h1 h2
    rw [h] at h1
    simp only at h2
    rcases Nat.lt_or_ge i m.objs.length with hl | hl
    · rw [List.getElem?_append_left hl] at h1
      rw [List.getElem?_append_left (by rw [← M.nvars]; exact hl)] at h2
      exact ⟨(M.vars h1 h2).1.mono le, (M.vars h1 h2).2⟩
    · rw [List.getElem?_append_right hl] at h1
      rw [List.getElem?_append_right (by rw [← M.nvars]; exact hl), ← M.nvars] at h2
      have : i - m.objs.length = 0 := by
        have := (List.getElem?_eq_some_iff.mp h1).1
        simp at this; omega
      rw [this] at h1 h2
      simp at h1 h2
      subst h1 h2
      exact ⟨hs, hn⟩

theorem assign (M : w.MatchesI m regs) {o : Nat} {ob : Obj V} {a : AbsTable α (Option V)} {new : Ptr} {T : Table α (Option V)}
    (ho : m.objs[o]? = some ob) (ha : w.vars[o]? = some a) (h : m'.objs = m.objs.set o { ob with trie := new }) (le : m.nodes ≤ m'.nodes)
    (hs : Den m'.nodes new T.trie.flat) (hT : T.Reachable) (he : T.eq = a.table.eq) : (w.assign (some o) T).MatchesI m' regs where
  nvars := by rw [h]; simp [TWorld.assign, M.nvars]
  nvals := M.nvals
  vals := fun h1 h2 => (M.vals h1 h2).mono le
  vars := by
    intro i x b h1 h2
    rw [h] at h1
    simp only [TWorld.assign, List.getElem?_modify] at h2
    obtain ⟨hst, hn⟩ := M.vars ho ha
    by_cases e : o = i
    · subst e
      rw [ha] at h2
      simp at h2
      rw [List.getElem?_set_self (List.getElem?_eq_some_iff.mp ho).1] at h1
      cases h1
      subst h2
      exact ⟨⟨hs, hT, hst.2.2.1, he.trans hst.2.2.2⟩, hn⟩
    · rw [List.getElem?_set_ne e] at h1
      simp [e] at h2
      exact ⟨(M.vars h1 h2).1.mono le, (M.vars h1 h2).2⟩

end TWorld.MatchesI

/-! ### Writes -/

/-- A custom comparison function would get a nil: it is called if there is an entry for `k`, with its value and `v`. -/
def TableOp.NilCrash (a : AbsTable α (Option V)) : TableOp α (Option V) → Prop
  | .update k v | .insertOrUpdate k v => a.cmp.Picky ∧ (a.table.get k).2 = true ∧ ((a.table.get k).1 = none ∨ v = none)
  | _ => False

theorem get_entries {T : Table α (Option V)} (hT : T.Reachable) {k : PrefixI α} (v : Option V) :
    ((T.get k).2 = true ∧ ((T.get k).1 = none ∨ v = none)) ↔
      ∃ x, x ∈ T.trie.flat.entries ∧ SameKey x.1 k.code ∧ (x.2 = none ∨ v = none) := by
  have hs := Table.get_spec hT.good k
  rw [Trie.flat_entries, PrefixI.code_eq]
  have hb : ∀ (d : Option (Option V)), (Table.unbox d : Option V) = d.join := fun d => by cases d <;> rfl
  constructor
  · rintro ⟨h1, h2⟩
    by_cases hx : ∃ x, x ∈ T.trie.entries ∧ SameKey x.1 k.toPrefix
    · obtain ⟨x, hx, hxk⟩ := hx
      refine ⟨(x.1, x.2.join), List.mem_map.mpr ⟨x, hx, rfl⟩, hxk, ?_⟩
      rw [hs.1 x hx hxk] at h2
      rw [← hb]; exact h2
    · rw [hs.2 fun x h h' => hx ⟨x, h, h'⟩] at h1
      cases h1
  · rintro ⟨y, hy, hyk, hc⟩
    obtain ⟨x, hx, rfl⟩ := List.mem_map.mp hy
    rw [hs.1 x hx hyk]
    refine ⟨rfl, ?_⟩
    rw [hb]; exact hc

/-- `insert` of the trie, if the comparison function does not get a nil -/
theorem wp_insertI_at {i u : Bool} (hF : width α + 2 ≤ F) {v : View α V} {ob : Obj V} {a : AbsTable α (Option V)} (hs : ob.StandsI v a)
    {c : Comparator V} {f : Option V → Option V → Bool} (hc : CmpLe c (fun a b => some (f a b)))
    {k : PrefixI α} (hk : k.code.WF) {d : Option V}
    (hno : u = true → ∀ x, x ∈ a.table.trie.flat.entries → SameKey x.1 k.code → c x.2 d ≠ none) {W : Nat → Prop} {n : Nat} (hn : v n = none) (hW : W n) :
    wp False (fun x v' => match Trie.insert ⟨i, u, liftEq f⟩ k.code (some d) a.table.trie with
      | none => x = (ob.trie, true)
      | some t' => x.2 = false ∧ Den v' x.1 t'.flat)
      (insert ⟨i, u, c⟩ n F ob.trie) (v.set n (freshCell k.code d)) W := by
  have hd := hs.deep
  refine wp_mono (fun _ h => h) ?_ (wp_insert_on (A := Comparable.toGoType) (fun _ _ _ h => h) hc (ve := f) (t := a.table.trie.flat) (by omega) (fun x _ _ => rfl) hn hW hs.1
    (calm_insert (A := Comparable.toGoType) (fun _ _ _ h => h) hc (ve := f) F (t := a.table.trie.flat) (by omega) (fun x _ _ => rfl) ?_ hn hW hs.1))
  · rintro x v' ⟨_, h⟩
    rw [Trie.insert_flat hs.full] at h
    cases hi : Trie.insert ⟨i, u, liftEq f⟩ k.code (some d) a.table.trie with
    | none => rw [hi] at h; exact h
    | some t' => rw [hi] at h; exact ⟨h.1, h.2.1⟩
  · rw [Trie.insCrash_cmp hk hs.inv]
    rintro ⟨hu, x, hx, hxk, hcx⟩
    exact hno hu x hx hxk hcx

theorem wp_insertI {i u : Bool} (hF : width α + 2 ≤ F) {v : View α V} {ob : Obj V} {a : AbsTable α (Option V)} (hs : ob.StandsI v a)
    {c : Comparator V} {f : Option V → Option V → Bool} (hc : CmpLe c (fun a b => some (f a b)))
    {k : PrefixI α} (hk : k.code.WF) {d : Option V}
    (hno : u = true → ∀ x, x ∈ a.table.trie.flat.entries → SameKey x.1 k.code → c x.2 d ≠ none) {W : Nat → Prop} :
    wp False (fun x v' => match Trie.insert ⟨i, u, liftEq f⟩ k.code (some d) a.table.trie with
      | none => x = (ob.trie, true)
      | some t' => x.2 = false ∧ Den v' x.1 t'.flat)
      (new (freshCell k.code d) >>= fun n => insert ⟨i, u, c⟩ n F ob.trie) v W :=
  wp_new fun _ hn => wp_insertI_at hF hs hc hk hno hn (Or.inl rfl)

theorem wp_InsertOrUpdateI (hF : width α + 2 ≤ F) {v : View α V} {ob : Obj V} {a : AbsTable α (Option V)} (hs : ob.StandsI v a)
    {c : Comparator V} {f : Option V → Option V → Bool} (hc : CmpLe c (fun a b => some (f a b)))
    {k : PrefixI α} (hk : k.code.WF) {d : Option V}
    (hno : ∀ x, x ∈ a.table.trie.flat.entries → SameKey x.1 k.code → c x.2 d ≠ none) {W : Nat → Prop} :
    wp False (fun x v' => ∃ t', Trie.insert ⟨true, true, liftEq f⟩ k.code (some d) a.table.trie = some t' ∧ Den v' x t'.flat)
      (InsertOrUpdate F c ob.trie k.code d) v W := by
  unfold InsertOrUpdate
  refine wp_new fun n hn => wp_bind ?_
  refine wp_mono (fun _ h => h) ?_ (wp_insertI_at (i := true) (u := true) hF hs hc hk (fun _ => hno) hn (Or.inl rfl))
  rintro ⟨x, err⟩ v' h
  obtain ⟨t', ht'⟩ := insert_both (k := k.code) (d := some d) (ve := liftEq f) a.table.trie
  rw [ht'] at h
  obtain ⟨rfl, h2⟩ := h
  exact ⟨t', ht', h2⟩

theorem step_eq_eq (T : Table α (Option V)) (p : TableOp α (Option V)) : (T.step p).1.eq = T.eq := by
  cases p with
  | insert k v => simp only [Table.step, Table.insert]; split <;> rfl
  | update k v => simp only [Table.step, Table.update]; split <;> rfl
  | insertOrUpdate k v => simp only [Table.step, Table.insertOrUpdate]; split <;> rfl
  | get k => rfl
  | getOrInsert k v => rfl
  | remove k => simp only [Table.step, Table.remove]; split <;> rfl

theorem wp_xLongestMatchI {v : View α V} {ob : Obj V} {a : AbsTable α (Option V)} (hs : ob.StandsI v a) (hF : width α + 2 ≤ F) (k : PrefixI α)
    {W : Nat → Prop} : wp False (fun x _ => x = (a.table.longestMatch' k).map fun y => (y.1.join, y.2)) (xLongestMatch F ob k) v W := by
  have hd := hs.deep
  unfold xLongestMatch
  refine wp_call (wp_match k.code F (by omega) hs.1) ?_
  intro x v' le h
  rw [Trie.match_flat] at h
  unfold Table.longestMatch'
  cases x with
  | none =>
    simp only at h ⊢
    cases hm : a.table.trie.match k.code with
    | none => rfl
    | some y => rw [hm] at h; cases h
  | some n =>
    obtain ⟨c, hc, h⟩ := h
    refine wp_deref (le _ _ hc) ?_
    cases hm : a.table.trie.match k.code with
    | none => rw [hm] at h; cases h
    | some y =>
      rw [hm] at h
      simp only [Option.map_some, Option.some.injEq, Prod.mk.injEq] at h
      show some (c.data, _, c.pfx) = _
      simp only [Option.map_some, h.1, h.2]

theorem wp_ixGet {v : View α V} {ob : Obj V} {a : AbsTable α (Option V)} (hs : ob.StandsI v a) (hF : width α + 2 ≤ F) (k : PrefixI α)
    {W : Nat → Prop} : wp False (fun x _ => x = a.table.get k) (ixGet F ob k) v W := by
  unfold ixGet
  refine wp_call (wp_xLongestMatchI hs hF k) ?_
  rintro x v' _ rfl
  have hb : ∀ (d : Option (Option V)), (Table.unbox d : Option V) = d.join := fun d => by cases d <;> rfl
  unfold Table.get
  cases a.table.longestMatch' k with
  | none => exact rfl
  | some y =>
    obtain ⟨d, b, p⟩ := y
    cases b with
    | false => exact rfl
    | true =>
      show (d.join, true) = (Table.unbox d, true)
      rw [hb]

theorem wp_ixLongest {v : View α V} {ob : Obj V} {a : AbsTable α (Option V)} (hs : ob.StandsI v a) (hF : width α + 2 ≤ F) (k : PrefixI α)
    {W : Nat → Prop} : wp False (fun x _ => x = a.table.longestMatch k) (ixLongest F ob k) v W := by
  unfold ixLongest
  refine wp_call (wp_xLongestMatchI hs hF k) ?_
  rintro x v' _ rfl
  have hb : ∀ (d : Option (Option V)), (Table.unbox d : Option V) = d.join := fun d => by cases d <;> rfl
  unfold Table.longestMatch
  cases a.table.longestMatch' k with
  | none => exact rfl
  | some y =>
    obtain ⟨d, b, p⟩ := y
    show (d.join, true, p) = (Table.unbox d, true, p)
    rw [hb]

omit [LawfulGoWord α] [Comparable V] in
theorem readObj_run {β : Type} {o : Nat} {m : Mem α V} {ob : Obj V} (ho : m.objs[o]? = some ob) (k : Obj V → Prog α V β) :
    (readObj o >>= k).run m = (k ob).run m := by
  rw [run_bind]
  simp only [readObj, Prog.run, ho]

/-- a call of a method of `Table_` that does not give a nil to a custom comparison function -/
theorem opI_ok (hF : 2 * width α + 3 ≤ F) {w : TWorld α (Option V)} {m : Mem α V} {regs : List (Obj V)} (M : w.MatchesI m regs) {o : Nat} {ob : Obj V}
    {a : AbsTable α (Option V)} (ho : m.objs[o]? = some ob) (ha : w.vars[o]? = some a) {p : TableOp α (Option V)}
    (hk : p.writes = true → p.key.toPrefix.WF) (hno : ¬ p.NilCrash a) :
    ∃ m', (opCodeI F (some o) p).run m = (.ret (a.table.step p).2, m') ∧ (w.assign (some o) (a.table.step p).1).MatchesI m' regs := by
  obtain ⟨hs, hne⟩ := M.vars ho ha
  have hr : p.writes = true → (a.table.step p).1.Reachable := fun hw => .step _ _ hs.2.1 (by
    rw [hs.2.2.2]
    obtain ⟨f, hf⟩ := EqFn.valI_some hne
    rw [hf]; simp) (hk hw)
  obtain ⟨f, hf⟩ := EqFn.valI_some hne
  have hle := hs.2.2.1.le hf
  have hcmp : a.table.cmp = liftEq f := by unfold Table.cmp; rw [hs.2.2.2, hf]; rfl
  have hd := hs.deep
  have fin : ∀ {m' : Mem α V} {new : Ptr}, m.nodes ≤ m'.nodes → m'.objs = m.objs.set o { ob with trie := new } →
      Den m'.nodes new (a.table.step p).1.trie.flat → p.writes = true → (w.assign (some o) (a.table.step p).1).MatchesI m' regs :=
    fun h1 h2 h3 h4 => M.assign ho ha h2 h1 h3 (hr h4) (step_eq_eq _ _)
  have picky : ∀ {k : PrefixI α} {v : Option V}, ¬ (a.cmp.Picky ∧ (a.table.get k).2 = true ∧ ((a.table.get k).1 = none ∨ v = none)) →
      ∀ x, x ∈ a.table.trie.flat.entries → SameKey x.1 k.code → ob.eq.call x.2 v ≠ none := by
    intro k v h x hx hxk hcx
    obtain ⟨h1, h2⟩ := (hs.2.2.1.call_none hne).mp hcx
    exact h ⟨h1, (get_entries hs.2.1 v).mpr ⟨x, hx, hxk, h2⟩⟩
  cases p with
  | get k =>
    obtain ⟨b, m', h1, ⟨v', h2, _⟩, h3, h4⟩ := run_nodes (wp_ixGet (F := F) hs (by omega) k)
    subst h2
    refine ⟨m', ?_, ?_⟩
    · simp only [opCodeI, iGet]
      rw [run_then ((readObj_run ho _).trans h1)]
      rfl
    · refine M.assign (new := ob.trie) (T := a.table) ho ha ?_ h4 (hs.1.mono h4) hs.2.1 rfl
      rw [h3]
      obtain ⟨e1, e2⟩ := List.getElem?_eq_some_iff.mp ho
      rw [← e2]; exact (List.set_getElem_self e1).symm
  | insert k v =>
    have hk : k.code.WF := by rw [PrefixI.code_eq]; exact hk rfl
    have hw := wp_insertI (F := F) (i := true) (u := false) (f := fun _ _ => false) (c := nilComparator) (W := Nowhere) (by omega) hs (fun _ _ _ h => by cases h) hk (d := v) (fun h => by cases h)
    rw [Trie.insert_no rfl (e' := fun _ _ => false)] at hw
    obtain ⟨x, m', h1, ⟨v', h2, h3⟩, h4, h5⟩ := run_mutator (f := fun m => do
      let x ← Insert F m.trie k.code v
      pure (if x.2 then ((false, none), false) else ((true, x.1), true))) ho
      (Q := fun x v' => x.2 = (a.table.insert k v).2 ∧ Den v' (if x.1.1 then x.1.2 else ob.trie) (a.table.insert k v).1.trie.flat) (by
      refine wp_call hw ?_
      intro x v' le h
      unfold Table.insert
      cases hi : Trie.insert ⟨true, false, fun _ _ => false⟩ k.code (some v) a.table.trie with
      | none =>
        rw [hi] at h
        subst h
        exact ⟨rfl, hs.1.mono le⟩
      | some t' =>
        rw [hi] at h
        obtain ⟨h1, h2⟩ := h
        rw [h1]
        exact ⟨rfl, h2⟩)
    refine ⟨m', ?_, fin h4 h5 (h2.2.mono h3) rfl⟩
    simp only [opCodeI, iInsert]
    rw [run_then h1, h2.1]
    rfl
  | update k v =>
    have hk : k.code.WF := by rw [PrefixI.code_eq]; exact hk rfl
    have hw := wp_insertI (F := F) (i := false) (u := true) (W := Nowhere) (by omega) hs hle hk (d := v) (fun _ => picky hno)
    rw [← hcmp] at hw
    obtain ⟨x, m', h1, ⟨v', h2, h3⟩, h4, h5⟩ := run_mutator (f := fun m => do
      let x ← Update F m.eq.call m.trie k.code v
      pure (if x.2 then ((false, none), false) else ((true, x.1), true))) ho
      (Q := fun x v' => x.2 = (a.table.update k v).2 ∧ Den v' (if x.1.1 then x.1.2 else ob.trie) (a.table.update k v).1.trie.flat) (by
      refine wp_call hw ?_
      intro x v' le h
      unfold Table.update
      cases hi : Trie.insert ⟨false, true, a.table.cmp⟩ k.code (some v) a.table.trie with
      | none =>
        rw [hi] at h
        subst h
        exact ⟨rfl, hs.1.mono le⟩
      | some t' =>
        rw [hi] at h
        obtain ⟨h1, h2⟩ := h
        rw [h1]
        exact ⟨rfl, h2⟩)
    refine ⟨m', ?_, fin h4 h5 (h2.2.mono h3) rfl⟩
    simp only [opCodeI, iUpdate]
    rw [run_then h1, h2.1]
    rfl
  | insertOrUpdate k v =>
    have hk : k.code.WF := by rw [PrefixI.code_eq]; exact hk rfl
    have hw := wp_InsertOrUpdateI (F := F) (W := Nowhere) (by omega) hs hle hk (d := v) (picky hno)
    rw [← hcmp] at hw
    obtain ⟨x, m', h1, ⟨v', h2, h3⟩, h4, h5⟩ := run_mutator (f := fun m => do
      let x ← InsertOrUpdate F m.eq.call m.trie k.code v
      pure ((true, x), ())) ho
      (Q := fun x v' => Den v' (if x.1.1 then x.1.2 else ob.trie) (a.table.insertOrUpdate k v).trie.flat) (by
      refine wp_call hw ?_
      rintro x v' le ⟨t', ht', h⟩
      unfold Table.insertOrUpdate
      rw [ht']
      exact h)
    refine ⟨m', ?_, fin h4 h5 (h2.mono h3) rfl⟩
    simp only [opCodeI, iInsertOrUpdate]
    rw [run_then h1]
    rfl
  | getOrInsert k v =>
    have hk : k.code.WF := by rw [PrefixI.code_eq]; exact hk rfl
    obtain ⟨x, m', h1, ⟨v', h2, h3⟩, h4, h5⟩ := run_mutator (f := fun m => do
      let x ← getOrInsert k.code v F m.trie
      pure ((true, x.1), x.2)) ho
      (Q := fun x v' => Den v' (if x.1.1 then x.1.2 else ob.trie) (a.table.getOrInsert k v).1.trie.flat ∧
        ∃ n c, x.2 = some n ∧ v' n = some c ∧ c.data = (a.table.getOrInsert k v).2) (by
      refine wp_call (wp_getOrInsert hk F (t := a.table.trie.flat) (by omega) hs.inv hs.1) ?_
      rintro ⟨x, y⟩ v' le ⟨h1, _, h2, _⟩
      rw [Trie.getOrInsert_flat hs.full] at h1 h2
      refine ⟨h1, ?_⟩
      obtain ⟨n, c, e1, e2, e3⟩ := h2
      refine ⟨n, c, e1, e2, e3.trans ?_⟩
      unfold Table.getOrInsert
      simp only
      cases (Trie.getOrInsert k.code (some v) a.table.trie).2 <;> rfl)
    obtain ⟨h2, n, c, e1, e2, e3⟩ := h2
    refine ⟨m', ?_, fin h4 h5 (h2.mono h3) rfl⟩
    simp only [opCodeI, iGetOrInsert]
    rw [run_then (b := c.data) (m' := m')]
    · rw [e3]; rfl
    · rw [run_then h1, e1]
      have : m'.heap[n]? = some c := h3 _ _ e2
      show (deref (some n) >>= fun c => pure c.data).run m' = _
      rw [run_bind]
      simp only [deref, Prog.run, this]
      rfl
  | remove k =>
    obtain ⟨x, m', h1, ⟨v', h2, h3⟩, h4, h5⟩ := run_mutator (f := fun m => do
      let x ← del k.code F m.trie
      pure ((true, x.1), !x.2)) ho
      (Q := fun x v' => x.2 = (a.table.remove k).2 ∧ Den v' (if x.1.1 then x.1.2 else ob.trie) (a.table.remove k).1.trie.flat) (by
      refine wp_call (wp_del F (t := a.table.trie.flat) (by omega) hs.1) ?_
      intro x v' le h
      rw [Trie.del_flat] at h
      unfold Table.remove
      cases hi : Trie.del k.code a.table.trie with
      | none =>
        rw [hi] at h
        simp only [Option.map_none] at h
        subst h
        exact ⟨rfl, hs.1.mono le⟩
      | some t' =>
        rw [hi] at h
        obtain ⟨h1, h2, _⟩ := h
        rw [h1]
        exact ⟨rfl, h2⟩)
    refine ⟨m', ?_, fin h4 h5 (h2.2.mono h3) rfl⟩
    simp only [opCodeI, tRemove]
    rw [run_then h1, h2.1]
    rfl

/-- a call that gives a nil to a custom comparison function panics -/
theorem opI_panics (hF : 2 * width α + 3 ≤ F) {w : TWorld α (Option V)} {m : Mem α V} {regs : List (Obj V)} (M : w.MatchesI m regs) {o : Nat} {ob : Obj V}
    {a : AbsTable α (Option V)} (ho : m.objs[o]? = some ob) (ha : w.vars[o]? = some a) {p : TableOp α (Option V)}
    (hk : p.key.toPrefix.WF) (hc : p.NilCrash a) : ((opCodeI F (some o) p).run m).1 = .panic := by
  obtain ⟨hs, hne⟩ := M.vars ho ha
  obtain ⟨f, hf⟩ := EqFn.valI_some hne
  have hle := hs.2.2.1.le hf
  have hd := hs.deep
  have crash : ∀ {i : Bool} {k : PrefixI α} {v : Option V}, k.toPrefix.WF →
      (a.cmp.Picky ∧ (a.table.get k).2 = true ∧ ((a.table.get k).1 = none ∨ v = none)) → ∀ {n}, m.nodes n = none →
      Panics (insert ⟨i, true, ob.eq.call⟩ n F ob.trie) (m.nodes.set n (freshCell k.code v)) := by
    intro i k v hk h n hn
    have hk : k.code.WF := by rw [PrefixI.code_eq]; exact hk
    refine panics_insert (A := Comparable.toGoType) (fun _ _ _ h => h) hle (ve := f) F (t := a.table.trie.flat) (by omega) (fun x _ _ => rfl) ?_ hn hs.1
    rw [Trie.insCrash_cmp hk hs.inv]
    obtain ⟨x, hx, hxk, h2⟩ := (get_entries hs.2.1 v).mp h.2
    exact ⟨rfl, x, hx, hxk, (hs.2.2.1.call_none hne).mpr ⟨h.1, h2⟩⟩
  cases p with
  | update k v =>
    refine run_bind_panic (tmutate_panic ho (run_bind_panic (Panics.run (v := m.nodes) ?_ (fun _ _ h => h)) _)) _
    exact panics_new fun n hn => crash hk hc hn
  | insertOrUpdate k v =>
    refine run_bind_panic (tmutate_panic ho (run_bind_panic (Panics.run (v := m.nodes) ?_ (fun _ _ h => h)) _)) _
    exact panics_new fun n hn => (crash hk hc hn).bind
  | insert k v => exact hc.elim
  | get k => exact hc.elim
  | getOrInsert k v => exact hc.elim
  | remove k => exact hc.elim

end
end Addrs

import Verif.Seq
/-
  Sequential programs over the table API, and what they would see if tables were plain values.
-/
set_option linter.unusedSectionVars false
namespace Addrs
open GoWord LawfulGoWord Heap

/-- A call as a program writes it: `h` is a variable of type `Table_` (`none` an uninitialised one), `t`, `u`
    number the `Table` values that the program has got so far (0 is `Table{}`). -/
inductive TCmd (α D σ : Type) where
  | new_
  | newCustom (cmp : D → D → Bool)
  | op (h : Option Nat) (o : TableOp α D)
  | longest (h : Option Nat) (k : PrefixI α)
  | num (h : Option Nat)
  | freeze (h : Option Nat)
  | thaw (t : Nat)
  | xget (t : Nat) (k : PrefixI α)
  | xlongest (t : Nat) (k : PrefixI α)
  | xnum (t : Nat)
  | walk (t : Nat) (cb : Prefix α → D → σ → σ × Bool) (s : σ)
  | diff (t u : Nat) (cb : TableDiffCallbacks α D σ) (s : σ)
  | map (t : Nat) (f : Option (Prefix α → D → σ → D × σ)) (s : σ)
  | aggregate (t : Nat)

/-- what a program can see of the result of a call -/
inductive TSeen (α D σ : Type) where
  | handle (o : Nat)
  | table
  | result (r : Result D)
  | «match» (x : D × Bool × Prefix α)
  | num (n : Nat)
  | walked (x : σ × Bool)
  | mapped (s : σ)

/-- a table as a plain value, with the comparison function it carries -/
structure AbsTable (α D : Type) where
  table : Table α D
  cmp : EqFn D

/-- the world as the program should see it: variables that hold tables, and the tables it has got -/
structure TWorld (α D : Type) where
  vars : List (AbsTable α D)
  vals : List (AbsTable α D)

section
variable {α D σ : Type}

/-- the call on the heap; `r` are the `Table`s the program has got -/
def TCmd.call (r : List (Obj D)) : TCmd α D σ → TCall α D σ
  | new_ => .new_
  | newCustom cmp => .newCustom cmp
  | op h o => .op h o
  | longest h k => .longest h k
  | num h => .num h
  | freeze h => .freeze h
  | thaw t => .thaw (r.getD t .zero)
  | xget t k => .xget (r.getD t .zero) k
  | xlongest t k => .xlongest (r.getD t .zero) k
  | xnum t => .xnum (r.getD t .zero)
  | walk t cb s => .walk (r.getD t .zero) cb s
  | diff t u cb s => .diff (r.getD t .zero) (r.getD u .zero) cb s
  | map t f s => .map (r.getD t .zero) f s
  | aggregate t => .aggregate (r.getD t .zero)

def TVal.seen : TVal α D σ → TSeen α D σ
  | handle o => .handle o
  | table _ => .table
  | result r => .result r
  | «match» x => .match x
  | num n => .num n
  | walked x => .walked x
  | mapped _ s => .mapped s

variable [LawfulGoWord α] [Inhabited D] [DecidableEq D]

/-- `Table{}` -/
def AbsTable.zero : AbsTable α D := ⟨Table.empty, .nil⟩
/-- what variable `h` holds; an uninitialised one reads as empty -/
def TWorld.var (w : TWorld α D) : Option Nat → Table α D
  | none => Table.empty
  | some o => ((w.vars[o]?).getD .zero).table
/-- the `t`th `Table` -/
def TWorld.val (w : TWorld α D) (t : Nat) : AbsTable α D := (w.vals[t]?).getD .zero
/-- a new variable -/
def TWorld.declare (w : TWorld α D) (a : AbsTable α D) : TSeen α D σ × TWorld α D :=
  (.handle w.vars.length, { w with vars := w.vars ++ [a] })
/-- one more `Table` -/
def TWorld.got (w : TWorld α D) (a : AbsTable α D) : TWorld α D := { w with vals := w.vals ++ [a] }
/-- assignment to variable `h` -/
def TWorld.assign (w : TWorld α D) (h : Option Nat) (T : Table α D) : TWorld α D :=
  match h with
  | none => w
  | some o => { w with vars := w.vars.modify o fun a => { a with table := T } }

/-- The call as it should be: `Table_`s are variables, `Table`s are values. -/
def TCmd.ideal (w : TWorld α D) : TCmd α D σ → TSeen α D σ × TWorld α D
  | new_ => w.declare ⟨Table.new_, .dflt⟩
  | newCustom cmp => w.declare ⟨Table.newCustom cmp, .custom cmp⟩
  | op h o => (.result ((w.var h).step o).2, w.assign h ((w.var h).step o).1)
  | longest h k => (.match ((w.var h).longestMatch k), w)
  | num h => (.num (w.var h).numEntries, w)
  | freeze h =>
    match h with
    | none => (.table, w.got .zero)
    | some o => (.table, w.got ((w.vars[o]?).getD .zero))
  | thaw t => w.declare ⟨(w.val t).table.table_, match (w.val t).cmp with
    | .nil => .dflt
    | e => e⟩
  | xget t k => (.result (.found ((w.val t).table.get k).1 ((w.val t).table.get k).2), w)
  | xlongest t k => (.match ((w.val t).table.longestMatch k), w)
  | xnum t => (.num (w.val t).table.numEntries, w)
  | walk t cb s => (.walked ((w.val t).table.walk cb s), w)
  | diff t u cb s => (.walked ((w.val t).table.diff (w.val u).table cb s), w)
  | map t f s => (.mapped ((w.val t).table.map f s).2, w.got ⟨((w.val t).table.map f s).1, (w.val t).cmp⟩)
  | aggregate t => (.table, w.got ⟨(w.val t).table.aggregate, .nil⟩)

/-- The call can be made: the variables and values exist; inserted and removed prefixes are valid; an
    uninitialised `Table_` is not modified (that panics, C41); `Diff` has a comparison function (a table that
    `Aggregate` returned has none, C40), and it is reflexive if `unchanged` is nil; `Map` and `Aggregate` are
    not called on a table with a custom comparison function (C39). -/
def TCmd.Legal (w : TWorld α D) : TCmd α D σ → Prop
  | new_ | newCustom _ => True
  | op h o => (∀ i, h = some i → i < w.vars.length) ∧ (o.writes = true → o.key.toPrefix.WF ∧ h ≠ none)
  | longest h _ | num h | freeze h => ∀ i, h = some i → i < w.vars.length
  | thaw t | xget t _ | xlongest t _ | xnum t | walk t _ _ => t < w.vals.length
  | diff t u cb _ => t < w.vals.length ∧ u < w.vals.length ∧ ((w.val t).cmp = .nil → (w.val t).table.trie = .nil) ∧
    (cb.unchanged = none → ∀ e, (w.val t).cmp = .custom e → (∀ x, e x x = true) ∨ cb.changed = none)
  | map t f _ => t < w.vals.length ∧ (f = none ∨ (w.val t).table.trie = .nil ∨ (w.val t).cmp = .dflt)
  | aggregate t => t < w.vals.length ∧ ((w.val t).table.trie = .nil ∨ (w.val t).cmp = .dflt)

end

/-- A sequential program: what it does next is a function of what it has seen so far; `none` ends it.  Every
    deterministic single goroutine that uses tables is one. -/
abbrev TProgram (α D σ : Type) := List (TSeen α D σ) → Option (TCmd α D σ)

/-- the state of a sequential program on the heap: the memory, the `Table`s it has got, what it has seen -/
structure TRun (α D σ : Type) where
  mem : Mem α D
  regs : List (Obj D)
  seen : List (TSeen α D σ)

section
variable {α D σ : Type} [LawfulGoWord α] [Inhabited D]

/-- the first `n` calls of the program on the heap; `none` if one of them panics or does not return -/
def TProgram.onHeap [GoType D] (F : Nat) (p : TProgram α D σ) : Nat → Option (TRun α D σ)
  | 0 => some ⟨⟨[], []⟩, [.zero], []⟩
  | n + 1 =>
    match p.onHeap F n with
    | none => none
    | some r =>
      match p r.seen with
      | none => some r
      | some c =>
        match ((c.call r.regs).code F).run r.mem with
        | (.ret x, m) => some ⟨m, r.regs ++ x.outs, r.seen ++ [x.seen]⟩
        | _ => none

/-- the first `n` calls of the program as they should be: the world and what the program has seen -/
def TProgram.ideally [DecidableEq D] (p : TProgram α D σ) : Nat → TWorld α D × List (TSeen α D σ)
  | 0 => (⟨[], [.zero]⟩, [])
  | n + 1 =>
    let r := p.ideally n
    match p r.2 with
    | none => r
    | some c => ((c.ideal r.1).2, r.2 ++ [(c.ideal r.1).1])

/-- every call that the program makes is legal -/
def TProgram.Legal [DecidableEq D] (p : TProgram α D σ) : Prop :=
  ∀ n c, p (p.ideally n).2 = some c → c.Legal (p.ideally n).1

end

/-! ### The simulation -/
section
variable {α D σ : Type} [LawfulGoWord α] [Inhabited D] [Comparable D] {F : Nat}

/-- `ob` on the heap is the table `a` -/
def Obj.Stands (v : View α D) (ob : Obj D) (a : AbsTable α D) : Prop := ob.Is v a.table ∧ a.table.Reachable ∧ ob.eq = a.cmp

theorem Obj.Stands.mono {v v' : View α D} (h : v ≤ v') {ob : Obj D} {a : AbsTable α D} (hs : ob.Stands v a) : ob.Stands v' a :=
  ⟨hs.1.mono h, hs.2⟩

/-- what the program can see of the memory, and the `Table`s that it has got, are the world -/
structure TWorld.Matches (w : TWorld α D) (m : Sight α D) (regs : List (Obj D)) : Prop where
  nvars : m.objs.length = w.vars.length
  vars : ∀ {o : Nat} {ob : Obj D} {a : AbsTable α D}, m.objs[o]? = some ob → w.vars[o]? = some a → ob.Stands m.nodes a ∧ ob.eq ≠ .nil
  nvals : regs.length = w.vals.length
  vals : ∀ {t : Nat} {ob : Obj D} {a : AbsTable α D}, regs[t]? = some ob → w.vals[t]? = some a → ob.Stands m.nodes a

theorem TWorld.Matches.val {w : TWorld α D} {m : Sight α D} {regs : List (Obj D)} (M : w.Matches m regs) {t : Nat}
    (ht : t < w.vals.length) : (regs.getD t .zero).Stands m.nodes (w.val t) := by
  have ht' : t < regs.length := by rw [M.nvals]; exact ht
  have h1 : regs[t]? = some regs[t] := List.getElem?_eq_getElem ht'
  have h2 : w.vals[t]? = some w.vals[t] := List.getElem?_eq_getElem ht
  have := M.vals h1 h2
  rw [List.getD_eq_getElem?_getD, h1, TWorld.val, h2]
  exact this

theorem TWorld.Matches.var {w : TWorld α D} {m : Sight α D} {regs : List (Obj D)} (M : w.Matches m regs) {o : Nat} {ob : Obj D}
    (h : m.objs[o]? = some ob) : ∃ a, w.vars[o]? = some a ∧ w.var (some o) = a.table ∧ ob.Stands m.nodes a ∧ ob.eq ≠ .nil := by
  have ho : o < w.vars.length := by rw [← M.nvars]; exact (List.getElem?_eq_some_iff.mp h).1
  have h2 : w.vars[o]? = some w.vars[o] := List.getElem?_eq_getElem ho
  exact ⟨_, h2, by simp [TWorld.var, h2], M.vars h h2⟩

/-- nothing but new nodes -/
theorem TWorld.Matches.keep {w : TWorld α D} {m m' : Sight α D} {regs : List (Obj D)} (M : w.Matches m regs)
    (h : m'.objs = m.objs) (le : m.nodes ≤ m'.nodes) : w.Matches m' regs where
  nvars := by rw [h]; exact M.nvars
  vars := fun h1 h2 => by rw [h] at h1; exact ⟨(M.vars h1 h2).1.mono le, (M.vars h1 h2).2⟩
  nvals := M.nvals
  vals := fun h1 h2 => (M.vals h1 h2).mono le

theorem TWorld.Matches.got {w : TWorld α D} {m : Sight α D} {regs : List (Obj D)} (M : w.Matches m regs) {t : Obj D} {a : AbsTable α D}
    (h : t.Stands m.nodes a) : (w.got a).Matches m (regs ++ [t]) where
  nvars := M.nvars
  vars := M.vars
  nvals := by simp [TWorld.got, M.nvals]
  vals := by
    intro i ob b h1 h2
    simp only [TWorld.got] at h2
    rcases Nat.lt_or_ge i regs.length with hl | hl
    · rw [List.getElem?_append_left hl] at h1
      rw [List.getElem?_append_left (by rw [← M.nvals]; exact hl)] at h2
      exact M.vals h1 h2
    · rw [List.getElem?_append_right hl] at h1
      rw [List.getElem?_append_right (by rw [← M.nvals]; exact hl), ← M.nvals] at h2
      have : i - regs.length = 0 := by
        have := (List.getElem?_eq_some_iff.mp h1).1
        simp at this; omega
      rw [this] at h1 h2
      simp at h1 h2
      subst h1 h2
      exact h

theorem TWorld.Matches.declare {w : TWorld α D} {m m' : Sight α D} {regs : List (Obj D)} (M : w.Matches m regs) {ob : Obj D}
    {a : AbsTable α D} (h : m'.objs = m.objs ++ [ob]) (le : m.nodes ≤ m'.nodes) (hs : ob.Stands m'.nodes a) (hn : ob.eq ≠ .nil) :
    TWorld.Matches { w with vars := w.vars ++ [a] } m' regs where
  nvars := by rw [h]; simp [M.nvars]
  nvals := M.nvals
  vals := fun h1 h2 => (M.vals h1 h2).mono le
  vars := by
    intro i x b h1 h2
    rw [h] at h1
    simp only at h2
    rcases Nat.lt_or_ge i m.objs.length with hl | hl
    · rw [List.getElem?_append_left hl] at h1
      rw [List.getElem?_append_left (by rw [← M.nvars]; exact hl)] at h2
      exact ⟨(M.vars h1 h2).1.mono le, (M.vars h1 h2).2⟩
    · rw [List.getElem?_append_right hl] at h1
      rw [List.getElem?_append_right (by rw [← M.nvars]; exact hl), ← M.nvars] at h2
      have : i - m.objs.length = 0 := by
        have := (List.getElem?_eq_some_iff.mp h1).1
        simp at this; omega
      rw [this] at h1 h2
      simp at h1 h2
      subst h1 h2
      exact ⟨hs, hn⟩

theorem TWorld.Matches.assign {w : TWorld α D} {m m' : Sight α D} {regs : List (Obj D)} (M : w.Matches m regs) {o : Nat} {ob : Obj D}
    {new : Ptr} {T : Table α D} (ho : m.objs[o]? = some ob) (h : m'.objs = m.objs.set o { ob with trie := new }) (le : m.nodes ≤ m'.nodes)
    (hs : Obj.Is m'.nodes ⟨new, ob.eq⟩ T) (hT : T.Reachable) : (w.assign (some o) T).Matches m' regs where
  nvars := by rw [h]; simp [TWorld.assign, M.nvars]
  nvals := M.nvals
  vals := fun h1 h2 => (M.vals h1 h2).mono le
  vars := by
    intro i x b h1 h2
    rw [h] at h1
    simp only [TWorld.assign, List.getElem?_modify] at h2
    obtain ⟨a, ha, _, hst, hn⟩ := M.var ho
    by_cases e : o = i
    · subst e
      rw [ha] at h2
      simp at h2
      rw [List.getElem?_set_self (List.getElem?_eq_some_iff.mp ho).1] at h1
      cases h1
      subst h2
      exact ⟨⟨hs, hT, hst.2.2⟩, hn⟩
    · rw [List.getElem?_set_ne e] at h1
      simp [e] at h2
      exact ⟨(M.vars h1 h2).1.mono le, (M.vars h1 h2).2⟩

theorem TWorld.Matches.unassigned {w : TWorld α D} {m : Sight α D} {regs : List (Obj D)} (M : w.Matches m regs) {o : Nat} {ob : Obj D}
    {T : Table α D} (ho : m.objs[o]? = some ob) (hs : Obj.Is m.nodes ob T) (hT : T.Reachable) : (w.assign (some o) T).Matches m regs :=
  M.assign (new := ob.trie) ho (by
    obtain ⟨h1, h2⟩ := List.getElem?_eq_some_iff.mp ho
    rw [← h2]; exact (List.set_getElem_self h1).symm) (fun _ _ h => h) hs hT

/-- what a call that only reads does -/
theorem Plays.load {D : Type} {objs objs' : List (Obj D)} {o : Nat} {ob : Obj D} (h : Plays objs [.load o ob] objs') :
    objs[o]? = some ob ∧ objs' = objs := h

theorem TCmd.pre_of_legal {w : TWorld α D} {m : Sight α D} {regs : List (Obj D)} (M : w.Matches m regs) {c : TCmd α D σ}
    (h : c.Legal w) : (c.call regs).pre ∧ (∀ x ∈ (c.call regs).vals, tval m.nodes x) ∧ ∀ o ∈ (c.call regs).refs, o < m.objs.length := by
  have val : ∀ {t}, t < w.vals.length → tval m.nodes (regs.getD t .zero) := fun ht => ⟨_, (M.val ht).1, (M.val ht).2.1⟩
  have nilT : ∀ {t}, t < w.vals.length → (w.val t).table.trie = .nil → (regs.getD t .zero).trie = none := by
    intro t ht e
    have := (M.val ht).1.1
    rw [e] at this
    generalize (regs.getD t .zero).trie = p at this
    cases this; rfl
  have ref : ∀ {h : Option Nat}, (∀ i, h = some i → i < w.vars.length) → ∀ o ∈ h.toList, o < m.objs.length := by
    intro h hl o ho
    cases h with
    | none => cases ho
    | some i => rw [List.mem_singleton.mp ho, M.nvars]; exact hl i rfl
  have none' : ∀ x ∈ ([] : List (Obj D)), tval m.nodes x := fun x hx => by cases hx
  have noref : ∀ o ∈ ([] : List Nat), o < m.objs.length := fun x hx => by cases hx
  have one : ∀ {t}, t < w.vals.length → ∀ x ∈ [regs.getD t .zero], tval m.nodes x := fun ht x hx => by
    rw [List.mem_singleton.mp hx]; exact val ht
  cases c with
  | new_ => exact ⟨trivial, none', noref⟩
  | newCustom cmp => exact ⟨trivial, none', noref⟩
  | op h o => exact ⟨h.2, none', ref h.1⟩
  | longest h k => exact ⟨trivial, none', ref ‹_›⟩
  | num h => exact ⟨trivial, none', ref ‹_›⟩
  | freeze h => exact ⟨trivial, none', ref ‹_›⟩
  | thaw t => exact ⟨trivial, one h, noref⟩
  | xget t k => exact ⟨trivial, one h, noref⟩
  | xlongest t k => exact ⟨trivial, one h, noref⟩
  | xnum t => exact ⟨trivial, one h, noref⟩
  | walk t cb s => exact ⟨trivial, one h, noref⟩
  | diff t u cb s =>
    obtain ⟨h1, h2, h3, h4⟩ := h
    refine ⟨⟨fun e => nilT h1 (h3 ((M.val h1).2.2 ▸ e)), fun hn cmp e => h4 hn cmp ((M.val h1).2.2 ▸ e)⟩, ?_, noref⟩
    intro x hx
    simp only [TCmd.call, TCall.vals, List.mem_cons, List.not_mem_nil, or_false] at hx
    rcases hx with rfl | rfl
    · exact val h1
    · exact val h2
  | map t f s =>
    refine ⟨?_, one h.1, noref⟩
    rcases h.2 with e | e | e
    · exact Or.inl e
    · exact Or.inr (Or.inl (nilT h.1 e))
    · exact Or.inr (Or.inr ((M.val h.1).2.2.trans e))
  | aggregate t =>
    refine ⟨?_, one h.1, noref⟩
    rcases h.2 with e | e
    · exact Or.inl (nilT h.1 e)
    · exact Or.inr ((M.val h.1).2.2.trans e)

theorem mapped_eq {f : Option (Prefix α → D → σ → D × σ)} {t : Obj D} {s : σ} {m m' : Mem α D} {x : TVal α D σ}
    (h : (TCall.code F (TCall.map t f s)).run m = (.ret x, m')) : ∃ p s', x = .mapped ⟨p, t.eq⟩ s' := by
  simp only [TCall.code, xMap, Prog.run_bind] at h
  cases f with
  | none => cases h; exact ⟨t.trie, s, rfl⟩
  | some f =>
    simp only [Prog.run_bind] at h
    split at h
    · next b m1 e =>
      split at e
      · next b' m2 e' => cases e; cases h; exact ⟨_, _, rfl⟩
      · cases e
      · cases e
    · cases h
    · cases h

theorem aggregated_eq {t : Obj D} {m m' : Mem α D} {x : TVal α D σ}
    (h : (TCall.code F (TCall.aggregate t : TCall α D σ)).run m = (.ret x, m')) : ∃ p, x = .table ⟨p, .nil⟩ := by
  simp only [TCall.code, xAggregate, Prog.run_bind] at h
  split at h
  · next b m1 e =>
    split at e
    · next b' m2 e' => cases e; cases h; exact ⟨_, rfl⟩
    · cases e
    · cases e
  · cases h
  · cases h

theorem thawed_eq {t : Obj D} {m m' : Mem α D} {x : TVal α D σ}
    (h : (TCall.code F (TCall.thaw t : TCall α D σ)).run m = (.ret x, m')) :
    m' = { m with objs := m.objs ++ [⟨t.trie, match t.eq with
      | .nil => .dflt
      | e => e⟩] } := by
  simp only [TCall.code] at h
  cases h; rfl

/-- one call -/
theorem TCmd.step_in (hF : 2 * width α + 3 ≤ F) {w : TWorld α D} {H : List Nat} {mem : Mem α D} (hH : ∀ k ∈ H, k < mem.heap.length)
    {regs : List (Obj D)} (M : w.Matches (mem.without H) regs) {c : TCmd α D σ} (hl : c.Legal w) :
    ∃ x mem', ((c.call regs).code F).run mem = (.ret x, mem') ∧ x.seen = (c.ideal w).1 ∧
      (c.ideal w).2.Matches (mem'.without H) (regs ++ x.outs) ∧ mem.heap.length ≤ mem'.heap.length := by
  obtain ⟨p1, p2, p3⟩ := TCmd.pre_of_legal M hl
  obtain ⟨tr, x, v', mem', h1, h2, h3, h4, h5, h6⟩ := (tableLib_ok (σ := σ) hF).run (c.call regs) p1 hH p2 p3 (fun ob ho => by
    obtain ⟨o, ho⟩ := List.mem_iff_getElem?.mp ho
    obtain ⟨a, _, _, h3, h4⟩ := M.var ho
    exact ⟨⟨_, h3.1, h3.2.1⟩, h4⟩)
  suffices h : ∀ (m m' : Sight α D), m.nodes = (mem.without H).nodes → m.objs = mem.objs → m'.nodes = v' → m'.objs = mem'.objs →
      x.seen = (c.ideal w).1 ∧ (c.ideal w).2.Matches m' (regs ++ x.outs) by
    obtain ⟨e1, e2⟩ := h (mem.without H) ⟨v', mem'.objs⟩ rfl rfl rfl rfl
    exact ⟨x, mem', h1, e1, e2.keep (m' := mem'.without H) rfl h5, h6⟩
  intro m m' hv ho hv' ho'
  have hm : mem.without H = m := by cases m; cases hv; cases ho; rfl
  rw [hm] at M
  rw [← ho, ← ho'] at h3
  rw [← hv, ← hv'] at h4
  rw [← hv'] at h2
  replace h2 : (c.call regs).spec tr x m'.nodes := h2
  -- a function of a value
  have value : ∀ {ρ : Type} {t : Nat} {f : Table α D → ρ} {r : ρ}, t < w.vals.length →
      ValSpec (regs.getD t .zero) f tr r m'.nodes → r = f (w.val t).table ∧ w.Matches m' regs := by
    rintro ρ t f r ht ⟨e, T, e1, e2, e3⟩
    rw [e] at h3
    have := ((M.val ht).mono h4).1.functional e1
    rw [← this] at e3
    exact ⟨e3, M.keep h3 h4⟩
  -- a function of a variable
  have variable' : ∀ {ρ : Type} {h : Option Nat} {f : Table α D → ρ} {r : ρ},
      ReadSpec h f tr r m'.nodes → r = f (w.var h) ∧ w.Matches m' regs := by
    intro ρ h f r hr
    cases h with
    | none => rw [hr.1] at h3; exact ⟨hr.2, M.keep h3 h4⟩
    | some o =>
      obtain ⟨ob, T, e, e1, e2, e3⟩ := hr
      rw [e] at h3
      obtain ⟨a, _, ha, hs, _⟩ := M.var h3.1
      have := (hs.mono h4).1.functional e1
      rw [ha, this]
      exact ⟨e3, M.keep h3.2 h4⟩
  cases c with
  | new_ =>
    obtain ⟨o, e1, e2⟩ := h2
    rw [e1] at h3
    subst e2
    refine ⟨by rw [h3.1, M.nvars]; rfl, ?_⟩
    show TWorld.Matches _ _ (regs ++ [])
    rw [List.append_nil]
    exact M.declare h3.2 h4 ⟨⟨.nil, rfl⟩, .new_, rfl⟩ (by simp)
  | newCustom cmp =>
    obtain ⟨o, e1, e2⟩ := h2
    rw [e1] at h3
    subst e2
    refine ⟨by rw [h3.1, M.nvars]; rfl, ?_⟩
    show TWorld.Matches _ _ (regs ++ [])
    rw [List.append_nil]
    exact M.declare h3.2 h4 ⟨⟨.nil, rfl⟩, .newCustom cmp, rfl⟩ (by simp)
  | op h o =>
    replace h2 : OpSpec h o tr x m'.nodes := h2
    unfold OpSpec at h2
    cases hw : o.writes with
    | false =>
      rw [hw] at h2
      simp only [Bool.false_eq_true, if_false] at h2
      obtain ⟨e, e'⟩ := variable' h2
      subst e
      refine ⟨rfl, ?_⟩
      have hst : ((w.var h).step o).1 = w.var h := by cases o <;> first | rfl | cases hw
      show TWorld.Matches (w.assign h ((w.var h).step o).1) m' (regs ++ [])
      rw [List.append_nil, hst]
      cases h with
      | none => exact e'
      | some i =>
        have hi : i < m'.objs.length := by rw [e'.nvars]; exact hl.1 i rfl
        obtain ⟨a, _, e2, e3, _⟩ := e'.var (List.getElem?_eq_getElem hi)
        exact e'.unassigned (List.getElem?_eq_getElem hi) (by rw [e2]; exact e3.1) (by rw [e2]; exact e3.2.1)
    | true =>
      rw [hw] at h2
      simp only [if_true] at h2
      obtain ⟨i, r, rfl, rfl, ob1, ob2, T2, w1, w2, w3, w4, w5, w6, h2⟩ := h2
      have key : m.objs[i]? = some ob1 → m.objs[i]? = some ob2 → ob2 = ob1 ∧ w.var (some i) = T2 := by
        intro k1 k2
        obtain ⟨a, _, e2, e3, _⟩ := M.var k2
        rw [k1] at k2
        cases k2
        exact ⟨rfl, by rw [e2]; exact (e3.mono h4).1.functional w3⟩
      rcases h2 with ⟨e, h2⟩ | ⟨new, e, hn, h2⟩
      · rw [e] at h3
        obtain ⟨k1, k2, k3⟩ := h3
        obtain ⟨rfl, hT⟩ := key k1 k2
        refine ⟨by simp only [TVal.seen, TCmd.ideal, hT, w6], ?_⟩
        show TWorld.Matches (w.assign (some i) ((w.var (some i)).step o).1) m' (regs ++ [])
        rw [List.append_nil, hT]
        refine (M.keep k3 h4).unassigned (ob := ob2) (by rw [k3]; exact k1) ?_ w5
        rcases h2 with e | ⟨_, e, _⟩
        · rw [e]; exact w3
        · exact e
      · rw [e] at h3
        obtain ⟨k1, k2, ob, k3, k4, k5⟩ := h3
        obtain ⟨rfl, hT⟩ := key k1 k2
        rw [k1] at k3
        cases k3
        refine ⟨by simp only [TVal.seen, TCmd.ideal, hT, w6], ?_⟩
        show TWorld.Matches (w.assign (some i) ((w.var (some i)).step o).1) m' (regs ++ [])
        rw [List.append_nil, hT]
        exact M.assign k1 k5 h4 h2.1 w5
  | longest h k =>
    replace h2 : ReadSpec h (fun T => (.match (T.longestMatch k) : TVal α D σ)) tr x m'.nodes := h2
    obtain ⟨e, e'⟩ := variable' h2
    subst e
    exact ⟨rfl, by simpa [TVal.outs, TCmd.ideal] using e'⟩
  | num h =>
    replace h2 : ReadSpec h (fun T => (.num T.numEntries : TVal α D σ)) tr x m'.nodes := h2
    obtain ⟨e, e'⟩ := variable' h2
    subst e
    exact ⟨rfl, by simpa [TVal.outs, TCmd.ideal] using e'⟩
  | freeze h =>
    cases h with
    | none =>
      obtain ⟨e1, e2⟩ := h2
      rw [e1] at h3
      subst e2
      exact ⟨rfl, (M.keep h3 h4).got ⟨⟨.nil, rfl⟩, .empty, rfl⟩⟩
    | some o =>
      obtain ⟨ob, e1, e2, _⟩ := h2
      rw [e1] at h3
      subst e2
      obtain ⟨a, ha, _, hs, _⟩ := M.var h3.1
      refine ⟨rfl, ?_⟩
      simp only [TCmd.ideal, ha, Option.getD_some]
      exact (M.keep h3.2 h4).got (hs.mono h4)
  | thaw t =>
    obtain ⟨o, e, e1, e2, T, e3, e4, e5⟩ := h2
    rw [e1] at h3
    subst e2
    have hm := thawed_eq (F := F) h1
    have hst := (M.val hl).mono h4
    have hT := hst.1.functional e3
    refine ⟨by rw [h3.1, M.nvars]; rfl, ?_⟩
    show TWorld.Matches _ _ (regs ++ [])
    rw [List.append_nil]
    have hoe : m'.objs = m.objs ++ [⟨(regs.getD t .zero).trie, e⟩] := h3.2
    have he : e = match (regs.getD t .zero).eq with
      | .nil => .dflt
      | e => e := by
      rw [ho', ho, hm] at hoe
      have := List.append_cancel_left hoe
      simp at this
      exact this.symm
    rw [hst.2.2] at he
    refine M.declare hoe h4 ⟨?_, ?_, he⟩ ?_
    · rw [hT]; exact e4
    · rw [hT]; exact .table_ T e5
    · rw [he]; cases (w.val t).cmp <;> simp
  | xget t k =>
    replace h2 : ValSpec (regs.getD t .zero) (fun T => (.result (.found (T.get k).1 (T.get k).2) : TVal α D σ)) tr x m'.nodes := h2
    obtain ⟨e, e'⟩ := value hl h2
    subst e
    exact ⟨rfl, by simpa [TVal.outs, TCmd.ideal] using e'⟩
  | xlongest t k =>
    replace h2 : ValSpec (regs.getD t .zero) (fun T => (.match (T.longestMatch k) : TVal α D σ)) tr x m'.nodes := h2
    obtain ⟨e, e'⟩ := value hl h2
    subst e
    exact ⟨rfl, by simpa [TVal.outs, TCmd.ideal] using e'⟩
  | xnum t =>
    replace h2 : ValSpec (regs.getD t .zero) (fun T => (.num T.numEntries : TVal α D σ)) tr x m'.nodes := h2
    obtain ⟨e, e'⟩ := value hl h2
    subst e
    exact ⟨rfl, by simpa [TVal.outs, TCmd.ideal] using e'⟩
  | walk t cb s =>
    replace h2 : ValSpec (regs.getD t .zero) (fun T => (.walked (T.walk cb s) : TVal α D σ)) tr x m'.nodes := h2
    obtain ⟨e, e'⟩ := value hl h2
    subst e
    exact ⟨rfl, by simpa [TVal.outs, TCmd.ideal] using e'⟩
  | diff t u cb s =>
    obtain ⟨U, u1, u2, h2⟩ := h2
    replace h2 : ValSpec (regs.getD t .zero) (fun T => (.walked (T.diff U cb s) : TVal α D σ)) tr x m'.nodes := h2
    obtain ⟨e, e'⟩ := value hl.1 h2
    have := ((M.val hl.2.1).mono h4).1.functional u1
    subst e this
    exact ⟨rfl, by simpa [TVal.outs, TCmd.ideal] using e'⟩
  | map t f s =>
    obtain ⟨p, s'', hx⟩ := mapped_eq (F := F) h1
    obtain ⟨t', s', e1, T', e2, h2⟩ := h2
    replace h2 : ValSpec (regs.getD t .zero) (fun T => T.map f s) tr (T', s') m'.nodes := h2
    obtain ⟨e, e'⟩ := value hl.1 h2
    rw [e1] at hx
    cases hx
    subst e1
    have ea : T' = ((w.val t).table.map f s).1 := congrArg Prod.fst e
    have eb : s'' = ((w.val t).table.map f s).2 := congrArg Prod.snd e
    refine ⟨by rw [eb]; rfl, ?_⟩
    refine TWorld.Matches.got e' ⟨?_, .map _ _ _ (M.val hl.1).2.1, (M.val hl.1).2.2⟩
    rw [← ea]; exact e2
  | aggregate t =>
    obtain ⟨p, hx⟩ := aggregated_eq (F := F) h1
    obtain ⟨t', e1, T', e2, e3, h2⟩ := h2
    replace h2 : ValSpec (regs.getD t .zero) (fun T => T.aggregate) tr T' m'.nodes := h2
    obtain ⟨e, e'⟩ := value hl.1 h2
    rw [e1] at hx
    cases hx
    subst e1
    refine ⟨rfl, ?_⟩
    simp only [TCmd.ideal, ← e]
    exact e'.got ⟨e2, e3, rfl⟩

theorem TWorld.Matches.without_nil {w : TWorld α D} {m : Mem α D} {regs : List (Obj D)} :
    w.Matches (m.without []) regs ↔ w.Matches m.sight regs := by
  have : m.without [] = m.sight := by
    have e : hide [] m.nodes = m.nodes := by funext n; simp [hide]
    simp only [Mem.without, Mem.sight, e]
  rw [this]

theorem TCmd.step_ok (hF : 2 * width α + 3 ≤ F) {w : TWorld α D} {m : Mem α D} {regs : List (Obj D)} (M : w.Matches m.sight regs)
    {c : TCmd α D σ} (hl : c.Legal w) :
    ∃ x m', ((c.call regs).code F).run m = (.ret x, m') ∧ x.seen = (c.ideal w).1 ∧
      (c.ideal w).2.Matches m'.sight (regs ++ x.outs) := by
  obtain ⟨x, m', h1, h2, h3, _⟩ := TCmd.step_in hF (H := []) (fun _ h => nomatch h) (TWorld.Matches.without_nil.mpr M) hl
  exact ⟨x, m', h1, h2, TWorld.Matches.without_nil.mp h3⟩

end
end Addrs

import Verif.ReenterMap
import Verif.PropDiffOrder
/-
  Property C57: callbacks may use the library.
-/
set_option linter.unusedSectionVars false
namespace Addrs
open GoWord LawfulGoWord Heap

/-- the memory of a state of the machine -/
def State.memory {α D : Type} {L : Lib α D} (s : State L) : Mem α D := ⟨s.heap, s.objs⟩

/-- call the callback for a change; a nil callback counts as returning true -/
def Change.reportM {α D σ : Type} (e : D → D → Bool) (cb : TableDiffCbs α D σ) : Change α D → σ → Prog α D (σ × Bool)
  | .onlyLeft p v, s => match cb.left with
    | some f => f p v s
    | none => pure (s, true)
  | .onlyRight p v, s => match cb.right with
    | some f => f p v s
    | none => pure (s, true)
  | .both p v _ w, s =>
    if e v w then
      match cb.unchanged with
      | some f => f p v s
      | none => pure (s, true)
    else
      match cb.changed with
      | some f => f p v w s
      | none => pure (s, true)

/-- Client code made of calls of the table API: anything that a program can do between the calls is a function
    of what it knows.  Calls of `Walk`, `Diff` and `Map` may be given callbacks that are client code again. -/
inductive TUses {α D : Type} [GoWord α] [GoType D] [Inhabited D] (F : Nat) : {β : Type} → Prog α D β → Prop
  | ret {β : Type} (b : β) : TUses F (.ret b)
  | panic {β : Type} : TUses F (.panic : Prog α D β)
  | call {β τ : Type} (c : TCall α D τ) (k : TVal α D τ → Prog α D β) (h : ∀ v, TUses F (k v)) : TUses F (c.code F >>= k)
  | walk {β τ : Type} (t : Obj D) (cb : Prefix α → D → τ → Prog α D (τ × Bool)) (s : τ) (k : τ × Bool → Prog α D β)
      (hcb : ∀ p d s, TUses F (cb p d s)) (h : ∀ x, TUses F (k x)) : TUses F (xWalkR F t cb s >>= k)
  | diff {β τ : Type} (t u : Obj D) (cb : TableDiffCbs α D τ) (s : τ) (k : τ × Bool → Prog α D β)
      (h1 : ∀ f, cb.changed = some f → ∀ p d e s, TUses F (f p d e s)) (h2 : ∀ f, cb.left = some f → ∀ p d s, TUses F (f p d s))
      (h3 : ∀ f, cb.right = some f → ∀ p d s, TUses F (f p d s)) (h4 : ∀ f, cb.unchanged = some f → ∀ p d s, TUses F (f p d s))
      (h : ∀ x, TUses F (k x)) : TUses F (xDiffR F t u cb s >>= k)
  | map {β τ : Type} (t : Obj D) (f : Option (Prefix α → D → τ → Prog α D (D × τ))) (s : τ) (k : Obj D × τ → Prog α D β)
      (hf : ∀ g, f = some g → ∀ p d s, TUses F (g p d s)) (h : ∀ x, TUses F (k x)) : TUses F (xMapR F t f s >>= k)

/-- client code made of calls of the set API -/
inductive SUses {α : Type} [HeapFamily α] (F : Nat) : {β : Type} → Prog α Empty β → Prop
  | ret {β : Type} (b : β) : SUses F (.ret b)
  | panic {β : Type} : SUses F (.panic : Prog α Empty β)
  | call {β τ : Type} (c : SCall α τ) (k : SVal α τ → Prog α Empty β) (h : ∀ v, SUses F (k v)) : SUses F (c.code F >>= k)
  | walk {β τ : Type} (t : Obj Empty) (cb : Prefix α → τ → Prog α Empty (τ × Bool)) (s : τ) (k : τ × Bool → Prog α Empty β)
      (hcb : ∀ p s, SUses F (cb p s)) (h : ∀ x, SUses F (k x)) : SUses F (sWalkR F t cb s >>= k)
  | ranges {β τ : Type} (t : Obj Empty) (cb : Range α → τ → Prog α Empty (τ × Bool)) (s : τ) (k : τ × Bool → Prog α Empty β)
      (hcb : ∀ p s, SUses F (cb p s)) (h : ∀ x, SUses F (k x)) : SUses F (sWalkRangesR F t cb s >>= k)

section
open Prog
variable {α D : Type}

theorem tame_xDiffR [GoWord α] [GoType D] [Inhabited D] {τ : Type} {cb : TableDiffCbs α D τ}
    (h1 : ∀ f, cb.changed = some f → ∀ p d e s, Prog.TameIn (f p d e s) Nowhere) (h2 : ∀ f, cb.left = some f → ∀ p d s, Prog.TameIn (f p d s) Nowhere)
    (h3 : ∀ f, cb.right = some f → ∀ p d s, Prog.TameIn (f p d s) Nowhere) (h4 : ∀ f, cb.unchanged = some f → ∀ p d s, Prog.TameIn (f p d s) Nowhere) :
    DiffCbs.Tame (α := α) (D := D) (σ := τ)
      { removed := cb.left.map fun f p d => f p (Table.unbox d)
        added := cb.right.map fun f p d => f p (Table.unbox d)
        modified := cb.changed.map fun f p d e => f p (Table.unbox d) (Table.unbox e)
        same := cb.unchanged.map fun f p d => f p (Table.unbox d) } := by
  refine ⟨?_, ?_, ?_, ?_⟩
  · intro f hf p d s
    obtain ⟨g, hg, rfl⟩ := Option.map_eq_some_iff.mp hf
    exact h2 g hg _ _ _
  · intro f hf p d s
    obtain ⟨g, hg, rfl⟩ := Option.map_eq_some_iff.mp hf
    exact h3 g hg _ _ _
  · intro f hf p d e s
    obtain ⟨g, hg, rfl⟩ := Option.map_eq_some_iff.mp hf
    exact h1 g hg _ _ _ _
  · intro f hf p d s
    obtain ⟨g, hg, rfl⟩ := Option.map_eq_some_iff.mp hf
    exact h4 g hg _ _ _

theorem tame_xMapR [GoWord α] [GoType D] [Inhabited D] {τ : Type} {F : Nat} {t : Obj D} {f : Option (Prefix α → D → τ → Prog α D (D × τ))}
    (hf : ∀ g, f = some g → ∀ p d s, TameIn (g p d s) Nowhere) {s : τ} {W : Nat → Prop} : TameIn (xMapR F t f s) W := by
  cases f with
  | none => trivial
  | some g =>
    unfold xMapR
    refine Tame.seq (tame_mapR ?_) fun x W1 _ => trivial
    intro p d s
    exact Tame.seq (hf g rfl p (Table.unbox d) s) fun y W1 _ => trivial

theorem TUses.tame [GoWord α] [GoType D] [Inhabited D] {F : Nat} {β : Type} {P : Prog α D β} (h : TUses F P) {W : Nat → Prop} :
    TameIn P W := by
  induction h generalizing W with
  | ret b => trivial
  | panic => trivial
  | call c k h ih => exact Tame.seq c.tame fun v W1 _ => ih v
  | walk t cb s k hcb h ih1 ih2 => exact Tame.seq (tame_walkR fun p d s => ih1 p _ s) fun v W1 _ => ih2 v
  | diff t u cb s k h1 h2 h3 h4 h i1 i2 i3 i4 ih =>
    refine Tame.seq (tame_DiffR (tame_xDiffR ?_ ?_ ?_ ?_)) fun v W1 _ => ih v
    · exact fun f hf p d e s => i1 f hf p d e s
    · exact fun f hf p d s => i2 f hf p d s
    · exact fun f hf p d s => i3 f hf p d s
    · exact fun f hf p d s => i4 f hf p d s
  | map t f s k hf h ih1 ih2 => exact Tame.seq (tame_xMapR fun g hg p d s => ih1 g hg p d s) fun v W1 _ => ih2 v

theorem SUses.tame [ReadFamily α] {F : Nat} {β : Type} {P : Prog α Empty β} (h : SUses F P) {W : Nat → Prop} : TameIn P W := by
  induction h generalizing W with
  | ret b => trivial
  | panic => trivial
  | call c k h ih => exact Tame.seq c.tame fun v W1 _ => ih v
  | walk t cb s k hcb h ih1 ih2 => exact Tame.seq (tame_walkR fun p d s => ih1 p s) fun v W1 _ => ih2 v
  | ranges t cb s k hcb h ih1 ih2 => exact Tame.seq (tame_sWalkRangesR fun p s => ih1 p s) fun v W1 _ => ih2 v

/-! ### running alone, in the machine -/

theorem State.solo_act {L : Lib α D} {s s' : State L} {i n : Nat} (h : s.act i = some s') :
    State.solo i (n + 1) s = State.solo i n s' := by rw [State.solo, h]

theorem State.act_thread {L : Lib α D} {s : State L} {i : Nat} {P : Prog α D L.Val} (hi : s.threads[i]? = some (some P)) :
    s.act i = s.actP i P := by rw [State.act, hi]

theorem State.cont_thread {L : Lib α D} {s : State L} {i : Nat} {P Q : Prog α D L.Val} (hi : s.threads[i]? = some (some P)) :
    (s.cont i Q).threads[i]? = some (some Q) := by
  have := (List.getElem?_eq_some_iff.mp hi).1
  simp [State.cont, this]

/-- `run` is what the machine does when only thread `i` acts: if the run returns, the call returns that value
    and leaves that memory; if it panics, the call panics. -/
theorem C57_runs_alone {L : Lib α D} (P : Prog α D L.Val) {s : State L} {i : Nat} (hi : s.threads[i]? = some (some P)) :
    ∃ n, (State.solo i n s).memory = (P.run s.memory).2 ∧
      (∀ v, (P.run s.memory).1 = .ret v → (State.solo i n s).log.getLast? = some (.done i v)) ∧
      ((P.run s.memory).1 = .panic → (State.solo i n s).threads[i]? = some (some .panic)) := by
  induction P generalizing s with
  | ret v =>
    refine ⟨1, ?_⟩
    rw [State.solo_act (by rw [State.act_thread hi]; rfl)]
    refine ⟨rfl, fun w hw => ?_, fun h => nomatch h⟩
    cases hw
    exact List.getLast?_concat ..
  | panic => exact ⟨0, rfl, fun v h => (nomatch h), fun _ => hi⟩
  | stuck => exact ⟨0, rfl, fun v h => (nomatch h), fun h => (nomatch h)⟩
  | alloc c k ih =>
    obtain ⟨n, hn⟩ := ih s.heap.length (s := { s.cont i (k s.heap.length) with heap := s.heap ++ [c] }) (State.cont_thread hi)
    refine ⟨n + 1, ?_⟩
    rw [State.solo_act (by rw [State.act_thread hi]; rfl)]
    exact hn
  | newObj ob k ih =>
    obtain ⟨n, hn⟩ := ih s.objs.length (s := State.note { s.cont i (k s.objs.length) with objs := s.objs ++ [ob] }
      (.act i (.made s.objs.length ob))) (State.cont_thread hi)
    refine ⟨n + 1, ?_⟩
    rw [State.solo_act (by rw [State.act_thread hi]; rfl)]
    exact hn
  | read p k ih =>
    simp only [run, State.memory]
    cases hp : s.heap[p]? with
    | none =>
      refine ⟨1, ?_⟩
      rw [State.solo_act (by rw [State.act_thread hi, State.actP, hp])]
      exact ⟨rfl, fun v h => (nomatch h), fun _ => State.cont_thread hi⟩
    | some c =>
      obtain ⟨n, hn⟩ := ih c (s := s.cont i (k c)) (State.cont_thread hi)
      refine ⟨n + 1, ?_⟩
      rw [State.solo_act (by rw [State.act_thread hi, State.actP, hp])]
      exact hn
  | write p c k ih =>
    by_cases hp : p < s.heap.length
    · have e : (write p c k).run s.memory = k.run ⟨s.heap.set p c, s.objs⟩ := if_pos hp
      obtain ⟨n, hn⟩ := ih (s := { s.cont i k with heap := s.heap.set p c }) (State.cont_thread hi)
      refine ⟨n + 1, ?_⟩
      rw [State.solo_act (by rw [State.act_thread hi, State.actP, if_pos hp]), e]
      exact hn
    · have e : (write p c k).run s.memory = (.panic, s.memory) := if_neg hp
      refine ⟨1, ?_⟩
      rw [State.solo_act (by rw [State.act_thread hi, State.actP, if_neg hp]), e]
      exact ⟨rfl, fun v h => (nomatch h), fun _ => State.cont_thread hi⟩
  | load o k ih =>
    simp only [run, State.memory]
    cases hp : s.objs[o]? with
    | none =>
      refine ⟨1, ?_⟩
      rw [State.solo_act (by rw [State.act_thread hi, State.actP, hp])]
      exact ⟨rfl, fun v h => (nomatch h), fun _ => State.cont_thread hi⟩
    | some c =>
      obtain ⟨n, hn⟩ := ih c (s := (s.cont i (k c)).note (.act i (.load o c))) (State.cont_thread hi)
      refine ⟨n + 1, ?_⟩
      rw [State.solo_act (by rw [State.act_thread hi, State.actP, hp])]
      exact hn
  | cas o old new k ih =>
    simp only [run, State.memory]
    cases hp : s.objs[o]? with
    | none =>
      refine ⟨1, ?_⟩
      rw [State.solo_act (by rw [State.act_thread hi, State.actP, hp])]
      exact ⟨rfl, fun v h => (nomatch h), fun _ => State.cont_thread hi⟩
    | some ob =>
      by_cases ho : ob.trie = old
      · obtain ⟨n, hn⟩ := ih true (s := State.note { s.cont i (k true) with objs := s.objs.set o { ob with trie := new } }
          (.act i (.swap o old new))) (State.cont_thread hi)
        refine ⟨n + 1, ?_⟩
        rw [State.solo_act (by rw [State.act_thread hi, State.actP, hp]; simp only [if_pos ho]; rfl)]
        simp only [if_pos ho]
        exact hn
      · obtain ⟨n, hn⟩ := ih false (s := (s.cont i (k false)).note (.fail i o old)) (State.cont_thread hi)
        refine ⟨n + 1, ?_⟩
        rw [State.solo_act (by rw [State.act_thread hi, State.actP, hp]; simp only [if_neg ho]; rfl)]
        simp only [if_neg ho]
        exact hn

end

/-! ### C57 -/
section
variable {α D σ τ : Type} [LawfulGoWord α] [Inhabited D] [Comparable D] {F : Nat}

theorem Obj.Is.after {s : Mem α D} {β : Type} {P : Prog α D β} (hP : TUses F P) {t : Obj D} {L : List (Prefix α × D)}
    (h : t.Lists s.nodes L) : t.Lists (P.run s).2.nodes L := by
  obtain ⟨T, h1, h2, h3⟩ := h
  exact ⟨T, h1.mono (Prog.run_le hP.tame s), h2, h3⟩

/-- A `Table` value does not change, whatever client code is run. -/
theorem C57_unchanged (hF : 2 * width α + 3 ≤ F) {s : TState α D σ F} (h : s.Reach) {t : Obj D} (ht : s.Known t) {β : Type}
    (P : Prog α D β) (hP : TUses F P) :
    ∃ L, t.Lists s.memory.nodes L ∧ t.Lists (P.run s.memory).2.nodes L := by
  obtain ⟨v, ⟨T, h1, h2⟩, hv⟩ := known_good (tableLib_ok hF) h ht
  have h3 : t.Lists s.memory.nodes T.listed := ⟨T, h1.mono (hv s .refl), h2, rfl⟩
  exact ⟨_, h3, Obj.Is.after hP h3⟩

/-- `t.Walk(cb)`, the callback being client code: it is called for the entries that `t` has when `Walk` is
    called, in order, until it returns false, whatever it does. -/
theorem C57_walk (hF : 2 * width α + 3 ≤ F) {s : TState α D σ F} (h : s.Reach) {t : Obj D} (ht : s.Known t)
    (cb : Prefix α → D → τ → Prog α D (τ × Bool)) (hcb : ∀ p d x, TUses F (cb p d x)) :
    ∃ L, t.Lists s.mem L ∧ L.Pairwise (fun x y => LexBefore x.1 y.1) ∧
      ∀ st, (xWalkR F t cb st).run s.memory = (visitM (fun x => cb x.1 x.2) L st).run s.memory := by
  obtain ⟨v, ⟨T, h1, h2⟩, hv⟩ := known_good (tableLib_ok hF) h ht
  have h1' := h1.mono (hv s .refl)
  refine ⟨T.listed, ⟨T, h1', h2, rfl⟩, C27_sorted T h2, fun st => ?_⟩
  have hd := h2.deep
  unfold xWalkR
  rw [run_walkR (fun p d s => (hcb p _ s).tame) (by omega) (m := s.memory) h1'.1, Table.listed_eq, Table.pairs, visitM_map]

/-- `Diff` of two tables, the callbacks being programs -/
theorem run_xDiffR_some (hF : 2 * width α + 3 ≤ F) {T U : Table α D} (l2 : T.Reachable) (r2 : U.Reachable) {l r : Obj D} {m : Mem α D}
    (l1 : l.Is m.nodes T) (r1 : r.Is m.nodes U) {e : D → D → Bool} (he : EqFn.val l.eq = some e) {cb : TableDiffCbs α D τ}
    (hc : cb.unchanged = none → (∀ x, e x x = true) ∨ cb.changed = none)
    (h1 : ∀ f, cb.changed = some f → ∀ p d e x, Prog.TameIn (f p d e x) Prog.Nowhere) (h2 : ∀ f, cb.left = some f → ∀ p d x, Prog.TameIn (f p d x) Prog.Nowhere)
    (h3 : ∀ f, cb.right = some f → ∀ p d x, Prog.TameIn (f p d x) Prog.Nowhere) (h4 : ∀ f, cb.unchanged = some f → ∀ p d x, Prog.TameIn (f p d x) Prog.Nowhere)
    (st : τ) : (xDiffR F l r cb st).run m = (visitM (Change.reportM e cb) (Table.changes T U) st).run m := by
  have heq : T.eq = some e := by rw [l1.2, he]
  have d1 := l2.deep
  have d2 := r2.deep
  unfold xDiffR
  rw [run_DiffR (ve := T.cmp) (tame_xDiffR h1 h2 h3 h4) ?_ ?_ (by omega) l2.boxed r2.boxed (m := m) l1.1 r1.1]
  · unfold Table.changes
    rw [visitM_map]
    rw [visitM_congr]
    intro v hv s
    have ok := Trie.events_ok T.trie U.trie l2.good.inv r2.good.inv v hv
    cases v with
    | removed x =>
      simp only [dispatchR, Table.toChange, Change.reportM, orNoop1R]
      cases cb.left <;> rfl
    | added x =>
      simp only [dispatchR, Table.toChange, Change.reportM, orNoop1R]
      cases cb.right <;> rfl
    | both x y =>
      obtain ⟨a, ha⟩ := Option.isSome_iff_exists.mp (l2.good.some x ok.1)
      obtain ⟨b, hb⟩ := Option.isSome_iff_exists.mp (r2.good.some y ok.2.1)
      have hcmp : T.cmp (Option.some a) (Option.some b) = e a b := by
        simp only [Table.cmp, heq, Option.getD_some, liftEq]
      simp only [dispatchR, Table.toChange, Change.reportM, ha, hb, hcmp, Table.unbox, Option.getD_some]
      cases e a b with
      | true => simp only [if_true, orNoop1R]; cases cb.unchanged <;> rfl
      | false => simp only [Bool.false_eq_true, if_false, orNoop2R]; cases cb.changed <;> rfl
  · exact EqFn.call_some l.eq (fun hn => by rw [hn] at he; cases he) T l1.2
  · intro hs
    rcases hc (by simpa using hs) with hc | hc
    · left; intro d
      simp [Table.cmp, heq, liftEq, hc]
    · right; simp [hc]

/-- `l.Diff(r, …)`, the callbacks being client code: they are told exactly the changes between the two tables as they are
    when `Diff` is called, in the order of C29, one by one until one of them returns false, whatever they do. -/
theorem C57_diff (hF : 2 * width α + 3 ≤ F) {s : TState α D σ F} (h : s.Reach) {l r : Obj D} (hl : s.Known l) (hr : s.Known r)
    {e : D → D → Bool} (he : EqFn.val l.eq = some e) (cb : TableDiffCbs α D τ)
    (hc : cb.unchanged = none → (∀ x, e x x = true) ∨ cb.changed = none)
    (h1 : ∀ f, cb.changed = some f → ∀ p d e x, TUses F (f p d e x)) (h2 : ∀ f, cb.left = some f → ∀ p d x, TUses F (f p d x))
    (h3 : ∀ f, cb.right = some f → ∀ p d x, TUses F (f p d x)) (h4 : ∀ f, cb.unchanged = some f → ∀ p d x, TUses F (f p d x)) :
    ∃ (L R : List (Prefix α × D)) (C : List (Change α D)), l.Lists s.mem L ∧ r.Lists s.mem R ∧ DiffOf L R C ∧
      C.Pairwise (fun c d => keyOf c.pfx ≠ keyOf d.pfx) ∧
      ∀ st, (xDiffR F l r cb st).run s.memory = (visitM (Change.reportM e cb) C st).run s.memory := by
  obtain ⟨v, ⟨T, l1, l2⟩, hv⟩ := known_good (tableLib_ok hF) h hl
  obtain ⟨w, ⟨U, r1, r2⟩, hw⟩ := known_good (tableLib_ok hF) h hr
  have l1' := l1.mono (hv s .refl)
  have r1' := r1.mono (hw s .refl)
  refine ⟨T.listed, U.listed, Table.changes T U, ⟨T, l1', l2, rfl⟩, ⟨U, r1', r2, rfl⟩,
    changes_diffOf l2 r2 (by rw [l1.2, he]), Table.changes_pairwise l2.good r2.good, fun st => ?_⟩
  exact run_xDiffR_some (m := s.memory) hF l2 r2 l1' r1' he hc (fun f hf p d e s => (h1 f hf p d e s).tame)
    (fun f hf p d s => (h2 f hf p d s).tame) (fun f hf p d s => (h3 f hf p d s).tame) (fun f hf p d s => (h4 f hf p d s).tame) st

end

section
variable {α σ τ : Type} [ReadFamily α] {F : Nat}

/-- A `Set` value does not change, whatever client code is run. -/
theorem C57_set_unchanged (hF : setBound α ≤ F) {s : SState α σ F} (h : s.Reach) {t : Obj Empty} (ht : s.Known t) {β : Type}
    (P : Prog α Empty β) (hP : SUses F P) :
    ∃ S : IPSet α, t.Holds s.memory.nodes S ∧ t.Holds (P.run s.memory).2.nodes S := by
  obtain ⟨v, ⟨S, h1⟩, hv⟩ := known_good (setLib_ok hF) h ht
  have h3 : t.Holds s.memory.nodes S := h1.mono (hv s .refl)
  exact ⟨S, h3, h3.mono (Prog.run_le hP.tame s.memory)⟩

/-- `t.WalkPrefixes(cb)`, the callback being client code: it is called for the prefixes of the set as it is when
    `WalkPrefixes` is called, in order, until it returns false, whatever it does. -/
theorem C57_walkPrefixes (hF : setBound α ≤ F) {s : SState α σ F} (h : s.Reach) {t : Obj Empty} (ht : s.Known t)
    (cb : Prefix α → τ → Prog α Empty (τ × Bool)) (hcb : ∀ p x, SUses F (cb p x)) :
    ∃ L : List (Prefix α), (L.Pairwise fun p q => ∀ x y, InPrefix p x → InPrefix q y → toNat x < toNat y) ∧
      (∀ a, t.Members s.mem a ↔ ∃ p ∈ L, InPrefix p a) ∧
      ∀ st, (sWalkR F t cb st).run s.memory = (visitM cb L st).run s.memory := by
  obtain ⟨v, ⟨S, h1⟩, hv⟩ := known_good (setLib_ok hF) h ht
  have h1' := h1.mono (hv s .refl)
  refine ⟨S.trie.prefixes, ?_, fun a => ?_, fun st => ?_⟩
  · have hw := h1.2.1.inv.prefixes_wf
    refine h1.2.1.inv.sorted.imp_of_mem fun {p q} hp hq h x y hx hy => ?_
    exact h x y ((inPrefix_iff (hw p hp)).mp hx) ((inPrefix_iff (hw q hq)).mp hy)
  · rw [h1'.members]
    have hw := h1.2.1.inv.prefixes_wf
    rw [h1.2.1.has_iff, h1.2.1.inv.mem_iff]
    constructor
    · rintro ⟨p, hp, h⟩; exact ⟨p, hp, (inPrefix_iff (hw p hp)).mpr h⟩
    · rintro ⟨p, hp, h⟩; exact ⟨p, hp, (inPrefix_iff (hw p hp)).mp h⟩
  · have hd := h1.2.1.deep
    unfold sWalkR
    rw [run_walkR (fun p d s => (hcb p s).tame) (by unfold setBound at hF; omega) (m := s.memory) h1'.1, Trie.prefixes,
      visitM_map]

/-- `t.WalkRanges(cb)`, the callback being client code -/
theorem C57_walkRanges (hF : setBound α ≤ F) {s : SState α σ F} (h : s.Reach) {t : Obj Empty} (ht : s.Known t)
    (cb : Range α → τ → Prog α Empty (τ × Bool)) (hcb : ∀ p x, SUses F (cb p x)) :
    ∃ L : List (Range α), (∀ r ∈ L, r.Valid) ∧ (L.Pairwise fun r r' => toNat r.last + 1 < toNat r'.first) ∧
      (∀ a, t.Members s.mem a ↔ ∃ r ∈ L, InRange r a) ∧
      ∀ st, (sWalkRangesR F t cb st).run s.memory = (visitM cb L st).run s.memory := by
  obtain ⟨v, ⟨S, h1⟩, hv⟩ := known_good (setLib_ok hF) h ht
  have h1' := h1.mono (hv s .refl)
  obtain ⟨e1, e2, e3⟩ := mergeAll_spec h1.2.1.inv
  refine ⟨mergeAll S.trie.prefixes, e1, e2, fun a => ?_, fun st => ?_⟩
  · rw [h1'.members, h1.2.1.has_iff, e3]
  · have hd := h1.2.1.deep
    exact run_sWalkRangesR (fun p s => (hcb p s).tame) h1.2.1.inv (by unfold setBound at hF; omega) (m := s.memory) h1'.1

/-- `t.WalkAddresses(cb)` of an IPv4 set, the callback being client code.  Full statement: without the hypothesis
    that 255.255.255.255 is not in the set; that is false already for callbacks without effects
    (`C19_never_ends`, `C19_wraps`). -/
theorem C19_reentrant_partial (hF : setBound (BitVec 32) ≤ F) {s : SState (BitVec 32) σ F} (h : s.Reach) {t : Obj Empty}
    (ht : s.Known t) (hmax : ¬ t.Members s.mem (BitVec.allOnes 32))
    (cb : BitVec 32 → τ → Prog (BitVec 32) Empty (τ × Bool)) (hcb : ∀ a x, SUses F (cb a x)) {fuel : Nat} (hf : 2 ^ 32 < fuel) :
    ∃ L : List (BitVec 32), (L.Pairwise fun a b => a.toNat < b.toNat) ∧ (∀ a, t.Members s.mem a ↔ a ∈ L) ∧
      ∀ st, (sWalkAddressesR F fuel t cb st).run s.memory = (visitM cb L st).run s.memory := by
  obtain ⟨v, ⟨S, h1⟩, hv⟩ := known_good (setLib_ok hF) h ht
  have h1' := h1.mono (hv s .refl)
  have hi := h1.2.1.inv
  have hw := hi.prefixes_wf
  refine ⟨S.trie.prefixes.flatMap Prefix.addresses, ?_, fun a => ?_, fun st => ?_⟩
  · rw [List.pairwise_flatMap]
    refine ⟨fun p hp => addresses_sorted (hw p hp), ?_⟩
    refine hi.sorted.imp_of_mem fun {p q} hp hq h x hx y hy => ?_
    exact h x y ((mem_addresses (hw p hp)).mp hx) ((mem_addresses (hw q hq)).mp hy)
  · rw [h1'.members, h1.2.1.has_iff, hi.mem_iff, List.mem_flatMap]
    constructor
    · rintro ⟨p, hp, h⟩; exact ⟨p, hp, (mem_addresses (hw p hp)).mpr h⟩
    · rintro ⟨p, hp, h⟩; exact ⟨p, hp, (mem_addresses (hw p hp)).mp h⟩
  · have hd := h1.2.1.deep
    refine run_sWalkAddressesR (fun p s => (hcb p s).tame) hi (by unfold setBound at hF; omega) hf (fun p hp => ?_)
      (m := s.memory) h1'.1
    apply Nat.lt_of_not_le
    intro hge
    apply hmax
    rw [h1'.members, h1.2.1.has_iff]
    have e : p.broadcast.addr = BitVec.allOnes 32 := by
      apply BitVec.eq_of_toNat_eq
      have := p.broadcast.addr.isLt
      rw [BitVec.toNat_allOnes]; omega
    rw [← e]
    exact hi.prefixes_mem hp (covers_broadcast_addr (hw p hp))

end

/-! ### the hypotheses are met -/
namespace Sample

/-- a snapshot of a table with two entries -/
def run4 : List (Sched TL) := [.call (.freeze (some 0)), .finish 18]
/-- {10.0.0.0/8: 7, 11.0.0.0/8: 9} -/
def x3 : Obj Nat := ⟨some 2, .dflt⟩
set_option maxRecDepth 100000 in
theorem run4_ok : (exec s3 run4).isSome := rfl
/-- the state after `run4` -/
def s4 : State TL := after s3 run4 run4_ok
set_option maxRecDepth 100000 in
theorem s4_log : s4.log = s3.log ++ [.start 18 (.freeze (some 0)), .act 18 (.load 0 x3), .done 18 (.table x3)] := rfl
set_option maxRecDepth 100000 in
theorem s4_memory : s4.memory = ⟨s4.heap, [x3, x2]⟩ := rfl
theorem x3_known : s4.Known x3 := Or.inr ⟨18, .table x3, by rw [s4_log]; simp, List.mem_singleton_self _⟩
theorem s4_steps : s3.Steps s4 := by
  refine after_steps run4_ok ?_
  intro c hc
  simp only [run4, List.mem_cons, reduceCtorEq, List.not_mem_nil, or_false] at hc
  cases hc
  exact ⟨trivial, fun x hx => nomatch hx⟩
theorem s4_reach : s4.Reach := s3_reach.steps s4_steps
theorem x1_known4 : s4.Known x1 :=
  Or.inr ⟨2, .table x1, by rw [s4_log, s3_log, s2_log]; simp [log1], List.mem_singleton_self _⟩
/-- A callback that removes the entry it is told from the mutable table the walked table is a snapshot of, adds
    another one, reads the table, and notes the entry. -/
def meddle (p : Prefix (BitVec 32)) (d : Nat) (acc : List (Nat × Nat)) : Prog (BitVec 32) Nat (List (Nat × Nat) × Bool) :=
  (TCall.op (some 0) (.remove (.prefix p)) : TCall (BitVec 32) Nat Unit).code 67 >>= fun _ =>
  (TCall.op (some 0) (.insertOrUpdate c2 d) : TCall (BitVec 32) Nat Unit).code 67 >>= fun _ =>
  (TCall.num (some 0) : TCall (BitVec 32) Nat Unit).code 67 >>= fun n =>
  .ret (acc ++ [(d, match n with
    | .num n => n
    | _ => 0)], true)
theorem meddle_uses (p : Prefix (BitVec 32)) (d : Nat) (acc : List (Nat × Nat)) : TUses 67 (meddle p d acc) :=
  .call _ _ fun _ => .call _ _ fun _ => .call _ _ fun _ => .ret _

example := C57_walk (by decide) s4_reach x3_known meddle meddle_uses
example := C57_unchanged (by decide) s4_reach x3_known _ (meddle_uses ⟨0x0a000000#32, 8⟩ 1 [])
/-- the callback is told both entries although it has removed them from the mutable table -/
example : ((xWalkR 67 x3 meddle []).run s4.memory).1 = .ret ([(7, 2), (9, 1)], true) := rfl

/-- callbacks that meddle, walk the other table with a callback that meddles, and panic when an entry is unchanged -/
def meddling : TableDiffCbs (BitVec 32) Nat (List (Nat × Nat)) where
  changed := none
  left := some meddle
  right := some fun p d acc => xWalkR 67 x1 meddle acc >>= fun x => meddle p d x.1
  unchanged := some fun _ _ _ => .panic

example := C57_diff (by decide) s4_reach x1_known4 x3_known rfl meddling (fun h => nomatch h) (fun _ h => nomatch h)
  (fun f h p d x => by cases h; exact meddle_uses p d x)
  (fun f h p d x => by cases h; exact .walk x1 meddle x _ meddle_uses fun y => meddle_uses p d y.1)
  (fun f h p d x => by cases h; exact .panic)
example : ((xDiffR 67 x3 x1 { meddling with unchanged := none } []).run s4.memory).1 = .ret ([(9, 2)], true) := rfl
example : ((xDiffR 67 x3 x1 meddling []).run s4.memory).1 = .panic := rfl

/-- 10.0.0.0/24 without 10.0.0.1 -/
def y4 : Obj Empty := ⟨some 33, .nil⟩
theorem y4_known : t3.Known y4 := Or.inr ⟨14, .set y4, t3_at 7 rfl, List.mem_singleton_self _⟩
/-- a callback that adds the prefix to a mutable set, removes it from another one and asks that one for its size -/
def meddleS (p : Prefix (BitVec 32)) (acc : List (BitVec 32)) : Prog (BitVec 32) Empty (List (BitVec 32) × Bool) :=
  (SCall.insert (some 0) (.prefix p) true : SCall (BitVec 32) Unit).code 170 >>= fun _ =>
  (SCall.remove (some 1) (.prefix p) true : SCall (BitVec 32) Unit).code 170 >>= fun _ =>
  (SCall.isEmpty (.obj (some 1)) : SCall (BitVec 32) Unit).code 170 >>= fun _ =>
  .ret (acc ++ [p.addr], true)
theorem meddleS_uses (p : Prefix (BitVec 32)) (acc : List (BitVec 32)) : SUses 170 (meddleS p acc) :=
  .call _ _ fun _ => .call _ _ fun _ => .call _ _ fun _ => .ret _
example := C57_walkPrefixes (by decide) t3_reach y4_known meddleS meddleS_uses
example := C57_set_unchanged (by decide) t3_reach y4_known _ (meddleS_uses ⟨0x0a000000#32, 8⟩ [])

example := C57_runs_alone (L := TL) (s := s4.spawn (.num (some 0))) (i := 19) _ rfl

/-- the same for ranges; it also walks a set -/
def meddleR (r : Range (BitVec 32)) (acc : List (BitVec 32)) : Prog (BitVec 32) Empty (List (BitVec 32) × Bool) :=
  (SCall.insert (some 0) (.range r) true : SCall (BitVec 32) Unit).code 170 >>= fun _ =>
  sWalkR 170 y4 meddleS [] >>= fun _ => .ret (acc ++ [r.first, r.last], true)
example := C57_walkRanges (by decide) t3_reach y4_known meddleR
  (fun _ _ => .call _ _ fun _ => .walk _ _ _ _ meddleS_uses fun _ => .ret _)

/-- take 255.255.255.255 out of {10.0.0.0-10.0.0.255} -/
def srun4 : List (Sched SL) := [.call (.difference (.set y3) (.address (BitVec.allOnes 32))), .finish 21]
set_option maxRecDepth 100000 in
theorem srun4_ok : (exec t3 srun4).isSome := rfl
/-- the state after `srun4` -/
def t4 : State SL := after t3 srun4 srun4_ok
set_option maxRecDepth 100000 in
theorem t4_log : ∃ x, t4.log = t3.log ++ [.start 21 (.difference (.set y3) (.address (BitVec.allOnes 32))), .done 21 (.set x)] :=
  ⟨_, rfl⟩
theorem t4_steps : t3.Steps t4 := by
  refine after_steps srun4_ok ?_
  intro c hc
  simp only [srun4, List.mem_cons, reduceCtorEq, List.not_mem_nil, or_false] at hc
  cases hc
  refine ⟨trivial, ?_⟩
  show ∀ x ∈ ([y3] : List (Obj Empty)), _
  simp only [List.mem_singleton, forall_eq]
  exact Or.inr ⟨6, .set y3, by rw [t3_log, t2_log]; simp [slog2, y3], List.mem_singleton_self _⟩
theorem t4_reach : t4.Reach := t3_reach.steps t4_steps

/-- a callback that removes the address from a mutable set and stops at 10.0.0.9 -/
def meddleA (a : BitVec 32) (acc : List (BitVec 32)) : Prog (BitVec 32) Empty (List (BitVec 32) × Bool) :=
  (SCall.remove (some 0) (.address a) true : SCall (BitVec 32) Unit).code 170 >>= fun _ => .ret (acc ++ [a], a != 0x0a000009#32)
example : ∃ x, t4.Known x ∧ ¬ x.Members t4.mem (BitVec.allOnes 32) := by
  obtain ⟨x, e⟩ := t4_log
  have hs : .start 21 (.difference (.set y3) (.address (BitVec.allOnes 32))) ∈ t4.log := by rw [e]; simp
  have hd : .done 21 (.set x) ∈ t4.log := by rw [e]; simp
  obtain ⟨r, h1, h2⟩ := C11_code (by decide) t4_reach hs hd trivial
  cases h1
  refine ⟨x, Or.inr ⟨21, .set x, hd, List.mem_singleton_self _⟩, fun h => ((h2 _).mp h).2 rfl⟩
example {x : Obj Empty} (hx : t4.Known x) (h : ¬ x.Members t4.mem (BitVec.allOnes 32)) :=
  C19_reentrant_partial (by decide) t4_reach hx h meddleA (fun _ _ => .call _ _ fun _ => .ret _) (Nat.lt_succ_self _)

end Sample
end Addrs

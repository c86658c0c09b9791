import Verif.Script
/-
  A program whose callbacks are programs does on the heap what it should do.
-/
set_option linter.unusedSectionVars false
namespace Addrs
open GoWord LawfulGoWord Heap Prog

section
variable {α D : Type} [LawfulGoWord α] [Inhabited D] [Comparable D] {F : Nat}

theorem TScript.uses {β : Type} (c : TScript α D β) : ∀ r : List (Obj D), TUses F (c.code F r) := by
  have wr : ∀ {β τ : Type} {P : Prog α D ((τ × Bool) × β)}, TUses F P → TUses F (withRegs P) := fun h => h.bind fun _ => .ret _
  induction c with
  | ret b => exact fun r => .ret _
  | panic => exact fun r => .panic
  | call c k ih => exact fun r => .call _ _ fun x => ih _ _ _
  | walk t cb s k ih1 ih2 => exact fun r => .walk _ _ _ _ (fun p d x => wr (ih1 p d x.1 x.2)) fun x => ih2 _ _
  | diff t u given cb s k ih1 ih2 =>
    intro r
    refine .diff _ _ _ _ _ ?_ ?_ ?_ ?_ fun x => ih2 _ _
    all_goals
      intro f hf
      dsimp only at hf
      split at hf
      · cases hf
        intros
        exact wr (ih1 _ _ _ _ _ _)
      · cases hf
  | map t f s k ih1 ih2 =>
    intro r
    refine .map _ _ _ _ ?_ fun x => ih2 _ _ _
    intro g hg
    cases hg
    exact fun p d x => (ih1 p d x.1 x.2).bind fun _ => .ret _

/-- the memory, without the nodes of `H`, and the `Table`s that the program has got are the world `u` -/
def Sim (u : SWorld (MTable α D)) (H : List Nat) (m : Mem α D) (regs : List (Obj D)) : Prop :=
  (∀ k ∈ H, k < m.heap.length) ∧ ∃ w : TWorld α D, w.Matches (m.without H) regs ∧ w.Stands u

theorem Sim.quiet {u : SWorld (MTable α D)} {own own' : List Nat} {m m' : Mem α D} {regs : List (Obj D)} (h : Sim u own m regs)
    (q : Mem.Quiet own own' m m') : Sim u own' m' regs := by
  obtain ⟨h1, w, h2, h3⟩ := h
  refine ⟨q.low h1, w, h2.keep q.objs ?_, h3⟩
  intro k c hk
  simp only [Mem.without, hide] at hk ⊢
  split at hk
  · cases hk
  · next hn =>
    have hlt : k < m.heap.length := (List.getElem?_eq_some_iff.mp (hk : m.heap[k]? = some c)).1
    rw [if_neg fun hc => (q.fresh k hc).elim hn (by omega)]
    show m'.heap[k]? = some c
    rw [q.kept k hlt hn]; exact hk

theorem Sim.sub {u : SWorld (MTable α D)} {H own : List Nat} {m : Mem α D} {regs : List (Obj D)} (h : Sim u own m regs)
    (hs : ∀ k ∈ H, k ∈ own) : Sim u H m regs := by
  obtain ⟨h1, w, h2, h3⟩ := h
  refine ⟨fun k hk => h1 k (hs k hk), w, h2.keep rfl ?_, h3⟩
  intro k c hk
  simp only [Mem.without, hide] at hk ⊢
  split at hk
  · cases hk
  · next hn => rw [if_neg fun hc => hn (hs k hc)]; exact hk

/-- the end of a program that has got the `Table`s `r` -/
def endOf {D β : Type} (r : List (Obj D)) : Option β → End (β × List (Obj D))
  | some b => .ret (b, r)
  | none => .panic

/-- the end of a loop -/
def endLoop {D τ : Type} (r : List (Obj D)) : Option (τ × Bool) → End ((τ × List (Obj D)) × Bool)
  | some y => .ret ((y.1, r), y.2)
  | none => .panic

theorem run_withRegs {α D τ : Type} {P : Prog α D ((τ × Bool) × List (Obj D))} {m m' : Mem α D} {o : Option (τ × Bool)} {r : List (Obj D)}
    (h : P.run m = (endOf r o, m')) : (withRegs P).run m = (endLoop r o, m') := by
  unfold withRegs
  rw [run_bind, h]
  cases o <;> rfl

theorem run_loop {α D W β τ : Type} {S : W → Mem α D → List (Obj D) → Prop} {R : β → τ → W → Option (τ × Bool) → W → Prop}
    {P : β → τ → W → Prop} {g : β → τ × List (Obj D) → Prog α D ((τ × List (Obj D)) × Bool)}
    (hg : ∀ x s u m r, S u m r → P x s u → ∃ o m' r' u', (g x (s, r)).run m = (endLoop r' o, m') ∧ R x s u o u' ∧ S u' m' r') :
    ∀ (xs : List β) (s : τ) {u : W} {m : Mem α D} {r : List (Obj D)}, S u m r → LoopFine P R xs s u →
      ∃ o m' r' u', (visitM g xs (s, r)).run m = (endLoop r' o, m') ∧ Loop R xs s u o u' ∧ S u' m' r' := by
  intro xs
  induction xs with
  | nil => intro s u m r h _; exact ⟨some (s, true), m, r, u, rfl, .nil, h⟩
  | cons x xs ih =>
    intro s u m r h hf
    obtain ⟨o, m1, r1, u1, h1, h2, h3⟩ := hg x s u m r h hf.1
    simp only [visitM, run_bind, h1]
    cases o with
    | none => exact ⟨none, m1, r1, u1, rfl, .panic h2, h3⟩
    | some y =>
      obtain ⟨s', b⟩ := y
      cases b with
      | false => exact ⟨some (s', false), m1, r1, u1, rfl, .stop h2, h3⟩
      | true =>
        obtain ⟨o, m2, r2, u2, g1, g2, g3⟩ := ih s' h3 (hf.2 s' u1 h2)
        exact ⟨o, m2, r2, u2, g1, .next h2 g2, g3⟩

/-- the end of the calls that `Map` makes -/
def endCollect {τ γ : Type} (r : List (Obj D)) : Option (List γ × τ) → End (List γ × (τ × List (Obj D)))
  | some y => .ret (y.1, (y.2, r))
  | none => .panic
/-- the end of one of them -/
def endOne {τ γ : Type} (r : List (Obj D)) : Option (γ × τ) → End (γ × (τ × List (Obj D)))
  | some y => .ret (y.1, (y.2, r))
  | none => .panic

theorem run_collect {β γ τ : Type} {R : β → τ → SWorld (MTable α D) → Option (γ × τ) → SWorld (MTable α D) → Prop}
    {P : β → τ → SWorld (MTable α D) → Prop} {g : β → τ × List (Obj D) → Prog α D (γ × (τ × List (Obj D)))}
    (hg : ∀ x s u H m r, Sim u H m r → P x s u → ∃ o m' r' u', (g x (s, r)).run m = (endOne r' o, m') ∧ R x s u o u' ∧ Sim u' H m' r')
    {xs : List β} {sr : τ × List (Obj D)} {own own' : List Nat} {m m' : Mem α D} {out : End (List γ × (τ × List (Obj D)))}
    (h : CallsEach g xs sr own m out own' m') : ∀ {u : SWorld (MTable α D)}, Sim u own m sr.2 → CollectFine P R xs sr.1 u →
      ∃ o r' u', out = endCollect r' o ∧ Collect R xs sr.1 u o u' ∧ Sim u' own' m' r' := by
  induction h with
  | @nil s own own' m m' q =>
    intro u hs _
    exact ⟨some ([], s.1), s.2, u, rfl, .nil, hs.quiet q⟩
  | @cons x xs s s1 w own own1 own2 m m1 m2 m3 o q c rest ih =>
    intro u hs hf
    obtain ⟨o1, m1', r1, u1, h1, h2, h3⟩ := hg x s.1 u own1 m1 s.2 (hs.quiet q) hf.1
    rw [c] at h1
    cases o1 with
    | none => simp [endOne] at h1
    | some y =>
      simp only [endOne, Prod.mk.injEq, End.ret.injEq] at h1
      obtain ⟨⟨rfl, rfl⟩, rfl⟩ := h1
      obtain ⟨o2, r2, u2, rfl, g2, g3⟩ := ih h3 (hf.2 _ _ _ h2)
      refine ⟨o2.map fun z => (y.1 :: z.1, z.2), r2, u2, ?_, .next h2 g2, g3⟩
      cases o2 <;> rfl
  | @panic x xs s own own1 m m1 m2 q c =>
    intro u hs hf
    obtain ⟨o1, m1', r1, u1, h1, h2, h3⟩ := hg x s.1 u own1 m1 s.2 (hs.quiet q) hf.1
    rw [c] at h1
    cases o1 with
    | some y => simp [endOne] at h1
    | none =>
      obtain ⟨-, rfl⟩ := Prod.mk.inj h1
      exact ⟨none, r1, u1, rfl, .panic h2, h3⟩
  | @stuck x xs s own own1 m m1 m2 q c =>
    intro u hs hf
    obtain ⟨o1, m1', r1, u1, h1, h2, h3⟩ := hg x s.1 u own1 m1 s.2 (hs.quiet q) hf.1
    rw [c] at h1
    cases o1 <;> simp [endOne] at h1

theorem Collect.of_map {W β β' γ σ : Type} {R : β → σ → W → Option (γ × σ) → W → Prop} (f : β' → β) : ∀ {xs : List β'} {s : σ} {w w' : W}
    {o : Option (List γ × σ)}, Collect R (xs.map f) s w o w' → Collect (fun x => R (f x)) xs s w o w' := by
  intro xs
  induction xs with
  | nil => intro s w w' o h; cases h; exact .nil
  | cons x xs ih =>
    intro s w w' o h
    cases h with
    | next h r => exact .next h (ih r)
    | panic h => exact .panic h

theorem CollectFine.to_map {W β β' γ σ : Type} {P : β → σ → W → Prop} {R : β → σ → W → Option (γ × σ) → W → Prop} (f : β' → β) :
    ∀ {xs : List β'} {s : σ} {w : W}, CollectFine (fun x => P (f x)) (fun x => R (f x)) xs s w → CollectFine P R (xs.map f) s w := by
  intro xs
  induction xs with
  | nil => intro s w _; trivial
  | cons x xs ih => intro s w h; exact ⟨h.1, fun y s' w' hr => ih (h.2 y s' w' hr)⟩

/-! ### `Diff` without a comparison function -/

theorem diff_none_left {σ : Type} {h h' : Handler α D σ} (e1 : h.added = h'.added) (e2 : h.sameNil = h'.sameNil) :
    ∀ (F : Nat) (q : Ptr) (s : σ), diff h F none q s = diff h' F none q s := by
  intro F
  induction F with
  | zero => intros; rfl
  | succ F ih =>
    intro q s
    cases q with
    | none => simp only [diff, e2]
    | some b =>
      simp only [diff, e1, e2]
      split
      · rfl
      · congr 1
        funext d
        congr 1
        funext s
        rw [ih]
        congr 1
        funext s
        exact ih _ _

theorem reportM_right {τ : Type} {cb : TableDiffCbs α D τ} (e e' : D → D → Bool) {c : Change α D} (h : c.left = none) :
    Change.reportM e cb c = Change.reportM e' cb c := by
  cases c <;> first | rfl | cases h

theorem kind_right (e e' : D → D → Bool) {c : Change α D} (h : c.left = none) : Change.kind e c = Change.kind e' c := by
  cases c <;> first | rfl | cases h

/-- `Diff`, the callbacks being programs: also without a comparison function, if there is nothing to compare -/
theorem run_xDiffR (hF : 2 * width α + 3 ≤ F) {T U : Table α D} (l2 : T.Reachable) (r2 : U.Reachable) {τ : Type} {l r : Obj D} {m : Mem α D}
    (l1 : l.Is m.nodes T) (r1 : r.Is m.nodes U) (e : D → D → Bool) (he : ∀ e', EqFn.val l.eq = some e' → e' = e) (hn : l.eq = .nil → T.trie = .nil)
    {cb : TableDiffCbs α D τ}
    (hc : cb.unchanged = none → ∀ e, l.eq = .custom e → (∀ x, e x x = true) ∨ cb.changed = none)
    (h1 : ∀ f, cb.changed = some f → ∀ p d e x, TameIn (f p d e x) Nowhere) (h2 : ∀ f, cb.left = some f → ∀ p d x, TameIn (f p d x) Nowhere)
    (h3 : ∀ f, cb.right = some f → ∀ p d x, TameIn (f p d x) Nowhere) (h4 : ∀ f, cb.unchanged = some f → ∀ p d x, TameIn (f p d x) Nowhere)
    (st : τ) : (xDiffR F l r cb st).run m = (visitM (Change.reportM e cb) (Table.changes T U) st).run m := by
  cases hq : l.eq with
  | custom c =>
    have := he c (by rw [hq]; rfl)
    subst this
    exact run_xDiffR_some hF l2 r2 l1 r1 (by rw [hq]; rfl) (fun hu => hc hu _ hq) h1 h2 h3 h4 st
  | dflt =>
    have := he (fun x y => decide (x = y)) (by rw [hq]; rfl)
    subst this
    exact run_xDiffR_some hF l2 r2 l1 r1 (by rw [hq]; rfl) (fun _ => Or.inl fun x => by simp) h1 h2 h3 h4 st
  | nil =>
    have hT := hn hq
    have hp : l.trie = none := by
      have := l1.1
      rw [hT] at this
      generalize l.trie = p at this
      cases this; rfl
    -- as if it had the default one
    have e0 : xDiffR F l r cb st = xDiffR F ⟨none, .dflt⟩ r cb st := by
      unfold xDiffR DiffR
      rw [hp]
      dsimp only
      rw [diff_none_left]
      all_goals rfl
    have e2 := run_xDiffR_some (l := (⟨none, .dflt⟩ : Obj D)) (T := (Table.new_ : Table α D)) (e := fun x y => decide (x = y)) hF .new_ r2
      (m := m) ⟨Den.nil, rfl⟩ r1 rfl (fun _ => Or.inl fun x => by simp) h1 h2 h3 h4 st
    rw [e0, e2]
    have e1 : Table.changes (Table.new_ : Table α D) U = Table.changes T U := by
      unfold Table.changes
      rw [hT]; rfl
    rw [e1, visitM_congr]
    intro c hcm s
    refine congrFun (reportM_right _ _ ?_) s
    have hl := Table.changes_left T U
    have hz : T.listed = [] := by rw [Table.listed_eq]; simp [Table.pairs, hT, Trie.entries]
    rw [hz, List.filterMap_eq_nil_iff] at hl
    exact hl c hcm

theorem TScript.tame_withRegs {τ : Type} (P : TScript α D (τ × Bool)) (r : List (Obj D)) : TameIn (withRegs (P.code F r)) Nowhere :=
  Tame.seq (P.uses (F := F) r).tame fun _ _ _ => trivial

/-- a callback of `Diff` -/
def diffCb (F : Nat) {τ : Type} (given : DiffKind → Bool) (cb : DiffKind → Prefix α → D → D → τ → TScript α D (τ × Bool))
    (y : DiffKind × Prefix α × D × D) (x : τ × List (Obj D)) : Prog α D ((τ × List (Obj D)) × Bool) :=
  if given y.1 then withRegs ((cb y.1 y.2.1 y.2.2.1 y.2.2.2 x.1).code F x.2) else pure (x, true)

theorem report_kind {τ : Type} (e : D → D → Bool) (given : DiffKind → Bool)
    (cb : DiffKind → Prefix α → D → D → τ → TScript α D (τ × Bool)) (c : Change α D) (x : τ × List (Obj D)) :
    Change.reportM e
      { changed := if given .changed then some fun p d e x => withRegs ((cb .changed p d e x.1).code F x.2) else none
        left := if given .left then some fun p d x => withRegs ((cb .left p d d x.1).code F x.2) else none
        right := if given .right then some fun p d x => withRegs ((cb .right p d d x.1).code F x.2) else none
        unchanged := if given .unchanged then some fun p d x => withRegs ((cb .unchanged p d d x.1).code F x.2) else none } c x =
    diffCb F given cb (Change.kind e c) x := by
  cases c with
  | onlyLeft p v => by_cases h : given .left = true <;> simp [Change.reportM, Change.kind, diffCb, h]
  | onlyRight p v => by_cases h : given .right = true <;> simp [Change.reportM, Change.kind, diffCb, h]
  | both p v q w =>
    simp only [Change.reportM, Change.kind]
    by_cases he : e v w = true
    · by_cases h : given .unchanged = true <;> simp [he, diffCb, h]
    · by_cases h : given .changed = true <;> simp [he, diffCb, h]

theorem SWorld.val_length {u : SWorld (MTable α D)} {w : TWorld α D} (S : w.Stands u) : u.vals.length = w.vals.length := by
  rw [S.vals, List.length_map]

/-- the program goes on after a loop -/
theorem run_after {β τ : Type} {P : Prog α D ((τ × List (Obj D)) × Bool)} {k : τ × Bool → TScript α D β} {m m' : Mem α D}
    {x : Option (τ × Bool)} {r : List (Obj D)} :
    P.run m = (endLoop r x, m') → (P >>= fun x => (k (x.1.1, x.2)).code F x.1.2).run m = match x with
      | some z => ((k z).code F r).run m'
      | none => (.panic, m') := by
  intro h
  rw [run_bind, h]
  cases x <;> rfl

/-- A program does on the heap what it should do. -/
theorem TScript.sim (hF : 2 * width α + 3 ≤ F) {β : Type} (c : TScript α D β) :
    ∀ {u : SWorld (MTable α D)} {H : List Nat} {m : Mem α D} {r : List (Obj D)}, Sim u H m r → c.Proper u →
      ∃ o m' r' u', (c.code F r).run m = (endOf r' o, m') ∧ c.Explained u o u' ∧ Sim u' H m' r' := by
  induction c with
  | ret b => intro u H m r h _; exact ⟨some b, m, r, u, rfl, ⟨rfl, rfl⟩, h⟩
  | panic => intro u H m r h _; exact ⟨none, m, r, u, rfl, ⟨rfl, rfl⟩, h⟩
  | call c k ih =>
    intro u H m r h hp
    obtain ⟨hH, w, M, S⟩ := h
    obtain ⟨x, m1, h1, h2, h3, h4⟩ := TCmd.step_in hF hH M (S.legal hp.1)
    obtain ⟨u1, e1, e2⟩ := TCmd.explained S hp.1
    rw [← h2] at e1
    have hn : r.length = u.vals.length := by rw [M.nvals, SWorld.val_length S]
    obtain ⟨o, m2, r2, u2, g1, g2, g3⟩ := ih x.seen u.vals.length (u := u1) (H := H) (m := m1) (r := r ++ x.outs)
      ⟨fun k hk => Nat.lt_of_lt_of_le (hH k hk) h4, _, h3, e2⟩ (hp.2 _ _ e1)
    refine ⟨o, m2, r2, u2, ?_, ⟨_, u1, e1, g2⟩, g3⟩
    simp only [TScript.code, run_bind, h1, hn, g1]
  | walk t cb s k ih1 ih2 =>
    intro u H m r h hp
    obtain ⟨hH, w, M, S⟩ := h
    have ht : t < w.vals.length := by rw [← SWorld.val_length S]; exact hp.1
    obtain ⟨e, ok⟩ := S.val t
    have hst := M.val ht
    have hL : (u.val t).entries.Listed (w.val t).table.listed := by rw [e]; exact ok.holds.listed ok.reachable
    obtain ⟨f1, f2⟩ := hp.2 _ hL
    have hd := ok.reachable.deep
    obtain ⟨x, m1, r1, u1, g1, g2, g3⟩ := run_loop
      (g := fun (x : Prefix α × D) (s : _ × List (Obj D)) => withRegs ((cb x.1 x.2 s.1).code F s.2)) (S := fun u m r => Sim u H m r)
      (P := fun y s => (cb y.1 y.2 s).Proper) (R := fun y s => (cb y.1 y.2 s).Explained)
      (fun x s u m r hs hp => by
        obtain ⟨o, m', r', u', a1, a2, a3⟩ := ih1 x.1 x.2 s hs hp
        exact ⟨o, m', r', u', run_withRegs a1, a2, a3⟩) _ s ⟨hH, w, M, S⟩ f1
    have hw : (xWalkR F (r.getD t .zero) (fun p d x => withRegs ((cb p d x.1).code F x.2)) (s, r)).run m = (endLoop r1 x, m1) := by
      unfold xWalkR
      rw [run_walkR (u := (w.val t).table.trie) (fun p d s => ?_) (by omega) (m := m) (hst.1.1.mono hide_le), ← g1, Table.listed_eq,
        Table.pairs, visitM_map]
      exact TScript.tame_withRegs _ _
    have hrun := run_after (F := F) (k := k) hw
    cases x with
    | none => exact ⟨none, m1, r1, u1, hrun, by rw [TScript.Explained]; exact ⟨_, none, u1, hL, g2, rfl, rfl⟩, g3⟩
    | some z =>
      obtain ⟨o, m2, r2, u2, b1, b2, b3⟩ := ih2 z g3 (f2 _ _ g2)
      exact ⟨o, m2, r2, u2, hrun.trans b1, by rw [TScript.Explained]; exact ⟨_, some z, u1, hL, g2, b2⟩, b3⟩
  | diff t t' given cb s k ih1 ih2 =>
    intro u H m r h hp
    obtain ⟨hH, w, M, S⟩ := h
    obtain ⟨⟨p1, p2, p3, p4⟩, p5⟩ := hp
    have ht : t < w.vals.length := by rw [← SWorld.val_length S]; exact p1
    have ht' : t' < w.vals.length := by rw [← SWorld.val_length S]; exact p2
    obtain ⟨e, ok⟩ := S.val t
    obtain ⟨e', ok'⟩ := S.val t'
    have hst := M.val ht
    have hst' := M.val ht'
    have hcmp : (u.val t).cmp = (w.val t).cmp := by rw [e]; rfl
    have hnil : (w.val t).cmp = .nil → (w.val t).table.trie = .nil := fun hc => by
      have := p3 (hcmp.trans hc)
      rw [e] at this
      exact ok.holds.nil ok.reachable this
    obtain ⟨d1, d2⟩ := ok.dress hnil
    have hC : (u.val t).entries.Differ (u.val t').entries (Table.changes (w.val t).table (w.val t').table) := by
      rw [e, e']
      exact Table.Holds.differ (l := ⟨(w.val t).table.trie, some (w.val t).toMap.same⟩) ok.holds ok'.holds d1 ok'.reachable
    obtain ⟨f1, f2⟩ := p5 _ hC
    obtain ⟨x, m1, r1, u1, g1, g2, g3⟩ := run_loop (g := diffCb F given cb) (S := fun u m r => Sim u H m r)
      (P := fun y s w => given y.1 = true → (cb y.1 y.2.1 y.2.2.1 y.2.2.2 s).Proper w)
      (R := fun y => orTrue (given y.1) fun s => (cb y.1 y.2.1 y.2.2.1 y.2.2.2 s).Explained)
      (fun x s u m r hs hp => by
        unfold diffCb orTrue
        by_cases hg : given x.1 = true
        · obtain ⟨o, m', r', u', a1, a2, a3⟩ := ih1 x.1 x.2.1 x.2.2.1 x.2.2.2 s hs (hp hg)
          exact ⟨o, m', r', u', by rw [if_pos hg]; exact run_withRegs a1, by rw [if_pos hg]; exact a2, a3⟩
        · exact ⟨some (s, true), m, r, u, by rw [if_neg hg]; rfl, by rw [if_neg hg]; exact ⟨rfl, rfl⟩, hs⟩) _ s ⟨hH, w, M, S⟩ f1
    have hw := run_xDiffR (τ := _ × List (Obj D)) hF ok.reachable ok'.reachable (m := m) (l := r.getD t .zero) (r := r.getD t' .zero)
      (hst.1.mono hide_le) (hst'.1.mono hide_le) (u.val t).same
      (fun e' he => by rw [e, ok.same (by rw [ok.eq, ← hst.2.2, he])]) (fun hq => hnil (hst.2.2 ▸ hq))
      (cb := { changed := if given .changed then some fun p d e x => withRegs ((cb .changed p d e x.1).code F x.2) else none
               left := if given .left then some fun p d x => withRegs ((cb .left p d d x.1).code F x.2) else none
               right := if given .right then some fun p d x => withRegs ((cb .right p d d x.1).code F x.2) else none
               unchanged := if given .unchanged then some fun p d x => withRegs ((cb .unchanged p d d x.1).code F x.2) else none })
      (fun hu e he => by
        have hg : given .unchanged = false := by
          dsimp only at hu
          split at hu
          · cases hu
          · next hg => simpa using hg
        rcases p4 hg e (hcmp.trans (hst.2.2 ▸ he)) with h | h
        · exact Or.inl h
        · right; simp [h])
      (by intro f hf; dsimp only at hf; split at hf <;> cases hf; exact fun _ _ _ _ => TScript.tame_withRegs _ _)
      (by intro f hf; dsimp only at hf; split at hf <;> cases hf; exact fun _ _ _ => TScript.tame_withRegs _ _)
      (by intro f hf; dsimp only at hf; split at hf <;> cases hf; exact fun _ _ _ => TScript.tame_withRegs _ _)
      (by intro f hf; dsimp only at hf; split at hf <;> cases hf; exact fun _ _ _ => TScript.tame_withRegs _ _) (s, r)
    rw [visitM_congr (fun c _ x => report_kind (F := F) (u.val t).same given cb c x), ← visitM_map, g1] at hw
    have hrun := run_after (F := F) (k := k) hw
    cases x with
    | none => exact ⟨none, m1, r1, u1, hrun, by rw [TScript.Explained]; exact ⟨_, none, u1, hC, g2, rfl, rfl⟩, g3⟩
    | some z =>
      obtain ⟨o, m2, r2, u2, b1, b2, b3⟩ := ih2 z g3 (f2 _ _ g2)
      exact ⟨o, m2, r2, u2, hrun.trans b1, by rw [TScript.Explained]; exact ⟨_, some z, u1, hC, g2, b2⟩, b3⟩
  | map t f s k ih1 ih2 =>
    intro u H m r h hp
    obtain ⟨hH, w, M, S⟩ := h
    obtain ⟨⟨p1, p2⟩, p3⟩ := hp
    have ht : t < w.vals.length := by rw [← SWorld.val_length S]; exact p1
    obtain ⟨e, ok⟩ := S.val t
    have hst := M.val ht
    have hcmp : (u.val t).cmp = (w.val t).cmp := by rw [e]; rfl
    have hem : (u.val t).entries = Entries.empty → (w.val t).table.trie = .nil := fun h => by
      rw [e] at h
      exact ok.holds.nil ok.reachable h
    obtain ⟨d1, d2⟩ := ok.dress fun hc => by
      rcases p2 with h | h
      · exact hem h
      · rw [hcmp, hc] at h; cases h
    have hN : (u.val t).entries.Calls (w.val t).table.mapNodes := by
      rw [e]
      exact Table.Holds.mapNodes (t := ⟨(w.val t).table.trie, some (w.val t).toMap.same⟩) ok.holds d1 rfl
    obtain ⟨f1, f2⟩ := p3 _ hN
    obtain ⟨out, own', m1, res, h1, h2, h3⟩ := run_xMapR (F := F) hF ok.reachable (H := H) (own := H) (m := m) (t := r.getD t .zero) (s := (s, r))
      (f := fun p d x => (f p d x.1).code F x.2 >>= fun y => pure (y.1.1, (y.1.2, y.2)))
      (fun p d x => Tame.seq ((f p d x.1).uses (F := F) x.2).tame fun _ _ _ => trivial) hH hst.1 (by
        rcases p2 with h | h
        · left
          have := hst.1.1
          rw [hem h] at this
          generalize (r.getD t .zero).trie = p at this
          cases this; rfl
        · right; rw [hst.2.2, ← hcmp, h])
    obtain ⟨o, r1, u1, rfl, g2, g3⟩ := run_collect (P := fun (y : Prefix α × D) s => (f y.1 y.2 s).Proper)
      (R := fun (y : Prefix α × D) s => (f y.1 y.2 s).Explained) (fun x s u H m r hs hp => by
        obtain ⟨o, m', r', u', a1, a2, a3⟩ := ih1 x.1 x.2 s hs hp
        refine ⟨o, m', r', u', ?_, a2, a3⟩
        rw [run_bind, a1]
        cases o <;> rfl) h2 (u := u) ⟨hH, w, M, S⟩ (CollectFine.to_map _ f1)
    have g2' := Collect.of_map _ g2
    have g4 := g3.sub h2.sub
    cases o with
    | none =>
      cases h3
      refine ⟨none, m1, r1, u1, ?_, by rw [TScript.Explained]; exact ⟨_, none, u1, hN, g2', rfl, rfl⟩, g4⟩
      simp only [TScript.code, run_bind, h1]
      rfl
    | some z =>
      obtain ⟨ws, s'⟩ := z
      obtain ⟨q, rfl, h4⟩ := h3
      obtain ⟨hH1, w1, M1, S1⟩ := g4
      have hr1 : ((w.val t).table.map (some fun _ _ => popD) ws).1.Reachable := .map _ _ _ ok.reachable
      have ok1 : AbsTable.Ok ⟨((w.val t).table.map (some fun _ _ => popD) ws).1, (w.val t).cmp⟩ := ⟨hr1, ok.eq⟩
      have hl : ws.length = (w.val t).table.mapNodes.length := by
        have := h2.length rfl
        simpa using this
      have hlist : ((w.val t).table.map (some fun _ _ => popD) ws).1.listed = mapResults (w.val t).table.mapNodes ws := by
        by_cases hz : (w.val t).table.trie = .nil
        · rw [Table.listed_eq]
          simp [Table.map, Table.pairs, hz, Trie.map, Trie.entries, mapResults, Table.mapNodes, Trie.allNodes]
        · have hc : (w.val t).cmp = .dflt := by
            rcases p2 with h | h
            · exact (hz (hem h)).elim
            · rw [← hcmp, h]
          exact Table.map_popD ok.reachable (e := fun x y => decide (x = y)) (by rw [ok.eq, hc]; rfl) (by simp) hl
      have hm' : (AbsTable.toMap ⟨((w.val t).table.map (some fun _ _ => popD) ws).1, (w.val t).cmp⟩).entries.Listed
          (mapResults (w.val t).table.mapNodes ws) := by
        rw [← hlist]; exact ok1.holds.listed hr1
      have S2 := S1.got ok1
      have M2 := M1.got (t := ⟨q, (r.getD t .zero).eq⟩)
        (a := ⟨((w.val t).table.map (some fun _ _ => popD) ws).1, (w.val t).cmp⟩) ⟨h4, hr1, hst.2.2⟩
      have hmap : AbsTable.toMap ⟨((w.val t).table.map (some fun _ _ => popD) ws).1, (w.val t).cmp⟩ =
          ⟨(AbsTable.toMap ⟨((w.val t).table.map (some fun _ _ => popD) ws).1, (w.val t).cmp⟩).entries, (u.val t).cmp⟩ := by
        rw [hcmp]; rfl
      rw [hmap] at S2
      obtain ⟨o, m2, r2, u2, b1, b2, b3⟩ := ih2 s' u1.vals.length (u := u1.got _) (H := H) (m := m1) ⟨hH1, _, M2, S2⟩ (f2 _ _ g2' _ hm')
      refine ⟨o, m2, r2, u2, ?_, by rw [TScript.Explained]; exact ⟨_, some (ws, s'), u1, hN, g2', _, hm', b2⟩, b3⟩
      have hn : r1.length = u1.vals.length := by rw [M1.nvals, SWorld.val_length S1]
      simp only [TScript.code, run_bind, h1]
      rw [hn]
      exact b1

end
end Addrs

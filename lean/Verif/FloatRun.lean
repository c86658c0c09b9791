import Verif.FloatStep
/-
  Tables of values on which `==` does not panic but need not be identity: every call of a program, and the program.
-/
set_option linter.unusedSectionVars false
namespace Addrs
open GoWord LawfulGoWord Heap Prog

section
variable {α D σ : Type} [LawfulGoWord α] [Inhabited D] [Total D] {F : Nat}

/-- The call can be made, as in `TCmd.Fine`; but if `Diff` gets `changed` and not `unchanged`, then an entry of both
    tables has a value that is equal to itself. -/
def TCmd.FineF (w : SWorld (MTable α D)) : TCmd α D σ → Prop
  | new_ | newCustom _ => True
  | op h o => w.HasVar h ∧ (o.writes = true → o.key.toPrefix.WF ∧ h ≠ none)
  | longest h _ | num h | freeze h => w.HasVar h
  | thaw t | xget t _ | xlongest t _ | xnum t | walk t _ _ => w.HasVal t
  | diff t u cb _ => w.HasVal t ∧ w.HasVal u ∧ ((w.val t).cmp = .nil → (w.val t).entries = Entries.empty) ∧
    (cb.unchanged = none → cb.changed = none ∨ ∀ x, (w.val t).entries.Has x → (w.val u).entries.Has x → (w.val t).same x.2 x.2 = true)
  | map t f _ => w.HasVal t ∧ (f = none ∨ (w.val t).entries = Entries.empty ∨ (w.val t).cmp = .dflt)
  | aggregate t => w.HasVal t ∧ ((w.val t).entries = Entries.empty ∨ (w.val t).cmp = .dflt)

/-- whatever the program sees, the calls that it makes can be made -/
def TProgram.ProperF (p : TProgram α D σ) : Prop :=
  ∀ n w h c, TProgram.Sees p n w h → p h = some c → c.FineF w

theorem Trie.map_nil {α D σ : Type} (f : Prefix α → Option D → σ → Option D × σ) (e : Option D → Option D → Bool) (s : σ) :
    Trie.map f e (.nil : Trie α D) s = (.nil, s) := rfl
end

section
variable {α D σ : Type} [LawfulGoWord α] [Inhabited D] [DecidableEq D] [Total D] {F : Nat}

/-- every call of a program does what it should -/
theorem TCmd.stepF (hF : 2 * width α + 3 ≤ F) {w : SWorld (MTable α D)} {m : Mem α D} {regs : List (Obj D)} (M : MatchesF w m regs)
    {c : TCmd α D σ} (hl : c.FineF w) :
    ∃ x m' w', ((c.call regs).code F).run m = (.ret x, m') ∧ c.Explained w x.seen w' ∧ MatchesF w' m' (regs ++ x.outs) := by
  have looks : ∀ {β : Type} {Q : β → View α D → Prop} {P : Prog α D β} {f : β → TVal α D σ}, wp False Q P m.nodes Nowhere →
      (∀ x v', Q x v' → (f x).outs = [] ∧ c.Explained w (f x).seen w) → (c.call regs).code F = (P >>= fun x => pure (f x)) →
      ∃ x m' w', ((c.call regs).code F).run m = (.ret x, m') ∧ c.Explained w x.seen w' ∧ MatchesF w' m' (regs ++ x.outs) := by
    intro β Q P f hw hQ hc
    obtain ⟨b, m', h1, ⟨v', h2, _⟩, h3, h4⟩ := run_nodes hw
    obtain ⟨q1, q2⟩ := hQ _ _ h2
    refine ⟨f b, m', w, ?_, q2, ?_⟩
    · rw [hc, run_then h1]; rfl
    · rw [q1, List.append_nil]
      exact M.keep h3 h4
  have reads : ∀ {β : Type} {o : Nat} {P : Obj D → Prog α D β} {f : β → TVal α D σ} {ob : Obj D}, m.objs[o]? = some ob →
      ∀ {Q : β → View α D → Prop}, wp False Q (P ob) m.nodes Nowhere →
      (∀ x v', Q x v' → (f x).outs = [] ∧ c.Explained w (f x).seen w) → (c.call regs).code F = ((readObj o >>= P) >>= fun x => pure (f x)) →
      ∃ x m' w', ((c.call regs).code F).run m = (.ret x, m') ∧ c.Explained w x.seen w' ∧ MatchesF w' m' (regs ++ x.outs) := by
    intro β o P f ob ho Q hw hQ hc
    obtain ⟨b, m', h1, ⟨v', h2, _⟩, h3, h4⟩ := run_nodes hw
    obtain ⟨q1, q2⟩ := hQ _ _ h2
    refine ⟨f b, m', w, ?_, q2, ?_⟩
    · rw [hc, run_then ((readObj_run ho _).trans h1)]; rfl
    · rw [q1, List.append_nil]
      exact M.keep h3 h4
  cases c with
  | new_ =>
    refine ⟨.handle m.objs.length, { m with objs := m.objs ++ [⟨none, .dflt⟩] }, _, rfl, ⟨?_, rfl⟩, ?_⟩
    · show TSeen.handle _ = _
      rw [M.nvars]
    · show MatchesF _ _ (regs ++ [])
      rw [List.append_nil]
      exact M.declare rfl (View.le_refl _) ⟨Table.newCustom _, .nil, .newCustom _, rfl, Table.holds_nil _, rfl⟩ (by simp)
  | newCustom cmp =>
    refine ⟨.handle m.objs.length, { m with objs := m.objs ++ [⟨none, .custom cmp⟩] }, _, rfl, ⟨?_, rfl⟩, ?_⟩
    · show TSeen.handle _ = _
      rw [M.nvars]
    · show MatchesF _ _ (regs ++ [])
      rw [List.append_nil]
      exact M.declare rfl (View.le_refl _) ⟨Table.newCustom cmp, .nil, .newCustom _, rfl, Table.holds_nil _, rfl⟩ (by simp)
  | op h p =>
    cases h with
    | none =>
      cases p with
      | get k =>
        refine ⟨.result (.found default false), m, w, rfl, ⟨rfl, rfl⟩, ?_⟩
        show MatchesF w m (regs ++ [])
        rw [List.append_nil]; exact M
      | _ => exact absurd rfl (hl.2 rfl).2
    | some o =>
      obtain ⟨ob, a, h1, h2, h3, h4, h5⟩ := M.var (hl.1 o rfl)
      obtain ⟨m', e1, e2⟩ := opF_ok hF M h1 h2 (p := p) (fun hw => (hl.2 hw).1)
      refine ⟨.result (a.entries.step a.same p).2, m', _, ?_, ⟨?_, rfl⟩, ?_⟩
      · show (opCode F (some o) p >>= fun x => pure (TVal.result x)).run m = _
        rw [run_then e1]; rfl
      · rw [h3]; rfl
      · show MatchesF _ _ (regs ++ [])
        rw [List.append_nil, h3]
        exact e2
  | longest h k =>
    cases h with
    | none =>
      refine ⟨.match (default, false, Prefix.zeroValue), m, w, rfl, ⟨⟨_, rfl, Or.inl ⟨rfl, fun x hx => by cases hx⟩⟩, rfl⟩, ?_⟩
      show MatchesF w m (regs ++ [])
      rw [List.append_nil]; exact M
    | some o =>
      obtain ⟨ob, a, h1, h2, h3, ⟨T, h4⟩, h5⟩ := M.var (hl o rfl)
      refine reads h1 (wp_xLongestF (F := F) h4 (by omega) k) (f := TVal.match) ?_ rfl
      rintro x v' rfl
      refine ⟨rfl, ⟨_, rfl, ?_⟩, rfl⟩
      rw [h3]
      exact h4.holds.longest h4.reach k
  | num h =>
    cases h with
    | none =>
      refine ⟨.num 0, m, w, rfl, ⟨⟨[], ⟨by simp, .nil, fun x => ⟨by simp, fun h => by cases h⟩⟩, rfl⟩, rfl⟩, ?_⟩
      show MatchesF w m (regs ++ [])
      rw [List.append_nil]; exact M
    | some o =>
      obtain ⟨ob, a, h1, h2, h3, ⟨T, h4⟩, h5⟩ := M.var (hl o rfl)
      refine reads h1 (wp_xNumF h4) (f := TVal.num) ?_ rfl
      rintro x v' rfl
      refine ⟨rfl, ⟨_, ?_, congrArg _ (C26_numEntries_mod _ h4.reach)⟩, rfl⟩
      rw [h3]
      exact h4.holds.listed h4.reach
  | freeze h =>
    cases h with
    | none => exact ⟨.table .zero, m, _, rfl, ⟨rfl, rfl⟩, M.got .zero⟩
    | some o =>
      obtain ⟨ob, a, h1, h2, h3, h4, h5⟩ := M.var (hl o rfl)
      refine ⟨.table ob, m, _, ?_, ⟨rfl, rfl⟩, ?_⟩
      · show (readObj o >>= fun t => pure (TVal.table t)).run m = _
        rw [readObj_run h1]; rfl
      · rw [h3]; exact M.got h4
  | thaw t =>
    obtain ⟨T, hs⟩ := M.val hl
    refine ⟨.handle m.objs.length, { m with objs := m.objs ++ [⟨(regs.getD t .zero).trie, match (regs.getD t .zero).eq with
      | .nil => .dflt
      | e => e⟩] }, _, rfl, ⟨?_, rfl⟩, ?_⟩
    · show TSeen.handle _ = _
      rw [M.nvars]
    · show MatchesF _ _ (regs ++ [])
      rw [List.append_nil]
      rw [hs.cmp]
      cases hq : (w.val t).cmp <;>
        exact M.declare rfl (View.le_refl _) ⟨T, hs.den, hs.reach, (by rw [hs.eq]; unfold MTable.sameF; rw [hq]), hs.holds, rfl⟩ (by simp)
  | xget t k =>
    obtain ⟨T, hs⟩ := M.val hl
    refine looks (wp_xGetF (F := F) hs (by omega) k) (f := fun x => .result (.found x.1 x.2)) ?_ rfl
    rintro x v' rfl
    exact ⟨rfl, congrArg _ (hs.holds.get hs.reach _ k), rfl⟩
  | xlongest t k =>
    obtain ⟨T, hs⟩ := M.val hl
    refine looks (wp_xLongestF (F := F) hs (by omega) k) (f := TVal.match) ?_ rfl
    rintro x v' rfl
    exact ⟨rfl, ⟨_, rfl, hs.holds.longest hs.reach k⟩, rfl⟩
  | xnum t =>
    obtain ⟨T, hs⟩ := M.val hl
    refine looks (wp_xNumF hs) (f := TVal.num) ?_ rfl
    rintro x v' rfl
    exact ⟨rfl, ⟨_, hs.holds.listed hs.reach, congrArg _ (C26_numEntries_mod _ hs.reach)⟩, rfl⟩
  | walk t cb s =>
    obtain ⟨T, hs⟩ := M.val hl
    have hd := hs.deep
    refine looks (wp_walk (F := F) (cb := fun p d => cb p (Table.unbox d)) (s := s) (by omega) hs.den) (f := TVal.walked) ?_ rfl
    rintro x v' rfl
    exact ⟨rfl, ⟨_, hs.holds.listed hs.reach, congrArg _ (C27_walk T cb s)⟩, rfl⟩
  | diff t u cb s =>
    obtain ⟨T, hs⟩ := (M.val hl.1).usual hl.2.2.1
    obtain ⟨U, hu⟩ := M.val hl.2.1
    have hd := hs.deep
    have hd' := hu.deep
    refine looks (Q := fun x _ => x = T.diff U cb s) (P := xDiff F (regs.getD t .zero) (regs.getD u .zero) cb s)
      ?_ (f := TVal.walked) ?_ rfl
    · unfold xDiff Table.diff
      by_cases hc : (w.val t).cmp = .nil
      · have hn := hs.holds.nil hs.reach (hl.2.2.1 hc)
        have hp : (regs.getD t .zero).trie = none := by
          have := hs.den
          rw [hn] at this
          generalize (regs.getD t .zero).trie = p at this
          cases this; rfl
        rw [hp, hn]
        exact wp_Diff_nil (by omega) hu.den
      · refine wp_Diff_on (ve := T.cmp) hs.reach.good.inv hu.reach.good.inv ?_ ?_ (by omega) hs.den hu.den
        · intro x y hx hy hk
          obtain ⟨a, ha⟩ := Option.isSome_iff_exists.mp (hs.reach.good.some x hx)
          obtain ⟨b, hb⟩ := Option.isSome_iff_exists.mp (hu.reach.good.some y hy)
          rw [ha, hb, hs.cmp, hs.cmp_eq]
          exact MTable.call_some hc a b
        · intro hsame
          have hs1 : cb.unchanged = none := by
            cases h : cb.unchanged with
            | none => rfl
            | some f => simp [h] at hsame
          rcases hl.2.2.2 hs1 with h | h
          · left; simp [h]
          · right
            intro x hx hy
            obtain ⟨a, ha⟩ := Option.isSome_iff_exists.mp (hs.reach.good.some x hx)
            obtain ⟨p, d⟩ := x
            simp only at ha
            subst ha
            rw [hs.cmp_eq]
            have m1 := hs.holds.mem.mp ((Table.mem_listed (p := p) (v := a) hs.reach.good).mpr hx)
            have m2 := hu.holds.mem.mp ((Table.mem_listed (p := p) (v := a) hu.reach.good).mpr hy)
            exact h _ m1 m2
    · rintro x v' rfl
      exact ⟨rfl, ⟨Table.changes T U, Table.Holds.differ hs.holds hu.holds hs.reach hu.reach,
        congrArg _ ((Table.changes_diff _ _ hs.reach hu.reach _ hs.eq).1 cb s)⟩, rfl⟩
  | map t f s =>
    obtain ⟨T, hs⟩ := M.val hl.1
    have hd := hs.deep
    cases f with
    | none => exact ⟨.mapped (regs.getD t .zero) s, m, _, rfl, ⟨rfl, rfl⟩, M.got ⟨T, hs⟩⟩
    | some f =>
      obtain ⟨T, hs⟩ := (M.val hl.1).usual (fun hc => by
        rcases hl.2 with h | h | h
        · cases h
        · exact h
        · rw [h] at hc; cases hc)
      have hd := hs.deep
      have key : wp False (fun x v' => Den v' x.1 (T.map (some f) s).1.trie ∧ x.2 = (T.map (some f) s).2)
          (Heap.map (fun p d s => let y := f p (Table.unbox d) s; (some y.1, y.2)) (regs.getD t .zero).eq.call F (regs.getD t .zero).trie s)
          m.nodes Nowhere := by
        rcases hl.2 with h | h | h
        · cases h
        · have hn := hs.holds.nil hs.reach h
          have hp : (regs.getD t .zero).trie = none := by
            have := hs.den
            rw [hn] at this
            generalize (regs.getD t .zero).trie = p at this
            cases this; rfl
          simp only [Table.map, hn]
          rw [hp]
          obtain ⟨F, rfl⟩ : ∃ k, F = k + 1 := ⟨F - 1, by omega⟩
          exact ⟨.nil, rfl⟩
        · have := wp_map_keep (st := False) (f := fun p d s => let y := f p (Table.unbox d) s; (some y.1, y.2))
            (eq := (w.val t).cmp.call) (ve := liftEq (w.val t).same) (fun a b => MTable.call_dflt h a b) ?_ F
            (by omega) (s := s) (W := Nowhere) hs.den
          · rw [hs.cmp]
            simp only [Table.map, hs.cmp_eq]
            exact this
          · intro a b hab hba
            rw [isame_symm] at hba
            have : liftEq (w.val t).same a b = isame a b := by
              unfold MTable.same; rw [h]
              cases a <;> cases b <;> rfl
            rw [this, hba] at hab
            cases hab
      obtain ⟨b, m', h1, ⟨v', h2, h2'⟩, h3, h4⟩ := run_nodes key
      obtain ⟨N, c1, c2⟩ := hs.holds.calls hs.reach hs.eq
      have hr : (T.map (some f) s).1.Reachable := .map _ _ _ hs.reach
      have e := c2 f s
      refine ⟨.mapped ⟨b.1, (regs.getD t .zero).eq⟩ b.2, m', w.got ⟨(T.map (some f) s).1.entriesOf, (w.val t).cmp⟩, ?_,
        ⟨N, (T.map (some f) s).1.entriesOf, c1, ?_, ?_, rfl⟩, ?_⟩
      · show (xMap F (regs.getD t .zero) (some f) s >>= fun x => pure (TVal.mapped x.1 x.2)).run m = _
        rw [run_then (b := (⟨b.1, (regs.getD t .zero).eq⟩, b.2)) (m' := m')]
        · rfl
        · unfold xMap
          simp only
          rw [run_then h1]; rfl
      · rw [e]; exact hr.holds'.listed hr
      · rw [e]; show TSeen.mapped b.2 = _
        rw [h2.2]
      · refine (M.keep h3 h4).got ?_
        by_cases hc : (w.val t).cmp = .nil
        · have hE : (w.val t).entries = Entries.empty := by
            rcases hl.2 with h | h | h
            · cases h
            · exact h
            · rw [h] at hc; cases hc
          have hn' := hs.holds.nil hs.reach hE
          have h0 : (T.map (some f) s).1.trie = .nil := by simp only [Table.map, hn', Trie.map_nil]
          refine ⟨Table.newCustom _, ?_, .newCustom _, rfl, ?_, hs.cmp⟩
          · have := h2.1.mono h2'
            rw [h0] at this
            exact this
          · have e0 : (T.map (some f) s).1.entriesOf = Entries.empty := by
              refine hr.holds'.unique ?_
              have := Table.holds_nil (α := α) (T.map (some f) s).1.eq
              rwa [← h0] at this
            show Table.Holds _ (T.map (some f) s).1.entriesOf
            rw [e0]; exact Table.holds_nil _
        · refine ⟨(T.map (some f) s).1, h2.1.mono h2', hr, ?_, hr.holds', hs.cmp⟩
          rw [MTable.sameF_eq (by exact hc)]
          exact hs.eq
  | aggregate t =>
    obtain ⟨T, hs⟩ := M.val hl.1
    have hd := hs.deep
    rcases hl.2 with hE | hE
    · have hn := hs.holds.nil hs.reach hE
      have hp : (regs.getD t .zero).trie = none := by
        have := hs.den
        rw [hn] at this
        generalize (regs.getD t .zero).trie = p at this
        cases this; rfl
      obtain ⟨F, rfl⟩ : ∃ k, F = k + 1 := ⟨F - 1, by omega⟩
      refine ⟨.table .zero, m, w.got ⟨Entries.empty, .nil⟩, ?_, ⟨Entries.empty, ?_, rfl, rfl⟩, M.got .zero⟩
      · show (xAggregate (F + 1) (regs.getD t .zero) >>= fun x => pure (TVal.table x)).run m = _
        unfold xAggregate
        rw [hp]
        rfl
      · rw [hE]; exact .empty _
    · have hsame : (w.val t).sameF = Total.same := by unfold MTable.sameF; rw [hE]
      have hsame' : (w.val t).same = Total.same := by unfold MTable.same; rw [hE]
      have hcmp : T.cmp = liftEq Total.same := by rw [hs.cmp_eq, hsame]
      have hiso : (isame : Option D → Option D → Bool) = liftEq Total.same := by
        funext a b; cases a <;> cases b <;> rfl
      have key : wp False (fun x v' => Den v' x (T.aggregateBy (liftEq Total.same)).trie)
          (Heap.aggregate (regs.getD t .zero).eq.call F none (regs.getD t .zero).trie) m.nodes Nowhere := by
        rw [hs.cmp, hE]
        refine wp_mono (fun _ h => h) ?_ (wp_aggregate_total (st := False) (eq := (EqFn.dflt : EqFn D).call) (ve := isame) (fun a b => ifaceEq_isame a b) F
          (by omega) hs.reach.good.inv (u := none) (W := Nowhere) hs.den)
        rintro x v' ⟨h1, _⟩
        simp only [Table.aggregateBy, hcmp]
        rw [hiso] at h1
        exact h1
      have hp : Trie.EqPer T.cmp (liftEq Total.same) := by
        rw [hcmp]; exact Table.eqPer Total.symm Total.trans
      have hR : (T.aggregateBy (liftEq Total.same)).Reachable :=
        .aggregateBy T Total.same hs.reach (by rw [hs.eq, hsame]) Total.symm Total.trans
      obtain ⟨b, m', h1, ⟨v', h2, h2'⟩, h3, h4⟩ := run_nodes key
      refine ⟨.table ⟨b, .nil⟩, m', w.got ⟨(T.aggregateBy (liftEq Total.same)).entriesOf, .nil⟩, ?_, ⟨_, ?_, rfl, rfl⟩, ?_⟩
      · show (xAggregate F (regs.getD t .zero) >>= fun x => pure (TVal.table x)).run m = _
        rw [run_then (b := (⟨b, .nil⟩ : Obj D)) (m' := m')]
        · rfl
        · unfold xAggregate
          rw [run_then h1]; rfl
      · rw [hsame']; exact hs.holds.aggregatedBy hs.reach (hs.eq.trans (by rw [hsame])) hp (c := T.eq) hR hR.holds'
      · refine (M.keep h3 h4).got ⟨_, h2.mono h2', hR, ?_, hR.holds', rfl⟩
        show T.eq = _
        rw [hs.eq, hsame]
        rfl

/-- the program on the heap -/
theorem TProgram.seesF (hF : 2 * width α + 3 ≤ F) (p : TProgram α D σ) (hp : TProgram.ProperF p) (n : Nat) :
    ∃ r w, TProgram.onHeap F p n = some r ∧ TProgram.Sees p n w r.seen ∧ MatchesF w r.mem r.regs := by
  induction n with
  | zero =>
    refine ⟨_, _, rfl, .init, { nvars := rfl, vars := fun h => by simp at h, nvals := rfl, vals := ?_ }⟩
    intro t ob a h1 h2
    cases t with
    | zero =>
      simp at h1 h2
      subst h1 h2
      exact .zero
    | succ t => simp at h1
  | succ n ih =>
    obtain ⟨r, w, h1, h2, h3⟩ := ih
    simp only [TProgram.onHeap, h1]
    cases hc : p r.seen with
    | none => exact ⟨r, w, rfl, .done h2 hc, h3⟩
    | some c =>
      obtain ⟨x, m', w', e1, e2, e3⟩ := TCmd.stepF hF h3 (hp n w _ c h2 hc)
      simp only [e1]
      exact ⟨_, w', rfl, .call h2 hc e2, e3⟩

end
end Addrs

import Verif.IfaceStep
/-
  Tables of an interface type `T`: every call of a program, and the program.
-/
set_option linter.unusedSectionVars false
namespace Addrs
open GoWord LawfulGoWord Heap Prog

/-! ### `Diff` with a comparison function that is not called with every value -/
namespace Trie
variable {α D : Type} [LawfulGoWord α]

/-- every prefix is valid and the value of every entry is `P` -/
def AllVals (P : Option D → Prop) : Trie α D → Prop
  | nil => True
  | node p d _ _ act l r => p.WF ∧ (act = true → P d) ∧ AllVals P l ∧ AllVals P r

theorem AllVals.and {P Q : Option D → Prop} {t : Trie α D} : t.AllVals Q → (∀ x, x ∈ t.entries → P x.2) → t.AllVals P := by
  induction t with
  | nil => intro _ _; trivial
  | node p d n m act l r ihl ihr =>
    rintro ⟨wf, _, hl, hr⟩ hP
    refine ⟨wf, fun ha => ?_, ihl hl fun x hx => hP x ?_, ihr hr fun x hx => hP x ?_⟩
    · exact hP (p, d) (mem_node.mpr (Or.inl ⟨ha, rfl⟩))
    · exact mem_node.mpr (Or.inr (Or.inl hx))
    · exact mem_node.mpr (Or.inr (Or.inr hx))

theorem TInv.allWF {t : Trie α D} (h : t.TInv) : t.AllVals fun _ => True := by
  induction t with
  | nil => trivial
  | node p d n m act l r ihl ihr =>
    obtain ⟨wf, il, ir, hl, hr, two, eme⟩ := h.inv
    exact ⟨wf, fun _ => trivial, ihl hl, ihr hr⟩

theorem diff_self_on {σ : Type} {P : Option D → Prop} {hv : Handler α D σ}
    (h : ∀ (i : Info α D) s, (i.active = true → P i.data) → hv.modified i i s = (s, true)) :
    ∀ {t : Trie α D}, t.AllVals P → ∀ s, diff hv t t s = (s, true) := by
  intro t
  induction t with
  | nil => intro _ s; rw [diff]
  | node p d n m act l r ihl ihr =>
    intro hb s
    obtain ⟨h1, h2, h3, h4⟩ := hb
    rw [diff]
    simp only [SetNode.compareP_self h1, h ⟨p, d, act⟩ s h2, andThen, if_true, ihl h3, ihr h4]

end Trie

section
variable {α D : Type} [LawfulGoWord α] {st : Prop}

/-- `Diff`: the comparison function is called with the values of an entry of each trie, for the same prefix -/
theorem wp_Diff_on {σ : Type} [GoType D] {cb : Trie.DiffCallbacks α D σ} {eq : Comparator D}
    {ve : Option D → Option D → Bool} {t u : Trie α D} (it : t.TInv) (iu : u.TInv)
    (hEq : ∀ x y, x ∈ t.entries → y ∈ u.entries → SameKey x.1 y.1 → eq x.2 y.2 = some (ve x.2 y.2))
    (hr : cb.same = none → cb.modified = none ∨ ∀ x, x ∈ t.entries → x ∈ u.entries → ve x.2 x.2 = true) {F : Nat}
    (hF : t.deep + u.deep < F) {v : View α D} {p q : Ptr} {W : Nat → Prop} {s : σ}
    (dt : Den v p t) (du : Den v q u) :
    wp st (fun x _ => x = Trie.Diff cb ve t u s) (Diff F cb eq p q s) v W := by
  unfold Diff Trie.Diff
  simp only
  refine wp_diff_rel (R := fun t' u' => t' = .nil ∨ u' = .nil ∨ ((t'.AllVals (fun _ => True)) ∧ (u'.AllVals (fun _ => True)) ∧
    (∀ x, x ∈ t'.entries → x ∈ t.entries) ∧ (∀ x, x ∈ u'.entries → x ∈ u.entries))) ?_ ?_ ?_ ?_ ?_ ?_ ?_ ?_ F hF
    (Or.inr (Or.inr ⟨it.allWF, iu.allWF, fun _ h => h, fun _ h => h⟩)) dt du
  · intro c s; simp only; split <;> rfl
  · intro c s; simp only; split <;> rfl
  · rintro c d l r l' r' s (h | h | ⟨h1, h2, h3, h4⟩) hs
    · cases h
    · cases h
    simp only
    cases ha : c.active <;> cases hb : d.active
    · rfl
    · rfl
    · rfl
    · have hk : SameKey c.pfx d.pfx := by
        rcases compareP_cases h1.1 h2.1 with ⟨h, _⟩ | ⟨_, _, e⟩ | ⟨_, _, e⟩ | ⟨_, _, _, _, _, _, _, _, _, e⟩
        · exact h
        all_goals rw [e] at hs; cases hs
      have he := hEq (c.pfx, c.data) (d.pfx, d.data) (h3 _ (Trie.mem_node.mpr (Or.inl ⟨ha, rfl⟩))) (h4 _ (Trie.mem_node.mpr (Or.inl ⟨hb, rfl⟩))) hk
      simp only at he
      simp only [Bool.and_self, if_true, he, orPanic, bind_ret]
      cases ve c.data d.data <;> rfl
  · rintro p d n h act l r u' (h | h | ⟨h1, h2, h3, h4⟩)
    · cases h
    · exact ⟨Or.inr (Or.inl h), Or.inr (Or.inl h)⟩
    · exact ⟨Or.inr (Or.inr ⟨h1.2.2.1, h2, fun x hx => h3 x (Trie.mem_node.mpr (Or.inr (Or.inl hx))), h4⟩),
        Or.inr (Or.inr ⟨h1.2.2.2, h2, fun x hx => h3 x (Trie.mem_node.mpr (Or.inr (Or.inr hx))), h4⟩)⟩
  · rintro p d n h act l r t' (h | h | ⟨h1, h2, h3, h4⟩)
    · exact ⟨Or.inl h, Or.inl h⟩
    · cases h
    · exact ⟨Or.inr (Or.inr ⟨h1, h2.2.2.1, h3, fun x hx => h4 x (Trie.mem_node.mpr (Or.inr (Or.inl hx)))⟩),
        Or.inr (Or.inr ⟨h1, h2.2.2.2, h3, fun x hx => h4 x (Trie.mem_node.mpr (Or.inr (Or.inr hx)))⟩)⟩
  · exact fun t => Or.inr (Or.inl rfl)
  · exact fun t => Or.inl rfl
  · intro hs t' s ht
    have hs' : cb.same = none := Option.isNone_iff_eq_none.mp hs
    rcases ht with rfl | rfl | ⟨h1, _, h3, h4⟩
    · rw [Trie.diff]
    · rw [Trie.diff]
    · rcases hr hs' with hm | hr
      · refine Trie.diff_self_on (P := fun _ => True) ?_ h1 s
        rintro ⟨p, d, act⟩ s _
        cases act with
        | false => rfl
        | true => cases he : ve d d <;> simp [he, hs', hm, Trie.orNoop1, Trie.orNoop2]
      · refine Trie.diff_self_on (P := fun d => ve d d = true) ?_ (h1.and fun x hx => hr x (h3 x hx) (h4 x hx)) s
        rintro ⟨p, d, act⟩ s h2
        cases act with
        | false => rfl
        | true => simp [h2 rfl, hs', Trie.orNoop1]

end

section
variable {α V σ : Type} [LawfulGoWord α] [Comparable V] {F : Nat}

/-- no custom comparison function gets a nil -/
def TCmd.NilSafe (w : TWorld α (Option V)) : TCmd α (Option V) σ → Prop
  | .op (some o) p => ∀ a, w.vars[o]? = some a → ¬ p.NilCrash a
  | .diff t u _ _ => (w.val t).cmp.Picky → ∀ k : PrefixI α, ((w.val t).table.get k).2 = true → ((w.val u).table.get k).2 = true →
      ((w.val t).table.get k).1 ≠ none ∧ ((w.val u).table.get k).1 ≠ none
  | _ => True

theorem get_of_entry {T : Table α (Option V)} (hT : T.Reachable) {x : Prefix α × Option V} (hx : x ∈ T.trie.flat.entries) {k : Prefix α}
    (hk : SameKey x.1 k) : T.get (.prefix k) = (x.2, true) := by
  rw [Trie.flat_entries] at hx
  obtain ⟨y, hy, rfl⟩ := List.mem_map.mp hx
  obtain ⟨p, d⟩ := y
  rw [(Table.get_spec hT.good (.prefix k)).1 (p, d) hy hk]
  cases d <;> rfl

/-- every call of a program does what it should, if it gives no nil to a custom comparison function -/
theorem TCmd.stepI (hF : 2 * width α + 3 ≤ F) {w : TWorld α (Option V)} {m : Mem α V} {regs : List (Obj V)} (M : w.MatchesI m regs)
    {c : TCmd α (Option V) σ} (hl : c.Legal w) (hn : c.NilSafe w) :
    ∃ x m', (c.codeI F regs).run m = (.ret x, m') ∧ x.1 = (c.ideal w).1 ∧ (c.ideal w).2.MatchesI m' (regs ++ x.2) := by
  have hb : ∀ (d : Option (Option V)), (Table.unbox d : Option V) = d.join := fun d => by cases d <;> rfl
  -- a call that only looks at nodes
  have looks : ∀ {β : Type} {Q : β → View α V → Prop} {P : Prog α V β} {f : β → TSeen α (Option V) σ}, wp False Q P m.nodes Nowhere →
      (∀ x v', Q x v' → f x = (c.ideal w).1) → c.ideal w = ((c.ideal w).1, w) → c.codeI F regs = (P >>= fun x => pure (f x, [])) →
      ∃ x m', (c.codeI F regs).run m = (.ret x, m') ∧ x.1 = (c.ideal w).1 ∧ (c.ideal w).2.MatchesI m' (regs ++ x.2) := by
    intro β Q P f hw hQ hi hc
    obtain ⟨b, m', h1, ⟨v', h2, _⟩, h3, h4⟩ := run_nodes hw
    refine ⟨(f b, []), m', ?_, hQ _ _ h2, ?_⟩
    · rw [hc, run_then h1]; rfl
    · rw [hi]
      show w.MatchesI m' (regs ++ [])
      rw [List.append_nil]
      exact M.keep h3 h4
  -- the same, of a variable
  have reads : ∀ {β : Type} {o : Nat} {P : Obj V → Prog α V β} {f : β → TSeen α (Option V) σ} {ob : Obj V}, m.objs[o]? = some ob →
      ∀ {Q : β → View α V → Prop}, wp False Q (P ob) m.nodes Nowhere →
      (∀ x v', Q x v' → f x = (c.ideal w).1) → c.ideal w = ((c.ideal w).1, w) → c.codeI F regs = ((readObj o >>= P) >>= fun x => pure (f x, [])) →
      ∃ x m', (c.codeI F regs).run m = (.ret x, m') ∧ x.1 = (c.ideal w).1 ∧ (c.ideal w).2.MatchesI m' (regs ++ x.2) := by
    intro β o P f ob ho Q hw hQ hi hc
    obtain ⟨b, m', h1, ⟨v', h2, _⟩, h3, h4⟩ := run_nodes hw
    refine ⟨(f b, []), m', ?_, hQ _ _ h2, ?_⟩
    · rw [hc, run_then ((readObj_run ho _).trans h1)]; rfl
    · rw [hi]
      show w.MatchesI m' (regs ++ [])
      rw [List.append_nil]
      exact M.keep h3 h4
  have num : ∀ {ob : Obj V} {a : AbsTable α (Option V)}, ob.StandsI m.nodes a →
      wp False (fun x _ => x = a.table.numEntries) (numNodes ob.trie) m.nodes Nowhere := by
    intro ob a hs
    have h := hs.1
    have e : a.table.trie.flat.numNodes = a.table.numEntries := Trie.flat_numNodes _
    revert h e
    generalize ob.trie = p
    generalize a.table.trie.flat = t
    intro h e
    cases h with
    | nil => exact e
    | node hc _ _ => exact wp_deref hc e
  cases c with
  | new_ =>
    refine ⟨(.handle m.objs.length, []), { m with objs := m.objs ++ [⟨none, .dflt⟩] }, rfl, ?_, ?_⟩
    · simp only [TCmd.ideal, TWorld.declare, M.nvars]
    · show TWorld.MatchesI _ _ (regs ++ [])
      rw [List.append_nil]
      exact M.declare rfl (View.le_refl _) ⟨.nil, .new_, .dflt, rfl⟩ (by simp)
  | newCustom cmp =>
    refine ⟨(.handle m.objs.length, []), { m with objs := m.objs ++ [⟨none, ifaceCustom cmp⟩] }, rfl, ?_, ?_⟩
    · simp only [TCmd.ideal, TWorld.declare, M.nvars]
    · show TWorld.MatchesI _ _ (regs ++ [])
      rw [List.append_nil]
      exact M.declare rfl (View.le_refl _) ⟨.nil, .newCustom cmp, .custom cmp, rfl⟩ (by simp)
  | op h p =>
    cases h with
    | none =>
      cases p with
      | get k =>
        refine ⟨(.result (.found none false), []), m, rfl, ?_, ?_⟩
        · rfl
        · show TWorld.MatchesI w m (regs ++ [])
          rw [List.append_nil]; exact M
      | _ => exact absurd rfl (hl.2 rfl).2
    | some o =>
      obtain ⟨ob, a, h1, h2, h3, h4, h5⟩ := M.var (hl.1 o rfl)
      obtain ⟨m', e1, e2⟩ := opI_ok hF M h1 h2 (p := p) (fun hw => (hl.2 hw).1) (hn a h2)
      refine ⟨(.result (a.table.step p).2, []), m', ?_, ?_, ?_⟩
      · show (opCodeI F (some o) p >>= fun x => pure (TSeen.result x, [])).run m = _
        rw [run_then e1]; rfl
      · simp only [TCmd.ideal, h3]
      · show TWorld.MatchesI _ _ (regs ++ [])
        rw [List.append_nil]
        simp only [TCmd.ideal, h3]
        exact e2
  | longest h k =>
    cases h with
    | none =>
      refine ⟨(.match (none, false, Prefix.zeroValue), []), m, rfl, rfl, ?_⟩
      show TWorld.MatchesI w m (regs ++ [])
      rw [List.append_nil]; exact M
    | some o =>
      obtain ⟨ob, a, h1, h2, h3, h4, h5⟩ := M.var (hl o rfl)
      refine reads h1 (wp_ixLongest (F := F) h4 (by omega) k) (f := TSeen.match) ?_ rfl rfl
      rintro x v' rfl
      simp only [TCmd.ideal, h3]
  | num h =>
    cases h with
    | none =>
      refine ⟨(.num 0, []), m, rfl, rfl, ?_⟩
      show TWorld.MatchesI w m (regs ++ [])
      rw [List.append_nil]; exact M
    | some o =>
      obtain ⟨ob, a, h1, h2, h3, h4, h5⟩ := M.var (hl o rfl)
      refine reads h1 (num h4) (f := TSeen.num) ?_ rfl rfl
      rintro x v' rfl
      simp only [TCmd.ideal, h3]
  | freeze h =>
    cases h with
    | none =>
      refine ⟨(.table, [.zero]), m, rfl, rfl, ?_⟩
      exact M.got ⟨.nil, .empty, .nil, rfl⟩
    | some o =>
      obtain ⟨ob, a, h1, h2, h3, h4, h5⟩ := M.var (hl o rfl)
      refine ⟨(.table, [ob]), m, ?_, rfl, ?_⟩
      · show (readObj o >>= fun t => pure (TSeen.table, [t])).run m = _
        rw [readObj_run h1]; rfl
      · simp only [TCmd.ideal, h2, Option.getD_some]
        exact M.got h4
  | thaw t =>
    have hs := M.val hl
    refine ⟨(.handle m.objs.length, []), { m with objs := m.objs ++ [⟨(regs.getD t .zero).trie, match (regs.getD t .zero).eq with
      | .nil => .dflt
      | e => e⟩] }, rfl, ?_, ?_⟩
    · simp only [TCmd.ideal, TWorld.declare, M.nvars]
    · show TWorld.MatchesI _ _ (regs ++ [])
      rw [List.append_nil]
      refine M.declare rfl (View.le_refl _) ⟨hs.1, .table_ _ hs.2.1, ?_, ?_⟩ ?_
      · have h := hs.2.2.1
        revert h
        generalize (regs.getD t .zero).eq = e
        generalize (w.val t).cmp = c
        intro h
        cases h
        · exact .dflt
        · exact .dflt
        · exact .custom _
      · have h := hs.2.2.2
        show some _ = _
        rw [h]
        cases (w.val t).cmp <;> rfl
      · simp only; cases (w.val t).cmp <;> simp
  | xget t k =>
    refine looks (wp_ixGet (F := F) (M.val hl) (by omega) k) (f := fun x => .result (.found x.1 x.2)) ?_ rfl rfl
    rintro x v' rfl; rfl
  | xlongest t k =>
    refine looks (wp_ixLongest (F := F) (M.val hl) (by omega) k) (f := TSeen.match) ?_ rfl rfl
    rintro x v' rfl; rfl
  | xnum t =>
    refine looks (num (M.val hl)) (f := TSeen.num) ?_ rfl rfl
    rintro x v' rfl; rfl
  | walk t cb s =>
    have hs := M.val hl
    have hd := hs.deep
    refine looks (wp_walk (F := F) (cb := cb) (s := s) (by omega) hs.1) (f := TSeen.walked) ?_ rfl rfl
    rintro x v' rfl
    rw [Trie.walk_flat hs.full]
    rfl
  | diff t u cb s =>
    have hs := M.val hl.1
    have hu := M.val hl.2.1
    have hd := hs.deep
    have hd' := hu.deep
    refine looks (Q := fun x _ => x = (w.val t).table.diff (w.val u).table cb s) (P := ixDiff F (regs.getD t .zero) (regs.getD u .zero) cb s)
      ?_ (f := TSeen.walked) ?_ rfl rfl
    · unfold ixDiff
      have hT : (w.val t).table.diff (w.val u).table cb s = Trie.Diff (ifaceCallbacks cb) ((w.val t).table.eq.getD fun _ _ => false)
          (w.val t).table.trie.flat (w.val u).table.trie.flat s := by
        rw [Trie.Diff_flat hs.full hu.full]; rfl
      rw [hT]
      by_cases hc : (w.val t).cmp = .nil
      · have ht := hl.2.2.1 hc
        have hp : (regs.getD t .zero).trie = none := by
          have := hs.1
          rw [ht] at this
          generalize (regs.getD t .zero).trie = p at this
          cases this; rfl
        rw [ht, hp]
        exact wp_Diff_nil (by omega) hu.1
      · obtain ⟨f, hf⟩ := EqFn.valI_some hc
        have hle := hs.2.2.1.le hf
        have hnn : ∀ a b, (((w.val t).cmp.Picky → a ≠ none) ∧ ((w.val t).cmp.Picky → b ≠ none)) →
            (regs.getD t .zero).eq.call a b = some (f a b) := by
          intro a b hab
          cases hcall : (regs.getD t .zero).eq.call a b with
          | none =>
            obtain ⟨h1, h2⟩ := (hs.2.2.1.call_none hc).mp hcall
            rcases h2 with h2 | h2
            · exact absurd h2 (hab.1 h1)
            · exact absurd h2 (hab.2 h1)
          | some x => exact (hle _ _ _ hcall).symm
        have hdiff := wp_Diff_on (st := False) (cb := ifaceCallbacks cb) (eq := (regs.getD t .zero).eq.call)
          (ve := f) hs.inv hu.inv (F := F) (s := s) (W := Nowhere) ?_ ?_ (by omega) hs.1 hu.1
        · have : (w.val t).table.eq = some f := hs.2.2.2.trans hf
          rw [this]
          exact hdiff
        · intro x y hx hy hk
          refine hnn _ _ ⟨fun hp => ?_, fun hp => ?_⟩
          · have e1 := get_of_entry hs.2.1 hx hk
            have e2 := get_of_entry hu.2.1 hy (SameKey.refl y.1)
            have := (hn hp (.prefix y.1) (by rw [e1]) (by rw [e2])).1
            rw [e1] at this; exact this
          · have e1 := get_of_entry hs.2.1 hx hk
            have e2 := get_of_entry hu.2.1 hy (SameKey.refl y.1)
            have := (hn hp (.prefix y.1) (by rw [e1]) (by rw [e2])).2
            rw [e2] at this; exact this
        · intro hsame
          cases he : (w.val t).cmp with
          | nil => exact absurd he hc
          | dflt =>
            rw [he] at hf
            cases hf
            exact Or.inr fun d _ _ => by simp
          | custom e =>
            rw [he] at hf
            cases hf
            exact (hl.2.2.2 hsame _ he).symm.imp id fun h x _ _ => h _
    · rintro x v' rfl; rfl
  | map t f s =>
    have hs := M.val hl.1
    have hd := hs.deep
    cases f with
    | none =>
      refine ⟨(.mapped s, [regs.getD t .zero]), m, rfl, rfl, ?_⟩
      exact M.got hs
    | some f =>
      have key : wp False (fun x v' => Den v' x.1 ((w.val t).table.map (some f) s).1.trie.flat ∧ x.2 = ((w.val t).table.map (some f) s).2)
          (Heap.map f (regs.getD t .zero).eq.call F (regs.getD t .zero).trie s) m.nodes Nowhere := by
        rcases hl.2 with h | h | h
        · cases h
        · have hp : (regs.getD t .zero).trie = none := by
            have := hs.1
            rw [h] at this
            generalize (regs.getD t .zero).trie = p at this
            cases this; rfl
          simp only [Table.map, h]
          rw [hp]
          obtain ⟨F, rfl⟩ : ∃ k, F = k + 1 := ⟨F - 1, by omega⟩
          exact ⟨.nil, rfl⟩
        · have he : (w.val t).table.eq = some (fun a b => decide (a = b)) := by rw [hs.2.2.2, h]; rfl
          have hc : (regs.getD t .zero).eq = .dflt := by
            have := hs.2.2.1
            rw [h] at this
            generalize (regs.getD t .zero).eq = e at this
            cases this; rfl
          rw [hc]
          have := wp_map (st := False) (f := f) (eq := (EqFn.dflt : EqFn V).call) (ve := fun a b => decide (a = b)) (fun a b => ifaceEq_eq a b) F
            (by omega) (s := s) (W := Nowhere) hs.1
          rw [Trie.map_flat] at this
          have hcmp : (w.val t).table.cmp = liftEq fun a b => decide (a = b) := by
            unfold Table.cmp; rw [he]; rfl
          simp only [Table.map, hcmp]
          exact this
      obtain ⟨b, m', h1, ⟨v', h2, h2'⟩, h3, h4⟩ := run_nodes key
      refine ⟨(.mapped b.2, [⟨b.1, (regs.getD t .zero).eq⟩]), m', ?_, ?_, ?_⟩
      · show (ixMap F (regs.getD t .zero) (some f) s >>= fun x => pure (TSeen.mapped x.2, [x.1])).run m = _
        rw [run_then (b := (⟨b.1, (regs.getD t .zero).eq⟩, b.2)) (m' := m')]
        · rfl
        · unfold ixMap
          simp only
          rw [run_then h1]; rfl
      · rw [h2.2]; rfl
      · exact (M.keep h3 h4).got ⟨h2.1.mono h2', .map _ _ _ hs.2.1, hs.2.2.1, hs.2.2.2⟩
  | aggregate t =>
    have hs := M.val hl.1
    have hd := hs.deep
    have key : wp False (fun x v' => Den v' x (w.val t).table.aggregate.trie.flat)
        (Heap.aggregate (regs.getD t .zero).eq.call F none (regs.getD t .zero).trie) m.nodes Nowhere := by
      rcases hl.2 with h | h
      · have hp : (regs.getD t .zero).trie = none := by
          have := hs.1
          rw [h] at this
          generalize (regs.getD t .zero).trie = p at this
          cases this; rfl
        simp only [Table.aggregate, h]
        rw [hp]
        obtain ⟨F, rfl⟩ : ∃ k, F = k + 1 := ⟨F - 1, by omega⟩
        exact .nil
      · have he : (w.val t).table.eq = some (fun a b => decide (a = b)) := by rw [hs.2.2.2, h]; rfl
        have hc : (regs.getD t .zero).eq = .dflt := by
          have := hs.2.2.1
          rw [h] at this
          generalize (regs.getD t .zero).eq = e at this
          cases this; rfl
        rw [hc]
        refine wp_mono (fun _ h => h) ?_ (wp_aggregate (st := False) (eq := (EqFn.dflt : EqFn V).call) (ve := Trie.eqI) (fun a b => ifaceEq_eq a b) F
          (by omega) hs.inv (u := none) (W := Nowhere) hs.1)
        rintro x v' ⟨h1, _⟩
        have := (Trie.aggregate_unbox hs.full none (by simp)).1
        have hcmp : (w.val t).table.cmp = Trie.eqT := by
          unfold Table.cmp; rw [he]; rfl
        simp only [Table.aggregate, hcmp]
        have e2 : (Trie.aggregate Trie.eqI Trie.eqI none (w.val t).table.trie.flat).1 =
            (Trie.aggregate Trie.eqT Table.goEq none (w.val t).table.trie).1.flat := congrArg Prod.fst this
        rw [← e2]
        exact h1
    have hR : (w.val t).table.aggregate.Reachable := by
      rcases hl.2 with h | h
      · have : (w.val t).table.aggregate = Table.empty := by
          simp only [Table.aggregate, h]; rfl
        rw [this]; exact .empty
      · refine .aggregate _ hs.2.1 ⟨fun a b => decide (a = b), by rw [hs.2.2.2, h]; rfl, by simp, ?_, ?_⟩
        · intro x y h; simpa [eq_comm] using h
        · intro x y z h1 h2
          simp at h1 h2 ⊢
          exact h1.trans h2
    obtain ⟨b, m', h1, ⟨v', h2, h2'⟩, h3, h4⟩ := run_nodes key
    refine ⟨(.table, [⟨b, .nil⟩]), m', ?_, rfl, ?_⟩
    · show (xAggregate F (regs.getD t .zero) >>= fun x => pure (TSeen.table, [x])).run m = _
      rw [run_then (b := (⟨b, .nil⟩ : Obj V)) (m' := m')]
      · rfl
      · unfold xAggregate
        rw [run_then h1]; rfl
    · exact (M.keep h3 h4).got ⟨h2.mono h2', hR, .nil, rfl⟩

end
end Addrs

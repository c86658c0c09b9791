import Verif.ScriptSim
/-
  Property C67: a program that uses tables, whose callbacks are such programs again, sees maps from prefixes to values.
-/
set_option linter.unusedSectionVars false
namespace Addrs
open GoWord LawfulGoWord Heap Prog

section
variable {α D : Type} [LawfulGoWord α] [Inhabited D] [Comparable D] {F : Nat}

/-- what there is at the start: no variables, and `Table{}` -/
def MTable.start : SWorld (MTable α D) := ⟨[], [⟨Entries.empty, .nil⟩]⟩

theorem Sim.start : Sim (MTable.start : SWorld (MTable α D)) [] ⟨[], []⟩ [.zero] := by
  refine ⟨fun _ h => (nomatch h), ⟨[], [.zero]⟩, ?_, ?_⟩
  · refine { nvars := rfl, vars := fun h => (nomatch h), nvals := rfl, vals := ?_ }
    intro t ob a h1 h2
    cases t with
    | succ t => cases h1
    | zero =>
      cases h1
      cases h2
      exact ⟨⟨.nil, rfl⟩, .empty, rfl⟩
  · refine { vars := rfl, vals := ?_, okvars := fun a h => (nomatch h), okvals := ?_ }
    · simp only [List.map_cons, List.map_nil, AbsTable.zero_map]; rfl
    · intro a ha
      rw [List.mem_singleton.mp ha]; exact AbsTable.zero_ok

/-- On the heap, a program whose callbacks are programs does what it would do if `Table_` were a variable that
    holds a map from prefixes to values and `Table` such a map: it returns what it should return, or panics (itself)
    where it should; no call of the library panics or runs for ever. -/
theorem C67_tables (hF : 2 * width α + 3 ≤ F) {β : Type} (c : TScript α D β) (hc : c.Proper MTable.start) :
    ∃ o w, c.Explained MTable.start o w ∧
      match o with
      | some b => ∃ r m, (c.code F [.zero]).run ⟨[], []⟩ = (.ret (b, r), m)
      | none => ∃ m, (c.code F [.zero]).run ⟨[], []⟩ = (.panic, m) := by
  obtain ⟨o, m, r, w, h1, h2, _⟩ := TScript.sim hF c Sim.start hc
  refine ⟨o, w, h2, ?_⟩
  cases o with
  | some b => exact ⟨r, m, h1⟩
  | none => exact ⟨m, h1⟩

/-! ### one program after the other, and `Build` -/

theorem TScript.bind_explained {β γ : Type} (c : TScript α D β) (k : β → TScript α D γ) : ∀ (w : SWorld (MTable α D)) (o : Option γ)
    (w' : SWorld (MTable α D)), (c.bind k).Explained w o w' ↔ ∃ x w1, c.Explained w x w1 ∧
      match x with
      | some b => (k b).Explained w1 o w'
      | none => o = none ∧ w' = w1 := by
  induction c with
  | ret b =>
    intro w o w'
    constructor
    · exact fun h => ⟨some b, w, ⟨rfl, rfl⟩, h⟩
    · rintro ⟨x, w1, ⟨rfl, rfl⟩, h⟩; exact h
  | panic =>
    intro w o w'
    constructor
    · exact fun h => ⟨none, w, ⟨rfl, rfl⟩, h⟩
    · rintro ⟨x, w1, ⟨rfl, rfl⟩, h⟩; exact h
  | call c k' ih =>
    intro w o w'
    simp only [TScript.bind, TScript.Explained, ih]
    constructor
    · rintro ⟨x, w1, h1, y, w2, h2, h3⟩; exact ⟨y, w2, ⟨x, w1, h1, h2⟩, h3⟩
    · rintro ⟨y, w2, ⟨x, w1, h1, h2⟩, h3⟩; exact ⟨x, w1, h1, y, w2, h2, h3⟩
  | walk t cb s k' _ ih =>
    intro w o w'
    constructor
    · intro h
      rw [TScript.bind, TScript.Explained] at h
      obtain ⟨L, x, w1, h1, h2, h3⟩ := h
      cases x with
      | none =>
        obtain ⟨rfl, rfl⟩ := h3
        refine ⟨none, w', ?_, rfl, rfl⟩
        rw [TScript.Explained]
        exact ⟨L, none, w', h1, h2, rfl, rfl⟩
      | some z =>
        obtain ⟨y, w2, g1, g2⟩ := (ih z k _ _ _).mp h3
        refine ⟨y, w2, ?_, g2⟩
        rw [TScript.Explained]
        exact ⟨L, some z, w1, h1, h2, g1⟩
    · rintro ⟨y, w2, h, h4⟩
      rw [TScript.Explained] at h
      rw [TScript.bind, TScript.Explained]
      obtain ⟨L, x, w1, h1, h2, h3⟩ := h
      cases x with
      | none =>
        obtain ⟨rfl, rfl⟩ := h3
        exact ⟨L, none, w2, h1, h2, h4⟩
      | some z => exact ⟨L, some z, w1, h1, h2, (ih z k _ _ _).mpr ⟨y, w2, h3, h4⟩⟩
  | diff t u given cb s k' _ ih =>
    intro w o w'
    constructor
    · intro h
      rw [TScript.bind, TScript.Explained] at h
      obtain ⟨L, x, w1, h1, h2, h3⟩ := h
      cases x with
      | none =>
        obtain ⟨rfl, rfl⟩ := h3
        refine ⟨none, w', ?_, rfl, rfl⟩
        rw [TScript.Explained]
        exact ⟨L, none, w', h1, h2, rfl, rfl⟩
      | some z =>
        obtain ⟨y, w2, g1, g2⟩ := (ih z k _ _ _).mp h3
        refine ⟨y, w2, ?_, g2⟩
        rw [TScript.Explained]
        exact ⟨L, some z, w1, h1, h2, g1⟩
    · rintro ⟨y, w2, h, h4⟩
      rw [TScript.Explained] at h
      rw [TScript.bind, TScript.Explained]
      obtain ⟨L, x, w1, h1, h2, h3⟩ := h
      cases x with
      | none =>
        obtain ⟨rfl, rfl⟩ := h3
        exact ⟨L, none, w2, h1, h2, h4⟩
      | some z => exact ⟨L, some z, w1, h1, h2, (ih z k _ _ _).mpr ⟨y, w2, h3, h4⟩⟩
  | map t f s k' _ ih =>
    intro w o w'
    constructor
    · intro h
      rw [TScript.bind, TScript.Explained] at h
      obtain ⟨N, x, w1, h1, h2, h3⟩ := h
      cases x with
      | none =>
        obtain ⟨rfl, rfl⟩ := h3
        refine ⟨none, w', ?_, rfl, rfl⟩
        rw [TScript.Explained]
        exact ⟨N, none, w', h1, h2, rfl, rfl⟩
      | some z =>
        obtain ⟨m', h4, h3⟩ := h3
        obtain ⟨y, w2, g1, g2⟩ := (ih _ _ k _ _ _).mp h3
        refine ⟨y, w2, ?_, g2⟩
        rw [TScript.Explained]
        exact ⟨N, some z, w1, h1, h2, m', h4, g1⟩
    · rintro ⟨y, w2, h, h4⟩
      rw [TScript.Explained] at h
      rw [TScript.bind, TScript.Explained]
      obtain ⟨N, x, w1, h1, h2, h3⟩ := h
      cases x with
      | none =>
        obtain ⟨rfl, rfl⟩ := h3
        exact ⟨N, none, w2, h1, h2, h4⟩
      | some z =>
        obtain ⟨m', h5, h3⟩ := h3
        exact ⟨N, some z, w1, h1, h2, m', h5, (ih _ _ k _ _ _).mpr ⟨y, w2, h3, h4⟩⟩

theorem TScript.bind_proper {β γ : Type} (c : TScript α D β) (k : β → TScript α D γ) : ∀ (w : SWorld (MTable α D)), c.Proper w →
    (∀ b w', c.Explained w (some b) w' → (k b).Proper w') → (c.bind k).Proper w := by
  induction c with
  | ret b => exact fun w _ h => h b w ⟨rfl, rfl⟩
  | panic => exact fun w _ _ => trivial
  | call c k' ih => exact fun w hp h => ⟨hp.1, fun x w1 hx => ih _ _ k _ (hp.2 x w1 hx) fun b w' hb => h b w' ⟨x, w1, hx, hb⟩⟩
  | walk t cb s k' _ ih =>
    intro w hp h
    refine ⟨hp.1, fun L hL => ⟨(hp.2 L hL).1, fun z w1 hz => ih z k w1 ((hp.2 L hL).2 z w1 hz) fun b w' hb => h b w' ?_⟩⟩
    rw [TScript.Explained]; exact ⟨L, some z, w1, hL, hz, hb⟩
  | diff t u given cb s k' _ ih =>
    intro w hp h
    refine ⟨hp.1, fun L hL => ⟨(hp.2 L hL).1, fun z w1 hz => ih z k w1 ((hp.2 L hL).2 z w1 hz) fun b w' hb => h b w' ?_⟩⟩
    rw [TScript.Explained]; exact ⟨L, some z, w1, hL, hz, hb⟩
  | map t f s k' _ ih =>
    intro w hp h
    refine ⟨hp.1, fun N hN => ⟨(hp.2 N hN).1, fun z w1 hz m' hm => ih _ _ k _ ((hp.2 N hN).2 z w1 hz m' hm) fun b w' hb => h b w' ?_⟩⟩
    rw [TScript.Explained]; exact ⟨N, some z, w1, hN, hz, m', hm, hb⟩

/-- the variable that `Build` hands to the builder: it holds the entries of the table -/
def MTable.clone (a : MTable α D) : MTable α D := ⟨a.entries, match a.cmp with
  | .nil => .dflt
  | e => e⟩

/-- `t.Build(builder)`: the builder gets a new variable with the entries of `t`.  If it returns true, `Build` returns
    what the variable holds then; if it returns false, `t`.  (If it panics, so does `Build`.) -/
theorem C67_build {β : Type} (t : Nat) (builder : Nat → TScript α D Bool) (k : Nat → TScript α D β) (w w' : SWorld (MTable α D)) (o : Option β) :
    (TScript.build t builder k).Explained w o w' ↔ ∃ x w1, (builder w.vars.length).Explained (w.declare (w.val t).clone) x w1 ∧
      match x with
      | some true => (k w1.vals.length).Explained (w1.got (w1.var (some w.vars.length))) o w'
      | some false => (k t).Explained w1 o w'
      | none => o = none ∧ w' = w1 := by
  simp only [TScript.build, TScript.Explained, TCmd.Explained]
  constructor
  · rintro ⟨x, w0, ⟨rfl, rfl⟩, h⟩
    obtain ⟨y, w1, h1, h2⟩ := (TScript.bind_explained _ _ _ _ _).mp h
    refine ⟨y, w1, h1, ?_⟩
    cases y with
    | none => exact h2
    | some b =>
      cases b with
      | false => exact h2
      | true =>
        obtain ⟨z, w2, ⟨rfl, rfl⟩, h3⟩ := h2
        exact h3
  · rintro ⟨y, w1, h1, h2⟩
    refine ⟨_, _, ⟨rfl, rfl⟩, ?_⟩
    refine (TScript.bind_explained _ _ _ _ _).mpr ⟨y, w1, h1, ?_⟩
    cases y with
    | none => exact h2
    | some b =>
      cases b with
      | false => exact h2
      | true => exact ⟨_, _, ⟨rfl, rfl⟩, h2⟩

theorem C67_build_proper {β : Type} {t : Nat} {builder : Nat → TScript α D Bool} {k : Nat → TScript α D β} {w : SWorld (MTable α D)}
    (ht : w.HasVal t) (hb : (builder w.vars.length).Proper (w.declare (w.val t).clone))
    (h1 : ∀ w1, (builder w.vars.length).Explained (w.declare (w.val t).clone) (some true) w1 →
      w.vars.length < w1.vars.length ∧ (k w1.vals.length).Proper (w1.got (w1.var (some w.vars.length))))
    (h2 : ∀ w1, (builder w.vars.length).Explained (w.declare (w.val t).clone) (some false) w1 → (k t).Proper w1) :
    (TScript.build t builder k).Proper w := by
  refine ⟨ht, ?_⟩
  rintro x w0 ⟨rfl, rfl⟩
  refine TScript.bind_proper _ _ _ hb fun b w1 he => ?_
  cases b with
  | false => exact h2 w1 he
  | true =>
    refine ⟨fun i hi => by cases hi; exact (h1 w1 he).1, ?_⟩
    rintro z w2 ⟨rfl, rfl⟩
    exact (h1 w1 he).2

/-! ### invariants of loops -/

theorem Loop.inv {W β σ : Type} {R : β → σ → W → Option (σ × Bool) → W → Prop} {J : W → Prop} {xs : List β} {s : σ} {w w' : W}
    {o : Option (σ × Bool)} (h : Loop R xs s w o w') (hR : ∀ x ∈ xs, ∀ s w o w', J w → R x s w o w' → J w') (hw : J w) : J w' := by
  induction h with
  | nil => exact hw
  | next h _ ih => exact ih (fun x hx => hR x (List.mem_cons_of_mem _ hx)) (hR _ (List.mem_cons_self ..) _ _ _ _ hw h)
  | stop h => exact hR _ (List.mem_cons_self ..) _ _ _ _ hw h
  | panic h => exact hR _ (List.mem_cons_self ..) _ _ _ _ hw h

theorem Collect.inv {W β γ σ : Type} {R : β → σ → W → Option (γ × σ) → W → Prop} {J : W → Prop} {xs : List β} {s : σ} {w w' : W}
    {o : Option (List γ × σ)} (h : Collect R xs s w o w') (hR : ∀ x ∈ xs, ∀ s w o w', J w → R x s w o w' → J w') (hw : J w) : J w' := by
  induction h with
  | nil => exact hw
  | next h _ ih => exact ih (fun x hx => hR x (List.mem_cons_of_mem _ hx)) (hR _ (List.mem_cons_self ..) _ _ _ _ hw h)
  | panic h => exact hR _ (List.mem_cons_self ..) _ _ _ _ hw h

theorem LoopFine.of_inv {W β σ : Type} {R : β → σ → W → Option (σ × Bool) → W → Prop} {P : β → σ → W → Prop} {J : W → Prop} :
    ∀ {xs : List β} {s : σ} {w : W}, (∀ x ∈ xs, ∀ s w, J w → P x s w) → (∀ x ∈ xs, ∀ s w o w', J w → R x s w o w' → J w') → J w →
      LoopFine P R xs s w := by
  intro xs
  induction xs with
  | nil => intros; trivial
  | cons x xs ih =>
    intro s w hP hR hw
    exact ⟨hP x (List.mem_cons_self ..) s w hw, fun s' w' h => ih (fun y hy => hP y (List.mem_cons_of_mem _ hy))
      (fun y hy => hR y (List.mem_cons_of_mem _ hy)) (hR x (List.mem_cons_self ..) _ _ _ _ hw h)⟩

theorem CollectFine.of_inv {W β γ σ : Type} {R : β → σ → W → Option (γ × σ) → W → Prop} {P : β → σ → W → Prop} {J : W → Prop} :
    ∀ {xs : List β} {s : σ} {w : W}, (∀ x ∈ xs, ∀ s w, J w → P x s w) → (∀ x ∈ xs, ∀ s w o w', J w → R x s w o w' → J w') → J w →
      CollectFine P R xs s w := by
  intro xs
  induction xs with
  | nil => intros; trivial
  | cons x xs ih =>
    intro s w hP hR hw
    exact ⟨hP x (List.mem_cons_self ..) s w hw, fun y s' w' h => ih (fun y hy => hP y (List.mem_cons_of_mem _ hy))
      (fun y hy => hR y (List.mem_cons_of_mem _ hy)) (hR x (List.mem_cons_self ..) _ _ _ _ hw h)⟩

theorem Entries.Calls.valid {m : Entries α D} {N : List (Prefix α × D × Bool)} (h : m.Calls N) : ∀ n ∈ N, n.1.WF := by
  intro n hn
  cases hb : n.2.2 with
  | false => exact (h.others n hn hb).1
  | true =>
    refine h.entries.valid (n.1, n.2.1) (List.mem_map.mpr ⟨n, List.mem_filter.mpr ⟨hn, hb⟩, rfl⟩)

end

/-! ### a concrete program -/
namespace Sample
abbrev Scr := TScript (BitVec 32) Nat

/-- a callback that removes what it is called for from the first variable, and adds up how many entries are left -/
def scrWalk (p : Prefix (BitVec 32)) (_ : Nat) (s : Nat) : Scr (Nat × Bool) :=
  .call (.op (some 0) (.remove (.prefix p)) : TCmd _ _ Unit) fun _ _ =>
    .call (.num (some 0) : TCmd _ _ Unit) fun x _ => match x with
      | .num j => .ret (s + j, true)
      | _ => .panic
/-- a mapper that inserts what it is called for again -/
def scrMap (p : Prefix (BitVec 32)) (d : Nat) (s : Nat) : Scr (Nat × Nat) :=
  .call (.op (some 0) (.insertOrUpdate (.prefix p) d) : TCmd _ _ Unit) fun _ _ => .ret (d + 1, s + 1)
/-- a builder that removes entries, and returns whether all of them had the value 2 -/
def scrBuild (n h : Nat) : Scr Bool :=
  .walk n (fun p d _ => .call (.op (some h) (.remove (.prefix p)) : TCmd _ _ Unit) fun _ _ => .ret ((), d == 2)) () fun z => .ret z.2
/-- a program that uses them -/
def scr : Scr (Nat × Nat × Nat) :=
  .call (.new_ : TCmd _ _ Unit) fun _ _ =>
  .call (.op (some 0) (.insertOrUpdate (.prefix p8) 1) : TCmd _ _ Unit) fun _ _ =>
  .call (.op (some 0) (.insertOrUpdate (.prefix p16) 2) : TCmd _ _ Unit) fun _ _ =>
  .call (.freeze (some 0) : TCmd _ _ Unit) fun _ _ =>
  .walk 1 scrWalk 0 fun z =>
  .map 1 scrMap 0 fun y _ =>
  .build 2 (scrBuild 2) fun n =>
  .call (.xnum n : TCmd _ _ Unit) fun x _ => match x with
    | .num j => .ret (z.1, y, j)
    | _ => .panic

/-- what it returns: the walk has seen 1 and 0 entries left, the mapper was called twice, the builder gave up, so
    that there are 2 entries -/
theorem scr_run : ((scr.code 67 [.zero]).run ⟨[], []⟩).1.map (fun x => x.1) = .ret (1, 2, 2) := rfl

/-- the values that the program has got, and at least one variable -/
def Has (V : List (MTable (BitVec 32) Nat)) (w : SWorld (MTable (BitVec 32) Nat)) : Prop := 1 ≤ w.vars.length ∧ w.vals = V

theorem has_assign {V} {w : SWorld (MTable (BitVec 32) Nat)} (h : Has V w) (o : Option Nat) (a : MTable (BitVec 32) Nat) : Has V (w.assign o a) := by
  refine ⟨?_, ?_⟩
  · have := h.1
    unfold SWorld.assign
    split <;> simpa using this
  · have := h.2
    unfold SWorld.assign
    split <;> simpa using this

theorem scrWalk_has {V p d s w o w'} (h : Has V w) (he : (scrWalk p d s).Explained w o w') : Has V w' := by
  obtain ⟨x, w1, ⟨_, rfl⟩, y, w2, ⟨_, rfl⟩, he⟩ := he
  cases y <;> (obtain ⟨_, rfl⟩ := he; exact has_assign h _ _)

theorem scrMap_has {V p d s w o w'} (h : Has V w) (he : (scrMap p d s).Explained w o w') : Has V w' := by
  obtain ⟨x, w1, ⟨_, rfl⟩, _, rfl⟩ := he
  exact has_assign h _ _

theorem scrWalk_proper {V p d s w} (hp : p.WF) (h : Has V w) : (scrWalk p d s).Proper w := by
  have v : ∀ {w}, Has V w → w.HasVar (some 0) := fun h i hi => by cases hi; exact h.1
  refine ⟨⟨v h, fun _ => ⟨hp, by simp⟩⟩, ?_⟩
  rintro x w1 ⟨_, rfl⟩
  refine ⟨v (has_assign h _ _), fun x w2 _ => ?_⟩
  cases x <;> trivial

theorem scrMap_proper {V p d s w} (hp : p.WF) (h : Has V w) : (scrMap p d s).Proper w := by
  refine ⟨⟨fun i hi => by cases hi; exact h.1, fun _ => ⟨hp, by simp⟩⟩, fun _ _ _ => trivial⟩

theorem scr_proper : scr.Proper MTable.start := by
  refine ⟨trivial, ?_⟩
  rintro x w1 ⟨_, rfl⟩
  refine ⟨⟨fun i hi => by cases hi; simp [SWorld.declare, MTable.start], fun _ => ⟨by show p8.WF; decide, by simp⟩⟩, ?_⟩
  rintro x w2 ⟨_, rfl⟩
  refine ⟨⟨fun i hi => by cases hi; simp [SWorld.declare, SWorld.assign, MTable.start], fun _ => ⟨by show p16.WF; decide, by simp⟩⟩, ?_⟩
  rintro x w3 ⟨_, rfl⟩
  refine ⟨fun i hi => by cases hi; simp [SWorld.declare, SWorld.assign, MTable.start], ?_⟩
  rintro x w4 ⟨_, rfl⟩
  -- the world after `freeze`: the second value has the default comparison
  generalize hw : SWorld.got _ _ = w4
  have hV : Has w4.vals w4 ∧ w4.vals.length = 2 ∧ (w4.val 1).cmp = .dflt := by
    subst hw
    refine ⟨⟨?_, rfl⟩, ?_, ?_⟩
    · simp [SWorld.got, SWorld.declare, SWorld.assign, MTable.start]
    · simp [SWorld.got, SWorld.declare, SWorld.assign, MTable.start]
    · rfl
  clear hw
  obtain ⟨h1, h2, h3⟩ := hV
  refine ⟨by show 1 < _; omega, fun L hL => ⟨?_, ?_⟩⟩
  · exact LoopFine.of_inv (J := Has w4.vals) (fun x hx s w h => scrWalk_proper (hL.valid x hx) h) (fun x _ s w o w' h he => scrWalk_has h he) h1
  intro z w5 hz
  have h5 : Has w4.vals w5 := hz.inv (J := Has w4.vals) (fun x _ s w o w' h he => scrWalk_has h he) h1
  have v5 : w5.val 1 = w4.val 1 := by simp only [SWorld.val, h5.2]
  refine ⟨⟨by show 1 < w5.vals.length; rw [h5.2]; omega, Or.inr (by rw [v5]; exact h3)⟩, fun N hN => ⟨?_, ?_⟩⟩
  · exact CollectFine.of_inv (J := Has w4.vals) (fun x hx s w h => scrMap_proper (hN.valid x hx) h) (fun x _ s w o w' h he => scrMap_has h he) h5
  intro y w6 hy m' hm'
  have h6 : Has w4.vals w6 := hy.inv (J := Has w4.vals) (fun x _ s w o w' h he => scrMap_has h he) h5
  -- after `Map` there are three values
  generalize hw : w6.got _ = w7
  have h7 : 1 ≤ w7.vars.length ∧ w7.vals.length = 3 := by
    subst hw
    refine ⟨h6.1, ?_⟩
    simp [SWorld.got, h6.2, h2]
  clear hw
  have h8 : ∀ w8 b, (scrBuild 2 w7.vars.length).Explained (w7.declare (w7.val 2).clone) b w8 →
      w8.vars.length = w7.vars.length + 1 ∧ w8.vals.length = 3 := by
    intro w8 b he
    rw [scrBuild, TScript.Explained] at he
    obtain ⟨L, x, w9, _, g2, g3⟩ := he
    have h9 : w9.vars.length = w7.vars.length + 1 ∧ w9.vals.length = 3 := by
      refine g2.inv (J := fun w => w.vars.length = w7.vars.length + 1 ∧ w.vals.length = 3) ?_ ?_
      · rintro x _ s w o w' hj ⟨y, w1, ⟨_, rfl⟩, _, rfl⟩
        simpa [SWorld.assign] using hj
      · simp [SWorld.declare, h7.2]
    cases x with
    | none => obtain ⟨_, rfl⟩ := g3; exact h9
    | some z => obtain ⟨_, rfl⟩ := g3; exact h9
  have last : ∀ {w n}, n < w.vals.length → TScript.Proper (.call (.xnum n : TCmd (BitVec 32) Nat Unit) fun x _ => match x with
      | .num j => .ret (z.1, y.2, j)
      | _ => .panic) w := by
    intro w n hn
    refine ⟨hn, fun x w1 _ => ?_⟩
    cases x <;> trivial
  refine C67_build_proper (by show 2 < w7.vals.length; omega) ?_ ?_ ?_
  · refine ⟨by show 2 < (w7.declare _).vals.length; simp [SWorld.declare]; omega, fun L hL => ⟨?_, fun _ _ _ => trivial⟩⟩
    refine LoopFine.of_inv (J := fun w => w.vars.length = w7.vars.length + 1) ?_ ?_ (by simp [SWorld.declare])
    · intro x hx s w hj
      exact ⟨⟨fun i hi => by cases hi; omega, fun _ => ⟨hL.valid x hx, by simp⟩⟩, fun _ _ _ => trivial⟩
    · rintro x _ s w o w' hj ⟨y, w1, ⟨_, rfl⟩, _, rfl⟩
      simpa [SWorld.assign] using hj
  · intro w8 he
    obtain ⟨a, b⟩ := h8 _ _ he
    refine ⟨by omega, last ?_⟩
    simp [SWorld.got]
  · intro w8 he
    obtain ⟨a, b⟩ := h8 _ _ he
    exact last (by omega)

/-- so that is what it should return, if tables are maps -/
example : ∃ w, scr.Explained MTable.start (some (1, 2, 2)) w := by
  obtain ⟨o, w, h1, h2⟩ := C67_tables (F := 67) (by decide) scr scr_proper
  have h := scr_run
  cases o with
  | none =>
    obtain ⟨m, h2⟩ := h2
    rw [h2] at h; cases h
  | some b =>
    obtain ⟨r, m, h2⟩ := h2
    rw [h2] at h
    cases h
    exact ⟨w, h1⟩

end Sample
end Addrs

import Verif.PropReenterMap
/-
  Property C82: nil callbacks.
-/
set_option linter.unusedSectionVars false
namespace Addrs
open GoWord LawfulGoWord Heap

/-- Calling a callback that may be nil: calling a nil function panics (Go specification, "Calls"). -/
def orPanics {α D β σ : Type} (cb : Option (β → σ → Prog α D (σ × Bool))) : β → σ → Prog α D (σ × Bool) :=
  match cb with
  | some f => f
  | none => fun _ _ => .panic

/-- ipv4/table.go:233-239 `Walk`, the callback may be nil; the function that calls it never is, so the test in
    ipv4/node.go:575-579 does not see it -/
def xWalkNil {α D σ : Type} [GoWord α] [Inhabited D] (F : Nat) (t : Obj D) (cb : Option (Prefix α × D → σ → Prog α D (σ × Bool)))
    (s : σ) : Prog α D (σ × Bool) :=
  xWalkR F t (fun p d => orPanics cb (p, d)) s
/-- ipv4/tablex.go:335-337 `tableX.Walk` and ipv4/node.go:574-590, where a nil callback is replaced -/
def tableXWalkNil {α D σ : Type} [GoWord α] (F : Nat) (t : Obj D) (cb : Option (Prefix α → Option D → σ → Prog α D (σ × Bool)))
    (s : σ) : Prog α D (σ × Bool) :=
  walkR F (orNoop1R cb) t.trie s
/-- ipv4/set.go:212-216 `WalkPrefixes`, the callback may be nil -/
def sWalkNil {α σ : Type} [GoWord α] (F : Nat) (t : Obj Empty) (cb : Option (Prefix α → σ → Prog α Empty (σ × Bool))) (s : σ) :
    Prog α Empty (σ × Bool) :=
  sWalkR F t (orPanics cb) s
/-- ipv4/set.go:268-293 `WalkRanges`, the callback may be nil -/
def sWalkRangesNil {α σ : Type} [LawfulGoWord α] (F : Nat) (t : Obj Empty) (cb : Option (Range α → σ → Prog α Empty (σ × Bool))) (s : σ) :
    Prog α Empty (σ × Bool) :=
  sWalkRangesR F t (orPanics cb) s
/-- ipv4/set.go:242-246 `WalkAddresses`, the callback may be nil -/
def sWalkAddressesNil {σ : Type} (F fuel : Nat) (t : Obj Empty) (cb : Option (BitVec 32 → σ → Prog (BitVec 32) Empty (σ × Bool)))
    (s : σ) : Prog (BitVec 32) Empty (σ × Bool) :=
  sWalkAddressesR F fuel t (orPanics cb) s

/-- ipv4/table.go:156-162 `Build`, the builder being a program that may be nil; it is given the mutable table -/
def tBuild {α D : Type} [GoWord α] [GoType D] [Inhabited D] (t : Obj D) (b : Option (Nat → Prog α D Bool)) : Prog α D (Obj D) :=
  xThaw t >>= fun o => (match b with
    | some f => f o
    | none => .panic) >>= fun ok => if ok then tFreeze (some o) else pure t
/-- ipv4/set.go:182-188 `Build`, the builder being a program that may be nil -/
def sBuild {α : Type} [GoWord α] (t : Obj Empty) (b : Option (Nat → Prog α Empty Bool)) : Prog α Empty (Obj Empty) :=
  sThaw t >>= fun o => (match b with
    | some f => f o
    | none => .panic) >>= fun ok => if ok then sFreeze (some o) else pure t

/-- the callbacks with those that are nil replaced by functions that do nothing and return true -/
def TableDiffCbs.filled {α D σ : Type} (cb : TableDiffCbs α D σ) : TableDiffCbs α D σ where
  changed := some (cb.changed.getD fun _ _ _ s => pure (s, true))
  left := some (cb.left.getD fun _ _ s => pure (s, true))
  right := some (cb.right.getD fun _ _ s => pure (s, true))
  unchanged := some (cb.unchanged.getD fun _ _ s => pure (s, true))

theorem run_visitM_panic {α D β σ : Type} (L : List β) (st : σ) (m : Mem α D) :
    (visitM (fun _ _ => .panic) L st : Prog α D (σ × Bool)).run m = if L = [] then (.ret (st, true), m) else (.panic, m) := by
  cases L with
  | nil => rfl
  | cons x xs => rfl

section
variable {α D σ τ : Type} [LawfulGoWord α] [Inhabited D] [Comparable D] {F : Nat}

/-- `Diff`: a nil callback is as good as one that does nothing and returns true, if the comparator calls every value equal
    to itself or `unchanged` is not nil. -/
theorem C82_diff_nil (hF : 2 * width α + 3 ≤ F) {s : TState α D σ F} (h : s.Reach) {l r : Obj D} (hl : s.Known l) (hr : s.Known r)
    {e : D → D → Bool} (he : EqFn.val l.eq = some e) (cb : TableDiffCbs α D τ)
    (hc : cb.unchanged = none → (∀ x, e x x = true) ∨ cb.changed = none)
    (h1 : ∀ f, cb.changed = some f → ∀ p d e x, TUses F (f p d e x)) (h2 : ∀ f, cb.left = some f → ∀ p d x, TUses F (f p d x))
    (h3 : ∀ f, cb.right = some f → ∀ p d x, TUses F (f p d x)) (h4 : ∀ f, cb.unchanged = some f → ∀ p d x, TUses F (f p d x))
    (st : τ) : (xDiffR F l r cb st).run s.memory = (xDiffR F l r cb.filled st).run s.memory := by
  obtain ⟨v, ⟨T, l1, l2⟩, hv⟩ := known_good (tableLib_ok hF) h hl
  obtain ⟨w, ⟨U, r1, r2⟩, hw⟩ := known_good (tableLib_ok hF) h hr
  have l1' := l1.mono (hv s .refl)
  have r1' := r1.mono (hw s .refl)
  rw [run_xDiffR_some (m := s.memory) hF l2 r2 l1' r1' he hc (fun f hf p d e s => (h1 f hf p d e s).tame)
    (fun f hf p d s => (h2 f hf p d s).tame) (fun f hf p d s => (h3 f hf p d s).tame) (fun f hf p d s => (h4 f hf p d s).tame) st]
  rw [run_xDiffR_some (m := s.memory) hF l2 r2 l1' r1' he (cb := cb.filled) (fun h => nomatch h)]
  · congr 1
    refine visitM_congr (fun c _ s => ?_) _
    obtain ⟨f1, f2, f3, f4⟩ := cb
    cases c with
    | onlyLeft p v => cases f2 <;> rfl
    | onlyRight p v => cases f3 <;> rfl
    | both p v q w =>
      simp only [Change.reportM, TableDiffCbs.filled]
      split
      · cases f4 <;> rfl
      · cases f1 <;> rfl
  · intro f hf p d e s
    cases hf
    cases hcb : cb.changed with
    | none => trivial
    | some g => exact (h1 g hcb p d e s).tame
  · intro f hf p d s
    cases hf
    cases hcb : cb.left with
    | none => trivial
    | some g => exact (h2 g hcb p d s).tame
  · intro f hf p d s
    cases hf
    cases hcb : cb.right with
    | none => trivial
    | some g => exact (h3 g hcb p d s).tame
  · intro f hf p d s
    cases hf
    cases hcb : cb.unchanged with
    | none => trivial
    | some g => exact (h4 g hcb p d s).tame

/-- `Map`: a nil mapper gives the table itself -/
theorem C82_map_nil (t : Obj D) (st : τ) (m : Mem α D) :
    (xMapR F t (none : Option (Prefix α → D → τ → Prog α D (D × τ))) st).run m = (.ret (t, st), m) := rfl

/-- `t.Walk(nil)` returns true if the table is empty and panics otherwise.  Full statement: it returns true. -/
theorem C82_walk_partial (hF : 2 * width α + 3 ≤ F) {s : TState α D σ F} (h : s.Reach) {t : Obj D} (ht : s.Known t) (st : τ) :
    ∃ L, t.Lists s.mem L ∧
      (L = [] → (xWalkNil F t none st).run s.memory = (.ret (st, true), s.memory)) ∧
      (L ≠ [] → (xWalkNil F t none st).run s.memory = (.panic, s.memory)) := by
  obtain ⟨L, h1, _, h2⟩ := C57_walk (τ := τ) hF h ht (fun _ _ _ => .panic) (fun _ _ _ => .panic)
  refine ⟨L, h1, fun e => ?_, fun e => ?_⟩
  · exact (h2 st).trans ((run_visitM_panic L st _).trans (if_pos e))
  · exact (h2 st).trans ((run_visitM_panic L st _).trans (if_neg e))

/-- `Walk(nil)` of the untyped tables inside the package returns true -/
theorem C82_walk_untyped (hF : 2 * width α + 3 ≤ F) {s : TState α D σ F} (h : s.Reach) {t : Obj D} (ht : s.Known t) (st : τ) :
    (tableXWalkNil F t none st).run s.memory = (.ret (st, true), s.memory) := by
  obtain ⟨v, ⟨T, h1, h2⟩, hv⟩ := known_good (tableLib_ok hF) h ht
  have h1' := h1.mono (hv s .refl)
  have hd := h2.deep
  unfold tableXWalkNil
  rw [run_walkR (cb := orNoop1R none) (fun p d s => tame_pure) (by omega) (m := s.memory) h1'.1]
  exact congrArg (fun P => Prog.run P s.memory) (visitM_noop (xs := T.trie.entries) (fun _ _ _ => rfl) st)

/-- `t.Build(nil)` always panics -/
theorem C82_build_nil (t : Obj D) (m : Mem α D) : ((tBuild t none : Prog α D (Obj D)).run m).1 = .panic := by
  unfold tBuild xThaw
  split <;> rfl

end

section
variable {α σ τ : Type} [ReadFamily α] {F : Nat}

theorem run_sWalkNil (hF : setBound α ≤ F) {t : Obj Empty} {S : IPSet α} {m : Mem α Empty} (h : t.Holds m.nodes S)
    {cb : Prefix α → τ → Prog α Empty (τ × Bool)} (hcb : ∀ p s, Prog.TameIn (cb p s) Prog.Nowhere) (st : τ) :
    (sWalkR F t cb st).run m = (visitM cb S.trie.prefixes st).run m := by
  have hd := h.2.1.deep
  unfold sWalkR
  rw [run_walkR (fun p d s => hcb p s) (by unfold setBound at hF; omega) (m := m) h.1, Trie.prefixes, visitM_map]

theorem prefixes_nil_iff {t : Obj Empty} {S : IPSet α} {v : View α Empty} (h : t.Holds v S) :
    S.trie.prefixes = [] ↔ ∀ a, ¬ t.Members v a := by
  have hw := h.2.1.inv.prefixes_wf
  constructor
  · intro e a ha
    rw [h.members, h.2.1.has_iff, h.2.1.inv.mem_iff, e] at ha
    obtain ⟨p, hp, _⟩ := ha
    cases hp
  · intro hn
    cases hp : S.trie.prefixes with
    | nil => rfl
    | cons p ps =>
      rw [hp] at hw
      refine absurd ?_ (hn p.broadcast.addr)
      rw [h.members, h.2.1.has_iff, h.2.1.inv.mem_iff, hp]
      exact ⟨p, List.mem_cons_self .., covers_broadcast_addr (hw p (List.mem_cons_self ..))⟩

/-- `t.WalkPrefixes(nil)` returns true if the set is empty and panics otherwise.  Full statement: it returns true. -/
theorem C82_walkPrefixes_partial (hF : setBound α ≤ F) {s : SState α σ F} (h : s.Reach) {t : Obj Empty} (ht : s.Known t) (st : τ) :
    ((∀ a, ¬ t.Members s.mem a) → (sWalkNil F t none st).run s.memory = (.ret (st, true), s.memory)) ∧
    ((∃ a, t.Members s.mem a) → (sWalkNil F t none st).run s.memory = (.panic, s.memory)) := by
  obtain ⟨v, ⟨S, h1⟩, hv⟩ := known_good (setLib_ok hF) h ht
  have h1' := h1.mono (hv s .refl)
  have e1 : ∀ st : τ, (sWalkNil F t none st).run s.memory = if S.trie.prefixes = [] then (.ret (st, true), s.memory) else (.panic, s.memory) :=
    fun st => (run_sWalkNil hF (m := s.memory) h1' (cb := fun _ _ => .panic) (fun _ _ => trivial) st).trans (run_visitM_panic ..)
  have e2 := prefixes_nil_iff h1'
  refine ⟨fun hn => ?_, fun ⟨a, ha⟩ => ?_⟩
  · rw [e1, if_pos (e2.mpr hn)]
  · rw [e1, if_neg fun e => e2.mp e a ha]

/-- the same for `t.WalkRanges(nil)` -/
theorem C82_walkRanges_partial (hF : setBound α ≤ F) {s : SState α σ F} (h : s.Reach) {t : Obj Empty} (ht : s.Known t) (st : τ) :
    ((∀ a, ¬ t.Members s.mem a) → (sWalkRangesNil F t none st).run s.memory = (.ret (st, true), s.memory)) ∧
    ((∃ a, t.Members s.mem a) → (sWalkRangesNil F t none st).run s.memory = (.panic, s.memory)) := by
  obtain ⟨L, h1, _, h2, h3⟩ := C57_walkRanges (τ := τ) hF h ht (fun _ _ => .panic) (fun _ _ => .panic)
  have e1 : (sWalkRangesNil F t none st).run s.memory = if L = [] then (.ret (st, true), s.memory) else (.panic, s.memory) :=
    (h3 st).trans (run_visitM_panic ..)
  refine ⟨fun hn => ?_, fun ⟨a, ha⟩ => ?_⟩
  · rw [e1, if_pos]
    cases L with
    | nil => rfl
    | cons r L =>
      refine absurd ((h2 r.first).mpr ⟨r, List.mem_cons_self .., ?_⟩) (hn r.first)
      exact ⟨Nat.le_refl _, h1 r (List.mem_cons_self ..)⟩
  · rw [e1, if_neg]
    intro e
    obtain ⟨r, hr, _⟩ := (h2 a).mp ha
    rw [e] at hr
    cases hr

/-- `t.Build(nil)` always panics -/
theorem C82_set_build_nil (t : Obj Empty) (m : Mem α Empty) : ((sBuild t none : Prog α Empty (Obj Empty)).run m).1 = .panic := by
  unfold sBuild sThaw
  rfl

end

/-- the same for `t.WalkAddresses(nil)` of IPv4 sets -/
theorem C82_walkAddresses_partial {σ τ : Type} {F : Nat} (hF : setBound (BitVec 32) ≤ F) {s : SState (BitVec 32) σ F} (h : s.Reach)
    {t : Obj Empty} (ht : s.Known t) {fuel : Nat} (hf : 0 < fuel) (st : τ) :
    ((∀ a, ¬ t.Members s.mem a) → (sWalkAddressesNil F fuel t none st).run s.memory = (.ret (st, true), s.memory)) ∧
    ((∃ a, t.Members s.mem a) → (sWalkAddressesNil F fuel t none st).run s.memory = (.panic, s.memory)) := by
  obtain ⟨v, ⟨S, h1⟩, hv⟩ := known_good (setLib_ok hF) h ht
  have h1' := h1.mono (hv s .refl)
  have e2 := prefixes_nil_iff h1'
  have hw := h1.2.1.inv.prefixes_wf
  have e1 : (sWalkAddressesNil F fuel t none st).run s.memory =
      if S.trie.prefixes = [] then (.ret (st, true), s.memory) else (.panic, s.memory) := by
    refine (run_sWalkNil hF (m := s.memory) h1' (cb := fun p s => walkAddrLoopR (fun _ _ => .panic) p.broadcast.addr fuel p.network.addr s)
      (fun _ _ => tame_walkAddrLoopR (cb := fun _ _ => Prog.panic) fun _ _ => trivial) st).trans ?_
    cases hp : S.trie.prefixes with
    | nil => rfl
    | cons p ps =>
      rw [hp] at hw
      have hp := hw p (List.mem_cons_self ..)
      have h3 := toNat_network hp
      have h4 := toNat_broadcast hp
      have e1 : toNat p.network.addr = p.network.addr.toNat := rfl
      have e2 : toNat p.broadcast.addr = p.broadcast.addr.toNat := rfl
      have hpos : 0 < 2 ^ (width (BitVec 32) - p.len) := Nat.pow_pos (by omega)
      have hle : ¬ p.broadcast.addr.toNat < p.network.addr.toNat := by omega
      obtain ⟨fuel, rfl⟩ : ∃ k, fuel = k + 1 := ⟨fuel - 1, by omega⟩
      simp only [visitM, walkAddrLoopR, hle, if_false, reduceCtorEq]
      rfl
  refine ⟨fun hn => ?_, fun ⟨a, ha⟩ => ?_⟩
  · rw [e1, if_pos (e2.mpr hn)]
  · rw [e1, if_neg fun e => e2.mp e a ha]

/-! ### the hypotheses are met, and the full statement is false -/
open Sample in
/-- The full statement is false: the table is {10.0.0.0/8: 7, 11.0.0.0/8: 9}. -/
theorem C82_counterexample :
    ¬ ∀ (s : State TL) (t : Obj Nat), s.Reach → s.Known t → ((xWalkNil 67 t none ()).run s.memory).1 = .ret ((), true) := by
  intro h
  have h1 := h s4 x3 s4_reach x3_known
  have h2 : ((xWalkNil 67 x3 none ()).run s4.memory).1 = .panic := rfl
  rw [h2] at h1
  cases h1

namespace Sample

example := C82_walk_partial (by decide) s4_reach x3_known ()
example := C82_walk_untyped (by decide) s4_reach x3_known ()
/-- the zero `Table` is empty -/
example : ((xWalkNil 67 (Obj.zero : Obj Nat) none ()).run s4.memory).1 = .ret ((), true) := rfl
example := C82_walkPrefixes_partial (by decide) t3_reach y4_known ()
example := C82_walkRanges_partial (by decide) t3_reach y4_known ()
example := C82_walkAddresses_partial (by decide) t3_reach y4_known (fuel := 5) (by decide) ()
example : ((sWalkNil 170 y4 none ()).run t3.memory).1 = .panic := rfl
example := C82_diff_nil (by decide) s4_reach x1_known4 x3_known rfl { meddling with unchanged := none } (fun _ => .inl fun x => decide_eq_true rfl)
  (fun _ h => nomatch h) (fun f h p d x => by cases h; exact meddle_uses p d x)
  (fun f h p d x => by cases h; exact .walk x1 meddle x _ meddle_uses fun y => meddle_uses p d y.1)
  (fun f h p d x => nomatch h) []

end Sample
end Addrs

import Verif.PropScript
/-
  Property C67 for sets: a program that uses sets, whose callbacks are such programs again, sees mathematical sets.
-/
set_option linter.unusedSectionVars false
namespace Addrs
open GoWord LawfulGoWord Heap Prog

/-- A program that uses sets and returns a `β`.  What it does between the calls is a function of what it has seen.
    `t` numbers the `Set` values that the program has got so far (0 is `Set{}`); the second argument of `k` is the
    number of the `Set` that the call yields (if it does).  The callbacks are programs again, which use the same
    variables and values. -/
inductive SScript (α : Type) [HeapFamily α] : Type → Type 1
  | ret {β : Type} (b : β) : SScript α β
  | panic {β : Type} : SScript α β
  | call {β τ : Type} (c : SCmd α τ) (k : SSeen α τ → Nat → SScript α β) : SScript α β
  | walk {β τ : Type} (t : Nat) (cb : Prefix α → τ → SScript α (τ × Bool)) (s : τ) (k : τ × Bool → SScript α β) : SScript α β
  | ranges {β τ : Type} (t : Nat) (cb : Range α → τ → SScript α (τ × Bool)) (s : τ) (k : τ × Bool → SScript α β) : SScript α β

/-- The program on the heap; `r` are the `Set`s it has got. -/
def SScript.code {α : Type} [HeapFamily α] (F : Nat) {β : Type} : SScript α β → List (Obj Empty) → Prog α Empty (β × List (Obj Empty))
  | .ret b, r => pure (b, r)
  | .panic, _ => Prog.panic
  | .call c k, r => (c.call r).code F >>= fun x => (k x.seen r.length).code F (r ++ x.outs)
  | .walk t cb s k, r => sWalkR F (r.getD t .zero) (fun p x => withRegs ((cb p x.1).code F x.2)) (s, r) >>= fun x => (k (x.1.1, x.2)).code F x.1.2
  | .ranges t cb s k, r => sWalkRangesR F (r.getD t .zero) (fun p x => withRegs ((cb p x.1).code F x.2)) (s, r) >>= fun x =>
      (k (x.1.1, x.2)).code F x.1.2

/-- a family of addresses for which all of this holds -/
class ScriptFamily (α : Type) extends Measured α where
  tame : ∀ {F : Nat} {p : Ptr} {W : Nat → Prop}, Prog.TameIn (HeapFamily.sizeCode (α := α) F p) W

instance : ScriptFamily (BitVec 32) where
  tame := Heap.tame_numAddresses
instance : ScriptFamily U128 where
  tame := Heap.tame_isEmpty
instance {α : Type} [ScriptFamily α] : ReadFamily α where
  tame := ScriptFamily.tame

section
variable {α : Type} [ScriptFamily α]

/-- `R` lists the addresses of `A` as `WalkRanges` should: in order, with a gap between a range and the next -/
structure RangeListing (A : α → Prop) (R : List (Range α)) : Prop where
  valid : ∀ r ∈ R, r.Valid
  gaps : R.Pairwise fun r r' => toNat r.last + 1 < toNat r'.first
  exact : ∀ a, A a ↔ ∃ r ∈ R, InRange r a

/-- What the program can return (`none`: it panics), and what the world can be afterwards, if `Set_` is a variable
    that holds a set of addresses and `Set` is a set of addresses. -/
def SScript.Explained {β : Type} : SScript α β → SWorld (α → Prop) → Option β → SWorld (α → Prop) → Prop
  | .ret b, w, o, w' => o = some b ∧ w' = w
  | .panic, w, o, w' => o = none ∧ w' = w
  | .call c k, w, o, w' => ∃ x w1, c.Explained w x w1 ∧ (k x w.vals.length).Explained w1 o w'
  | .walk t cb s k, w, o, w' =>
    ∃ L x w1, Listing (w.val t) L ∧ Loop (fun p s => (cb p s).Explained) L s w x w1 ∧
      match x with
      | some z => (k z).Explained w1 o w'
      | none => o = none ∧ w' = w1
  | .ranges t cb s k, w, o, w' =>
    ∃ L x w1, RangeListing (w.val t) L ∧ Loop (fun p s => (cb p s).Explained) L s w x w1 ∧
      match x with
      | some z => (k z).Explained w1 o w'
      | none => o = none ∧ w' = w1

/-- Every call that the program makes, in a callback or not, is legal and plain. -/
def SScript.Proper {β : Type} : SScript α β → SWorld (α → Prop) → Prop
  | .ret _, _ => True
  | .panic, _ => True
  | .call c k, w => (c.Legal w ∧ c.Plain) ∧ ∀ x w1, c.Explained w x w1 → (k x w.vals.length).Proper w1
  | .walk t cb s k, w => w.HasVal t ∧ ∀ L, Listing (w.val t) L →
    LoopFine (fun p s => (cb p s).Proper) (fun p s => (cb p s).Explained) L s w ∧
    ∀ z w1, Loop (fun p s => (cb p s).Explained) L s w (some z) w1 → (k z).Proper w1
  | .ranges t cb s k, w => w.HasVal t ∧ ∀ L, RangeListing (w.val t) L →
    LoopFine (fun p s => (cb p s).Proper) (fun p s => (cb p s).Explained) L s w ∧
    ∀ z w1, Loop (fun p s => (cb p s).Explained) L s w (some z) w1 → (k z).Proper w1

/-! ### the simulation -/
variable {F : Nat}

theorem SScript.tame {β : Type} (c : SScript α β) : ∀ r : List (Obj Empty), TameIn (c.code F r) Nowhere := by
  have wr : ∀ {β τ : Type} {P : Prog α Empty ((τ × Bool) × β)}, TameIn P Nowhere → TameIn (withRegs P) Nowhere :=
    fun h => Tame.seq h fun _ _ _ => trivial
  induction c with
  | ret b => exact fun r => trivial
  | panic => exact fun r => trivial
  | call c k ih => exact fun r => Tame.seq (SCall.tame _) fun x _ _ => (ih _ _ _).wider
  | walk t cb s k ih1 ih2 => exact fun r => Tame.seq (tame_walkR fun p _ x => wr (ih1 p x.1 x.2)) fun x _ _ => (ih2 _ _).wider
  | ranges t cb s k ih1 ih2 => exact fun r => Tame.seq (tame_sWalkRangesR fun p x => wr (ih1 p x.1 x.2)) fun x _ _ => (ih2 _ _).wider

/-- the memory and the `Set`s that the program has got are the world `u` -/
def SSim (u : SWorld (α → Prop)) (m : Mem α Empty) (regs : List (Obj Empty)) : Prop :=
  ∃ w : SWorld (IPSet α), w.Matches m.sight regs ∧ w.Stands u

/-- the program goes on after a loop -/
theorem SScript.run_after {β τ : Type} {P : Prog α Empty ((τ × List (Obj Empty)) × Bool)} {k : τ × Bool → SScript α β} {m m' : Mem α Empty}
    {x : Option (τ × Bool)} {r : List (Obj Empty)} :
    P.run m = (endLoop r x, m') → (P >>= fun x => (k (x.1.1, x.2)).code F x.1.2).run m = match x with
      | some z => ((k z).code F r).run m'
      | none => (.panic, m') := by
  intro h
  rw [run_bind, h]
  cases x <;> rfl

theorem IPSet.Tidy.rangeListing {S : IPSet α} (h : S.Tidy) : RangeListing S.has (mergeAll S.trie.prefixes) := by
  obtain ⟨e1, e2, e3⟩ := mergeAll_spec h.reachable.inv
  exact ⟨e1, e2, fun a => by rw [h.reachable.has_iff, e3]⟩

/-- A program does on the heap what it should do. -/
theorem SScript.sim (hF : setBound α ≤ F) {β : Type} (c : SScript α β) :
    ∀ {u : SWorld (α → Prop)} {m : Mem α Empty} {r : List (Obj Empty)}, SSim u m r → c.Proper u →
      ∃ o m' r' u', (c.code F r).run m = (endOf r' o, m') ∧ c.Explained u o u' ∧ SSim u' m' r' := by
  induction c with
  | ret b => intro u m r h _; exact ⟨some b, m, r, u, rfl, ⟨rfl, rfl⟩, h⟩
  | panic => intro u m r h _; exact ⟨none, m, r, u, rfl, ⟨rfl, rfl⟩, h⟩
  | call c k ih =>
    intro u m r h hp
    obtain ⟨w, M, S⟩ := h
    obtain ⟨x, m1, h1, h2, h3⟩ := SCmd.step_ok hF M (S.legal hp.1.1)
    obtain ⟨u1, e1, e2⟩ := SCmd.explained S hp.1.1 hp.1.2
    rw [← h2] at e1
    have hn : r.length = u.vals.length := by rw [M.nvals, S.vals, List.length_map]
    obtain ⟨o, m2, r2, u2, g1, g2, g3⟩ := ih x.seen u.vals.length (u := u1) (m := m1) (r := r ++ x.outs) ⟨_, h3, e2⟩ (hp.2 _ _ e1)
    refine ⟨o, m2, r2, u2, ?_, ⟨_, u1, e1, g2⟩, g3⟩
    simp only [SScript.code, run_bind, h1, hn, g1]
  | walk t cb s k ih1 ih2 =>
    intro u m r h hp
    obtain ⟨w, M, S⟩ := h
    have ht : t < w.vals.length := by
      have : t < u.vals.length := hp.1
      rwa [S.vals, List.length_map] at this
    obtain ⟨e, td⟩ := S.val t
    have hst := M.val ht
    have hL : Listing (u.val t) (w.val t).trie.prefixes := by rw [e]; exact td.listing
    obtain ⟨f1, f2⟩ := hp.2 _ hL
    have hd := hst.2.1.deep
    obtain ⟨x, m1, r1, u1, g1, g2, g3⟩ := run_loop
      (g := fun (x : Prefix α) (s : _ × List (Obj Empty)) => withRegs ((cb x s.1).code F s.2)) (S := SSim)
      (P := fun y s => (cb y s).Proper) (R := fun y s => (cb y s).Explained)
      (fun x s u m r hs hp => by
        obtain ⟨o, m', r', u', a1, a2, a3⟩ := ih1 x s hs hp
        exact ⟨o, m', r', u', run_withRegs a1, a2, a3⟩) _ s ⟨w, M, S⟩ f1
    have hw : (sWalkR F (r.getD t .zero) (fun p x => withRegs ((cb p x.1).code F x.2)) (s, r)).run m = (endLoop r1 x, m1) := by
      unfold sWalkR
      rw [run_walkR (fun p d s => ?_) (by unfold setBound at hF; omega) (m := m) hst.1, ← g1, Trie.prefixes, visitM_map]
      exact Tame.seq ((cb p s.1).tame s.2) fun _ _ _ => trivial
    have hrun := SScript.run_after (F := F) (k := k) hw
    cases x with
    | none => exact ⟨none, m1, r1, u1, hrun, by rw [SScript.Explained]; exact ⟨_, none, u1, hL, g2, rfl, rfl⟩, g3⟩
    | some z =>
      obtain ⟨o, m2, r2, u2, b1, b2, b3⟩ := ih2 z g3 (f2 _ _ g2)
      exact ⟨o, m2, r2, u2, hrun.trans b1, by rw [SScript.Explained]; exact ⟨_, some z, u1, hL, g2, b2⟩, b3⟩
  | ranges t cb s k ih1 ih2 =>
    intro u m r h hp
    obtain ⟨w, M, S⟩ := h
    have ht : t < w.vals.length := by
      have : t < u.vals.length := hp.1
      rwa [S.vals, List.length_map] at this
    obtain ⟨e, td⟩ := S.val t
    have hst := M.val ht
    have hL : RangeListing (u.val t) (mergeAll (w.val t).trie.prefixes) := by rw [e]; exact td.rangeListing
    obtain ⟨f1, f2⟩ := hp.2 _ hL
    have hd := hst.2.1.deep
    obtain ⟨x, m1, r1, u1, g1, g2, g3⟩ := run_loop
      (g := fun (x : Range α) (s : _ × List (Obj Empty)) => withRegs ((cb x s.1).code F s.2)) (S := SSim)
      (P := fun y s => (cb y s).Proper) (R := fun y s => (cb y s).Explained)
      (fun x s u m r hs hp => by
        obtain ⟨o, m', r', u', a1, a2, a3⟩ := ih1 x s hs hp
        exact ⟨o, m', r', u', run_withRegs a1, a2, a3⟩) _ s ⟨w, M, S⟩ f1
    have hw : (sWalkRangesR F (r.getD t .zero) (fun p x => withRegs ((cb p x.1).code F x.2)) (s, r)).run m = (endLoop r1 x, m1) := by
      rw [run_sWalkRangesR (fun p s => ?_) hst.2.1.inv (by unfold setBound at hF; omega) (m := m) hst.1, ← g1]
      exact Tame.seq ((cb p s.1).tame s.2) fun _ _ _ => trivial
    have hrun := SScript.run_after (F := F) (k := k) hw
    cases x with
    | none => exact ⟨none, m1, r1, u1, hrun, by rw [SScript.Explained]; exact ⟨_, none, u1, hL, g2, rfl, rfl⟩, g3⟩
    | some z =>
      obtain ⟨o, m2, r2, u2, b1, b2, b3⟩ := ih2 z g3 (f2 _ _ g2)
      exact ⟨o, m2, r2, u2, hrun.trans b1, by rw [SScript.Explained]; exact ⟨_, some z, u1, hL, g2, b2⟩, b3⟩

/-- what there is at the start: no variables, and `Set{}` -/
def SWorld.start : SWorld (α → Prop) := ⟨[], [fun _ => False]⟩

theorem SSim.start : SSim (SWorld.start : SWorld (α → Prop)) ⟨[], []⟩ [.zero] := by
  refine ⟨⟨[], [IPSet.empty]⟩, ?_, ?_⟩
  · refine { nvars := rfl, vars := fun h => (nomatch h), nvals := rfl, vals := ?_ }
    intro t ob a h1 h2
    cases t with
    | succ t => cases h1
    | zero =>
      cases h1
      cases h2
      exact ⟨.nil, .empty, rfl⟩
  · refine { vars := rfl, vals := ?_, tvars := fun a h => (nomatch h), tvals := ?_ }
    · simp [SWorld.start, IPSet.has_empty]
    · intro a ha
      rw [List.mem_singleton.mp ha]; exact .empty

/-- On the heap, a program whose callbacks are programs does what it would do if `Set_` were a variable that holds
    a mathematical set of addresses and `Set` a mathematical set of addresses: it returns what it should return, or
    panics (itself) where it should; no call of the library panics or runs for ever. -/
theorem C67_sets (hF : setBound α ≤ F) {β : Type} (c : SScript α β) (hc : c.Proper SWorld.start) :
    ∃ o w, c.Explained SWorld.start o w ∧
      match o with
      | some b => ∃ r m, (c.code F [.zero]).run ⟨[], []⟩ = (.ret (b, r), m)
      | none => ∃ m, (c.code F [.zero]).run ⟨[], []⟩ = (.panic, m) := by
  obtain ⟨o, m, r, w, h1, h2, _⟩ := SScript.sim hF c SSim.start hc
  refine ⟨o, w, h2, ?_⟩
  cases o with
  | some b => exact ⟨r, m, h1⟩
  | none => exact ⟨m, h1⟩

/-! ### one program after the other, and `Build` -/

/-- one program after the other -/
def SScript.bind {β γ : Type} : SScript α β → (β → SScript α γ) → SScript α γ
  | .ret b, k => k b
  | .panic, _ => .panic
  | .call c k', k => .call c fun x n => (k' x n).bind k
  | .walk t cb s k', k => .walk t cb s fun x => (k' x).bind k
  | .ranges t cb s k', k => .ranges t cb s fun x => (k' x).bind k

/-- ipv4/set.go:182-188 `Build`: the builder is a program that gets the new `Set_`; `k` gets the number of the `Set`
    that `Build` returns -/
def SScript.build {β : Type} (t : Nat) (builder : Nat → SScript α Bool) (k : Nat → SScript α β) : SScript α β :=
  .call (.thaw t : SCmd α Unit) fun x _ =>
    match x with
    | .handle h => (builder h).bind fun b => if b then .call (.freeze (some h) : SCmd α Unit) fun _ n => k n else k t
    | _ => .panic

theorem SScript.bind_explained {β γ : Type} (c : SScript α β) (k : β → SScript α γ) : ∀ (w : SWorld (α → Prop)) (o : Option γ)
    (w' : SWorld (α → Prop)), (c.bind k).Explained w o w' ↔ ∃ x w1, c.Explained w x w1 ∧
      match x with
      | some b => (k b).Explained w1 o w'
      | none => o = none ∧ w' = w1 := by
  induction c with
  | ret b =>
    intro w o w'
    constructor
    · exact fun h => ⟨some b, w, ⟨rfl, rfl⟩, h⟩
    · rintro ⟨x, w1, ⟨rfl, rfl⟩, h⟩; exact h
  | panic =>
    intro w o w'
    constructor
    · exact fun h => ⟨none, w, ⟨rfl, rfl⟩, h⟩
    · rintro ⟨x, w1, ⟨rfl, rfl⟩, h⟩; exact h
  | call c k' ih =>
    intro w o w'
    simp only [SScript.bind, SScript.Explained, ih]
    constructor
    · rintro ⟨x, w1, h1, y, w2, h2, h3⟩; exact ⟨y, w2, ⟨x, w1, h1, h2⟩, h3⟩
    · rintro ⟨y, w2, ⟨x, w1, h1, h2⟩, h3⟩; exact ⟨x, w1, h1, y, w2, h2, h3⟩
  | walk t cb s k' _ ih | ranges t cb s k' _ ih =>
    intro w o w'
    constructor
    · intro h
      rw [SScript.bind, SScript.Explained] at h
      obtain ⟨L, x, w1, h1, h2, h3⟩ := h
      cases x with
      | none =>
        obtain ⟨rfl, rfl⟩ := h3
        refine ⟨none, w', ?_, rfl, rfl⟩
        rw [SScript.Explained]
        exact ⟨L, none, w', h1, h2, rfl, rfl⟩
      | some z =>
        obtain ⟨y, w2, g1, g2⟩ := (ih z k _ _ _).mp h3
        refine ⟨y, w2, ?_, g2⟩
        rw [SScript.Explained]
        exact ⟨L, some z, w1, h1, h2, g1⟩
    · rintro ⟨y, w2, h, h4⟩
      rw [SScript.Explained] at h
      rw [SScript.bind, SScript.Explained]
      obtain ⟨L, x, w1, h1, h2, h3⟩ := h
      cases x with
      | none =>
        obtain ⟨rfl, rfl⟩ := h3
        exact ⟨L, none, w2, h1, h2, h4⟩
      | some z => exact ⟨L, some z, w1, h1, h2, (ih z k _ _ _).mpr ⟨y, w2, h3, h4⟩⟩

/-- `s.Build(builder)`: the builder gets a new variable that holds `s`.  If it returns true, `Build` returns what
    the variable holds then; if it returns false, `s`.  (If it panics, so does `Build`.) -/
theorem C67_set_build {β : Type} (t : Nat) (builder : Nat → SScript α Bool) (k : Nat → SScript α β) (w w' : SWorld (α → Prop)) (o : Option β) :
    (SScript.build t builder k).Explained w o w' ↔ ∃ x w1, (builder w.vars.length).Explained (w.declare (w.val t)) x w1 ∧
      match x with
      | some true => (k w1.vals.length).Explained (w1.got (w1.var (some w.vars.length))) o w'
      | some false => (k t).Explained w1 o w'
      | none => o = none ∧ w' = w1 := by
  simp only [SScript.build, SScript.Explained, SCmd.Explained]
  constructor
  · rintro ⟨x, w0, ⟨rfl, rfl⟩, h⟩
    obtain ⟨y, w1, h1, h2⟩ := (SScript.bind_explained _ _ _ _ _).mp h
    refine ⟨y, w1, h1, ?_⟩
    cases y with
    | none => exact h2
    | some b =>
      cases b with
      | false => exact h2
      | true =>
        obtain ⟨z, w2, ⟨rfl, rfl⟩, h3⟩ := h2
        exact h3
  · rintro ⟨y, w1, h1, h2⟩
    refine ⟨_, _, ⟨rfl, rfl⟩, ?_⟩
    refine (SScript.bind_explained _ _ _ _ _).mpr ⟨y, w1, h1, ?_⟩
    cases y with
    | none => exact h2
    | some b =>
      cases b with
      | false => exact h2
      | true => exact ⟨_, _, ⟨rfl, rfl⟩, h2⟩

end

/-! ### a concrete program -/
namespace Sample
abbrev SScr := SScript (BitVec 32)

/-- a callback that removes what it is called for from the first variable, and counts the calls -/
def sscrWalk (p : Prefix (BitVec 32)) (s : Nat) : SScr (Nat × Bool) :=
  .call (.remove (some 0) (.prefix p) false : SCmd _ Unit) fun _ _ => .ret (s + 1, true)
/-- a callback that stops when the first variable holds nothing -/
def sscrRange (r : Range (BitVec 32)) (s : Nat) : SScr (Nat × Bool) :=
  .call (.isEmpty (.obj (some 0)) : SCmd _ Unit) fun x _ => match x with
    | .bool b => .ret (s + r.first.toNat, !b)
    | _ => .panic
/-- a program that uses them -/
def sscr : SScr (Nat × Nat × Bool) :=
  .call (.new_ : SCmd _ Unit) fun _ _ =>
  .call (.insert (some 0) (.prefix p8) false : SCmd _ Unit) fun _ _ =>
  .call (.insert (some 0) (.address 5) false : SCmd _ Unit) fun _ _ =>
  .call (.freeze (some 0) : SCmd _ Unit) fun _ _ =>
  .walk 1 sscrWalk 0 fun y =>
  .ranges 1 sscrRange 0 fun z =>
  .build 1 (fun h => .call (.remove (some h) (.set 1) false : SCmd _ Unit) fun _ _ => .ret false) fun n =>
  .call (.equal n 1 : SCmd _ Unit) fun x _ => match x with
    | .bool b => .ret (y.1, z.1, b)
    | _ => .panic

set_option maxRecDepth 100000 in
theorem sscr_run : ((sscr.code 300 [.zero]).run ⟨[], []⟩).1.map (fun x => x.1) = .ret (2, 5, true) := rfl

/-- the values that the program has got, and one variable -/
def SHas (V : List (BitVec 32 → Prop)) (w : SWorld (BitVec 32 → Prop)) : Prop := w.vars.length = 1 ∧ w.vals = V

theorem sscrWalk_has {V p s w o w'} (h : SHas V w) (he : (sscrWalk p s).Explained w o w') : SHas V w' := by
  obtain ⟨x, w1, ⟨_, rfl⟩, _, rfl⟩ := he
  simpa [SHas, SWorld.assign] using h

theorem sscrRange_has {V p s w o w'} (h : SHas V w) (he : (sscrRange p s).Explained w o w') : SHas V w' := by
  obtain ⟨x, w1, ⟨_, rfl⟩, he⟩ := he
  cases x <;> (obtain ⟨_, rfl⟩ := he; exact h)

theorem sscr_proper : sscr.Proper SWorld.start := by
  have v : ∀ {w : SWorld (BitVec 32 → Prop)} {i}, i < w.vars.length → w.HasVar (some i) := fun h i hi => by cases hi; exact h
  refine ⟨⟨trivial, trivial⟩, ?_⟩
  rintro x w1 ⟨_, rfl⟩
  refine ⟨⟨⟨by simp, v (by simp [SWorld.declare, SWorld.start]), trivial, by show p8.WF; decide⟩, by show NoHostBits p8; unfold NoHostBits; decide⟩, ?_⟩
  rintro x w2 ⟨_, rfl⟩
  refine ⟨⟨⟨by simp, v (by simp [SWorld.declare, SWorld.assign, SWorld.start]), trivial, trivial⟩, trivial⟩, ?_⟩
  rintro x w3 ⟨_, rfl⟩
  refine ⟨⟨v (by simp [SWorld.declare, SWorld.assign, SWorld.start]), trivial⟩, ?_⟩
  rintro x w4 ⟨_, rfl⟩
  generalize hw : SWorld.got _ _ = w4
  have hV : SHas w4.vals w4 ∧ w4.vals.length = 2 := by
    subst hw
    exact ⟨⟨by simp [SWorld.got, SWorld.declare, SWorld.assign, SWorld.start], rfl⟩,
      by simp [SWorld.got, SWorld.declare, SWorld.assign, SWorld.start]⟩
  clear hw
  obtain ⟨h1, h2⟩ := hV
  refine ⟨by show 1 < _; omega, fun L hL => ⟨?_, ?_⟩⟩
  · refine LoopFine.of_inv (J := SHas w4.vals) (fun p hp s w h => ?_) (fun x _ s w o w' h he => sscrWalk_has h he) h1
    exact ⟨⟨⟨by simp, v (by rw [h.1]; omega), trivial, (hL.valid p hp).1⟩, (hL.valid p hp).2⟩, fun _ _ _ => trivial⟩
  intro y w5 hy
  have h5 : SHas w4.vals w5 := hy.inv (J := SHas w4.vals) (fun x _ s w o w' h he => sscrWalk_has h he) h1
  refine ⟨by show 1 < w5.vals.length; rw [h5.2]; omega, fun L hL => ⟨?_, ?_⟩⟩
  · refine LoopFine.of_inv (J := SHas w4.vals) (fun r hr s w h => ?_) (fun x _ s w o w' h he => sscrRange_has h he) h5
    refine ⟨⟨v (by rw [h.1]; omega), trivial⟩, fun x w1 _ => ?_⟩
    cases x <;> trivial
  intro z w6 hz
  have h6 : SHas w4.vals w6 := hz.inv (J := SHas w4.vals) (fun x _ s w o w' h he => sscrRange_has h he) h5
  have l6 : 1 < w6.vals.length := by rw [h6.2]; omega
  refine ⟨⟨l6, trivial⟩, ?_⟩
  rintro x w7 ⟨rfl, rfl⟩
  refine ⟨⟨⟨by simp, v (by simp [SWorld.declare]), l6, trivial⟩, trivial⟩, ?_⟩
  rintro x w8 ⟨_, rfl⟩
  refine ⟨⟨⟨l6, l6⟩, trivial⟩, fun x w1 _ => ?_⟩
  cases x <;> trivial

/-- so that is what it should return, if sets are mathematical sets -/
example : ∃ w, sscr.Explained SWorld.start (some (2, 5, true)) w := by
  obtain ⟨o, w, h1, h2⟩ := C67_sets (F := 300) (by decide) sscr sscr_proper
  have h := sscr_run
  cases o with
  | none =>
    obtain ⟨m, h2⟩ := h2
    rw [h2] at h; cases h
  | some b =>
    obtain ⟨r, m, h2⟩ := h2
    rw [h2] at h
    cases h
    exact ⟨w, h1⟩

end Sample
end Addrs

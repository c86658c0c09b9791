import Verif.PropAlgebra
/-
  Properties C54 (an allocator made of FindAvailablePrefix, Insert and Remove hands out disjoint prefixes) and
  C55 (it does not fragment its space while nothing is released).
-/
set_option linter.unusedSectionVars false
namespace Addrs
open GoWord LawfulGoWord
open SetNode

section
variable {α : Type} [LawfulIPFamily α]

/-- A program that allocates prefixes: the `Set_` of reserved addresses it keeps, and the prefixes that are
    handed out and not yet released (the last one first). -/
structure Pool (α : Type) [IPFamily α] where
  reserved : IPSet α
  given : List (Prefix α)

/-- what the program does -/
inductive PoolCall where
  /-- ask `space.FindAvailablePrefix(reserved, n)` for a prefix; on success, `reserved.Insert` it -/
  | alloc (n : Nat)
  /-- `reserved.Remove` the `k`th of the prefixes handed out -/
  | release (k : Nat)

/-- Client code, not code of the project: the loop that `FindAvailablePrefix` is made for
    (ipv4/set.go:344-347, ipv6/set.go:332-335: "contained by the current set but does not overlap the given
    reserved set", "optimally placed to avoid any further IP space fragmentation"). -/
def Pool.step (space : IPSet α) (pool : Pool α) : PoolCall → Pool α
  | .alloc n =>
    match space.findAvailablePrefix (.set pool.reserved) n with
    | .ok p => ⟨pool.reserved.union (.prefix p), p :: pool.given⟩
    | _ => pool
  | .release k =>
    match pool.given[k]? with
    | some p => ⟨pool.reserved.difference (.prefix p), pool.given.eraseIdx k⟩
    | none => pool

/-- a history of calls -/
def Pool.run (space : IPSet α) (pool : Pool α) (calls : List PoolCall) : Pool α := calls.foldl (Pool.step space) pool

/-- no address is in both -/
def DisjointPrefixes (p q : Prefix α) : Prop := ∀ a, InPrefix p a → ¬ InPrefix q a

/-- the invariant -/
structure PoolInv (space r0 : IPSet α) (pool : Pool α) : Prop where
  reach : pool.reserved.Reachable
  wf : ∀ p ∈ pool.given, p.WF
  disj : pool.given.Pairwise DisjointPrefixes
  inside : ∀ p ∈ pool.given, ∀ a, InPrefix p a → space.has a ∧ ¬ r0.has a
  res : ∀ a, pool.reserved.has a ↔ r0.has a ∨ ∃ p ∈ pool.given, InPrefix p a

theorem mem_eraseIdx_of {β : Type} {L : List β} {k : Nat} {x y : β} (hk : L[k]? = some x) (hy : y ∈ L) (hne : y ≠ x) :
    y ∈ L.eraseIdx k := by
  induction L generalizing k with
  | nil => cases hy
  | cons z L ih =>
    cases k with
    | zero =>
      simp only [List.getElem?_cons_zero, Option.some.injEq] at hk
      subst hk
      rcases List.mem_cons.mp hy with h | h
      · exact absurd h hne
      · exact h
    | succ k =>
      rw [List.eraseIdx_cons_succ]
      rcases List.mem_cons.mp hy with h | h
      · exact h ▸ List.mem_cons_self
      · exact List.mem_cons_of_mem _ (ih hk h)

theorem eraseIdx_rel {β : Type} {R : β → β → Prop} (hsym : ∀ x y, R x y → R y x) {L : List β} {k : Nat} {x : β}
    (hk : L[k]? = some x) (hp : L.Pairwise R) : ∀ y ∈ L.eraseIdx k, R y x := by
  induction L generalizing k with
  | nil => simp at hk
  | cons z L ih =>
    rw [List.pairwise_cons] at hp
    cases k with
    | zero =>
      simp only [List.getElem?_cons_zero, Option.some.injEq] at hk
      subst hk
      intro y hy
      exact hsym _ _ (hp.1 y hy)
    | succ k =>
      rw [List.eraseIdx_cons_succ]
      intro y hy
      rcases List.mem_cons.mp hy with h | h
      · subst h; exact hp.1 x (List.mem_of_getElem? hk)
      · exact ih hk hp.2 y h

theorem PoolInv.step {space r0 : IPSet α} (hs : space.Reachable) {pool : Pool α} (h : PoolInv space r0 pool)
    (c : PoolCall) (hc : ∀ n, c = .alloc n → n ≤ width α) : PoolInv space r0 (pool.step space c) := by
  cases c with
  | alloc n =>
    have hn := hc n rfl
    unfold Pool.step
    simp only
    split
    · rename_i p hp
      obtain ⟨h1, h2, h3⟩ := C21_sound_partial space (.set pool.reserved) n hs h.reach hn p hp
      refine ⟨.union _ (SetI.prefix p).toSet h.reach (.prefix p h2), ?_, ?_, ?_, fun a => ?_⟩
      · intro q hq
        rcases List.mem_cons.mp hq with rfl | hq
        · exact h2
        · exact h.wf q hq
      · refine List.pairwise_cons.mpr ⟨fun q hq a ha hb => ?_, h.disj⟩
        exact (h3 a ha).2 ((h.res a).mpr (.inr ⟨q, hq, hb⟩))
      · intro q hq
        rcases List.mem_cons.mp hq with rfl | hq
        · exact fun a ha => ⟨(h3 a ha).1, fun hr => (h3 a ha).2 ((h.res a).mpr (.inl hr))⟩
        · exact h.inside q hq
      · show (pool.reserved.union (.prefix p)).has a ↔ _
        rw [C09_union _ (.prefix p) h.reach h2, h.res, C08_prefix p h2, or_assoc]
        refine or_congr Iff.rfl ?_
        simp only [List.mem_cons, exists_eq_or_imp]
        exact or_comm
    · exact h
  | release k =>
    unfold Pool.step
    simp only
    split
    · rename_i p hp
      have hm : p ∈ pool.given := List.mem_of_getElem? hp
      have hw := h.wf p hm
      have hsub : ∀ q ∈ pool.given.eraseIdx k, q ∈ pool.given := fun q hq => List.mem_of_mem_eraseIdx hq
      refine ⟨.difference _ (SetI.prefix p).toSet h.reach (.prefix p hw), fun q hq => h.wf q (hsub q hq),
        h.disj.sublist (List.eraseIdx_sublist _ _), fun q hq => h.inside q (hsub q hq), fun a => ?_⟩
      show (pool.reserved.difference (.prefix p)).has a ↔ _
      rw [C11_difference _ (.prefix p) h.reach hw, h.res, C08_prefix p hw]
      constructor
      · rintro ⟨hr | ⟨q, hq, hqa⟩, hn⟩
        · exact .inl hr
        · refine .inr ⟨q, mem_eraseIdx_of hp hq (fun e => hn (e ▸ hqa)), hqa⟩
      · rintro (hr | ⟨q, hq, hqa⟩)
        · exact ⟨.inl hr, fun hx => (h.inside p hm a hx).2 hr⟩
        · exact ⟨.inr ⟨q, hsub q hq, hqa⟩,
            eraseIdx_rel (fun x y hxy b hb hc => hxy b hc hb) hp h.disj q hq a hqa⟩
    · exact h

theorem PoolInv.run {space r0 : IPSet α} (hs : space.Reachable) {pool : Pool α} (h : PoolInv space r0 pool)
    (calls : List PoolCall) (hc : ∀ n, PoolCall.alloc n ∈ calls → n ≤ width α) :
    PoolInv space r0 (pool.run space calls) := by
  induction calls generalizing pool with
  | nil => exact h
  | cons c cs ih =>
    refine ih (h.step hs c fun n hn => hc n (hn ▸ List.mem_cons_self)) fun n hn => hc n (List.mem_cons_of_mem _ hn)

theorem PoolInv.start (space : IPSet α) {r0 : IPSet α} (hr : r0.Reachable) : PoolInv space r0 ⟨r0, []⟩ :=
  ⟨hr, fun p hp => (by cases hp), .nil, fun p hp => (by cases hp), fun a => by simp⟩

/-- Whatever is asked for and released, at any time the prefixes that are handed out are pairwise disjoint,
    lie in the space and not in what was reserved at the start, and the program's set of reserved addresses is
    exactly what was reserved at the start and what is handed out. -/
theorem C54_alloc (space r0 : IPSet α) (hs : space.Reachable) (hr : r0.Reachable) (calls : List PoolCall)
    (hc : ∀ n, PoolCall.alloc n ∈ calls → n ≤ width α) :
    let pool := Pool.run space ⟨r0, []⟩ calls
    pool.given.Pairwise DisjointPrefixes ∧
    (∀ p ∈ pool.given, p.WF ∧ ∀ a, InPrefix p a → space.has a ∧ ¬ r0.has a) ∧
    (∀ a, pool.reserved.has a ↔ r0.has a ∨ ∃ p ∈ pool.given, InPrefix p a) :=
  have h := (PoolInv.start space hr).run hs calls hc
  ⟨h.disj, fun p hp => ⟨h.wf p hp, h.inside p hp⟩, h.res⟩

/-- A request that fits somewhere is answered, and with the length asked for. -/
theorem C54_served (space r0 : IPSet α) (hs : space.Reachable) (hr : r0.Reachable) (calls : List PoolCall)
    (hc : ∀ n, PoolCall.alloc n ∈ calls → n ≤ width α) (n : Nat) (hn : n ≤ width α) (P : Prefix α) (hP : P.WF)
    (hl : P.len = n)
    (hfree : ∀ a, InPrefix P a → space.has a ∧ ¬ r0.has a ∧
      ∀ p ∈ (Pool.run space ⟨r0, []⟩ calls).given, ¬ InPrefix p a) :
    ∃ p, (Pool.run space ⟨r0, []⟩ (calls ++ [.alloc n])).given = p :: (Pool.run space ⟨r0, []⟩ calls).given ∧
      p.len = n := by
  have h := (PoolInv.start space hr).run hs calls hc
  have e : Pool.run space ⟨r0, []⟩ (calls ++ [.alloc n]) =
      Pool.step space (Pool.run space ⟨r0, []⟩ calls) (.alloc n) := by simp [Pool.run, List.foldl_append]
  rw [e]
  rcases C22_bestFit space (.set (Pool.run space ⟨r0, []⟩ calls).reserved) n hs h.reach hn (by simp) with h1 | h1
  · refine absurd ?_ (h1.2 P hP hl)
    intro a ha
    obtain ⟨f1, f2, f3⟩ := hfree a ha
    refine ⟨f1, fun hx => ?_⟩
    rcases (h.res a).mp hx with hx | ⟨p, hp, hx⟩
    · exact f2 hx
    · exact f3 p hp hx
  · obtain ⟨p, B, h2, _, _, h3, _⟩ := h1
    refine ⟨p, ?_, h3⟩
    simp only [Pool.step, h2]

/-! ### no fragmentation -/

/-- at most one maximal prefix of each length -/
def UniqueBlocks (S : α → Prop) : Prop :=
  ∀ P Q : Prefix α, P.WF → Q.WF → MaxIn P S → MaxIn Q S → P.len = Q.len → Agree P.len P.addr Q.addr

/-- Taking a prefix of length `n` out of a smallest block with room for it leaves at most one block of each length. -/
theorem UniqueBlocks.take {S : α → Prop} (hU : UniqueBlocks S) {B p : Prefix α} (hB : MaxIn B S)
    (hl : B.len ≤ p.len) (hin : Covers B p.addr)
    (hbest : ∀ q : Prefix α, q.WF → q.len ≤ p.len → MaxIn q S → q.len ≤ B.len) :
    UniqueBlocks (fun x => S x ∧ ¬ Covers p x) := by
  -- a maximal prefix of the rest is one of S, or the sibling of a prefix between B and p
  have key : ∀ P : Prefix α, P.WF → MaxIn P (fun x => S x ∧ ¬ Covers p x) →
      (MaxIn P S ∧ ¬ Agree B.len B.addr P.addr) ∨
      (B.len < P.len ∧ P.len ≤ p.len ∧ Agree (P.len - 1) P.addr p.addr ∧ bit P.addr (P.len - 1) ≠ bit p.addr (P.len - 1)) := by
    rintro P hP ⟨hi, hm⟩
    have hiS : Inside P S := fun x hx => (hi x hx).1
    obtain ⟨M, hMw, hMl, hMa, hMm⟩ := exists_maxIn hP hiS
    by_cases hBM : Agree B.len B.addr P.addr
    · right
      -- p is not in P, nor P in p
      have hnp : ¬ Covers p P.addr := (hi _ (Covers.self P)).2
      have hlt : B.len < P.len := by
        apply Nat.lt_of_not_le
        intro hle
        refine (hi p.addr ?_).2 (Covers.self p)
        exact (Agree.mono hBM hle).symm.trans (Agree.mono hin hle)
      have hpos : 0 < P.len := by omega
      -- the parent of P has an address outside the rest
      have hpar := hm ⟨P.addr, P.len - 1⟩ (Nat.sub_lt hpos Nat.one_pos) (Agree.refl _ _)
      have hparS : Inside ⟨P.addr, P.len - 1⟩ S := fun x hx =>
        hB.1 x (hBM.trans (Agree.mono (show Agree (P.len - 1) P.addr x from hx) (by omega)))
      obtain ⟨x, hx, hxp⟩ : ∃ x, Agree (P.len - 1) P.addr x ∧ Covers p x := by
        refine Classical.byContradiction fun hno => hpar fun x hx => ⟨hparS x hx, fun hxp => hno ⟨x, hx, hxp⟩⟩
      have hle : P.len ≤ p.len := by
        apply Nat.le_of_not_lt
        intro h
        exact hnp (Agree.trans hxp (Agree.mono hx (by omega)).symm)
      have hag : Agree (P.len - 1) P.addr p.addr := hx.trans (Agree.mono hxp (by omega)).symm
      refine ⟨hlt, hle, hag, fun hb => ?_⟩
      have h2 := Agree.succ hag hb
      rw [Nat.sub_add_cancel hpos] at h2
      exact (hi p.addr h2).2 (Covers.self p)
    · left
      refine ⟨⟨hiS, fun Q hQl hQa hQi => ?_⟩, hBM⟩
      refine hm Q hQl hQa fun x hx => ⟨hQi x hx, fun hxp => ?_⟩
      -- x is in Q and in p, hence in B; so Q and B meet, and one is in the other
      have hBx : Agree B.len B.addr x := hin.trans (Agree.mono hxp hl)
      by_cases hle : B.len ≤ Q.len
      · exact hBM (hBx.trans ((Agree.mono hx hle).symm.trans (Agree.mono hQa hle)))
      · have hle : Q.len < B.len := by omega
        refine hB.2 Q hle ?_ hQi
        exact Agree.trans hx (Agree.mono hBx (Nat.le_of_lt hle)).symm
  intro P Q hP hQ mP mQ hlen
  rcases key P hP mP with ⟨p1, p2⟩ | ⟨p1, p2, p3, p4⟩
  · rcases key Q hQ mQ with ⟨q1, _⟩ | ⟨q1, q2, _⟩
    · exact hU P Q hP hQ p1 q1 hlen
    · have := hbest P hP (by omega) p1; omega
  · rcases key Q hQ mQ with ⟨q1, _⟩ | ⟨q1, q2, q3, q4⟩
    · have := hbest Q hQ (by omega) q1; omega
    · have hpos : 0 < P.len := by omega
      rw [← hlen] at q3 q4
      have h1 : Agree (P.len - 1) P.addr Q.addr := p3.trans q3.symm
      have h2 := Agree.succ h1 (by
        revert p4 q4
        cases bit P.addr (P.len - 1) <;> cases bit Q.addr (P.len - 1) <;> cases bit p.addr (P.len - 1) <;> simp)
      rwa [Nat.sub_add_cancel hpos] at h2

open Classical in
/-- the number of addresses with a property -/
noncomputable def numOf (S : α → Prop) : Nat :=
  (List.range (2 ^ width α)).countP (fun k => decide (S (ofNat α k)))

theorem numOf_congr {S T : α → Prop} (h : ∀ x, S x ↔ T x) : numOf S = numOf T := by
  have : S = T := funext fun x => propext (h x)
  rw [this]

open Classical in
theorem numOf_or {S T : α → Prop} (h : ∀ x, S x → ¬ T x) : numOf (fun x => S x ∨ T x) = numOf S + numOf T := by
  unfold numOf
  rw [← countP_or_disjoint]
  · congr 1
    funext k
    by_cases h1 : S (ofNat α k) <;> by_cases h2 : T (ofNat α k) <;> simp [h1, h2]
  · intro k _
    simp only [decide_eq_true_eq]
    rintro ⟨h1, h2⟩
    exact h _ h1 h2

theorem numOf_mono {S T : α → Prop} (h : ∀ x, S x → T x) : numOf S ≤ numOf T := by
  unfold numOf
  apply List.countP_mono_left
  intro k _
  simp only [decide_eq_true_eq]
  exact h _

theorem numOf_prefix {p : Prefix α} (hp : p.WF) : numOf (Covers p) = blockSize α p.len := by
  have h := (Inv.leaf p hp).card
  have e : (fromPrefix p).prefixes = [p] := by simp [fromPrefix, Trie.prefixes, Trie.entries]
  rw [e] at h
  rw [numOf_congr (fun x => mem_fromPrefix.symm)]
  unfold numOf
  simpa [blockSize] using h

theorem numOf_or_le (S T : α → Prop) : numOf (fun x => S x ∨ T x) ≤ numOf S + numOf T := by
  have e : numOf (fun x => S x ∨ T x) = numOf (fun x => S x ∨ (T x ∧ ¬ S x)) := numOf_congr fun x => by
    by_cases h : S x <;> simp [h]
  rw [e, numOf_or fun x h1 h2 => h2.2 h1]
  exact Nat.add_le_add_left (numOf_mono fun x h => h.1) _

theorem numOf_empty {S : α → Prop} (h : ∀ x, ¬ S x) : numOf S = 0 := by
  unfold numOf
  rw [List.countP_eq_zero]
  intro k _
  simpa using h _

/-- few addresses, if all blocks are small and of different sizes -/
theorem UniqueBlocks.few {S : α → Prop} (hU : UniqueBlocks S) (n : Nat) (hn : n ≤ width α)
    (h : ∀ q : Prefix α, q.WF → MaxIn q S → n < q.len) : numOf S < blockSize α n := by
  have key : ∀ d l, l + d = width α + 1 →
      numOf (fun x => ∃ q : Prefix α, q.WF ∧ MaxIn q S ∧ l ≤ q.len ∧ Covers q x) < 2 ^ d := by
    intro d
    induction d with
    | zero =>
      intro l hl
      rw [numOf_empty]
      · decide
      · rintro x ⟨q, hq, _, h1, _⟩
        have : q.len ≤ width α := hq
        omega
    | succ d ih =>
      intro l hl
      have ih := ih (l + 1) (by omega)
      have hle : numOf (fun x => ∃ q : Prefix α, q.WF ∧ MaxIn q S ∧ l ≤ q.len ∧ Covers q x) ≤
          numOf (fun x => ∃ q : Prefix α, q.WF ∧ MaxIn q S ∧ l + 1 ≤ q.len ∧ Covers q x) +
          numOf (fun x => ∃ q : Prefix α, q.WF ∧ MaxIn q S ∧ q.len = l ∧ Covers q x) := by
        refine Nat.le_trans (numOf_mono fun x => ?_) (numOf_or_le _ _)
        rintro ⟨q, h1, h2, h3, h4⟩
        by_cases e : q.len = l
        · exact .inr ⟨q, h1, h2, e, h4⟩
        · exact .inl ⟨q, h1, h2, by omega, h4⟩
      have hone : numOf (fun x => ∃ q : Prefix α, q.WF ∧ MaxIn q S ∧ q.len = l ∧ Covers q x) ≤ 2 ^ d := by
        by_cases hex : ∃ q : Prefix α, q.WF ∧ MaxIn q S ∧ q.len = l
        · obtain ⟨q0, h1, h2, h3⟩ := hex
          have hs : numOf (Covers q0) = 2 ^ d := by
            rw [numOf_prefix h1, blockSize, h3]
            congr 1
            omega
          rw [← hs]
          refine numOf_mono fun x => ?_
          rintro ⟨q, g1, g2, g3, g4⟩
          have := hU q0 q h1 g1 h2 g2 (by omega)
          show Agree q0.len q0.addr x
          refine this.trans ?_
          rw [h3, ← g3]; exact g4
        · rw [numOf_empty]
          · exact Nat.zero_le _
          · rintro x ⟨q, g1, g2, g3, _⟩; exact hex ⟨q, g1, g2, g3⟩
      rw [Nat.pow_succ]
      omega
  refine Nat.lt_of_le_of_lt (numOf_mono fun x hx => ?_) (key (width α - n) (n + 1) (by omega))
  have hI : Inside (⟨x, width α⟩ : Prefix α) S := fun y hy => by
    rw [← Agree.eq (show Agree (width α) x y from hy) (Nat.le_refl _)]; exact hx
  obtain ⟨q, h1, h2, h3, h4⟩ := exists_maxIn (q := ⟨x, width α⟩) (Nat.le_refl _) hI
  exact ⟨q, h1, h4, h q h1 h4, h3⟩

/-- no two maximal free blocks of the same size -/
def NoTwins (space reserved : IPSet α) : Prop :=
  ∀ P Q : Prefix α, MaxFree space (.set reserved) P → MaxFree space (.set reserved) Q → P.len = Q.len →
    ∀ a, InPrefix P a ↔ InPrefix Q a

theorem noTwins_iff {space reserved : IPSet α} (hs : space.Reachable) (hr : reserved.Reachable) :
    NoTwins space reserved ↔ UniqueBlocks (fun x => space.has x ∧ ¬ reserved.has x) := by
  have e : (fun x => Mem space.trie x ∧ ¬ Mem (SetI.set reserved).toSet.trie x) =
      (fun x => space.has x ∧ ¬ reserved.has x) := by
    funext x; rw [hs.has_iff, hr.has_iff]; rfl
  unfold NoTwins UniqueBlocks
  simp only [maxFree_iff space (.set reserved) hs hr, e]
  constructor
  · intro h P Q hP hQ mP mQ hl
    have := (h P Q ⟨hP, mP⟩ ⟨hQ, mQ⟩ hl Q.addr).mpr ((inPrefix_iff hQ).mpr (Covers.self Q))
    exact (inPrefix_iff hP).mp this
  · intro h P Q mP mQ hl a
    have := h P Q mP.1 mQ.1 mP.2 mQ.2 hl
    rw [inPrefix_iff mP.1, inPrefix_iff mQ.1]
    unfold Covers
    rw [← hl]
    exact ⟨fun x => this.symm.trans x, fun x => this.trans x⟩

/-- one allocation -/
theorem alloc_step {space reserved : IPSet α} (hs : space.Reachable) (hr : reserved.Reachable) (n : Nat) (hn : n ≤ width α)
    (hU : UniqueBlocks (fun x => space.has x ∧ ¬ reserved.has x)) :
    (space.findAvailablePrefix (.set reserved) n = .err ∧
      numOf (fun x => space.has x ∧ ¬ reserved.has x) < blockSize α n) ∨
    ∃ p, space.findAvailablePrefix (.set reserved) n = .ok p ∧ p.WF ∧ p.len = n ∧
      (reserved.union (.prefix p)).Reachable ∧
      UniqueBlocks (fun x => space.has x ∧ ¬ (reserved.union (.prefix p)).has x) ∧
      numOf (fun x => space.has x ∧ ¬ (reserved.union (.prefix p)).has x) + blockSize α n =
        numOf (fun x => space.has x ∧ ¬ reserved.has x) := by
  have hm : ∀ P : Prefix α, MaxFree space (.set reserved) P ↔
      P.WF ∧ MaxIn P (fun x => space.has x ∧ ¬ reserved.has x) := fun P => by
    rw [maxFree_iff space (.set reserved) hs hr]
    have e : (fun x => Mem space.trie x ∧ ¬ Mem (SetI.set reserved).toSet.trie x) =
        (fun x => space.has x ∧ ¬ reserved.has x) := by
      funext x; rw [hs.has_iff, hr.has_iff]; rfl
    rw [e]
  rcases C22_bestFit space (.set reserved) n hs hr hn (by simp) with ⟨h1, h2⟩ | ⟨p, B, h1, h2, h3, h4, h5, h6⟩
  · refine .inl ⟨h1, hU.few n hn fun q hq hmq => ?_⟩
    apply Nat.lt_of_not_le
    intro hle
    refine h2 ⟨q.addr, n⟩ hn rfl fun a ha => ?_
    rw [inPrefix_iff (p := ⟨q.addr, n⟩) hn] at ha
    exact hmq.1 a (Agree.mono ha hle)
  · obtain ⟨_, hpw, hfree⟩ := C21_sound_partial space (.set reserved) n hs hr hn p h1
    have hBm := (hm B).mp h2
    have hcov : Covers B p.addr := by
      rw [← inPrefix_iff hBm.1]
      unfold InPrefix
      rw [h5, Nat.mul_div_cancel _ (show 0 < blockSize α B.len from Nat.pow_pos (by decide))]
    have e : ∀ x, (space.has x ∧ ¬ (reserved.union (.prefix p)).has x) ↔
        ((space.has x ∧ ¬ reserved.has x) ∧ ¬ Covers p x) := fun x => by
      rw [C09_union _ (.prefix p) hr hpw, C08_prefix p hpw, inPrefix_iff hpw]
      exact ⟨fun ⟨a, b⟩ => ⟨⟨a, fun c => b (.inl c)⟩, fun c => b (.inr c)⟩,
        fun ⟨⟨a, b⟩, c⟩ => ⟨a, fun d => d.elim b c⟩⟩
    refine .inr ⟨p, h1, hpw, h4, .union _ (SetI.prefix p).toSet hr (.prefix p hpw), ?_, ?_⟩
    · have : (fun x => space.has x ∧ ¬ (reserved.union (.prefix p)).has x) =
          (fun x => (space.has x ∧ ¬ reserved.has x) ∧ ¬ Covers p x) := funext fun x => propext (e x)
      rw [this]
      refine hU.take hBm.2 (by omega) hcov fun q hq hl hmq => h6 q ((hm q).mpr ⟨hq, hmq⟩) (by omega)
    · rw [← h4, ← numOf_prefix hpw, ← numOf_or fun x h => (by rw [e x] at h; exact h.2)]
      refine numOf_congr fun x => ?_
      rw [e x]
      constructor
      · rintro (h | h)
        · exact h.1
        · exact hfree x ((inPrefix_iff hpw).mpr h)
      · intro h
        by_cases hc : Covers p x
        · exact .inr hc
        · exact .inl ⟨h, hc⟩

/-- requests only -/
def onlyAlloc (ns : List Nat) : List PoolCall := ns.map .alloc

/-- the numbers of addresses handed out -/
def Pool.used (pool : Pool α) : Nat := (pool.given.map fun p => blockSize α p.len).sum

theorem alloc_run {space : IPSet α} (hs : space.Reachable) (ns : List Nat) (hc : ∀ n ∈ ns, n ≤ width α)
    (pool : Pool α) (hr : pool.reserved.Reachable) (hU : UniqueBlocks (fun x => space.has x ∧ ¬ pool.reserved.has x)) :
    (pool.run space (onlyAlloc ns)).reserved.Reachable ∧
    UniqueBlocks (fun x => space.has x ∧ ¬ (pool.run space (onlyAlloc ns)).reserved.has x) ∧
    numOf (fun x => space.has x ∧ ¬ (pool.run space (onlyAlloc ns)).reserved.has x) +
        (pool.run space (onlyAlloc ns)).used =
      numOf (fun x => space.has x ∧ ¬ pool.reserved.has x) + pool.used := by
  induction ns generalizing pool with
  | nil => exact ⟨hr, hU, rfl⟩
  | cons n ns ih =>
    have ih := ih (fun m hm => hc m (List.mem_cons_of_mem _ hm))
    have e : pool.run space (onlyAlloc (n :: ns)) = (pool.step space (.alloc n)).run space (onlyAlloc ns) := rfl
    rw [e]
    rcases alloc_step hs hr n (hc n List.mem_cons_self) hU with ⟨h1, _⟩ | ⟨p, h1, h2, h3, h4, h5, h6⟩
    · have e : pool.step space (.alloc n) = pool := by simp only [Pool.step, h1]
      rw [e]
      exact ih pool hr hU
    · have e : pool.step space (.alloc n) = ⟨pool.reserved.union (.prefix p), p :: pool.given⟩ := by
        simp only [Pool.step, h1]
      rw [e]
      obtain ⟨i1, i2, i3⟩ := ih ⟨pool.reserved.union (.prefix p), p :: pool.given⟩ h4 h5
      refine ⟨i1, i2, i3.trans ?_⟩
      simp only [Pool.used, List.map_cons, List.sum_cons, h3]
      omega

/-- While nothing is released, space is not fragmented: if at the start no two maximal free blocks have the same
    size, then after any requests, a request is answered iff there are enough free addresses at all. -/
theorem C55_noFragmentation (space r0 : IPSet α) (hs : space.Reachable) (hr : r0.Reachable) (h0 : NoTwins space r0)
    (ns : List Nat) (hc : ∀ n ∈ ns, n ≤ width α) (n : Nat) (hn : n ≤ width α) :
    let pool := Pool.run space ⟨r0, []⟩ (onlyAlloc ns)
    (∃ p, space.findAvailablePrefix (.set pool.reserved) n = .ok p) ↔
      pool.used + blockSize α n ≤ numOf (fun a => space.has a ∧ ¬ r0.has a) := by
  intro pool
  obtain ⟨h1, h2, h3⟩ := alloc_run hs ns hc ⟨r0, []⟩ hr ((noTwins_iff hs hr).mp h0)
  have h3 : numOf (fun x => space.has x ∧ ¬ pool.reserved.has x) + pool.used =
      numOf (fun x => space.has x ∧ ¬ r0.has x) + 0 := h3
  rcases alloc_step hs h1 n hn h2 with ⟨g1, g2⟩ | ⟨p, g1, _, _, _, _, g6⟩
  · have g2 : numOf (fun x => space.has x ∧ ¬ pool.reserved.has x) < blockSize α n := g2
    constructor
    · rintro ⟨p, hp⟩
      have : space.findAvailablePrefix (.set pool.reserved) n = .err := g1
      rw [this] at hp; cases hp
    · intro h; omega
  · have g6 : numOf (fun x => space.has x ∧ ¬ (pool.reserved.union (.prefix p)).has x) + blockSize α n =
      numOf (fun x => space.has x ∧ ¬ pool.reserved.has x) := g6
    exact ⟨fun _ => by omega, fun _ => ⟨p, g1⟩⟩

/-- In particular, for a space that is one prefix: a request is answered iff the prefixes handed out and the
    requested one together are not larger than the space. -/
theorem C55_onePrefix (P : Prefix α) (hP : P.WF) (ns : List Nat) (hc : ∀ n ∈ ns, n ≤ width α) (n : Nat) (hn : n ≤ width α) :
    let space : IPSet α := (SetI.prefix P).toSet
    let pool := Pool.run space ⟨IPSet.empty, []⟩ (onlyAlloc ns)
    (∃ p, space.findAvailablePrefix (.set pool.reserved) n = .ok p) ↔
      (pool.given.map fun p => blockSize α p.len).sum + blockSize α n ≤ blockSize α P.len := by
  intro space pool
  have hs : space.Reachable := .prefix P hP
  have hhas : ∀ a, (space.has a ∧ ¬ (IPSet.empty : IPSet α).has a) ↔ Covers P a := fun a => by
    have := C08_prefix P hP a
    rw [inPrefix_iff hP] at this
    exact ⟨fun h => this.mp h.1, fun h => ⟨this.mpr h, not_has_empty a⟩⟩
  have h0 : NoTwins space IPSet.empty := by
    rw [noTwins_iff hs .empty]
    have e : (fun x => space.has x ∧ ¬ (IPSet.empty : IPSet α).has x) = Covers P := funext fun x => propext (hhas x)
    rw [e]
    -- the only maximal prefix is P
    have key : ∀ Q : Prefix α, Q.WF → MaxIn Q (Covers P) → Q.len = P.len ∧ Agree P.len P.addr Q.addr := by
      rintro Q hQ ⟨h1, h2⟩
      have hc : Covers P Q.addr := h1 _ (Covers.self Q)
      have hle : Q.len ≤ P.len := by
        apply Nat.le_of_not_lt
        intro hlt
        exact h2 P hlt hc fun x hx => hx
      refine ⟨?_, hc⟩
      apply Nat.le_antisymm hle
      have h3 : numOf (Covers Q) ≤ numOf (Covers P) := numOf_mono h1
      rw [numOf_prefix hQ, numOf_prefix hP, blockSize, blockSize] at h3
      have := (Nat.pow_le_pow_iff_right (by decide : 1 < 2)).mp h3
      have : P.len ≤ width α := hP
      have : Q.len ≤ width α := hQ
      omega
    intro Q R hQ hR mQ mR hl
    obtain ⟨q1, q2⟩ := key Q hQ mQ
    obtain ⟨_, r2⟩ := key R hR mR
    rw [q1]
    exact q2.symm.trans r2
  have h := C55_noFragmentation space IPSet.empty hs .empty h0 ns hc n hn
  have e : numOf (fun a => space.has a ∧ ¬ (IPSet.empty : IPSet α).has a) = blockSize α P.len := by
    rw [numOf_congr hhas, numOf_prefix hP]
  rw [e] at h
  exact h

end

/-! ### the hypotheses are met -/

/-- 10.0.0.0/24 with 10.0.0.0/30 handed out before: a history with a request, a release and another request -/
example : (SetI.prefix (⟨0x0a000000#32, 24⟩ : Prefix (BitVec 32))).toSet.Reachable ∧
    (SetI.prefix (⟨0x0a000000#32, 30⟩ : Prefix (BitVec 32))).toSet.Reachable ∧
    (∀ n, PoolCall.alloc n ∈ [.alloc 26, .alloc 31, .release 1, .alloc 25] → n ≤ width (BitVec 32)) :=
  ⟨.prefix _ (by decide), .prefix _ (by decide), fun n h => by
    simp only [List.mem_cons, PoolCall.alloc.injEq, reduceCtorEq, List.not_mem_nil, or_false, false_or] at h
    show n ≤ 32
    omega⟩

/-- From 10.0.0.0/24, a /25 and a /26 are handed out: then a /26 is left, but no /25. -/
example : let space : IPSet (BitVec 32) := (SetI.prefix ⟨0x0a000000#32, 24⟩).toSet
    let pool := Pool.run space ⟨IPSet.empty, []⟩ (onlyAlloc [26, 25])
    pool.given.map (·.len) = [25, 26] ∧
    (∃ p, space.findAvailablePrefix (.set pool.reserved) 26 = .ok p) ∧
    ¬ ∃ p, space.findAvailablePrefix (.set pool.reserved) 25 = .ok p := by
  intro space pool
  have hw : width (BitVec 32) = 32 := rfl
  have hP : (⟨0x0a000000#32, 24⟩ : Prefix (BitVec 32)).WF := by decide
  have step : ∀ ns n, (∀ m ∈ ns, m ≤ 32) → n ≤ 32 →
      ((Pool.run space ⟨IPSet.empty, []⟩ (onlyAlloc ns)).given.map fun p => blockSize (BitVec 32) p.len).sum +
        blockSize (BitVec 32) n ≤ 256 →
      ((Pool.run space ⟨IPSet.empty, []⟩ (onlyAlloc (ns ++ [n]))).given.map (·.len)) =
        n :: (Pool.run space ⟨IPSet.empty, []⟩ (onlyAlloc ns)).given.map (·.len) := by
    intro ns n hns hn hle
    obtain ⟨p, hp⟩ := (C55_onePrefix ⟨0x0a000000#32, 24⟩ hP ns hns n hn).mpr hle
    have e : Pool.run space ⟨IPSet.empty, []⟩ (onlyAlloc (ns ++ [n])) =
        Pool.step space (Pool.run space ⟨IPSet.empty, []⟩ (onlyAlloc ns)) (.alloc n) := by
      simp [Pool.run, onlyAlloc, List.foldl_append]
    have hr := ((PoolInv.start space IPSet.Reachable.empty).run (.prefix _ hP) (onlyAlloc ns) (fun m hm => by
      simp only [onlyAlloc, List.mem_map, PoolCall.alloc.injEq, exists_eq_right] at hm
      exact hns m hm)).reach
    obtain ⟨hl, _⟩ := C21_sound_partial space (.set _) n (.prefix _ hP) hr hn p hp
    have hp : space.findAvailablePrefix (.set (Pool.run space ⟨IPSet.empty, []⟩ (onlyAlloc ns)).reserved) n = .ok p := hp
    rw [e]
    simp only [Pool.step, hp, List.map_cons, hl]
  have h1 := step [] 26 (fun m hm => by cases hm) (by omega) (by decide)
  have h1 : (Pool.run space ⟨IPSet.empty, []⟩ (onlyAlloc [26])).given.map (·.len) = [26] := h1
  have used : ∀ L : List (Prefix (BitVec 32)), (L.map fun p => blockSize (BitVec 32) p.len) =
      (L.map (·.len)).map (blockSize (BitVec 32)) := fun L => by simp
  have h2 := step [26] 25 (fun m hm => by simp at hm; omega) (by omega) (by rw [used, h1]; decide)
  rw [h1] at h2
  have h2 : pool.given.map (·.len) = [25, 26] := h2
  have hns : ∀ m ∈ [26, 25], m ≤ width (BitVec 32) := fun m hm => by simp at hm; omega
  refine ⟨h2, ?_, ?_⟩
  · refine (C55_onePrefix ⟨0x0a000000#32, 24⟩ hP [26, 25] hns 26 (by omega)).mpr ?_
    show (pool.given.map _).sum + _ ≤ _
    rw [used, h2]; decide
  · intro h
    have := (C55_onePrefix ⟨0x0a000000#32, 24⟩ hP [26, 25] hns 25 (by omega)).mp h
    have : (pool.given.map fun p => blockSize (BitVec 32) p.len).sum + blockSize (BitVec 32) 25 ≤
      blockSize (BitVec 32) 24 := this
    rw [used, h2] at this
    revert this
    decide

end Addrs

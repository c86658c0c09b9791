import Verif.PropSetCount
/-
  C19: exactly what WalkAddresses does, also for sets that hold 255.255.255.255.
-/
set_option linter.unusedSectionVars false
namespace Addrs
open GoWord LawfulGoWord

/-- the body of `WalkAddresses` for one prefix -/
def walkStep {σ : Type} (fuel : Nat) (cb : BitVec 32 → σ → σ × Bool) (p : Prefix (BitVec 32)) (x : σ × Bool) : (σ × Bool) × Bool :=
  match p.walkAddresses fuel cb x.1 with
  | (st', none) => ((st', true), false)
  | (st', some b) => ((st', false), b)

/-- and what it makes of the results -/
def walkDone {σ : Type} : (σ × Bool) × Bool → σ × Option Bool
  | ((st', true), _) => (st', none)
  | ((st', false), b) => (st', some b)

theorem walkAddresses_steps {σ : Type} (s : IPSet (BitVec 32)) (fuel : Nat) (cb : BitVec 32 → σ → σ × Bool) (st : σ) :
    s.walkAddresses fuel cb st = walkDone (visit (walkStep fuel cb) s.trie.prefixes (st, false)) := by
  simp only [IPSet.walkAddresses, IPSet.walkPrefixes_eq]
  rfl

theorem walkAddrLoop_more {σ : Type} (cb : BitVec 32 → σ → σ × Bool) (hi : BitVec 32) : ∀ (f f' : Nat) (a : BitVec 32) (st : σ) {st' : σ} {b : Bool},
    f ≤ f' → walkAddrLoop cb hi f a st = (st', some b) → walkAddrLoop cb hi f' a st = (st', some b) := by
  intro f
  induction f with
  | zero => intro f' a st st' b _ h; simp [walkAddrLoop] at h
  | succ f ih =>
    intro f' a st st' b hf h
    cases f' with
    | zero => omega
    | succ f' =>
      rw [walkAddrLoop] at h ⊢
      split
      · rename_i hlt; rw [if_pos hlt] at h; exact h
      · rename_i hlt
        rw [if_neg hlt] at h
        cases hc : cb a st with
        | mk s1 b1 =>
          rw [hc] at h
          cases b1 with
          | false => exact h
          | true => exact ih f' _ _ (by omega) h

/-- The bound on the number of iterations is only that: if a walk is over within `f` iterations per prefix, a larger
    bound changes nothing. -/
theorem C19_bound {σ : Type} (s : IPSet (BitVec 32)) (cb : BitVec 32 → σ → σ × Bool) (st st' : σ) (b : Bool) (f f' : Nat)
    (hf : f ≤ f') (h : s.walkAddresses f cb st = (st', some b)) : s.walkAddresses f' cb st = (st', some b) := by
  rw [walkAddresses_steps] at *
  generalize s.trie.prefixes = ps at *
  induction ps generalizing st with
  | nil => exact h
  | cons p ps ih =>
    simp only [visit] at h ⊢
    cases hx : p.walkAddresses f cb st with
    | mk s1 o =>
      cases o with
      | none => simp [walkStep, hx, walkDone] at h
      | some b1 =>
        have hx' : p.walkAddresses f' cb st = (s1, some b1) := walkAddrLoop_more cb _ f f' _ _ hf hx
        have e : walkStep f cb p (st, false) = ((s1, false), b1) := by simp only [walkStep, hx]
        have e' : walkStep f' cb p (st, false) = ((s1, false), b1) := by simp only [walkStep, hx']
        rw [e] at h
        rw [e']
        cases b1 with
        | false => exact h
        | true => exact ih s1 h

/-- the loop whose last address is 255.255.255.255 -/
theorem walkAddrLoop_max {σ : Type} (cb : BitVec 32 → σ → σ × Bool) : ∀ (fuel n : Nat) (st : σ),
    walkAddrLoop cb (BitVec.allOnes 32) fuel (BitVec.ofNat 32 n) st =
      ((visit cb ((List.range' n fuel).map (BitVec.ofNat 32)) st).1,
        if (visit cb ((List.range' n fuel).map (BitVec.ofNat 32)) st).2 then none else some false) := by
  intro fuel
  induction fuel with
  | zero => intro n st; rfl
  | succ fuel ih =>
    intro n st
    rw [walkAddrLoop]
    have h1 : ¬ (BitVec.allOnes 32).toNat < (BitVec.ofNat 32 n).toNat := by
      have := (BitVec.ofNat 32 n).isLt
      simp only [BitVec.toNat_allOnes]; omega
    simp only [h1, if_false, List.range'_succ, List.map_cons, visit]
    cases cb (BitVec.ofNat 32 n) st with
    | mk s1 b =>
      cases b with
      | false => rfl
      | true =>
        simp only
        have e : BitVec.ofNat 32 n + 1#32 = BitVec.ofNat 32 (n + 1) := by
          apply BitVec.eq_of_toNat_eq
          simp [BitVec.toNat_add]
        rw [e, ih]

theorem walk_prefixes {σ : Type} {ps : List (Prefix (BitVec 32))} (hw : ∀ p ∈ ps, p.WF)
    (hmax : ∀ p ∈ ps, p.broadcast.addr.toNat < 2 ^ 32 - 1) (fuel : Nat) (hf : 2 ^ 32 < fuel) (cb : BitVec 32 → σ → σ × Bool) (st : σ) :
    visit (walkStep fuel cb) ps (st, false) =
      (((visit cb (ps.flatMap Prefix.addresses) st).1, false), (visit cb (ps.flatMap Prefix.addresses) st).2) := by
  induction ps generalizing st with
  | nil => rfl
  | cons p ps ih =>
    have hp := Prefix.walkAddresses_eq (hw p (List.mem_cons_self ..)) (hmax p (List.mem_cons_self ..)) fuel hf cb st
    have e : walkStep fuel cb p (st, false) = (((visit cb p.addresses st).1, false), (visit cb p.addresses st).2) := by
      simp only [walkStep, hp]
    rw [List.flatMap_cons, visit_append]
    simp only [visit, e, Trie.andThen]
    cases hb : (visit cb p.addresses st).2 with
    | false => simp
    | true =>
      simp only [if_true]
      exact ih (fun q hq => hw q (List.mem_cons_of_mem _ hq)) (fun q hq => hmax q (List.mem_cons_of_mem _ hq)) _

/-- a walk that only the callback can end -/
def endless {σ : Type} (r : σ × Bool) : σ × Option Bool := (r.1, if r.2 then none else some false)

/-- A set that holds 255.255.255.255: `WalkAddresses` visits the addresses of the set in ascending order, each once, and then
    goes on with 0.0.0.0, 0.0.0.1, ... (all addresses, round and round), until the callback returns false.  So it is right for a callback
    that returns false at an address of the set, and never returns if the callback always returns true. -/
theorem C19_exact_partial (s : IPSet (BitVec 32)) (hs : s.Reachable) (hmax : s.has (BitVec.allOnes 32)) :
    ∃ L : List (BitVec 32), (L.Pairwise fun a b => a.toNat < b.toNat) ∧ (∀ a, a ∈ L ↔ s.has a) ∧
      ∃ n, n ≤ 2 ^ 32 ∧ ∀ (σ : Type) (cb : BitVec 32 → σ → σ × Bool) (st : σ) (fuel : Nat), 2 ^ 32 < fuel →
        let r := visit cb (L ++ (List.range (fuel - n)).map (BitVec.ofNat 32)) st
        s.walkAddresses fuel cb st = (r.1, if r.2 then none else some false) := by
  have hw := hs.inv.prefixes_wf
  have hsort := hs.inv.sorted
  refine ⟨s.trie.prefixes.flatMap Prefix.addresses, ?_, fun a => ?_, ?_⟩
  · rw [List.pairwise_flatMap]
    refine ⟨fun p hp => addresses_sorted (hw p hp), ?_⟩
    refine hsort.imp_of_mem fun {p q} hp hq h x hx y hy => ?_
    exact h x y ((mem_addresses (hw p hp)).mp hx) ((mem_addresses (hw q hq)).mp hy)
  · rw [hs.has_iff, hs.inv.mem_iff, List.mem_flatMap]
    constructor
    · rintro ⟨p, hp, h⟩; exact ⟨p, hp, (mem_addresses (hw p hp)).mp h⟩
    · rintro ⟨p, hp, h⟩; exact ⟨p, hp, (mem_addresses (hw p hp)).mpr h⟩
  · rw [hs.has_iff, hs.inv.mem_iff] at hmax
    obtain ⟨p, hp, hc⟩ := hmax
    obtain ⟨A, B, hAB⟩ := List.append_of_mem hp
    rw [hAB] at hsort hw
    rw [List.pairwise_append, List.pairwise_cons] at hsort
    obtain ⟨-, ⟨hpB, -⟩, hAp⟩ := hsort
    have top : ∀ x : BitVec 32, ¬ (BitVec.allOnes 32).toNat < x.toNat := by
      intro x; have := x.isLt; simp only [BitVec.toNat_allOnes]; omega
    have hB : B = [] := by
      cases B with
      | nil => rfl
      | cons q B =>
        exact absurd (hpB q List.mem_cons_self _ _ hc (Covers.self q)) (top _)
    subst hB
    have wp : p.WF := hw p (by simp)
    have hlast : p.broadcast.addr = BitVec.allOnes 32 := by
      apply BitVec.eq_of_toNat_eq
      have h2 := (covers_iff_range wp).mp hc
      have h3 : (BitVec.allOnes 32).toNat ≤ p.broadcast.addr.toNat := h2.2
      have := p.broadcast.addr.isLt
      simp only [BitVec.toNat_allOnes] at h3 ⊢
      omega
    have hA : ∀ q ∈ A, q.broadcast.addr.toNat < 2 ^ 32 - 1 := by
      intro q hq
      have := hAp q hq p List.mem_cons_self _ _ (covers_broadcast_addr (hw q (by simp [hq]))) hc
      have h : q.broadcast.addr.toNat < (BitVec.allOnes 32).toNat := this
      simpa only [BitVec.toNat_allOnes] using h
    have h1 := toNat_network wp
    have h2 := toNat_broadcast wp
    have ew : width (BitVec 32) = 32 := rfl
    rw [ew] at h1 h2
    have hpow : 2 ^ (32 - p.len) ≤ 2 ^ 32 := Nat.pow_le_pow_right (by omega) (by omega)
    have hpos : 0 < 2 ^ (32 - p.len) := Nat.pow_pos (by omega)
    refine ⟨2 ^ (32 - p.len), hpow, fun σ cb st fuel hf => ?_⟩
    simp only
    change _ = endless (visit cb _ st)
    rw [walkAddresses_steps, hAB, visit_append, walk_prefixes (fun q hq => hw q (by simp [hq])) hA fuel hf]
    rw [List.flatMap_append, List.append_assoc, visit_append]
    simp only [Trie.andThen]
    by_cases hb : (visit cb (A.flatMap Prefix.addresses) st).2 = true
    case neg => rw [if_neg hb, if_neg hb]; simp [walkDone, endless]
    case pos =>
      rw [if_pos hb, if_pos hb]
      simp only [visit, List.flatMap_cons, List.flatMap_nil, List.append_nil]
      generalize (visit cb (A.flatMap Prefix.addresses) st).1 = st1
      have hn : p.network.addr.toNat + 2 ^ (32 - p.len) = 2 ^ 32 := by
        have e1 : toNat p.network.addr = p.network.addr.toNat := rfl
        have e2 : toNat p.broadcast.addr = p.broadcast.addr.toNat := rfl
        have e3 : p.broadcast.addr.toNat = 2 ^ 32 - 1 := by rw [hlast, BitVec.toNat_allOnes]
        omega
      have hlist : (List.range' p.network.addr.toNat fuel).map (BitVec.ofNat 32) =
          p.addresses ++ (List.range (fuel - 2 ^ (32 - p.len))).map (BitVec.ofNat 32) := by
        have e : fuel = 2 ^ (32 - p.len) + (fuel - 2 ^ (32 - p.len)) := by omega
        conv => lhs; rw [e, ← List.range'_append_1]
        rw [List.map_append, hn]
        congr 1
        apply List.ext_getElem (by simp)
        intro i h1 h2
        simp only [List.getElem_map, List.getElem_range', List.getElem_range]
        apply BitVec.eq_of_toNat_eq
        simp
      have hloop := walkAddrLoop_max cb fuel p.network.addr.toNat st1
      rw [BitVec.ofNat_toNat, BitVec.setWidth_eq, hlist] at hloop
      generalize visit cb (p.addresses ++ (List.range (fuel - 2 ^ (32 - p.len))).map (BitVec.ofNat 32)) st1 = rr at hloop ⊢
      obtain ⟨s2, b2⟩ := rr
      have e : walkStep fuel cb p (st1, false) = if b2 then ((s2, true), false) else ((s2, false), false) := by
        simp only [walkStep, Prefix.walkAddresses, hlast, hloop]
        cases b2 <;> rfl
      rw [e]
      cases b2 <;> rfl

/-- In particular: a callback that returns false at some address of the set is called for the right addresses. -/
theorem C19_stopped (s : IPSet (BitVec 32)) (hs : s.Reachable) :
    ∃ L : List (BitVec 32), (L.Pairwise fun a b => a.toNat < b.toNat) ∧ (∀ a, a ∈ L ↔ s.has a) ∧
      ∀ (σ : Type) (cb : BitVec 32 → σ → σ × Bool) (st : σ) (fuel : Nat), 2 ^ 32 < fuel → (visit cb L st).2 = false →
        s.walkAddresses fuel cb st = ((visit cb L st).1, some false) := by
  by_cases hmax : s.has (BitVec.allOnes 32)
  · obtain ⟨L, h1, h2, n, hn, h⟩ := C19_exact_partial s hs hmax
    refine ⟨L, h1, h2, fun σ cb st fuel hf hv => ?_⟩
    rw [h σ cb st fuel hf, visit_append, Trie.andThen, hv]
    simp
  · obtain ⟨L, h, h1, h2⟩ := C19_walkAddresses_partial s hs hmax
    refine ⟨L, h1, h2, fun σ cb st fuel hf hv => ?_⟩
    rw [h σ cb st fuel hf, hv]

/-- … and on every set that holds 255.255.255.255, a callback that always returns true is called for ever. -/
theorem C19_never_ends_any (s : IPSet (BitVec 32)) (hs : s.Reachable) (hmax : s.has (BitVec.allOnes 32)) {σ : Type}
    (cb : BitVec 32 → σ → σ × Bool) (hcb : ∀ a x, (cb a x).2 = true) (st : σ) (fuel : Nat) : (s.walkAddresses fuel cb st).2 = none := by
  obtain ⟨L, h1, h2, n, hn, h⟩ := C19_exact_partial s hs hmax
  cases hx : s.walkAddresses fuel cb st with
  | mk st' o =>
    cases o with
    | none => rfl
    | some b =>
      exfalso
      have hb := C19_bound s cb st st' b fuel (max fuel (2 ^ 32 + 1)) (Nat.le_max_left ..) hx
      rw [h σ cb st _ (by have := Nat.le_max_right fuel (2 ^ 32 + 1); omega)] at hb
      have all : ∀ (xs : List (BitVec 32)) (st : σ), (visit cb xs st).2 = true := by
        intro xs
        induction xs with
        | nil => intro st; rfl
        | cons x xs ih =>
          intro st
          simp only [visit]
          have := hcb x st
          cases hc : cb x st with
          | mk s1 b1 => rw [hc] at this; simp only at this; subst this; exact ih s1
      rw [all] at hb
      cases hb

/-! ### the hypotheses are met -/

/-- a set that holds the last address and more -/
example : ∃ s : IPSet (BitVec 32), s.Reachable ∧ s.has (BitVec.allOnes 32) ∧ s.has 0x0a000000#32 ∧ ¬ s.has 0#32 := by
  refine ⟨(SetI.prefix (⟨0xffffff00#32, 24⟩ : Prefix (BitVec 32))).toSet.union (.address 0x0a000000#32),
    .union _ (SetI.address 0x0a000000#32).toSet (.prefix _ (by decide)) (.address _), ?_, ?_, ?_⟩
  · rw [C09_union _ (.address _) (.prefix _ (by decide)) trivial, C08_prefix _ (by decide)]
    left; unfold InPrefix; decide
  · rw [C09_union _ (.address _) (.prefix _ (by decide)) trivial, C08_address]
    right; rfl
  · rw [C09_union _ (.address _) (.prefix _ (by decide)) trivial, C08_address, C08_prefix _ (by decide)]
    unfold InPrefix; decide

end Addrs

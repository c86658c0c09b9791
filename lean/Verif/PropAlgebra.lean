import Verif.PropContains
/-
  Properties C51 (laws of the set algebra, taking sets apart and putting them together again),
  C52 (a history of Insert/Remove calls on a Set_) and C53 (NumAddresses of combined sets).
-/
set_option linter.unusedSectionVars false
namespace Addrs
open GoWord LawfulGoWord
open SetNode

section
variable {α : Type} [LawfulIPFamily α]

/-- the same addresses -/
def SameAddresses (s t : IPSet α) : Prop := ∀ a, s.has a ↔ t.has a

theorem has_union' {s t : IPSet α} (hs : s.Reachable) (ht : t.Reachable) (a : α) :
    (s.union (.set t)).has a ↔ s.has a ∨ t.has a := C09_union s (.set t) hs ht a
theorem has_inter' {s t : IPSet α} (hs : s.Reachable) (ht : t.Reachable) (a : α) :
    (s.intersection (.set t)).has a ↔ s.has a ∧ t.has a := C10_intersection s (.set t) hs ht a
theorem has_diff' {s t : IPSet α} (hs : s.Reachable) (ht : t.Reachable) (a : α) :
    (s.difference (.set t)).has a ↔ s.has a ∧ ¬ t.has a := C11_difference s (.set t) hs ht a
theorem not_has_empty (a : α) : ¬ (IPSet.empty : IPSet α).has a := C12_nil a

/-- The laws of the algebra of sets, up to the addresses of the results. -/
theorem C51_laws (s t u : IPSet α) (hs : s.Reachable) (ht : t.Reachable) (hu : u.Reachable) :
    SameAddresses (s.union (.set t)) (t.union (.set s)) ∧
    SameAddresses (s.intersection (.set t)) (t.intersection (.set s)) ∧
    SameAddresses ((s.union (.set t)).union (.set u)) (s.union (.set (t.union (.set u)))) ∧
    SameAddresses ((s.intersection (.set t)).intersection (.set u)) (s.intersection (.set (t.intersection (.set u)))) ∧
    SameAddresses (s.union (.set s)) s ∧ SameAddresses (s.intersection (.set s)) s ∧
    SameAddresses (s.union (.set IPSet.empty)) s ∧ SameAddresses (s.intersection (.set IPSet.empty)) IPSet.empty ∧
    SameAddresses (s.union (.set (s.intersection (.set t)))) s ∧
    SameAddresses (s.intersection (.set (s.union (.set t)))) s ∧
    SameAddresses (s.intersection (.set (t.union (.set u))))
      ((s.intersection (.set t)).union (.set (s.intersection (.set u)))) ∧
    SameAddresses (s.union (.set (t.intersection (.set u))))
      ((s.union (.set t)).intersection (.set (s.union (.set u)))) ∧
    SameAddresses (s.difference (.set (t.union (.set u)))) ((s.difference (.set t)).intersection (.set (s.difference (.set u)))) ∧
    SameAddresses (s.difference (.set (t.intersection (.set u)))) ((s.difference (.set t)).union (.set (s.difference (.set u)))) ∧
    SameAddresses ((s.difference (.set t)).difference (.set u)) (s.difference (.set (t.union (.set u)))) ∧
    SameAddresses ((s.difference (.set t)).union (.set (s.intersection (.set t)))) s ∧
    SameAddresses (s.difference (.set s)) IPSet.empty ∧ (s.difference (.set s)).isEmpty = true := by
  have he : (IPSet.empty : IPSet α).Reachable := .empty
  have st := IPSet.Reachable.union _ _ hs ht
  have tu := IPSet.Reachable.union _ _ ht hu
  have su := IPSet.Reachable.union _ _ hs hu
  have ist := IPSet.Reachable.intersection _ _ hs ht
  have itu := IPSet.Reachable.intersection _ _ ht hu
  have isu := IPSet.Reachable.intersection _ _ hs hu
  have dst := IPSet.Reachable.difference _ _ hs ht
  have dsu := IPSet.Reachable.difference _ _ hs hu
  have dss := IPSet.Reachable.difference _ _ hs hs
  refine ⟨?_, ?_, ?_, ?_, ?_, ?_, ?_, ?_, ?_, ?_, ?_, ?_, ?_, ?_, ?_, ?_, ?_, ?_⟩
  · intro a; rw [has_union' hs ht, has_union' ht hs]; exact or_comm
  · intro a; rw [has_inter' hs ht, has_inter' ht hs]; exact and_comm
  · intro a; rw [has_union' st hu, has_union' hs ht, has_union' hs tu, has_union' ht hu]; exact or_assoc
  · intro a; rw [has_inter' ist hu, has_inter' hs ht, has_inter' hs itu, has_inter' ht hu]; exact and_assoc
  · intro a; rw [has_union' hs hs]; exact or_self_iff
  · intro a; rw [has_inter' hs hs]; exact and_self_iff
  · intro a; rw [has_union' hs he]; simp [not_has_empty]
  · intro a; rw [has_inter' hs he]; simp [not_has_empty]
  · intro a; rw [has_union' hs ist, has_inter' hs ht]
    exact ⟨fun h => h.elim id And.left, Or.inl⟩
  · intro a; rw [has_inter' hs st, has_union' hs ht]
    exact ⟨And.left, fun h => ⟨h, Or.inl h⟩⟩
  · intro a; rw [has_inter' hs tu, has_union' ht hu, has_union' ist isu, has_inter' hs ht, has_inter' hs hu]
    exact and_or_left
  · intro a; rw [has_union' hs itu, has_inter' ht hu, has_inter' st su, has_union' hs ht, has_union' hs hu]
    exact or_and_left
  · intro a; rw [has_diff' hs tu, has_union' ht hu, has_inter' dst dsu, has_diff' hs ht, has_diff' hs hu]
    constructor
    · rintro ⟨h, hn⟩; exact ⟨⟨h, fun x => hn (.inl x)⟩, h, fun x => hn (.inr x)⟩
    · rintro ⟨⟨h, h1⟩, _, h2⟩; exact ⟨h, fun x => x.elim h1 h2⟩
  · intro a; rw [has_diff' hs itu, has_inter' ht hu, has_union' dst dsu, has_diff' hs ht, has_diff' hs hu]
    constructor
    · rintro ⟨h, hn⟩
      by_cases x : t.has a
      · exact .inr ⟨h, fun y => hn ⟨x, y⟩⟩
      · exact .inl ⟨h, x⟩
    · rintro (⟨h, hn⟩ | ⟨h, hn⟩)
      · exact ⟨h, fun x => hn x.1⟩
      · exact ⟨h, fun x => hn x.2⟩
  · intro a; rw [has_diff' dst hu, has_diff' hs ht, has_diff' hs tu, has_union' ht hu]
    constructor
    · rintro ⟨⟨h, h1⟩, h2⟩; exact ⟨h, fun x => x.elim h1 h2⟩
    · rintro ⟨h, hn⟩; exact ⟨⟨h, fun x => hn (.inl x)⟩, fun x => hn (.inr x)⟩
  · intro a; rw [has_union' dst ist, has_diff' hs ht, has_inter' hs ht]
    by_cases x : t.has a <;> simp [x]
  · intro a; rw [has_diff' hs hs]
    exact ⟨fun h => absurd h.1 h.2, fun h => absurd h (not_has_empty a)⟩
  · rw [C12_isEmpty _ dss]; intro a; rw [has_diff' hs hs]; exact fun h => h.2 h.1

/-- For sets made without host bits (C13) results with the same addresses are `Equal`; in general they
    report the same prefixes in the same order, up to the host bits of prefixes the caller put in (C14). -/
theorem C51_equal (s t : IPSet α) :
    (s.Tidy → t.Tidy → SameAddresses s t → s.equal t = true) ∧
    (s.Reachable → t.Reachable → SameAddresses s t → ∀ (σ : Type) (cb : Prefix α → σ → σ × Bool) (st : σ),
      s.walkPrefixes (fun p => cb p.network) st = t.walkPrefixes (fun p => cb p.network) st) :=
  ⟨fun hs ht h => (C13_equal_tidy_partial s t hs ht).mpr h, fun hs ht h _ cb st => C14_walk s t hs ht h cb st⟩

/-! ### histories of a `Set_` -/

/-- a call that changes a `Set_` -/
inductive SetCall (α : Type) where
  | insert (i : SetI α)
  | remove (i : SetI α)

/-- the argument -/
def SetCall.arg : SetCall α → SetI α
  | .insert i => i
  | .remove i => i

/-- ipv4/set.go:49-59 `Insert` and ipv4/set.go:64-74 `Remove`: the set of the object after the call.
    (That the heap code computes this, also in the presence of other goroutines, is C34–C37.) -/
def SetCall.apply (s : IPSet α) : SetCall α → IPSet α
  | .insert i => s.union i
  | .remove i => s.difference i

/-- the calls one after another -/
def SetCall.run (s : IPSet α) (calls : List (SetCall α)) : IPSet α := calls.foldl SetCall.apply s

theorem SetCall.run_reachable {s : IPSet α} (hs : s.Reachable) (calls : List (SetCall α))
    (hv : ∀ c ∈ calls, c.arg.Valid) : (SetCall.run s calls).Reachable := by
  induction calls generalizing s with
  | nil => exact hs
  | cons c cs ih =>
    refine ih ?_ fun c' hc => hv c' (List.mem_cons_of_mem _ hc)
    have hc := (hv c List.mem_cons_self).reachable
    cases c with
    | insert i => exact IPSet.Reachable.union s i.toSet hs hc
    | remove i => exact IPSet.Reachable.difference s i.toSet hs hc

/-- After any history of calls, an address is in the set iff the last call whose argument (that is the
    set that the argument's method `Set` returns) holds it was an Insert, or it was there from the start and no
    call's argument holds it.  For all arguments, also the ranges of C08. -/
theorem C52_history_any (s : IPSet α) (hs : s.Reachable) (calls : List (SetCall α))
    (hv : ∀ c ∈ calls, c.arg.Valid) (a : α) :
    (SetCall.run s calls).has a ↔
      (∃ before i after, calls = before ++ .insert i :: after ∧ i.toSet.has a ∧ ∀ c ∈ after, ¬ c.arg.toSet.has a) ∨
      (s.has a ∧ ∀ c ∈ calls, ¬ c.arg.toSet.has a) := by
  -- by induction from the back
  obtain ⟨n, hn⟩ : ∃ n, calls.length = n := ⟨_, rfl⟩
  induction n generalizing calls with
  | zero =>
    have : calls = [] := List.length_eq_zero_iff.mp hn
    subst this
    constructor
    · intro h; exact .inr ⟨h, fun c hc => by cases hc⟩
    · rintro (⟨b, i, c, h, _⟩ | h)
      · cases b <;> simp at h
      · exact h.1
  | succ n ih =>
    obtain ⟨cs, c, rfl⟩ : ∃ cs c, calls = cs ++ [c] :=
      ⟨calls.dropLast, calls.getLast (by intro h; simp [h] at hn), (List.dropLast_concat_getLast _).symm⟩
    have hl : cs.length = n := by simpa using hn
    have hv' : ∀ c ∈ cs, c.arg.Valid := fun c' h => hv c' (List.mem_append_left _ h)
    have hvc := hv c (List.mem_append_right _ List.mem_cons_self)
    have ih := ih cs hv' hl
    have hr := SetCall.run_reachable hs cs hv'
    have e : SetCall.run s (cs ++ [c]) = SetCall.apply (SetCall.run s cs) c := by
      simp [SetCall.run, List.foldl_append]
    rw [e]
    have hold : c.arg.toSet.has a ↔ c.arg.toSet.has a := Iff.rfl
    -- the last call's argument holds the address or not
    have split_last : ∀ {before : List (SetCall α)} {i after}, cs ++ [c] = before ++ SetCall.insert i :: after →
        (after = [] ∧ c = .insert i ∧ before = cs) ∨ ∃ after', after = after' ++ [c] ∧ cs = before ++ .insert i :: after' := by
      intro before i after h
      rcases List.eq_nil_or_concat after with rfl | ⟨a', x, rfl⟩
      · left
        have h' : cs ++ [c] = before ++ [SetCall.insert i] := h
        obtain ⟨h1, h2⟩ := List.append_inj' h' rfl
        exact ⟨rfl, by simpa using h2, h1.symm⟩
      · right
        have h' : cs ++ [c] = (before ++ SetCall.insert i :: a') ++ [x] := by simpa using h
        obtain ⟨h1, h2⟩ := List.append_inj' h' rfl
        simp only [List.cons.injEq, and_true] at h2
        subst h2
        exact ⟨a', by simp, h1⟩
    by_cases hh : c.arg.toSet.has a
    · cases c with
      | insert i =>
        rw [SetCall.apply, C09_union _ i hr hvc]
        refine ⟨fun _ => .inl ⟨cs, i, [], rfl, hh, fun c hc => by cases hc⟩, fun _ => .inr (hold.mpr hh)⟩
      | remove i =>
        rw [SetCall.apply, C11_difference _ i hr hvc]
        constructor
        · rintro ⟨_, h⟩; exact absurd (hold.mpr hh) h
        · rintro (⟨b, j, c, h, h1, h2⟩ | ⟨_, h⟩)
          · rcases split_last h with ⟨_, h, _⟩ | ⟨a', rfl, _⟩
            · cases h
            · exact absurd hh (h2 (.remove i) (by simp))
          · exact absurd hh (h (.remove i) (by simp))
    · have h1 : (SetCall.apply (SetCall.run s cs) c).has a ↔ (SetCall.run s cs).has a := by
        cases c with
        | insert i =>
          rw [SetCall.apply, C09_union _ i hr hvc]
          exact ⟨fun h => h.elim id fun h => absurd (hold.mp h) hh, Or.inl⟩
        | remove i =>
          rw [SetCall.apply, C11_difference _ i hr hvc]
          exact ⟨And.left, fun h => ⟨h, fun x => hh (hold.mp x)⟩⟩
      rw [h1, ih]
      constructor
      · rintro (⟨b, i, d, rfl, hi, hd⟩ | ⟨h2, h3⟩)
        · refine .inl ⟨b, i, d ++ [c], by simp, hi, fun x hx => ?_⟩
          rcases List.mem_append.mp hx with h | h
          · exact hd x h
          · simp only [List.mem_cons, List.not_mem_nil, or_false] at h; subst h; exact hh
        · refine .inr ⟨h2, fun x hx => ?_⟩
          rcases List.mem_append.mp hx with h | h
          · exact h3 x h
          · simp only [List.mem_cons, List.not_mem_nil, or_false] at h; subst h; exact hh
      · rintro (⟨b, i, d, h, hi, hd⟩ | ⟨h2, h3⟩)
        · rcases split_last h with ⟨_, hc, _⟩ | ⟨a', rfl, hcs⟩
          · subst hc; exact absurd hi hh
          · exact .inl ⟨b, i, a', hcs, hi, fun x hx => hd x (List.mem_append_left _ hx)⟩
        · exact .inr ⟨h2, fun x hx => h3 x (List.mem_append_left _ hx)⟩

/-- The same in terms of the arguments themselves: an address holds itself, a prefix and a range what lies in
    them (ranges that C08 shows to be converted wrongly apart), a set its members. -/
theorem C52_history (s : IPSet α) (hs : s.Reachable) (calls : List (SetCall α))
    (hv : ∀ c ∈ calls, c.arg.Valid) (hx : ∀ c ∈ calls, c.arg.Exact) (a : α) :
    (SetCall.run s calls).has a ↔
      (∃ before i after, calls = before ++ .insert i :: after ∧ i.Holds a ∧ ∀ c ∈ after, ¬ c.arg.Holds a) ∨
      (s.has a ∧ ∀ c ∈ calls, ¬ c.arg.Holds a) := by
  rw [C52_history_any s hs calls hv a]
  have e : ∀ c ∈ calls, (c.arg.toSet.has a ↔ c.arg.Holds a) := fun c hc => SetI.has_iff (hv c hc) (hx c hc) a
  constructor
  · rintro (⟨b, i, d, rfl, hi, hd⟩ | ⟨h, h'⟩)
    · refine .inl ⟨b, i, d, rfl, (e (.insert i) (by simp)).mp hi, fun c hc hh => hd c hc ((e c (by simp [hc])).mpr hh)⟩
    · exact .inr ⟨h, fun c hc hh => h' c hc ((e c hc).mpr hh)⟩
  · rintro (⟨b, i, d, rfl, hi, hd⟩ | ⟨h, h'⟩)
    · refine .inl ⟨b, i, d, rfl, (e (.insert i) (by simp)).mpr hi, fun c hc hh => hd c hc ((e c (by simp [hc])).mp hh)⟩
    · exact .inr ⟨h, fun c hc hh => h' c hc ((e c hc).mp hh)⟩

/-! ### taking a set apart and putting it together again -/

/-- insert everything `WalkPrefixes` reports into an empty `Set_` -/
def IPSet.rebuildPrefixes (s : IPSet α) : IPSet α :=
  (s.walkPrefixes (fun p (t : IPSet α) => (SetCall.apply t (.insert (.prefix p)), true)) IPSet.empty).1

/-- insert everything `WalkRanges` reports into an empty `Set_` -/
def IPSet.rebuildRanges (s : IPSet α) : IPSet α :=
  (s.walkRanges (fun r (t : IPSet α) => (SetCall.apply t (.insert (.range r)), true)) IPSet.empty).1

theorem visit_insert {β : Type} (f : β → SetI α) (L : List β) (hL : ∀ b ∈ L, (f b).Valid) :
    ∀ t : IPSet α, t.Reachable →
      (visit (fun b (t : IPSet α) => (SetCall.apply t (.insert (f b)), true)) L t).1.Reachable ∧
      ∀ a, (visit (fun b (t : IPSet α) => (SetCall.apply t (.insert (f b)), true)) L t).1.has a ↔
        t.has a ∨ ∃ b ∈ L, (f b).toSet.has a := by
  induction L with
  | nil => intro t ht; exact ⟨ht, fun a => by simp [visit]⟩
  | cons b L ih =>
    intro t ht
    have hb := hL b List.mem_cons_self
    have ht' : (t.union (f b)).Reachable := .union t (f b).toSet ht hb.reachable
    obtain ⟨h1, h2⟩ := ih (fun c hc => hL c (List.mem_cons_of_mem _ hc)) _ ht'
    refine ⟨h1, fun a => ?_⟩
    refine (h2 a).trans ?_
    rw [C09_union _ _ ht hb]
    simp only [List.mem_cons, exists_eq_or_imp, or_assoc]

/-- A set is what its prefixes say: putting the prefixes of `WalkPrefixes` into an empty set gives the same
    addresses back (and an `Equal` set, if no host bits were put in, C13). -/
theorem C51_rebuild_prefixes (s : IPSet α) (hs : s.Reachable) :
    SameAddresses s.rebuildPrefixes s ∧ s.rebuildPrefixes.Reachable := by
  obtain ⟨L, h1, _, h3, h4⟩ := C16_walkPrefixes s hs
  rw [IPSet.rebuildPrefixes, h1]
  obtain ⟨r1, r2⟩ := visit_insert (fun p => SetI.prefix p) L (fun p hp => (h4 p hp).1) IPSet.empty .empty
  refine ⟨fun a => ?_, r1⟩
  rw [r2, h3]
  constructor
  · rintro (h | ⟨p, hp, h⟩)
    · exact absurd h (not_has_empty a)
    · exact ⟨p, hp, (C08_prefix p (h4 p hp).1 a).mp h⟩
  · rintro ⟨p, hp, h⟩; exact .inr ⟨p, hp, (C08_prefix p (h4 p hp).1 a).mpr h⟩

/-- `r` is one of the maximal runs of consecutive addresses of `s` -/
def IsRun (s : IPSet α) (r : Range α) : Prop :=
  r.Valid ∧ (∀ a, InRange r a → s.has a) ∧
    ∀ a, s.has a → toNat a + 1 ≠ toNat r.first ∧ toNat a ≠ toNat r.last + 1

/-- Full statement: the same for `WalkRanges` and every set.  Missing: sets one of whose maximal runs C08
    shows to be converted wrongly (`C51_rebuild_ranges_counterexample`). -/
theorem C51_rebuild_ranges_partial (s : IPSet α) (hs : s.Reachable) :
    (∀ a, s.has a → s.rebuildRanges.has a) ∧
    ((∀ r : Range α, IsRun s r → ¬ BadRange r) → SameAddresses s.rebuildRanges s) := by
  obtain ⟨L, h1, h2, h3, h4⟩ := C18_walkRanges s hs
  rw [IPSet.rebuildRanges, h1]
  obtain ⟨_, r2⟩ := visit_insert (fun r => SetI.range r) L h2 IPSet.empty .empty
  refine ⟨fun a ha => ?_, fun hg a => ?_⟩
  · obtain ⟨r, hr, h⟩ := (h4 a).mp ha
    exact (r2 a).mpr (.inr ⟨r, hr, C08_range_superset r (h2 r hr) a h⟩)
  · rw [r2, h4]
    have good : ∀ r ∈ L, ¬ BadRange r := fun r hr => by
      refine hg r ⟨h2 r hr, fun a ha => (h4 a).mpr ⟨r, hr, ha⟩, fun a ha => ?_⟩
      obtain ⟨r', hr', ha⟩ := (h4 a).mp ha
      have hv := h2 r hr
      have hv' := h2 r' hr'
      unfold InRange at ha
      unfold Range.Valid at hv hv'
      by_cases e : r = r'
      · subst e; omega
      · have hsep : toNat r.last + 1 < toNat r'.first ∨ toNat r'.last + 1 < toNat r.first := by
          have hp := List.pairwise_iff_getElem.mp h3
          obtain ⟨i, hi, rfl⟩ := List.getElem_of_mem hr
          obtain ⟨j, hj, rfl⟩ := List.getElem_of_mem hr'
          rcases Nat.lt_trichotomy i j with h | h | h
          · exact .inl (hp i j hi hj h)
          · subst h; exact absurd rfl e
          · exact .inr (hp j i hj hi h)
        omega
    constructor
    · rintro (h | ⟨r, hr, h⟩)
      · exact absurd h (not_has_empty a)
      · exact ⟨r, hr, (C08_range_partial r (h2 r hr) (good r hr) a).mp h⟩
    · rintro ⟨r, hr, h⟩; exact .inr ⟨r, hr, C08_range_superset r (h2 r hr) a h⟩

end

/-- {10.0.0.1, 10.0.0.2}: WalkRanges reports one range, and the set made from it holds 10.0.0.0 too. -/
theorem C51_rebuild_ranges_counterexample :
    let s : IPSet (BitVec 32) := (SetI.address 0x0a000001#32).toSet.union (.address 0x0a000002#32)
    s.Reachable ∧ ¬ s.has (0x0a000000#32) ∧ s.rebuildRanges.has (0x0a000000#32) := by
  intro s
  have hs : s.Reachable := .union _ (SetI.address 0x0a000002#32).toSet (.address _) (.address _)
  have hh : ∀ a, s.has a ↔ a = 0x0a000001#32 ∨ a = 0x0a000002#32 := fun a => by
    have h := C09_union (SetI.address 0x0a000001#32).toSet (SetI.address 0x0a000002#32) (.address _) trivial a
    rw [C08_address, C08_address] at h
    exact h.trans (or_congr eq_comm eq_comm)
  refine ⟨hs, ?_, ?_⟩
  · rw [hh]; decide
  · obtain ⟨L, h1, h2, h3, h4⟩ := C18_walkRanges s hs
    rw [IPSet.rebuildRanges, h1]
    obtain ⟨_, r2⟩ := visit_insert (fun r => SetI.range r) L h2 IPSet.empty .empty
    rw [r2]
    right
    -- the range that holds 10.0.0.1 holds 10.0.0.2, too
    obtain ⟨r, hr, ha⟩ := (h4 (0x0a000001#32)).mp ((hh _).mpr (.inl rfl))
    have hv := h2 r hr
    obtain ⟨r', hr', ha'⟩ := (h4 (0x0a000002#32)).mp ((hh _).mpr (.inr rfl))
    have hv' := h2 r' hr'
    have e1 : toNat (0x0a000001#32) = 167772161 := by decide
    have e2 : toNat (0x0a000002#32) = 167772162 := by decide
    unfold InRange at ha ha'
    rw [e1] at ha
    rw [e2] at ha'
    have e : r = r' := by
      refine Classical.byContradiction fun hne => ?_
      have hp := List.pairwise_iff_getElem.mp h3
      obtain ⟨i, hi, rfl⟩ := List.getElem_of_mem hr
      obtain ⟨j, hj, rfl⟩ := List.getElem_of_mem hr'
      rcases Nat.lt_trichotomy i j with h | h | h
      · have := hp i j hi hj h; omega
      · subst h; exact hne rfl
      · have := hp j i hj hi h; omega
    subst e
    have m1 := (hh r.first).mp ((h4 _).mpr ⟨r, hr, Nat.le_refl _, hv⟩)
    have m2 := (hh r.last).mp ((h4 _).mpr ⟨r, hr, hv, Nat.le_refl _⟩)
    have f1 : r.first = 0x0a000001#32 := by
      rcases m1 with h | h
      · exact h
      · rw [h, e2] at ha; omega
    have f2 : r.last = 0x0a000002#32 := by
      rcases m2 with h | h
      · rw [h, e1] at ha'; omega
      · exact h
    refine ⟨r, hr, ?_⟩
    have e : r = ⟨0x0a000001#32, 0x0a000002#32⟩ := by cases r; simp_all
    rw [e]
    exact C49_range_counterexample.2.1

/-! ### counting -/

open Classical in
/-- Inclusion and exclusion: the numbers of addresses of a union, intersection and difference. -/
theorem C53_count (s t : IPSet (BitVec 32)) (hs : s.Reachable) (ht : t.Reachable) :
    (s.union (.set t)).numAddresses.toNat + (s.intersection (.set t)).numAddresses.toNat =
      s.numAddresses.toNat + t.numAddresses.toNat ∧
    (s.difference (.set t)).numAddresses.toNat + (s.intersection (.set t)).numAddresses.toNat =
      s.numAddresses.toNat := by
  have key : ∀ (p q r u : Nat → Bool) (L : List Nat), (∀ k, r k = (p k || q k)) → (∀ k, u k = (p k && q k)) →
      L.countP r + L.countP u = L.countP p + L.countP q := by
    intro p q r u L hr hu
    induction L with
    | nil => rfl
    | cons k L ih =>
      simp only [List.countP_cons, hr, hu]
      cases p k <;> cases q k <;> simp <;> omega
  have key' : ∀ (p q r u : Nat → Bool) (L : List Nat), (∀ k, r k = (p k && !q k)) → (∀ k, u k = (p k && q k)) →
      L.countP r + L.countP u = L.countP p := by
    intro p q r u L hr hu
    induction L with
    | nil => rfl
    | cons k L ih =>
      simp only [List.countP_cons, hr, hu]
      cases p k <;> cases q k <;> simp <;> omega
  rw [(C15_numAddresses _ (.union _ _ hs ht)).1, (C15_numAddresses _ (.intersection _ _ hs ht)).1,
    (C15_numAddresses _ (.difference _ _ hs ht)).1, (C15_numAddresses _ hs).1, (C15_numAddresses _ ht).1]
  constructor
  · apply key <;> intro k
    · simp only [has_union' hs ht, Bool.decide_or]
    · simp only [has_inter' hs ht, Bool.decide_and]
  · apply key' (q := fun k => decide (t.has (BitVec.ofNat 32 k))) <;> intro k
    · simp only [has_diff' hs ht, Bool.decide_and, decide_not]
    · simp only [has_inter' hs ht, Bool.decide_and]

/-- Monotonicity: a set that contains another has at least as many addresses, and as many only if they hold
    the same addresses. -/
theorem C53_monotone (s t : IPSet (BitVec 32)) (hs : s.Reachable) (ht : t.Reachable) (h : s.contains (.set t) = true) :
    t.numAddresses.toNat ≤ s.numAddresses.toNat ∧
    (t.numAddresses = s.numAddresses → ∀ a, s.has a ↔ t.has a) := by
  have hsub := (C12_contains s (.set t) hs ht).mp h
  have hc := (C53_count s t hs ht).2
  have hd := IPSet.Reachable.difference _ _ hs ht
  have hi := IPSet.Reachable.intersection _ _ hs ht
  have e : (s.intersection (.set t)).numAddresses.toNat = t.numAddresses.toNat := by
    classical
    rw [(C15_numAddresses _ hi).1, (C15_numAddresses _ ht).1]
    apply List.countP_congr
    intro k _
    simp only [decide_eq_true_iff]
    rw [has_inter' hs ht]
    exact ⟨And.right, fun x => ⟨hsub _ x, x⟩⟩
  refine ⟨by omega, fun heq a => ⟨fun ha => ?_, fun ha => hsub a ha⟩⟩
  refine Classical.byContradiction fun hn => ?_
  have h0 : (s.difference (.set t)).numAddresses.toNat = 0 := by rw [heq] at e; omega
  classical
  rw [(C15_numAddresses _ hd).1, List.countP_eq_zero] at h0
  refine h0 a.toNat (List.mem_range.mpr a.isLt) ?_
  rw [decide_eq_true_iff, has_diff' hs ht, BitVec.ofNat_toNat, BitVec.setWidth_eq]
  exact ⟨ha, hn⟩

/-! ### the hypotheses are met -/

/-- three different reachable sets -/
example : (SetI.prefix (⟨0x0a000000#32, 24⟩ : Prefix (BitVec 32))).toSet.Reachable ∧
    ((SetI.prefix (⟨0x0a000000#32, 24⟩ : Prefix (BitVec 32))).toSet.difference (.address 0x0a000007#32)).Reachable ∧
    (SetI.range (⟨0x0a000080#32, 0x0a0000ff#32⟩ : Range (BitVec 32))).toSet.Reachable := by
  refine ⟨.prefix _ (by decide), .difference _ (SetI.address 0x0a000007#32).toSet (.prefix _ (by decide)) (.address _), ?_⟩
  exact SetI.Valid.reachable (i := .range _) (by simp only [SetI.Valid, Range.Valid]; decide)

/-- a history of `C52_history`: 10.0.0.7 is put in with its /24, taken out and put in again -/
example : (SetCall.run (IPSet.empty : IPSet (BitVec 32))
    [.insert (.prefix ⟨0x0a000000#32, 24⟩), .remove (.address 0x0a000007#32), .insert (.address 0x0a000007#32),
      .remove (.prefix ⟨0x0a000080#32, 25⟩)]).has 0x0a000007#32 := by
  rw [C52_history _ .empty]
  · refine .inl ⟨[.insert (.prefix ⟨0x0a000000#32, 24⟩), .remove (.address 0x0a000007#32)], .address 0x0a000007#32,
      [.remove (.prefix ⟨0x0a000080#32, 25⟩)], rfl, rfl, fun c hc => ?_⟩
    simp only [List.mem_cons, List.not_mem_nil, or_false] at hc
    subst hc
    simp only [SetCall.arg, SetI.Holds, InPrefix]
    decide
  · intro c hc
    simp only [List.mem_cons, List.not_mem_nil, or_false] at hc
    rcases hc with rfl | rfl | rfl | rfl <;> first | trivial | (simp only [SetCall.arg, SetI.Valid]; decide)
  · intro c hc
    simp only [List.mem_cons, List.not_mem_nil, or_false] at hc
    rcases hc with rfl | rfl | rfl | rfl <;> trivial

/-- ... and 10.0.0.200, that the last call takes out, is not there -/
example : ¬ (SetCall.run (IPSet.empty : IPSet (BitVec 32))
    [.insert (.prefix ⟨0x0a000000#32, 24⟩), .remove (.prefix ⟨0x0a000080#32, 25⟩)]).has 0x0a0000c8#32 := by
  have h1 : ((IPSet.empty : IPSet (BitVec 32)).union (.prefix ⟨0x0a000000#32, 24⟩)).Reachable :=
    .union _ (SetI.prefix ⟨0x0a000000#32, 24⟩).toSet .empty (.prefix _ (by decide))
  have h2 := C11_difference _ (.prefix ⟨0x0a000080#32, 25⟩) h1 (by simp only [SetI.Valid]; decide) 0x0a0000c8#32
  intro h
  refine (h2.mp h).2 ((C08_prefix _ (by decide) _).mpr ?_)
  unfold InPrefix
  decide

/-- a set that contains another, for `C53_monotone` -/
example : ((SetI.prefix (⟨0x0a000000#32, 24⟩ : Prefix (BitVec 32))).toSet).contains
    (.set (SetI.prefix (⟨0x0a000080#32, 25⟩ : Prefix (BitVec 32))).toSet) = true := by
  rw [C12_contains _ (.set _) (.prefix _ (by decide)) (.prefix _ (by decide))]
  intro a
  show (SetI.prefix _).toSet.has a → _
  rw [C08_prefix _ (by decide), C08_prefix _ (by decide)]
  unfold InPrefix
  have e1 : blockSize (BitVec 32) 24 = 256 := by decide
  have e2 : blockSize (BitVec 32) 25 = 128 := by decide
  have e3 : toNat (0x0a000080#32) = 167772288 := by decide
  have e4 : toNat (0x0a000000#32) = 167772160 := by decide
  rw [e1, e2, e3, e4]
  omega

end Addrs

import Verif.FindAvail
import Verif.SetWalks
/-
  Properties C08–C22 and C46 (sets), for both address families.  Every statement is about the API
  functions of `Verif/SetApi.lean` and the vocabulary of `Verif/Spec.lean`.
-/
namespace Addrs
open GoWord LawfulGoWord

/-! ### sample values used to show that hypotheses can be met -/
namespace Sample
/-- 10.0.0.0/8 -/
def p8 : Prefix (BitVec 32) := ⟨0x0a000000#32, 8⟩
/-- 10.1.0.0/16 -/
def p16 : Prefix (BitVec 32) := ⟨0x0a010000#32, 16⟩
/-- [10.0.0.5, 10.0.0.20] -/
def r : Range (BitVec 32) := ⟨0x0a000005#32, 0x0a000014#32⟩
/-- 2001:db8::/32 -/
def q32 : Prefix U128 := ⟨⟨0x20010db800000000, 0⟩, 32⟩
/-- 10.0.0.0/8 minus 10.1.0.0/16 plus a range: a set with several prefixes -/
def s : IPSet (BitVec 32) :=
  ((SetI.prefix p8).toSet.difference (.set (SetI.prefix p16).toSet)).union (.set (SetI.range r).toSet)
theorem s_reachable : s.Reachable :=
  .union _ _ (.difference _ _ (.prefix _ (by decide)) (.prefix _ (by decide)))
    (.range _ (by show (0x0a000005#32).toNat ≤ (0x0a000014#32).toNat; decide))
def t6 : IPSet U128 := (SetI.prefix q32).toSet.union (.set (SetI.address ⟨1, 2⟩).toSet)
theorem t6_reachable : t6.Reachable := .union _ _ (.prefix _ (by decide)) (.address _)
end Sample

section
variable {α : Type} [LawfulIPFamily α]
open SetNode

/-! ### C08 -/

theorem C08_address (a b : α) : (SetI.address a).toSet.has b ↔ a = b := by
  rw [(IPSet.Reachable.address a).has_iff]; exact mem_address

theorem C08_prefix (p : Prefix α) (hp : p.WF) (a : α) : (SetI.prefix p).toSet.has a ↔ InPrefix p a := by
  rw [(IPSet.Reachable.prefix p hp).has_iff, inPrefix_iff hp]; exact mem_fromPrefix

example : (SetI.prefix Sample.p8).toSet.has (0x0a0b0c0d#32) ∧
    ¬ (SetI.prefix Sample.p8).toSet.has (0x0b000000#32) := by
  rw [C08_prefix _ (by decide), C08_prefix _ (by decide)]
  simp only [InPrefix]; decide

/-- Full statement: the same without the hypothesis `¬ BadRange r`.  It is false
    (`C08_range_counterexample`); `C08_range_exact_iff` says exactly for which ranges it holds. -/
theorem C08_range_partial (r : Range α) (hr : r.Valid) (hb : ¬ BadRange r) (a : α) :
    (SetI.range r).toSet.has a ↔ InRange r a := by
  rw [(IPSet.Reachable.range r hr).has_iff]; exact (fromRange_good hr hb).2 a

/-- A valid range's set is exact iff the range's ends are not symmetric inside (but not at the ends
    of) an aligned block. -/
theorem C08_range_exact_iff (r : Range α) (hr : r.Valid) :
    (∀ a, (SetI.range r).toSet.has a ↔ InRange r a) ↔ ¬ BadRange r := by
  constructor
  · intro h hb
    obtain ⟨x, h1, h2⟩ := fromRange_bad_mem hb
    have := (h x).mp ((IPSet.Reachable.range r hr).has_iff.mpr h1)
    have := this.1
    omega
  · exact fun hb a => C08_range_partial r hr hb a

/-- What the set of a range is when it is not exact: the whole aligned block. -/
theorem C08_range_bad_block (r : Range α) (hr : r.Valid) (hb : BadRange r) :
    ∃ k, k ≤ width α ∧ toNat r.first / 2 ^ k = toNat r.last / 2 ^ k ∧
      ∀ a, (SetI.range r).toSet.has a ↔ toNat a / 2 ^ k = toNat r.first / 2 ^ k := by
  refine ⟨width α - lz (xor r.first r.last), by omega, ?_, fun a => ?_⟩
  · exact (agree_iff_div (lz_le _)).mp (lz_xor_agree _ _)
  · rw [(IPSet.Reachable.range r hr).has_iff]
    show Mem (fromRange r) a ↔ _
    rw [fromRange_bad hb, mem_fromPrefix]
    rw [Covers, agree_iff_div (lz_le _), eq_comm]

/-- No address of the range is ever missing. -/
theorem C08_range_superset (r : Range α) (hr : r.Valid) (a : α) (ha : InRange r a) :
    (SetI.range r).toSet.has a := by
  by_cases hb : BadRange r
  · obtain ⟨k, _, h1, h2⟩ := C08_range_bad_block r hr hb
    rw [h2]
    have g1 := Nat.div_le_div_right (c := 2 ^ k) ha.1
    have g2 := Nat.div_le_div_right (c := 2 ^ k) ha.2
    omega
  · exact (C08_range_partial r hr hb a).mpr ha

/-- the sample range meets the hypotheses of `C08_range_partial` -/
theorem Sample.r_good : ¬ BadRange Sample.r := by
  rintro ⟨k, hk, h1, h2, h3⟩
  have e1 : toNat Sample.r.first = 167772165 := by decide
  have e2 : toNat Sample.r.last = 167772180 := by decide
  rw [e1, e2] at h1 h2
  rw [e1] at h3
  have hk : k ≤ 32 := hk
  have : ∀ k : Fin 33, ¬ (167772165 / 2 ^ k.val = 167772180 / 2 ^ k.val ∧
      167772165 % 2 ^ k.val + 167772180 % 2 ^ k.val = 2 ^ k.val - 1 ∧
      167772165 % 2 ^ k.val ≠ 0) := by decide
  exact this ⟨k, by omega⟩ ⟨h1, h2, h3⟩

theorem Sample.r_valid : Sample.r.Valid := by
  show (0x0a000005#32).toNat ≤ (0x0a000014#32).toNat; decide

end

open SetNode in
/-- [10.0.0.1, 10.0.0.2] is a valid range whose set contains 10.0.0.0 and 10.0.0.3 as well. -/
theorem C08_range_counterexample :
    ¬ ∀ (r : Range (BitVec 32)), r.Valid → ∀ a, ((SetI.range r).toSet.has a ↔ InRange r a) := by
  intro h
  have hr : Range.Valid (⟨0x0a000001#32, 0x0a000002#32⟩ : Range (BitVec 32)) := by
    show (0x0a000001#32).toNat ≤ (0x0a000002#32).toNat; decide
  refine (C08_range_exact_iff _ hr).mp (h _ hr) ⟨2, by decide, by decide, by decide, by decide⟩

/-- the same for IPv6: [::1, ::2] -/
theorem C08_range_counterexample6 :
    ¬ ∀ (r : Range U128), r.Valid → ∀ a, ((SetI.range r).toSet.has a ↔ InRange r a) := by
  intro h
  have hr : Range.Valid (⟨⟨0, 1⟩, ⟨0, 2⟩⟩ : Range U128) := by
    show toNat (⟨0, 1⟩ : U128) ≤ toNat (⟨0, 2⟩ : U128); decide
  refine (C08_range_exact_iff _ hr).mp (h _ hr) ⟨2, by decide, by decide, by decide, by decide⟩

section
variable {α : Type} [LawfulIPFamily α]
open SetNode

/-! ### C09, C10, C11: set algebra -/

theorem C09_union (s : IPSet α) (i : SetI α) (hs : s.Reachable) (hi : i.Valid) (a : α) :
    (s.union i).has a ↔ s.has a ∨ i.toSet.has a := by
  have ht := hi.reachable
  have hu := union_spec hs.inv ht.inv
  rw [IPSet.has_iff (s := s.union i) hu.inv, hs.has_iff, ht.has_iff]
  exact hu.mem a

theorem C10_intersection (s : IPSet α) (i : SetI α) (hs : s.Reachable) (hi : i.Valid) (a : α) :
    (s.intersection i).has a ↔ s.has a ∧ i.toSet.has a := by
  have ht := hi.reachable
  have hu := intersect_spec _ _ hs.inv ht.inv
  rw [IPSet.has_iff (s := s.intersection i) hu.inv, hs.has_iff, ht.has_iff]
  exact hu.mem a

theorem C11_difference (s : IPSet α) (i : SetI α) (hs : s.Reachable) (hi : i.Valid) (a : α) :
    (s.difference i).has a ↔ s.has a ∧ ¬ i.toSet.has a := by
  have ht := hi.reachable
  have hu := difference_spec _ _ hs.inv ht.inv
  rw [IPSet.has_iff (s := s.difference i) hu.inv, hs.has_iff, ht.has_iff]
  exact hu.mem a

/-- the sample set meets the hypotheses, and the theorems determine its addresses -/
theorem Sample.s_has (a : BitVec 32) :
    Sample.s.has a ↔ (InPrefix Sample.p8 a ∧ ¬ InPrefix Sample.p16 a) ∨ InRange Sample.r a := by
  have h8 := IPSet.Reachable.prefix Sample.p8 (by decide)
  have h16 := IPSet.Reachable.prefix Sample.p16 (by decide)
  have hr := IPSet.Reachable.range Sample.r Sample.r_valid
  have e1 := C09_union ((SetI.prefix p8).toSet.difference (.set (SetI.prefix p16).toSet))
    (.set (SetI.range r).toSet) (.difference _ _ h8 h16) hr a
  have e2 := C11_difference (SetI.prefix p8).toSet (.set (SetI.prefix p16).toSet) h8 h16 a
  have e3 := C08_prefix Sample.p8 (by decide) a
  have e4 := C08_prefix Sample.p16 (by decide) a
  have e5 := C08_range_partial Sample.r Sample.r_valid Sample.r_good a
  show (IPSet.union _ _).has a ↔ _
  rw [e1, e2, e3]
  show (_ ∧ ¬ (SetI.prefix p16).toSet.has a) ∨ (SetI.range r).toSet.has a ↔ _
  rw [e4, e5]

example : ¬ Sample.s.has (0x0a010000#32) ∧ Sample.s.has (0x0a020000#32) := by
  rw [Sample.s_has, Sample.s_has]; simp only [InPrefix, InRange]; decide

/-! ### C12 -/

theorem C12_contains (s : IPSet α) (i : SetI α) (hs : s.Reachable) (hi : i.Valid) :
    s.contains i = true ↔ ∀ a, i.toSet.has a → s.has a := by
  have ht := hi.reachable
  rw [IPSet.contains_iff hs.inv ht.inv]
  constructor
  · intro h a; rw [ht.has_iff, hs.has_iff]; exact h a
  · intro h a; rw [← ht.has_iff, ← hs.has_iff]; exact h a

theorem C12_isEmpty (s : IPSet α) (hs : s.Reachable) : s.isEmpty = true ↔ ∀ a, ¬ s.has a := by
  rw [IPSet.isEmpty_iff hs.inv]
  constructor
  · intro h a; rw [hs.has_iff]; exact h a
  · intro h a; rw [← hs.has_iff]; exact h a

/-- `IsEmpty` of the IPv4 package, spelled out: it counts addresses in 64 bits. -/
theorem C12_isEmpty_v4 (s : IPSet (BitVec 32)) (hs : s.Reachable) : s.isEmpty = true ↔ ∀ a, ¬ s.has a :=
  C12_isEmpty s hs

/-- `IsEmpty` of the IPv6 package, spelled out: it looks for an active node. -/
theorem C12_isEmpty_v6 (s : IPSet U128) (hs : s.Reachable) : s.isEmpty = true ↔ ∀ a, ¬ s.has a :=
  C12_isEmpty s hs

/-- `Contains` of the two packages (it ends in the package's `IsEmpty`) -/
theorem C12_contains_v4 (s : IPSet (BitVec 32)) (i : SetI (BitVec 32)) (hs : s.Reachable) (hi : i.Valid) :
    s.contains i = true ↔ ∀ a, i.toSet.has a → s.has a := C12_contains s i hs hi
theorem C12_contains_v6 (s : IPSet U128) (i : SetI U128) (hs : s.Reachable) (hi : i.Valid) :
    s.contains i = true ↔ ∀ a, i.toSet.has a → s.has a := C12_contains s i hs hi

/-- nil is the empty set -/
theorem C12_nil (a : α) : ¬ (SetI.nil : SetI α).toSet.has a := by
  rw [(IPSet.Reachable.empty (α := α)).has_iff (s := (SetI.nil : SetI α).toSet)]
  exact mem_nil

theorem C12_contains_nil (s : IPSet α) (hs : s.Reachable) : s.contains .nil = true :=
  (C12_contains s .nil hs trivial).mpr fun a h => absurd h (C12_nil a)

example : Sample.s.contains (.prefix Sample.p16) = false := by
  have h := C12_contains Sample.s (.prefix Sample.p16) Sample.s_reachable
    (by show Sample.p16.len ≤ 32; decide)
  cases hc : Sample.s.contains (.prefix Sample.p16) with
  | false => rfl
  | true =>
    have h1 := h.mp hc (0x0a01ffff#32) ((C08_prefix _ (by decide) _).mpr (by simp only [InPrefix]; decide))
    rw [Sample.s_has] at h1
    revert h1; simp only [InPrefix, InRange]; decide

/-! ### C13: Equal -/

theorem SetNode.equal_prefixes {a : SetNode α} : ∀ {b : SetNode α}, SetNode.equal a b = true →
    a.prefixes = b.prefixes := by
  induction a with
  | nil => intro b h; cases b with
    | nil => rfl
    | node => cases h
  | node p d n h act l r ihl ihr =>
    intro b hb
    cases b with
    | nil => cases hb
    | node q e n' h' act' l' r' =>
      simp only [SetNode.equal, Trie.equal] at hb
      split at hb
      · cases hb
      · split at hb
        · cases hb
        · split at hb
          · cases hb
          · split at hb
            · cases hb
            · split at hb
              · cases hb
              · rename_i g1 g2 g3 g4 g5
                have e1 : act = act' := by simpa using g1
                have e2 : p = q := by simpa using g2
                have e4 : Trie.equal (fun _ _ => true) l l' = true := by simpa using g4
                have e5 : Trie.equal (fun _ _ => true) r r' = true := by simpa using g5
                have hl := ihl e4
                have hr := ihr e5
                simp only [Trie.prefixes] at hl hr
                subst e1 e2
                simp only [Trie.prefixes, Trie.entries, List.map_append, hl, hr]
                cases act <;> rfl

theorem SetNode.Eqv.equal {a : SetNode α} : ∀ {b : SetNode α}, Eqv a b → a.prefixes = b.prefixes →
    SetNode.equal a b = true := by
  induction a with
  | nil => intro b h _; cases b with
    | nil => rfl
    | node => exact h.elim
  | node p d n h act l r ihl ihr =>
    intro b hb hp
    cases b with
    | nil => exact hb.elim
    | node q e n' h' act' l' r' =>
      obtain ⟨_, _, rfl, h3, h4, h5⟩ := hb
      have hlen : l.prefixes.length = l'.prefixes.length := by
        have : ∀ {a b : SetNode α}, Eqv a b → a.prefixes.length = b.prefixes.length := by
          intro a
          induction a with
          | nil => intro b h; cases b with
            | nil => rfl
            | node => exact h.elim
          | node p d n h act l r ihl ihr =>
            intro b hb
            cases b with
            | nil => exact hb.elim
            | node q e n' h' act' l' r' =>
              obtain ⟨_, _, rfl, _, h4, h5⟩ := hb
              have a1 := ihl h4
              have a2 := ihr h5
              simp only [Trie.prefixes, List.length_map] at a1 a2
              simp only [Trie.prefixes, Trie.entries, List.length_map, List.length_append, a1, a2]
              cases act <;> rfl
        exact this h4
      have hkey : p = q ∧ l.prefixes = l'.prefixes ∧ r.prefixes = r'.prefixes := by
        simp only [Trie.prefixes, Trie.entries, List.map_append] at hp hlen ⊢
        cases act with
        | true =>
          simp only [if_true, List.map_cons, List.map_nil, List.singleton_append,
            List.cons.injEq] at hp
          have := List.append_inj hp.2 hlen
          exact ⟨hp.1, this.1, this.2⟩
        | false =>
          simp only [Bool.false_eq_true, if_false, List.map_nil, List.nil_append] at hp h3
          have := List.append_inj hp hlen
          exact ⟨h3, this.1, this.2⟩
      have e4 := ihl h4 hkey.2.1
      have e5 := ihr h5 hkey.2.2
      simp only [SetNode.equal] at e4 e5
      simp [SetNode.equal, Trie.equal, hkey.1, e4, e5]

/-- `Equal` is true exactly if `WalkPrefixes` visits the same prefixes, host bits included. -/
theorem C13_equal_iff_prefixes (s t : IPSet α) (hs : s.Reachable) (ht : t.Reachable) :
    s.equal t = true ↔
      ∃ L, (∀ (σ : Type) (cb : Prefix α → σ → σ × Bool) (st : σ), s.walkPrefixes cb st = visit cb L st) ∧
        (∀ (σ : Type) (cb : Prefix α → σ → σ × Bool) (st : σ), t.walkPrefixes cb st = visit cb L st) := by
  have hu : ∀ (u : IPSet α) (L : List (Prefix α)),
      (∀ (σ : Type) (cb : Prefix α → σ → σ × Bool) (st : σ), u.walkPrefixes cb st = visit cb L st) →
      u.trie.prefixes = L := by
    intro u L h
    have h1 := h (List (Prefix α)) (fun p st => (st ++ [p], true)) []
    rw [IPSet.walkPrefixes_eq, visit_true, visit_true] at h1
    have hf : ∀ (L A : List (Prefix α)), L.foldl (fun st p => st ++ [p]) A = A ++ L := by
      intro L
      induction L with
      | nil => simp
      | cons x L ih => intro A; simp [ih]
    have := congrArg Prod.fst h1
    simp only [hf, List.nil_append] at this
    exact this
  constructor
  · intro h
    have := equal_prefixes h
    exact ⟨s.trie.prefixes, fun σ cb st => IPSet.walkPrefixes_eq _ _ _,
      fun σ cb st => by rw [this]; exact IPSet.walkPrefixes_eq _ _ _⟩
  · rintro ⟨L, h1, h2⟩
    have e1 := hu s L h1
    have e2 := hu t L h2
    apply Eqv.equal _ (e1.trans e2.symm)
    apply hs.inv.canonical ht.inv
    intro x
    rw [hs.inv.mem_iff, ht.inv.mem_iff, e1, e2]

/-- `Equal` never says true of sets that differ. -/
theorem C13_equal_sound (s t : IPSet α) (hs : s.Reachable) (ht : t.Reachable) (h : s.equal t = true)
    (a : α) : s.has a ↔ t.has a := by
  rw [hs.has_iff, ht.has_iff, hs.inv.mem_iff, ht.inv.mem_iff, equal_prefixes h]

/-- A prefix without host bits. -/
def NoHostBits (p : Prefix α) : Prop := toNat p.addr % blockSize α p.len = 0

/-- Full statement: without the two hypotheses about host bits.  It is false
    (`C13_equal_counterexample`). -/
theorem C13_equal_partial (s t : IPSet α) (hs : s.Reachable) (ht : t.Reachable)
    (ns : ∀ p ∈ s.trie.prefixes, NoHostBits p) (nt : ∀ p ∈ t.trie.prefixes, NoHostBits p) :
    s.equal t = true ↔ ∀ a, (s.has a ↔ t.has a) := by
  refine ⟨fun h a => C13_equal_sound s t hs ht h a, fun h => ?_⟩
  have hE : Eqv s.trie t.trie := hs.inv.canonical ht.inv fun x => by
    rw [← hs.has_iff, ← ht.has_iff]; exact h x
  apply hE.equal
  have hm := hE.prefixes hs.inv.prefixes_wf
  have key : ∀ (L : List (Prefix α)), (∀ p ∈ L, p.WF) → (∀ p ∈ L, NoHostBits p) →
      L.map Prefix.network = L := by
    intro L hw hn
    conv => rhs; rw [← List.map_id L]
    apply List.map_congr_left
    intro p hp
    have hz := (mod_eq_zero_iff (hw p hp)).mp (hn p hp)
    have := eq_network (hw p hp) hz
    cases p; simp only [Prefix.network, id] at *; simp [this]
  rwa [key _ hs.inv.prefixes_wf ns, key _ ht.inv.prefixes_wf nt] at hm

/-- The sets made from addresses, prefixes without host bits and ranges, by any combination of
    unions, intersections and differences.  (Ranges that C08 shows to give a wrong set are left out.) -/
inductive IPSet.Tidy : IPSet α → Prop
  | empty : Tidy IPSet.empty
  | address (a : α) : Tidy (SetI.address a).toSet
  | «prefix» (p : Prefix α) (h : p.WF) (hn : NoHostBits p) : Tidy (SetI.prefix p).toSet
  | range (r : Range α) (h : r.Valid) (hb : ¬ BadRange r) : Tidy (SetI.range r).toSet
  | union (s t : IPSet α) (hs : Tidy s) (ht : Tidy t) : Tidy (s.union (.set t))
  | intersection (s t : IPSet α) (hs : Tidy s) (ht : Tidy t) : Tidy (s.intersection (.set t))
  | difference (s t : IPSet α) (hs : Tidy s) (ht : Tidy t) : Tidy (s.difference (.set t))

theorem IPSet.Tidy.reachable {s : IPSet α} (h : s.Tidy) : s.Reachable := by
  induction h with
  | empty => exact .empty
  | address a => exact .address a
  | «prefix» p h _ => exact .prefix p h
  | range r h _ => exact .range r h
  | union s t _ _ ihs iht => exact .union s t ihs iht
  | intersection s t _ _ ihs iht => exact .intersection s t ihs iht
  | difference s t _ _ ihs iht => exact .difference s t ihs iht

theorem IPSet.Tidy.clean {s : IPSet α} (h : s.Tidy) : s.trie.Clean := by
  induction h with
  | empty => trivial
  | address a => exact clean_fromPrefix (fun i h1 => bit_ge h1)
  | «prefix» p h hn => exact clean_fromPrefix ((mod_eq_zero_iff h).mp hn)
  | range r h hb => exact (fromRange_good' h hb).2.2
  | union s t _ _ ihs iht => exact clean_union ihs iht
  | intersection s t _ _ ihs iht => exact clean_intersect ihs iht
  | difference s t _ _ ihs iht => exact clean_difference ihs iht

theorem IPSet.Tidy.noHostBits {s : IPSet α} (h : s.Tidy) : ∀ p ∈ s.trie.prefixes, NoHostBits p := by
  intro p hp
  have hw := h.reachable.inv.prefixes_wf p hp
  obtain ⟨x, hx, rfl⟩ := List.mem_map.mp hp
  exact (mod_eq_zero_iff hw).mpr (h.clean.entries x hx)

/-- As long as no prefix with host bits is put into them, sets are `Equal` exactly if they have the
    same addresses, however they were made. -/
theorem C13_equal_tidy_partial (s t : IPSet α) (hs : s.Tidy) (ht : t.Tidy) :
    s.equal t = true ↔ ∀ a, (s.has a ↔ t.has a) :=
  C13_equal_partial s t hs.reachable ht.reachable hs.noHostBits ht.noHostBits

/-- No host bits appear out of nowhere: `WalkPrefixes` of such a set reports none. -/
theorem C13_tidy_walk_partial (s : IPSet α) (hs : s.Tidy) :
    ∃ L : List (Prefix α), (∀ p ∈ L, NoHostBits p) ∧
      ∀ (σ : Type) (cb : Prefix α → σ → σ × Bool) (st : σ), s.walkPrefixes cb st = visit cb L st :=
  ⟨s.trie.prefixes, hs.noHostBits, fun _ _ _ => IPSet.walkPrefixes_eq _ _ _⟩

/-- two different ways of writing one set; neither is literally the other -/
example (p : Prefix α) (hp : p.WF) (hn : NoHostBits p) (a : α) :
    ((SetI.prefix p).toSet.union (.set (SetI.address a).toSet)).equal
      ((SetI.address a).toSet.union (.set (SetI.prefix p).toSet)) = true := by
  have h1 : (SetI.prefix p).toSet.Tidy := .prefix p hp hn
  have h2 : (SetI.address a).toSet.Tidy := .address a
  rw [C13_equal_tidy_partial _ _ (.union _ _ h1 h2) (.union _ _ h2 h1)]
  intro x
  rw [C09_union (i := .set _) (hs := h1.reachable) (hi := h2.reachable),
    C09_union (i := .set _) (hs := h2.reachable) (hi := h1.reachable)]
  exact or_comm

/-! ### C14: canonical representation -/

theorem C14_canonical (s t : IPSet α) (hs : s.Reachable) (ht : t.Reachable)
    (h : ∀ a, s.has a ↔ t.has a) :
    s.trie.prefixes.map Prefix.network = t.trie.prefixes.map Prefix.network ∧
      s.trie.nodes = t.trie.nodes ∧ s.trie.height = t.trie.height := by
  have hE : Eqv s.trie t.trie := hs.inv.canonical ht.inv fun x => by
    rw [← hs.has_iff, ← ht.has_iff]; exact h x
  refine ⟨hE.prefixes hs.inv.prefixes_wf, ?_, hE.sizes.2⟩
  generalize s.trie = a at hE
  generalize t.trie = b at hE
  induction a generalizing b with
  | nil => cases b with
    | nil => rfl
    | node => exact hE.elim
  | node p d n h act l r ihl ihr =>
    cases b with
    | nil => exact hE.elim
    | node q e n' h' act' l' r' =>
      obtain ⟨_, _, _, _, h4, h5⟩ := hE
      simp only [Trie.nodes, ihl _ h4, ihr _ h5]

/-- the same, seen through `WalkPrefixes` with a callback that ignores host bits -/
theorem C14_walk (s t : IPSet α) (hs : s.Reachable) (ht : t.Reachable)
    (h : ∀ a, s.has a ↔ t.has a) {σ : Type} (cb : Prefix α → σ → σ × Bool) (st : σ) :
    s.walkPrefixes (fun p => cb p.network) st = t.walkPrefixes (fun p => cb p.network) st := by
  rw [IPSet.walkPrefixes_eq, IPSet.walkPrefixes_eq]
  show visit (fun p => cb p.network) s.trie.prefixes st = visit (fun p => cb p.network) t.trie.prefixes st
  rw [← visit_map Prefix.network cb, ← visit_map Prefix.network cb]
  exact congrArg (fun L => visit cb L st) (C14_canonical s t hs ht h).1

/-- e.g. the two halves of a prefix are stored as the prefix itself: `A ∪ B = B ∪ A` needs no
    particular order of construction -/
example (a b : IPSet α) (ha : a.Reachable) (hb : b.Reachable) :
    (a.union (.set b)).trie.nodes = (b.union (.set a)).trie.nodes :=
  (C14_canonical _ _ (.union _ _ ha hb) (.union _ _ hb ha) fun x => by
    rw [C09_union (i := .set b) (hs := ha) (hi := hb), C09_union (i := .set a) (hs := hb) (hi := ha)]; exact or_comm).2.1

/-! ### C16, C17: WalkPrefixes -/

theorem C16_walkPrefixes (s : IPSet α) (hs : s.Reachable) :
    ∃ L : List (Prefix α),
      (∀ (σ : Type) (cb : Prefix α → σ → σ × Bool) (st : σ), s.walkPrefixes cb st = visit cb L st) ∧
      (L.Pairwise fun p q => ∀ x y, InPrefix p x → InPrefix q y → toNat x < toNat y) ∧
      (∀ a, s.has a ↔ ∃ p ∈ L, InPrefix p a) ∧
      (∀ p ∈ L, p.WF ∧ ∀ P : Prefix α, P.WF → P.len < p.len → InPrefix P p.addr →
        ∃ a, InPrefix P a ∧ ¬ s.has a) := by
  have hw := hs.inv.prefixes_wf
  refine ⟨s.trie.prefixes, fun σ cb st => IPSet.walkPrefixes_eq _ _ _, ?_, fun a => ?_, fun p hp => ?_⟩
  · refine hs.inv.sorted.imp_of_mem fun {p q} hp hq h x y hx hy => ?_
    exact h x y ((inPrefix_iff (hw p hp)).mp hx) ((inPrefix_iff (hw q hq)).mp hy)
  · rw [hs.has_iff, hs.inv.mem_iff]
    constructor
    · rintro ⟨p, hp, h⟩; exact ⟨p, hp, (inPrefix_iff (hw p hp)).mpr h⟩
    · rintro ⟨p, hp, h⟩; exact ⟨p, hp, (inPrefix_iff (hw p hp)).mp h⟩
  · refine ⟨hw p hp, fun P hP hl ha => ?_⟩
    obtain ⟨x, h1, h2⟩ := hs.inv.maximal p hp P hl ((inPrefix_iff hP).mp ha)
    exact ⟨x, (inPrefix_iff hP).mpr h1, fun h => h2 (hs.has_iff.mp h)⟩

/-- the sample set (reachable by `Sample.s_reachable`) is walked as eight prefixes, in order; a callback
    that stops at the third sees three of them -/
example : (Sample.s.walkPrefixes (fun p L => (L ++ [p], true)) []).1 =
      [⟨0x0a000000#32, 16⟩, ⟨0x0a020000#32, 15⟩, ⟨0x0a040000#32, 14⟩, ⟨0x0a080000#32, 13⟩,
       ⟨0x0a100000#32, 12⟩, ⟨0x0a200000#32, 11⟩, ⟨0x0a400000#32, 10⟩, ⟨0x0a800000#32, 9⟩] ∧
    Sample.s.walkPrefixes (fun p L => (L ++ [p], decide (L.length < 2))) [] =
      ([⟨0x0a000000#32, 16⟩, ⟨0x0a020000#32, 15⟩, ⟨0x0a040000#32, 14⟩], false) := by
  decide +kernel

theorem foldl_count {β : Type} (L : List β) (n : Nat) : L.foldl (fun s _ => s + 1) n = n + L.length := by
  induction L generalizing n with
  | nil => rfl
  | cons x L ih => rw [List.foldl_cons, ih, List.length_cons]; omega

/-- the number of prefixes `WalkPrefixes` visits -/
theorem walkPrefixes_count (s : IPSet α) :
    (s.walkPrefixes (fun _ n => (n + 1, true)) 0).1 = s.trie.prefixes.length := by
  rw [IPSet.walkPrefixes_eq, visit_true, foldl_count]
  simp [Trie.prefixes]

theorem C17_minimal (s : IPSet α) (hs : s.Reachable) (L : List (Prefix α)) (hL : ∀ p ∈ L, p.WF)
    (h : ∀ a, s.has a ↔ ∃ p ∈ L, InPrefix p a) :
    (s.walkPrefixes (fun _ n => (n + 1, true)) 0).1 ≤ L.length := by
  rw [walkPrefixes_count]
  apply hs.inv.minimal
  intro x
  rw [← hs.has_iff, h]
  constructor
  · rintro ⟨p, hp, h⟩; exact ⟨p, hp, (inPrefix_iff (hL p hp)).mp h⟩
  · rintro ⟨p, hp, h⟩; exact ⟨p, hp, (inPrefix_iff (hL p hp)).mpr h⟩

/-- the trie of a non-empty set has exactly twice as many nodes as prefixes, minus one -/
theorem C17_nodes (s : IPSet α) (hs : s.Reachable) (a : α) (ha : s.has a) :
    s.trie.nodes + 1 = 2 * (s.walkPrefixes (fun _ n => (n + 1, true)) 0).1 := by
  rw [walkPrefixes_count]
  apply hs.inv.nodes_eq
  intro h
  have := hs.has_iff.mp ha
  rw [h] at this
  exact mem_nil this

/-- eight prefixes, fifteen nodes -/
example : (Sample.s.walkPrefixes (fun _ n => (n + 1, true)) 0).1 = 8 ∧ Sample.s.trie.nodes = 15 := by
  decide +kernel

/-! ### C18: WalkRanges -/

theorem C18_walkRanges (s : IPSet α) (hs : s.Reachable) :
    ∃ L : List (Range α),
      (∀ (σ : Type) (cb : Range α → σ → σ × Bool) (st : σ), s.walkRanges cb st = visit cb L st) ∧
      (∀ r ∈ L, r.Valid) ∧
      (L.Pairwise fun r r' => toNat r.last + 1 < toNat r'.first) ∧
      (∀ a, s.has a ↔ ∃ r ∈ L, InRange r a) := by
  obtain ⟨h1, h2, h3⟩ := mergeAll_spec hs.inv
  refine ⟨mergeAll s.trie.prefixes, fun σ cb st => walkRanges_visit hs.inv cb st, h1, h2, fun a => ?_⟩
  rw [hs.has_iff, h3]

/-- eight prefixes, but two ranges -/
example : (Sample.s.walkRanges (fun r L => (L ++ [r], true)) []).1 =
    [⟨0x0a000000#32, 0x0a00ffff#32⟩, ⟨0x0a020000#32, 0x0affffff#32⟩] := by
  decide +kernel

/-! ### C46 -/

theorem C46_height (s : IPSet α) (hs : s.Reachable) : s.trie.height ≤ width α + 1 := by
  have hw : width α ≤ 128 := LawfulIPFamily.width_le
  rw [hs.inv.height_eq (by omega)]
  cases h : s.trie with
  | nil => exact Nat.zero_le _
  | node p d n h' act l r =>
    have := (h ▸ hs.inv).depth_le (t := .node p d n h' act l r) rfl
    omega

example : Sample.s.trie.height = 8 := by decide +kernel

/-! ### C21, C22: FindAvailablePrefix -/

/-- Full statement: for every requested length.  False for lengths above the width
    (`C21_counterexample`), and for a nil argument (`C41_findAvailable_nil`). -/
theorem C21_sound_partial (s : IPSet α) (i : SetI α) (n : Nat) (hs : s.Reachable) (hi : i.Valid)
    (hn : n ≤ width α) (p : Prefix α) (h : s.findAvailablePrefix i n = .ok p) :
    p.len = n ∧ p.WF ∧ ∀ a, InPrefix p a → s.has a ∧ ¬ i.toSet.has a := by
  have ht := hi.reachable
  have hb := findSmallestReserved_spec n s.trie i.toSet.trie hs.inv ht.inv
  have hres : ∃ q, findSmallestReserved n s.trie i.toSet.trie = some q ∧ p = ⟨q.network.addr, n⟩ := by
    unfold IPSet.findAvailablePrefix at h
    cases i with
    | nil => cases h
    | address a | «prefix» a | range a | set a =>
      simp only at h
      split at h
      · cases h
      · rename_i q hq
        exact ⟨q, hq, (Out.ok.inj h).symm⟩
  obtain ⟨q, hq, rfl⟩ := hres
  rw [hq] at hb
  obtain ⟨hw, hl, hm, _⟩ := hb
  refine ⟨rfl, hn, fun a ha => ?_⟩
  rw [inPrefix_iff (p := ⟨q.network.addr, n⟩) hn] at ha
  have hc : Covers q a := (covers_network hw).mp (Agree.mono ha hl)
  rw [hs.has_iff, ht.has_iff]
  exact hm.1 a hc

/-- free: in `s` and not in `i` -/
def Free (s : IPSet α) (i : SetI α) (P : Prefix α) : Prop :=
  ∀ a, InPrefix P a → s.has a ∧ ¬ i.toSet.has a

/-- a free prefix not contained in a larger free one -/
def MaxFree (s : IPSet α) (i : SetI α) (P : Prefix α) : Prop :=
  P.WF ∧ Free s i P ∧ ∀ Q : Prefix α, Q.WF → Q.len < P.len → InPrefix Q P.addr → ¬ Free s i Q

theorem maxFree_iff (s : IPSet α) (i : SetI α) (hs : s.Reachable) (hi : i.Valid) (P : Prefix α) :
    MaxFree s i P ↔ P.WF ∧ MaxIn P (fun x => Mem s.trie x ∧ ¬ Mem i.toSet.trie x) := by
  have ht := hi.reachable
  have hf : ∀ Q : Prefix α, Q.WF → (Free s i Q ↔ Inside Q (fun x => Mem s.trie x ∧ ¬ Mem i.toSet.trie x)) := by
    intro Q hQ
    constructor
    · intro h x hx
      have := h x ((inPrefix_iff hQ).mpr hx)
      rwa [hs.has_iff, ht.has_iff] at this
    · intro h x hx
      rw [hs.has_iff, ht.has_iff]
      exact h x ((inPrefix_iff hQ).mp hx)
  constructor
  · rintro ⟨hw, h1, h2⟩
    refine ⟨hw, (hf P hw).mp h1, fun Q hl ha hin => ?_⟩
    have hQ : Q.WF := Nat.le_trans (Nat.le_of_lt hl) hw
    exact h2 Q hQ hl ((inPrefix_iff hQ).mpr ha) ((hf Q hQ).mpr hin)
  · rintro ⟨hw, h1, h2⟩
    refine ⟨hw, (hf P hw).mpr h1, fun Q hQ hl ha hin => ?_⟩
    exact h2 Q hl ((inPrefix_iff hQ).mp ha) ((hf Q hQ).mp hin)

/-- It fails only if nothing fits; otherwise the result is at the start of a smallest maximal free
    block that fits. -/
theorem C22_bestFit (s : IPSet α) (i : SetI α) (n : Nat) (hs : s.Reachable) (hi : i.Valid)
    (hn : n ≤ width α) (hnil : i ≠ .nil) :
    (s.findAvailablePrefix i n = .err ∧ ∀ P : Prefix α, P.WF → P.len = n → ¬ Free s i P) ∨
    (∃ p B : Prefix α, s.findAvailablePrefix i n = .ok p ∧ MaxFree s i B ∧ B.len ≤ n ∧ p.len = n ∧
      toNat p.addr = toNat B.addr / blockSize α B.len * blockSize α B.len ∧
      ∀ B' : Prefix α, MaxFree s i B' → B'.len ≤ n → B'.len ≤ B.len) := by
  have ht := hi.reachable
  have hb := findSmallestReserved_spec n s.trie i.toSet.trie hs.inv ht.inv
  have e : s.findAvailablePrefix i n =
      match findSmallestReserved n s.trie i.toSet.trie with
      | none => .err
      | some p => .ok ⟨p.network.addr, n⟩ := by
    unfold IPSet.findAvailablePrefix
    cases i with
    | nil => exact absurd rfl hnil
    | address a | «prefix» a | range a | set a => rfl
  rw [e]
  cases hr : findSmallestReserved n s.trie i.toSet.trie with
  | none =>
    left
    rw [hr] at hb
    refine ⟨rfl, fun P hP hl hf => hb P hP (by omega) fun x hx => ?_⟩
    have := hf x ((inPrefix_iff hP).mpr hx)
    rwa [hs.has_iff, ht.has_iff] at this
  | some q =>
    right
    rw [hr] at hb
    obtain ⟨hw, hl, hm, hbest⟩ := hb
    refine ⟨_, q, rfl, (maxFree_iff s i hs hi q).mpr ⟨hw, hm⟩, hl, rfl, ?_, fun B' hB hl' => ?_⟩
    · exact toNat_network hw
    · have := (maxFree_iff s i hs hi B').mp hB
      exact hbest B' this.1 hl' this.2

/-- the smallest free block that fits is 10.0.0.0/16; with it (or one address of it) reserved the answer
    moves; nothing as large as a /8 is free -/
example : Sample.s.findAvailablePrefix (.prefix ⟨0x0a020000#32, 16⟩) 16 = .ok ⟨0x0a000000#32, 16⟩ ∧
    Sample.s.findAvailablePrefix (.prefix ⟨0x0a000000#32, 16⟩) 16 = .ok ⟨0x0a020000#32, 16⟩ ∧
    Sample.s.findAvailablePrefix (.address 0x0a000000#32) 24 = .ok ⟨0x0a000100#32, 24⟩ ∧
    Sample.s.findAvailablePrefix (.set IPSet.empty) 8 = .err := by
  decide +kernel

end

/-- From 0.0.0.0/0 with nothing reserved, a "prefix" of length 40 is returned without an error. -/
theorem C21_counterexample :
    ∃ s : IPSet (BitVec 32), s.Reachable ∧
      s.findAvailablePrefix (.set IPSet.empty) 40 = .ok ⟨0#32, 40⟩ ∧
      ¬ (⟨0#32, 40⟩ : Prefix (BitVec 32)).WF := by
  refine ⟨(SetI.prefix ⟨0#32, 0⟩).toSet, .prefix _ (by decide), ?_, by decide⟩
  have : SetNode.findSmallestReserved 40 (SetNode.fromPrefix (⟨0#32, 0⟩ : Prefix (BitVec 32))) .nil
      = some ⟨0#32, 0⟩ := by
    rw [SetNode.fromPrefix, SetNode.findSmallestReserved]; rfl
  simp only [IPSet.findAvailablePrefix, SetI.toSet, IPSet.empty, this]
  rfl

/-- A nil `reserved` panics although nil is documented to mean the empty set. -/
theorem C41_findAvailable_nil {α : Type} [LawfulIPFamily α] (s : IPSet α) (n : Nat) :
    s.findAvailablePrefix .nil n = .panic := rfl

/-- 10.0.0.1/24 and 10.0.0.0/24 hold the same addresses but are not `Equal`. -/
theorem C13_equal_counterexample :
    ∃ s t : IPSet (BitVec 32), s.Reachable ∧ t.Reachable ∧ (∀ a, s.has a ↔ t.has a) ∧
      s.equal t = false := by
  refine ⟨(SetI.prefix ⟨0x0a000001#32, 24⟩).toSet, (SetI.prefix ⟨0x0a000000#32, 24⟩).toSet,
    .prefix _ (by decide), .prefix _ (by decide), fun a => ?_, by decide⟩
  rw [C08_prefix _ (by decide), C08_prefix _ (by decide)]
  simp only [InPrefix]
  have : toNat (0x0a000001#32) / blockSize (BitVec 32) 24 = toNat (0x0a000000#32) / blockSize (BitVec 32) 24 := by
    decide
  rw [this]

end Addrs

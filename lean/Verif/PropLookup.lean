import Verif.PropOrder
/-
  Property C85: how the lookups of prefixes and of addresses in them are related.
-/
set_option linter.unusedSectionVars false
namespace Addrs
open GoWord LawfulGoWord

section
variable {α D : Type} [LawfulGoWord α] [Inhabited D] [DecidableEq D]

theorem ContainsP.down {x k q : Prefix α} (hx : x.WF) (hk : k.WF) (h : ContainsP x k) (hq : ContainsP k q) : ContainsP x q := by
  have h1 := (containsP_iff hx).mp h
  have h2 := (containsP_iff hk).mp hq
  exact (containsP_iff hx).mpr ⟨Nat.le_trans h1.1 h2.1, h1.2.trans (h2.2.mono h1.1)⟩

theorem ContainsP.nest {x k q : Prefix α} (hx : x.WF) (hk : k.WF) (h : ContainsP x q) (hq : ContainsP k q) (hl : x.len ≤ k.len) :
    ContainsP x k := by
  have h1 := (containsP_iff hx).mp h
  have h2 := (containsP_iff hk).mp hq
  exact (containsP_iff hx).mpr ⟨hl, h1.2.trans (h2.2.mono hl).symm⟩

theorem Table.Reachable.wf {t : Table α D} (ht : t.Reachable) {x : Prefix α × D} (hx : x ∈ t.listed) : x.1.WF :=
  ht.good.inv.entries_wf ((Table.mem_listed (p := x.1) (v := x.2) ht.good).mp hx)

/-- A prefix that contains the argument has a match only if the argument has one, and that of the argument is inside. -/
theorem C85_nested (t : Table α D) (ht : t.Reachable) (k q : PrefixI α) (hk : k.toPrefix.WF) (hq : ContainsP k.toPrefix q.toPrefix)
    (v : D) (p : Prefix α) (h : t.longestMatch k = (v, true, p)) :
    ∃ w r, t.longestMatch q = (w, true, r) ∧ ContainsP p r := by
  obtain ⟨h1, h2, h3⟩ := (longestMatch_iff t ht k v p).mp h
  have hp := h2.down (ht.wf h1) hk hq
  cases hb : (t.longestMatch q).2.1 with
  | false => exact absurd hp ((C25_longestMatch_notFound t ht q).mp hb _ h1)
  | true =>
    generalize hg : t.longestMatch q = g at hb
    obtain ⟨w, b, r⟩ := g
    cases hb
    obtain ⟨k1, k2, k3⟩ := (longestMatch_iff t ht q w r).mp hg
    exact ⟨w, r, rfl, hp.nest (ht.wf h1) (ht.wf k1) k2 (k3 _ h1 hp)⟩

/-- A prefix and one inside it have the same match exactly if no entry is in the first and contains the second, but is not
    the first. -/
theorem C85_same (t : Table α D) (ht : t.Reachable) (k q : PrefixI α) (hk : k.toPrefix.WF) (hq : ContainsP k.toPrefix q.toPrefix) :
    t.longestMatch q = t.longestMatch k ↔
      ∀ x ∈ t.listed, ContainsP k.toPrefix x.1 → k.toPrefix.len < x.1.len → ¬ ContainsP x.1 q.toPrefix := by
  constructor
  · intro h x hx _ hl hc
    cases hb : (t.longestMatch k).2.1 with
    | false =>
      rw [← h] at hb
      exact (C25_longestMatch_notFound t ht q).mp hb x hx hc
    | true =>
      generalize hg : t.longestMatch k = g at hb h
      obtain ⟨v, b, p⟩ := g
      cases hb
      obtain ⟨k1, k2, k3⟩ := (longestMatch_iff t ht k v p).mp hg
      obtain ⟨l1, l2, l3⟩ := (longestMatch_iff t ht q v p).mp h
      have := l3 x hx hc
      have := k2.1
      omega
  · intro h
    refine longestMatch_congr t t ht ht q k fun x => ⟨fun ⟨h1, h2⟩ => ⟨h1, ?_⟩, fun ⟨h1, h2⟩ => ⟨h1, h2.down (ht.wf h1) hk hq⟩⟩
    by_cases hl : x.1.len ≤ k.toPrefix.len
    · exact h2.nest (ht.wf h1) hk hq hl
    · exact absurd h2 (h x h1 (hq.nest hk (ht.wf h1) h2 (by omega)) (by omega))

/-- All prefixes between the match and the argument have the same match; so has the match itself. -/
theorem C85_between (t : Table α D) (ht : t.Reachable) (k : PrefixI α) (v : D) (p : Prefix α) (h : t.longestMatch k = (v, true, p)) :
    (∀ q : PrefixI α, q.toPrefix.WF → ContainsP p q.toPrefix → ContainsP q.toPrefix k.toPrefix → t.longestMatch q = (v, true, p)) ∧
    t.longestMatch (.prefix p) = (v, true, p) ∧ t.get (.prefix p) = (v, true) := by
  obtain ⟨h1, h2, h3⟩ := (longestMatch_iff t ht k v p).mp h
  refine ⟨fun q hw hp hq => ?_, ?_, (C25_get t ht _ v).mpr ⟨p, h1, rfl⟩⟩
  · exact (longestMatch_iff t ht q v p).mpr ⟨h1, hp, fun x hx hc => h3 x hx (hc.down (ht.wf hx) hw hq)⟩
  · exact (longestMatch_iff t ht _ v p).mpr ⟨h1, ⟨Nat.le_refl _, rfl⟩, fun x _ hc => hc.1⟩

/-- All addresses of a prefix have the match of the prefix exactly if there is no entry inside, but the prefix itself. -/
theorem C85_addresses (t : Table α D) (ht : t.Reachable) (k : PrefixI α) (hk : k.toPrefix.WF) :
    (∀ a, InPrefix k.toPrefix a → t.longestMatch (.address a) = t.longestMatch k) ↔
      ∀ x ∈ t.listed, ContainsP k.toPrefix x.1 → x.1.len ≤ k.toPrefix.len := by
  have inside : ∀ a, InPrefix k.toPrefix a → ContainsP k.toPrefix (PrefixI.address a).toPrefix := fun a ha => ⟨hk, ha⟩
  constructor
  · intro h x hx hc
    refine Nat.le_of_not_lt fun hl => ?_
    exact (C85_same t ht k (.address x.1.addr) hk (inside _ hc.2)).mp (h _ hc.2) x hx hc hl ⟨ht.wf hx, rfl⟩
  · intro h a ha
    refine (C85_same t ht k (.address a) hk (inside a ha)).mpr fun x hx hc hl => ?_
    have := h x hx hc
    omega

/-- `Get` is `LongestMatch` if the match is as long as the argument. -/
theorem C85_get (t : Table α D) (ht : t.Reachable) (k : PrefixI α) :
    t.get k = if (t.longestMatch k).2.1 = true ∧ (t.longestMatch k).2.2.len = k.toPrefix.len then ((t.longestMatch k).1, true)
      else (default, false) := by
  obtain ⟨h1, h2⟩ := C25_longestMatch_get t ht k
  have same : t.get k = t.get (.prefix ⟨k.toPrefix.addr, k.toPrefix.len⟩) := by
    unfold Table.get Table.longestMatch'
    rw [PrefixI.code_eq, PrefixI.code_eq]; rfl
  have zero : ∀ b : D × Bool, t.get k = b → b.2 = false → b = (default, false) := by
    intro b hb hf
    subst hb
    unfold Table.get at hf ⊢
    split at hf
    · cases hf
    · rfl
  by_cases hc : (t.longestMatch k).2.1 = true ∧ (t.longestMatch k).2.2.len = k.toPrefix.len
  · rw [if_pos hc, same, ← hc.2]
    exact (h2 hc.1).2.1
  · rw [if_neg hc]
    refine zero _ rfl ?_
    rw [same]
    cases hb : (t.longestMatch k).2.1 with
    | false => exact h1.mp hb _ (Nat.le_refl _)
    | true =>
      obtain ⟨l1, -, l3⟩ := h2 hb
      refine l3 _ ?_ (Nat.le_refl _)
      have : (t.longestMatch k).2.2.len ≠ k.toPrefix.len := fun h => hc ⟨hb, h⟩
      omega

end

namespace Sample
/-- 10.0.0.0/8 and 10.1.0.0/16 -/
def nestedTable : Table (BitVec 32) Nat :=
  (runOps Table.step Table.new_ [.insert (.prefix ⟨0x0a000000#32, 8⟩) 1, .insert (.prefix ⟨0x0a010000#32, 16⟩) 2]).1
theorem nestedTable_reachable : nestedTable.Reachable :=
  _root_.Addrs.run_reachable _ .new_ _ rfl _ (by intro o ho; simp only [List.mem_cons, List.mem_nil_iff, or_false] at ho; rcases ho with rfl | rfl <;> decide)
end Sample

open Sample in
/-- the hypotheses of C85_nested, C85_same and C85_between are met; both sides of C85_same and C85_addresses are true for
    10.1.2.0/24 and false for 10.0.0.0/8 with 10.1.2.3 -/
example : nestedTable.longestMatch (.prefix ⟨0x0a010200#32, 24⟩) = (2, true, ⟨0x0a010000#32, 16⟩) ∧
    nestedTable.longestMatch (.address 0x0a010203#32) = (2, true, ⟨0x0a010000#32, 16⟩) ∧
    nestedTable.longestMatch (.prefix ⟨0x0a000000#32, 8⟩) = (1, true, ⟨0x0a000000#32, 8⟩) ∧
    ContainsP (⟨0x0a010200#32, 24⟩ : Prefix (BitVec 32)) (PrefixI.address 0x0a010203#32).toPrefix ∧
    ContainsP (⟨0x0a000000#32, 8⟩ : Prefix (BitVec 32)) (PrefixI.address 0x0a010203#32).toPrefix := by
  refine ⟨by rfl, by rfl, by rfl, ?_, ?_⟩ <;> exact ⟨by decide, by rw [InPrefix, blockSize]; decide⟩

open Sample in
example : ¬ ∀ a, InPrefix (⟨0x0a000000#32, 8⟩ : Prefix (BitVec 32)) a →
    nestedTable.longestMatch (.address a) = nestedTable.longestMatch (.prefix ⟨0x0a000000#32, 8⟩) := fun h => by
  have h1 := h 0x0a010203#32 (by show InPrefix _ _; rw [InPrefix, blockSize]; decide)
  have h2 : nestedTable.longestMatch (.address 0x0a010203#32) = (2, true, ⟨0x0a010000#32, 16⟩) := by rfl
  have h3 : nestedTable.longestMatch (.prefix ⟨0x0a000000#32, 8⟩) = (1, true, ⟨0x0a000000#32, 8⟩) := by rfl
  rw [h2, h3] at h1
  simp at h1

end Addrs

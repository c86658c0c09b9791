import Verif.TableApiProofs
import Verif.TableDiffOrder
/-
  Properties C23–C29, C31–C33 and C46 (tables), for both address families.  Every statement is about
  the API functions of `Verif/TableApi.lean` and the vocabulary of `Verif/SpecTable.lean`.
-/
set_option linter.unusedSectionVars false
namespace Addrs
open GoWord LawfulGoWord

/-! ### sample values used to show that hypotheses can be met -/
namespace Sample
/-- 10.0.0.0/25 -/
def k25a : PrefixI (BitVec 32) := .prefix ⟨0x0a000000#32, 25⟩
/-- 10.0.0.128/25 -/
def k25b : PrefixI (BitVec 32) := .prefix ⟨0x0a000080#32, 25⟩
/-- 10.0.0.0/26 -/
def k26 : PrefixI (BitVec 32) := .prefix ⟨0x0a000000#32, 26⟩
/-- 10.0.0.77/24, with host bits -/
def k24 : PrefixI (BitVec 32) := .prefix ⟨0x0a00004d#32, 24⟩
/-- calls with every operation, keys that are entries and keys that are not -/
def ops : List (TableOp (BitVec 32) Nat) :=
  [.insert k25a 1, .insert k25b 1, .insertOrUpdate k26 2, .get k25a, .getOrInsert k26 7, .update k24 5,
   .insert .nil 9, .remove k25b, .remove k24, .insert (.address 0x01020304#32) 3]
theorem ops_ok : ∀ o ∈ ops, o.key.toPrefix.WF := by decide
/-- a table with nested and disjoint entries -/
def tbl : Table (BitVec 32) Nat := (runOps Table.step Table.new_ ops).1

theorem run_reachable {α D : Type} [LawfulGoWord α] [Inhabited D] [DecidableEq D]
    (os : List (TableOp α D)) : ∀ (t : Table α D), t.Reachable → t.eq ≠ none →
    (∀ o ∈ os, o.key.toPrefix.WF) →
    (runOps Table.step t os).1.Reachable ∧ (runOps Table.step t os).1.eq ≠ none := by
  induction os with
  | nil => intro t h he _; exact ⟨h, he⟩
  | cons o os ih =>
    intro t h he hk
    have h1 := Table.Reachable.step t o h he (hk o List.mem_cons_self)
    refine ih _ h1 ?_ fun o ho => hk o (List.mem_cons_of_mem _ ho)
    obtain ⟨e, he⟩ := Option.ne_none_iff_exists'.mp he
    rw [(Table.step_spec (Table.repr_abs h.good) he o (hk o List.mem_cons_self)).2.1]
    simp

theorem tbl_reachable : tbl.Reachable :=
  (run_reachable ops _ .new_ (by simp [Table.new_]) ops_ok).1
end Sample

section
variable {α D : Type} [LawfulGoWord α] [Inhabited D] [DecidableEq D]
open Table

/-! ### C23 -/

/-- Full statement: the same with equality of all results.  It fails only for the result of `Remove`
    on a key that is not an entry (see C24, which also says exactly what that result is). -/
theorem C23_history_partial (t : Table α D) (ht : t.Reachable) (e : D → D → Bool) (he : t.eq = some e)
    (m : PMap D) (hm : t.Shows m) (ops : List (TableOp α D)) (hv : ∀ o ∈ ops, o.key.toPrefix.WF) :
    ResultsOk (runOps Table.step t ops).2 (runOps (PMap.step e) m ops).2 ∧
    (runOps Table.step t ops).1.Shows (runOps (PMap.step e) m ops).1 := by
  obtain ⟨h1, h2⟩ := run_spec ops (hm.repr ht.good) he hv
  exact ⟨h2, h1.shows⟩

/-- every reachable table reads as some map (so the hypothesis of `C23_history_partial` can be met) -/
theorem C23_shows (t : Table α D) (ht : t.Reachable) : ∃ m, t.Shows m := ⟨_, (repr_abs ht.good).shows⟩

/-- a new table is the empty map -/
theorem C23_empty (cmp : D → D → Bool) :
    (Table.newCustom cmp : Table α D).Shows PMap.empty ∧ (Table.new_ : Table α D).Shows PMap.empty ∧
    (Table.empty : Table α D).Shows PMap.empty :=
  ⟨fun _ _ => rfl, fun _ _ => rfl, fun _ _ => rfl⟩

/-- histories without `Remove` of absent keys: all results are equal -/
theorem C23_history_exact_partial (t : Table α D) (ht : t.Reachable) (e : D → D → Bool) (he : t.eq = some e)
    (m : PMap D) (hm : t.Shows m) (ops : List (TableOp α D)) (hv : ∀ o ∈ ops, o.key.toPrefix.WF)
    (hr : ∀ i : Nat, (runOps (PMap.step e) m ops).2[i]? ≠ some (Result.removed false)) :
    (runOps Table.step t ops).2 = (runOps (PMap.step e) m ops).2 := by
  have h := (C23_history_partial t ht e he m hm ops hv).1
  revert h hr
  generalize (runOps Table.step t ops).2 = A
  generalize (runOps (PMap.step e) m ops).2 = B
  induction A generalizing B with
  | nil => intro hr h; cases B with
    | nil => rfl
    | cons => cases h
  | cons a A ih =>
    intro hr h
    cases B with
    | nil => cases h
    | cons b B =>
      have h1 : ResultOk a b := h.1
      have : a = b := by
        have h0 : b ≠ .removed false := fun e => hr 0 (by rw [e]; rfl)
        cases b with
        | removed c =>
          cases c with
          | false => exact absurd rfl h0
          | true =>
            cases a with
            | removed c => simp only [ResultOk] at h1; rw [h1 trivial]
            | _ => exact h1
        | _ => cases a <;> first | exact h1 | (simp only [ResultOk] at h1; cases h1)
      rw [this, ih B (fun i => hr (i + 1)) h.2]

/-- two keys are the same exactly if they have the same length and network -/
theorem C23_key (p q : Prefix α) (hp : p.WF) : keyOf p = keyOf q ↔ p.len = q.len ∧ InPrefix p q.addr := by
  rw [keyOf_eq hp, inPrefix_iff hp]; rfl

example : ResultsOk (runOps Table.step (Table.new_ : Table (BitVec 32) Nat) Sample.ops).2
      (runOps (PMap.step fun a b => decide (a = b)) PMap.empty Sample.ops).2 ∧
    (runOps Table.step (Table.new_ : Table (BitVec 32) Nat) Sample.ops).1.Shows
      (runOps (PMap.step fun a b => decide (a = b)) PMap.empty Sample.ops).1 :=
  C23_history_partial _ .new_ _ rfl _ (C23_empty fun _ _ => true).2.1 _ Sample.ops_ok

/-! ### C24 -/

/-- Full statement: `Remove` returns true iff the entry exists.  What is missing: it can return true
    when it does not exist (`C24_remove_counterexample`). -/
theorem C24_remove_partial (t : Table α D) (ht : t.Reachable) (he : t.eq ≠ none) (k : PrefixI α)
    (hk : k.toPrefix.WF) :
    ((t.get k).2 = true → (t.remove k).2 = true) ∧
    (∀ k' : PrefixI α, k'.toPrefix.WF → (t.remove k).1.get k' =
      if keyOf k'.toPrefix = keyOf k.toPrefix then (default, false) else t.get k') := by
  obtain ⟨e, he⟩ := Option.ne_none_iff_exists'.mp he
  obtain ⟨h1, h2, h3⟩ := step_spec (repr_abs ht.good) he (.remove k) hk
  have hs := (repr_abs ht.good).shows
  constructor
  · intro hg
    refine h3 ?_
    have := hs k hk
    cases hm : t.abs (keyOf k.toPrefix) with
    | some v => rfl
    | none => rw [hm] at this; rw [this] at hg; cases hg
  · intro k' hk'
    have h := h1.shows k' hk'
    have h' := hs k' hk'
    simp only [step, PMap.step, PMap.erase] at h
    rw [h]
    by_cases hkk : keyOf k'.toPrefix = keyOf k.toPrefix
    · rw [if_pos hkk, if_pos hkk]
    · rw [if_neg hkk, if_neg hkk, h']

/-- entries in both halves of a prefix -/
theorem halves_iff {t : Table α D} (ht : t.Reachable) {k : Prefix α} (hk : k.WF) :
    (∃ x y, x ∈ t.trie.entries ∧ y ∈ t.trie.entries ∧ Sub k x.1 false ∧ Sub k y.1 true) ↔
    ∃ x y, x ∈ t.listed ∧ y ∈ t.listed ∧
      k.len < x.1.len ∧ k.len < y.1.len ∧
      InPrefix k x.1.addr ∧ InPrefix k y.1.addr ∧
      ¬ InPrefix ⟨x.1.addr, k.len + 1⟩ y.1.addr := by
  rw [listed_eq]
  constructor
  · rintro ⟨x, y, hx, hy, sx, sy⟩
    have wx := ht.good.inv.entries_wf hx
    refine ⟨(x.1, unbox x.2), (y.1, unbox y.2), List.mem_map.mpr ⟨x, hx, rfl⟩, List.mem_map.mpr ⟨y, hy, rfl⟩,
      sx.lt, sy.lt, (inPrefix_iff hk).mpr sx.agree, (inPrefix_iff hk).mpr sy.agree, fun h => ?_⟩
    have wf' : (⟨x.1.addr, k.len + 1⟩ : Prefix α).WF := Nat.le_trans sx.lt wx
    have := (inPrefix_iff wf').mp h k.len (Nat.lt_succ_self _)
    rw [sy.side] at this
    have h2 := sx.side
    simp only at this
    rw [this] at h2; cases h2
  · rintro ⟨x, y, hx, hy, lx, ly, ix, iy, hn⟩
    obtain ⟨x', hx', rfl⟩ := List.mem_map.mp hx
    obtain ⟨y', hy', rfl⟩ := List.mem_map.mp hy
    have wx := ht.good.inv.entries_wf hx'
    have wf' : (⟨x'.1.addr, k.len + 1⟩ : Prefix α).WF := Nat.le_trans lx wx
    have ax := (inPrefix_iff hk).mp ix
    have ay := (inPrefix_iff hk).mp iy
    have hne : bit x'.1.addr k.len ≠ bit y'.1.addr k.len := by
      intro e
      refine hn ((inPrefix_iff wf').mpr fun i hi => ?_)
      have hi : i < k.len + 1 := hi
      by_cases h : i = k.len
      · rw [h]; exact e
      · exact (ax.symm.trans ay) i (by omega)
    cases hb : bit x'.1.addr k.len with
    | false =>
      refine ⟨x', y', hx', hy', ⟨lx, ax, hb⟩, ⟨ly, ay, ?_⟩⟩
      rw [hb] at hne
      cases h : bit y'.1.addr k.len
      · exact absurd h.symm hne
      · rfl
    | true =>
      refine ⟨y', x', hy', hx', ⟨ly, ay, ?_⟩, ⟨lx, ax, hb⟩⟩
      rw [hb] at hne
      cases h : bit y'.1.addr k.len
      · rfl
      · exact absurd h.symm hne

/-- exactly when `Remove` returns true -/
theorem C24_remove_exact (t : Table α D) (ht : t.Reachable) (k : PrefixI α) (hk : k.toPrefix.WF) :
    (t.remove k).2 = true ↔ (t.get k).2 = true ∨
      ∃ x y, x ∈ t.listed ∧ y ∈ t.listed ∧
        k.toPrefix.len < x.1.len ∧ k.toPrefix.len < y.1.len ∧
        InPrefix k.toPrefix x.1.addr ∧ InPrefix k.toPrefix y.1.addr ∧
        ¬ InPrefix ⟨x.1.addr, k.toPrefix.len + 1⟩ y.1.addr := by
  have ds := Trie.del_spec k.toPrefix hk t.trie ht.good.inv
  have gs := get_spec ht.good k
  rw [← halves_iff ht hk]
  by_cases hx : ∃ x, x ∈ t.trie.entries ∧ SameKey x.1 k.toPrefix
  · obtain ⟨x, hx, hs⟩ := hx
    obtain ⟨n, hn, _⟩ := ds.found x hx hs
    rw [gs.1 x hx hs]
    simp [remove, PrefixI.code_eq, hn]
  · have hx : ∀ x, x ∈ t.trie.entries → ¬ SameKey x.1 k.toPrefix := fun x h1 h2 => hx ⟨x, h1, h2⟩
    rw [gs.2 hx]
    rcases ds.absent hx with ⟨hn, h⟩ | ⟨n, hn, _, h⟩
    · simp only [remove, PrefixI.code_eq, hn, Bool.false_eq_true, false_or, false_iff]
      exact h
    · simp only [remove, PrefixI.code_eq, hn, true_iff]
      exact Or.inr h

/-- Remove of 10.0.0.0/24 from a table with the entries 10.0.0.0/25 and 10.0.0.128/25 reports true,
    although there is no such entry. -/
theorem C24_remove_counterexample : ∃ (t : Table (BitVec 32) Nat) (k : PrefixI (BitVec 32)),
    t.Reachable ∧ k.toPrefix.WF ∧ (t.get k).2 = false ∧ (t.remove k).2 = true := by
  refine ⟨(runOps Table.step Table.new_ [.insert Sample.k25a 1, .insert Sample.k25b 2]).1, Sample.k24,
    (Sample.run_reachable _ _ .new_ (by simp [Table.new_]) (by decide)).1, by decide, by decide, by decide⟩

example : (Sample.tbl.get Sample.k26) = (2, true) ∧ (Sample.tbl.remove Sample.k26).2 = true := by decide

/-! ### C25 -/

theorem C25_longestMatch_found (t : Table α D) (ht : t.Reachable) (k : PrefixI α) (v : D) (p : Prefix α)
    (h : t.longestMatch k = (v, true, p)) :
    (p, v) ∈ t.listed ∧ ContainsP p k.toPrefix ∧
    ∀ x ∈ t.listed, ContainsP x.1 k.toPrefix → x.1.len ≤ p.len := by
  have ms := Trie.match_spec k.toPrefix _ ht.good.inv
  unfold longestMatch longestMatch' at h
  rw [PrefixI.code_eq] at h
  cases hm : t.trie.match k.toPrefix with
  | none => rw [hm] at h; simp at h
  | some y =>
    obtain ⟨y1, y2, y3⟩ := ms.1 y hm
    rw [hm] at h
    simp only [Prod.mk.injEq, true_and] at h
    obtain ⟨rfl, rfl⟩ := h
    rw [listed_eq]
    refine ⟨List.mem_map.mpr ⟨y, y1, rfl⟩, (containsP_iff (ht.good.inv.entries_wf y1)).mpr y2, fun x hx hc => ?_⟩
    obtain ⟨z, hz, rfl⟩ := List.mem_map.mp hx
    exact (y3 z hz ((containsP_iff (ht.good.inv.entries_wf hz)).mp hc)).1

theorem C25_longestMatch_notFound (t : Table α D) (ht : t.Reachable) (k : PrefixI α) :
    (t.longestMatch k).2.1 = false ↔ ∀ x ∈ t.listed, ¬ ContainsP x.1 k.toPrefix := by
  have ms := Trie.match_spec k.toPrefix _ ht.good.inv
  rw [listed_eq]
  unfold longestMatch longestMatch'
  rw [PrefixI.code_eq]
  cases hm : t.trie.match k.toPrefix with
  | none =>
    simp only [true_iff]
    intro x hx hc
    obtain ⟨z, hz, rfl⟩ := List.mem_map.mp hx
    exact ms.2 hm z hz ((containsP_iff (ht.good.inv.entries_wf hz)).mp hc)
  | some y =>
    obtain ⟨y1, y2, y3⟩ := ms.1 y hm
    simp only [Bool.true_eq_false, false_iff]
    intro h
    exact h _ (List.mem_map.mpr ⟨y, y1, rfl⟩) ((containsP_iff (ht.good.inv.entries_wf y1)).mpr y2)

/-- without a match the results are the zero values -/
theorem C25_longestMatch_zero (t : Table α D) (k : PrefixI α) (h : (t.longestMatch k).2.1 = false) :
    t.longestMatch k = (default, false, ⟨zero, 0⟩) := by
  unfold longestMatch at *
  cases hm : t.longestMatch' k with
  | none => rfl
  | some x => rw [hm] at h; simp at h

/-- `Get` finds exactly the entry with the same key -/
theorem C25_get (t : Table α D) (ht : t.Reachable) (k : PrefixI α) (v : D) :
    t.get k = (v, true) ↔ ∃ p, (p, v) ∈ t.listed ∧ keyOf p = keyOf k.toPrefix := by
  have gs := get_spec ht.good k
  constructor
  · intro h
    by_cases hx : ∃ x, x ∈ t.trie.entries ∧ SameKey x.1 k.toPrefix
    · obtain ⟨x, hx, hs⟩ := hx
      rw [gs.1 x hx hs] at h
      simp only [Prod.mk.injEq, and_true] at h
      refine ⟨x.1, ?_, (keyOf_eq (ht.good.inv.entries_wf hx)).mpr hs⟩
      rw [listed_eq, ← h]
      exact List.mem_map.mpr ⟨x, hx, rfl⟩
    · rw [gs.2 fun x h1 h2 => hx ⟨x, h1, h2⟩] at h
      simp at h
  · rintro ⟨p, hp, hkey⟩
    have hp' := (mem_listed ht.good).mp hp
    rw [gs.1 _ hp' ((keyOf_eq (ht.good.inv.entries_wf hp')).mp hkey)]
    rfl

/-- the search by length, in terms of `Get` alone: the match has the greatest length for which `Get`
    finds the truncated key -/
theorem C25_longestMatch_get (t : Table α D) (ht : t.Reachable) (k : PrefixI α) :
    ((t.longestMatch k).2.1 = false ↔
      ∀ n, n ≤ k.toPrefix.len → (t.get (.prefix ⟨k.toPrefix.addr, n⟩)).2 = false) ∧
    ((t.longestMatch k).2.1 = true →
      (t.longestMatch k).2.2.len ≤ k.toPrefix.len ∧
      t.get (.prefix ⟨k.toPrefix.addr, (t.longestMatch k).2.2.len⟩) = ((t.longestMatch k).1, true) ∧
      ∀ n, (t.longestMatch k).2.2.len < n → n ≤ k.toPrefix.len →
        (t.get (.prefix ⟨k.toPrefix.addr, n⟩)).2 = false) := by
  have eqv : ∀ n, n ≤ k.toPrefix.len → ∀ v, t.get (.prefix ⟨k.toPrefix.addr, n⟩) = (v, true) ↔
      ∃ p, (p, v) ∈ t.listed ∧ p.len = n ∧ ContainsP p k.toPrefix := by
    intro n hn v
    rw [C25_get t ht (.prefix ⟨k.toPrefix.addr, n⟩)]
    constructor
    · rintro ⟨p, hp, hkey⟩
      have wf := ht.good.inv.entries_wf ((mem_listed ht.good).mp hp)
      obtain ⟨h1, h2⟩ := (C23_key p _ wf).mp hkey
      exact ⟨p, hp, h1, by rw [h1]; exact hn, h2⟩
    · rintro ⟨p, hp, h1, h2, h3⟩
      have wf := ht.good.inv.entries_wf ((mem_listed ht.good).mp hp)
      exact ⟨p, hp, (C23_key p _ wf).mpr ⟨h1, h3⟩⟩
  have none_of : ∀ n, n ≤ k.toPrefix.len → (∀ x ∈ t.listed, x.1.len = n → ¬ ContainsP x.1 k.toPrefix) →
      (t.get (.prefix ⟨k.toPrefix.addr, n⟩)).2 = false := by
    intro n hn h
    cases hg : (t.get (.prefix ⟨k.toPrefix.addr, n⟩)).2 with
    | false => rfl
    | true =>
      obtain ⟨p, hp, h1, h2⟩ := (eqv n hn _).mp (show t.get (.prefix ⟨k.toPrefix.addr, n⟩) = (_, true) by rw [← hg])
      exact absurd h2 (h _ hp h1)
  constructor
  · rw [C25_longestMatch_notFound t ht k]
    constructor
    · intro h n hn
      exact none_of n hn fun x hx _ => h x hx
    · intro h x hx hc
      have hl := hc.1
      have := (eqv x.1.len hl x.2).mpr ⟨x.1, hx, rfl, hc⟩
      have h' := h x.1.len hl
      rw [this] at h'; cases h'
  · intro hf
    have heq : t.longestMatch k = ((t.longestMatch k).1, true, (t.longestMatch k).2.2) := by rw [← hf]
    obtain ⟨h1, h2, h3⟩ := C25_longestMatch_found t ht k _ _ heq
    refine ⟨h2.1, (eqv _ h2.1 _).mpr ⟨_, h1, rfl, h2⟩, fun n hlt hn => ?_⟩
    refine none_of n hn fun x hx hxl hc => ?_
    have := h3 x hx hc
    omega

example : Sample.tbl.longestMatch (.address 0x0a000001#32) = (2, true, ⟨0x0a000000#32, 26⟩) ∧
    Sample.tbl.longestMatch (.address 0x0a000041#32) = (1, true, ⟨0x0a000000#32, 25⟩) ∧
    (Sample.tbl.longestMatch (.address 0x0b000000#32)) = (9, true, ⟨0#32, 0⟩) := by decide

/-! ### C26 -/

theorem C26_numEntries (t : Table α D) (ht : t.Reachable) (h : t.listed.length < 2 ^ 32) :
    t.numEntries = t.listed.length := by
  have := ht.good.inv.size
  rw [listed_eq] at h ⊢
  unfold pairs at *
  rw [List.length_map] at h ⊢
  unfold numEntries
  rw [this]
  exact Nat.mod_eq_of_lt h

/-- in general the counter wraps -/
theorem C26_numEntries_mod (t : Table α D) (ht : t.Reachable) :
    t.numEntries = t.listed.length % 2 ^ 32 := by
  have := ht.good.inv.size
  rw [listed_eq]
  unfold pairs
  rw [List.length_map]
  exact this

example : Sample.tbl.numEntries = 4 ∧ Sample.tbl.listed.length = 4 := by
  rw [listed_eq]; decide

/-! ### C27 -/

/-- `Walk` with any callback visits the entries that `listed` has, in that order, until the callback
    returns false, and returns whether it never did -/
theorem C27_walk {σ : Type} (t : Table α D) (cb : Prefix α → D → σ → σ × Bool) (s : σ) :
    t.walk cb s = visit (fun x => cb x.1 x.2) t.listed s := by
  rw [listed_eq, walk_pairs]

/-- they are strictly ascending, so each occurs once -/
theorem C27_sorted (t : Table α D) (ht : t.Reachable) :
    t.listed.Pairwise (fun x y => LexBefore x.1 y.1) := by
  rw [listed_eq]
  unfold pairs
  rw [List.pairwise_map]
  refine (ht.good.inv.sorted).imp_of_mem fun {x y} hx hy h => ?_
  exact h.lex (ht.good.inv.entries_wf hx) (ht.good.inv.entries_wf hy)

/-- and they are exactly what `Get` finds -/
theorem C27_complete (t : Table α D) (ht : t.Reachable) (k : PrefixI α) (v : D) :
    t.get k = (v, true) ↔ ∃ p, (p, v) ∈ t.listed ∧ keyOf p = keyOf k.toPrefix := C25_get t ht k v

example : Sample.tbl.listed.map (fun x => (x.1.addr, x.1.len, x.2)) =
    [(0#32, 0, 9), (0x01020304#32, 32, 3), (0x0a000000#32, 25, 1), (0x0a000000#32, 26, 2)] := by
  rw [listed_eq]; decide

/-! ### C46 -/

theorem C46_table_height (t : Table α D) (ht : t.Reachable) (hw : width α + 1 < 2 ^ 16) :
    t.trie.height = t.trie.deep ∧ t.trie.height ≤ width α + 1 := by
  have h1 := ht.good.inv.height_eq hw
  exact ⟨h1, by rw [h1]; exact ht.good.inv.deep_le'⟩

example : Sample.tbl.trie.height = 4 ∧ Sample.tbl.trie.deep = 4 ∧ width (BitVec 32) + 1 < 2 ^ 16 := by
  decide +kernel

end
end Addrs

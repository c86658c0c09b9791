import Verif.PropSync
/-
  Property C77: a write to a table changes only the lookups it should.
-/
set_option linter.unusedSectionVars false
namespace Addrs
open GoWord LawfulGoWord

section
variable {α D : Type} [LawfulGoWord α] [Inhabited D] [DecidableEq D]

theorem ContainsP.of_key {p q k : Prefix α} (hk : keyOf p = keyOf q) (h : ContainsP p k) : ContainsP q k := by
  have e1 : p.len = q.len := congrArg Prod.fst hk
  have e2 : toNat p.addr / blockSize α p.len = toNat q.addr / blockSize α q.len := congrArg Prod.snd hk
  refine ⟨by rw [← e1]; exact h.1, ?_⟩
  have h2 : toNat p.addr / blockSize α p.len = toNat k.addr / blockSize α p.len := h.2
  show toNat q.addr / blockSize α q.len = toNat k.addr / blockSize α q.len
  rw [← e2, h2, e1]

/-- `LongestMatch` returns the longest of the entries that contain the argument -/
theorem longestMatch_iff (t : Table α D) (ht : t.Reachable) (k : PrefixI α) (v : D) (p : Prefix α) :
    t.longestMatch k = (v, true, p) ↔ (p, v) ∈ t.listed ∧ ContainsP p k.toPrefix ∧
      ∀ x ∈ t.listed, ContainsP x.1 k.toPrefix → x.1.len ≤ p.len := by
  refine ⟨C25_longestMatch_found t ht k v p, fun ⟨h1, h2, h3⟩ => ?_⟩
  cases hb : (t.longestMatch k).2.1 with
  | false => exact absurd h2 ((C25_longestMatch_notFound t ht k).mp hb _ h1)
  | true =>
    generalize hg : t.longestMatch k = g at hb ⊢
    obtain ⟨w, b, q⟩ := g
    cases hb
    obtain ⟨k1, k2, k3⟩ := C25_longestMatch_found t ht k w q hg
    have l1 := (Table.mem_listed ht.good).mp h1
    have l2 := (Table.mem_listed ht.good).mp k1
    have c1 := (containsP_iff (ht.good.inv.entries_wf l1)).mp h2
    have c2 := (containsP_iff (ht.good.inv.entries_wf l2)).mp k2
    have hl : p.len = q.len := Nat.le_antisymm (k3 _ h1 h2) (h3 _ k1 k2)
    have hs : SameKey p q := ⟨hl, c1.2.trans (by rw [hl]; exact c2.2.symm)⟩
    have := ht.good.inv.unique l1 l2 hs
    simp only [Prod.mk.injEq, Option.some.injEq] at this
    rw [this.1, this.2]

/-- what `LongestMatch` returns depends on the entries that contain the argument only -/
theorem longestMatch_congr (t u : Table α D) (ht : t.Reachable) (hu : u.Reachable) (k k' : PrefixI α)
    (h : ∀ x, (x ∈ t.listed ∧ ContainsP x.1 k.toPrefix) ↔ (x ∈ u.listed ∧ ContainsP x.1 k'.toPrefix)) :
    t.longestMatch k = u.longestMatch k' := by
  cases hb : (t.longestMatch k).2.1 with
  | false =>
    have hn := (C25_longestMatch_notFound t ht k).mp hb
    have hn' : (u.longestMatch k').2.1 = false :=
      (C25_longestMatch_notFound u hu k').mpr fun x hx hc =>
        let y := (h x).mpr ⟨hx, hc⟩
        hn x y.1 y.2
    rw [C25_longestMatch_zero t k hb, C25_longestMatch_zero u k' hn']
  | true =>
    generalize hg : t.longestMatch k = g at hb ⊢
    obtain ⟨w, b, q⟩ := g
    cases hb
    obtain ⟨k1, k2, k3⟩ := (longestMatch_iff t ht k w q).mp hg
    obtain ⟨l1, l2⟩ := (h (q, w)).mp ⟨k1, k2⟩
    refine ((longestMatch_iff u hu k' w q).mpr ⟨l1, l2, fun x hx hc => ?_⟩).symm
    obtain ⟨m1, m2⟩ := (h x).mpr ⟨hx, hc⟩
    exact k3 x m1 m2

theorem Entries.step_other (e : D → D → Bool) (m : Entries α D) (o : TableOp α D) (κ : Nat × Nat)
    (h : κ ≠ keyOf o.key.toPrefix) : (m.step e o).1 κ = m κ := by
  cases o with
  | insert k v | update k v | insertOrUpdate k v | getOrInsert k v =>
    simp only [Entries.step]
    cases m (keyOf k.toPrefix) <;> simp only [Entries.set] <;> first | rfl | exact if_neg h
  | get k => simp only [Entries.step]; cases m (keyOf k.toPrefix) <;> rfl
  | remove k => simp only [Entries.step, Entries.erase]; exact if_neg h

/-- the entries under other keys stay as they are -/
theorem listed_other (t : Table α D) (ht : t.Reachable) (e : D → D → Bool) (he : t.eq = some e) (o : TableOp α D)
    (hk : o.key.toPrefix.WF) (x : Prefix α × D) (hx : keyOf x.1 ≠ keyOf o.key.toPrefix) :
    x ∈ (t.step o).1.listed ↔ x ∈ t.listed := by
  obtain ⟨m, hm⟩ := ht.holds
  rw [(hm.step_map ht he o hk).mem, hm.mem, Entries.Has, Entries.Has, Entries.step_other e m o _ hx]

/-- the entry under the key, if there is one -/
theorem listed_key (t : Table α D) (ht : t.Reachable) (k : PrefixI α) (v : D) (p : Prefix α) (hp : keyOf p = keyOf k.toPrefix) :
    (p, v) ∈ t.listed → t.get k = (v, true) := fun h => (C25_get t ht k v).mpr ⟨p, h, hp⟩

/-! ### C77 -/

/-- A call with the key `k` (`Insert`, `Update`, `InsertOrUpdate`, `GetOrInsert`, `Remove`) leaves `Get` of all other
    prefixes as it was. -/
theorem C77_get (t : Table α D) (ht : t.Reachable) (e : D → D → Bool) (he : t.eq = some e) (o : TableOp α D)
    (hk : o.key.toPrefix.WF) (k' : PrefixI α) (hk' : k'.toPrefix.WF) (h : keyOf k'.toPrefix ≠ keyOf o.key.toPrefix) :
    (t.step o).1.get k' = t.get k' := by
  obtain ⟨m, hm⟩ := ht.holds
  have hr : (t.step o).1.Reachable := .step t o ht (by rw [he]; simp) hk
  rw [(hm.step_map ht he o hk).shows hr k' hk', hm.shows ht k' hk']
  simp only [Entries.values, Entries.step_other e m o _ h]

/-- and `LongestMatch` of all prefixes (addresses) outside `k` as it was -/
theorem C77_elsewhere (t : Table α D) (ht : t.Reachable) (e : D → D → Bool) (he : t.eq = some e) (o : TableOp α D)
    (hk : o.key.toPrefix.WF) (k' : PrefixI α) (h : ¬ ContainsP o.key.toPrefix k'.toPrefix) :
    (t.step o).1.longestMatch k' = t.longestMatch k' := by
  have hr : (t.step o).1.Reachable := .step t o ht (by rw [he]; simp) hk
  refine longestMatch_congr _ _ hr ht _ _ fun x => ?_
  by_cases hx : keyOf x.1 = keyOf o.key.toPrefix
  · exact ⟨fun hc => absurd (hc.2.of_key hx) h, fun hc => absurd (hc.2.of_key hx) h⟩
  · rw [listed_other t ht e he o hk x hx]

/-- Inside `k`: where the longest match was longer than `k` it stays, also for `Remove`. -/
theorem C77_longer (t : Table α D) (ht : t.Reachable) (e : D → D → Bool) (he : t.eq = some e) (o : TableOp α D)
    (hk : o.key.toPrefix.WF) (k' : PrefixI α) (v : D) (p : Prefix α) (h : t.longestMatch k' = (v, true, p))
    (hl : o.key.toPrefix.len < p.len) : (t.step o).1.longestMatch k' = (v, true, p) := by
  have hr : (t.step o).1.Reachable := .step t o ht (by rw [he]; simp) hk
  obtain ⟨h1, h2, h3⟩ := (longestMatch_iff t ht k' v p).mp h
  have hne : ∀ {q : Prefix α}, q.len ≠ o.key.toPrefix.len → keyOf q ≠ keyOf o.key.toPrefix :=
    fun hn h => hn (congrArg Prod.fst h)
  refine (longestMatch_iff _ hr k' v p).mpr ⟨(listed_other t ht e he o hk (p, v) (hne (by simp only; omega))).mpr h1, h2,
    fun x hx hc => ?_⟩
  by_cases hxk : keyOf x.1 = keyOf o.key.toPrefix
  · have : x.1.len = o.key.toPrefix.len := congrArg Prod.fst hxk
    omega
  · exact h3 x ((listed_other t ht e he o hk x hxk).mp hx) hc

/-- Where the longest match was not longer than `k` (or there was none), it is the entry of `k` afterwards, if there
    is one: the value is what `Get` of `k` returns, the prefix has the key of `k`. -/
theorem C77_written (t : Table α D) (ht : t.Reachable) (e : D → D → Bool) (he : t.eq = some e) (o : TableOp α D)
    (hk : o.key.toPrefix.WF) (k' : PrefixI α) (hc : ContainsP o.key.toPrefix k'.toPrefix)
    (hl : (t.longestMatch k').2.1 = true → (t.longestMatch k').2.2.len ≤ o.key.toPrefix.len) (w : D)
    (hw : (t.step o).1.get o.key = (w, true)) :
    ∃ p, (t.step o).1.longestMatch k' = (w, true, p) ∧ keyOf p = keyOf o.key.toPrefix := by
  have hr : (t.step o).1.Reachable := .step t o ht (by rw [he]; simp) hk
  obtain ⟨p, hp, hkey⟩ := (C25_get _ hr o.key w).mp hw
  refine ⟨p, (longestMatch_iff _ hr k' w p).mpr ⟨hp, hc.of_key hkey.symm, fun x hx hxc => ?_⟩, hkey⟩
  have hpl : p.len = o.key.toPrefix.len := congrArg Prod.fst hkey
  by_cases hxk : keyOf x.1 = keyOf o.key.toPrefix
  · have : x.1.len = o.key.toPrefix.len := congrArg Prod.fst hxk
    omega
  · have hx' := (listed_other t ht e he o hk x hxk).mp hx
    cases hb : (t.longestMatch k').2.1 with
    | false => exact absurd hxc ((C25_longestMatch_notFound t ht k').mp hb x hx')
    | true =>
      have hl := hl hb
      generalize hg : t.longestMatch k' = g at hb hl
      obtain ⟨w', b, q⟩ := g
      cases hb
      have := ((longestMatch_iff t ht k' w' q).mp hg).2.2 x hx' hxc
      simp only at hl
      omega

/-- After `Remove` of a prefix `k` that was the longest match, the longest match is what it was for the prefix that is
    one bit shorter than `k`; for the prefix of length 0 there is none. -/
theorem C77_removed (t : Table α D) (ht : t.Reachable) (e : D → D → Bool) (he : t.eq = some e) (k : PrefixI α)
    (hk : k.toPrefix.WF) (k' : PrefixI α) (v : D) (p : Prefix α) (h : t.longestMatch k' = (v, true, p))
    (hp : keyOf p = keyOf k.toPrefix) :
    (0 < k.toPrefix.len →
      (t.remove k).1.longestMatch k' = t.longestMatch (.prefix ⟨k.toPrefix.addr, k.toPrefix.len - 1⟩)) ∧
    (k.toPrefix.len = 0 → ((t.remove k).1.longestMatch k').2.1 = false) := by
  have hr : (t.remove k).1.Reachable := .step t (.remove k) ht (by rw [he]; simp) hk
  obtain ⟨h1, h2, h3⟩ := (longestMatch_iff t ht k' v p).mp h
  have hpl : p.len = k.toPrefix.len := congrArg Prod.fst hp
  have hkc : ContainsP k.toPrefix k'.toPrefix := h2.of_key hp
  have gone : ∀ x : Prefix α × D, x ∈ (t.remove k).1.listed → keyOf x.1 ≠ keyOf k.toPrefix := by
    intro x hx hxk
    obtain ⟨m, hm⟩ := ht.holds
    have := ((hm.step_map ht he (.remove k) hk).mem).mp hx
    simp only [Entries.Has, Entries.step, Entries.erase] at this
    rw [if_pos hxk] at this
    cases this
  have left : ∀ x : Prefix α × D, (x ∈ (t.remove k).1.listed ∧ ContainsP x.1 k'.toPrefix) ↔
      x ∈ t.listed ∧ ContainsP x.1 k'.toPrefix ∧ x.1.len < k.toPrefix.len := by
    intro x
    constructor
    · rintro ⟨hx, hc⟩
      have hxk := gone x hx
      have hx' := (listed_other t ht e he (.remove k) hk x hxk).mp hx
      refine ⟨hx', hc, ?_⟩
      have hle := h3 x hx' hc
      refine Nat.lt_of_le_of_ne (by omega) fun hl => hxk ?_
      have w := ht.good.inv.entries_wf ((Table.mem_listed (p := x.1) (v := x.2) ht.good).mp hx')
      refine (keyOf_eq w).mpr ⟨hl, ?_⟩
      have c1 := (containsP_iff w).mp hc
      have c2 := (containsP_iff hk).mp hkc
      exact c1.2.trans (by rw [hl]; exact c2.2.symm)
    · rintro ⟨hx, hc, hl⟩
      refine ⟨(listed_other t ht e he (.remove k) hk x fun hxk => ?_).mpr hx, hc⟩
      have : x.1.len = k.toPrefix.len := congrArg Prod.fst hxk
      omega
  refine ⟨fun h0 => ?_, fun h0 => ?_⟩
  · refine longestMatch_congr _ _ hr ht _ _ fun x => ?_
    rw [left x]
    have c2 := (containsP_iff hk).mp hkc
    constructor
    · rintro ⟨hx, hc, hl⟩
      have w := ht.good.inv.entries_wf ((Table.mem_listed (p := x.1) (v := x.2) ht.good).mp hx)
      have c1 := (containsP_iff w).mp hc
      refine ⟨hx, (containsP_iff w).mpr ⟨?_, ?_⟩⟩
      · show x.1.len ≤ k.toPrefix.len - 1
        omega
      · exact c1.2.trans (c2.2.mono (Nat.le_of_lt hl)).symm
    · rintro ⟨hx, hc⟩
      have w := ht.good.inv.entries_wf ((Table.mem_listed (p := x.1) (v := x.2) ht.good).mp hx)
      have c1 := (containsP_iff w).mp hc
      have hl : x.1.len ≤ k.toPrefix.len - 1 := c1.1
      have hl' : x.1.len < k.toPrefix.len := by omega
      refine ⟨hx, (containsP_iff w).mpr ⟨?_, ?_⟩, hl'⟩
      · have := c2.1
        show x.1.len ≤ k'.toPrefix.len
        omega
      · exact c1.2.trans (c2.2.mono (Nat.le_of_lt hl'))
  · refine (C25_longestMatch_notFound _ hr k').mpr fun x hx hc => ?_
    have := ((left x).mp ⟨hx, hc⟩).2.2
    omega

/-- `Remove` of a prefix that is no entry changes no lookup -/
theorem C77_remove_absent (t : Table α D) (ht : t.Reachable) (e : D → D → Bool) (he : t.eq = some e) (k : PrefixI α)
    (hk : k.toPrefix.WF) (h : (t.get k).2 = false) (k' : PrefixI α) :
    (t.remove k).1.longestMatch k' = t.longestMatch k' ∧ (t.remove k).1.listed = t.listed := by
  have hr : (t.remove k).1.Reachable := .step t (.remove k) ht (by rw [he]; simp) hk
  have same : ∀ x : Prefix α × D, x ∈ (t.remove k).1.listed ↔ x ∈ t.listed := by
    intro x
    by_cases hx : keyOf x.1 = keyOf k.toPrefix
    · constructor
      · intro h'
        obtain ⟨m, hm⟩ := ht.holds
        have := ((hm.step_map ht he (.remove k) hk).mem).mp h'
        simp only [Entries.Has, Entries.step, Entries.erase] at this
        rw [if_pos hx] at this
        cases this
      · intro h'
        have := listed_key t ht k x.2 x.1 hx h'
        rw [this] at h; cases h
    · exact listed_other t ht e he (.remove k) hk x hx
  refine ⟨longestMatch_congr _ _ hr ht _ _ fun x => by rw [same x], ?_⟩
  exact eq_of_sorted (R := fun x y => LexBefore x.1 y.1) (fun h h' => h.asymm h') (C27_sorted _ hr) (C27_sorted t ht) same

theorem nodup_listed (t : Table α D) (ht : t.Reachable) : t.listed.Nodup :=
  (C27_sorted t ht).imp fun {x y} h e => by rw [e] at h; exact h.asymm h

theorem length_of_mem {β : Type} [DecidableEq β] {L M : List β} (hL : L.Nodup) (hM : M.Nodup) (x : β) (hx : x ∉ M)
    (h : ∀ y, y ∈ L ↔ y = x ∨ y ∈ M) : L.length = M.length + 1 := by
  have : L.Perm (x :: M) := (List.perm_ext_iff_of_nodup hL (List.nodup_cons.mpr ⟨hx, hM⟩)).mpr fun y => by
    rw [h, List.mem_cons]
  rw [this.length_eq, List.length_cons]

/-- The number of entries: one more after an `Insert` that returns true, one less after a `Remove` of an entry. -/
theorem C77_count (t : Table α D) (ht : t.Reachable) (e : D → D → Bool) (he : t.eq = some e) (k : PrefixI α)
    (hk : k.toPrefix.WF) (v : D) :
    ((t.get k).2 = false → (t.insert k v).1.listed.length = t.listed.length + 1) ∧
    ((t.get k).2 = true → (t.remove k).1.listed.length + 1 = t.listed.length ∧
      (t.update k v).1.listed.length = t.listed.length) := by
  obtain ⟨m, hm⟩ := ht.holds
  have hg := hm.shows ht k hk
  simp only [Entries.values] at hg
  refine ⟨fun h => ?_, fun h => ?_⟩
  · cases hx : m (keyOf k.toPrefix) with
    | some x => rw [hx] at hg; simp only [Option.map_some] at hg; rw [hg] at h; cases h
    | none =>
      have hr : (t.insert k v).1.Reachable := .step t (.insert k v) ht (by rw [he]; simp) hk
      have s := hm.step_map ht he (.insert k v) hk
      simp only [Entries.step, hx] at s
      have s : (t.insert k v).1.Holds (m.set (k.toPrefix, v)) := s
      refine length_of_mem (nodup_listed _ hr) (nodup_listed t ht) (k.toPrefix, v) (fun hc => ?_) fun y => ?_
      · have := hm.mem.mp hc
        simp only [Entries.Has, hx] at this
        cases this
      · rw [s.mem, hm.mem]
        simp only [Entries.Has, Entries.set]
        by_cases hy : keyOf y.1 = keyOf k.toPrefix
        · rw [if_pos hy, hy, hx]
          simp only [Option.some.injEq, reduceCtorEq, or_false]
          exact eq_comm
        · rw [if_neg hy]
          refine ⟨.inr, fun h => h.resolve_left fun h => hy (by rw [h])⟩
  · cases hx : m (keyOf k.toPrefix) with
    | none => rw [hx] at hg; simp only [Option.map_none] at hg; rw [hg] at h; cases h
    | some x =>
      have hxk := ((hm _ x).mp hx)
      constructor
      · have hr : (t.remove k).1.Reachable := .step t (.remove k) ht (by rw [he]; simp) hk
        have s : (t.remove k).1.Holds (m.erase k.toPrefix) := hm.step_map ht he (.remove k) hk
        refine (length_of_mem (nodup_listed t ht) (nodup_listed _ hr) x (fun hc => ?_) fun y => ?_).symm
        · have := s.mem.mp hc
          simp only [Entries.Has, Entries.erase, if_pos hxk.2] at this
          cases this
        · rw [s.mem, hm.mem]
          simp only [Entries.Has, Entries.erase]
          by_cases hy : keyOf y.1 = keyOf k.toPrefix
          · rw [if_pos hy, hy, hx]
            simp only [Option.some.injEq, reduceCtorEq, or_false]
            exact eq_comm
          · rw [if_neg hy]
            refine ⟨.inr, fun h => h.resolve_left fun h => hy (by rw [h, hxk.2])⟩
      · have hr : (t.update k v).1.Reachable := .step t (.update k v) ht (by rw [he]; simp) hk
        have s := hm.step_map ht he (.update k v) hk
        simp only [Entries.step, hx] at s
        have s : (t.update k v).1.Holds (m.set (k.toPrefix, if e x.2 v then x.2 else v)) := s
        have hr' : (t.remove k).1.Reachable := .step t (.remove k) ht (by rw [he]; simp) hk
        have s' : (t.remove k).1.Holds (m.erase k.toPrefix) := hm.step_map ht he (.remove k) hk
        have a := length_of_mem (nodup_listed t ht) (nodup_listed _ hr') x (fun hc => by
          have := s'.mem.mp hc
          simp only [Entries.Has, Entries.erase, if_pos hxk.2] at this
          cases this) fun y => by
            rw [s'.mem, hm.mem]
            simp only [Entries.Has, Entries.erase]
            by_cases hy : keyOf y.1 = keyOf k.toPrefix
            · rw [if_pos hy, hy, hx]
              simp only [Option.some.injEq, reduceCtorEq, or_false]
              exact eq_comm
            · rw [if_neg hy]
              refine ⟨.inr, fun h => h.resolve_left fun h => hy (by rw [h, hxk.2])⟩
        have b := length_of_mem (nodup_listed _ hr) (nodup_listed _ hr') (k.toPrefix, if e x.2 v then x.2 else v)
          (fun hc => by
            have := s'.mem.mp hc
            simp [Entries.Has, Entries.erase] at this) fun y => by
            rw [s'.mem, s.mem]
            simp only [Entries.Has, Entries.erase, Entries.set]
            by_cases hy : keyOf y.1 = keyOf k.toPrefix
            · rw [if_pos hy, if_pos hy]
              simp only [Option.some.injEq, reduceCtorEq, or_false]
              exact eq_comm
            · rw [if_neg hy, if_neg hy]
              refine ⟨.inr, fun h => h.resolve_left fun h => hy (by rw [h])⟩
        omega

end

/-! ### examples -/

/-- the hypotheses of the theorems can be met: 10.0.0.1 is in 10.0.0.0/24 and 10.0.0.0/25; after `Remove` of the /25 the
    longest match is the /24 -/
example : Sample.syncL.longestMatch (.address 0x0a000001#32) = (2, true, ⟨0x0a000000#32, 25⟩) ∧
    (Sample.syncL.remove (.prefix ⟨0x0a000000#32, 25⟩)).1.longestMatch (.address 0x0a000001#32) = (1, true, ⟨0x0a000000#32, 24⟩) ∧
    Sample.syncL.longestMatch (.prefix ⟨0x0a000000#32, 24⟩) = (1, true, ⟨0x0a000000#32, 24⟩) := by
  refine ⟨by decide, ?_, by decide⟩
  rw [(C77_removed Sample.syncL Sample.syncL_reachable _ rfl (.prefix ⟨0x0a000000#32, 25⟩) (by decide) (.address 0x0a000001#32) 2
    ⟨0x0a000000#32, 25⟩ (by decide) rfl).1 (by decide)]
  decide

example : ¬ ContainsP (⟨0x0a000000#32, 25⟩ : Prefix (BitVec 32)) (PrefixI.address 0x0a000081#32).toPrefix ∧
    Sample.syncL.longestMatch (.address 0x0a000081#32) = (3, true, ⟨0x0a000080#32, 25⟩) := by
  refine ⟨fun h => ?_, by decide⟩
  have := h.2
  revert this
  unfold InPrefix
  decide

end Addrs

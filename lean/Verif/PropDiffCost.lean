import Verif.HeapDiffCost
import Verif.PropConcMix
import Verif.ConcSamples
/-
  C63: comparing two versions of a table costs no more than the changes between them.
-/
set_option linter.unusedSectionVars false
namespace Addrs
open GoWord LawfulGoWord Prog

section
variable {α D : Type} {L : Lib α D} {good gval : View α D → Obj D → Prop} {fr : L.Call → OldRoots α D}
  {Q : L.Call → List (Event D) → L.Val → View α D → Prop}

/-- the cost of a call that only reads, from some time on -/
theorem Run.reads (ok : LibOk L good gval fr Q) {t s : State L} {g : Ghost α D} (m : MInv good fr Q t g)
    {r : List (Label L × Nat)} (h : Run t r s) {i n : Nat} {P : Prog α D L.Val} (hi : t.threads[i]? = some (some P))
    (hP : P.ReadsAtMost g.fz n) : numSteps i r ≤ n + 1 ∧ numNew i r = 0 := by
  suffices H : (∃ g', MInv good fr Q s g' ∧ g.fz ≤ g'.fz) ∧ numNew i r = 0 ∧
      ((s.threads[i]? = some none ∧ numSteps i r ≤ n + 1) ∨
        ∃ P' k, s.threads[i]? = some (some P') ∧ P'.ReadsAtMost g.fz k ∧ numSteps i r + k ≤ n) by
    obtain ⟨_, h2, ⟨_, h3⟩ | ⟨_, _, _, _, h3⟩⟩ := H
    · exact ⟨h3, h2⟩
    · exact ⟨by omega, h2⟩
  induction h with
  | nil => exact ⟨⟨g, m, View.le_refl _⟩, rfl, Or.inr ⟨P, n, hi, hP, by simp [numSteps, ownSteps]⟩⟩
  | @spawn u r h c hc ih =>
    obtain ⟨⟨g', m', le⟩, h2, h3⟩ := ih
    refine ⟨⟨_, m'.spawn ok hc, le⟩, by simpa [numNew, ownSteps_spawn] using h2, ?_⟩
    have e : numSteps i (r ++ [(.spawn c, 0)]) = numSteps i r := by simp [numSteps, ownSteps_spawn]
    rw [e]
    have : ∀ {x}, u.threads[i]? = some x → (u.spawn c).threads[i]? = some x := by
      intro x hx
      simp only [State.spawn]
      rw [List.getElem?_append_left (List.getElem?_eq_some_iff.mp hx).1]; exact hx
    rcases h3 with ⟨a, b⟩ | ⟨P', k, a, b, d⟩
    · exact Or.inl ⟨this a, b⟩
    · exact Or.inr ⟨P', k, this a, b, d⟩
  | @act u u' r h j hs ih =>
    obtain ⟨⟨g', m', le⟩, h2, h3⟩ := ih
    obtain ⟨g'', m'', le'⟩ := m'.act ok hs
    refine ⟨⟨_, m'', View.le_trans le le'⟩, ?_⟩
    by_cases hji : j = i
    · subst hji
      have en : ∀ x, numSteps j (r ++ [(.act j, x)]) = numSteps j r + 1 := by
        intro x; simp [numSteps, ownSteps_self]
      have ea : ∀ x, numNew j (r ++ [(.act j, x)]) = numNew j r + x := by
        intro x; simp [numNew, ownSteps_self]
      rw [en, ea, h2, Nat.zero_add]
      rcases h3 with ⟨a, b⟩ | ⟨P', k, a, b, d⟩
      · unfold State.act at hs
        rw [a] at hs; cases hs
      · have hlt := (List.getElem?_eq_some_iff.mp a).1
        have hset : ∀ x, (u.threads.set j x)[j]? = some x := fun x => List.getElem?_set_self hlt
        unfold State.act at hs
        rw [a] at hs
        cases P' with
        | ret x => cases hs; exact ⟨by simp, Or.inl ⟨hset _, by omega⟩⟩
        | panic => cases hs
        | stuck => cases hs
        | read p f =>
          obtain ⟨b1, c, b2, b3⟩ := b
          have hc : u.heap[p]? = some c := m'.mem.fz_le _ _ (le _ _ b2)
          simp only [State.actP, hc] at hs
          cases hs
          exact ⟨by simp [State.cont], Or.inr ⟨_, _, hset _, b3, by omega⟩⟩
        | _ => exact b.elim
    · have e1 : ∀ x, numSteps i (r ++ [(.act j, x)]) = numSteps i r := by
        intro x; simp [numSteps, ownSteps_other hji]
      have e2 : ∀ x, numNew i (r ++ [(.act j, x)]) = numNew i r := by
        intro x; simp [numNew, ownSteps_other hji]
      obtain ⟨_, _, _, _, h5, _⟩ := State.act_log hs
      rw [e1, e2]
      obtain ⟨_, _, _, _, hoth, _, _⟩ := State.act_log hs
      refine ⟨h2, ?_⟩
      rw [hoth i (Ne.symm hji)]
      exact h3

end

section
variable {α D σ : Type} [LawfulGoWord α] [Inhabited D] [Comparable D] {F : Nat}

/-- All versions that the table `o` has after a time at which no write on it is in progress have all nodes in
    common but those whose prefix contains the key of a write that was started since. -/
theorem roots_share (hF : 2 * width α + 3 ≤ F) {s : TState α D σ F} (h : s.Reach) {o t n : Nat} {K : List (Prefix α)}
    (hq : Quiet TCall.role s.log o t)
    (hK : ∀ i w b, t ≤ b → b < n → s.log[b]? = some (.start i (.op (some o) w)) → w.writes = true → w.key.toPrefix ∈ K)
    {l : Nat} (hln : l ≤ n) : ∀ {k : Nat} {ob ob' : Obj D}, t ≤ k → k ≤ l → objAt s.log k o = some ob →
      objAt s.log l o = some ob' → SharesAll s.mem K ob.trie ob'.trie := by
  have ok := tableLib_ok (α := α) (D := D) (σ := σ) hF
  obtain ⟨g, inv⟩ := h.inv ok
  induction l using Nat.strongRecOn with
  | ind l ih =>
    intro k ob ob' htk hkl h1 h2
    rcases last_swap inv.entryOk hkl h1 with h6 | ⟨m, i, x, y, ob'', h6, h7, h8, h9, h10, h11⟩
    · rw [h6] at h2; cases h2; exact SharesAll.refl _ _ _
    · obtain ⟨w, p, k2, ob2, T, ob3, a1, a2, a3, a4, a5, a6, a7, a8, a9, _, a10⟩ := table_swap_exact hF h h8
      have e3 : objAt s.log l o = some ob3 :=
        objAt_const (show m + 1 ≤ l from h7) a8 fun p' i x y g1 g2 => h11 p' i x y (by omega) g2
      rw [e3] at h2; cases h2
      have hr : TCall.role (TCall.op (σ := σ) (some o) w) = some (o, some w.removes) := by simp [TCall.role, a2]
      have htp : t ≤ p := hq.later ok h a1 hr h8 (by omega)
      have hk : SharesAll s.mem K ob2.trie ob'.trie := a10.all (hK i w p htp (by omega) a1 a2)
      rcases Nat.le_total k k2 with hle | hle
      · exact (ih k2 (by omega) (by omega) htk hle h1 a5).trans hk
      · exact (ih k (by omega) (by omega) (by omega) hle a5 h1).symm.trans hk

/-- a version of the mutable table `o` between the times `t` and `n` -/
def VersionOf (s : TState α D σ F) (o t n : Nat) (a : Obj D) : Prop :=
  ∃ k ob, t ≤ k ∧ k ≤ n ∧ objAt s.log k o = some ob ∧ ob.trie = a.trie

/-- Let `a` and `b` be two versions of the mutable table `o` since a time `t` at which no write on it was in
    progress, and let `K` hold the keys of all writes on it that were started from then until the second
    version.  A `Diff` of `a` and `b` without an `unchanged` callback ends after at most
    `4 * (width + 1) * |K| + 1` steps, however large the tables are, and allocates nothing. -/
theorem C63_versions (hF : 2 * width α + 3 ≤ F) {s : TState α D σ F} (h : s.Reach) {o t n : Nat} {K : List (Prefix α)}
    (hq : Quiet TCall.role s.log o t)
    (hK : ∀ i w b, t ≤ b → b < n → s.log[b]? = some (.start i (.op (some o) w)) → w.writes = true → w.key.toPrefix ∈ K)
    {a b : Obj D} (ha : VersionOf s o t n a) (hb : VersionOf s o t n b) {cb : TableDiffCallbacks α D σ}
    (hcb : cb.unchanged = none) {x : σ} (hc : s.CanStart (.diff a b cb x)) {r : List (Label (tableLib α D σ F) × Nat)}
    {s' : TState α D σ F} (hr : Run (s.spawn (.diff a b cb x)) r s') :
    numSteps s.threads.length r ≤ 4 * (width α + 1) * K.length + 1 ∧ numNew s.threads.length r = 0 := by
  have ok := tableLib_ok (α := α) (D := D) (σ := σ) hF
  obtain ⟨g, inv, hist⟩ := h.inv' ok
  have ex : Exec tobj TCall.olds TCall.spec s g := ⟨h, inv, hist⟩
  obtain ⟨k, obA, a1, a2, a3, a4⟩ := ha
  obtain ⟨l, obB, b1, b2, b3, b4⟩ := hb
  obtain ⟨⟨T, t1, t2⟩, _⟩ := ex.good_at a3
  obtain ⟨⟨U, u1, u2⟩, _⟩ := ex.good_at b3
  have sh : SharesAll s.mem K obA.trie obB.trie := by
    rcases Nat.le_total k l with hle | hle
    · exact roots_share hF h hq hK b2 a1 hle a3 b3
    · exact (roots_share hF h hq hK a2 b1 hle b3 a3).symm
  have dt : Den g.fz a.trie T.trie := a4 ▸ t1.1
  have du : Den g.fz b.trie U.trie := b4 ▸ u1.1
  have sh : SharesAll g.fz K a.trie b.trie := by
    rw [← a4, ← b4]
    intro n c hn hk
    rw [← in_mono inv.mem.fz_le t1.1, ← in_mono inv.mem.fz_le u1.1]
    exact sh n c (inv.mem.fz_le _ _ hn) hk
  have cost : ((tableLib α D σ F).code (.diff a b cb x)).ReadsAtMost g.fz (4 * (width α + 1) * K.length) := by
    show (Heap.xDiff F a b cb x >>= fun x => pure (.walked x) : Prog α D (TVal α D σ)).ReadsAtMost _ _
    have e1 := Trie.touched_le t2.good.inv K
    have e2 := Trie.touched_le u2.good.inv K
    have e3 := Nat.mul_le_mul_left K.length t2.deep
    have e4 := Nat.mul_le_mul_left K.length u2.deep
    have e5 : 4 * (width α + 1) * K.length = 4 * (K.length * (width α + 1)) := by
      rw [Nat.mul_assoc, Nat.mul_comm (width α + 1)]
    refine ReadsAtMost.weaken (n := 2 * (T.trie.touched K + U.trie.touched K) + 0) ?_ (by omega)
    refine ReadsAtMost.bind ?_ fun _ => trivial
    unfold Heap.xDiff Heap.Diff
    refine Heap.reads_diff ⟨?_, ?_, ?_⟩ ?_ F dt du t2.good.inv u2.good.inv sh x
    · intro v c s; simp only; split <;> exact trivial
    · intro v c s; simp only; split <;> exact trivial
    · intro v c d s
      simp only
      split
      · refine ReadsAtMost.bind (n := 0) (m := 0) ?_ fun e => ?_
        · cases a.eq.call c.data d.data <;> exact trivial
        · split <;> exact trivial
      · split
        · exact trivial
        · split <;> exact trivial
    · simp [TableDiffCallbacks.boxed, hcb]
  have inv' := inv.spawn ok hc
  exact Run.reads ok inv' hr (by simp [State.spawn]) cost

/-- a snapshot is a version -/
theorem freeze_version (hF : 2 * width α + 3 ≤ F) {s : TState α D σ F} (h : s.Reach) {i o p q : Nat} {a : Obj D}
    (hp : s.log[p]? = some (.start i (.freeze (some o)))) (hq : s.log[q]? = some (.done i (.table a))) :
    VersionOf s o p q a := by
  have ok := tableLib_ok (α := α) (D := D) (σ := σ) hF
  obtain ⟨ob, h1, h2, _⟩ : ∃ ob, own i s.log = [.load o ob] ∧ (.table a : TVal α D σ) = .table ob ∧ tval s.mem ob :=
    done_spec' ok h (List.mem_of_getElem? hp) (List.mem_of_getElem? hq)
  cases h2
  obtain ⟨k, k1, k2, k3⟩ := load_between ok h hp hq (o := o) (ob := a) (by rw [h1]; simp)
  exact ⟨k, a, by omega, by omega, k3, rfl⟩

theorem VersionOf.mono {s : TState α D σ F} {o t n t' n' : Nat} {a : Obj D} (h : VersionOf s o t n a) (ht : t' ≤ t)
    (hn : n ≤ n') : VersionOf s o t' n' a := by
  obtain ⟨k, ob, h1, h2, h3, h4⟩ := h
  exact ⟨k, ob, by omega, by omega, h3, h4⟩

/-- Two snapshots of a mutable table, which `Table()` returned, the first of them started at a time `p` at which
    no write on the table was in progress, the second returned at `q'`; the writes that were started in between
    have keys in `K`.  Comparing them, in either order, with nil for `unchanged`, takes at most
    `4 * (width + 1) * |K| + 1` steps, however large the table is, and allocates nothing. -/
theorem C63_snapshots (hF : 2 * width α + 3 ≤ F) {s : TState α D σ F} (h : s.Reach) {i j o p q p' q' : Nat} {a b : Obj D}
    (hp : s.log[p]? = some (.start i (.freeze (some o)))) (hq : s.log[q]? = some (.done i (.table a)))
    (hp' : s.log[p']? = some (.start j (.freeze (some o)))) (hq' : s.log[q']? = some (.done j (.table b)))
    (hqp : q ≤ p') (hquiet : Quiet TCall.role s.log o p) {K : List (Prefix α)}
    (hK : ∀ i w b, p ≤ b → b < q' → s.log[b]? = some (.start i (.op (some o) w)) → w.writes = true → w.key.toPrefix ∈ K)
    {cb : TableDiffCallbacks α D σ} (hcb : cb.unchanged = none) {x : σ} {c : TCall α D σ}
    (hd : c = .diff a b cb x ∨ c = .diff b a cb x) (hc : s.CanStart c)
    {r : List (Label (tableLib α D σ F) × Nat)} {s' : TState α D σ F} (hr : Run (s.spawn c) r s') :
    numSteps s.threads.length r ≤ 4 * (width α + 1) * K.length + 1 ∧ numNew s.threads.length r = 0 := by
  have ok := tableLib_ok (α := α) (D := D) (σ := σ) hF
  have va := freeze_version hF h hp hq
  have vb := freeze_version hF h hp' hq'
  have l1 : p ≤ q := by obtain ⟨k, _, _⟩ := va; omega
  have l2 : p' ≤ q' := by obtain ⟨k, _, _⟩ := vb; omega
  have va := va.mono (Nat.le_refl p) (show q ≤ q' by omega)
  have vb := vb.mono (show p ≤ p' by omega) (Nat.le_refl q')
  rcases hd with rfl | rfl
  · exact C63_versions hF h hquiet hK va vb hcb hc hr
  · exact C63_versions hF h hquiet hK vb va hcb hc hr

/-- A table `a`, a mutable copy of it (`a.Table_()`), and a later snapshot `b` of the copy, whose writes until then
    have keys in `K`: comparing them, in either order, with nil for `unchanged`, takes at most
    `4 * (width + 1) * |K| + 1` steps, however large the table is, and allocates nothing. -/
theorem C63_copy (hF : 2 * width α + 3 ≤ F) {s : TState α D σ F} (h : s.Reach) {i j o p q p' q' : Nat} {a b : Obj D}
    (hp : s.log[p]? = some (.start i (.thaw a))) (hq : s.log[q]? = some (.done i (.handle o)))
    (hp' : s.log[p']? = some (.start j (.freeze (some o)))) (hq' : s.log[q']? = some (.done j (.table b)))
    (hqp : q ≤ p') {K : List (Prefix α)}
    (hK : ∀ i w b, b < q' → s.log[b]? = some (.start i (.op (some o) w)) → w.writes = true → w.key.toPrefix ∈ K)
    {cb : TableDiffCallbacks α D σ} (hcb : cb.unchanged = none) {x : σ} {c : TCall α D σ}
    (hd : c = .diff a b cb x ∨ c = .diff b a cb x) (hc : s.CanStart c)
    {r : List (Label (tableLib α D σ F) × Nat)} {s' : TState α D σ F} (hr : Run (s.spawn c) r s') :
    numSteps s.threads.length r ≤ 4 * (width α + 1) * K.length + 1 ∧ numNew s.threads.length r = 0 := by
  have ok := tableLib_ok (α := α) (D := D) (σ := σ) hF
  obtain ⟨g, inv⟩ := h.inv ok
  have vb := freeze_version hF h hp' hq'
  have l2 : p' ≤ q' := by obtain ⟨k, _, _⟩ := vb; omega
  have vb := vb.mono (show 0 ≤ p' by omega) (Nat.le_refl q')
  have va : VersionOf s o 0 q' a := by
    obtain ⟨o', e, h1, h2, _⟩ : ∃ o' e, own i s.log = [.made o' ⟨a.trie, e⟩] ∧ (.handle o : TVal α D σ) = .handle o' ∧ _ :=
      done_spec' ok h (List.mem_of_getElem? hp) (List.mem_of_getElem? hq)
    cases h2
    obtain ⟨k, hk⟩ := List.mem_iff_getElem?.mp (mem_own.mp (show (.made o ⟨a.trie, e⟩ : Event D) ∈ own i s.log by rw [h1]; simp))
    have := before_done ok h hq hk
    exact ⟨k + 1, _, by omega, by omega, (objAt_made inv.entryOk hk).2, rfl⟩
  have hK' : ∀ i w b, 0 ≤ b → b < q' → s.log[b]? = some (.start i (.op (some o) w)) → w.writes = true → w.key.toPrefix ∈ K :=
    fun i w b _ h1 h2 h3 => hK i w b h1 h2 h3
  rcases hd with rfl | rfl
  · exact C63_versions hF h (Quiet.zero _ _ _) hK' va vb hcb hc hr
  · exact C63_versions hF h (Quiet.zero _ _ _) hK' vb va hcb hc hr

end

namespace Sample

/-- another snapshot of the table of `run1` -/
def runD : List (Sched TL) := [.call (.freeze (some 0)), .finish 6]
def xD : Obj Nat := ⟨some 2, .dflt⟩
def logD : List (Entry Nat TL.Call TL.Val) := [.start 6 (.freeze (some 0)), .act 6 (.load 0 xD), .done 6 (.table xD)]
set_option maxRecDepth 100000 in
theorem runD_ok : (exec s1 runD).isSome := rfl
def sD : State TL := after s1 runD runD_ok
set_option maxRecDepth 100000 in
theorem sD_log : sD.log = log1 ++ logD := rfl

theorem sD_reach : sD.Reach := by
  refine s1_reach.steps (after_steps runD_ok ?_)
  intro c hc
  simp only [runD, List.mem_cons, reduceCtorEq, List.not_mem_nil, or_false] at hc
  cases hc
  exact ⟨trivial, fun x hx => by cases hx⟩

/-- no callbacks -/
def noCb : TableDiffCallbacks (BitVec 32) Nat Unit := ⟨none, none, none, none⟩

theorem sD_quiet : Quiet TCall.role sD.log 0 8 := by
  intro i c κ hs hr
  have e : sD.log.take 8 = log1.take 8 := by rw [sD_log, List.take_append_of_le_length (by decide)]
  rw [e] at hs ⊢
  simp only [log1, List.take_succ_cons, List.take_zero, List.mem_cons, reduceCtorEq, List.not_mem_nil, or_false, false_or] at hs
  rcases hs with ⟨rfl, rfl⟩ | ⟨rfl, rfl⟩
  · cases hr
  · exact Or.inl ⟨.result (.bool true), by simp [log1]⟩

/-- The snapshot that was taken before the two concurrent writes (one of which panicked) and one taken after
    them. -/
example {r : List (Label TL × Nat)} {s' : State TL} (hr : Run (sD.spawn (.diff x1 xD noCb ())) r s') :
    numSteps sD.threads.length r ≤ 4 * 33 * 2 + 1 ∧ numNew sD.threads.length r = 0 := by
  refine C63_snapshots (by decide) sD_reach (i := 2) (j := 6) (o := 0) (p := 8) (q := 10) (p' := 23) (q' := 25) (a := x1)
    (b := xD) (by rw [sD_log]; rfl) (by rw [sD_log]; rfl) (by rw [sD_log]; rfl) (by rw [sD_log]; rfl) (by decide) sD_quiet
    (K := [c2.toPrefix, c3.toPrefix]) ?_ (cb := noCb) rfl (Or.inl rfl) ?_ hr
  · intro i w b h1 h2 hs hw
    have := List.mem_of_getElem? (l := sD.log.drop 8) (i := b - 8) (by rw [List.getElem?_drop]; rw [show 8 + (b - 8) = b by omega]; exact hs)
    rw [sD_log] at this
    simp only [log1, logD, List.cons_append, List.nil_append, List.drop_succ_cons, List.drop_zero, List.mem_cons, reduceCtorEq,
      List.not_mem_nil, or_false, false_or] at this
    rcases this with h | h | h | h | h <;> cases h
    · simp [TableOp.key]
    · simp [TableOp.key]
    · cases hw
  · refine ⟨(⟨fun h => (by cases h), fun _ cmp h => (by cases h)⟩ : HasEq x1 ∧ (noCb.unchanged = none →
      ∀ cmp, x1.eq = .custom cmp → (∀ x, cmp x x = true) ∨ noCb.changed = none)), fun o h => (by cases h), ?_⟩
    intro x hx
    rcases List.mem_cons.mp hx with rfl | hx
    · exact Or.inr ⟨2, .table x1, by rw [sD_log]; simp [log1], List.mem_singleton_self _⟩
    · cases List.mem_singleton.mp hx
      exact Or.inr ⟨6, .table xD, by rw [sD_log]; simp [logD], List.mem_singleton_self _⟩

/-- A snapshot, and one of a modified copy of it. -/
example {r : List (Label TL × Nat)} {s' : State TL} (hr : Run (s2.spawn (.diff x2 x1 noCb ())) r s') :
    numSteps s2.threads.length r ≤ 4 * 33 * 2 + 1 ∧ numNew s2.threads.length r = 0 := by
  refine C63_copy (by decide) s2_reach (i := 7) (j := 10) (o := 1) (p := 24) (q := 26) (p' := 37) (q' := 39) (a := x1)
    (b := x2) (by rw [s2_log]; rfl) (by rw [s2_log]; rfl) (by rw [s2_log]; rfl) (by rw [s2_log]; rfl) (by decide)
    (K := [c1.toPrefix, c2.toPrefix]) ?_ (cb := noCb) rfl (Or.inr rfl) ?_ hr
  · intro i w b h2 hs hw
    have := List.mem_of_getElem? hs
    rw [s2_log] at this
    simp only [log1, log2, List.cons_append, List.nil_append, List.mem_cons, reduceCtorEq,
      List.not_mem_nil, or_false, false_or] at this
    rcases this with h | h | h | h | h | h | h | h | h | h | h | h <;> cases h <;> simp [TableOp.key]
  · refine ⟨(⟨fun h => (by cases h), fun _ cmp h => (by cases h)⟩ : HasEq x2 ∧ (noCb.unchanged = none →
      ∀ cmp, x2.eq = .custom cmp → (∀ x, cmp x x = true) ∨ noCb.changed = none)), fun o h => (by cases h), ?_⟩
    intro x hx
    rcases List.mem_cons.mp hx with rfl | hx
    · exact Or.inr ⟨10, .table x2, by rw [s2_log]; simp [log2], List.mem_singleton_self _⟩
    · cases List.mem_singleton.mp hx
      exact Or.inr ⟨2, .table x1, by rw [s2_log]; simp [log1], List.mem_singleton_self _⟩

end Sample
end Addrs

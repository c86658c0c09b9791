import Verif.ConcTime
/-
  Linearizability of the objects of a package, for executions in which writes of different kinds do not
  overlap.
-/
set_option linter.unusedSectionVars false
namespace Addrs
open GoWord Prog

section
variable {D C V : Type}

/-- While thread `i` is between an access to `o` and a later action, thread `j` changes `o`. -/
def Interferes (log : List (Entry D C V)) (o i j : Nat) : Prop :=
  j ≠ i ∧ ∃ k p l ob x y e, k < p ∧ p < l ∧ At log k i (.load o ob) ∧ At log p j (.swap o x y) ∧ At log l i e

/-- Writes on `o` that overlap are of the same kind.  `role c = some (o, some κ)`: the call writes to `o`
    and is of kind `κ`; `some (o, none)`: it reads `o`. -/
def Disciplined {K : Type} (role : C → Option (Nat × Option K)) (log : List (Entry D C V)) (o : Nat) : Prop :=
  ∀ i j ci cj κ, Interferes log o i j → .start i ci ∈ log → .start j cj ∈ log → role ci = some (o, some κ) →
    role cj = some (o, some κ)

/-- The same for writes that had read `o` before time `t` only. -/
def DisciplinedUntil {K : Type} (role : C → Option (Nat × Option K)) (log : List (Entry D C V)) (o t : Nat) : Prop :=
  ∀ i j ci cj κ k p l ob x y e, j ≠ i → k < t → k < p → p < l → At log k i (.load o ob) → At log p j (.swap o x y) →
    At log l i e → .start i ci ∈ log → .start j cj ∈ log → role ci = some (o, some κ) → role cj = some (o, some κ)

theorem Disciplined.until {K : Type} {role : C → Option (Nat × Option K)} {log : List (Entry D C V)} {o : Nat}
    (h : Disciplined role log o) (t : Nat) : DisciplinedUntil role log o t :=
  fun i j ci cj κ k p l ob x y e h1 _ h3 h4 h5 h6 h7 =>
    h i j ci cj κ ⟨h1, k, p, l, ob, x, y, e, h3, h4, h5, h6, h7⟩

/-- thread `i` ended before thread `j` was started -/
def Precedes (log : List (Entry D C V)) (i j : Nat) : Prop :=
  ∃ (k l : Nat) (x : V) (c : C), k < l ∧ log[k]? = some (Entry.done i x) ∧ log[l]? = some (Entry.start j c)

end

/-- Running calls one after the other, in the order of the list, from one abstract state to another: each
    call has the effect `eff`, with the result that it returned if it has returned. -/
inductive SeqRun {α D A : Type} {L : Lib α D}
    (eff : L.Call → List (Event D) → View α D → A → L.Val → A → Prop) (s : State L) : A → List Nat → A → Prop
  | nil (a : A) : SeqRun eff s a [] a
  | snoc (a b b' : A) (is : List Nat) (i : Nat) (c : L.Call) (z : L.Val) (v : View α D)
      (h : SeqRun eff s a is b) (hs : .start i c ∈ s.log) (he : eff c (own i s.log) v b z b')
      (hd : ∀ z', .done i z' ∈ s.log → z' = z ∧ v = View.ofHeap s.heap) : SeqRun eff s a (is ++ [i]) b'

/-- The object `o` is linearizable: there is an order of calls on `o`, containing all that have returned,
    that respects the real-time order and explains all results and the present state. -/
def Linearizable {α D A K : Type} {L : Lib α D} (role : L.Call → Option (Nat × Option K))
    (abs : View α D → Obj D → A → Prop) (eff : L.Call → List (Event D) → View α D → A → L.Val → A → Prop)
    (s : State L) (o : Nat) : Prop :=
  ∃ (order : List Nat) (ob0 ob : Obj D) (a0 a : A) (m : Nat), order.Nodup ∧
    (∀ i c z κ, .start i c ∈ s.log → .done i z ∈ s.log → role c = some (o, κ) → i ∈ order) ∧
    (∀ i ∈ order, (∃ c κ, .start i c ∈ s.log ∧ role c = some (o, κ)) ∧ ∀ o' q, .fail i o' q ∉ s.log) ∧
    order.Pairwise (fun i j => ¬ Precedes s.log j i) ∧
    .act m (.made o ob0) ∈ s.log ∧ abs (View.ofHeap s.heap) ob0 a0 ∧
    s.objs[o]? = some ob ∧ abs (View.ofHeap s.heap) ob a ∧
    SeqRun eff s a0 order a

/-- What is needed of the package. -/
structure LinOk {α D A K : Type} {L : Lib α D} (good : View α D → Obj D → Prop) (fr : L.Call → OldRoots α D)
    (Q : L.Call → List (Event D) → L.Val → View α D → Prop) (role : L.Call → Option (Nat × Option K))
    (abs : View α D → Obj D → A → Prop) (eff : L.Call → List (Event D) → View α D → A → L.Val → A → Prop)
    (frc : K → Bool) (le : K → A → A → Prop) : Prop where
  abs_good : ∀ {v ob}, good v ob → ∃ a, abs v ob a
  abs_fun : ∀ {v ob a a'}, abs v ob a → abs v ob a' → a = a'
  abs_mono : ∀ {v v' ob a}, v ≤ v' → abs v ob a → abs v' ob a
  eff_mono : ∀ {c tr v v' a z a'}, v ≤ v' → eff c tr v a z a' → eff c tr v' a z a'
  none_ : ∀ {c tr z v}, Q c tr z v → role c = none → ∀ o x y, .swap o x y ∉ tr
  read : ∀ {c tr z v o}, Q c tr z v → role c = some (o, none) → (∀ o' x y, .swap o' x y ∉ tr) ∧
    ∃ pre ob post a, tr = pre ++ .load o ob :: post ∧ abs v ob a ∧ eff c tr v a z a
  write : ∀ {c tr z v o κ}, Q c tr z v → role c = some (o, some κ) →
    ∃ ob1 pre ob2 post a2 a', (∀ o' x y, .swap o' x y ∉ pre ++ post) ∧ abs v ob2 a2 ∧ eff c tr v a2 z a' ∧
      ((tr = .load o ob1 :: pre ++ .load o ob2 :: post ∧ (a' = a2 ∨ (frc κ = false ∧ abs v ob1 a' ∧ fr c v [.load o ob2] o ob1.trie))) ∨
        ∃ new, tr = (.load o ob1 :: pre ++ .load o ob2 :: post) ++ [.swap o ob1.trie new] ∧ new ≠ ob1.trie ∧
          abs v { ob1 with trie := new } a')
  fresh : ∀ {c o κ v tr q}, role c = some (o, some κ) → frc κ = true → fr c v tr o q → ∃ ob, .load o ob ∈ tr ∧ ob.trie = q
  le_refl : ∀ κ a, le κ a a
  le_trans : ∀ {κ a b c}, le κ a b → le κ b c → le κ a c
  le_antisymm : ∀ {κ a b}, frc κ = false → le κ a b → le κ b a → a = b
  le_eff : ∀ {c tr v a z a' o κ}, role c = some (o, some κ) → frc κ = false → eff c tr v a z a' → le κ a a'

/-- the only swap is the last action -/
theorem snoc_swap {D : Type} {A B L : List (Event D)} {o o' : Nat} {x y x' y' : Ptr}
    (h : A ++ .swap o x y :: B = L ++ [.swap o' x' y']) (hL : ∀ o x y, .swap o x y ∉ L) :
    A = L ∧ o = o' ∧ x = x' ∧ y = y' ∧ B = [] := by
  rcases List.eq_nil_or_concat B with rfl | ⟨B', w, rfl⟩
  · obtain ⟨h1, h2⟩ := List.append_inj' h rfl
    cases h2
    exact ⟨h1, rfl, rfl, rfl, rfl⟩
  · have h' : (A ++ .swap o x y :: B') ++ [w] = L ++ [.swap o' x' y'] := by simpa using h
    obtain ⟨h1, _⟩ := List.append_inj' h' rfl
    exact (hL o x y (by rw [← h1]; simp)).elim

section
variable {α D A K : Type} {L : Lib α D} {good gval : View α D → Obj D → Prop} {fr : L.Call → OldRoots α D}
  {Q : L.Call → List (Event D) → L.Val → View α D → Prop} {role : L.Call → Option (Nat × Option K)}
  {abs : View α D → Obj D → A → Prop} {eff : L.Call → List (Event D) → View α D → A → L.Val → A → Prop}
  {frc : K → Bool} {le : K → A → A → Prop}

/-- an execution, its invariant, and the goodness of all its roots -/
structure Exec (good : View α D → Obj D → Prop) (fr : L.Call → OldRoots α D)
    (Q : L.Call → List (Event D) → L.Val → View α D → Prop) (s : State L) (g : Ghost α D) : Prop where
  reach : s.Reach
  inv : MInv good fr Q s g
  hist : ∀ a b, s.log = a ++ b → ∀ ob ∈ replay a, good g.fz ob

theorem Exec.good_at {s : State L} {g : Ghost α D} (x : Exec good fr Q s g) {k o : Nat} {ob : Obj D}
    (h : objAt s.log k o = some ob) : good g.fz ob :=
  x.hist (s.log.take k) (s.log.drop k) (List.take_append_drop k _).symm ob (List.mem_of_getElem? h)

/-- Until time `t` overlapping writes on `o` are of the same kind; from then on every root that is swapped into `o` is
    new, and a call that computes the root that it read first changes nothing. -/
structure RootsAnew (fr : L.Call → OldRoots α D) (role : L.Call → Option (Nat × Option K))
    (abs : View α D → Obj D → A → Prop) (s : State L) (g : Ghost α D) (o t : Nat) : Prop where
  disc : DisciplinedUntil role s.log o t
  anew : ∀ k i x y, t ≤ k → At s.log k i (.swap o x y) → ∃ p, y = some p ∧ ¬ Seen (s.log.take k) (some p)
  whole : ∀ i c κ ob1 ob2 a1 a2 k1 k2, .start i c ∈ s.log → role c = some (o, some κ) → t ≤ k1 → k1 < k2 → At s.log k1 i (.load o ob1) →
    At s.log k2 i (.load o ob2) → fr c g.fz [.load o ob2] o ob1.trie → abs g.fz ob1 a1 → abs g.fz ob2 a2 → a1 = a2

/-- everything about a swap -/
structure SwapFacts (role : L.Call → Option (Nat × Option K)) (abs : View α D → Obj D → A → Prop)
    (eff : L.Call → List (Event D) → View α D → A → L.Val → A → Prop) (s : State L) (g : Ghost α D)
    (k i o : Nat) (x y : Ptr) (c : L.Call) (κ : K) (k1 k2 : Nat) (ob1 ob2 : Obj D) (a2 a' : A) (z : L.Val)
    (v : View α D) : Prop where
  start : .start i c ∈ s.log
  role_ : role c = some (o, some κ)
  k12 : k1 < k2
  k2k : k2 < k
  at1 : At s.log k1 i (.load o ob1)
  at2 : At s.log k2 i (.load o ob2)
  old : ob1.trie = x
  ne : y ≠ x
  abs2 : abs g.fz ob2 a2
  absNew : abs g.fz { ob1 with trie := y } a'
  eff_ : eff c (own i s.log) v a2 z a'
  vle : g.fz ≤ v
  done : ∀ z', .done i z' ∈ s.log → z' = z ∧ v = g.fz
  first : ∀ l e, At s.log l i e → k1 ≤ l
  once : ∀ l o' x' y', At s.log l i (.swap o' x' y') → l = k
  cur : objAt s.log k o = some ob1
  next : objAt s.log (k + 1) o = some { ob1 with trie := y }

theorem swap_facts (ok : LibOk L good gval fr Q) (lin : LinOk good fr Q role abs eff frc le) {s : State L}
    {g : Ghost α D} (ex : Exec good fr Q s g) {k i o : Nat} {x y : Ptr} (hk : At s.log k i (.swap o x y)) :
    ∃ c κ k1 k2 ob1 ob2 a2 a' z v, SwapFacts role abs eff s g k i o x y c κ k1 k2 ob1 ob2 a2 a' z v := by
  obtain ⟨c, z, ext, v, h1, h2, h3, h4⟩ := swap_spec ok ex.reach ex.inv hk.mem
  have hown := own_at hk
  have hmem : (.swap o x y : Event D) ∈ own i s.log ++ ext := by rw [hown]; simp
  cases hr : role c with
  | none => exact (lin.none_ h3 hr _ _ _ hmem).elim
  | some r =>
    obtain ⟨o', κ⟩ := r
    cases κ with
    | none => exact ((lin.read h3 hr).1 _ _ _ hmem).elim
    | some κ =>
      obtain ⟨ob1, pre, ob2, post, a2, a', hns, h5, h6, h7⟩ := lin.write h3 hr
      have hnsL : ∀ o'' x y, (.swap o'' x y : Event D) ∉ .load o' ob1 :: pre ++ .load o' ob2 :: post := by
        intro o'' x y hh
        simp only [List.cons_append, List.mem_cons, List.mem_append] at hh
        rcases hh with hh | hh | hh | hh
        · cases hh
        · exact hns o'' x y (List.mem_append.mpr (Or.inl hh))
        · cases hh
        · exact hns o'' x y (List.mem_append.mpr (Or.inr hh))
      rcases h7 with ⟨h7, _⟩ | ⟨new, h7, h8, h9⟩
      · rw [h7] at hmem
        exact (hnsL _ _ _ hmem).elim
      · rw [hown, List.append_assoc, List.cons_append] at h7
        obtain ⟨e1, rfl, rfl, rfl, e5⟩ := snoc_swap h7 hnsL
        obtain ⟨e6, rfl⟩ := List.append_eq_nil_iff.mp e5
        rw [List.append_nil] at h6
        have hown' : own i s.log = (.load o ob1 :: pre ++ .load o ob2 :: post) ++ [.swap o ob1.trie y] := by
          rw [hown, e1, e6]
        obtain ⟨k1, p1, p2, p3⟩ := own_split (i := i) (log := s.log) (x := []) (e := .load o ob1)
          (y := pre ++ .load o ob2 :: post ++ [.swap o ob1.trie y]) (by rw [hown']; simp)
        obtain ⟨k2, q1, q2, q3⟩ := own_split (i := i) (log := s.log) (x := .load o ob1 :: pre) (e := .load o ob2)
          (y := post ++ [.swap o ob1.trie y]) (by rw [hown']; simp)
        have l1 : (own i (s.log.take k1)).length = 0 := by rw [p2]; rfl
        have l2 : (own i (s.log.take k2)).length = pre.length + 1 := by rw [q2]; rfl
        have l3 : (own i (s.log.take k)).length = pre.length + 1 + (post.length + 1) := by rw [e1]; simp; omega
        have hlog := ex.inv.entryOk
        obtain ⟨ob, c1, c2, c3⟩ := objAt_swap hlog hk
        have k12 : k1 < k2 := own_lt (by rw [l1, l2]; omega)
        have k2k : k2 < k := own_lt (by rw [l2, l3]; omega)
        obtain ⟨ob', d1, d2⟩ := objAt_later hlog (show k1 ≤ k by omega) (objAt_load hlog p1)
        rw [c1] at d1
        cases d1
        have hobe : ob = ob1 := by cases ob; cases ob1; simp only at c2 d2; rw [c2, d2]
        subst hobe
        have hgood2 : good g.fz ob2 := ex.good_at (objAt_load hlog q1)
        refine ⟨c, κ, k1, k2, ob, ob2, a2, a', z, v, ⟨h1, hr, k12, k2k, p1, q1, rfl, h8, ?_, ?_, h6, h2, ?_, ?_, ?_,
          c1, c3⟩⟩
        · obtain ⟨b, hb⟩ := lin.abs_good hgood2
          rw [lin.abs_fun h5 (lin.abs_mono h2 hb)]; exact hb
        · obtain ⟨b, hb⟩ := lin.abs_good (ex.good_at c3)
          rw [lin.abs_fun h9 (lin.abs_mono h2 hb)]; exact hb
        · intro z' hz'
          exact ⟨(h4 z' hz').1, (h4 z' hz').2.1⟩
        · intro l e hl
          apply Nat.le_of_not_lt
          intro hlt
          have := own_take_le (i := i) (log := s.log) (k := l + 1) (l := k1) hlt
          rw [take_succ_at hl, own_snoc_act, List.length_append, l1] at this
          simp at this
        · intro l o' x' y' hl
          have hol := own_at hl
          rw [hown'] at hol
          obtain ⟨e7, _⟩ := snoc_swap hol.symm hnsL
          exact own_at_inj hl hk (by rw [e7, e1])

/-- the call of a thread -/
theorem start_take (ok : LibOk L good gval fr Q) {s : State L} {g : Ghost α D} (ex : Exec good fr Q s g) {k i : Nat}
    {e : Event D} {c : L.Call} (h : At s.log k i e) (hs : .start i c ∈ s.log) : .start i c ∈ s.log.take k := by
  obtain ⟨⟨c', h1⟩, _⟩ := started_before ok ex.reach (at_split h) (by intros; simp)
  have h1 : .start i c' ∈ s.log.take k := h1
  rw [ex.inv.start_uniq i c c' hs (List.mem_of_mem_take h1)]
  exact h1

/-- A write of a kind marked `frc` swaps in a root that was never seen before. -/
theorem fresh_swap (ok : LibOk L good gval fr Q) (lin : LinOk good fr Q role abs eff frc le) {s : State L}
    {g : Ghost α D} (ex : Exec good fr Q s g) {o t : Nat} (tame : RootsAnew fr role abs s g o t) :
    ∀ (k i : Nat) (x y : Ptr) (c : L.Call) (κ : K), At s.log k i (.swap o x y) → .start i c ∈ s.log →
      role c = some (o, some κ) → frc κ = true → ∃ p, y = some p ∧ ¬ Seen (s.log.take k) (some p) := by
  intro k
  induction k using Nat.strongRecOn with
  | ind k ih =>
  intro i x y c κ hk hc hr hf
  obtain ⟨c', κ', k1, k2, ob1, ob2, a2, a', z, v, F⟩ := swap_facts ok lin ex hk
  have := ex.inv.start_uniq i c c' hc F.start
  subst this
  have hlog := ex.inv.entryOk
  have hst := start_take ok ex hk hc
  by_cases htk : t ≤ k
  · exact tame.anew k i x y htk hk
  rcases ex.inv.roots _ _ _ (at_split hk) i o x y c rfl hst with h | h
  · exact h
  · exfalso
    obtain ⟨ob, h1, h2⟩ := lin.fresh hr hf h
    rw [mem_own] at h1
    obtain ⟨l, hl⟩ := List.mem_iff_getElem?.mp h1
    have hlk : l < k := by
      have := (List.getElem?_eq_some_iff.mp hl).1
      rw [List.length_take] at this; omega
    have hl' : At s.log l i (.load o ob) := by
      unfold At; rw [← hl, List.getElem?_take_of_lt hlk]
    have h1l := F.first l _ hl'
    have hneq : y ≠ x := F.ne
    rcases last_swap hlog (Nat.le_of_lt hlk) (objAt_load hlog hl') with h3 | ⟨p, j, x', y', ob', h3, h4, h5, h6, h7, _⟩
    · rw [F.cur] at h3
      cases h3
      exact hneq (h2.symm.trans F.old)
    · rw [F.cur] at h6
      cases h6
      have hy' : y' = x := h7.symm.trans F.old
      subst hy'
      have hpl : l ≠ p := by rintro rfl; rw [At, hl'] at h5; cases h5
      have hji : j ≠ i := by
        rintro rfl
        have := F.once p _ _ _ h5
        omega
      obtain ⟨cj, κj, _, _, _, _, _, _, _, _, Fj⟩ := swap_facts ok lin ex h5
      have hrj := tame.disc i j c cj κ k1 p k ob1 x' _ _ hji (by omega) (by omega) h4 F.at1 h5 hk hc Fj.start hr
      obtain ⟨q, hq, hns⟩ := ih p h4 j x' _ cj κ h5 Fj.start hrj hf
      apply hns
      rw [← hq, ← F.old]
      exact objAt_seen (by omega) (objAt_load hlog F.at1)

/-- a root that was read earlier cannot have come back -/
theorem fresh_quiet (ok : LibOk L good gval fr Q) (lin : LinOk good fr Q role abs eff frc le) {s : State L}
    {g : Ghost α D} (ex : Exec good fr Q s g) {o t : Nat} (tame : RootsAnew fr role abs s g o t)
    {k i : Nat} {x y : Ptr} {c : L.Call} {κ : K} {k1 k2 : Nat} {ob1 ob2 : Obj D} {a2 a' : A} {z : L.Val} {v : View α D}
    (hk : At s.log k i (.swap o x y)) (F : SwapFacts role abs eff s g k i o x y c κ k1 k2 ob1 ob2 a2 a' z v)
    (hh : t ≤ k1 ∨ frc κ = true) : ∀ p j u w, k1 < p → p < k → ¬ At s.log p j (.swap o u w) := by
  have hlog := ex.inv.entryOk
  have key : ∀ p j u w, k1 < p → p < k → At s.log p j (.swap o u w) → w ≠ x := by
    rintro p j u w h1 h2 hp rfl
    have hji : j ≠ i := by
      rintro rfl
      have := F.once p _ _ _ hp
      omega
    obtain ⟨cj, κj, _, _, _, _, _, _, _, _, Fj⟩ := swap_facts ok lin ex hp
    have hnew : ∃ q, w = some q ∧ ¬ Seen (s.log.take p) (some q) := by
      by_cases htk : t ≤ k1
      · exact tame.anew p j u _ (by omega) hp
      · rcases hh with hh | hh
        · omega
        have hrj := tame.disc i j c cj κ k1 p k ob1 u _ _ hji (by omega) h1 h2 F.at1 hp hk F.start Fj.start F.role_
        exact fresh_swap ok lin ex tame p j u _ cj κ hp Fj.start hrj hh
    obtain ⟨q, hq, hns⟩ := hnew
    apply hns
    rw [← hq, ← F.old]
    exact objAt_seen (by omega) (objAt_load hlog F.at1)
  intro p j u w h1 h2 hp
  obtain ⟨ob, _, _, h5⟩ := objAt_swap hlog hp
  rcases last_swap hlog (show p + 1 ≤ k from h2) h5 with h6 | ⟨p', j', x', y', ob', h6, h7, h8, h9, h10, _⟩
  · rw [F.cur] at h6
    injection h6 with h6
    have h7 : ob1.trie = w := by rw [h6]
    exact key p j u w h1 h2 hp (h7.symm.trans F.old)
  · rw [F.cur] at h9
    cases h9
    exact key p' j' x' y' (by omega) h7 h8 (h10.symm.trans F.old)

/-- abstract states in a window in which every swap increases them -/
theorem mono_between (lin : LinOk good fr Q role abs eff frc le) {s : State L} {g : Ghost α D}
    (ex : Exec good fr Q s g) {o : Nat} {κ : K} {k0 K0 : Nat}
    (hw : ∀ p j u w, k0 < p → p < K0 → At s.log p j (.swap o u w) →
      ∃ ob ob' a a', objAt s.log p o = some ob ∧ objAt s.log (p + 1) o = some ob' ∧ abs g.fz ob a ∧
        abs g.fz ob' a' ∧ le κ a a') {l l' : Nat} {ob ob' : Obj D} {a a' : A} (h0 : k0 < l) (h1 : l ≤ l') (h2 : l' ≤ K0)
    (ho : objAt s.log l o = some ob) (ha : abs g.fz ob a) (ho' : objAt s.log l' o = some ob') (ha' : abs g.fz ob' a') :
    le κ a a' := by
  induction l' generalizing ob' a' with
  | zero => omega
  | succ l' ih =>
    rcases Nat.lt_or_ge l' l with hlt | hge
    · have : l = l' + 1 := by omega
      subst this
      rw [ho] at ho'
      cases ho'
      rw [lin.abs_fun ha ha']
      exact lin.le_refl _ _
    · obtain ⟨obm, hm, _⟩ := objAt_later ex.inv.entryOk hge ho
      obtain ⟨am, ham⟩ := lin.abs_good (ex.good_at hm)
      have h3 := ih hge (by omega) hm ham
      by_cases hs : ∃ j u w, At s.log l' j (.swap o u w)
      · obtain ⟨j, u, w, hs⟩ := hs
        obtain ⟨x, x', b, b', e1, e2, e3, e4, e5⟩ := hw l' j u w (by omega) (by omega) hs
        rw [hm] at e1
        cases e1
        rw [ho'] at e2
        cases e2
        rw [lin.abs_fun ham e3] at h3
        rw [lin.abs_fun ha' e4]
        exact lin.le_trans h3 e5
      · rw [objAt_other hm fun j u w h => hs ⟨j, u, w, h⟩] at ho'
        cases ho'
        rw [lin.abs_fun ha' ham]
        exact h3

/-- a swap has the effect of its call on the state at that moment -/
theorem swap_effect (ok : LibOk L good gval fr Q) (lin : LinOk good fr Q role abs eff frc le) {s : State L}
    {g : Ghost α D} (ex : Exec good fr Q s g) {o t : Nat} (tame : RootsAnew fr role abs s g o t) :
    ∀ (k i : Nat) (x y : Ptr), At s.log k i (.swap o x y) →
      ∃ c κ ob a a' z v, .start i c ∈ s.log ∧ role c = some (o, some κ) ∧ objAt s.log k o = some ob ∧
        abs g.fz ob a ∧ objAt s.log (k + 1) o = some { ob with trie := y } ∧ abs g.fz { ob with trie := y } a' ∧
        eff c (own i s.log) v a z a' ∧ (∀ z', .done i z' ∈ s.log → z' = z ∧ v = g.fz) ∧
        ∀ l o' x' y', At s.log l i (.swap o' x' y') → l = k := by
  intro k
  induction k using Nat.strongRecOn with
  | ind k ih =>
  intro i x y hk
  obtain ⟨c, κ, k1, k2, ob1, ob2, a2, a', z, v, F⟩ := swap_facts ok lin ex hk
  have hlog := ex.inv.entryOk
  refine ⟨c, κ, ob1, a2, a', z, v, F.start, F.role_, F.cur, ?_, F.next, F.absNew, F.eff_, F.done, F.once⟩
  by_cases hh : t ≤ k1 ∨ frc κ = true
  · have hq := fresh_quiet ok lin ex tame hk F hh
    have := objAt_const (Nat.le_of_lt F.k2k) (objAt_load hlog F.at2)
      (fun p j u w h1 h2 => hq p j u w (by have := F.k12; omega) h2)
    rw [F.cur] at this
    cases this
    exact F.abs2
  · have hf : frc κ = false := by
      cases h : frc κ with
      | false => rfl
      | true => exact (hh (Or.inr h)).elim
    have hkt : k1 < t := by
      apply Nat.lt_of_not_le
      exact fun h => hh (Or.inl h)
    obtain ⟨a1, ha1⟩ := lin.abs_good (ex.good_at F.cur)
    have hw : ∀ p j u w, k1 < p → p < k → At s.log p j (.swap o u w) →
        ∃ ob ob' a a', objAt s.log p o = some ob ∧ objAt s.log (p + 1) o = some ob' ∧ abs g.fz ob a ∧
          abs g.fz ob' a' ∧ le κ a a' := by
      intro p j u w h1 h2 hp
      have hji : j ≠ i := by
        rintro rfl
        have := F.once p _ _ _ hp
        omega
      obtain ⟨cj, κj, ob, a, a', z, v, e1, e2, e3, e4, e5, e6, e7, _⟩ := ih p h2 j u w hp
      have hrj := tame.disc i j c cj κ k1 p k ob1 u _ _ hji hkt h1 h2 F.at1 hp hk F.start e1 F.role_
      exact ⟨ob, _, a, a', e3, e5, e4, e6, lin.le_eff hrj hf e7⟩
    have k12 := F.k12
    have k2k := F.k2k
    have h1 : objAt s.log (k1 + 1) o = some ob1 := objAt_other (objAt_load hlog F.at1) (by
      intro j u w h; rw [At, F.at1] at h; cases h)
    have le1 := mono_between lin ex hw (l := k1 + 1) (l' := k2) (by omega) (by omega) (by omega) h1 ha1
      (objAt_load hlog F.at2) F.abs2
    have le2 := mono_between lin ex hw (l := k2) (l' := k) (by omega) (by omega) (by omega)
      (objAt_load hlog F.at2) F.abs2 F.cur ha1
    rw [← lin.le_antisymm hf le1 le2]
    exact ha1

/-- the moment at which a call takes effect -/
def Effect (abs : View α D → Obj D → A → Prop) (eff : L.Call → List (Event D) → View α D → A → L.Val → A → Prop)
    (role : L.Call → Option (Nat × Option K)) (s : State L) (g : Ghost α D) (o i k : Nat) : Prop :=
  (∃ e, At s.log k i e) ∧
  (∃ c κ ob ob' a a' z v, .start i c ∈ s.log ∧ role c = some (o, κ) ∧ objAt s.log k o = some ob ∧ abs g.fz ob a ∧
    objAt s.log (k + 1) o = some ob' ∧ abs g.fz ob' a' ∧ eff c (own i s.log) v a z a' ∧
    ∀ z', .done i z' ∈ s.log → z' = z ∧ v = g.fz) ∧
  ∀ l x y, At s.log l i (.swap o x y) → l = k

/-- a read takes effect when it reads the object -/
theorem read_effect (ok : LibOk L good gval fr Q) (lin : LinOk good fr Q role abs eff frc le) {s : State L}
    {g : Ghost α D} (ex : Exec good fr Q s g) {o i : Nat} {c : L.Call} {z : L.Val} (hs : .start i c ∈ s.log)
    (hd : .done i z ∈ s.log) (hr : role c = some (o, none)) : ∃ k, Effect abs eff role s g o i k := by
  obtain ⟨c', h1, h2⟩ := ex.inv.done_spec i z hd
  have := ex.inv.start_uniq i c c' hs h1
  subst this
  obtain ⟨hns, pre, ob, post, a, h3, h4, h5⟩ := lin.read h2 hr
  obtain ⟨k, hk, _⟩ := own_split h3
  have hlog := ex.inv.entryOk
  have hob := objAt_load hlog hk
  have hob' : objAt s.log (k + 1) o = some ob := objAt_other hob (by
      intro j u w h; rw [At, hk] at h; cases h)
  refine ⟨k, ⟨_, hk⟩, ⟨c, none, ob, ob, a, a, z, g.fz, hs, hr, hob, h4, hob', h4, h5, ?_⟩, ?_⟩
  · intro z' hz'
    refine ⟨?_, rfl⟩
    exact done_uniq ok ex.reach hz' hd
  · intro l x y hl
    exact (hns _ _ _ (mem_own.mpr hl.mem)).elim
where
  done_uniq (ok : LibOk L good gval fr Q) {s : State L} (h : s.Reach) {i : Nat} {z z' : L.Val}
      (hz : .done i z ∈ s.log) (hz' : .done i z' ∈ s.log) : z = z' := by
    have key : ∀ a b : List (Entry D L.Call L.Val), ∀ z z', s.log = a ++ .done i z :: b → .done i z' ∉ b := by
      intro a b z z' hab hb
      obtain ⟨b1, b2, hb⟩ := List.append_of_mem hb
      rw [hb] at hab
      have h2 := (started_before ok h (a := a ++ .done i z :: b1) (b := b2) (e := .done i z')
        (by rw [hab]; simp) (by intros; simp)).2.1
      exact h2 z (by simp [Entry.tid])
    obtain ⟨a, b, hab⟩ := List.append_of_mem hz
    rw [hab] at hz'
    rcases List.mem_append.mp hz' with h3 | h3
    · obtain ⟨b1, b2, hb⟩ := List.append_of_mem h3
      rw [hb] at hab
      exact (key b1 (b2 ++ .done i z :: b) z' z (by rw [hab]; simp) (by simp)).elim
    · cases h3 with
      | head => rfl
      | tail _ h3 => exact (key a b z z' hab h3).elim

/-- a completed write that did not swap takes effect when it reads the object for the second time -/
theorem write_effect (ok : LibOk L good gval fr Q) (lin : LinOk good fr Q role abs eff frc le) {s : State L}
    {g : Ghost α D} (ex : Exec good fr Q s g) {o i t : Nat} (tame : RootsAnew fr role abs s g o t) {c : L.Call} {z : L.Val}
    {κ : K} (hs : .start i c ∈ s.log)
    (hd : .done i z ∈ s.log) (hr : role c = some (o, some κ)) : ∃ k, Effect abs eff role s g o i k := by
  by_cases hsw : ∃ k x y, At s.log k i (.swap o x y)
  · obtain ⟨k, x, y, hk⟩ := hsw
    obtain ⟨c', κ', ob, a, a', z', v, h1, h2, h3, h4, h5, h6, h7, h8, h9⟩ := swap_effect ok lin ex tame k i x y hk
    exact ⟨k, ⟨_, hk⟩, ⟨c', some κ', ob, _, a, a', z', v, h1, h2, h3, h4, h5, h6, h7, h8⟩,
      fun l x y hl => h9 l o x y hl⟩
  · have hns : ∀ k x y, ¬ At s.log k i (.swap o x y) := fun k x y h => hsw ⟨k, x, y, h⟩
    obtain ⟨c', h1, h2⟩ := ex.inv.done_spec i z hd
    have := ex.inv.start_uniq i c c' hs h1
    subst this
    have hlog := ex.inv.entryOk
    obtain ⟨ob1, pre, ob2, post, a2, a', _, h5, h6, h7⟩ := lin.write h2 hr
    rcases h7 with ⟨h7, h8⟩ | ⟨new, h7, _⟩
    · obtain ⟨k1, p1, p2, p3⟩ := own_split (i := i) (log := s.log) (x := []) (e := .load o ob1)
        (y := pre ++ .load o ob2 :: post) (by rw [h7]; simp)
      obtain ⟨k2, q1, q2, q3⟩ := own_split (i := i) (log := s.log) (x := .load o ob1 :: pre) (e := .load o ob2)
        (y := post) (by rw [h7])
      have k12 : k1 < k2 := own_lt (by rw [p2, q2]; simp)
      have hob := objAt_load hlog q1
      have hob' : objAt s.log (k2 + 1) o = some ob2 := objAt_other hob (by
        intro j u w h; rw [At, q1] at h; cases h)
      have ha : a' = a2 := by
        rcases h8 with h8 | ⟨hf, h8, h9⟩
        · exact h8
        · by_cases htk : t ≤ k1
          · exact tame.whole i c κ ob1 ob2 a' a2 k1 k2 hs hr htk k12 p1 q1 h9 h8 h5
          have hw : ∀ p j u w, k1 < p → p < k2 → At s.log p j (.swap o u w) →
              ∃ ob ob' a a', objAt s.log p o = some ob ∧ objAt s.log (p + 1) o = some ob' ∧ abs g.fz ob a ∧
                abs g.fz ob' a' ∧ le κ a a' := by
            intro p j u w h1' h2' hp
            have hji : j ≠ i := by
              rintro rfl
              exact hns _ _ _ hp
            obtain ⟨cj, κj, ob, a, a', z, v, e1, e2, e3, e4, e5, e6, e7, _⟩ := swap_effect ok lin ex tame p j u w hp
            have hrj := tame.disc i j c cj κ k1 p k2 ob1 u _ _ hji (by omega) h1' h2' p1 hp q1 hs e1 hr
            exact ⟨ob, _, a, a', e3, e5, e4, e6, lin.le_eff hrj hf e7⟩
          have hk1 : objAt s.log (k1 + 1) o = some ob1 := objAt_other (objAt_load hlog p1) (by
            intro j u w h; rw [At, p1] at h; cases h)
          have le1 := mono_between lin ex hw (l := k1 + 1) (l' := k2) (by omega) (by omega) (by omega) hk1 h8
            hob h5
          exact lin.le_antisymm hf le1 (lin.le_eff hr hf h6)
      subst ha
      refine ⟨k2, ⟨_, q1⟩, ⟨c, some κ, ob2, ob2, a', a', z, g.fz, hs, hr, hob, h5, hob', h5, h6, ?_⟩,
        fun l x y hl => (hns l x y hl).elim⟩
      intro z' hz'
      exact ⟨read_effect.done_uniq ok ex.reach hz' hd, rfl⟩
    · exfalso
      have : (.swap o ob1.trie new : Event D) ∈ own i s.log := by rw [h7]; simp
      obtain ⟨k, hk⟩ := List.mem_iff_getElem?.mp (mem_own.mp this)
      exact hns k _ _ hk

end

/-! ### The order -/

section
variable {α D A K : Type} {L : Lib α D} {good gval : View α D → Obj D → Prop} {fr : L.Call → OldRoots α D}
  {Q : L.Call → List (Event D) → L.Val → View α D → Prop} {role : L.Call → Option (Nat × Option K)}
  {abs : View α D → Obj D → A → Prop} {eff : L.Call → List (Event D) → View α D → A → L.Val → A → Prop}
  {frc : K → Bool} {le : K → A → A → Prop}

/-- nothing of a thread is in the log before its start -/
theorem start_first (ok : LibOk L good gval fr Q) {s : State L} (h : s.Reach) {k l i : Nat} {c : L.Call}
    {e : Entry D L.Call L.Val} (hk : s.log[k]? = some (.start i c)) (hl : s.log[l]? = some e) (he : e.tid = i)
    (hs : ∀ c, e ≠ .start i c) : k < l := by
  apply Classical.byContradiction
  intro hn
  have hne : l ≠ k := by rintro rfl; rw [hl] at hk; cases hk; exact hs _ rfl
  obtain ⟨s0, s1, h1, h2, _, h4, h5⟩ := h.split (at_split hk)
  have hmem : e ∈ s0.log := by
    rw [h4]
    exact List.mem_of_getElem? (i := l) (by rw [List.getElem?_take_of_lt (by omega)]; exact hl)
  obtain ⟨g, m⟩ := h1.inv ok
  have hlt := m.tid e hmem
  cases h2 with
  | spawn c' _ =>
    rw [← h4] at h5
    have := List.append_cancel_left h5
    cases this
    rw [he] at hlt
    omega
  | act j _ hact =>
    rw [← h4] at h5
    obtain ⟨_, _, _, h6 | ⟨e', h6, _, h8⟩, _⟩ := State.act_log hact
    · rw [h6] at h5; simp at h5
    · rw [h6] at h5
      have := List.append_cancel_left h5
      cases this
      exact h8 _ _ rfl

/-- actions of a thread come before its end -/
theorem before_done (ok : LibOk L good gval fr Q) {s : State L} (h : s.Reach) {k l i : Nat} {z : L.Val} {e : Event D}
    (hk : s.log[k]? = some (.done i z)) (hl : At s.log l i e) : l < k := by
  apply Classical.byContradiction
  intro hn
  have hne : l ≠ k := by rintro rfl; rw [hl] at hk; cases hk
  have := (started_before ok h (at_split hl) (by intros; simp)).2.1 z
  apply this
  exact List.mem_of_getElem? (i := k) (by rw [List.getElem?_take_of_lt (by omega)]; exact hk)

/-- a call that has returned did not fail -/
theorem no_fail_done (ok : LibOk L good gval fr Q) {s : State L} (h : s.Reach) {i o : Nat} {z : L.Val} {q : Ptr}
    (hs : .done i z ∈ s.log) (hf : .fail i o q ∈ s.log) : False := by
  obtain ⟨k, hk⟩ := List.mem_iff_getElem?.mp hs
  obtain ⟨l, hl⟩ := List.mem_iff_getElem?.mp hf
  have h1 := (started_before ok h (at_split hk) (by intros; simp)).2.2 o q
  have h2 := (started_before ok h (at_split hl) (by intros; simp)).2.1 z
  rcases Nat.lt_trichotomy k l with hlt | rfl | hlt
  · exact h2 (List.mem_of_getElem? (i := k) (by rw [List.getElem?_take_of_lt (by omega)]; exact hk))
  · rw [hk] at hl; cases hl
  · exact h1 (List.mem_of_getElem? (i := l) (by rw [List.getElem?_take_of_lt (by omega)]; exact hl))

open Classical in
/-- the chosen time of thread `i` -/
noncomputable def pt (P : Nat → Nat → Prop) (i : Nat) : Option Nat :=
  if h : ∃ k, P i k then some h.choose else none

theorem pt_spec {P : Nat → Nat → Prop} {i k : Nat} (h : pt P i = some k) : P i k := by
  unfold pt at h
  split at h
  · next hx => cases h; exact hx.choose_spec
  · cases h

theorem pt_some {P : Nat → Nat → Prop} {i k : Nat} (h : P i k) : ∃ k', pt P i = some k' := by
  unfold pt
  rw [dif_pos ⟨k, h⟩]
  exact ⟨_, rfl⟩

/-- the thread that takes effect with entry `k` -/
noncomputable def emit (P : Nat → Nat → Prop) (log : List (Entry D L.Call L.Val)) (k : Nat) : Option Nat :=
  match log[k]? with
  | some e => if pt P e.tid = some k then some e.tid else none
  | none => none

/-- the threads in the order in which they take effect, up to time `n` -/
noncomputable def ord (P : Nat → Nat → Prop) (log : List (Entry D L.Call L.Val)) (n : Nat) : List Nat :=
  (List.range n).filterMap (emit P log)

theorem ord_succ (P : Nat → Nat → Prop) (log : List (Entry D L.Call L.Val)) (n : Nat) :
    ord P log (n + 1) = ord P log n ++ (emit P log n).toList := by
  unfold ord
  rw [List.range_succ, List.filterMap_append]
  congr 1

theorem emit_spec {P : Nat → Nat → Prop} {log : List (Entry D L.Call L.Val)} {k i : Nat}
    (h : emit P log k = some i) : pt P i = some k := by
  unfold emit at h
  split at h
  · split at h
    · next h1 => cases h; exact h1
    · cases h
  · cases h

/-- The objects of the package are linearizable if overlapping writes are of the same kind, or roots do not come
    back. -/
theorem linearizable_tame (ok : LibOk L good gval fr Q) (lin : LinOk good fr Q role abs eff frc le) {s : State L}
    (h : s.Reach) {o t : Nat} (ho : o < s.objs.length) (tame : ∀ g, Exec good fr Q s g → RootsAnew fr role abs s g o t) :
    Linearizable role abs eff s o := by
  obtain ⟨g, inv, hist⟩ := h.inv' ok
  have ex : Exec good fr Q s g := ⟨h, inv, hist⟩
  have tame := tame g ex
  have hlog := inv.entryOk
  -- the times
  let P : Nat → Nat → Prop := fun i k => Effect abs eff role s g o i k ∧
    ((∃ l x y, At s.log l i (.swap o x y)) ∨ ∃ z, .done i z ∈ s.log)
  have hP : ∀ i k, pt P i = some k → P i k := fun i k h => pt_spec h
  have hemit : ∀ i k, pt P i = some k → emit P s.log k = some i := by
    intro i k hp
    obtain ⟨⟨⟨e, he⟩, _⟩, _⟩ := hP i k hp
    unfold emit
    rw [he]
    simp only [Entry.tid, hp, if_true]
  have hswap : ∀ k i x y, At s.log k i (.swap o x y) → emit P s.log k = some i := by
    intro k i x y hk
    obtain ⟨c', κ', ob, a, a', z', v, h1, h2, h3, h4, h5, h6, h7, h8, h9⟩ := swap_effect ok lin ex tame k i x y hk
    have hp : P i k := ⟨⟨⟨_, hk⟩, ⟨c', some κ', ob, _, a, a', z', v, h1, h2, h3, h4, h5, h6, h7, h8⟩,
      fun l x y hl => h9 l o x y hl⟩, Or.inl ⟨k, x, y, hk⟩⟩
    obtain ⟨k', hk'⟩ := pt_some hp
    have := (hP i k' hk').1.2.2 k x y hk
    subst this
    exact hemit i k hk'
  -- the creation of the object
  have hmade : ∃ mk m ob0, At s.log mk m (.made o ob0) := by
    have key : ∀ n, n ≤ s.log.length → o < (replay (s.log.take n)).length →
        ∃ mk m ob0, At s.log mk m (.made o ob0) := by
      intro n
      induction n with
      | zero => intro _ hh; simp [replay] at hh
      | succ n ih =>
        intro hn hh
        by_cases hlt : o < (replay (s.log.take n)).length
        · exact ih (by omega) hlt
        · have hx : s.log[n]? = some s.log[n] := List.getElem?_eq_getElem (by omega)
          rw [take_succ_at hx, replay_snoc] at hh
          have hok := hlog _ _ _ (at_split hx)
          generalize s.log[n] = e at hx hh hok
          cases e with
          | act j e =>
            cases e with
            | made o' ob0 =>
              have h1 : (replay1 (replay (s.log.take n)) (.act j (.made o' ob0) : Entry D L.Call L.Val)).length =
                (replay (s.log.take n)).length + 1 := by simp [replay1]
              have h2 : o' = (replay (s.log.take n)).length := hok
              have : o' = o := by omega
              subst this
              exact ⟨n, j, ob0, hx⟩
            | load o' ob0 => exact (hlt hh).elim
            | swap o' x y =>
              simp only [replay1] at hh
              split at hh
              · rw [List.length_set] at hh; exact (hlt hh).elim
              · exact (hlt hh).elim
          | start i c => exact (hlt hh).elim
          | fail i o' q => exact (hlt hh).elim
          | done i x => exact (hlt hh).elim
    exact key s.log.length (Nat.le_refl _) (by rw [List.take_length, inv.replayed]; exact ho)
  obtain ⟨mk, m, ob0, hmk⟩ := hmade
  have hnone : ∀ k, k ≤ mk → objAt s.log k o = none := by
    intro k hk
    cases hx : objAt s.log k o with
    | none => rfl
    | some ob =>
      obtain ⟨ob', h1, _⟩ := objAt_later hlog hk hx
      have h2 : o = (replay (s.log.take mk)).length := hlog _ _ _ (at_split hmk)
      have h3 := (List.getElem?_eq_some_iff.mp h1).1
      omega
  have hinit : objAt s.log (mk + 1) o = some ob0 := by
    rw [objAt_succ hmk]
    have h2 : o = (replay (s.log.take mk)).length := hlog _ _ _ (at_split hmk)
    show (_ ++ [ob0])[o]? = _
    rw [h2, List.getElem?_append_right (Nat.le_refl _), Nat.sub_self]
    rfl
  have hord0 : ∀ n, n ≤ mk + 1 → ord P s.log n = [] := by
    intro n hn
    unfold ord
    rw [List.filterMap_eq_nil_iff]
    intro k hk
    rw [List.mem_range] at hk
    cases hx : emit P s.log k with
    | none => rfl
    | some i =>
      obtain ⟨⟨_, ⟨c, κ, ob, ob', a, a', z, v, _, _, h3, _⟩, _⟩, _⟩ := hP i k (emit_spec hx)
      rw [hnone k (by omega)] at h3
      cases h3
  obtain ⟨a0, ha0⟩ := lin.abs_good (ex.good_at hinit)
  -- the run
  have hrun : ∀ n, mk < n → ∃ ob a, objAt s.log n o = some ob ∧ abs g.fz ob a ∧ SeqRun eff s a0 (ord P s.log n) a := by
    intro n
    induction n with
    | zero => intro hh; omega
    | succ n ih =>
      intro hn
      by_cases he : n = mk
      · subst he
        exact ⟨ob0, a0, hinit, ha0, by rw [hord0 _ (Nat.le_refl _)]; exact .nil _⟩
      · obtain ⟨ob, a, h1, h2, h3⟩ := ih (by omega)
        rw [ord_succ]
        cases hx : emit P s.log n with
        | none =>
          refine ⟨ob, a, objAt_other h1 ?_, h2, by simpa using h3⟩
          intro i x y hs
          rw [hswap n i x y hs] at hx
          cases hx
        | some i =>
          obtain ⟨⟨_, ⟨c, κ, ob1, ob', a1, a', z, v, e1, e2, e3, e4, e5, e6, e7, e8⟩, _⟩, _⟩ := hP i n (emit_spec hx)
          rw [h1] at e3
          cases e3
          have := lin.abs_fun h2 e4
          subst this
          refine ⟨ob', a', e5, e6, ?_⟩
          by_cases hd : ∃ z', .done i z' ∈ s.log
          · obtain ⟨z', hz'⟩ := hd
            obtain ⟨rfl, rfl⟩ := e8 z' hz'
            refine .snoc _ _ _ _ i c z' (View.ofHeap s.heap) h3 e1 (lin.eff_mono inv.mem.fz_le e7) ?_
            intro z'' hz''
            exact ⟨(e8 z'' hz'').1, rfl⟩
          · exact .snoc _ _ _ _ i c z v h3 e1 e7 fun z' hz' => (hd ⟨z', hz'⟩).elim
  obtain ⟨ob, a, h1, h2, h3⟩ := hrun s.log.length hmk.lt
  refine ⟨ord P s.log s.log.length, ob0, ob, a0, a, m, ?_, ?_, ?_, ?_, hmk.mem,
    lin.abs_mono inv.mem.fz_le ha0, ?_, lin.abs_mono inv.mem.fz_le h2, h3⟩
  · unfold ord List.Nodup
    rw [List.pairwise_filterMap]
    refine List.pairwise_lt_range.imp ?_
    intro k l hkl i hi j hj
    rintro rfl
    have h1 := emit_spec hi
    rw [emit_spec hj] at h1
    cases h1
    omega
  · intro i c z κ hs hd hr
    have : ∃ k, Effect abs eff role s g o i k := by
      cases κ with
      | none => exact read_effect ok lin ex hs hd hr
      | some κ => exact write_effect ok lin ex tame hs hd hr
    obtain ⟨k, hk⟩ := this
    have hp : P i k := ⟨hk, Or.inr ⟨z, hd⟩⟩
    obtain ⟨k', hk'⟩ := pt_some hp
    obtain ⟨⟨⟨e, he⟩, _⟩, _⟩ := hP i k' hk'
    unfold ord
    rw [List.mem_filterMap]
    exact ⟨k', List.mem_range.mpr he.lt, hemit i k' hk'⟩
  · intro i hi
    unfold ord at hi
    rw [List.mem_filterMap] at hi
    obtain ⟨k, _, hk⟩ := hi
    obtain ⟨⟨_, ⟨c, κ, _, _, _, _, _, _, e1, e2, _⟩, _⟩, hh⟩ := hP i k (emit_spec hk)
    refine ⟨⟨c, κ, e1, e2⟩, ?_⟩
    intro o' q hf
    rcases hh with ⟨l, x, y, hl⟩ | ⟨z, hz⟩
    · exact no_fail_swap ok h hl.mem hf
    · exact no_fail_done ok h hz hf
  · unfold ord
    rw [List.pairwise_filterMap]
    refine List.pairwise_lt_range.imp ?_
    rintro k l hkl i hi j hj ⟨p, q, z, c, hpq, h4, h5⟩
    obtain ⟨⟨⟨e, he⟩, _⟩, _⟩ := hP i k (emit_spec hi)
    obtain ⟨⟨⟨e', he'⟩, _⟩, _⟩ := hP j l (emit_spec hj)
    have h6 := before_done ok h h4 he'
    have h7 := start_first ok h h5 he rfl (by intros; simp)
    omega
  · rw [← inv.objAt_end o]; exact h1

/-- The objects of the package are linearizable if overlapping writes are of the same kind. -/
theorem linearizable (ok : LibOk L good gval fr Q) (lin : LinOk good fr Q role abs eff frc le) {s : State L}
    (h : s.Reach) {o : Nat} (ho : o < s.objs.length) (disc : Disciplined role s.log o) :
    Linearizable role abs eff s o :=
  linearizable_tame ok lin h (t := s.log.length) ho fun _ _ =>
    ⟨disc.until _, fun k _ _ _ h1 h2 => absurd h2.lt (by omega),
      fun _ _ _ _ _ _ _ _ _ _ _ _ _ h1 => absurd h1.lt (by omega)⟩

end
end Addrs

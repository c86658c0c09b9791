import Verif.Race
/-
  Executions without races: every thread relies only on nodes whose writes happen before it.
-/
set_option linter.unusedSectionVars false
namespace Addrs
open GoWord Prog

namespace Ghost
variable {α D : Type}

/-- thread `i` is started with the frozen nodes in `X` -/
def begin_ (g : Ghost α D) (i : Nat) (X : View α D) : Ghost α D :=
  { g with views := upd g.views i X, bases := upd g.bases i X, ws := upd g.ws i Prog.Nowhere }
/-- thread `i` learns of the frozen nodes in `X` -/
def learn (g : Ghost α D) (i : Nat) (X : View α D) : Ghost α D :=
  { g with views := upd g.views i (View.join (g.views i) X), bases := upd g.bases i (View.join (g.bases i) X) }

theorem none_of_le {u v : View α D} (h : u ≤ v) {a : Nat} (hv : v a = none) : u a = none := by
  cases e : u a with
  | none => rfl
  | some c => rw [h _ _ e] at hv; cases hv

theorem Mem.begin_ {g : Ghost α D} {h : List (Cell α D)} (m : g.Mem h) (i : Nat) {X : View α D} (hX : X ≤ g.fz) :
    (g.begin_ i X).Mem h where
  fz_le := m.fz_le
  v_le j := by
    by_cases e : j = i
    · subst e; simpa [Ghost.begin_] using View.le_trans hX m.fz_le
    · simpa [Ghost.begin_, upd_ne _ _ e] using m.v_le j
  base_le j := by
    by_cases e : j = i
    · subst e; simpa [Ghost.begin_] using hX
    · simpa [Ghost.begin_, upd_ne _ _ e] using m.base_le j
  priv j a h1 h2 := by
    by_cases e : j = i
    · subst e; simp [Ghost.begin_] at h1 h2; exact (h1 h2).elim
    · simp [Ghost.begin_, upd_ne _ _ e] at h1 h2 ⊢
      obtain ⟨h3, h4⟩ := m.priv j a h1 h2
      refine ⟨h3, fun k hk => ?_⟩
      by_cases e' : k = i
      · subst e'; simpa using none_of_le hX h3
      · simpa [upd_ne _ _ e'] using h4 k hk
  wsub j a hw := by
    by_cases e : j = i
    · subst e; simp [Ghost.begin_, Prog.Nowhere] at hw
    · simp [Ghost.begin_, upd_ne _ _ e] at hw ⊢; exact m.wsub j a hw

theorem Mem.learn {g : Ghost α D} {h : List (Cell α D)} (m : g.Mem h) (i : Nat) {X : View α D} (hX : X ≤ g.fz) :
    (g.learn i X).Mem h := by
  refine ⟨m.fz_le, ?_, ?_, ?_, ?_⟩
  · intro j
    by_cases e : j = i
    · subst e; simpa only [Ghost.learn, upd_same] using View.join_le (m.v_le j) (View.le_trans hX m.fz_le)
    · simpa only [Ghost.learn, upd_ne _ _ e] using m.v_le j
  · intro j
    by_cases e : j = i
    · subst e; simpa only [Ghost.learn, upd_same] using View.join_le (m.base_le j) hX
    · simpa only [Ghost.learn, upd_ne _ _ e] using m.base_le j
  · intro j a h1 h2
    have hk : ∀ k, k ≠ j → g.fz a = none → g.views k a = none → (g.learn i X).views k a = none := by
      intro k _ h3 h4
      by_cases e : k = i
      · subst e; simp only [Ghost.learn, upd_same]; exact View.join_none.mpr ⟨h4, none_of_le hX h3⟩
      · simpa only [Ghost.learn, upd_ne _ _ e] using h4
    by_cases e : j = i
    · subst e
      simp only [Ghost.learn, upd_same] at h1 h2
      obtain ⟨h4, h5⟩ := View.join_none.mp h2
      have h3 : g.views j a ≠ none := fun h => h1 (View.join_none.mpr ⟨h, h5⟩)
      obtain ⟨h5, h6⟩ := m.priv j a h3 h4
      exact ⟨h5, fun k hk' => hk k hk' h5 (h6 k hk')⟩
    · simp only [Ghost.learn, upd_ne _ _ e] at h1 h2
      obtain ⟨h5, h6⟩ := m.priv j a h1 h2
      exact ⟨h5, fun k hk' => hk k hk' h5 (h6 k hk')⟩
  · intro j a hw
    obtain ⟨h1, h2⟩ := m.wsub j a hw
    by_cases e : j = i
    · subst e
      simp only [Ghost.learn, upd_same]
      exact ⟨fun h => h1 (View.join_none.mp h).1, View.join_none.mpr ⟨h2, none_of_le hX (m.priv j a h1 h2).1⟩⟩
    · simp only [Ghost.learn, upd_ne _ _ e]
      exact ⟨h1, h2⟩

end Ghost

section
variable {α D : Type} {L : Lib α D} {good gval : View α D → Obj D → Prop} {fr : L.Call → OldRoots α D}
  {Q : L.Call → List (Event D) → L.Val → View α D → Prop}

/-- What is assumed of the whole execution `Tf` and its happens-before order `hb`: every access to the root
    of an object comes after all writes to it that were made before. -/
structure Hyp (L : Lib α D) (Tf : History L.Call L.Val) (hb : Nat → Nat → Prop) : Prop where
  po : ∀ {p q i x y}, p < q → StepAt Tf p i x → StepAt Tf q i y → hb p q
  trans : ∀ {p q r}, hb p q → hb q r → hb p r
  lt : ∀ {p q}, hb p q → p < q
  vals : ∀ {q j c}, StepAt Tf q j (.start c) → ∀ x ∈ L.vals c, x = .zero ∨
    ∃ p i v, StepAt Tf p i (.done v) ∧ x ∈ L.outs v ∧ hb p q
  roots : ∀ {p q i j x y o}, p < q → StepAt Tf p i x → x.loc = some (.root o) → x.writes = true →
    StepAt Tf q j y → y.loc = some (.root o) → hb p q

/-- `T` writes to node `a` at `w` -/
def WritesNode (T : History L.Call L.Val) (w a : Nat) : Prop :=
  ∃ j x, StepAt T w j x ∧ x.loc = some (.node a) ∧ x.writes = true

/-- the invariant: `T` are the steps so far -/
structure RInv (good : View α D → Obj D → Prop) (fr : L.Call → OldRoots α D)
    (Q : L.Call → List (Event D) → L.Val → View α D → Prop) (hb : Nat → Nat → Prop)
    (T : History L.Call L.Val) (s : State L) (g : Ghost α D) : Prop where
  mem : g.Mem s.heap
  sub : ∀ i, g.bases i ≤ g.views i
  thr : ∀ i P, s.threads[i]? = some (some P) → (∃ c n, .start i c ∈ s.log ∧ (∀ o, n o → o < s.objs.length) ∧
    cwp good (fr c) (Q c) P (g.views i) (g.bases i) (g.ws i) n (own i s.log)) ∨ P = .panic
  dones : ∀ p i v, StepAt T p i (.done v) → g.views i ≤ g.fz ∧ ∃ c tr, Q c tr v (g.views i)
  objs : ∀ (o : Nat) (ob : Obj D), s.objs[o]? = some ob → ∃ p i x u, StepAt T p i x ∧ x.loc = some (.root o) ∧ x.writes = true ∧
    u ≤ g.fz ∧ good u ob ∧ ∀ w a, u a ≠ none → WritesNode T w a → hb w p
  vis : ∀ i a, g.views i a ≠ none → ∀ w, WritesNode T w a → ∃ q y, StepAt T q i y ∧ (w = q ∨ hb w q)
  own : ∀ i a, g.views i a ≠ none → g.bases i a = none → ∀ w j x, StepAt T w j x → x.loc = some (.node a) → j = i
  bound : ∀ w j x a, StepAt T w j x → x.loc = some (.node a) → a < s.heap.length
  nodes : ∀ p q i j x y a, p < q → StepAt T p i x → StepAt T q j y → i ≠ j → x.loc = some (.node a) →
    y.loc = some (.node a) → (x.writes = true ∨ y.writes = true) → hb p q

theorem stepAt_append {C V : Type} {T U : History C V} {p i : Nat} {x : Access C V} (h : StepAt T p i x) : StepAt (T ++ U) p i x := by
  unfold StepAt at h ⊢
  rw [List.getElem?_append_left (List.getElem?_eq_some_iff.mp h).1]
  exact h

theorem stepAt_prefix {C V : Type} {T U : History C V} {p i : Nat} {x : Access C V} (h : StepAt (T ++ U) p i x) (hp : p < T.length) :
    StepAt T p i x := by
  unfold StepAt at h ⊢
  rw [List.getElem?_append_left hp] at h
  exact h

theorem RInv.init {hb : Nat → Nat → Prop} : RInv (L := L) good fr Q hb [] State.init
    ⟨fun _ => none, fun _ _ => none, fun _ _ => none, fun _ => Nowhere⟩ := by
  refine ⟨⟨?_, ?_, ?_, ?_, ?_⟩, ?_, ?_, ?_, ?_, ?_, ?_, ?_, ?_⟩
  all_goals simp [State.init, Nowhere, StepAt]
  · intro a c h; cases h
  · intro a c h; cases h
  · exact View.le_refl _
  · exact View.le_refl _

/-- the frozen nodes all writes to which happen before position `q` -/
noncomputable def visible (hb : Nat → Nat → Prop) (T : History L.Call L.Val) (fz : View α D) (q : Nat) : View α D :=
  fun a => open Classical in if ∀ w, WritesNode T w a → hb w q then fz a else none

theorem visible_le {hb : Nat → Nat → Prop} {T : History L.Call L.Val} {fz : View α D} {q : Nat} :
    visible (L := L) hb T fz q ≤ fz := by
  intro a c h
  unfold visible at h
  split at h
  · exact h
  · cases h

theorem visible_hb {hb : Nat → Nat → Prop} {T : History L.Call L.Val} {fz : View α D} {q a : Nat}
    (h : visible (L := L) hb T fz q a ≠ none) : ∀ w, WritesNode T w a → hb w q := by
  unfold visible at h
  split at h
  · next h' => exact h'
  · exact (h rfl).elim

theorem le_visible {hb : Nat → Nat → Prop} {T : History L.Call L.Val} {fz u : View α D} {q : Nat} (hu : u ≤ fz)
    (h : ∀ w a, u a ≠ none → WritesNode T w a → hb w q) : u ≤ visible (L := L) hb T fz q := by
  intro a c hc
  unfold visible
  rw [if_pos (fun w hw => h w a (by rw [hc]; simp) hw)]
  exact hu _ _ hc

theorem writesNode_snoc {T : History L.Call L.Val} {i w a : Nat} {x : Access L.Call L.Val} :
    WritesNode (T ++ [(i, x)]) w a ↔ WritesNode T w a ∨ (w = T.length ∧ x.loc = some (.node a) ∧ x.writes = true) := by
  constructor
  · rintro ⟨j, y, h1, h2, h3⟩
    rcases stepAt_snoc.mp h1 with h1 | ⟨h4, _, rfl⟩
    · exact Or.inl ⟨j, y, h1, h2, h3⟩
    · exact Or.inr ⟨h4, h2, h3⟩
  · rintro (⟨j, y, h1, h2, h3⟩ | ⟨h1, h2, h3⟩)
    · exact ⟨j, y, stepAt_append h1, h2, h3⟩
    · exact ⟨i, x, stepAt_snoc.mpr (Or.inr ⟨h1, rfl, rfl⟩), h2, h3⟩

/-- what a step has to preserve -/
theorem RInv.snoc {hb : Nat → Nat → Prop} {T : History L.Call L.Val} {s s' : State L} {g g' : Ghost α D}
    (h : RInv good fr Q hb T s g) {i : Nat} {x : Access L.Call L.Val} (hnd : ∀ p v, ¬ StepAt T p i (.done v))
    (mem : g'.Mem s'.heap) (hsub : g'.bases i ≤ g'.views i) (hfz : g.fz ≤ g'.fz)
    (hother : ∀ j, j ≠ i → g'.views j = g.views j ∧ g'.bases j = g.bases j ∧ g'.ws j = g.ws j)
    (hthr : ∀ P, s'.threads[i]? = some (some P) → (∃ c n, .start i c ∈ s'.log ∧ (∀ o, n o → o < s'.objs.length) ∧
      cwp good (fr c) (Q c) P (g'.views i) (g'.bases i) (g'.ws i) n (Addrs.own i s'.log)) ∨ P = .panic)
    (hthrs : ∀ j P, j ≠ i → s'.threads[j]? = some (some P) → s.threads[j]? = some (some P))
    (hlog : ∀ j, j ≠ i → Addrs.own j s'.log = Addrs.own j s.log) (hstart : ∀ j c, .start j c ∈ s.log → .start j c ∈ s'.log)
    (hlen : s.objs.length ≤ s'.objs.length)
    (hdone : ∀ v, x = .done v → g'.views i ≤ g'.fz ∧ ∃ c tr, Q c tr v (g'.views i))
    (hobjs : ∀ (o : Nat) (ob : Obj D), s'.objs[o]? = some ob → s.objs[o]? = some ob ∨
      (x.loc = some (.root o) ∧ x.writes = true ∧ ∃ u, u ≤ g'.fz ∧ good u ob ∧ ∀ w a, u a ≠ none → WritesNode T w a → hb w T.length))
    (hwn : ∀ a, x.loc = some (.node a) → x.writes = true → g.fz a = none ∧ ∀ j, j ≠ i → g.views j a = none)
    (hvis : ∀ a, g'.views i a ≠ none → ∀ w, WritesNode T w a → ∃ q y, StepAt (T ++ [(i, x)]) q i y ∧ (w = q ∨ hb w q))
    (hown : ∀ a, g'.views i a ≠ none → g'.bases i a = none → ∀ w j y, StepAt T w j y → y.loc = some (.node a) → j = i)
    (hpriv : ∀ a j, x.loc = some (.node a) → j ≠ i → g.views j a ≠ none → g.bases j a ≠ none)
    (hheap : s.heap.length ≤ s'.heap.length) (hbound : ∀ a, x.loc = some (.node a) → a < s'.heap.length)
    (hnodes : ∀ a p j y, x.loc = some (.node a) → StepAt T p j y → j ≠ i → y.loc = some (.node a) →
      (y.writes = true ∨ x.writes = true) → hb p T.length) :
    RInv good fr Q hb (T ++ [(i, x)]) s' g' := by
  refine ⟨mem, ?_, ?_, ?_, ?_, ?_, ?_, ?_, ?_⟩
  · intro j
    by_cases e : j = i
    · subst e; exact hsub
    · rw [(hother j e).1, (hother j e).2.1]; exact h.sub j
  · intro j P hP
    by_cases e : j = i
    · subst e; exact hthr P hP
    · rcases h.thr j P (hthrs j P e hP) with ⟨c, n, h1, h2, h3⟩ | h1
      · obtain ⟨e1, e2, e3⟩ := hother j e
        refine Or.inl ⟨c, n, hstart j c h1, fun o ho => Nat.lt_of_lt_of_le (h2 o ho) hlen, ?_⟩
        rw [e1, e2, e3, hlog j e]
        exact h3
      · exact Or.inr h1
  · intro p j v hp
    rcases stepAt_snoc.mp hp with hp1 | ⟨_, rfl, h1⟩
    · have e : j ≠ i := by rintro rfl; exact hnd _ _ hp1
      obtain ⟨h1, h2⟩ := h.dones p j v hp1
      rw [(hother j e).1]
      exact ⟨View.le_trans h1 hfz, h2⟩
    · exact hdone v h1.symm
  · intro o ob hob
    rcases hobjs o ob hob with hob | ⟨h1, h2, u, h3, h4, h5⟩
    · obtain ⟨p, j, y, u, h1, h2, h3, h4, h5, h6⟩ := h.objs o ob hob
      refine ⟨p, j, y, u, stepAt_append h1, h2, h3, View.le_trans h4 hfz, h5, ?_⟩
      intro w a ha hw
      rcases writesNode_snoc.mp hw with hw | ⟨_, h7, h8⟩
      · exact h6 w a ha hw
      · exact (ha (Ghost.none_of_le h4 (hwn a h7 h8).1)).elim
    · refine ⟨T.length, i, x, u, stepAt_snoc.mpr (Or.inr ⟨rfl, rfl, rfl⟩), h1, h2, h3, h4, ?_⟩
      intro w a ha hw
      rcases writesNode_snoc.mp hw with hw | ⟨_, h7, _⟩
      · exact h5 w a ha hw
      · rw [h1] at h7; cases h7
  · intro j a ha w hw
    by_cases e : j = i
    · subst e
      rcases writesNode_snoc.mp hw with hw | ⟨rfl, _, _⟩
      · exact hvis a ha w hw
      · exact ⟨_, _, stepAt_snoc.mpr (Or.inr ⟨rfl, rfl, rfl⟩), Or.inl rfl⟩
    · rw [(hother j e).1] at ha
      rcases writesNode_snoc.mp hw with hw | ⟨_, h7, h8⟩
      · obtain ⟨q, y, h1, h2⟩ := h.vis j a ha w hw
        exact ⟨q, y, stepAt_append h1, h2⟩
      · exact (ha ((hwn a h7 h8).2 j e)).elim
  · intro j a h1 h2 w k y hw hl
    by_cases e : j = i
    · subst e
      rcases stepAt_snoc.mp hw with hw | ⟨_, rfl, _⟩
      · exact hown a h1 h2 w k y hw hl
      · rfl
    · rw [(hother j e).1] at h1
      rw [(hother j e).2.1] at h2
      rcases stepAt_snoc.mp hw with hw | ⟨_, _, rfl⟩
      · exact h.own j a h1 h2 w k y hw hl
      · exact (hpriv a j hl e h1 h2).elim
  · intro w j y a hw hl
    rcases stepAt_snoc.mp hw with hw | ⟨_, _, rfl⟩
    · exact Nat.lt_of_lt_of_le (h.bound w j y a hw hl) hheap
    · exact hbound a hl
  · intro p q j k y z a hpq hp hq hjk hy hz hw
    rcases stepAt_snoc.mp hq with hq | ⟨rfl, rfl, rfl⟩
    · rcases stepAt_snoc.mp hp with hp | ⟨rfl, _, _⟩
      · exact h.nodes p q j k y z a hpq hp hq hjk hy hz hw
      · have := hq.lt; omega
    · rcases stepAt_snoc.mp hp with hp | ⟨rfl, _, _⟩
      · exact hnodes a p j y hz hp hjk hy hw
      · omega

theorem RInv.spawn {hb : Nat → Nat → Prop} {T U : History L.Call L.Val} {s : State L} {g : Ghost α D}
    (ok : LibOk L good gval fr Q) (h : RInv good fr Q hb T s g) (hs : SInv T s) (mi : ∃ g, MInv good fr Q s g) {c : L.Call}
    (hc : s.CanStart c) (H : Hyp L (T ++ [(s.threads.length, .start c)] ++ U) hb) :
    ∃ g', RInv good fr Q hb (T ++ [(s.threads.length, .start c)]) (s.spawn c) g' := by
  obtain ⟨g0, mi⟩ := mi
  have hnew : ∀ p x, ¬ StepAt T p s.threads.length x := fun p x hx => Nat.lt_irrefl _ (hs.tid p _ x hx)
  have hat : StepAt (T ++ [(s.threads.length, .start c)] ++ U) T.length s.threads.length (.start c) :=
    stepAt_append (stepAt_snoc.mpr (Or.inr ⟨rfl, rfl, rfl⟩))
  have hX : visible hb T g.fz T.length ≤ g.fz := visible_le
  refine ⟨g.begin_ s.threads.length (visible hb T g.fz T.length), h.snoc ?_ ?_ ?_ (View.le_refl _) ?_ ?_ ?_ ?_ ?_ ?_ ?_ ?_ ?_ ?_ ?_ ?_ ?_ ?_ ?_⟩
  · intro p v hp; exact hnew _ _ hp
  · exact h.mem.begin_ _ hX
  · simp only [Ghost.begin_, upd_same]; exact View.le_refl _
  · intro j hj; simp [Ghost.begin_, upd_ne _ _ hj]
  · intro P hP
    simp [State.spawn] at hP
    subst hP
    refine Or.inl ⟨c, fun o => o ∈ L.refs c, by simp [State.spawn], hc.2.1, ?_⟩
    have h0 : Addrs.own s.threads.length s.log = [] := by
      rw [List.eq_nil_iff_forall_not_mem]
      intro e he
      exact Nat.lt_irrefl _ (mi.tid _ (mem_own.mp he))
    simp only [State.spawn, Ghost.begin_, upd_same, own_snoc_start, h0]
    refine ok.code c hc.1 _ _ ?_ fun _ h => h
    intro x hx
    rcases H.vals hat x hx with rfl | ⟨p, i, v, h1, h2, h3⟩
    · exact ok.gval_zero _
    · have hp := H.lt h3
      have h1 : StepAt T p i (.done v) := stepAt_prefix (List.append_assoc .. ▸ h1) hp
      obtain ⟨h4, c', tr, h5⟩ := h.dones p i v h1
      refine ok.outs (ok.spec_mono (le_visible h4 ?_) h5) x h2
      intro w a ha hw
      obtain ⟨q, y, h6, h7⟩ := h.vis i a ha w hw
      have hq : hb q T.length := by
        rcases Nat.lt_or_eq_of_le ((hs.last p i v h1).2.2 q y h6) with hlt | rfl
        · exact H.trans (H.po hlt (stepAt_append (stepAt_append h6)) (stepAt_append (stepAt_append h1))) h3
        · exact h3
      rcases h7 with rfl | h7
      · exact hq
      · exact H.trans h7 hq
  · intro j P hj hP
    have hlt : j < s.threads.length := by
      have := (List.getElem?_eq_some_iff.mp hP).1
      simp [State.spawn] at this; omega
    simp only [State.spawn] at hP
    rwa [List.getElem?_append_left hlt] at hP
  · intro j hj; simp [State.spawn]
  · intro j c' h'; simp [State.spawn, h']
  · exact Nat.le_refl _
  · intro v hv; cases hv
  · intro o ob hob; exact Or.inl hob
  · intro a ha; cases ha
  · intro a ha w hw
    simp only [Ghost.begin_, upd_same] at ha
    exact ⟨T.length, _, stepAt_snoc.mpr (Or.inr ⟨rfl, rfl, rfl⟩), Or.inr (visible_hb ha w hw)⟩
  · intro a h1 h2
    simp only [Ghost.begin_, upd_same] at h1 h2
    exact (h1 h2).elim
  · intro a j ha; cases ha
  · exact Nat.le_refl _
  · intro a ha; cases ha
  · intro a p j y ha; cases ha

/-- a thread relies on nodes whose writes happen before its next step -/
theorem RInv.vis_next {hb : Nat → Nat → Prop} {T U : History L.Call L.Val} {s : State L} {g : Ghost α D}
    (h : RInv good fr Q hb T s g) {i : Nat} {x : Access L.Call L.Val} (H : Hyp L (T ++ [(i, x)] ++ U) hb)
    {a : Nat} (ha : g.views i a ≠ none) {w : Nat} (hw : WritesNode T w a) : hb w T.length := by
  obtain ⟨q, y, h1, h2⟩ := h.vis i a ha w hw
  have : hb q T.length := H.po h1.lt (stepAt_append (stepAt_append h1)) (stepAt_append (stepAt_snoc.mpr (Or.inr ⟨rfl, rfl, rfl⟩)))
  rcases h2 with rfl | h2
  · exact this
  · exact H.trans h2 this

theorem RInv.vis_old {hb : Nat → Nat → Prop} {T : History L.Call L.Val} {s : State L} {g : Ghost α D}
    (h : RInv good fr Q hb T s g) {i : Nat} {x : Access L.Call L.Val} {a : Nat} (ha : g.views i a ≠ none) :
    ∀ w, WritesNode T w a → ∃ q y, StepAt (T ++ [(i, x)]) q i y ∧ (w = q ∨ hb w q) := by
  intro w hw
  obtain ⟨q, y, h1, h2⟩ := h.vis i a ha w hw
  exact ⟨q, y, stepAt_append h1, h2⟩

theorem RInv.act {hb : Nat → Nat → Prop} {T U : History L.Call L.Val} {s s' : State L} {g : Ghost α D}
    (ok : LibOk L good gval fr Q) (h : RInv good fr Q hb T s g) (hs : SInv T s) (mi : ∃ g, MInv good fr Q s g) {i : Nat}
    {P : Prog α D L.Val} {x : Access L.Call L.Val}
    (hi : s.threads[i]? = some (some P)) (hx : s.label P = some x) (ha : s.actP i P = some s')
    (H : Hyp L (T ++ [(i, x)] ++ U) hb) :
    ∃ g', RInv good fr Q hb (T ++ [(i, x)]) s' g' := by
  obtain ⟨g0, mi⟩ := mi
  have hlt : i < s.threads.length := (List.getElem?_eq_some_iff.mp hi).1
  have hnd : ∀ w v, ¬ StepAt T w i (.done v) := by
    intro w v hw
    have := (hs.last w i v hw).1
    rw [hi] at this; cases this
  rcases h.thr i P hi with ⟨c, n, hstart, hn, hcw⟩ | rfl
  case inr => cases ha
  have hat : StepAt (T ++ [(i, x)] ++ U) T.length i x := stepAt_append (stepAt_snoc.mpr (Or.inr ⟨rfl, rfl, rfl⟩))
  have hset : ∀ (R : Option (Prog α D L.Val)) j P', j ≠ i → (s.threads.set i R)[j]? = some (some P') → s.threads[j]? = some (some P') := by
    intro R j P' hj h'
    rwa [List.getElem?_set_ne (Ne.symm hj)] at h'
  cases P with
  | ret v =>
    injection ha with ha; subst ha; cases hx
    refine ⟨g.freeze i, h.snoc hnd (h.mem.freeze i) (by simp only [Ghost.freeze, upd_same]; exact View.le_refl _) (View.le_join_left _ _) ?_ ?_ (hset none) ?_ ?_ (Nat.le_refl _) ?_ ?_ ?_ ?_ ?_ ?_ (Nat.le_refl _) ?_ ?_⟩
    · intro j hj; simp [Ghost.freeze, upd_ne _ _ hj]
    · intro P hP; simp [List.getElem?_set_self hlt] at hP
    · intro j hj; simp
    · intro j c' h'; simp [h']
    · intro v' hv; cases hv
      exact ⟨View.le_join_right h.mem.fz_le (h.mem.v_le i), c, _, hcw⟩
    · intro o ob hob; exact Or.inl hob
    · intro a ha; cases ha
    · intro a ha; exact h.vis_old ha
    · intro a h1 h2
      simp only [Ghost.freeze, upd_same] at h1 h2
      exact (h1 h2).elim
    · intro a j ha; cases ha
    · intro a ha; cases ha
    · intro a p j y ha; cases ha
  | panic => exact hcw.elim
  | stuck => exact hcw.elim
  | alloc d k =>
    injection ha with ha; subst ha; cases hx
    have hlast : ∀ w j y, StepAt T w j y → ¬ y.loc = some (.node s.heap.length) := fun w j y hw hl =>
      Nat.lt_irrefl _ (h.bound w j y _ hw hl)
    refine ⟨g.alloc i s.heap.length d, h.snoc hnd (h.mem.alloc i d) ?_ (View.le_refl _) ?_ ?_ (hset _) ?_ ?_ (Nat.le_refl _) ?_ ?_ ?_ ?_ ?_ ?_ (by simp) ?_ ?_⟩
    · simp only [Ghost.alloc, upd_same]
      exact View.le_trans (h.sub i) (View.le_set_fresh (Ghost.none_at_end (h.mem.v_le i)))
    · intro j hj; simp [Ghost.alloc, upd_ne _ _ hj]
    · intro P hP
      simp [State.cont, List.getElem?_set_self hlt] at hP
      subst hP
      refine Or.inl ⟨c, n, hstart, hn, ?_⟩
      simpa [Ghost.alloc, State.cont] using hcw _ (Ghost.none_at_end (h.mem.v_le i))
    · intro j hj; rfl
    · intro j c' h'; exact h'
    · intro v' hv; cases hv
    · intro o ob hob; exact Or.inl hob
    · intro a ha _; cases ha
      exact ⟨Ghost.none_at_end h.mem.fz_le, fun j _ => Ghost.none_at_end (h.mem.v_le j)⟩
    · intro a ha w hw
      simp only [Ghost.alloc, upd_same] at ha
      by_cases e : a = s.heap.length
      · subst e
        obtain ⟨j, y, h1, h2, _⟩ := hw
        exact (hlast w j y h1 h2).elim
      · rw [View.set_ne _ _ e] at ha
        exact h.vis_old ha w hw
    · intro a h1 h2 w j y hw hl
      simp only [Ghost.alloc, upd_same] at h1 h2
      by_cases e : a = s.heap.length
      · subst e; exact (hlast w j y hw hl).elim
      · rw [View.set_ne _ _ e] at h1
        exact h.own i a h1 h2 w j y hw hl
    · intro a j ha hj h1; cases ha
      exact (h1 (Ghost.none_at_end (h.mem.v_le j))).elim
    · intro a ha; cases ha; simp
    · intro a p j y ha hp _ hy; cases ha
      exact (hlast p j y hp hy).elim
  | read p k =>
    obtain ⟨d, hd, hcw⟩ := hcw
    have hh : s.heap[p]? = some d := h.mem.v_le i _ _ hd
    simp only [State.actP, hh] at ha
    injection ha with ha; subst ha; cases hx
    refine ⟨g, h.snoc hnd h.mem (h.sub i) (View.le_refl _) (fun _ _ => ⟨rfl, rfl, rfl⟩) ?_ (hset _) ?_ ?_ (Nat.le_refl _) ?_ ?_ ?_ ?_ ?_ ?_ (Nat.le_refl _) ?_ ?_⟩
    · intro P hP
      simp [State.cont, List.getElem?_set_self hlt] at hP
      subst hP
      exact Or.inl ⟨c, n, hstart, hn, hcw⟩
    · intro j hj; rfl
    · intro j c' h'; exact h'
    · intro v' hv; cases hv
    · intro o ob hob; exact Or.inl hob
    · intro a ha h'; cases h'
    · intro a ha; exact h.vis_old ha
    · intro a h1 h2; exact h.own i a h1 h2
    · intro a j ha hj h1 h2; cases ha
      have := (h.mem.priv j p h1 h2).2 i (Ne.symm hj)
      rw [hd] at this; cases this
    · intro a ha; cases ha
      exact (List.getElem?_eq_some_iff.mp hh).1
    · intro a w j y ha hw hj hy hwr; cases ha
      refine h.vis_next H (a := p) (by rw [hd]; simp) ⟨j, y, hw, hy, ?_⟩
      rcases hwr with hwr | hwr
      · exact hwr
      · cases hwr
  | write p d k =>
    obtain ⟨hW, ⟨d0, hd0⟩, hcw⟩ := hcw
    have hh : p < s.heap.length := (List.getElem?_eq_some_iff.mp (h.mem.v_le i _ _ hd0)).1
    simp only [State.actP, hh, if_true] at ha
    injection ha with ha; subst ha; cases hx
    obtain ⟨hv, hb0⟩ := h.mem.wsub i p hW
    obtain ⟨hf, ho⟩ := h.mem.priv i p hv hb0
    have hsame : ∀ a, (g.write i p d).views i a ≠ none → g.views i a ≠ none := by
      intro a ha
      by_cases e : a = p
      · subst e; exact hv
      · simp only [Ghost.write, upd_same, View.set_ne _ _ e] at ha; exact ha
    refine ⟨g.write i p d, h.snoc hnd (h.mem.write hW d) ?_ (View.le_refl _) ?_ ?_ (hset _) ?_ ?_ (Nat.le_refl _) ?_ ?_ ?_ ?_ ?_ ?_ (by simp) ?_ ?_⟩
    · simp only [Ghost.write, upd_same]
      intro a c hc
      rw [View.set_ne]
      · exact h.sub i _ _ hc
      · rintro rfl; rw [hb0] at hc; cases hc
    · intro j hj; simp [Ghost.write, upd_ne _ _ hj]
    · intro P hP
      simp [State.cont, List.getElem?_set_self hlt] at hP
      subst hP
      refine Or.inl ⟨c, n, hstart, hn, ?_⟩
      simpa [Ghost.write, State.cont] using hcw
    · intro j hj; rfl
    · intro j c' h'; exact h'
    · intro v' hv; cases hv
    · intro o ob hob; exact Or.inl hob
    · intro a ha _; cases ha
      exact ⟨hf, ho⟩
    · intro a ha; exact h.vis_old (hsame a ha)
    · intro a h1 h2; exact h.own i a (hsame a h1) h2
    · intro a j ha hj h1; cases ha
      exact (h1 (ho j hj)).elim
    · intro a ha; cases ha; simpa using hh
    · intro a w j y ha hw hj hy hwr; cases ha
      exact (hj (h.own i p hv hb0 w j y hw hy)).elim
  | load o k =>
    obtain ⟨ho, hcw⟩ := hcw
    have hol : o < s.objs.length := hn o ho
    obtain ⟨ob, hob⟩ : ∃ ob, s.objs[o]? = some ob := ⟨_, List.getElem?_eq_getElem hol⟩
    simp only [State.actP, hob] at ha
    injection ha with ha; subst ha; cases hx
    have hX : visible hb T g.fz T.length ≤ g.fz := visible_le
    have hXv : visible hb T g.fz T.length ≤ View.join (g.views i) (visible hb T g.fz T.length) :=
      View.le_join_right (h.mem.v_le i) (View.le_trans hX h.mem.fz_le)
    obtain ⟨p, j, y, u, h1, h2, h3, h4, h5, h6⟩ := h.objs o ob hob
    have hpq : hb p T.length := H.roots h1.lt (stepAt_append (stepAt_append h1)) h2 h3 hat rfl
    have hgood : good (visible hb T g.fz T.length) ob :=
      ok.good_mono (le_visible h4 fun w a ha hw => H.trans (h6 w a ha hw) hpq) h5
    have hjoin : View.join (g.bases i) (visible hb T g.fz T.length) ≤ View.join (g.views i) (visible hb T g.fz T.length) := by
      intro a c hc
      unfold View.join at hc
      split at hc
      · next d hd => cases hc; exact View.le_join_left _ _ _ _ (h.sub i _ _ hd)
      · exact hXv _ _ hc
    have hjj : (g.learn i (visible hb T g.fz T.length)).bases i ≤ (g.learn i (visible hb T g.fz T.length)).views i := by
      simp only [Ghost.learn, upd_same]; exact hjoin
    refine ⟨g.learn i (visible hb T g.fz T.length), h.snoc hnd (h.mem.learn i hX) hjj (View.le_refl _) ?_ ?_ (hset _) ?_ ?_ (Nat.le_refl _) ?_ ?_ ?_ ?_ ?_ ?_ (Nat.le_refl _) ?_ ?_⟩
    · intro j hj; simp [Ghost.learn, upd_ne _ _ hj]
    · intro P hP
      simp [State.note, State.cont, List.getElem?_set_self hlt] at hP
      subst hP
      refine Or.inl ⟨c, n, by simp [State.note, State.cont, hstart], hn, ?_⟩
      simp only [State.note, State.cont, own_snoc_act, Ghost.learn, upd_same]
      refine hcw _ _ ob (View.le_join_left _ _) (View.le_join_left _ _) ?_ (ok.good_mono hXv hgood) ?_
      · refine ⟨hjoin, fun a h1 h2 => View.join_none.mpr ⟨h2, ?_⟩⟩
        have hz := (h.mem.priv i a h1 h2).1
        cases hx : visible hb T g.fz T.length a with
        | none => rfl
        | some c => rw [hX _ _ hx] at hz; cases hz
      · intro ob' h'
        obtain ⟨_, cur, h1, h2⟩ := mi.log_good i o ob' (mem_own.mp h')
        rw [hob] at h1
        cases h1
        exact h2.symm
    · intro j hj; exact own_snoc_other (Ne.symm hj) _ _
    · intro j c' h'; simp [State.note, State.cont, h']
    · intro v' hv; cases hv
    · intro o ob hob; exact Or.inl hob
    · intro a ha; cases ha
    · intro a ha w hw
      simp only [Ghost.learn, upd_same] at ha
      by_cases e : g.views i a = none
      · have : visible hb T g.fz T.length a ≠ none := fun h' => ha (View.join_none.mpr ⟨e, h'⟩)
        exact ⟨T.length, _, stepAt_snoc.mpr (Or.inr ⟨rfl, rfl, rfl⟩), Or.inr (visible_hb this w hw)⟩
      · exact h.vis_old e w hw
    · intro a h1 h2
      simp only [Ghost.learn, upd_same] at h1 h2
      obtain ⟨h3, h4⟩ := View.join_none.mp h2
      exact h.own i a (fun h' => h1 (View.join_none.mpr ⟨h', h4⟩)) h3
    · intro a j ha; cases ha
    · intro a ha; cases ha
    · intro a p j y ha; cases ha
  | cas o old new k =>
    obtain ⟨ho, ⟨ob0, hl0, he0, hg0⟩, hns, hfr, hkf, hcw⟩ := hcw
    obtain ⟨_, cur, hcur, hceq⟩ := mi.log_good i o ob0 (mem_own.mp hl0)
    have hol : o < s.objs.length := hn o ho
    simp only [State.label, hcur] at hx
    cases hx
    simp only [State.actP, hcur] at ha
    split at ha
    · next hold =>
      injection ha with ha; subst ha
      have hgn : good (g.views i) { cur with trie := new } := by
        have : ({ cur with trie := new } : Obj D) = { ob0 with trie := new } := by
          cases cur; cases ob0; simp only at hceq; subst hceq; rfl
        rw [this]
        exact hg0
      refine ⟨g.freeze i, h.snoc hnd (h.mem.freeze i) (by simp only [Ghost.freeze, upd_same]; exact View.le_refl _) (View.le_join_left _ _) ?_ ?_ (hset _) ?_ ?_ ?_ ?_ ?_ ?_ ?_ ?_ ?_ (Nat.le_refl _) ?_ ?_⟩
      · intro j hj; simp [Ghost.freeze, upd_ne _ _ hj]
      · intro P hP
        simp [State.note, State.cont, List.getElem?_set_self hlt] at hP
        subst hP
        refine Or.inl ⟨c, n, by simp [State.note, State.cont, hstart], by simpa [State.note, State.cont] using hn, ?_⟩
        simp only [State.note, State.cont, own_snoc_act, Ghost.freeze, upd_same]
        exact hcw _ (View.le_refl _)
      · intro j hj; exact own_snoc_other (Ne.symm hj) _ _
      · intro j c' h'; simp [State.note, State.cont, h']
      · simp [State.note, State.cont]
      · intro v' hv; cases hv
      · intro o' ob' hob'
        by_cases e : o = o'
        · subst e
          right
          simp [State.note, State.cont, hol] at hob'
          subst hob'
          refine ⟨rfl, by simp [Access.writes, hold], g.views i, View.le_join_right h.mem.fz_le (h.mem.v_le i), hgn, ?_⟩
          intro w a ha hw
          exact h.vis_next H ha hw
        · left
          simpa [State.note, State.cont, List.getElem?_set_ne e] using hob'
      · intro a ha; cases ha
      · intro a ha; exact h.vis_old ha
      · intro a h1 h2
        simp only [Ghost.freeze, upd_same] at h1 h2
        exact (h1 h2).elim
      · intro a j ha; cases ha
      · intro a ha; cases ha
      · intro a p j y ha; cases ha
    · next hold =>
      injection ha with ha; subst ha
      refine ⟨g, h.snoc hnd h.mem (h.sub i) (View.le_refl _) (fun _ _ => ⟨rfl, rfl, rfl⟩) ?_ (hset _) ?_ ?_ (Nat.le_refl _) ?_ ?_ ?_ ?_ ?_ ?_ (Nat.le_refl _) ?_ ?_⟩
      · intro P hP
        simp [State.note, State.cont, List.getElem?_set_self hlt] at hP
        rw [hkf] at hP
        exact Or.inr hP.symm
      · intro j hj; simp [State.note, State.cont]
      · intro j c' h'; simp [State.note, State.cont, h']
      · intro v' hv; cases hv
      · intro o ob hob; exact Or.inl hob
      · intro a ha; cases ha
      · intro a ha; exact h.vis_old ha
      · intro a h1 h2; exact h.own i a h1 h2
      · intro a j ha; cases ha
      · intro a ha; cases ha
      · intro a p j y ha; cases ha
  | newObj ob k =>
    injection ha with ha; subst ha; cases hx
    obtain ⟨hgo, hcw⟩ := hcw
    refine ⟨g.freeze i, h.snoc hnd (h.mem.freeze i) (by simp only [Ghost.freeze, upd_same]; exact View.le_refl _) (View.le_join_left _ _) ?_ ?_ (hset _) ?_ ?_ ?_ ?_ ?_ ?_ ?_ ?_ ?_ (Nat.le_refl _) ?_ ?_⟩
    · intro j hj; simp [Ghost.freeze, upd_ne _ _ hj]
    · intro P hP
      simp [State.note, State.cont, List.getElem?_set_self hlt] at hP
      subst hP
      refine Or.inl ⟨c, fun m => m = s.objs.length ∨ n m, by simp [State.note, State.cont, hstart], ?_, ?_⟩
      · rintro m (rfl | hm)
        · simp [State.note, State.cont]
        · have := hn m hm; simp [State.note, State.cont]; omega
      · simp only [State.note, State.cont, own_snoc_act, Ghost.freeze, upd_same]
        exact hcw _ _ (View.le_refl _) fun h' => Nat.lt_irrefl _ (hn _ h')
    · intro j hj; exact own_snoc_other (Ne.symm hj) _ _
    · intro j c' h'; simp [State.note, State.cont, h']
    · simp [State.note, State.cont]
    · intro v' hv; cases hv
    · intro o' ob' hob'
      simp only [State.note, State.cont] at hob'
      by_cases e : o' < s.objs.length
      · left; rwa [List.getElem?_append_left e] at hob'
      · right
        have : o' = s.objs.length := by
          have := (List.getElem?_eq_some_iff.mp hob').1; simp at this; omega
        subst this
        simp at hob'
        subst hob'
        exact ⟨rfl, rfl, g.views i, View.le_join_right h.mem.fz_le (h.mem.v_le i), hgo, fun w a ha hw => h.vis_next H ha hw⟩
    · intro a ha; cases ha
    · intro a ha; exact h.vis_old ha
    · intro a h1 h2
      simp only [Ghost.freeze, upd_same] at h1 h2
      exact (h1 h2).elim
    · intro a j ha; cases ha
    · intro a ha; cases ha
    · intro a p j y ha; cases ha

/-- The invariant holds in every execution in which accesses to roots are ordered. -/
theorem Trace.rinv {hb : Nat → Nat → Prop} (ok : LibOk L good gval fr Q) {T : History L.Call L.Val} {s : State L}
    (h : Trace T s) : ∀ U, Hyp L (T ++ U) hb → ∃ g, RInv good fr Q hb T s g := by
  induction h with
  | init => intro U _; exact ⟨_, .init⟩
  | spawn c hT hc ih =>
    intro U H
    obtain ⟨g, hg⟩ := ih _ (by rw [List.append_assoc] at H; exact H)
    exact hg.spawn ok (hT.inv ok) (hT.reach.inv ok) hc H
  | act hT hi hx ha ih =>
    intro U H
    obtain ⟨g, hg⟩ := ih _ (by rw [List.append_assoc] at H; exact H)
    exact hg.act ok (hT.inv ok) (hT.reach.inv ok) hi hx ha H

section
variable {al : Bool} {S : Nat → Nat → Prop} {T : History L.Call L.Val} {s : State L}

/-- what a call did happens before what a call did that was started after it had returned -/
theorem SInv.chain (hs : SInv T s) {p q i j p' w : Nat} {x y : Access L.Call L.Val} {v : L.Val} {c : L.Call}
    (hp : StepAt T p i x) (hd : StepAt T p' i (.done v)) (h : HB al T S p' w) (hw : StepAt T w j (.start c)) (hq : StepAt T q j y) :
    HB al T S p q := by
  have h1 := (hs.last p' i v hd).2.2 p x hp
  have h2 := hs.first w j c hw q y hq
  have h3 : HB al T S p w := by
    rcases Nat.lt_or_eq_of_le h1 with h1 | rfl
    · exact .trans (.po h1 hp hd) h
    · exact h
  rcases Nat.lt_or_eq_of_le h2 with h2 | rfl
  · exact .trans h3 (.po h2 hw hq)
  · exact h3

/-- accesses of calls that do not overlap are ordered as they happened -/
theorem SInv.ordered (hs : SInv T s) {p q i j : Nat} {x y : Access L.Call L.Val} (hpq : p < q) (hp : StepAt T p i x)
    (hq : StepAt T q j y) (h : NoOverlap al T S i j) : HB al T S p q := by
  obtain ⟨p', w, v, c, h1, ⟨h2, h3⟩ | ⟨h2, h3⟩⟩ := h
  · exact hs.chain hp h2 h1 h3 hq
  · have := (hs.chain hq h2 h1 h3 hp).lt
    omega

/-- the accesses to roots are ordered as soon as the ones that follow a swap are -/
theorem hyp_of (hs : SInv T s) (ho : HandedOver al T S)
    (hc : ∀ {p q i j o y}, p < q → i ≠ j → StepAt T p i (.cas o true) → StepAt T q j y → y.loc = some (.root o) →
      (∀ o', y ≠ .made o') → HB al T S p q) : Hyp L T (HB al T S) where
  po h1 h2 h3 := .po h1 h2 h3
  trans h1 h2 := .trans h1 h2
  lt h := h.lt
  vals h := (ho _ _ _ h).1
  roots := by
    intro p q i j x y o hpq hp hx hw hq hy
    by_cases e : i = j
    · subst e; exact .po hpq hp hq
    · cases x with
      | cas o' b =>
        cases hx
        cases b with
        | false => cases hw
        | true =>
          refine hc hpq e hp hq hy ?_
          rintro o' rfl
          cases hy
          have := hs.made_first q j o hq p i _ hp rfl
          omega
      | made o' =>
        cases hx
        rcases (hs.roots q j y o hq hy).2 with ⟨w, c, h1, h2⟩ | ⟨m, h1⟩
        · obtain ⟨m, p', i', v, h3, h4, h5⟩ := (ho w j c h1).2 o h2
          have := hs.made_uniq _ _ _ _ _ h3 hp
          subst this
          obtain ⟨rfl, _⟩ := h3.uniq hp
          exact hs.chain hp h4 h5 h1 hq
        · have := hs.made_uniq _ _ _ _ _ h1 hp
          subst this
          exact (e (hp.uniq h1).1).elim
      | load o' => cases hw
      | start _ => cases hx
      | done _ => cases hx
      | alloc _ => cases hx
      | read _ => cases hx
      | write _ => cases hx

/-- If the arguments of every call were handed over and a call that writes to a mutable object does not
    overlap with others that use it, there is no data race. -/
theorem no_race (ok : LibOk L good gval fr Q) (h : Trace T s) (ho : HandedOver al T S) (hw : WritesAlone al T S) (p q : Nat) :
    ¬ Race al T S p q := by
  have hs := h.inv ok
  have H : Hyp L T (HB al T S) := hyp_of hs ho fun hpq e hp hq hy hm => hs.ordered hpq hp hq (hw _ _ _ _ _ _ _ e hp hq hy hm)
  obtain ⟨g, hg⟩ := h.rinv ok [] (by rw [List.append_nil]; exact H)
  rintro ⟨hpq, i, j, x, y, l, hp, hq, hij, hx, hy, hwr, _, hn⟩
  cases l with
  | node a => exact hn (hg.nodes p q i j x y a hpq hp hq hij hx hy hwr)
  | root o =>
    by_cases hxw : x.writes = true
    · exact hn (H.roots hpq hp hx hxw hq hy)
    · have hyw := hwr.resolve_left hxw
      cases y with
      | cas o' b =>
        cases hy
        obtain ⟨p', w, v, c, h1, h2⟩ := hw q p j i o b x (Ne.symm hij) hq hp hx (by rintro o' rfl; exact hxw rfl)
        exact hn (hs.ordered hpq hp hq ⟨p', w, v, c, h1, h2.symm⟩)
      | made o' =>
        cases hy
        have := hs.made_first q j o hq p i x hp hx
        omega
      | load o' => cases hyw
      | start _ => cases hy
      | done _ => cases hy
      | alloc _ => cases hy
      | read _ => cases hy
      | write _ => cases hy

/-- If the roots were read by atomic operations, there would be no data race. -/
theorem no_race_atomic (ok : LibOk L good gval fr Q) (h : Trace T s) (ho : HandedOver true T S) (p q : Nat) :
    ¬ Race true T S p q := by
  have hs := h.inv ok
  have H : Hyp L T (HB true T S) := hyp_of hs ho fun hpq _ hp hq hy hm => by
    refine .atomic hpq hp hq hy ?_
    revert hy hm
    cases ‹Access L.Call L.Val› <;> simp [Access.loc, Access.atomic]
  obtain ⟨g, hg⟩ := h.rinv ok [] (by rw [List.append_nil]; exact H)
  rintro ⟨hpq, i, j, x, y, l, hp, hq, hij, hx, hy, hwr, hat, hn⟩
  cases l with
  | node a => exact hn (hg.nodes p q i j x y a hpq hp hq hij hx hy hwr)
  | root o =>
    by_cases hxw : x.writes = true
    · exact hn (H.roots hpq hp hx hxw hq hy)
    · have hyw := hwr.resolve_left hxw
      cases y with
      | made o' =>
        cases hy
        have := hs.made_first q j o hq p i x hp hx
        omega
      | cas o' b =>
        refine hat ⟨?_, rfl⟩
        cases x with
        | made _ => exact (hxw rfl).elim
        | cas _ _ => rfl
        | load _ => rfl
        | start _ => cases hx
        | done _ => cases hx
        | alloc _ => cases hx
        | read _ => cases hx
        | write _ => cases hx
      | load o' => cases hyw
      | start _ => cases hy
      | done _ => cases hy
      | alloc _ => cases hy
      | read _ => cases hy
      | write _ => cases hy
end

end
end Addrs

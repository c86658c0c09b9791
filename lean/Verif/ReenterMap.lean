import Verif.ReenterWalk
/-
  `Map` with a mapper that is a program, `Build` with a builder that is a program.
-/
set_option linter.unusedSectionVars false
namespace Addrs
open GoWord LawfulGoWord

namespace Heap
open Prog
variable {α D σ : Type} [GoWord α] [GoType D]

/-- ipv4/node.go:829-842 `Map`, the mapper being a program -/
def mapR (f : Prefix α → Option D → σ → Prog α D (Option D × σ)) (eq : Comparator D) : Nat → Ptr → σ → Prog α D (Ptr × σ)
  | 0, _, _ => stuck
  | _ + 1, none, s => pure (none, s)
  | fuel + 1, some me, s =>
    copyMutate me fun n => do
      let c ← deref (some me)
      let x ← f c.pfx c.data s
      let e ← orPanic (eq c.data x.1)
      let (l, s) ← mapR f eq fuel c.l x.2
      let (r, s) ← mapR f eq fuel c.r s
      pure ({ n with data := if e then c.data else x.1, l := l, r := r }, s)

/-- ipv4/table.go:309-322 `Map`, the mapper being a program; `none` is a nil mapper -/
def xMapR [Inhabited D] (F : Nat) (m : Obj D) (f : Option (Prefix α → D → σ → Prog α D (D × σ))) (s : σ) :
    Prog α D (Obj D × σ) :=
  match f with
  | none => pure (m, s)
  | some f => do
    let x ← mapR (fun p d s => f p (Table.unbox d) s >>= fun y => pure (some y.1, y.2)) m.eq.call F m.trie s
    pure (⟨x.1, m.eq⟩, x.2)

/-- Mappers without effects on the memory give the `Map` of Verif/HeapNode.lean. -/
theorem mapR_pure (f : Prefix α → Option D → σ → Option D × σ) (eq : Comparator D) (F : Nat) (p : Ptr) (s : σ) :
    mapR (fun p d s => pure (f p d s)) eq F p s = map f eq F p s := by
  induction F generalizing p s with
  | zero => rfl
  | succ F ih =>
    cases p with
    | none => rfl
    | some a =>
      unfold mapR map
      congr 1
      funext n
      congr 1
      funext c
      simp only [ih]
      rfl

theorem tame_mapR {f : Prefix α → Option D → σ → Prog α D (Option D × σ)} (hf : ∀ p d s, TameIn (f p d s) Nowhere)
    {eq : Comparator D} {F : Nat} {p : Ptr} {s : σ} {W : Nat → Prop} : TameIn (mapR f eq F p s) W := by
  induction F generalizing p s W with
  | zero => trivial
  | succ F ih =>
    cases p with
    | none => trivial
    | some a =>
      unfold mapR
      refine tame_copyMutate fun n => ?_
      refine Tame.seq tame_deref fun c W1 _ => Tame.seq (hf _ _ _).wider fun x W2 _ => Tame.seq tame_orPanic fun e W3 _ => ?_
      exact Tame.seq ih fun l W4 _ => Tame.seq ih fun r W5 _ => trivial

end Heap

/-! ### Calling a program for the elements of a list -/
section
variable {α D β γ δ σ : Type}

/-- the result, transformed -/
def End.map (f : β → γ) : End β → End γ
  | .ret b => .ret (f b)
  | .panic => .panic
  | .stuck => .stuck

/-- From `m` to `m'`, no mutable object has changed and no node except those of `own`; `own'` adds new nodes
    to `own`. -/
structure Mem.Quiet (own own' : List Nat) (m m' : Mem α D) : Prop where
  objs : m'.objs = m.objs
  more : m.heap.length ≤ m'.heap.length
  sub : ∀ n ∈ own, n ∈ own'
  fresh : ∀ n ∈ own', n ∈ own ∨ m.heap.length ≤ n
  kept : ∀ n, n < m.heap.length → n ∉ own → m'.heap[n]? = m.heap[n]?
  low : (∀ n ∈ own, n < m.heap.length) → ∀ n ∈ own', n < m'.heap.length

theorem Mem.Quiet.refl (own : List Nat) (m : Mem α D) : Mem.Quiet own own m m :=
  ⟨rfl, Nat.le_refl _, fun _ h => h, fun _ h => Or.inl h, fun _ _ _ => rfl, fun h => h⟩

theorem Mem.Quiet.trans {o1 o2 o3 : List Nat} {m1 m2 m3 : Mem α D} (h : Mem.Quiet o1 o2 m1 m2) (h' : Mem.Quiet o2 o3 m2 m3) :
    Mem.Quiet o1 o3 m1 m3 where
  objs := h'.objs.trans h.objs
  more := Nat.le_trans h.more h'.more
  sub n hn := h'.sub n (h.sub n hn)
  fresh n hn := by
    rcases h'.fresh n hn with h1 | h1
    · exact h.fresh n h1
    · exact Or.inr (Nat.le_trans h.more h1)
  kept n hn ho := by
    have h2 : n ∉ o2 := fun hc => (h.fresh n hc).elim ho (by omega)
    rw [h'.kept n (Nat.lt_of_lt_of_le hn h.more) h2, h.kept n hn ho]
  low hl := h'.low (h.low hl)

/-- Somebody calls `g` for the elements of the list, in this order, until a call does not return.  The state is
    handed on from call to call, and so is the memory: between the calls no mutable object changes, and no node
    except those that the caller has made itself (`own`).  `out` says how it ends, and with which results. -/
inductive CallsEach (g : β → σ → Prog α D (γ × σ)) :
    List β → σ → List Nat → Mem α D → (out : End (List γ × σ)) → List Nat → Mem α D → Prop
  | nil {s : σ} {own own' : List Nat} {m m' : Mem α D} (q : Mem.Quiet own own' m m') :
      CallsEach g [] s own m (.ret ([], s)) own' m'
  | cons {x : β} {xs : List β} {s s' : σ} {w : γ} {own own1 own' : List Nat} {m m1 m2 m' : Mem α D} {out : End (List γ × σ)}
      (q : Mem.Quiet own own1 m m1) (call : (g x s).run m1 = (.ret (w, s'), m2))
      (rest : CallsEach g xs s' own1 m2 out own' m') :
      CallsEach g (x :: xs) s own m (out.map fun y => (w :: y.1, y.2)) own' m'
  | panic {x : β} {xs : List β} {s : σ} {own own1 : List Nat} {m m1 m2 : Mem α D}
      (q : Mem.Quiet own own1 m m1) (call : (g x s).run m1 = (.panic, m2)) : CallsEach g (x :: xs) s own m .panic own1 m2
  | stuck {x : β} {xs : List β} {s : σ} {own own1 : List Nat} {m m1 m2 : Mem α D}
      (q : Mem.Quiet own own1 m m1) (call : (g x s).run m1 = (.stuck, m2)) : CallsEach g (x :: xs) s own m .stuck own1 m2

namespace CallsEach
variable {g : β → σ → Prog α D (γ × σ)}

theorem after {xs : List β} {s : σ} {own own1 own' : List Nat} {m m1 m' : Mem α D} {out : End (List γ × σ)}
    (q : Mem.Quiet own own1 m m1) (h : CallsEach g xs s own1 m1 out own' m') : CallsEach g xs s own m out own' m' := by
  cases h with
  | nil q' => exact .nil (q.trans q')
  | cons q' c r => exact .cons (q.trans q') c r
  | panic q' c => exact .panic (q.trans q') c
  | stuck q' c => exact .stuck (q.trans q') c

theorem append {xs ys : List β} {s : σ} {own own1 own' : List Nat} {m m1 m' : Mem α D} {o : End (List γ × σ)}
    (h : CallsEach g xs s own m o own1 m1) {ws : List γ} {s' : σ} (ho : o = .ret (ws, s')) {out : End (List γ × σ)}
    (h' : CallsEach g ys s' own1 m1 out own' m') : CallsEach g (xs ++ ys) s own m (out.map fun y => (ws ++ y.1, y.2)) own' m' := by
  induction h generalizing ws with
  | nil q =>
    cases ho
    have : (out.map fun y => (([] : List γ) ++ y.1, y.2)) = out := by cases out <;> rfl
    rw [this]
    exact h'.after q
  | @cons x xs s s1 w own own1 own2 m m1 m2 m3 o q c r ih =>
    cases o with
    | panic => cases ho
    | stuck => cases ho
    | ret y =>
      obtain ⟨vs, s2⟩ := y
      simp only [End.map, End.ret.injEq, Prod.mk.injEq] at ho
      obtain ⟨rfl, rfl⟩ := ho
      have := CallsEach.cons q c (ih rfl h')
      have e : (out.map fun y => (w :: vs ++ y.1, y.2)) =
          (out.map fun y => (vs ++ y.1, y.2)).map fun y => (w :: y.1, y.2) := by cases out <;> rfl
      rw [e]
      exact this
  | panic q c => cases ho
  | stuck q c => cases ho

theorem append_stop {xs ys : List β} {s : σ} {own own1 : List Nat} {m m1 : Mem α D} {o : End (List γ × σ)}
    (h : CallsEach g xs s own m o own1 m1) (ho : ∀ y, o ≠ .ret y) : CallsEach g (xs ++ ys) s own m o own1 m1 := by
  induction h with
  | nil q => exact (ho _ rfl).elim
  | @cons x xs s s1 w own own1 own2 m m1 m2 m3 o q c r ih =>
    exact CallsEach.cons q c (ih fun y hy => ho _ (by rw [hy]; rfl))
  | panic q c => exact .panic q c
  | stuck q c => exact .stuck q c

theorem then_ {xs : List β} {s : σ} {own own1 own' : List Nat} {m m1 m' : Mem α D} {y : List γ × σ}
    (h : CallsEach g xs s own m (.ret y) own1 m1) (q : Mem.Quiet own1 own' m1 m') : CallsEach g xs s own m (.ret y) own' m' := by
  have := h.append (ys := []) (ws := y.1) (s' := y.2) rfl (.nil q)
  simpa [End.map] using this

theorem sub {xs : List β} {s : σ} {own own' : List Nat} {m m' : Mem α D} {out : End (List γ × σ)}
    (h : CallsEach g xs s own m out own' m') : ∀ n ∈ own, n ∈ own' := by
  induction h with
  | nil q => exact q.sub
  | cons q c r ih => exact fun n hn => ih n (q.sub n hn)
  | panic q c => exact q.sub
  | stuck q c => exact q.sub

/-- calls of a transformed program for a transformed list -/
theorem image {β' : Type} {f : β' → β} {h : γ → δ} {xs : List β'} {s : σ} {own own' : List Nat} {m m' : Mem α D}
    {out : End (List δ × σ)}
    (H : CallsEach (fun x s => g (f x) s >>= fun y => pure (h y.1, y.2)) xs s own m out own' m') :
    ∃ o, CallsEach g (xs.map f) s own m o own' m' ∧ out = o.map fun y => (y.1.map h, y.2) := by
  induction H with
  | nil q => exact ⟨_, .nil q, rfl⟩
  | @cons x xs s s1 w own own1 own2 m m1 m2 m3 o q c r ih =>
    obtain ⟨o', h1, rfl⟩ := ih
    rw [Prog.run_bind] at c
    cases e : (g (f x) s).run m1 with
    | mk r mm =>
      rw [e] at c
      cases r with
      | panic => cases c
      | stuck => cases c
      | ret y =>
        simp only [Prog.run, Pure.pure, Prod.mk.injEq, End.ret.injEq] at c
        obtain ⟨⟨rfl, rfl⟩, rfl⟩ := c
        refine ⟨_, .cons q e h1, ?_⟩
        cases o' <;> rfl
  | @panic x xs s own own1 m m1 m2 q c =>
    rw [Prog.run_bind] at c
    cases e : (g (f x) s).run m1 with
    | mk r mm =>
      rw [e] at c
      cases r with
      | panic => cases c; exact ⟨_, .panic q e, rfl⟩
      | stuck => cases c
      | ret y => cases c
  | @stuck x xs s own own1 m m1 m2 q c =>
    rw [Prog.run_bind] at c
    cases e : (g (f x) s).run m1 with
    | mk r mm =>
      rw [e] at c
      cases r with
      | stuck => cases c; exact ⟨_, .stuck q e, rfl⟩
      | panic => cases c
      | ret y => cases c

/-- as many results as calls -/
theorem length {xs : List β} {s : σ} {own own' : List Nat} {m m' : Mem α D} {o : End (List γ × σ)}
    (h : CallsEach g xs s own m o own' m') {y : List γ × σ} (ho : o = .ret y) : y.1.length = xs.length := by
  induction h generalizing y with
  | nil q => cases ho; rfl
  | @cons x xs s s1 w own own1 own2 m m1 m2 m3 o q c r ih =>
    cases o with
    | panic => cases ho
    | stuck => cases ho
    | ret z => cases ho; simp only [List.length_cons, ih rfl]
  | panic q c => cases ho
  | stuck q c => cases ho

end CallsEach
end

/-! ### From the logic of nodes to runs -/
namespace Prog
variable {α D β : Type}

theorem run_wp {Q : β → View α D → Prop} {P : Prog α D β} {v : View α D} {W : Nat → Prop} (h : wp False Q P v W) {m : Mem α D}
    (hv : v ≤ m.nodes) :
    ∃ b v' m', P.run m = (.ret b, m') ∧ Q b v' ∧ v' ≤ m'.nodes ∧ m'.objs = m.objs ∧ m.heap.length ≤ m'.heap.length ∧
      ∀ n, n < m.heap.length → ¬ W n → m'.heap[n]? = m.heap[n]? := by
  induction P generalizing v W m with
  | ret b => exact ⟨b, v, m, rfl, h, hv, rfl, Nat.le_refl _, fun _ _ _ => rfl⟩
  | panic => exact h.elim
  | stuck => exact h.elim
  | alloc c k ih =>
    have hn : v m.heap.length = none := by
      cases e : v m.heap.length with
      | none => rfl
      | some d =>
        have : m.heap[m.heap.length]? = some d := hv _ _ e
        rw [List.getElem?_eq_none (Nat.le_refl _)] at this
        cases this
    obtain ⟨b, v', m', h1, h2, h3, h4, h5, h6⟩ := ih m.heap.length (h _ hn) (m := { m with heap := m.heap ++ [c] }) (by
      show _ ≤ View.ofHeap (m.heap ++ [c])
      rw [ofHeap_alloc]
      intro n d hd
      unfold View.set at hd ⊢
      split
      · next e => rw [if_pos e] at hd; exact hd
      · next e => rw [if_neg e] at hd; exact hv _ _ hd)
    simp only [List.length_append, List.length_cons, List.length_nil] at h5 h6
    refine ⟨b, v', m', h1, h2, h3, h4, by omega, fun n hn hw => ?_⟩
    rw [h6 n (by omega) (by rintro (e | e); omega; exact hw e), List.getElem?_append_left hn]
  | read p k ih =>
    obtain ⟨c, hc, h⟩ := h
    obtain ⟨b, v', m', h1, h2⟩ := ih c h hv
    have e : m.heap[p]? = some c := hv _ _ hc
    exact ⟨b, v', m', by simp only [run, e, h1], h2⟩
  | write p c k ih =>
    obtain ⟨hw, ⟨c0, hc⟩, h⟩ := h
    have hp : p < m.heap.length := (List.getElem?_eq_some_iff.mp (hv _ _ hc : m.heap[p]? = some c0)).1
    obtain ⟨b, v', m', h1, h2, h3, h4, h5, h6⟩ := ih h (m := { m with heap := m.heap.set p c }) (by
      show _ ≤ View.ofHeap (m.heap.set p c)
      rw [ofHeap_write hp]
      intro n d hd
      unfold View.set at hd ⊢
      split
      · next e => rw [if_pos e] at hd; exact hd
      · next e => rw [if_neg e] at hd; exact hv _ _ hd)
    simp only [List.length_set] at h5 h6
    refine ⟨b, v', m', by simp only [run, if_pos hp, h1], h2, h3, h4, h5, fun n hn hw' => ?_⟩
    rw [h6 n hn hw', List.getElem?_set_ne]
    rintro rfl
    exact hw' hw
  | load o k ih => exact h.elim
  | cas o old new k ih => exact h.elim
  | newObj ob k ih => exact h.elim

end Prog

/-! ### `Map` -/
namespace Heap
open Prog
variable {α D σ τ : Type} [LawfulGoWord α] [Comparable D]

/-- the view without the nodes of `H` -/
def hide (H : List Nat) (v : View α D) : View α D := fun n => if n ∈ H then none else v n

omit [LawfulGoWord α] [Comparable D] in
theorem hide_le {H : List Nat} {v : View α D} : hide H v ≤ v := by
  intro n c h
  unfold hide at h
  split at h
  · cases h
  · exact h

omit [LawfulGoWord α] [Comparable D] in
theorem hide_mono {H : List Nat} {v v' : View α D} (h : v ≤ v') : hide H v ≤ hide H v' := by
  intro n c e
  unfold hide at e ⊢
  split at e
  · cases e
  · next hn => rw [if_neg hn]; exact h _ _ e

/-- what `copyMutate` does if the mutator does not return -/
theorem run_copyMutate_stop {me : Nat} {f : Cell α D → Prog α D (Cell α D × τ)} {m m1 : Mem α D} {c : Cell α D}
    (hc : m.heap[me]? = some c) :
    ((f c).run { m with heap := m.heap ++ [c] } = (.panic, m1) → (copyMutate me f).run m = (.panic, m1)) ∧
    ((f c).run { m with heap := m.heap ++ [c] } = (.stuck, m1) → (copyMutate me f).run m = (.stuck, m1)) := by
  have e : ∀ x, (f c).run { m with heap := m.heap ++ [c] } = x → (∀ y, x.1 ≠ .ret y) → (copyMutate me f).run m = (match x with
      | (.panic, m) => (.panic, m)
      | (.stuck, m) => (.stuck, m)
      | (.ret _, m) => (.panic, m)) := by
    intro x hx hn
    have e2 : ∀ (c : Cell α D), (m.heap ++ [c])[m.heap.length]? = some c := fun c => by simp
    simp only [copyMutate, mutate, run_bind, deref, run, hc, new, e2, hx]
    obtain ⟨x, m'⟩ := x
    cases x with
    | ret y => exact (hn y rfl).elim
    | panic => rfl
    | stuck => rfl
  exact ⟨fun h => e _ h (fun _ h => nomatch h), fun h => e _ h (fun _ h => nomatch h)⟩

/-- what `copyMutate` does if the mutator returns -/
theorem run_copyMutate_ret {me : Nat} {f : Cell α D → Prog α D (Cell α D × τ)} {m m1 : Mem α D} {c : Cell α D} {H own : List Nat}
    {y : Cell α D × τ} {l r : Trie α D} (hH : ∀ n ∈ H, n < m.heap.length) (hme : hide H m.nodes me = some c)
    (hf : TameIn (f c) Nowhere)
    (h : (f c).run { m with heap := m.heap ++ [c] } = (.ret y, m1)) (ho : m.heap.length ∈ own)
    (hl : Den (hide (m.heap.length :: H) m1.nodes) y.1.l l) (hr : Den (hide (m.heap.length :: H) m1.nodes) y.1.r r) :
    ∃ q m2, (copyMutate me f).run m = (.ret (q, y.2), m2) ∧ Mem.Quiet own own m1 m2 ∧
      Den (hide H m2.nodes) q (Trie.mk y.1.pfx y.1.data y.1.active l r) := by
  have hc : m.heap[me]? = some c := hide_le _ _ hme
  have hlt : me < m.heap.length := (List.getElem?_eq_some_iff.mp hc).1
  have hk := run_keeps hf (W := Nowhere) (m := { m with heap := m.heap ++ [c] }) (N := m.heap.length + 1) (fun _ h => h.elim) (by simp)
  rw [h] at hk
  have hm1 : m1.heap[m.heap.length]? = some c := by rw [hk.2 _ (by omega)]; simp
  have hme1 : m1.heap[me]? = some c := by
    rw [hk.2 _ (by omega), List.getElem?_append_left hlt]; exact hc
  have hnH : me ∉ H := by
    intro hm
    unfold hide at hme
    rw [if_pos hm] at hme
    cases hme
  -- the rest of the code
  let n := m.heap.length
  let v := hide (n :: H) m1.nodes
  have hvn : v n = none := by simp [v, hide]
  have hvme : v me = some c := by
    have : me ∉ n :: H := by simp only [List.mem_cons, not_or]; exact ⟨by omega, hnH⟩
    simp only [v, hide, if_neg this]
    exact hme1
  have key : wp (st := False) (fun b v' => b = ((if sized y.1 l r = c then some me else some n), y.2) ∧ v' = v.set n (sized y.1 l r)) (do
      store n y.1
      let n0 ← numNodes y.1.l
      let n1 ← numNodes y.1.r
      let h0 ← height y.1.l
      let h1 ← height y.1.r
      let size := (n0 + n1) % 2 ^ 32
      store n { y.1 with
        size := if y.1.active then (size + 1) % 2 ^ 32 else size
        h := (1 + max h0 h1) % 2 ^ 16 }
      let mutated ← deref (some n)
      let c ← deref (some me)
      let same ← structEq mutated c
      pure (if same then some me else some n, y.2)) (v.set n c) (fun k => k = n) := by
    refine wp_store rfl (View.set_same _ _ _) ?_
    rw [View.set_set]
    have hl' := hl.mono (View.le_set_fresh (c := y.1) hvn)
    have hr' := hr.mono (View.le_set_fresh (c := y.1) hvn)
    refine wp_numNodes hl' (wp_numNodes hr' (wp_height hl' (wp_height hr' ?_)))
    refine wp_store rfl (View.set_same _ _ _) ?_
    rw [View.set_set]
    refine wp_deref (View.set_same _ _ _) ?_
    refine wp_deref (c := c) ?_ ?_
    · rw [View.set_ne _ _ (by omega)]; exact hvme
    refine wp_structEq ?_
    refine ⟨?_, rfl⟩
    show (_, _) = (_, _)
    congr 1
    by_cases e : sized y.1 l r = c
    · have : decide (sized y.1 l r = c) = true := decide_eq_true e
      rw [if_pos e]
      exact if_pos this
    · rw [if_neg e]
      exact if_neg fun hx => e (of_decide_eq_true hx)
  have hv1 : v.set n c ≤ m1.nodes := by
    intro k d hd
    unfold View.set at hd
    split at hd
    · next e => rw [e]; cases hd; exact hm1
    · exact hide_le _ _ hd
  obtain ⟨b, v', m2, g1, ⟨rfl, rfl⟩, g3, g4, g5, g6⟩ := run_wp key hv1
  refine ⟨if sized y.1 l r = c then some me else some n, m2, ?_, ⟨g4, g5, fun _ h => h, fun _ h => Or.inl h, fun k hk hko => ?_, fun hl k hk => Nat.lt_of_lt_of_le (hl k hk) g5⟩, ?_⟩
  · have e2 : ∀ (c : Cell α D), (m.heap ++ [c])[m.heap.length]? = some c := fun c => by simp
    rw [← g1]
    simp only [copyMutate, mutate, bind_assoc]
    rw [run_bind]
    simp only [deref, run, hc, new]
    rw [run_bind]
    simp only [run]
    rw [run_bind]
    simp only [run, e2]
    rw [run_bind, h]
    rfl
  · refine g6 k hk ?_
    rintro rfl
    exact hko ho
  · have hle : v.set n (sized y.1 l r) ≤ hide H m2.nodes := by
      intro k d hd
      have h3 := g3 k d hd
      unfold hide
      rw [if_neg]
      · exact h3
      · intro hk
        unfold View.set at hd
        split at hd
        · next e => subst e; exact Nat.lt_irrefl _ (hH _ hk)
        · simp only [v, hide] at hd
          rw [if_pos (List.mem_cons_of_mem _ hk)] at hd
          cases hd
    refine Den.mono hle ?_
    have hl' := hl.mono (View.le_set_fresh (c := sized y.1 l r) hvn)
    have hr' := hr.mono (View.le_set_fresh (c := sized y.1 l r) hvn)
    by_cases e : sized y.1 l r = c
    · rw [if_pos e]
      have hx : v.set n (sized y.1 l r) me = some (sized y.1 l r) := by
        rw [View.set_ne _ _ (by omega), hvme, e]
      exact Den.node (c := sized y.1 l r) hx hl' hr'
    · rw [if_neg e]
      exact den_sized hvn hl hr

/-- a mapper that takes the results one by one from a list -/
def pop [Inhabited D] : List (Option D) → Option D × List (Option D)
  | [] => (some default, [])
  | w :: ws => (w, ws)

/-- how `Map` ends, if its calls of the mapper end in this way -/
def MapEnds [Inhabited D] (ve : Trie.Eq' D) (t : Trie α D) (v : View α D) : End (List (Option D) × σ) → End (Ptr × σ) → Prop
  | .ret (ws, s), r => ∃ q t', r = .ret (q, s) ∧ Den v q t' ∧ ∀ rest, Trie.map (fun _ _ => pop) ve t (ws ++ rest) = (t', rest)
  | .panic, r => r = .panic
  | .stuck, r => r = .stuck

theorem hide_step {H : List Nat} {m : Mem α D} {c : Cell α D} {v : View α D} (h : View.ofHeap (m.heap ++ [c]) ≤ v) :
    hide H m.nodes ≤ hide (m.heap.length :: H) v := by
  intro k d hd
  unfold hide at hd ⊢
  split at hd
  · cases hd
  · next hk =>
    have hk' : k < m.heap.length := (List.getElem?_eq_some_iff.mp (hd : m.heap[k]? = some d)).1
    rw [if_neg (by simp only [List.mem_cons, not_or]; exact ⟨by omega, hk⟩)]
    refine h _ _ ?_
    show (m.heap ++ [c])[k]? = some d
    rw [List.getElem?_append_left hk']
    exact hd

theorem run_mapR [Inhabited D] {f : Prefix α → Option D → σ → Prog α D (Option D × σ)} (hf : ∀ p d s, TameIn (f p d s) Nowhere)
    {eq : Comparator D} {ve : Trie.Eq' D} (hEq : ∀ a b, eq a b = some (ve a b)) :
    ∀ (F : Nat) {t : Trie α D}, t.deep < F → ∀ {H own : List Nat} {m : Mem α D} {p : Ptr} {s : σ},
      (∀ n ∈ H, n < m.heap.length) → Den (hide H m.nodes) p t →
      ∃ out own' m' r, (mapR f eq F p s).run m = (r, m') ∧
        CallsEach (fun x => f x.1 x.2) (t.allNodes.map fun n => (n.1, n.2.1)) s own m out own' m' ∧
        MapEnds ve t (hide H m'.nodes) out r := by
  intro F
  induction F with
  | zero => intro t h; omega
  | succ F ih =>
    intro t hF H own m p s hH dt
    cases dt with
    | nil => exact ⟨_, own, m, _, rfl, .nil (.refl _ _), none, .nil, rfl, .nil, fun rest => rfl⟩
    | @node a c l r ha dl dr =>
      simp only [Trie.deep] at hF
      have hc : m.heap[a]? = some c := hide_le _ _ ha
      have hlt : a < m.heap.length := (List.getElem?_eq_some_iff.mp hc).1
      let mp : Mem α D := { m with heap := m.heap ++ [c] }
      let n := m.heap.length
      have hq : Mem.Quiet own (n :: own) m mp := by
        refine ⟨rfl, by simp [mp], fun k hk => List.mem_cons_of_mem _ hk, fun k hk => ?_, fun k hk _ => ?_, fun hl k hk => ?_⟩
        · rcases List.mem_cons.mp hk with rfl | hk
          · exact Or.inr (Nat.le_refl _)
          · exact Or.inl hk
        · exact List.getElem?_append_left hk
        · rcases List.mem_cons.mp hk with rfl | hk
          · simp [mp, n]
          · exact Nat.lt_of_lt_of_le (hl k hk) (by simp [mp])
      have hca : mp.heap[a]? = some c := by
        show (m.heap ++ [c])[a]? = _
        rw [List.getElem?_append_left hlt]; exact hc
      let body : Cell α D → Prog α D (Cell α D × σ) := fun n => do
        let c ← deref (some a)
        let x ← f c.pfx c.data s
        let e ← orPanic (eq c.data x.1)
        let (l, s) ← mapR f eq F c.l x.2
        let (r, s) ← mapR f eq F c.r s
        pure ({ n with data := if e then c.data else x.1, l := l, r := r }, s)
      have hb : TameIn (body c) Nowhere := by
        refine Tame.seq tame_deref fun c W1 _ => Tame.seq (hf _ _ _).wider fun x W2 _ => Tame.seq tame_orPanic fun e W3 _ => ?_
        exact Tame.seq (tame_mapR hf) fun l W4 _ => Tame.seq (tame_mapR hf) fun r W5 _ => trivial
      have hmap : mapR f eq (F + 1) (some a) s = copyMutate a body := by rw [mapR]
      rw [hmap]
      have hbody : (body c).run mp = match (f c.pfx c.data s).run mp with
          | (.ret x, m1) => (match (mapR f eq F c.l x.2).run m1 with
            | (.ret y, m2) => (match (mapR f eq F c.r y.2).run m2 with
              | (.ret z, m3) => (.ret ({ c with data := if ve c.data x.1 then c.data else x.1, l := y.1, r := z.1 }, z.2), m3)
              | (.panic, m3) => (.panic, m3)
              | (.stuck, m3) => (.stuck, m3))
            | (.panic, m2) => (.panic, m2)
            | (.stuck, m2) => (.stuck, m2))
          | (.panic, m1) => (.panic, m1)
          | (.stuck, m1) => (.stuck, m1) := by
        simp only [body]
        rw [run_bind]
        simp only [deref, run, hca]
        rw [run_bind]
        cases (f c.pfx c.data s).run mp with
        | mk e1 m1 =>
          cases e1 with
          | panic => rfl
          | stuck => rfl
          | ret x =>
            simp only [hEq]
            show ((mapR f eq F c.l x.2 >>= _).run m1) = _
            rw [run_bind]
            cases (mapR f eq F c.l x.2).run m1 with
            | mk e2 m2 =>
              cases e2 with
              | panic => rfl
              | stuck => rfl
              | ret y =>
                obtain ⟨y1, y2⟩ := y
                simp only [run_bind]
                cases (mapR f eq F c.r y2).run m2 with
                | mk e3 m3 =>
                  cases e3 with
                  | panic => rfl
                  | stuck => rfl
                  | ret z => rfl
      have stop := fun m1 => run_copyMutate_stop (me := a) (f := body) (m := m) (m1 := m1) hc
      show ∃ out own' m' r', _ ∧ CallsEach _ ((c.pfx, c.data) :: (l.allNodes ++ r.allNodes).map _) _ _ _ _ _ _ ∧ _
      rw [List.map_append]
      cases hx : (f c.pfx c.data s).run mp with
      | mk e1 m1 =>
        rw [hx] at hbody
        have le1 : mp.nodes ≤ m1.nodes := by have := run_le (hf c.pfx c.data s) mp; rwa [hx] at this
        cases e1 with
        | panic => exact ⟨.panic, _, m1, _, (stop m1).1 hbody, .panic hq hx, rfl⟩
        | stuck => exact ⟨.stuck, _, m1, _, (stop m1).2 hbody, .stuck hq hx, rfl⟩
        | ret x =>
          obtain ⟨w, s1⟩ := x
          have hs1 : ∀ k ∈ n :: H, k < m1.heap.length := by
            have hk := (run_keeps (hf c.pfx c.data s) (W := Nowhere) (fun _ h => h.elim) (Nat.le_refl _) (m := mp)).1
            rw [hx] at hk
            have hl : mp.heap.length = m.heap.length + 1 := by simp [mp]
            simp only at hk
            intro k hk'
            rcases List.mem_cons.mp hk' with rfl | hk'
            · omega
            · have := hH k hk'; omega
          have d1 := dl.mono (hide_step (H := H) (m := m) (c := c) (v := m1.nodes) le1)
          obtain ⟨o1, own1, m2, r1, g1, g2, g3⟩ := ih (t := l) (by omega) (own := n :: own) (s := s1) hs1 d1
          have le2 : m1.nodes ≤ m2.nodes := by
            have := run_le (tame_mapR hf (eq := eq) (F := F) (p := c.l) (s := s1)) m1
            rwa [g1] at this
          simp only [g1] at hbody
          cases o1 with
          | panic =>
            cases g3
            exact ⟨.panic, _, m2, _, (stop m2).1 hbody, .cons (out := .panic) hq hx (g2.append_stop fun _ h => nomatch h), rfl⟩
          | stuck =>
            cases g3
            exact ⟨.stuck, _, m2, _, (stop m2).2 hbody, .cons (out := .stuck) hq hx (g2.append_stop fun _ h => nomatch h), rfl⟩
          | ret y =>
            obtain ⟨ws1, s2⟩ := y
            obtain ⟨q1, t1, rfl, d2, p1⟩ := g3
            have hs2 : ∀ k ∈ n :: H, k < m2.heap.length := by
              have hk := (run_keeps (tame_mapR hf (eq := eq) (F := F) (p := c.l) (s := s1)) (W := Nowhere) (fun _ h => h.elim) (Nat.le_refl _) (m := m1)).1
              rw [g1] at hk
              intro k hk'
              exact Nat.lt_of_lt_of_le (hs1 k hk') hk
            have d3 := dr.mono (hide_step (H := H) (m := m) (c := c) (v := m2.nodes) (View.le_trans le1 le2))
            obtain ⟨o2, own2, m3, r2, k1, k2, k3⟩ := ih (t := r) (by omega) (own := own1) (s := s2) hs2 d3
            have le3 : m2.nodes ≤ m3.nodes := by
              have := run_le (tame_mapR hf (eq := eq) (F := F) (p := c.r) (s := s2)) m2
              rwa [k1] at this
            simp only [k1] at hbody
            have calls := g2.append (ws := ws1) (s' := s2) rfl k2
            cases o2 with
            | panic =>
              cases k3
              exact ⟨.panic, _, m3, _, (stop m3).1 hbody, .cons (out := .panic) hq hx calls, rfl⟩
            | stuck =>
              cases k3
              exact ⟨.stuck, _, m3, _, (stop m3).2 hbody, .cons (out := .stuck) hq hx calls, rfl⟩
            | ret z =>
              obtain ⟨ws2, s3⟩ := z
              obtain ⟨q2, t2, rfl, d4, p2⟩ := k3
              simp only at hbody
              have hown : n ∈ own2 := calls.sub n (List.mem_cons_self ..)
              obtain ⟨q, m4, j1, j2, j3⟩ := run_copyMutate_ret (me := a) (f := body) (H := H) (own := own2) hH ha hb hbody hown
                (l := t1) (r := t2) (d2.mono (hide_mono le3)) d4
              refine ⟨.ret (w :: (ws1 ++ ws2), s3), own2, m4, _, j1, ?_, q, _, rfl, j3, fun rest => ?_⟩
              · have := CallsEach.cons (g := fun x : Prefix α × Option D => f x.1 x.2) (x := (c.pfx, c.data)) hq hx calls
                exact this.then_ j2
              · simp only [List.cons_append, List.append_assoc, Trie.map, pop, p1, p2]

end Heap
end Addrs

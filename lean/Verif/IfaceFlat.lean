import Verif.Iface
/-
  Tables of an interface type `T` without the box of a nil value: the operations of node.go do the same.
-/
set_option linter.unusedSectionVars false
namespace Addrs
open GoWord LawfulGoWord

namespace Trie
variable {α V : Type} [LawfulGoWord α]

/-- every entry has a value (which may be nil) -/
def Full : Trie α (Option V) → Prop
  | nil => True
  | node _ d _ _ act l r => (act = true → d.isSome = true) ∧ Full l ∧ Full r

theorem full_of {t : Trie α (Option V)} (h : ∀ x, x ∈ t.entries → x.2.isSome = true) : t.Full := by
  induction t with
  | nil => trivial
  | node p d n m act l r ihl ihr =>
    refine ⟨fun ha => ?_, ihl fun x hx => h x ?_, ihr fun x hx => h x ?_⟩
    · subst ha
      exact h (p, d) (by simp [entries])
    · simp [entries, hx]
    · simp [entries, hx]

theorem inside_flat {p : Prefix α} {b : Bool} {t : Trie α (Option V)} : Inside p b t.flat ↔ Inside p b t := by cases t <;> exact Iff.rfl

theorem TInv.flat {t : Trie α (Option V)} (h : TInv t) : TInv t.flat := by
  induction h with
  | empty => exact .empty
  | mk p d act l r wf il ir hl hr two ihl ihr =>
    rw [flat_mk]
    exact .mk _ _ _ _ _ wf (inside_flat.mpr il) (inside_flat.mpr ir) ihl ihr fun ha =>
      ⟨fun e => (two ha).1 (flat_nil_iff.mp e), fun e => (two ha).2 (flat_nil_iff.mp e)⟩

/-- the comparison of values `e`, with which the entries of a table are compared, without the box -/
theorem insert_flat {i u : Bool} {e : Option V → Option V → Bool} {k : Prefix α} {v : Option V} {t : Trie α (Option V)} (h : t.Full) :
    insert ⟨i, u, e⟩ k v t.flat = (insert ⟨i, u, liftEq e⟩ k (some v) t).map flat := by
  induction t with
  | nil => cases i <;> rfl
  | node p d n m act l r ihl ihr =>
    rw [flat, insert, insert]
    rcases compareP p k with ⟨res, rev, common, child⟩
    cases res with
    | same =>
      simp only
      split
      · rfl
      · split
        · rfl
        · simp only [Option.map_some, flat_mk, Option.some.injEq]
          cases act with
          | false => rfl
          | true =>
            obtain ⟨x, rfl⟩ := Option.isSome_iff_exists.mp (h.1 rfl)
            simp only [Option.join_some, Bool.true_and, liftEq]
            split <;> rfl
    | contains =>
      simp only
      cases child with
      | true =>
        simp only [if_true]
        rw [ihr h.2.2]
        cases insert ⟨i, u, liftEq e⟩ k (some v) r <;> simp [flat_mk]
      | false =>
        simp only [Bool.false_eq_true, if_false]
        rw [ihl h.2.1]
        cases insert ⟨i, u, liftEq e⟩ k (some v) l <;> simp [flat_mk]
    | isContained =>
      cases i <;> cases child <;> simp [flat_mk, flat]
    | disjoint =>
      cases i with
      | false => rfl
      | true =>
        simp only [Bool.not_true, Bool.false_eq_true, if_false]
        split <;> simp [flat_mk, flat]

theorem insert_no {u : Bool} (hu : u = false) {i : Bool} {D : Type} {e e' : Eq' D} {k : Prefix α} {d : Option D} {t : Trie α D} :
    insert ⟨i, u, e⟩ k d t = insert ⟨i, u, e'⟩ k d t := by
  subst hu
  induction t with
  | nil => rfl
  | node p x n m act l r ihl ihr =>
    rw [insert, insert, ihl, ihr]
    rcases compareP p k with ⟨res, rev, common, child⟩
    cases res <;> cases act <;> simp

theorem getOrInsert_flat {k : Prefix α} {v : Option V} {t : Trie α (Option V)} (h : t.Full) :
    getOrInsert k v t.flat = ((getOrInsert k (some v) t).1.flat, (getOrInsert k (some v) t).2.join) := by
  induction t with
  | nil => rfl
  | node p d n m act l r ihl ihr =>
    have hins : insert ⟨true, false, fun _ _ => false⟩ k v (node p d n m act l r).flat =
        (insert ⟨true, false, fun _ _ => false⟩ k (some v) (node p d n m act l r)).map flat := by
      rw [insert_no rfl (e' := fun _ _ => false) (t := node p d n m act l r), insert_no rfl (e' := liftEq fun _ _ => false) (t := node p d n m act l r), ← insert_flat h]
    rw [flat] at hins
    rw [flat, getOrInsert, getOrInsert, hins]
    rcases containsP p k with ⟨b1, b2, b3, child⟩
    have hme : (Option.map flat (insert ⟨true, false, fun _ _ => false⟩ k (some v) (node p d n m act l r))).getD (node p d.join n m act l.flat r.flat) =
        ((insert ⟨true, false, fun _ _ => false⟩ k (some v) (node p d n m act l r)).getD (node p d n m act l r)).flat := by
      cases insert ⟨true, false, fun _ _ => false⟩ k (some v) (node p d n m act l r) <;> rfl
    simp only
    split
    · rw [hme]; rfl
    · cases b1 <;> cases b2 <;> cases act <;> cases child <;> simp [hme, ihl h.2.1, ihr h.2.2, flat_mk] <;> rfl

theorem del_flat {k : Prefix α} {t : Trie α (Option V)} : del k t.flat = (del k t).map flat := by
  induction t with
  | nil => rfl
  | node p d n m act l r ihl ihr =>
    rw [flat, del, del, ihl, ihr]
    rcases compareP p k with ⟨res, rev, common, child⟩
    cases res with
    | same =>
      simp only [flat_isNil]
      split
      · rfl
      · split
        · rfl
        · simp [flat_mk]
    | contains =>
      cases child with
      | true =>
        simp only [if_true]
        cases del k r with
        | none => rfl
        | some r' =>
          simp only [Option.map_some, flat_isNil]
          split <;> simp [flat_mk]
      | false =>
        simp only [Bool.false_eq_true, if_false]
        cases del k l with
        | none => rfl
        | some l' =>
          simp only [Option.map_some, flat_isNil]
          split <;> simp [flat_mk]
    | isContained => rfl
    | disjoint => rfl

theorem match_flat {k : Prefix α} {t : Trie α (Option V)} : t.flat.match k = (t.match k).map fun x => (x.1, x.2.join) := by
  induction t with
  | nil => rfl
  | node p d n m act l r ihl ihr =>
    rw [flat, «match», «match», ihl, ihr]
    rcases containsP p k with ⟨b1, b2, b3, child⟩
    simp only
    split
    · rfl
    · cases b1 <;> cases b2 <;> cases child <;> simp
      · cases l.match k <;> cases act <;> rfl
      · cases r.match k <;> cases act <;> rfl
theorem map_flat {σ : Type} [DecidableEq V] {f : Prefix α → Option V → σ → Option V × σ} {t : Trie α (Option V)} {s : σ} :
    map f (fun a b => decide (a = b)) t.flat s =
      ((map (fun p d s => let y := f p (Table.unbox d) s; (some y.1, y.2)) (liftEq fun a b => decide (a = b)) t s).1.flat,
       (map (fun p d s => let y := f p (Table.unbox d) s; (some y.1, y.2)) (liftEq fun a b => decide (a = b)) t s).2) := by
  induction t generalizing s with
  | nil => rfl
  | node p d n m act l r ihl ihr =>
    have hu : (Table.unbox d : Option V) = d.join := by cases d <;> rfl
    rw [flat, map, map]
    simp only [ihl, ihr, flat_mk, hu]
    refine Prod.ext ?_ rfl
    have h1 : ∀ a b : Option V, (if decide (a = b) = true then a else b) = b := by
      intro a b
      by_cases e : a = b <;> simp [e]
    have h2 : ∀ (a : Option (Option V)) (b : Option V), (if liftEq (fun a b => decide (a = b)) a (some b) = true then a else some b) = some b := by
      intro a b
      cases a with
      | none => rfl
      | some a => by_cases e : a = b <;> simp [e, liftEq]
    simp only [h1, h2, Option.join_some]

/-- what a handler of `diff` gets to see, without the box -/
def Info.flat (i : Info α (Option V)) : Info α V := ⟨i.pfx, i.data.join, i.active⟩

theorem andThen_congr {σ : Type} {x y : σ × Bool} (h : x = y) {k k' : σ → σ × Bool} (hk : ∀ s, k s = k' s) : andThen x k = andThen y k' := by
  rw [h, funext hk]

theorem diff_flat {σ : Type} {H : Handler α V σ} {G : Handler α (Option V) σ}
    (h1 : ∀ i s, (i.active = true → i.data.isSome = true) → H.removed i.flat s = G.removed i s)
    (h2 : ∀ i s, (i.active = true → i.data.isSome = true) → H.added i.flat s = G.added i s)
    (h3 : ∀ i j s, (i.active = true → i.data.isSome = true) → (j.active = true → j.data.isSome = true) → H.modified i.flat j.flat s = G.modified i j s) :
    ∀ (N : Nat) {t u : Trie α (Option V)}, t.nodes + u.nodes ≤ N → t.Full → u.Full → ∀ s, diff H t.flat u.flat s = diff G t u s := by
  intro N
  induction N with
  | zero =>
    intro t u hN ht hu s
    cases t with
    | nil =>
      cases u with
      | nil => simp only [flat, diff]
      | node q e n' m' act' l' r' => simp only [nodes] at hN; omega
    | node p d n m act l r => simp only [nodes] at hN; omega
  | succ N ih =>
    intro t u hN ht hu s
    have nl : nodes (nil : Trie α (Option V)) = 0 := rfl
    have fl : (nil : Trie α (Option V)).flat = nil := rfl
    have fn : (nil : Trie α (Option V)).Full := trivial
    have ihn : ∀ {t : Trie α (Option V)}, t.nodes ≤ N → t.Full → ∀ s, diff H t.flat nil s = diff G t nil s := fun h hf s => ih (u := nil) (by omega) hf fn s
    have ihm : ∀ {t : Trie α (Option V)}, t.nodes ≤ N → t.Full → ∀ s, diff H nil t.flat s = diff G nil t s := fun h hf s => ih (t := nil) (by omega) fn hf s
    cases t with
    | nil =>
      cases u with
      | nil => simp only [flat, diff]
      | node q e n' m' act' l' r' =>
        simp only [nodes] at hN
        rw [fl, flat, diff, diff]
        exact andThen_congr (h2 ⟨q, e, act'⟩ s hu.1) fun s => andThen_congr (ihm (by omega) hu.2.1 s) fun s => ihm (by omega) hu.2.2 s
    | node p d n m act l r =>
      cases u with
      | nil =>
        simp only [nodes] at hN
        rw [fl, flat, diff, diff]
        exact andThen_congr (h1 ⟨p, d, act⟩ s ht.1) fun s => andThen_congr (ihn (by omega) ht.2.1 s) fun s => ihn (by omega) ht.2.2 s
      | node q e n' m' act' l' r' =>
        simp only [nodes] at hN
        have ft : (node p d n m act l r).flat = node p d.join n m act l.flat r.flat := rfl
        have fu : (node q e n' m' act' l' r').flat = node q e.join n' m' act' l'.flat r'.flat := rfl
        rw [ft, fu]
        conv => lhs; rw [diff]
        conv => rhs; rw [diff]
        rw [← ft, ← fu]
        rcases compareP p q with ⟨res, rev, common, child⟩
        cases res with
        | same =>
          exact andThen_congr (h3 ⟨p, d, act⟩ ⟨q, e, act'⟩ s ht.1 hu.1) fun s => andThen_congr (ih (by omega) ht.2.1 hu.2.1 s) fun s =>
            ih (by omega) ht.2.2 hu.2.2 s
        | contains =>
          refine andThen_congr (h1 ⟨p, d, act⟩ s ht.1) fun s => ?_
          cases child with
          | true => exact andThen_congr (ihn (by omega) ht.2.1 s) fun s => ih (by simp only [nodes]; omega) ht.2.2 hu s
          | false => exact andThen_congr (ih (by simp only [nodes]; omega) ht.2.1 hu s) fun s => ihn (by omega) ht.2.2 s
        | isContained =>
          refine andThen_congr (h2 ⟨q, e, act'⟩ s hu.1) fun s => ?_
          cases child with
          | true => exact andThen_congr (ihm (by omega) hu.2.1 s) fun s => ih (by simp only [nodes]; omega) ht hu.2.2 s
          | false => exact andThen_congr (ih (by simp only [nodes]; omega) ht hu.2.1 s) fun s => ihm (by omega) hu.2.2 s
        | disjoint =>
          cases child with
          | true =>
            exact andThen_congr (ihn (by simp only [nodes]; omega) ht s) fun s => ihm (by simp only [nodes]; omega) hu s
          | false =>
            exact andThen_congr (ihm (by simp only [nodes]; omega) hu s) fun s => ihn (by simp only [nodes]; omega) ht s

theorem Diff_flat {σ : Type} {cb : TableDiffCallbacks α (Option V) σ} {e : Option V → Option V → Bool} {t u : Trie α (Option V)} (ht : t.Full)
    (hu : u.Full) (s : σ) : Diff (Heap.ifaceCallbacks cb) e t.flat u.flat s = Diff cb.boxed (liftEq e) t u s := by
  have hb : ∀ (d : Option (Option V)), (Table.unbox d : Option V) = d.join := fun d => by cases d <;> rfl
  unfold Diff
  refine diff_flat ?_ ?_ ?_ _ (Nat.le_refl _) ht hu s
  · rintro ⟨p, d, act⟩ s h
    simp only [Info.flat, Heap.ifaceCallbacks, TableDiffCallbacks.boxed]
    cases act <;> cases cb.left <;> simp [orNoop1, hb]
  · rintro ⟨p, d, act⟩ s h
    simp only [Info.flat, Heap.ifaceCallbacks, TableDiffCallbacks.boxed]
    cases act <;> cases cb.right <;> simp [orNoop1, hb]
  · rintro ⟨p, d, act⟩ ⟨q, d', act'⟩ s h h'
    simp only [Info.flat, Heap.ifaceCallbacks, TableDiffCallbacks.boxed]
    have key : act = true → act' = true → liftEq e d d' = e d.join d'.join := by
      intro ha hb
      obtain ⟨x, rfl⟩ := Option.isSome_iff_exists.mp (h ha)
      obtain ⟨y, rfl⟩ := Option.isSome_iff_exists.mp (h' hb)
      rfl
    cases act <;> cases act' <;> simp only [Bool.false_and, Bool.and_false, Bool.and_self, Bool.false_eq_true, if_false, if_true]
    · cases cb.right <;> simp [orNoop1, hb]
    · cases cb.left <;> simp [orNoop1, hb]
    · rw [key rfl rfl]
      cases cb.changed <;> cases cb.unchanged <;> simp [orNoop1, orNoop2, hb]

theorem walk_flat {σ : Type} {cb : Prefix α → Option V → σ → σ × Bool} {t : Trie α (Option V)} (ht : t.Full) (s : σ) :
    walk cb t.flat s = walk (fun p d => cb p (Table.unbox d)) t s := by
  have hb : ∀ (d : Option (Option V)), (Table.unbox d : Option V) = d.join := fun d => by cases d <;> rfl
  unfold walk Diff
  refine diff_flat (t := nil) ?_ ?_ ?_ _ (Nat.le_refl _) trivial ht s
  · rintro ⟨p, d, act⟩ s h
    cases act <;> simp [Info.flat, orNoop1]
  · rintro ⟨p, d, act⟩ s h
    cases act <;> simp [Info.flat, orNoop1, hb]
  · rintro ⟨p, d, act⟩ ⟨q, d', act'⟩ s h h'
    cases act <;> cases act' <;> simp [Info.flat, orNoop1, orNoop2, hb]

section
variable [DecidableEq V]

/-- the comparison of `interface{}` values with `==` -/
abbrev eqI : Eq' V := fun a b => decide (a = b)
/-- the same where a nil value has a box -/
abbrev eqT : Eq' (Option V) := liftEq fun a b => decide (a = b)

theorem full_mk {p : Prefix α} {d : Option (Option V)} {a : Bool} {l r : Trie α (Option V)} :
    (Trie.mk p d a l r).Full ↔ (a = true → d.isSome = true) ∧ l.Full ∧ r.Full := Iff.rfl

theorem Full.data {t : Trie α (Option V)} (h : t.Full) (ha : t.isActive = true) : t.data.isSome = true := by
  cases t with
  | nil => cases ha
  | node p d n m act l r => exact h.1 ha

theorem eqI_join {a b : Option (Option V)} (ha : a.isSome = true) (hb : b.isSome = true) : eqI a.join b.join = eqT a b := by
  obtain ⟨x, rfl⟩ := Option.isSome_iff_exists.mp ha
  obtain ⟨y, rfl⟩ := Option.isSome_iff_exists.mp hb
  rfl

theorem childrenAggregate_flat {p : Prefix α} {a b : Trie α (Option V)} (ha : a.Full) (hb : b.Full) :
    childrenAggregate eqI p a.flat b.flat = childrenAggregate eqT p a b := by
  unfold childrenAggregate
  rw [flat_isActive, flat_isActive, flat_len, flat_len, flat_data, flat_data]
  cases h1 : a.isActive with
  | false => rfl
  | true =>
    cases h2 : b.isActive with
    | false => rfl
    | true => rw [eqI_join (ha.data h1) (hb.data h2)]

/-- the cases in which `createReturnValue` is called -/
theorem createReturnValue_flat {p : Prefix α} {d : Option (Option V)} {n m : Nat} {act isActive : Bool} {l0 r0 : Trie α (Option V)}
    {data : Option (Option V)} {l r : Trie α (Option V)} {cc : Bool} (hd : isActive = true → data.isSome = true)
    (hc : isActive = act → cc = false → data = d) (hf : (node p d n m act l0 r0).Full) (hl : l.Full) (hr : r.Full) :
    createReturnValue eqI eqI (node p d n m act l0 r0).flat isActive data.join l.flat r.flat cc =
      ((createReturnValue eqT (fun a b => decide (a = b)) (node p d n m act l0 r0) isActive data l r cc).1.flat,
       (createReturnValue eqT (fun a b => decide (a = b)) (node p d n m act l0 r0) isActive data l r cc).2) ∧
      (createReturnValue eqT (fun a b => decide (a = b)) (node p d n m act l0 r0) isActive data l r cc).1.Full := by
  have rT : ∀ x : Option (Option V), eqT x x = true := by intro x; cases x <;> simp [eqT, liftEq]
  have rI : ∀ x : Option V, eqI x x = true := by intro x; simp [eqI]
  have dT : (if d.isNone || !eqT d data then data else d) = data := by
    cases d with
    | none => rfl
    | some a =>
      cases data with
      | none => rfl
      | some b => by_cases e : a = b <;> simp [eqT, liftEq, e]
  have dI : (if d.join.isNone || !eqI d.join data.join then data.join else d.join) = data.join := by
    by_cases e : d.join = data.join
    · simp [e]
    · simp [e]
  rw [flat, createReturnValue, createReturnValue]
  simp only [dT, dI]
  by_cases h1 : (isActive == act && !cc) = true
  · simp only [Bool.and_eq_true, beq_iff_eq, Bool.not_eq_true'] at h1
    obtain ⟨rfl, rfl⟩ := h1
    have := hc rfl rfl
    subst this
    simp only [beq_self_eq_true, Bool.not_false, Bool.and_self, rT, if_true, rI]
    exact ⟨rfl, hf⟩
  · have h2 : (isActive == act && !cc) = false := by simpa using h1
    have h3 : ∀ b : Bool, (b && (isActive == act) && !cc) = false := by intro b; rw [Bool.and_assoc, h2, Bool.and_false]
    simp only [h2, Bool.false_and, Bool.false_eq_true, if_false, h3]
    refine ⟨Prod.ext ?_ rfl, ?_⟩
    · simp only [flat_mk]
      cases isActive <;> rfl
    · refine full_mk.mpr ⟨?_, hl, hr⟩
      intro ha
      rw [if_pos ha]
      exact hd ha

/-- one level of `aggregate`, given whether the node is redundant -/
def aggStep {D : Type} (eq geq : Eq' D) (u : Option (Option D)) (p : Prefix α) (d : Option D) (n h : Nat) (act : Bool) (l r : Trie α D) (red : Bool) :
    Trie α D × Bool :=
  let me := node p d n h act l r
  let u' := if act && !red then some d else u
  let isActive := act && !red
  let data := if red then none else d
  let l' := aggregate eq geq u' l
  let r' := aggregate eq geq u' r
  if childrenAggregate eq p l'.1 r'.1 then
    createReturnValue eq geq me true l'.1.data nil nil true
  else if isActive then
    createReturnValue eq geq me isActive data l'.1 r'.1 (l'.2 || r'.2)
  else if l'.1.isNil then (r'.1, true)
  else if r'.1.isNil then (l'.1, true)
  else createReturnValue eq geq me isActive data l'.1 r'.1 (l'.2 || r'.2)

theorem aggregate_node {D : Type} {eq geq : Eq' D} {u : Option (Option D)} {p : Prefix α} {d : Option D} {n h : Nat} {act : Bool} {l r : Trie α D} :
    aggregate eq geq u (node p d n h act l r) = aggStep eq geq u p d n h act l r (act && u.any fun v => eq v d) := by
  cases u <;> rfl

theorem aggregate_unbox {t : Trie α (Option V)} (h : t.Full) : ∀ (u : Option (Option (Option V))), (∀ x, u = some x → x.isSome = true) →
    aggregate eqI eqI (u.map Option.join) t.flat =
      ((aggregate eqT (fun a b => decide (a = b)) u t).1.flat, (aggregate eqT (fun a b => decide (a = b)) u t).2) ∧
    (aggregate eqT (fun a b => decide (a = b)) u t).1.Full := by
  induction t with
  | nil => intro u _; exact ⟨rfl, trivial⟩
  | node p d n m act l r ihl ihr =>
    intro u hu
    have hred : (act && (u.map Option.join).any fun v => eqI v d.join) = (act && u.any fun v => eqT v d) := by
      cases act with
      | false => rfl
      | true =>
        cases u with
        | none => rfl
        | some x => exact eqI_join (hu x rfl) (h.1 rfl)
    have ft : (node p d n m act l r).flat = node p d.join n m act l.flat r.flat := rfl
    rw [ft, aggregate_node, aggregate_node, hred]
    generalize (act && u.any fun v => eqT v d) = red at *
    unfold aggStep
    simp only
    obtain ⟨u', hu', hj, hs⟩ : ∃ u', u' = (if act && !red then some d else u) ∧ (if act && !red then some d.join else u.map Option.join) = u'.map Option.join ∧
        ∀ x, u' = some x → x.isSome = true := by
      refine ⟨_, rfl, ?_, ?_⟩
      · split <;> rfl
      · split
        · next e =>
          intro x hx
          cases hx
          exact h.1 (by simp at e; exact e.1)
        · exact hu
    rw [hj, ← hu']
    obtain ⟨el, fl⟩ := ihl h.2.1 u' hs
    obtain ⟨er, fr⟩ := ihr h.2.2 u' hs
    rw [el, er]
    generalize aggregate eqT (fun a b => decide (a = b)) u' l = L at *
    generalize aggregate eqT (fun a b => decide (a = b)) u' r = R at *
    rw [childrenAggregate_flat fl fr]
    have hdata : (if red then none else d.join) = (if red then none else d : Option (Option V)).join := by cases red <;> rfl
    split
    · next hca =>
      have ha : L.1.isActive = true := by
        unfold childrenAggregate at hca
        simp only [Bool.and_eq_true] at hca
        exact hca.1.1.1.1
      have := createReturnValue_flat (p := p) (d := d) (n := n) (m := m) (act := act) (isActive := true) (l0 := l) (r0 := r) (data := L.1.data)
        (l := nil) (r := nil) (cc := true) (fun _ => fl.data ha) (fun _ e => by cases e) h trivial trivial
      rw [ft] at this
      rw [flat_data]
      exact this
    · split
      · next hia =>
        rw [hdata]
        refine createReturnValue_flat ?_ ?_ h fl fr
        · intro _
          simp only [Bool.and_eq_true, Bool.not_eq_true'] at hia
          rw [hia.2]
          exact h.1 hia.1
        · intro _ _
          simp only [Bool.and_eq_true, Bool.not_eq_true'] at hia
          rw [hia.2]; rfl
      · next hia =>
        simp only [flat_isNil]
        split
        · exact ⟨rfl, fr⟩
        · split
          · exact ⟨rfl, fl⟩
          · rw [hdata]
            refine createReturnValue_flat ?_ ?_ h fl fr
            · intro e; exact (hia e).elim
            · intro e _
              cases act with
              | false => cases red <;> simp_all
              | true => cases red <;> simp_all

end

end Trie
end Addrs

import Verif.Cut
import Verif.Panics
/-
  Values that `==` cannot compare: when `insert`, `GetOrInsert` and `del` of node.go panic.
-/
set_option linter.unusedSectionVars false
namespace Addrs
open GoWord LawfulGoWord

namespace Prog.Cut
variable {α D β γ : Type}

theorem panics {P Q : Prog α D β} (h : Cut P Q) : ∀ {v : View α D}, Panics Q v → Panics P v := by
  induction h with
  | panic P => intro v _; exact trivial
  | ret b => intro v h; exact h
  | stuck => intro v h; exact h
  | alloc _ ih => intro v h n hn; exact ih n (h n hn)
  | read _ ih => rintro v ⟨c, hc, h⟩; exact ⟨c, hc, ih c h⟩
  | write _ ih => rintro v ⟨h1, h⟩; exact ⟨h1, ih h⟩
  | load _ ih => intro v h; exact h.elim
  | cas _ ih => intro v h; exact h.elim
  | newObj _ ih => intro v h; exact h.elim

/-- if the first program does not panic it does what the second does -/
theorem wp {P Q : Prog α D β} (h : Cut P Q) {st : Prop} {R : β → View α D → Prop} :
    ∀ {v : View α D} {W : Nat → Prop}, wp st R Q v W → Prog.wp st (fun _ _ => True) P v W → Prog.wp st R P v W := by
  induction h with
  | panic P => intro v W _ h; exact h
  | ret b => intro v W h _; exact h
  | stuck => intro v W h _; exact h
  | alloc _ ih => intro v W h h' n hn; exact ih n (h n hn) (h' n hn)
  | read _ ih =>
    rintro v W ⟨c, hc, h⟩ ⟨c', hc', h'⟩
    rw [hc] at hc'; cases hc'
    exact ⟨c, hc, ih c h h'⟩
  | write _ ih => rintro v W ⟨h1, h2, h⟩ ⟨_, _, h'⟩; exact ⟨h1, h2, ih h h'⟩
  | load _ ih => intro v W h; exact h.elim
  | cas _ ih => intro v W h; exact h.elim
  | newObj _ ih => intro v W h; exact h.elim

theorem run_eq {P Q : Prog α D β} (h : Cut P Q) : ∀ {m : Mem α D}, (P.run m).1 ≠ .panic → P.run m = Q.run m := by
  induction h with
  | panic P => intro m h; exact (h rfl).elim
  | ret b => intro m _; rfl
  | stuck => intro m _; rfl
  | alloc _ ih => intro m h; exact ih _ h
  | @read p k k' _ ih =>
    intro m h
    simp only [Prog.run] at h ⊢
    cases e : m.heap[p]? with
    | none => rfl
    | some c => rw [e] at h; exact ih c h
  | @write p c k k' _ ih =>
    intro m h
    simp only [Prog.run] at h ⊢
    split
    · next hp => rw [if_pos hp] at h; exact ih h
    · rfl
  | @load o k k' _ ih =>
    intro m h
    simp only [Prog.run] at h ⊢
    cases e : m.objs[o]? with
    | none => rfl
    | some c => rw [e] at h; exact ih c h
  | @cas o old new k k' _ ih =>
    intro m h
    simp only [Prog.run] at h ⊢
    cases e : m.objs[o]? with
    | none => rfl
    | some c =>
      rw [e] at h
      simp only at h ⊢
      split
      · next hp => rw [if_pos hp] at h; exact ih _ h
      · next hp => rw [if_neg hp] at h; exact ih _ h
  | newObj _ ih => intro m h; exact ih _ h

end Prog.Cut

namespace Trie
variable {α D : Type} [GoWord α]

/-- comparing the value with itself panics -/
def Unc (A : GoType D) (d : Option D) : Prop := @ifaceEq D A d d = none

/-- `insert` panics: on the way back it copies a node whose value cannot be compared, or the node that it replaces
    has a value that cannot be compared with the new one. -/
def InsCrash (A : GoType D) (c : Comparator D) (o : InsertOpts D) (k : Prefix α) (d : Option D) : Trie α D → Prop
  | nil => False
  | node p e _ _ act l r =>
    match compareP p k with
    | (.same, _, _, _) => act = true ∧ o.upd = true ∧ c e d = none
    | (.contains, _, _, child) =>
      if child then InsCrash A c o k d r ∨ ((insert o k d r).isSome = true ∧ Unc A e)
      else InsCrash A c o k d l ∨ ((insert o k d l).isSome = true ∧ Unc A e)
    | _ => False

/-- `GetOrInsert` panics -/
def GetCrash (A : GoType D) (k : Prefix α) (d : Option D) : Trie α D → Prop
  | nil => False
  | node p e n h act l r =>
    let ins := InsCrash A nilComparator ⟨true, false, fun _ _ => false⟩ k d (node p e n h act l r)
    if k.len < p.len then ins
    else
      match containsP p k with
      | (m, exact, _, child) =>
        if !m then ins
        else if !exact then
          (if child then GetCrash A k d r else GetCrash A k d l) ∨ Unc A e
        else if !act then ins
        else False

/-- `del` panics -/
def DelCrash (A : GoType D) (k : Prefix α) : Trie α D → Prop
  | nil => False
  | node p e _ _ act l r =>
    match compareP p k with
    | (.same, _, _, _) => l.isNil = false ∧ r.isNil = false ∧ @ifaceEq D A none e = none
    | (.contains, _, _, child) =>
      if child then DelCrash A k r ∨ (∃ t', del k r = some t' ∧ (t'.isNil && !act) = false ∧ Unc A e)
      else DelCrash A k l ∨ (∃ t', del k l = some t' ∧ (t'.isNil && !act) = false ∧ Unc A e)
    | _ => False

end Trie

namespace Heap
open Prog
variable {α : Type} [LawfulGoWord α] {D τ : Type} {A : GoType D}

theorem structEq_panics {a b : Cell α D} (hp : a.pfx = b.pfx) (h : @ifaceEq D A a.data b.data = none) :
    @structEq α D _ A a b = .panic := by
  unfold structEq
  rw [if_neg (by simp [hp]), h]
  rfl

theorem structEq_calm {a b : Cell α D} (h : @ifaceEq D A a.data b.data ≠ none) : ∃ x, @structEq α D _ A a b = pure x := by
  unfold structEq
  split
  · exact ⟨_, rfl⟩
  · cases e : @ifaceEq D A a.data b.data with
    | none => exact (h e).elim
    | some x => exact ⟨_, rfl⟩

/-- `copyMutate` panics -/
theorem panics_copy {me : Nat} {c c' : Cell α D} {x : τ} {l r : Trie α D} {m : Cell α D → Prog α D (Cell α D × τ)} {v : View α D}
    (hme : v me = some c) (hm : m c = pure (c', x)) (hl : Den v c'.l l) (hr : Den v c'.r r) (hp : c'.pfx = c.pfx)
    (hu : @ifaceEq D A c'.data c.data = none) : Panics (@copyMutate α D _ τ A me m) v := by
  unfold copyMutate
  refine panics_deref hme (panics_new fun n hn => ?_)
  have hne : me ≠ n := by rintro rfl; rw [hn] at hme; cases hme
  refine Panics.after (W := fun k => k = n) (Q := fun _ v1 => v ≤ v1 ∧ v1 n = some (sized c' l r)) (wp_mutate_pure hn rfl hm hl hr
    fun v1 le _ hc => ⟨le, hc⟩) ?_
  rintro _ v1 ⟨le, hc⟩
  refine panics_deref hc (panics_deref (le _ _ hme) ?_)
  refine Panics.bind ?_
  rw [structEq_panics (A := A) (a := sized c' l r) (b := c) hp hu]
  exact trivial

/-- `copyMutate` does not panic -/
theorem calm_copy {me : Nat} {c c' : Cell α D} {x : τ} {l r : Trie α D} {m : Cell α D → Prog α D (Cell α D × τ)} {v : View α D}
    {W : Nat → Prop} (hme : v me = some c) (hm : m c = pure (c', x)) (hl : Den v c'.l l) (hr : Den v c'.r r)
    (hu : @ifaceEq D A c'.data c.data ≠ none) : wp False (fun _ _ => True) (@copyMutate α D _ τ A me m) v W := by
  unfold copyMutate
  refine wp_deref hme (wp_new fun n hn => ?_)
  refine wp_bind (wp_mutate_pure hn (Or.inl rfl) hm hl hr ?_)
  intro v1 le _ hc
  refine wp_deref hc (wp_deref (le _ _ hme) ?_)
  obtain ⟨y, hy⟩ := structEq_calm (A := A) (a := sized c' l r) (b := c) hu
  rw [hy]
  exact trivial

theorem setChild_data (c : Cell α D) (b : Bool) (p : Ptr) : (Cell.setChild c b p).data = c.data ∧ (Cell.setChild c b p).pfx = c.pfx := by
  cases b <;> exact ⟨rfl, rfl⟩

section
variable [Comparable D]

/-- `insert`, if it does not panic -/
theorem wp_insert_on (hle : A.Le Comparable.toGoType) {i u : Bool} {cA cB : Comparator D} (hc : CmpLe cA cB) {ve : Trie.Eq' D}
    {k : Prefix α} {d : Option D} {n0 F : Nat} {t : Trie α D} (hF : t.deep < F)
    (hEq : ∀ x, x ∈ t.entries → u = true → cB x.2 d = some (ve x.2 d)) {v : View α D} {p : Ptr} {W : Nat → Prop}
    (hn : v n0 = none) (hW : W n0) (dt : Den v p t)
    (h : wp False (fun _ _ => True) (@insert α D _ A ⟨i, u, cA⟩ n0 F p) (v.set n0 (freshCell k d)) W) :
    wp False (InsertPost k t v n0 u d p (Trie.insert ⟨i, u, ve⟩ k d t)) (@insert α D _ A ⟨i, u, cA⟩ n0 F p) (v.set n0 (freshCell k d)) W :=
  (cut_insert hle hc n0 F p).wp (wp_insert (oh := ⟨i, u, cB⟩) (ov := ⟨i, u, ve⟩) rfl rfl F hF hEq hn hW dt) h

/-- the copy of a node with a new child, in `insert` and `del` -/
theorem den_child {v : View α D} {c : Cell α D} {l r t' : Trie α D} {x : Ptr} {b : Bool} (dl : Den v c.l l) (dr : Den v c.r r) (dx : Den v x t') :
    Den v (Cell.setChild c b x).l (if b then l else t') ∧ Den v (Cell.setChild c b x).r (if b then t' else r) := by
  cases b
  · exact ⟨dx, dr⟩
  · exact ⟨dl, dx⟩

theorem calm_insert (hle : A.Le Comparable.toGoType) {i u : Bool} {cA cB : Comparator D} (hc : CmpLe cA cB) {ve : Trie.Eq' D}
    {k : Prefix α} {d : Option D} {n0 : Nat} : ∀ (F : Nat) {t : Trie α D}, t.deep < F →
    (∀ x, x ∈ t.entries → u = true → cB x.2 d = some (ve x.2 d)) → ¬ Trie.InsCrash A cA ⟨i, u, ve⟩ k d t →
    ∀ {v : View α D} {p : Ptr} {W : Nat → Prop}, v n0 = none → W n0 → Den v p t →
    wp False (fun _ _ => True) (@insert α D _ A ⟨i, u, cA⟩ n0 F p) (v.set n0 (freshCell k d)) W := by
  intro F
  induction F with
  | zero => intro t h; omega
  | succ F ih =>
    intro t hF hEq hno v p W hn hW dt
    have le0 : v ≤ v.set n0 (freshCell k d) := View.le_set_fresh hn
    cases dt with
    | nil =>
      unfold insert
      cases i with
      | false => exact trivial
      | true =>
        simp only [Bool.not_true, Bool.false_eq_true, if_false]
        refine wp_bind ?_
        exact wp_mutate_pure (c' := { freshCell k d with active := true }) hn hW rfl Den.nil Den.nil fun _ _ _ _ => trivial
    | @node a c l r ha dl dr =>
    simp only [Trie.deep] at hF
    unfold insert
    refine wp_deref (le0 _ _ ha) (wp_deref (View.set_same _ _ _) ?_)
    simp only [show (freshCell k d).pfx = k from rfl]
    rw [Trie.InsCrash] at hno
    rcases hcmp : compareP c.pfx k with ⟨res, rev, common, child⟩
    rw [hcmp] at hno
    cases res with
    | same =>
      simp only at hno ⊢
      split
      · exact trivial
      · next h1 =>
        split
        · exact trivial
        · next h2 =>
          refine wp_bind ?_
          cases hact : c.active with
          | false =>
            refine wp_mutate_pure (c' := { freshCell k d with l := c.l, r := c.r, active := true }) (x := ()) hn hW ?_ dl dr fun _ _ _ _ => trivial
            rfl
          | true =>
            rw [hact] at h1 hno
            have hu : u = true := by simpa using h1
            cases he : cA c.data d with
            | none => exact (hno ⟨rfl, hu, he⟩).elim
            | some e =>
              refine wp_mutate_pure (c' := { freshCell k d with data := if e then c.data else d, l := c.l, r := c.r, active := true }) (x := ()) hn hW ?_ dl dr
                fun _ _ _ _ => trivial
              have he' : cA c.data (freshCell k d).data = some e := he
              simp only [if_true, he']
              cases e <;> rfl
    | contains =>
      simp only at hno ⊢
      have key : ∀ {s : Trie α D}, s.deep < F → (∀ x, x ∈ s.entries → x ∈ (Trie.node c.pfx c.data c.size c.h c.active l r).entries) →
          Den v (Cell.child c child) s → ¬ (Trie.InsCrash A cA ⟨i, u, ve⟩ k d s ∨ ((Trie.insert ⟨i, u, ve⟩ k d s).isSome = true ∧ Trie.Unc A c.data)) →
          wp False (fun _ _ => True) (do
            let (newChild, err) ← @insert α D _ A ⟨i, u, cA⟩ n0 F (Cell.child c child)
            if err then pure (some a, true)
            else do
              let (newNode, _) ← @copyMutate α D _ _ A a fun n => pure (Cell.setChild n child newChild, ())
              pure (newNode, false)) (v.set n0 (freshCell k d)) W := by
        intro s hs hsub ds hno
        rw [not_or] at hno
        have hEq' := fun x (hx : x ∈ s.entries) => hEq x (hsub x hx)
        refine wp_bind (wp_mono (fun _ h => h) ?_ (wp_insert_on hle hc hs hEq' hn hW ds (ih hs hEq' hno.1 hn hW ds)))
        rintro ⟨x, err⟩ v1 ⟨le1, hx⟩
        cases hr : Trie.insert ⟨i, u, ve⟩ k d s with
        | none => rw [hr] at hx; cases hx; exact trivial
        | some s' =>
          rw [hr] at hx hno
          obtain ⟨e1, d1, _⟩ := hx
          simp only at e1 d1
          subst e1
          simp only [Bool.false_eq_true, if_false]
          have dc := den_child (b := child) (dl.mono le1) (dr.mono le1) d1
          refine wp_bind (wp_mono (fun _ h => h) (fun _ _ _ => trivial) (calm_copy (c' := Cell.setChild c child x) (x := ()) (le1 _ _ ha) rfl dc.1 dc.2 ?_))
          rw [(setChild_data c child x).1]
          exact fun h => hno.2 ⟨rfl, h⟩
      cases child with
      | true => exact key (s := r) (by omega) (fun x hx => Trie.mem_node.mpr (Or.inr (Or.inr hx))) dr (by simpa using hno)
      | false => exact key (s := l) (by omega) (fun x hx => Trie.mem_node.mpr (Or.inr (Or.inl hx))) dl (by simpa using hno)
    | isContained =>
      simp only
      split
      · exact trivial
      · refine wp_bind ?_
        cases child with
        | true => exact wp_mutate_pure (c' := { freshCell k d with r := some a, active := true }) hn hW rfl Den.nil (Den.node ha dl dr) fun _ _ _ _ => trivial
        | false => exact wp_mutate_pure (c' := { freshCell k d with l := some a, active := true }) hn hW rfl (Den.node ha dl dr) Den.nil fun _ _ _ _ => trivial
    | disjoint =>
      simp only
      have hE : ∀ x, x ∈ (Trie.nil : Trie α D).entries → u = true → cB x.2 d = some (ve x.2 d) := fun x hx => by cases hx
      have hd : (Trie.nil : Trie α D).deep < F := by simp only [Trie.deep]; omega
      refine wp_bind (wp_mono (fun _ h => h) ?_ (wp_insert_on hle hc (t := .nil) hd hE hn hW Den.nil (ih hd hE id hn hW Den.nil)))
      rintro ⟨x, err⟩ v1 ⟨le1, hx⟩
      rw [insert_nil] at hx
      simp only at hx
      cases i with
      | false => cases hx; exact trivial
      | true =>
        simp only [Bool.not_true, Bool.false_eq_true, if_false] at hx
        obtain ⟨e1, d1, _⟩ := hx
        subst e1
        simp only [Bool.false_eq_true, if_false]
        have dt1 : Den v1 (some a) _ := (Den.node ha dl dr).mono le1
        split
        · refine wp_new fun n hn1 => wp_bind ?_
          exact wp_mutate_pure hn1 (Or.inl rfl) rfl dt1 d1 fun _ _ _ _ => trivial
        · refine wp_new fun n hn1 => wp_bind ?_
          exact wp_mutate_pure hn1 (Or.inl rfl) rfl d1 dt1 fun _ _ _ _ => trivial

theorem panics_insert (hle : A.Le Comparable.toGoType) {i u : Bool} {cA cB : Comparator D} (hc : CmpLe cA cB) {ve : Trie.Eq' D}
    {k : Prefix α} {d : Option D} {n0 : Nat} : ∀ (F : Nat) {t : Trie α D}, t.deep < F →
    (∀ x, x ∈ t.entries → u = true → cB x.2 d = some (ve x.2 d)) → Trie.InsCrash A cA ⟨i, u, ve⟩ k d t →
    ∀ {v : View α D} {p : Ptr}, v n0 = none → Den v p t → Panics (@insert α D _ A ⟨i, u, cA⟩ n0 F p) (v.set n0 (freshCell k d)) := by
  intro F
  induction F with
  | zero => intro t h; omega
  | succ F ih =>
    intro t hF hEq hcr v p hn dt
    have le0 : v ≤ v.set n0 (freshCell k d) := View.le_set_fresh hn
    cases dt with
    | nil => exact hcr.elim
    | @node a c l r ha dl dr =>
    simp only [Trie.deep] at hF
    unfold insert
    refine panics_deref (le0 _ _ ha) (panics_deref (View.set_same _ _ _) ?_)
    simp only [show (freshCell k d).pfx = k from rfl]
    rw [Trie.InsCrash] at hcr
    rcases hcmp : compareP c.pfx k with ⟨res, rev, common, child⟩
    rw [hcmp] at hcr
    cases res with
    | same =>
      simp only at hcr ⊢
      obtain ⟨hact, hu, he⟩ := hcr
      rw [if_neg (by simp [hu]), if_neg (by simp [hact])]
      refine Panics.bind ?_
      unfold mutate
      refine panics_deref (View.set_same _ _ _) (Panics.bind ?_)
      have he' : cA c.data (freshCell k d).data = none := he
      simp only [hact, if_true, he']
      exact trivial
    | contains =>
      simp only at hcr ⊢
      have key : ∀ {s : Trie α D}, s.deep < F → (∀ x, x ∈ s.entries → x ∈ (Trie.node c.pfx c.data c.size c.h c.active l r).entries) →
          Den v (Cell.child c child) s → (Trie.InsCrash A cA ⟨i, u, ve⟩ k d s ∨ ((Trie.insert ⟨i, u, ve⟩ k d s).isSome = true ∧ Trie.Unc A c.data)) →
          Panics (do
            let (newChild, err) ← @insert α D _ A ⟨i, u, cA⟩ n0 F (Cell.child c child)
            if err then pure (some a, true)
            else do
              let (newNode, _) ← @copyMutate α D _ _ A a fun n => pure (Cell.setChild n child newChild, ())
              pure (newNode, false)) (v.set n0 (freshCell k d)) := by
        intro s hs hsub ds hcr
        have hEq' := fun x (hx : x ∈ s.entries) => hEq x (hsub x hx)
        by_cases hin : Trie.InsCrash A cA ⟨i, u, ve⟩ k d s
        · exact (ih hs hEq' hin hn ds).bind
        · have hcr := hcr.resolve_left hin
          refine Panics.after (W := fun n => n = n0) (wp_insert_on hle hc hs hEq' hn rfl ds (calm_insert hle hc F hs hEq' hin hn rfl ds)) ?_
          rintro ⟨x, err⟩ v1 ⟨le1, hx⟩
          cases hr : Trie.insert ⟨i, u, ve⟩ k d s with
          | none => rw [hr] at hcr; cases hcr.1
          | some s' =>
            rw [hr] at hx
            obtain ⟨e1, d1, _⟩ := hx
            simp only at e1 d1
            subst e1
            simp only [Bool.false_eq_true, if_false]
            have dc := den_child (b := child) (dl.mono le1) (dr.mono le1) d1
            refine (panics_copy (c' := Cell.setChild c child x) (x := ()) (le1 _ _ ha) rfl dc.1 dc.2 (setChild_data c child x).2 ?_).bind
            rw [(setChild_data c child x).1]
            exact hcr.2
      cases child with
      | true => exact key (s := r) (by omega) (fun x hx => Trie.mem_node.mpr (Or.inr (Or.inr hx))) dr (by simpa using hcr)
      | false => exact key (s := l) (by omega) (fun x hx => Trie.mem_node.mpr (Or.inr (Or.inl hx))) dl (by simpa using hcr)
    | isContained => exact hcr.elim
    | disjoint => exact hcr.elim

/-- `GetOrInsert`, if it does not panic -/
theorem wp_getOrInsert_on (hle : A.Le Comparable.toGoType) {k : Prefix α} (hk : k.WF) {d : Option D} {F : Nat} {t : Trie α D}
    (hF : t.deep + 1 < F) (hi : t.TInv) {v : View α D} {p : Ptr} {W : Nat → Prop} (dt : Den v p t)
    (h : wp False (fun _ _ => True) (@getOrInsert α D _ A k d F p) v W) :
    wp False (fun x v' => Den v' x.1 (Trie.getOrInsert k d t).1 ∧ ∃ a, x.2 = some a) (@getOrInsert α D _ A k d F p) v W :=
  (cut_getOrInsert hle k d F p).wp (wp_mono (fun _ h => h) (fun _ _ h => ⟨h.1, h.2.2.1.imp fun _ ⟨_, h, _⟩ => h⟩) (wp_getOrInsert hk F hF hi dt)) h

/-- the deferred function of `GetOrInsert` -/
theorem calm_deferred (hle : A.Le Comparable.toGoType) {k : Prefix α} {d : Option D} {F : Nat} {t : Trie α D} (hF : t.deep < F)
    (hno : ¬ Trie.InsCrash A nilComparator ⟨true, false, fun _ _ => false⟩ k d t)
    (hs : ∃ t', Trie.insert ⟨true, false, fun _ _ => false⟩ k d t = some t')
    {v : View α D} {p : Ptr} {W : Nat → Prop} (dt : Den v p t) :
    wp False (fun _ _ => True) (do
      let node ← new (freshCell k d)
      let (head, err) ← @insert α D _ A ⟨true, false, nilComparator⟩ node F p
      if err then panic else pure (head, some node)) v W := by
  obtain ⟨t', ht⟩ := hs
  refine wp_new fun n hn => ?_
  have hE : ∀ x, x ∈ t.entries → false = true → nilComparator x.2 d = some ((fun _ _ => false : Trie.Eq' D) x.2 d) := fun _ _ h => by cases h
  have hc := calm_insert hle (CmpLe.refl nilComparator) F hF hE hno (W := fun m => m = n ∨ W m) hn (Or.inl rfl) dt
  refine wp_bind (wp_mono (fun _ h => h) ?_ (wp_insert_on hle (CmpLe.refl nilComparator) (ve := fun _ _ => false) hF hE hn (Or.inl rfl) dt hc))
  rintro ⟨x, err⟩ v' ⟨_, h⟩
  rw [ht] at h
  obtain ⟨rfl, _⟩ := h
  exact trivial

theorem panics_deferred (hle : A.Le Comparable.toGoType) {k : Prefix α} {d : Option D} {F : Nat} {t : Trie α D} (hF : t.deep < F)
    (hcr : Trie.InsCrash A nilComparator ⟨true, false, fun _ _ => false⟩ k d t)
    {v : View α D} {p : Ptr} (dt : Den v p t) :
    Panics (do
      let node ← new (freshCell k d)
      let (head, err) ← @insert α D _ A ⟨true, false, nilComparator⟩ node F p
      if err then panic else pure (head, some node)) v := by
  refine panics_new fun n hn => ?_
  have hE : ∀ x, x ∈ t.entries → false = true → nilComparator x.2 d = some ((fun _ _ => false : Trie.Eq' D) x.2 d) := fun _ _ h => by cases h
  exact (panics_insert hle (CmpLe.refl nilComparator) F hF hE hcr hn dt).bind

theorem calm_getOrInsert (hle : A.Le Comparable.toGoType) {k : Prefix α} (hk : k.WF) {d : Option D} : ∀ (F : Nat) {t : Trie α D},
    t.deep + 1 < F → t.TInv → ¬ Trie.GetCrash A k d t → ∀ {v : View α D} {p : Ptr} {W : Nat → Prop}, Den v p t →
    wp False (fun _ _ => True) (@getOrInsert α D _ A k d F p) v W := by
  intro F
  induction F with
  | zero => intro t h; omega
  | succ F ih =>
    intro t hF hi hno v p W dt
    have hspec := Trie.getOrInsert_spec k hk d t hi
    have dfd : ∀ {W : Nat → Prop}, (∀ x, x ∈ t.entries → ¬ SameKey x.1 k) → ¬ Trie.InsCrash A nilComparator ⟨true, false, fun _ _ => false⟩ k d t →
        wp False (fun _ _ => True) (do
          let node ← new (freshCell k d)
          let (head, err) ← @insert α D _ A ⟨true, false, nilComparator⟩ node F p
          if err then panic else pure (head, some node)) v W := fun h hno =>
      calm_deferred hle (by omega) hno ((hspec.2 h).imp fun _ h => h.1) dt
    unfold getOrInsert
    cases dt with
    | nil => exact dfd (fun x hx => by cases hx) id
    | @node a c l r ha dl dr =>
    obtain ⟨wf, il, ir, hl, hr, two, eme⟩ := hi.inv
    simp only [Trie.deep] at hF
    refine wp_deref ha ?_
    have hsub := fun x => hi.subEq rfl (x := x)
    rw [Trie.GetCrash] at hno
    simp only at hno
    by_cases hlen : k.len < c.pfx.len
    · rw [if_pos hlen] at hno ⊢
      exact dfd (fun x hx => not_sameKey_of_shorter hlen (hsub x hx)) hno
    rw [if_neg hlen] at hno ⊢
    rcases containsP_spec (s := c.pfx) (l := k) wf with ⟨h1, h2⟩ | ⟨m, hm, h1, h3, h2⟩
    · rw [h2] at hno ⊢
      by_cases hex : c.pfx.len = k.len
      · have hs : SameKey c.pfx k := ⟨hex, h1⟩
        simp only [hex, decide_true, Bool.not_true, Bool.false_eq_true, if_false] at hno ⊢
        cases hact : c.active with
        | false =>
          rw [hact] at hno
          refine dfd ?_ (by rw [hact]; simpa using hno)
          intro x hx e
          rcases Trie.mem_node.mp hx with ⟨ha, _⟩ | hx | hx
          · rw [hact] at ha; cases ha
          · exact (hl.side il hx).not_sameKey (hs.trans e.symm)
          · exact (hr.side ir hx).not_sameKey (hs.trans e.symm)
        | true => exact trivial
      · simp only [hex, decide_false, Bool.not_true, Bool.not_false, Bool.false_eq_true, if_false, if_true] at hno ⊢
        rw [not_or] at hno
        have key : ∀ {s : Trie α D} {b : Bool}, s.deep + 1 < F → s.TInv → Den v (Cell.child c b) s → ¬ Trie.GetCrash A k d s →
            wp False (fun _ _ => True) (@getOrInsert α D _ A k d F (Cell.child c b) >>= fun x =>
              @copyMutate α D _ _ A a (fun n => pure (Cell.setChild n b x.1, ())) >>= fun y =>
              match x.2 with
              | some r => pure (y.1, some r)
              | none => do
                let node ← new (freshCell k d)
                let (head, err) ← @insert α D _ A ⟨true, false, nilComparator⟩ node F (some a)
                if err then panic else pure (head, some node)) v W := by
          intro s b hs si ds hno'
          refine wp_call (wp_getOrInsert_on hle hk hs si ds (ih hs si hno' ds)) ?_
          rintro ⟨x, y⟩ v1 le1 ⟨d1, e, rfl⟩
          simp only at d1
          have dc := den_child (b := b) (dl.mono le1) (dr.mono le1) d1
          refine wp_bind (wp_mono (fun _ h => h) (fun _ _ _ => trivial) (calm_copy (c' := Cell.setChild c b x) (x := ()) (le1 _ _ ha) rfl dc.1 dc.2 ?_))
          rw [(setChild_data c b x).1]
          exact hno.2
        cases hb : bit k.addr c.pfx.len with
        | true => exact key (s := r) (by omega) hr dr (by simpa [hb] using hno.1)
        | false => exact key (s := l) (by omega) hl dl (by simpa [hb] using hno.1)
    · rw [h2] at hno ⊢
      exact dfd (fun x hx => not_sameKey_of_disjoint hm h3 (by omega) (hsub x hx)) (by simpa using hno)

theorem panics_getOrInsert (hle : A.Le Comparable.toGoType) {k : Prefix α} (hk : k.WF) {d : Option D} : ∀ (F : Nat) {t : Trie α D},
    t.deep + 1 < F → t.TInv → Trie.GetCrash A k d t → ∀ {v : View α D} {p : Ptr}, Den v p t →
    Panics (@getOrInsert α D _ A k d F p) v := by
  intro F
  induction F with
  | zero => intro t h; omega
  | succ F ih =>
    intro t hF hi hcr v p dt
    have dfd : Trie.InsCrash A nilComparator ⟨true, false, fun _ _ => false⟩ k d t →
        Panics (do
          let node ← new (freshCell k d)
          let (head, err) ← @insert α D _ A ⟨true, false, nilComparator⟩ node F p
          if err then panic else pure (head, some node)) v := fun h => panics_deferred hle (by omega) h dt
    unfold getOrInsert
    cases dt with
    | nil => exact hcr.elim
    | @node a c l r ha dl dr =>
    obtain ⟨wf, il, ir, hl, hr, two, eme⟩ := hi.inv
    simp only [Trie.deep] at hF
    refine panics_deref ha ?_
    rw [Trie.GetCrash] at hcr
    simp only at hcr
    by_cases hlen : k.len < c.pfx.len
    · rw [if_pos hlen] at hcr ⊢
      exact dfd hcr
    rw [if_neg hlen] at hcr ⊢
    rcases containsP_spec (s := c.pfx) (l := k) wf with ⟨h1, h2⟩ | ⟨m, hm, h1, h3, h2⟩
    · rw [h2] at hcr ⊢
      by_cases hex : c.pfx.len = k.len
      · simp only [hex, decide_true, Bool.not_true, Bool.false_eq_true, if_false] at hcr ⊢
        cases hact : c.active with
        | false => rw [hact] at hcr; exact dfd (by rw [hact]; simpa using hcr)
        | true => rw [hact] at hcr; simp at hcr
      · simp only [hex, decide_false, Bool.not_true, Bool.not_false, Bool.false_eq_true, if_false, if_true] at hcr ⊢
        have key : ∀ {s : Trie α D} {b : Bool}, s.deep + 1 < F → s.TInv → Den v (Cell.child c b) s → Trie.GetCrash A k d s ∨ Trie.Unc A c.data →
            Panics (@getOrInsert α D _ A k d F (Cell.child c b) >>= fun x =>
              @copyMutate α D _ _ A a (fun n => pure (Cell.setChild n b x.1, ())) >>= fun y =>
              match x.2 with
              | some r => pure (y.1, some r)
              | none => do
                let node ← new (freshCell k d)
                let (head, err) ← @insert α D _ A ⟨true, false, nilComparator⟩ node F (some a)
                if err then panic else pure (head, some node)) v := by
          intro s b hs si ds hcr
          by_cases hin : Trie.GetCrash A k d s
          · exact (ih hs si hin ds).bind
          · refine Panics.call (wp_getOrInsert_on hle hk hs si ds (calm_getOrInsert hle hk F hs si hin ds)) ?_
            rintro ⟨x, y⟩ v1 le1 ⟨d1, e, rfl⟩
            simp only at d1
            have dc := den_child (b := b) (dl.mono le1) (dr.mono le1) d1
            refine (panics_copy (c' := Cell.setChild c b x) (x := ()) (le1 _ _ ha) rfl dc.1 dc.2 (setChild_data c b x).2 ?_).bind
            rw [(setChild_data c b x).1]
            exact hcr.resolve_left hin
        cases hb : bit k.addr c.pfx.len with
        | true => exact key (s := r) (by omega) hr dr (by simpa [hb] using hcr)
        | false => exact key (s := l) (by omega) hl dl (by simpa [hb] using hcr)
    · rw [h2] at hcr ⊢
      exact dfd (by simpa using hcr)

/-- `del`, if it does not panic -/
theorem wp_del_on (hle : A.Le Comparable.toGoType) {k : Prefix α} {F : Nat} {t : Trie α D} (hF : t.deep < F) {v : View α D} {p : Ptr}
    {W : Nat → Prop} (dt : Den v p t) (h : wp False (fun _ _ => True) (@del α D _ A k F p) v W) :
    wp False (fun x v' => match Trie.del k t with
      | none => x = (p, true)
      | some t' => x.2 = false ∧ Den v' x.1 t') (@del α D _ A k F p) v W := by
  refine (cut_del hle k F p).wp (wp_mono (fun _ h => h) (fun x v' h => ?_) (wp_del F hF dt)) h
  split
  · next e => rw [e] at h; exact h
  · next e => rw [e] at h; exact ⟨h.1, h.2.1⟩

theorem calm_del (hle : A.Le Comparable.toGoType) {k : Prefix α} : ∀ (F : Nat) {t : Trie α D}, t.deep < F → ¬ Trie.DelCrash A k t →
    ∀ {v : View α D} {p : Ptr} {W : Nat → Prop}, Den v p t → wp False (fun _ _ => True) (@del α D _ A k F p) v W := by
  intro F
  induction F with
  | zero => intro t h; omega
  | succ F ih =>
    intro t hF hno v p W dt
    unfold del
    cases dt with
    | nil => exact trivial
    | @node a c l r ha dl dr =>
    simp only [Trie.deep] at hF
    refine wp_deref ha ?_
    rw [Trie.DelCrash] at hno
    rcases hcmp : compareP c.pfx k with ⟨res, rev, common, child⟩
    rw [hcmp] at hno
    cases res with
    | same =>
      simp only at hno ⊢
      split
      · exact trivial
      · next h1 =>
        split
        · exact trivial
        · next h2 =>
          refine wp_bind (wp_mono (fun _ h => h) (fun _ _ _ => trivial)
            (calm_copy (c' := { c with active := false, data := none }) (x := ()) ha rfl dl dr fun h => hno ⟨?_, ?_, h⟩))
          · cases l with
            | nil => generalize c.l = q at dl h1; cases dl; exact (h1 rfl).elim
            | node => rfl
          · cases r with
            | nil => generalize c.r = q at dr h2; cases dr; exact (h2 rfl).elim
            | node => rfl
    | contains =>
      simp only at hno ⊢
      have key : ∀ {s : Trie α D}, s.deep < F → Den v (Cell.child c child) s →
          ¬ (Trie.DelCrash A k s ∨ ∃ t', Trie.del k s = some t' ∧ (t'.isNil && !c.active) = false ∧ Trie.Unc A c.data) →
          wp False (fun _ _ => True) (do
            let (newChild, err) ← @del α D _ A k F (Cell.child c child)
            if err then pure (some a, true)
            else if newChild = none && !c.active then pure (Cell.child c (!child), false)
            else do
              let (newNode, _) ← @copyMutate α D _ _ A a fun n => pure (Cell.setChild n child newChild, ())
              pure (newNode, false)) v W := by
        intro s hs ds hno
        rw [not_or] at hno
        refine wp_call (wp_del_on hle hs ds (ih hs hno.1 ds)) ?_
        rintro ⟨x, err⟩ v1 le1 hx
        cases hd : Trie.del k s with
        | none => rw [hd] at hx; cases hx; exact trivial
        | some s' =>
          rw [hd] at hx
          obtain ⟨e1, d1⟩ := hx
          simp only at e1 d1
          subst e1
          simp only [Bool.false_eq_true, if_false]
          have he : (decide (x = none) && !c.active) = (s'.isNil && !c.active) := by
            congr 1
            cases d1 <;> rfl
          rw [he]
          split
          · exact trivial
          · next hb =>
            have dc := den_child (b := child) (dl.mono le1) (dr.mono le1) d1
            refine wp_bind (wp_mono (fun _ h => h) (fun _ _ _ => trivial) (calm_copy (c' := Cell.setChild c child x) (x := ()) (le1 _ _ ha) rfl dc.1 dc.2 ?_))
            rw [(setChild_data c child x).1]
            exact fun h => hno.2 ⟨s', hd, by simpa using hb, h⟩
      cases child with
      | true => exact key (s := r) (by omega) dr (by simpa using hno)
      | false => exact key (s := l) (by omega) dl (by simpa using hno)
    | isContained => exact trivial
    | disjoint => exact trivial

theorem panics_del (hle : A.Le Comparable.toGoType) {k : Prefix α} : ∀ (F : Nat) {t : Trie α D}, t.deep < F → Trie.DelCrash A k t →
    ∀ {v : View α D} {p : Ptr}, Den v p t → Panics (@del α D _ A k F p) v := by
  intro F
  induction F with
  | zero => intro t h; omega
  | succ F ih =>
    intro t hF hcr v p dt
    unfold del
    cases dt with
    | nil => exact hcr.elim
    | @node a c l r ha dl dr =>
    simp only [Trie.deep] at hF
    refine panics_deref ha ?_
    rw [Trie.DelCrash] at hcr
    rcases hcmp : compareP c.pfx k with ⟨res, rev, common, child⟩
    rw [hcmp] at hcr
    cases res with
    | same =>
      simp only at hcr ⊢
      obtain ⟨h1, h2, h3⟩ := hcr
      rw [if_neg, if_neg]
      · exact (panics_copy (c' := { c with active := false, data := none }) (x := ()) ha rfl dl dr rfl h3).bind
      · intro h; rw [h] at dr; rw [dr.none_inv] at h2; cases h2
      · intro h; rw [h] at dl; rw [dl.none_inv] at h1; cases h1
    | contains =>
      simp only at hcr ⊢
      have key : ∀ {s : Trie α D}, s.deep < F → Den v (Cell.child c child) s →
          (Trie.DelCrash A k s ∨ ∃ t', Trie.del k s = some t' ∧ (t'.isNil && !c.active) = false ∧ Trie.Unc A c.data) →
          Panics (do
            let (newChild, err) ← @del α D _ A k F (Cell.child c child)
            if err then pure (some a, true)
            else if newChild = none && !c.active then pure (Cell.child c (!child), false)
            else do
              let (newNode, _) ← @copyMutate α D _ _ A a fun n => pure (Cell.setChild n child newChild, ())
              pure (newNode, false)) v := by
        intro s hs ds hcr
        by_cases hin : Trie.DelCrash A k s
        · exact (ih hs hin ds).bind
        · obtain ⟨t', hd, hb, hu⟩ := hcr.resolve_left hin
          refine Panics.call (wp_del_on hle hs ds (calm_del hle F hs hin ds)) ?_
          rintro ⟨x, err⟩ v1 le1 hx
          rw [hd] at hx
          obtain ⟨e1, d1⟩ := hx
          simp only at e1 d1
          subst e1
          simp only [Bool.false_eq_true, if_false]
          have he : (decide (x = none) && !c.active) = (t'.isNil && !c.active) := by
            congr 1
            cases d1 <;> rfl
          rw [he, hb]
          simp only [Bool.false_eq_true, if_false]
          have dc := den_child (b := child) (dl.mono le1) (dr.mono le1) d1
          refine (panics_copy (c' := Cell.setChild c child x) (x := ()) (le1 _ _ ha) rfl dc.1 dc.2 (setChild_data c child x).2 ?_).bind
          rw [(setChild_data c child x).1]
          exact hu
      cases child with
      | true => exact key (s := r) (by omega) dr (by simpa using hcr)
      | false => exact key (s := l) (by omega) dl (by simpa using hcr)
    | isContained => exact hcr.elim
    | disjoint => exact hcr.elim

end
end Heap
end Addrs

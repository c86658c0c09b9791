import Verif.TableOps
import Verif.Walk
/-
  Map and Diff of table tries.
-/
namespace Addrs
open GoWord LawfulGoWord

namespace Trie

/-- what `Diff` can report, before the comparator is asked -/
inductive Event (α D : Type) where
  | removed (x : Prefix α × Option D)
  | added (y : Prefix α × Option D)
  | both (x y : Prefix α × Option D)

namespace Event
variable {α D : Type}
/-- the left-hand entry an event is about -/
def left : Event α D → Option (Prefix α × Option D)
  | removed x => some x
  | added _ => none
  | both x _ => some x
/-- the right-hand entry an event is about -/
def right : Event α D → Option (Prefix α × Option D)
  | removed _ => none
  | added y => some y
  | both _ y => some y
end Event

section
variable {α D : Type} [GoWord α]

/-- how `Diff` hands an event to the callbacks -/
def dispatch {σ : Type} (cb : DiffCallbacks α D σ) (eq : Option D → Option D → Bool) :
    Event α D → σ → σ × Bool
  | .removed x => orNoop1 cb.removed x.1 x.2
  | .added y => orNoop1 cb.added y.1 y.2
  | .both x y => if eq x.2 y.2 then orNoop1 cb.same x.1 x.2 else orNoop2 cb.modified x.1 x.2 y.2

/-- the event of a node on the left only -/
def ev1 (act : Bool) (x : Prefix α × Option D) : List (Event α D) := if act then [.removed x] else []
/-- the event of a node on the right only -/
def ev2 (act : Bool) (y : Prefix α × Option D) : List (Event α D) := if act then [.added y] else []
/-- the event of two nodes with the same key -/
def ev (act act' : Bool) (x y : Prefix α × Option D) : List (Event α D) :=
  if act && act' then [.both x y] else if act then [.removed x] else if act' then [.added y] else []

/-- the events of `diff`, in order -/
def events : Trie α D → Trie α D → List (Event α D)
  | nil, nil => []
  | node p d _ _ act l r, nil => ev1 act (p, d) ++ (events l nil ++ events r nil)
  | nil, node q e _ _ act' l' r' => ev2 act' (q, e) ++ (events nil l' ++ events nil r')
  | node p d n m act l r, node q e n' m' act' l' r' =>
    match compareP p q with
    | (.same, _, _, _) => ev act act' (p, d) (q, e) ++ (events l l' ++ events r r')
    | (.contains, _, _, child) =>
      ev1 act (p, d) ++
        (if child then events l nil ++ events r (node q e n' m' act' l' r')
         else events l (node q e n' m' act' l' r') ++ events r nil)
    | (.isContained, _, _, child) =>
      ev2 act' (q, e) ++
        (if child then events nil l' ++ events (node p d n m act l r) r'
         else events (node p d n m act l r) l' ++ events nil r')
    | (.disjoint, _, _, child) =>
      if child then events (node p d n m act l r) nil ++ events nil (node q e n' m' act' l' r')
      else events nil (node q e n' m' act' l' r') ++ events (node p d n m act l r) nil
termination_by a b => a.nodes + b.nodes
decreasing_by all_goals simp only [nodes]; omega

theorem visit_nil' {β σ : Type} (cb : β → σ → σ × Bool) (s : σ) : visit cb [] s = (s, true) := rfl

theorem visit_one {β σ : Type} (cb : β → σ → σ × Bool) (x : β) (s : σ) : visit cb [x] s = cb x s := by
  simp only [visit]
  split <;> simp_all

theorem visit_append' {β σ : Type} (cb : β → σ → σ × Bool) (xs ys : List β) :
    visit cb (xs ++ ys) = fun s => andThen (visit cb xs s) (visit cb ys) :=
  funext fun s => visit_append cb xs ys s

theorem diff_eq {σ : Type} (g : Event α D → σ → σ × Bool) (H : Handler α D σ)
    (h1 : ∀ p d act s, H.removed ⟨p, d, act⟩ s = visit g (ev1 act (p, d)) s)
    (h2 : ∀ p d act s, H.added ⟨p, d, act⟩ s = visit g (ev2 act (p, d)) s)
    (h3 : ∀ p d act q e act' s, H.modified ⟨p, d, act⟩ ⟨q, e, act'⟩ s = visit g (ev act act' (p, d) (q, e)) s)
    (a b : Trie α D) : ∀ (s : σ), diff H a b s = visit g (events a b) s := by
  fun_induction events a b with
  | case1 => intro s; rw [diff]; rfl
  | case2 p d _ _ act l r ih1 ih2 =>
    intro s
    rw [diff]
    simp only [visit_append', h1, ih1, ih2]
  | case3 q e _ _ act l r ih1 ih2 =>
    intro s
    rw [diff]
    simp only [visit_append', h2, ih1, ih2]
  | case4 p d n m act l r q e n' m' act' l' r' _ _ _ hc ih1 ih2 =>
    intro s
    rw [diff, hc]
    simp only [visit_append', h3, ih1, ih2]
  | case5 p d n m act l r q e n' m' act' l' r' _ _ child hc ih1 ih2 ih3 ih4 =>
    intro s
    rw [diff, hc]
    cases child
    · simp only [visit_append', h1, ih3, ih4, Bool.false_eq_true, if_false]
    · simp only [visit_append', h1, ih1, ih2, if_true]
  | case6 p d n m act l r q e n' m' act' l' r' _ _ child hc ih1 ih2 ih3 ih4 =>
    intro s
    rw [diff, hc]
    cases child
    · simp only [visit_append', h2, ih3, ih4, Bool.false_eq_true, if_false]
    · simp only [visit_append', h2, ih1, ih2, if_true]
  | case7 p d n m act l r q e n' m' act' l' r' _ _ hc ih1 ih2 =>
    intro s
    rw [diff, hc]
    simp only [visit_append', ih1, ih2, if_true]
  | case8 p d n m act l r q e n' m' act' l' r' _ _ child hc hch ih1 ih2 =>
    intro s
    rw [diff, hc]
    simp only [Bool.not_eq_true] at hch
    subst hch
    simp only [visit_append', ih1, ih2, Bool.false_eq_true, if_false]

/-- `Diff` is the iteration over its events. -/
theorem Diff_eq {σ : Type} (cb : DiffCallbacks α D σ) (eq : Option D → Option D → Bool)
    (a b : Trie α D) (s : σ) : Diff cb eq a b s = visit (dispatch cb eq) (events a b) s := by
  unfold Diff
  apply diff_eq
  · intro p d act s
    cases act
    · rfl
    · simp only [ev1, if_true, visit_one]; rfl
  · intro p d act s
    cases act
    · rfl
    · simp only [ev2, if_true, visit_one]; rfl
  · intro p d act q e act' s
    cases act <;> cases act' <;> simp only [ev, Bool.and_true, Bool.and_false, Bool.false_eq_true, if_true, if_false,
      visit_one, visit_nil', dispatch]
    cases eq d e <;> rfl

theorem left_ev1 (act : Bool) (x : Prefix α × Option D) :
    (ev1 act x).filterMap Event.left = if act then [x] else [] := by cases act <;> rfl
theorem left_ev2 (act : Bool) (x : Prefix α × Option D) :
    (ev2 act x).filterMap Event.left = [] := by cases act <;> rfl
theorem left_ev (act act' : Bool) (x y : Prefix α × Option D) :
    (ev act act' x y).filterMap Event.left = if act then [x] else [] := by cases act <;> cases act' <;> rfl
theorem right_ev1 (act : Bool) (x : Prefix α × Option D) :
    (ev1 act x).filterMap Event.right = [] := by cases act <;> rfl
theorem right_ev2 (act : Bool) (x : Prefix α × Option D) :
    (ev2 act x).filterMap Event.right = if act then [x] else [] := by cases act <;> rfl
theorem right_ev (act act' : Bool) (x y : Prefix α × Option D) :
    (ev act act' x y).filterMap Event.right = if act' then [y] else [] := by cases act <;> cases act' <;> rfl

/-- the left-hand entries are reported once each, in order -/
theorem events_left (a b : Trie α D) : (events a b).filterMap Event.left = a.entries := by
  fun_induction events a b with
  | case1 => rfl
  | case2 p d _ _ act l r ih1 ih2 => simp [ih1, ih2, entries, left_ev1]
  | case3 q e _ _ act l r ih1 ih2 => simp [ih1, ih2, entries, left_ev2]
  | case4 p d n m act l r q e n' m' act' l' r' _ _ _ hc ih1 ih2 => simp [ih1, ih2, entries, left_ev]
  | case5 p d n m act l r q e n' m' act' l' r' _ _ child hc ih1 ih2 ih3 ih4 =>
    cases child <;> simp_all [entries, left_ev1]
  | case6 p d n m act l r q e n' m' act' l' r' _ _ child hc ih1 ih2 ih3 ih4 =>
    cases child <;> simp_all [entries, left_ev2]
  | case7 p d n m act l r q e n' m' act' l' r' _ _ hc ih1 ih2 => simp [ih1, ih2, entries]
  | case8 p d n m act l r q e n' m' act' l' r' _ _ child hc hch ih1 ih2 => simp [ih1, ih2, entries]

/-- the right-hand entries are reported once each, in order -/
theorem events_right (a b : Trie α D) : (events a b).filterMap Event.right = b.entries := by
  fun_induction events a b with
  | case1 => rfl
  | case2 p d _ _ act l r ih1 ih2 => simp [ih1, ih2, entries, right_ev1]
  | case3 q e _ _ act l r ih1 ih2 => simp [ih1, ih2, entries, right_ev2]
  | case4 p d n m act l r q e n' m' act' l' r' _ _ _ hc ih1 ih2 => simp [ih1, ih2, entries, right_ev]
  | case5 p d n m act l r q e n' m' act' l' r' _ _ child hc ih1 ih2 ih3 ih4 =>
    cases child <;> simp_all [entries, right_ev1]
  | case6 p d n m act l r q e n' m' act' l' r' _ _ child hc ih1 ih2 ih3 ih4 =>
    cases child <;> simp_all [entries, right_ev2]
  | case7 p d n m act l r q e n' m' act' l' r' _ _ hc ih1 ih2 => simp [ih1, ih2, entries]
  | case8 p d n m act l r q e n' m' act' l' r' _ _ child hc hch ih1 ih2 => simp [ih1, ih2, entries]

end

section
variable {α D : Type} [LawfulGoWord α]

/-- what each kind of event says about the two tries -/
def EventOk (a b : Trie α D) : Event α D → Prop
  | .removed x => x ∈ a.entries ∧ ∀ y, y ∈ b.entries → ¬ SameKey x.1 y.1
  | .added y => y ∈ b.entries ∧ ∀ x, x ∈ a.entries → ¬ SameKey x.1 y.1
  | .both x y => x ∈ a.entries ∧ y ∈ b.entries ∧ SameKey x.1 y.1

theorem EventOk.mono {a b a' b' : Trie α D} {v : Event α D} (h : EventOk a b v)
    (ha : ∀ x, x ∈ a.entries → x ∈ a'.entries) (hb : ∀ x, x ∈ b.entries → x ∈ b'.entries)
    (hab : ∀ x y, x ∈ a.entries → y ∈ b'.entries → y ∉ b.entries → ¬ SameKey x.1 y.1)
    (hba : ∀ x y, x ∈ a'.entries → y ∈ b.entries → x ∉ a.entries → ¬ SameKey x.1 y.1) :
    EventOk a' b' v := by
  classical
  cases v with
  | removed x =>
    refine ⟨ha x h.1, fun y hy => ?_⟩
    by_cases hyb : y ∈ b.entries
    · exact h.2 y hyb
    · exact hab x y h.1 hy hyb
  | added y =>
    refine ⟨hb y h.1, fun x hx => ?_⟩
    by_cases hxa : x ∈ a.entries
    · exact h.2 x hxa
    · exact hba x y hx h.1 hxa
  | both x y => exact ⟨ha x h.1, hb y h.2.1, h.2.2⟩

theorem mem_ev1 {act : Bool} {x : Prefix α × Option D} {v : Event α D} :
    v ∈ ev1 act x ↔ act = true ∧ v = .removed x := by cases act <;> simp [ev1]
theorem mem_ev2 {act : Bool} {x : Prefix α × Option D} {v : Event α D} :
    v ∈ ev2 act x ↔ act = true ∧ v = .added x := by cases act <;> simp [ev2]

theorem events_ok (a b : Trie α D) (ha : TInv a) (hb : TInv b) :
    ∀ v ∈ events a b, EventOk a b v := by
  fun_induction events a b with
  | case1 => intro v hv; cases hv
  | case2 p d n h act l r ih1 ih2 =>
    obtain ⟨wf, il, ir, hl, hr, two, eme⟩ := ha.inv
    intro v hv
    simp only [List.mem_append, mem_ev1] at hv
    rcases hv with ⟨h, rfl⟩ | hv | hv
    · exact ⟨mem_node.mpr (Or.inl ⟨h, rfl⟩), fun y hy => (by cases hy)⟩
    · exact (ih1 hl hb v hv).mono (fun x hx => mem_node.mpr (Or.inr (Or.inl hx))) (fun x hx => hx)
        (fun x y _ hy => (by cases hy)) (fun x y _ hy => (by cases hy))
    · exact (ih2 hr hb v hv).mono (fun x hx => mem_node.mpr (Or.inr (Or.inr hx))) (fun x hx => hx)
        (fun x y _ hy => (by cases hy)) (fun x y _ hy => (by cases hy))
  | case3 q e n h act l r ih1 ih2 =>
    obtain ⟨wf, il, ir, hl, hr, two, eme⟩ := hb.inv
    intro v hv
    simp only [List.mem_append, mem_ev2] at hv
    rcases hv with ⟨h, rfl⟩ | hv | hv
    · exact ⟨mem_node.mpr (Or.inl ⟨h, rfl⟩), fun y hy => (by cases hy)⟩
    · exact (ih1 ha hl v hv).mono (fun x hx => hx) (fun x hx => mem_node.mpr (Or.inr (Or.inl hx)))
        (fun x y hx => (by cases hx)) (fun x y hx => (by cases hx))
    · exact (ih2 ha hr v hv).mono (fun x hx => hx) (fun x hx => mem_node.mpr (Or.inr (Or.inr hx)))
        (fun x y hx => (by cases hx)) (fun x y hx => (by cases hx))
  | case4 p d n m act l r q e n' m' act' l' r' _ _ _ hc ih1 ih2 =>
    obtain ⟨wf, il, ir, hl, hr, two, eme⟩ := ha.inv
    obtain ⟨wf', il', ir', hl', hr', two', eme'⟩ := hb.inv
    have hs : SameKey p q := by
      rcases compareP_cases wf wf' with ⟨hs, _⟩ | ⟨c, _, h⟩ | ⟨c, _, h⟩ | ⟨_, _, _, _, _, _, _, _, _, h⟩
      · exact hs
      · rw [h] at hc; simp at hc
      · rw [h] at hc; simp at hc
      · rw [h] at hc; simp at hc
    have sl : ∀ x, x ∈ l.entries → Sub p x.1 false := fun x hx => hl.side il hx
    have sr : ∀ x, x ∈ r.entries → Sub p x.1 true := fun x hx => hr.side ir hx
    have sl' : ∀ x, x ∈ l'.entries → Sub p x.1 false := fun x hx => (hl'.side il' hx).congr_left hs.symm
    have sr' : ∀ x, x ∈ r'.entries → Sub p x.1 true := fun x hx => (hr'.side ir' hx).congr_left hs.symm
    have hp' : ∀ x b, Sub p x b → ¬ SameKey x q := fun x b h e => h.not_sameKey (hs.trans e.symm)
    have hp : ∀ x b, Sub p x b → ¬ SameKey p x := fun x b h => h.not_sameKey
    intro v hv
    simp only [List.mem_append] at hv
    rcases hv with hv | hv | hv
    · cases act <;> cases act' <;> simp only [ev, Bool.and_true, Bool.and_false, Bool.false_eq_true, if_true,
        if_false, List.mem_singleton, List.not_mem_nil] at hv
      · subst hv
        refine ⟨mem_node.mpr (Or.inl ⟨rfl, rfl⟩), fun x hx => ?_⟩
        rcases mem_node.mp hx with ⟨h, _⟩ | hx | hx
        · cases h
        · exact hp' _ _ (sl x hx)
        · exact hp' _ _ (sr x hx)
      · subst hv
        refine ⟨mem_node.mpr (Or.inl ⟨rfl, rfl⟩), fun x hx => ?_⟩
        rcases mem_node.mp hx with ⟨h, _⟩ | hx | hx
        · cases h
        · exact hp _ _ (sl' x hx)
        · exact hp _ _ (sr' x hx)
      · subst hv
        exact ⟨mem_node.mpr (Or.inl ⟨rfl, rfl⟩), mem_node.mpr (Or.inl ⟨rfl, rfl⟩), hs⟩
    · refine (ih1 hl hl' v hv).mono (fun x hx => mem_node.mpr (Or.inr (Or.inl hx)))
        (fun x hx => mem_node.mpr (Or.inr (Or.inl hx))) (fun x y hx hy hn => ?_) (fun x y hx hy hn => ?_)
      · rcases mem_node.mp hy with ⟨_, rfl⟩ | hy | hy
        · exact hp' _ _ (sl x hx)
        · exact absurd hy hn
        · exact (sl x hx).ne_of_side (sr' y hy) (by simp)
      · rcases mem_node.mp hx with ⟨_, rfl⟩ | hx | hx
        · exact hp _ _ (sl' y hy)
        · exact absurd hx hn
        · exact (sr x hx).ne_of_side (sl' y hy) (by simp)
    · refine (ih2 hr hr' v hv).mono (fun x hx => mem_node.mpr (Or.inr (Or.inr hx)))
        (fun x hx => mem_node.mpr (Or.inr (Or.inr hx))) (fun x y hx hy hn => ?_) (fun x y hx hy hn => ?_)
      · rcases mem_node.mp hy with ⟨_, rfl⟩ | hy | hy
        · exact hp' _ _ (sr x hx)
        · exact (sr x hx).ne_of_side (sl' y hy) (by simp)
        · exact absurd hy hn
      · rcases mem_node.mp hx with ⟨_, rfl⟩ | hx | hx
        · exact hp _ _ (sr' y hy)
        · exact (sl x hx).ne_of_side (sr' y hy) (by simp)
        · exact absurd hx hn
  | case5 p d n m act l r q e n' m' act' l' r' _ _ child hc ih1 ih2 ih3 ih4 =>
    obtain ⟨wf, il, ir, hl, hr, two, eme⟩ := ha.inv
    have wf' := hb.inv.1
    have hs : Sub p q child := by
      rcases compareP_cases wf wf' with ⟨hs, h⟩ | ⟨c, hs, h⟩ | ⟨c, _, h⟩ | ⟨_, _, _, _, _, _, _, _, _, h⟩ <;>
        rw [h] at hc <;> simp at hc
      rw [← hc.2.2]; exact hs
    have hq : ∀ y, y ∈ (node q e n' m' act' l' r').entries → Sub p y.1 child := fun y hy =>
      hs.trans_subEq (hb.subEq rfl hy)
    intro v hv
    simp only [List.mem_append, mem_ev1] at hv
    rcases hv with ⟨h, rfl⟩ | hv
    · exact ⟨mem_node.mpr (Or.inl ⟨h, rfl⟩), fun y hy => (hq y hy).not_sameKey⟩
    · cases child with
      | true =>
        simp only [if_true, List.mem_append] at hv
        rcases hv with hv | hv
        · exact (ih1 hl .empty v hv).mono (fun x hx => mem_node.mpr (Or.inr (Or.inl hx))) (fun x hx => (by cases hx))
            (fun x y hx hy _ => (hl.side il hx).ne_of_side (hq y hy) (by simp)) (fun x y _ hy => (by cases hy))
        · refine (ih2 hr hb v hv).mono (fun x hx => mem_node.mpr (Or.inr (Or.inr hx))) (fun x hx => hx)
            (fun x y _ hy hn => absurd hy hn) (fun x y hx hy hn => ?_)
          rcases mem_node.mp hx with ⟨_, rfl⟩ | hx | hx
          · exact (hq y hy).not_sameKey
          · exact (hl.side il hx).ne_of_side (hq y hy) (by simp)
          · exact absurd hx hn
      | false =>
        simp only [Bool.false_eq_true, if_false, List.mem_append] at hv
        rcases hv with hv | hv
        · refine (ih3 hl hb v hv).mono (fun x hx => mem_node.mpr (Or.inr (Or.inl hx))) (fun x hx => hx)
            (fun x y _ hy hn => absurd hy hn) (fun x y hx hy hn => ?_)
          rcases mem_node.mp hx with ⟨_, rfl⟩ | hx | hx
          · exact (hq y hy).not_sameKey
          · exact absurd hx hn
          · exact (hr.side ir hx).ne_of_side (hq y hy) (by simp)
        · exact (ih4 hr .empty v hv).mono (fun x hx => mem_node.mpr (Or.inr (Or.inr hx))) (fun x hx => (by cases hx))
            (fun x y hx hy _ => (hr.side ir hx).ne_of_side (hq y hy) (by simp)) (fun x y _ hy => (by cases hy))
  | case6 p d n m act l r q e n' m' act' l' r' _ _ child hc ih1 ih2 ih3 ih4 =>
    obtain ⟨wf', il, ir, hl, hr, two, eme⟩ := hb.inv
    have wf := ha.inv.1
    have hs : Sub q p child := by
      rcases compareP_cases wf wf' with ⟨hs, h⟩ | ⟨c, hs, h⟩ | ⟨c, hs, h⟩ | ⟨_, _, _, _, _, _, _, _, _, h⟩ <;>
        rw [h] at hc <;> simp at hc
      rw [← hc.2.2]; exact hs
    have hq : ∀ y, y ∈ (node p d n m act l r).entries → Sub q y.1 child := fun y hy =>
      hs.trans_subEq (ha.subEq rfl hy)
    intro v hv
    simp only [List.mem_append, mem_ev2] at hv
    rcases hv with ⟨h, rfl⟩ | hv
    · exact ⟨mem_node.mpr (Or.inl ⟨h, rfl⟩), fun y hy => (hq y hy).not_sameKey'⟩
    · cases child with
      | true =>
        simp only [if_true, List.mem_append] at hv
        rcases hv with hv | hv
        · exact (ih1 .empty hl v hv).mono (fun x hx => (by cases hx)) (fun x hx => mem_node.mpr (Or.inr (Or.inl hx)))
            (fun x y hx => (by cases hx)) (fun x y hx hy _ => (hq x hx).ne_of_side (hl.side il hy) (by simp))
        · refine (ih2 ha hr v hv).mono (fun x hx => hx) (fun x hx => mem_node.mpr (Or.inr (Or.inr hx)))
            (fun x y hx hy hn => ?_) (fun x y hx _ hn => absurd hx hn)
          rcases mem_node.mp hy with ⟨_, rfl⟩ | hy | hy
          · exact (hq x hx).not_sameKey'
          · exact (hq x hx).ne_of_side (hl.side il hy) (by simp)
          · exact absurd hy hn
      | false =>
        simp only [Bool.false_eq_true, if_false, List.mem_append] at hv
        rcases hv with hv | hv
        · refine (ih3 ha hl v hv).mono (fun x hx => hx) (fun x hx => mem_node.mpr (Or.inr (Or.inl hx)))
            (fun x y hx hy hn => ?_) (fun x y hx _ hn => absurd hx hn)
          rcases mem_node.mp hy with ⟨_, rfl⟩ | hy | hy
          · exact (hq x hx).not_sameKey'
          · exact absurd hy hn
          · exact (hq x hx).ne_of_side (hr.side ir hy) (by simp)
        · exact (ih4 .empty hr v hv).mono (fun x hx => (by cases hx)) (fun x hx => mem_node.mpr (Or.inr (Or.inr hx)))
            (fun x y hx => (by cases hx)) (fun x y hx hy _ => (hq x hx).ne_of_side (hr.side ir hy) (by simp))
  | case7 p d n m act l r q e n' m' act' l' r' _ _ hc ih1 ih2 =>
    have hdis : ∀ x y, x ∈ (node p d n m act l r).entries → y ∈ (node q e n' m' act' l' r').entries →
        ¬ SameKey x.1 y.1 := by
      intro x y hx hy
      rcases compareP_cases ha.inv.1 hb.inv.1 with ⟨hs, h⟩ | ⟨c, hs, h⟩ | ⟨c, hs, h⟩ | ⟨k, _, _, h1, h2, _, h4, _, _, h⟩ <;>
        rw [h] at hc <;> simp at hc
      have g := hb.subEq rfl hy
      have g' := g.2 k h2
      exact not_sameKey_of_disjoint h1 (by rw [← g']; exact h4) (Nat.lt_of_lt_of_le h2 g.1) (ha.subEq rfl hx)
    intro v hv
    rcases List.mem_append.mp hv with hv | hv
    · exact (ih1 ha .empty v hv).mono (fun x hx => hx) (fun x hx => (by cases hx))
        (fun x y hx hy _ => hdis x y hx hy) (fun x y _ hy => (by cases hy))
    · exact (ih2 .empty hb v hv).mono (fun x hx => (by cases hx)) (fun x hx => hx)
        (fun x y hx => (by cases hx)) (fun x y hx hy _ => hdis x y hx hy)
  | case8 p d n m act l r q e n' m' act' l' r' _ _ child hc hch ih1 ih2 =>
    have hdis : ∀ x y, x ∈ (node p d n m act l r).entries → y ∈ (node q e n' m' act' l' r').entries →
        ¬ SameKey x.1 y.1 := by
      intro x y hx hy
      rcases compareP_cases ha.inv.1 hb.inv.1 with ⟨hs, h⟩ | ⟨c, hs, h⟩ | ⟨c, hs, h⟩ | ⟨k, _, _, h1, h2, _, h4, _, _, h⟩ <;>
        rw [h] at hc <;> simp at hc
      have g := hb.subEq rfl hy
      have g' := g.2 k h2
      exact not_sameKey_of_disjoint h1 (by rw [← g']; exact h4) (Nat.lt_of_lt_of_le h2 g.1) (ha.subEq rfl hx)
    intro v hv
    rcases List.mem_append.mp hv with hv | hv
    · exact (ih1 .empty hb v hv).mono (fun x hx => (by cases hx)) (fun x hx => hx)
        (fun x y hx => (by cases hx)) (fun x y hx hy _ => hdis x y hx hy)
    · exact (ih2 ha .empty v hv).mono (fun x hx => hx) (fun x hx => (by cases hx))
        (fun x y hx hy _ => hdis x y hx hy) (fun x y _ hy => (by cases hy))

/-! ### Map -/

/-- all nodes, active or not, in the order in which `Map` meets them -/
def allNodes : Trie α D → List (Prefix α × Option D × Bool)
  | nil => []
  | node p d _ _ act l r => (p, d, act) :: (l.allNodes ++ r.allNodes)

/-- one step of `Map` -/
def mapStep {σ : Type} (f : Prefix α → Option D → σ → Option D × σ) (eq : Option D → Option D → Bool)
    (x : List (Prefix α × Option D × Bool) × σ) (n : Prefix α × Option D × Bool) :
    List (Prefix α × Option D × Bool) × σ :=
  let y := f n.1 n.2.1 x.2
  (x.1 ++ [(n.1, if eq n.2.1 y.1 then n.2.1 else y.1, n.2.2)], y.2)

/-- `Map` is one pass over all nodes -/
theorem map_eq {σ : Type} (f : Prefix α → Option D → σ → Option D × σ) (eq : Option D → Option D → Bool)
    (t : Trie α D) : ∀ (s : σ) (L : List (Prefix α × Option D × Bool)),
    t.allNodes.foldl (mapStep f eq) (L, s) = (L ++ (map f eq t s).1.allNodes, (map f eq t s).2) := by
  induction t with
  | nil => intro s L; simp [allNodes, map]
  | node p d n h act l r ihl ihr =>
    intro s L
    simp only [allNodes, List.foldl_cons, List.foldl_append, mapStep, map, Trie.mk]
    rw [ihl, ihr]
    simp

theorem entries_allNodes (t : Trie α D) :
    t.entries = (t.allNodes.filter (fun n => n.2.2)).map (fun n => (n.1, n.2.1)) := by
  induction t with
  | nil => rfl
  | node p d n h act l r ihl ihr =>
    cases act <;> simp [entries, allNodes, ihl, ihr]

theorem map_tinv {σ : Type} (f : Prefix α → Option D → σ → Option D × σ) (eq : Option D → Option D → Bool)
    {t : Trie α D} (hi : TInv t) : ∀ s, TInv (map f eq t s).1 ∧
      ((map f eq t s).1 = nil ↔ t = nil) ∧ ∀ p b, Inside p b t → Inside p b (map f eq t s).1 := by
  induction hi with
  | empty => intro s; exact ⟨.empty, by simp [map], fun _ _ h => h⟩
  | mk p d act l r wf il ir hl hr two ihl ihr =>
    intro s
    simp only [Trie.mk, map]
    obtain ⟨a1, a2, a3⟩ := ihl (f p d s).2
    obtain ⟨b1, b2, b3⟩ := ihr (map f eq l (f p d s).2).2
    refine ⟨.mk _ _ _ _ _ wf (a3 _ _ il) (b3 _ _ ir) a1 b1 fun h => ?_, by simp, fun q b h => h⟩
    obtain ⟨h1, h2⟩ := two h
    exact ⟨fun h => h1 (a2.mp h), fun h => h2 (b2.mp h)⟩

end
end Trie
end Addrs

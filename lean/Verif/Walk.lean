import Verif.Spec
/-
  `Walk` on any trie is the iteration over its entries.
-/
namespace Addrs
open GoWord LawfulGoWord

theorem visit_append {β σ : Type} (cb : β → σ → σ × Bool) (xs ys : List β) (s : σ) :
    visit cb (xs ++ ys) s = Trie.andThen (visit cb xs s) (visit cb ys) := by
  induction xs generalizing s with
  | nil => simp [visit, Trie.andThen]
  | cons x xs ih =>
    simp only [List.cons_append, visit]
    split
    · exact ih _
    · simp [Trie.andThen]

theorem visit_map {β γ σ : Type} (f : β → γ) (cb : γ → σ → σ × Bool) (xs : List β) (s : σ) :
    visit cb (xs.map f) s = visit (fun x => cb (f x)) xs s := by
  induction xs generalizing s with
  | nil => rfl
  | cons x xs ih =>
    simp only [List.map_cons, visit]
    split <;> simp_all

theorem visit_true {β σ : Type} (f : β → σ → σ) (xs : List β) (s : σ) :
    visit (fun x s => (f x s, true)) xs s = (xs.foldl (fun s x => f x s) s, true) := by
  induction xs generalizing s with
  | nil => rfl
  | cons x xs ih => simp [visit, ih]

namespace Trie
variable {α D : Type} [GoWord α]

theorem diff_nil_right {σ : Type} (h : Handler α D σ) : diff h (.nil : Trie α D) .nil = fun s => (s, true) := by
  funext s; rw [diff]

theorem walk_eq {σ : Type} (cb : Prefix α → Option D → σ → σ × Bool) (t : Trie α D) (s : σ) :
    walk cb t s = visit (fun e => cb e.1 e.2) t.entries s := by
  unfold walk Diff
  induction t generalizing s with
  | nil => simp [diff, entries, visit]
  | node p d n h act l r ihl ihr =>
    simp only [entries, visit_append]
    rw [diff]
    simp only [orNoop1, Option.getD] at *
    cases act with
    | true =>
      simp only [if_true, visit]
      cases hc : cb p d s with
      | mk s' b =>
        cases b with
        | true => simp only [andThen, if_true, ihl, ihr, visit_append]
        | false => simp [andThen]
    | false =>
      simp only [andThen, visit, Bool.false_eq_true, if_false, if_true, ihl, ihr, visit_append]

end Trie

theorem IPSet.walkPrefixes_eq {α σ : Type} [LawfulGoWord α] (s : IPSet α)
    (cb : Prefix α → σ → σ × Bool) (st : σ) :
    s.walkPrefixes cb st = visit cb (s.trie.entries.map (·.1)) st := by
  rw [walkPrefixes, Trie.walk_eq, visit_map]

end Addrs

import Verif.HeapSet
import Verif.SetCanon
import Verif.SetRange
import Verif.TableOps
/-
  The heap code of setnode.go computes what the functions on trees (Verif/SetNode.lean) compute, writes
  to no node but its own new ones, never panics and always ends.
-/
set_option linter.unusedSectionVars false
namespace Addrs
open GoWord LawfulGoWord

/-- for every recursion bound from `N` on -/
def Ev (N : Nat) (P : Nat → Prop) : Prop := ∀ F, N ≤ F → P F

theorem Ev.step {N M : Nat} {P Q : Nat → Prop} (h : Ev N P) (hlt : N < M)
    (hs : ∀ F, P F → Q (F + 1)) : Ev M Q := by
  intro F hF
  cases F with
  | zero => omega
  | succ F => exact hs F (h F (by omega))
theorem Ev.and {N M : Nat} {P Q : Nat → Prop} (h : Ev N P) (h' : Ev M Q) :
    Ev (max N M) fun F => P F ∧ Q F := fun F hF => ⟨h F (by omega), h' F (by omega)⟩
theorem Ev.mono {N M : Nat} {P Q : Nat → Prop} (h : Ev N P) (hle : N ≤ M) (hs : ∀ F, P F → Q F) : Ev M Q :=
  fun F hF => hs F (h F (by omega))
theorem Ev.succ {M : Nat} {Q : Nat → Prop} (h : 0 < M) (hs : ∀ F, Q (F + 1)) : Ev M Q := by
  intro F hF
  cases F with
  | zero => omega
  | succ F => exact hs F

namespace SetNode
open Trie
variable {α : Type} [LawfulGoWord α]

theorem Under.inside {p : Prefix α} {b : Bool} {t : SetNode α} (h : Under p b t) : Inside p b t := by
  cases t with
  | nil => trivial
  | node => exact h

/-- a good set trie is a good table trie -/
theorem Inv.tinv {t : SetNode α} (h : Inv t) : TInv t := by
  induction h with
  | nil => exact .empty
  | leaf p hp => exact TInv.mk p none true .nil .nil hp trivial trivial .empty .empty (by simp)
  | inner p l r hz ul ur hl hr nm ihl ihr =>
    have hw : p.WF := (Inv.inner p l r hz ul ur hl hr nm).wf
    exact TInv.mk p none false l r hw ul.inside ur.inside ihl ihr fun _ => ⟨ul.ne_nil, ur.ne_nil⟩

/-- a set trie is at most as deep as an address has bits, plus one -/
theorem Inv.deep_le {t : SetNode α} (h : Inv t) : t.deep ≤ width α + 1 := h.tinv.deep_le'

/-- an inner node of a good trie is what `mkFlat` makes of its children -/
theorem Inv.mkFlat_self {p : Prefix α} {d n m l r} (h : Inv (.node p d n m false l r : SetNode α)) :
    mkFlat p l r = .node p d n m false l r := by
  obtain ⟨e, hz, ul, ur, hl, hr, nm⟩ := h.inactive
  rw [e]
  cases l with
  | nil => exact ul.elim
  | node q d n h act ll lr =>
    cases r with
    | nil => exact ur.elim
    | node q' d' n' h' act' rl rr =>
      simp only [Mergeable] at nm
      simp only [mkFlat, flatten, Bool.false_eq_true, if_false]
      split
      · rfl
      · split
        · rfl
        · split
          · rfl
          · rename_i h1 h2 h3
            exfalso; apply nm
            simp at h1 h2 h3
            exact ⟨h3.1, h3.2, h2, by omega⟩

theorem compareP_self {p : Prefix α} (hp : p.WF) : compareP p p = (.same, false, p.len, false) := by
  rcases compareP_cases hp hp with ⟨_, e⟩ | ⟨c, h, _⟩ | ⟨c, h, _⟩ | ⟨n, _, _, _, _, _, h, _⟩
  · exact e
  · exact absurd h.lt (Nat.lt_irrefl _)
  · exact absurd h.lt (Nat.lt_irrefl _)
  · exact absurd rfl h

theorem union_self {t : SetNode α} (h : Inv t) : union t t = t := by
  induction t with
  | nil => exact union_nil_left _
  | node p d n m act l r ihl ihr =>
    rw [union]
    rw [compareP_self h.wf]
    cases act with
    | true => rfl
    | false =>
      obtain ⟨e, hz, ul, ur, hl, hr, nm⟩ := h.inactive
      simp only [Bool.false_eq_true, if_false, ihl hl, ihr hr]
      exact h.mkFlat_self

/-- the children of an inner node: their union is the node -/
theorem union_children {p : Prefix α} {d n m l r} (h : Inv (.node p d n m false l r : SetNode α)) :
    union l r = .node p d n m false l r := by
  rw [← h.mkFlat_self]
  obtain ⟨e, hz, ul, ur, hl, hr, nm⟩ := h.inactive
  cases l with
  | nil => exact ul.elim
  | node q dl nl ml al ll lr =>
    cases r with
    | nil => exact ur.elim
    | node q' dr nr mr ar rl rr =>
      have sl : Sub p q false := ul
      have sr : Sub p q' true := ur
      have ag : Agree p.len q.addr q'.addr := sl.agree.symm.trans sr.agree
      have hne : bit q.addr p.len ≠ bit q'.addr p.len := by rw [sl.side, sr.side]; simp
      rw [union]
      rcases compareP_cases hl.wf hr.wf with ⟨h1, e1⟩ | ⟨c, h1, e1⟩ | ⟨c, h1, e1⟩ |
        ⟨k, rev, c, k1, k2, h1, h2, h3, h4, e1⟩
      · exact absurd (h1.2 _ sl.lt) hne
      · exact absurd (h1.agree _ sl.lt) hne
      · exact absurd (h1.agree _ sr.lt).symm hne
      · have hk : k = p.len := by
          rcases Nat.lt_trichotomy k p.len with hlt | he | hgt
          · exact absurd (ag k hlt) h2
          · exact he
          · exact absurd (h1 _ hgt) hne
        subst hk
        rw [e1]
        have hc : (c != rev) = true := by rw [← h3, sr.side]
        simp only [hc, if_true]
        have ep : (⟨and q.addr (compl (shr ones p.len)), p.len⟩ : Prefix α) = p := by
          have hp : p.len ≤ width α := h.wf
          have : and q.addr (compl (shr ones p.len)) = p.addr := by
            apply ext_bit
            intro i hi
            by_cases hlt : i < p.len
            · rw [agree_zeroed q.addr hp i hlt]
              exact (sl.agree i hlt).symm
            · have z1 := zeroFrom_zeroed q.addr p.len i (by omega)
              have z2 := hz i (by omega)
              rw [z1, z2]
          rw [this]
        rw [ep]

end SetNode

namespace Heap
open Prog
variable {α : Type} [LawfulGoWord α]
variable {st : Prop} {β D : Type}

theorem wp_numNodes {Q : β → View α D → Prop} {p : Ptr} {t : Trie α D} {f : Nat → Prog α D β}
    {v : View α D} {W : Nat → Prop} (hd : Den v p t) (h : wp st Q (f t.numNodes) v W) :
    wp st Q (numNodes p >>= f) v W := by
  cases hd with
  | nil => exact h
  | node hc hl hr => exact wp_deref hc h

theorem wp_height {Q : β → View α D → Prop} {p : Ptr} {t : Trie α D} {f : Nat → Prog α D β}
    {v : View α D} {W : Nat → Prop} (hd : Den v p t) (h : wp st Q (f t.height) v W) :
    wp st Q (height p >>= f) v W := by
  cases hd with
  | nil => exact h
  | node hc hl hr => exact wp_deref hc h

/-- a node that is not part of the tree can be written without changing what a pointer denotes -/
theorem Den.set_other {v : View α D} {n : Nat} {c : Cell α D} {p : Ptr} {t : Trie α D}
    (hn : ∀ c, v n ≠ some c) (hd : Den v p t) : Den (v.set n c) p t :=
  hd.mono (View.le_set_fresh (by
    cases h : v n with
    | none => rfl
    | some c => exact absurd h (hn c)))

theorem View.set_set (v : View α D) (n : Nat) (c c' : Cell α D) : (v.set n c).set n c' = v.set n c' := by
  funext m
  unfold View.set
  split <;> rfl

/-- in-place mutation of a new node `n` (not in the view `v`), if the mutator does nothing but compute
    the new fields -/
theorem wp_mutate_fresh {τ : Type} {Q : τ → View α D → Prop} {n : Nat} {c c' : Cell α D} {x : τ}
    {m : Cell α D → Prog α D (Cell α D × τ)} {v : View α D} {W : Nat → Prop} {l r : Trie α D}
    (hn : v n = none) (hW : W n) (hm : wp st (fun y v' => y = (c', x) ∧ v' = v.set n c) (m c) (v.set n c) W)
    (hl : Den v c'.l l) (hr : Den v c'.r r)
    (hQ : ∀ s h, Den (v.set n { c' with size := s, h := h }) (some n)
        (Trie.mk c'.pfx c'.data c'.active l r) →
      Q x (v.set n { c' with size := s, h := h })) :
    wp st Q (mutate n m) (v.set n c) W := by
  unfold mutate
  refine wp_deref (View.set_same _ _ _) ?_
  refine wp_bind ?_
  refine wp_mono (fun _ h => h) ?_ hm
  rintro y v' ⟨rfl, rfl⟩
  refine wp_store hW (View.set_same _ _ _) ?_
  rw [View.set_set]
  have hl' : Den (v.set n c') c'.l l := hl.mono (View.le_set_fresh hn)
  have hr' : Den (v.set n c') c'.r r := hr.mono (View.le_set_fresh hn)
  refine wp_numNodes hl' (wp_numNodes hr' (wp_height hl' (wp_height hr' ?_)))
  refine wp_store hW (View.set_same _ _ _) ?_
  rw [View.set_set]
  apply hQ
  exact Den.node (c := { c' with
      size := if c'.active then ((l.numNodes + r.numNodes) % 2 ^ 32 + 1) % 2 ^ 32
        else (l.numNodes + r.numNodes) % 2 ^ 32
      h := (1 + max l.height r.height) % 2 ^ 16 }) (View.set_same _ _ _)
    (hl.mono (View.le_set_fresh hn)) (hr.mono (View.le_set_fresh hn))

open SetNode (Inv)

theorem wp_fromPrefix {Q : Ptr → View α Empty → Prop} {p : Prefix α} {v : View α Empty} {W : Nat → Prop}
    (h : ∀ n v', v ≤ v' → Den v' (some n) (SetNode.fromPrefix p) → Q (some n) v') :
    wp st Q (fromPrefix p) v W := by
  unfold fromPrefix
  refine wp_new fun n hn => ?_
  apply h
  · exact View.le_set_fresh hn
  · exact Den.node (c := ⟨p, none, 1, 1, true, none, none⟩) (View.set_same _ _ _) .nil .nil

theorem wp_newFlat {p : Prefix α} {pl pr : Ptr} {l r : SetNode α} {v : View α Empty} {W : Nat → Prop}
    (hl : Den v pl l) (hr : Den v pr r) (nl : l ≠ .nil) (nr : r ≠ .nil) :
    wp st (fun x v' => Den v' x (Trie.mkFlat p l r)) (newFlat p pl pr) v W := by
  unfold newFlat
  refine wp_new fun n hn => ?_
  refine wp_bind ?_
  cases l with
  | nil => exact absurd rfl nl
  | node q d k m act ll lr =>
  cases r with
  | nil => exact absurd rfl nr
  | node q' d' k' m' act' rl rr =>
  obtain ⟨a, pll, plr, rfl, ha, dll, dlr⟩ := hl.node_inv
  obtain ⟨b, prl, prr, rfl, hb, drl, drr⟩ := hr.node_inv
  have ha' : ∀ c, (v.set n c) a = some ⟨q, d, k, m, act, pll, plr⟩ := fun c => View.le_set_fresh hn _ _ ha
  have hb' : ∀ c, (v.set n c) b = some ⟨q', d', k', m', act', prl, prr⟩ := fun c =>
    View.le_set_fresh hn _ _ hb
  by_cases hm : q.len = q'.len ∧ q.len = p.len + 1 ∧ act = true ∧ act' = true
  · obtain ⟨h1, h2, rfl, rfl⟩ := hm
    refine wp_mutate_fresh (c' := ⟨p, none, 0, 0, true, none, none⟩) (x := ()) hn (Or.inl rfl) ?_
      Den.nil Den.nil ?_
    · refine wp_bind ?_
      simp only [flatten, Bool.false_eq_true, if_false]
      refine wp_deref (ha' _) (wp_deref (hb' _) ?_)
      simp only
      rw [if_neg (by simp [h1]), if_neg (by simp [h2]), if_neg (by simp)]
      exact ⟨rfl, rfl⟩
    · intro s h hd
      have e : Trie.mkFlat p (.node q d k m true ll lr) (.node q' d' k' m' true rl rr : SetNode α)
          = Trie.mk p none true .nil .nil := by
        simp [Trie.mkFlat, Trie.flatten, ← h1, h2]
      show Den _ _ _
      rw [e]; exact hd
  · refine wp_mutate_fresh (c' := ⟨p, none, 0, 0, false, some a, some b⟩) (x := ()) hn (Or.inl rfl) ?_
      hl hr ?_
    · refine wp_bind ?_
      simp only [flatten, Bool.false_eq_true, if_false]
      refine wp_deref (ha' _) (wp_deref (hb' _) ?_)
      simp only
      split
      · exact ⟨rfl, rfl⟩
      · split
        · exact ⟨rfl, rfl⟩
        · split
          · exact ⟨rfl, rfl⟩
          · rename_i h1 h2 h3
            simp only [ne_eq, Decidable.not_not] at h1 h2
            simp only [Bool.or_eq_true, Bool.not_eq_true', not_or, Bool.not_eq_false] at h3
            exact absurd ⟨h1, h2, h3.1, h3.2⟩ hm
    · intro s h hd
      have e : Trie.mkFlat p (.node q d k m act ll lr) (.node q' d' k' m' act' rl rr : SetNode α)
          = Trie.mk p none false (.node q d k m act ll lr) (.node q' d' k' m' act' rl rr) := by
        simp only [Trie.mkFlat, Trie.flatten, Bool.false_eq_true, if_false]
        split
        · rfl
        · split
          · rfl
          · split
            · rfl
            · rename_i h1 h2 h3
              simp only [ne_eq, Decidable.not_not] at h1 h2
              simp only [Bool.or_eq_true, Bool.not_eq_true', not_or, Bool.not_eq_false] at h3
              exact absurd ⟨h1, h2, h3.1, h3.2⟩ hm
      show Den _ _ _
      rw [e]; exact hd

/-- `Union` -/
theorem wp_union : ∀ (F : Nat) {t u : SetNode α}, t.deep + u.deep < F → Inv t → Inv u →
    ∀ {v : View α Empty} {p q : Ptr} {W : Nat → Prop}, Den v p t → Den v q u →
    wp st (fun x v' => Den v' x (SetNode.union t u)) (union F p q) v W := by
  intro F
  induction F with
  | zero => intro t u h; omega
  | succ F ih =>
    intro t u hF ht hu v p q W dt du
    unfold union
    split
    · next e =>
      subst e
      rw [← dt.functional du, SetNode.union_self ht]
      exact dt
    next hne =>
    split
    · rw [du.none_inv, SetNode.union_nil_right]; exact dt
    · rw [dt.none_inv, SetNode.union_nil_left]; exact du
    next a b =>
    obtain ⟨c, l, r, ha, dl, dr, rfl⟩ := dt.some_inv
    obtain ⟨d, l', r', hb, dl', dr', rfl⟩ := du.some_inv
    simp only [Trie.deep] at hF
    refine wp_deref ha (wp_deref hb ?_)
    rw [SetNode.union]
    rcases hcmp : compareP c.pfx d.pfx with ⟨res, rev, common, child⟩
    cases res with
    | same =>
      simp only
      cases hact : c.active with
      | true => simp only [if_true]; rw [hact] at dt; exact dt
      | false =>
        simp only [Bool.false_eq_true, if_false]
        cases hact' : d.active with
        | true => simp only [if_true]; rw [hact'] at du; exact du
        | false =>
          simp only [Bool.false_eq_true, if_false]
          rw [hact] at dt ht; rw [hact'] at du hu
          obtain ⟨e1, hz, ul, ur, hl, hr, nm⟩ := ht.inactive
          obtain ⟨e1', hz', ul', ur', hl', hr', nm'⟩ := hu.inactive
          refine wp_call (ih (by omega) hl hl' dl dl') ?_
          intro pl v1 le1 d1
          refine wp_call (ih (by omega) hr hr' (dr.mono le1) (dr'.mono le1)) ?_
          intro pr v2 le2 d2
          split
          · next e =>
            simp only [Bool.and_eq_true, decide_eq_true_eq] at e
            obtain ⟨rfl, rfl⟩ := e
            rw [d1.functional (dl.mono le1), d2.functional (dr.mono (View.le_trans le1 le2)),
              ht.mkFlat_self]
            exact dt.mono (View.le_trans le1 le2)
          · exact wp_newFlat (d1.mono le2) d2
              ((SetNode.union_spec hl hl').ne_nil hl ul.ne_nil)
              ((SetNode.union_spec hr hr').ne_nil hr ur.ne_nil)
    | disjoint =>
      simp only
      split
      · exact wp_newFlat dt du (by simp) (by simp)
      · exact wp_newFlat du dt (by simp) (by simp)
    | contains =>
      simp only
      cases rev with
      | true =>
        simp only [if_true]
        cases hact' : d.active with
        | true => simp only [if_true]; rw [hact'] at du; exact du
        | false =>
          simp only [Bool.false_eq_true, if_false]
          rw [hact'] at du hu
          obtain ⟨e1', hz', ul', ur', hl', hr', nm'⟩ := hu.inactive
          cases child with
          | true =>
            simp only [if_true]
            refine wp_call (ih (by simp only [Trie.deep]; omega) hr' ht dr' dt) ?_
            intro pr v1 le1 d1
            exact wp_newFlat (dl'.mono le1) d1 ul'.ne_nil
              ((SetNode.union_spec hr' ht).ne_nil hr' ur'.ne_nil)
          | false =>
            simp only [Bool.false_eq_true, if_false]
            refine wp_call (ih (by simp only [Trie.deep]; omega) hl' ht dl' dt) ?_
            intro pr v1 le1 d1
            exact wp_newFlat d1 (dr'.mono le1)
              ((SetNode.union_spec hl' ht).ne_nil hl' ul'.ne_nil) ur'.ne_nil
      | false =>
        simp only [Bool.false_eq_true, if_false]
        cases hact : c.active with
        | true => simp only [if_true]; rw [hact] at dt; exact dt
        | false =>
          simp only [Bool.false_eq_true, if_false]
          rw [hact] at dt ht
          obtain ⟨e1', hz', ul', ur', hl', hr', nm'⟩ := ht.inactive
          cases child with
          | true =>
            simp only [if_true]
            refine wp_call (ih (by simp only [Trie.deep]; omega) hr' hu dr du) ?_
            intro pr v1 le1 d1
            exact wp_newFlat (dl.mono le1) d1 ul'.ne_nil
              ((SetNode.union_spec hr' hu).ne_nil hr' ur'.ne_nil)
          | false =>
            simp only [Bool.false_eq_true, if_false]
            refine wp_call (ih (by simp only [Trie.deep]; omega) hl' hu dl du) ?_
            intro pr v1 le1 d1
            exact wp_newFlat d1 (dr.mono le1)
              ((SetNode.union_spec hl' hu).ne_nil hl' ul'.ne_nil) ur'.ne_nil
    | isContained =>
      simp only
      cases rev with
      | true =>
        simp only [if_true]
        cases hact' : d.active with
        | true => simp only [if_true]; rw [hact'] at du; exact du
        | false =>
          simp only [Bool.false_eq_true, if_false]
          rw [hact'] at du hu
          obtain ⟨e1', hz', ul', ur', hl', hr', nm'⟩ := hu.inactive
          cases child with
          | true =>
            simp only [if_true]
            refine wp_call (ih (by simp only [Trie.deep]; omega) hr' ht dr' dt) ?_
            intro pr v1 le1 d1
            exact wp_newFlat (dl'.mono le1) d1 ul'.ne_nil
              ((SetNode.union_spec hr' ht).ne_nil hr' ur'.ne_nil)
          | false =>
            simp only [Bool.false_eq_true, if_false]
            refine wp_call (ih (by simp only [Trie.deep]; omega) hl' ht dl' dt) ?_
            intro pr v1 le1 d1
            exact wp_newFlat d1 (dr'.mono le1)
              ((SetNode.union_spec hl' ht).ne_nil hl' ul'.ne_nil) ur'.ne_nil
      | false =>
        simp only [Bool.false_eq_true, if_false]
        cases hact : c.active with
        | true => simp only [if_true]; rw [hact] at dt; exact dt
        | false =>
          simp only [Bool.false_eq_true, if_false]
          rw [hact] at dt ht
          obtain ⟨e1', hz', ul', ur', hl', hr', nm'⟩ := ht.inactive
          cases child with
          | true =>
            simp only [if_true]
            refine wp_call (ih (by simp only [Trie.deep]; omega) hr' hu dr du) ?_
            intro pr v1 le1 d1
            exact wp_newFlat (dl.mono le1) d1 ul'.ne_nil
              ((SetNode.union_spec hr' hu).ne_nil hr' ur'.ne_nil)
          | false =>
            simp only [Bool.false_eq_true, if_false]
            refine wp_call (ih (by simp only [Trie.deep]; omega) hl' hu dl du) ?_
            intro pr v1 le1 d1
            exact wp_newFlat d1 (dr.mono le1)
              ((SetNode.union_spec hl' hu).ne_nil hl' ul'.ne_nil) ur'.ne_nil

end Heap
namespace SetNode
open Trie
variable {α : Type} [LawfulGoWord α]

/-- the two parts `setNodeFromRange` splits a range into: up to the end, and from the start, of the halves of
    the smallest block around it -/
theorem fromRange_parts {r : Range α} (hle : toNat r.first ≤ toNat r.last)
    (hc : ¬ lz (xor r.first r.last) = pop (compl (xor r.first r.last))) {pivot : α}
    (hp : pivot = or (and r.first (shl ones (width α - lz (xor r.first r.last))))
      (shr top (lz (xor r.first r.last)))) :
    lz (xor r.first r.last) < width α ∧ bit r.first (lz (xor r.first r.last)) = false ∧
      bit r.last (lz (xor r.first r.last)) = true ∧
      pivot = (Prefix.network ⟨r.last, lz (xor r.first r.last) + 1⟩).addr ∧
      sub1 pivot = (Prefix.broadcast ⟨r.first, lz (xor r.first r.last) + 1⟩).addr := by
  have hlz := lz_le (xor r.first r.last)
  have hn : lz (xor r.first r.last) < width α := by
    apply Nat.lt_of_not_le
    intro hge
    exact hc ((pop_compl_iff _).mpr fun i h1 h2 => by omega)
  have hag := lz_xor_agree r.first r.last
  have hdf := lz_xor_diff hn
  generalize hN : lz (xor r.first r.last) = n at *
  have hbits : bit r.first n = false ∧ bit r.last n = true := by
    cases h1 : bit r.first n <;> cases h2 : bit r.last n <;> simp_all
    have := toNat_lt_of_bit hn hag.symm h2 h1
    omega
  obtain ⟨hb1, hb2⟩ := hbits
  have hpv : pivot = (Prefix.network ⟨r.last, n + 1⟩).addr := by
    rw [hp]
    apply ext_bit
    intro i hi
    rw [bit_network (p := ⟨r.last, n + 1⟩) hn, bit_or, bit_and, bit_shr _ _ hi]
    have hm := bit_lengthToMask (α := α) (n := n) hlz hi
    rw [lengthToMask] at hm
    rw [hm, bit_top]
    simp only
    by_cases h : i < n
    · have h1 : ¬ n ≤ i := by omega
      have h2 : i < n + 1 := by omega
      simp [h, h2, hag i h]
    · by_cases h' : i = n
      · subst h'; simp [hb2]
      · have h1 : ¬ i - n = 0 := by omega
        have h2 : ¬ i < n + 1 := by omega
        simp [h, h1, h2]
  refine ⟨hn, hb1, hb2, hpv, ?_⟩
  rw [hpv]
  have hsucc := broadcast_succ hn hag hb1 hb2
  apply toNat_inj
  rw [toNat_sub1_pos (by omega)]
  omega

theorem fromRange_split {r : Range α} (hle : toNat r.first ≤ toNat r.last)
    (hc : ¬ lz (xor r.first r.last) = pop (compl (xor r.first r.last))) {pivot : α}
    (hp : pivot = or (and r.first (shl ones (width α - lz (xor r.first r.last))))
      (shr top (lz (xor r.first r.last)))) :
    toNat r.first ≤ toNat (sub1 pivot) ∧ toNat pivot ≤ toNat r.last ∧
      lz (xor r.first r.last) < lz (xor r.first (sub1 pivot)) ∧
      lz (xor r.first r.last) < lz (xor pivot r.last) := by
  obtain ⟨hn, hb1, hb2, hpv, hsub⟩ := fromRange_parts hle hc hp
  rw [hsub, hpv]
  generalize lz (xor r.first r.last) = n at *
  have hwl : Prefix.WF (⟨r.last, n + 1⟩ : Prefix α) := hn
  have hwf : Prefix.WF (⟨r.first, n + 1⟩ : Prefix α) := hn
  have c1 := (covers_iff_range hwf).mp (Covers.self _)
  have c2 := (covers_iff_range hwl).mp (Covers.self _)
  simp only at c1 c2
  have a1 : Agree (n + 1) r.first (Prefix.broadcast ⟨r.first, n + 1⟩).addr := by
    have h := (covers_iff_range hwf (a := (Prefix.broadcast ⟨r.first, n + 1⟩).addr)).mpr
      ⟨by omega, Nat.le_refl _⟩
    exact h
  have a2 : Agree (n + 1) (Prefix.network ⟨r.last, n + 1⟩).addr r.last := agree_network hwl
  exact ⟨c1.2, c2.1, lz_xor_ge hn a1, lz_xor_ge hn a2⟩

theorem fromRangeAux_inv (n : Nat) {r : Range α} (hle : toNat r.first ≤ toNat r.last)
    (hf : width α < lz (xor r.first r.last) + n) : Inv (fromRangeAux n r) := by
  by_cases h : AllDiffer r → ZeroFrom (lz (xor r.first r.last)) r.first
  · exact (fromRangeAux_spec n r hle hf h).1
  · cases n with
    | zero => have := lz_le (xor r.first r.last); omega
    | succ n =>
      have had : AllDiffer r := Classical.byContradiction fun hh => h fun x => absurd x hh
      rw [fromRangeAux]
      simp only [((pop_compl_iff _).mpr had : lz _ = _), if_true]
      rw [← ((pop_compl_iff _).mpr had : lz _ = _)]
      exact .leaf _ (lz_le _)

end SetNode

namespace Heap
open Prog
open SetNode (Inv)
variable {α : Type} [LawfulGoWord α]
variable {st : Prop} {β D : Type}

theorem wp_fromRange_aux (n : Nat) : ∀ {r : Range α}, toNat r.first ≤ toNat r.last →
    width α < lz (xor r.first r.last) + n →
    Ev (n + (2 * (width α + 1) + 1)) fun F => ∀ (v : View α Empty) (W : Nat → Prop),
      wp False (fun x v' => Den v' x (SetNode.fromRangeAux n r)) (fromRange F r) v W := by
  induction n with
  | zero => intro r _ h; have := lz_le (xor r.first r.last); omega
  | succ n ih =>
    intro r hle hf
    by_cases hc : lz (xor r.first r.last) = pop (compl (xor r.first r.last))
    · refine Ev.succ (by omega) ?_
      intro F v W
      simp only [fromRange, SetNode.fromRangeAux, if_pos hc]
      exact wp_fromPrefix fun n v' _ h => h
    · obtain ⟨pivot, hpv⟩ : ∃ x, x = or (and r.first (shl ones (width α - lz (xor r.first r.last))))
        (shr top (lz (xor r.first r.last))) := ⟨_, rfl⟩
      obtain ⟨h1, h2, h3, h4⟩ := SetNode.fromRange_split hle hc hpv
      have w1 : width α < lz (xor r.first (sub1 pivot)) + n := by omega
      have w2 : width α < lz (xor pivot r.last) + n := by omega
      have i1 := SetNode.fromRangeAux_inv n (r := ⟨r.first, sub1 pivot⟩) h1 w1
      have i2 := SetNode.fromRangeAux_inv n (r := ⟨pivot, r.last⟩) h2 w2
      refine (((ih (r := ⟨r.first, sub1 pivot⟩) h1 w1).and (ih (r := ⟨pivot, r.last⟩) h2 w2)).and
        (fun F h => h : Ev (2 * (width α + 1) + 1) fun F => 2 * (width α + 1) + 1 ≤ F)).step
        (by omega) ?_
      rintro F ⟨⟨e1, e2⟩, hF⟩ v W
      simp only [fromRange, SetNode.fromRangeAux, if_neg hc, ← hpv]
      refine wp_call (e1 _ _) ?_
      intro pa v1 le1 d1
      refine wp_call (e2 _ _) ?_
      intro pb v2 le2 d2
      have := i1.deep_le
      have := i2.deep_le
      exact wp_union F (by omega) i1 i2 (d1.mono le2) d2

/-- `setNodeFromRange` -/
theorem wp_fromRange {r : Range α} (h : toNat r.first ≤ toNat r.last) :
    Ev (3 * (width α + 1) + 1) fun F => ∀ (v : View α Empty) (W : Nat → Prop),
      wp False (fun x v' => Den v' x (SetNode.fromRange r)) (fromRange F r) v W :=
  (wp_fromRange_aux (width α + 1) h (by omega)).mono (by omega) fun _ h => h

end Heap
end Addrs

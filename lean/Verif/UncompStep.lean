import Verif.UncompKeys
import Verif.PanicStep
import Verif.CutMachine
/-
  One call of a sequential program over values that `==` cannot compare: on plain tables.
-/
set_option linter.unusedSectionVars false
namespace Addrs
open GoWord LawfulGoWord Heap Prog

namespace Trie
variable {α D : Type} [LawfulGoWord α]

/-- `k` is an entry -/
def Keyed (k : Prefix α) (t : Trie α D) : Prop := ∃ x, x ∈ t.entries ∧ SameKey x.1 k

theorem insert_isSome {k : Prefix α} (hk : k.WF) {d : Option D} {t : Trie α D} (hi : TInv t) (i u : Bool) (f : Eq' D) :
    (insert ⟨i, u, f⟩ k d t).isSome = true ↔ (Keyed k t ∧ u = true) ∨ (¬ Keyed k t ∧ i = true) := by
  have hs := insert_spec ⟨i, u, f⟩ k hk d t hi
  by_cases h : Keyed k t
  · obtain ⟨x, hx, hxk⟩ := h
    obtain ⟨h1, h2⟩ := hs.found x hx hxk
    have hK : Keyed k t := ⟨x, hx, hxk⟩
    cases u with
    | false => rw [h1 rfl]; simp [hK]
    | true => obtain ⟨t', ht', _⟩ := h2 rfl; rw [ht']; simp [hK]
  · obtain ⟨h1, h2⟩ := hs.absent fun x hx hxk => h ⟨x, hx, hxk⟩
    cases i with
    | false => rw [h1 rfl]; simp [h]
    | true => obtain ⟨t', ht', _⟩ := h2 rfl; rw [ht']; simp [h]

end Trie

/-- the write panics on this table -/
def TableOp.UCrash {α D : Type} [LawfulGoWord α] (a : AbsTable α D) : TableOp α D → Prop
  | .insert k _ => ¬ a.table.trie.Keyed k.toPrefix ∧ a.table.trie.Above k.toPrefix
  | .update k _ => a.table.trie.Keyed k.toPrefix ∧ (a.table.trie.Above k.toPrefix ∨ a.cmp = .dflt)
  | .insertOrUpdate k _ => a.table.trie.Above k.toPrefix ∨ (a.table.trie.Keyed k.toPrefix ∧ a.cmp = .dflt)
  | .get _ => False
  | .getOrInsert k _ => a.table.trie.Above k.toPrefix
  | .remove k => (Trie.del k.toPrefix a.table.trie).isSome = true ∧ a.table.trie.Above k.toPrefix

namespace Prog
variable {α D β γ : Type}

/-- a program that does not panic does what it does with values that can be compared -/
theorem Cut.run_same {P Q : Prog α D β} (hc : Cut P Q) {m : Mem α D} {R : β → View α D → Prop} {W : Nat → Prop} (h : Prog.wp False R P m.nodes W) : P.run m = Q.run m := by
  refine hc.run_eq ?_
  obtain ⟨b, v, m', e, _⟩ := run_wp h (m := m) (fun _ _ h => h)
  rw [e]
  simp

theorem run_bind_same {P Q : Prog α D β} {m : Mem α D} (h : P.run m = Q.run m) (f : β → Prog α D γ) : (P >>= f).run m = (Q >>= f).run m := by
  rw [run_bind, run_bind, h]

theorem run_bind_panic {P : Prog α D β} {m : Mem α D} (h : (P.run m).1 = .panic) (f : β → Prog α D γ) : ((P >>= f).run m).1 = .panic := by
  rw [run_bind]
  generalize P.run m = x at *
  obtain ⟨x, m'⟩ := x
  simp only at h
  subst h
  rfl

end Prog

namespace Heap
variable {α D τ : Type}

theorem run_tmutate {o : Nat} {m : Mem α D} {ob : Obj D} (ho : m.objs[o]? = some ob) (f : Obj D → Prog α D ((Bool × Ptr) × τ)) :
    (tmutate o (readObj o >>= f)).run m = ((f ob) >>= fun x => if x.1.1 && decide (ob.trie ≠ x.1.2) then do
        let ok ← swap o ob.trie x.1.2
        if !ok then panic else pure x.2
      else pure x.2).run m := by
  have h1 : ∀ {γ : Type} (k : Obj D → Prog α D γ), (readObj o >>= k).run m = (k ob).run m := by
    intro γ k
    rw [run_bind]
    simp only [readObj, Prog.run, ho]
  unfold tmutate
  rw [h1, run_bind, h1, ← run_bind]

theorem tmutate_same {o : Nat} {m : Mem α D} {ob : Obj D} (ho : m.objs[o]? = some ob) {f g : Obj D → Prog α D ((Bool × Ptr) × τ)}
    (h : (f ob).run m = (g ob).run m) : (tmutate o (readObj o >>= f)).run m = (tmutate o (readObj o >>= g)).run m := by
  rw [run_tmutate ho, run_tmutate ho]
  exact run_bind_same h _

theorem tmutate_panic {o : Nat} {m : Mem α D} {ob : Obj D} (ho : m.objs[o]? = some ob) {f : Obj D → Prog α D ((Bool × Ptr) × τ)}
    (h : ((f ob).run m).1 = .panic) : ((tmutate o (readObj o >>= f)).run m).1 = .panic := by
  rw [run_tmutate ho]
  exact run_bind_panic h _

end Heap

section
variable {α D σ : Type} [LawfulGoWord α] [Inhabited D] [Comparable D] {A : GoType D} {F : Nat}

theorem call_none (hA : ∀ a b, A.eqq a b = none) {e : EqFn D} (hn : e ≠ .nil) (a b : D) :
    @EqFn.call D A e (some a) (some b) = none ↔ e = .dflt := by
  cases e with
  | nil => exact (hn rfl).elim
  | dflt => exact ⟨fun _ => rfl, fun _ => hA a b⟩
  | custom c => exact ⟨fun h => (by cases h), fun h => (by cases h)⟩

/-- a write, with values that cannot be compared -/
theorem op_un (hle : A.Le Comparable.toGoType) (hA : ∀ a b, A.eqq a b = none) (hF : 2 * width α + 3 ≤ F) {m : Mem α D} {o : Nat} {ob : Obj D}
    (ho : m.objs[o]? = some ob) {a : AbsTable α D} (hs : ob.Stands m.nodes a) (hne : ob.eq ≠ .nil) (tidy : a.table.trie.Tidy) {p : TableOp α D}
    (hk : p.writes = true → p.key.toPrefix.WF) :
    (p.UCrash a → ((@opCode α D _ A _ F (some o) p).run m).1 = .panic) ∧
    (¬ p.UCrash a → (@opCode α D _ A _ F (some o) p).run m = (@opCode α D _ Comparable.toGoType _ F (some o) p).run m) := by
  obtain ⟨hi, hr, he⟩ := hs
  have hd := hr.deep
  have inv := hr.good.inv
  have hv : m.nodes ≤ m.nodes := fun _ _ h => h
  have cmpE : ∀ (d : D) {x}, x ∈ a.table.trie.entries → (@EqFn.call D A ob.eq x.2 (some d) = none ↔ a.cmp = .dflt) := by
    intro d x hx
    obtain ⟨y, hy⟩ := Option.isSome_iff_exists.mp (hr.good.some x hx)
    rw [hy, call_none hA hne, he]
  cases p with
  | get k => exact ⟨fun h => h.elim, fun _ => rfl⟩
  | insert k d =>
    have hk : k.code.WF := by rw [PrefixI.code_eq]; exact hk rfl
    have crash : Trie.InsCrash A nilComparator ⟨true, false, fun _ _ => false⟩ k.code (some d) a.table.trie ↔ TableOp.UCrash a (.insert k d) := by
      rw [Trie.insCrash_iff hA hk inv tidy, Trie.insert_isSome hk inv]
      show _ ↔ ¬ Trie.Keyed k.toPrefix _ ∧ _
      rw [← PrefixI.code_eq]
      simp
    constructor
    · intro hc
      refine run_bind_panic (tmutate_panic ho (run_bind_panic (Panics.run (v := m.nodes) ?_ hv) _)) _
      exact panics_new fun n hn => panics_insert hle (CmpLe.refl _) F (by omega) (fun _ _ h => by cases h) (crash.mpr hc) hn hi.1
    · intro hc
      refine run_bind_same (tmutate_same ho (run_bind_same (Cut.run_same (R := fun _ _ => True) (W := Nowhere) ?_ ?_) _)) _
      · exact .next fun n => cut_insert hle (CmpLe.refl _) n F _
      · exact wp_new fun n hn => calm_insert hle (CmpLe.refl _) F (by omega) (fun _ _ h => by cases h) (fun h => hc (crash.mp h)) hn (Or.inl rfl) hi.1
  | update k d =>
    have hk : k.code.WF := by rw [PrefixI.code_eq]; exact hk rfl
    have crash : Trie.InsCrash A (@EqFn.call D A ob.eq) ⟨false, true, a.table.cmp⟩ k.code (some d) a.table.trie ↔ TableOp.UCrash a (.update k d) := by
      rw [Trie.insCrash_iff hA hk inv tidy, Trie.insert_isSome hk inv]
      show _ ↔ Trie.Keyed k.toPrefix _ ∧ (Trie.Above k.toPrefix _ ∨ _)
      rw [← PrefixI.code_eq]
      simp only [and_true, Bool.false_eq_true, and_false, or_false, true_and]
      constructor
      · rintro (⟨h1, h2⟩ | ⟨x, hx, hxk, hc⟩)
        · exact ⟨h1, Or.inl h2⟩
        · exact ⟨⟨x, hx, hxk⟩, Or.inr ((cmpE d hx).mp hc)⟩
      · rintro ⟨h1, h2 | h2⟩
        · exact Or.inl ⟨h1, h2⟩
        · obtain ⟨x, hx, hxk⟩ := h1
          exact Or.inr ⟨x, hx, hxk, (cmpE d hx).mpr h2⟩
    have hEq := eq_entries hi hr hne d
    constructor
    · intro hc
      refine run_bind_panic (tmutate_panic ho (run_bind_panic (Panics.run (v := m.nodes) ?_ hv) _)) _
      exact panics_new fun n hn => panics_insert hle (call_le hle ob.eq) F (by omega) (fun x hx _ => hEq x hx) (crash.mpr hc) hn hi.1
    · intro hc
      refine run_bind_same (tmutate_same ho (run_bind_same (Cut.run_same (R := fun _ _ => True) (W := Nowhere) ?_ ?_) _)) _
      · exact .next fun n => cut_insert hle (call_le hle ob.eq) n F _
      · exact wp_new fun n hn => calm_insert hle (call_le hle ob.eq) F (by omega) (fun x hx _ => hEq x hx) (fun h => hc (crash.mp h)) hn (Or.inl rfl) hi.1
  | insertOrUpdate k d =>
    have hk : k.code.WF := by rw [PrefixI.code_eq]; exact hk rfl
    have crash : Trie.InsCrash A (@EqFn.call D A ob.eq) ⟨true, true, a.table.cmp⟩ k.code (some d) a.table.trie ↔ TableOp.UCrash a (.insertOrUpdate k d) := by
      rw [Trie.insCrash_iff hA hk inv tidy, Trie.insert_isSome hk inv]
      show _ ↔ Trie.Above k.toPrefix _ ∨ (Trie.Keyed k.toPrefix _ ∧ _)
      rw [← PrefixI.code_eq]
      simp only [and_true, true_and]
      constructor
      · rintro (⟨h1, h2⟩ | ⟨x, hx, hxk, hc⟩)
        · exact Or.inl h2
        · exact Or.inr ⟨⟨x, hx, hxk⟩, (cmpE d hx).mp hc⟩
      · rintro (h2 | ⟨⟨x, hx, hxk⟩, h2⟩)
        · exact Or.inl ⟨Classical.em _, h2⟩
        · exact Or.inr ⟨x, hx, hxk, (cmpE d hx).mpr h2⟩
    have hEq := eq_entries hi hr hne d
    constructor
    · intro hc
      refine run_bind_panic (tmutate_panic ho (run_bind_panic (Panics.run (v := m.nodes) ?_ hv) _)) _
      exact panics_new fun n hn => (panics_insert hle (call_le hle ob.eq) F (by omega) (fun x hx _ => hEq x hx) (crash.mpr hc) hn hi.1).bind
    · intro hc
      refine run_bind_same (tmutate_same ho (run_bind_same (Cut.run_same (R := fun _ _ => True) (W := Nowhere) ?_ ?_) _)) _
      · exact .next fun n => .bind (cut_insert hle (call_le hle ob.eq) n F _) fun _ => .refl _
      · refine wp_new fun n hn => wp_bind (wp_mono (fun _ h => h) ?_ (wp_insert_on hle (call_le hle ob.eq) (t := a.table.trie) (by omega) (fun x hx _ => hEq x hx) hn (Or.inl rfl) hi.1
          (calm_insert hle (call_le hle ob.eq) F (by omega) (fun x hx _ => hEq x hx) (fun h => hc (crash.mp h)) hn (Or.inl rfl) hi.1)))
        rintro ⟨x, err⟩ v' ⟨_, h⟩
        obtain ⟨t', ht'⟩ := insert_both (k := k.code) (d := some d) (ve := a.table.cmp) a.table.trie
        rw [ht'] at h
        obtain ⟨rfl, _⟩ := h
        exact trivial
  | getOrInsert k d =>
    have hk : k.code.WF := by rw [PrefixI.code_eq]; exact hk rfl
    have crash : Trie.GetCrash A k.code (some d) a.table.trie ↔ TableOp.UCrash a (.getOrInsert k d) := by
      rw [Trie.getCrash_iff hA hk inv tidy, PrefixI.code_eq]; exact Iff.rfl
    constructor
    · intro hc
      refine run_bind_panic (run_bind_panic (tmutate_panic ho (run_bind_panic (Panics.run (v := m.nodes) ?_ hv) _)) _) _
      exact panics_getOrInsert hle hk F (by omega) inv (crash.mpr hc) hi.1
    · intro hc
      refine run_bind_same (run_bind_same (tmutate_same ho (run_bind_same (Cut.run_same (R := fun _ _ => True) (W := Nowhere) ?_ ?_) _)) _) _
      · exact cut_getOrInsert hle _ _ F _
      · exact calm_getOrInsert hle hk F (by omega) inv (fun h => hc (crash.mp h)) hi.1
  | remove k =>
    have hk : k.code.WF := by rw [PrefixI.code_eq]; exact hk rfl
    have crash : Trie.DelCrash A k.code a.table.trie ↔ TableOp.UCrash a (.remove k) := by
      rw [Trie.delCrash_iff hA hk inv tidy, PrefixI.code_eq]; exact Iff.rfl
    constructor
    · intro hc
      refine run_bind_panic (tmutate_panic ho (run_bind_panic (Panics.run (v := m.nodes) ?_ hv) _)) _
      exact panics_del hle F (by omega) (crash.mpr hc) hi.1
    · intro hc
      refine run_bind_same (tmutate_same ho (run_bind_same (Cut.run_same (R := fun _ _ => True) (W := Nowhere) ?_ ?_) _)) _
      · exact cut_del hle _ F _
      · exact calm_del hle F (by omega) (fun h => hc (crash.mp h)) hi.1

end
end Addrs

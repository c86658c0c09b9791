import Verif.TableLib
import Verif.ConcLin
/-
  Mutable tables are linearizable as long as `Remove` does not overlap other kinds of writes.
-/
set_option linter.unusedSectionVars false
namespace Addrs
open GoWord LawfulGoWord

section
variable {α D σ : Type} [LawfulGoWord α] [Inhabited D]

theorem Trie.del_sublist (k : Prefix α) (t : Trie α D) {t' : Trie α D} (h : t.del k = some t') :
    t'.entries.Sublist t.entries := by
  induction t generalizing t' with
  | nil => cases h
  | node p e n hh act l r ihl ihr =>
    rw [del] at h
    split at h
    · simp only [entries]
      split at h
      · cases h
        exact ((List.sublist_append_right _ _).trans (List.sublist_append_right _ _))
      · split at h
        · cases h
          exact ((List.sublist_append_left _ _).trans (List.sublist_append_right _ _))
        · cases h
          simp only [Trie.mk, entries]
          exact (List.sublist_append_right _ _)
    · split at h
      · cases hr : r.del k with
        | none => rw [hr] at h; cases h
        | some r' =>
          rw [hr] at h
          simp only at h
          split at h
          · cases h
            simp only [entries]
            exact ((List.sublist_append_left _ _).trans (List.sublist_append_right _ _))
          · cases h
            simp only [Trie.mk, entries]
            exact (List.Sublist.refl _).append ((List.Sublist.refl _).append (ihr hr))
      · cases hl : l.del k with
        | none => rw [hl] at h; cases h
        | some l' =>
          rw [hl] at h
          simp only at h
          split at h
          · cases h
            simp only [entries]
            exact ((List.sublist_append_right _ _).trans (List.sublist_append_right _ _))
          · cases h
            simp only [Trie.mk, entries]
            exact (List.Sublist.refl _).append ((ihl hl).append (List.Sublist.refl _))
    · cases h
    · cases h

/-- what can be read from a table: its comparison function and its entries -/
def Table.contents (T : Table α D) : Option (D → D → Bool) × List (Prefix α × D) := (T.eq, T.listed)

theorem Table.remove_sublist (T : Table α D) (k : PrefixI α) : (T.remove k).1.listed.Sublist T.listed := by
  rw [listed_eq, listed_eq]
  unfold Table.remove
  cases h : T.trie.del k.code with
  | none => exact List.Sublist.refl _
  | some t => exact (Trie.del_sublist _ _ h).map _

theorem Table.remove_eq (T : Table α D) (k : PrefixI α) : (T.remove k).1.eq = T.eq := by
  unfold Table.remove
  cases h : T.trie.del k.code <;> rfl

/-- The table that the call is made on, and for a write whether it is `Remove`. -/
def TCall.role : TCall α D σ → Option (Nat × Option Bool)
  | op (some o) p => if p.writes then some (o, some p.removes) else some (o, none)
  | longest (some o) _ | num (some o) | freeze (some o) => some (o, none)
  | _ => none

variable [Comparable D]

/-- The call on a table with contents `a`, when nothing else is running, can return `z` and leave the
    contents `a'`.  A `Table` that is returned has the nodes in `v`. -/
def TCall.eff (c : TCall α D σ) (_ : List (Event D)) (v : View α D)
    (a : Option (D → D → Bool) × List (Prefix α × D)) (z : TVal α D σ)
    (a' : Option (D → D → Bool) × List (Prefix α × D)) : Prop :=
  ∃ T : Table α D, T.Reachable ∧ a = T.contents ∧
    match c with
    | op _ o => z = .result (T.step o).2 ∧ a' = (T.step o).1.contents
    | longest _ k => z = .match (T.longestMatch k) ∧ a' = a
    | num _ => z = .num T.numEntries ∧ a' = a
    | freeze _ => ∃ t, z = .table t ∧ t.Is v T ∧ a' = a
    | _ => False

/-- the contents of the object -/
def tableAbs (v : View α D) (ob : Obj D) (a : Option (D → D → Bool) × List (Prefix α × D)) : Prop :=
  ∃ T : Table α D, ob.Is v T ∧ T.Reachable ∧ a = T.contents

theorem tableLin {F : Nat} : LinOk (L := tableLib α D σ F) tobj TCall.olds TCall.spec TCall.role tableAbs TCall.eff
    (fun κ => !κ) (fun _ a b => a.1 = b.1 ∧ b.2.Sublist a.2) where
  abs_good := by
    rintro v ob ⟨⟨T, h1, h2⟩, _⟩
    exact ⟨_, T, h1, h2, rfl⟩
  abs_fun := by
    rintro v ob a a' ⟨T, h1, _, rfl⟩ ⟨T', h2, _, rfl⟩
    rw [h1.functional h2]
  abs_mono := by
    rintro v v' ob a le ⟨T, h1, h2, h3⟩
    exact ⟨T, h1.mono le, h2, h3⟩
  eff_mono := by
    rintro c tr v v' a z a' le ⟨T, h1, h2, h3⟩
    refine ⟨T, h1, h2, ?_⟩
    cases c with
    | freeze h =>
      obtain ⟨t, h4, h5, h6⟩ := h3
      exact ⟨t, h4, h5.mono le, h6⟩
    | _ => exact h3
  none_ := by
    intro c tr z v h hr o x y hm
    cases c with
    | new_ => obtain ⟨_, rfl, _⟩ := h; simp at hm
    | newCustom cmp => obtain ⟨_, rfl, _⟩ := h; simp at hm
    | op hd p =>
      cases hd with
      | some o => simp only [TCall.role] at hr; split at hr <;> cases hr
      | none =>
        simp only [TCall.spec, OpSpec] at h
        split at h
        · obtain ⟨_, _, h, _⟩ := h; cases h
        · obtain ⟨rfl, _⟩ := h; cases hm
    | longest hd k => cases hd with
      | some o => cases hr
      | none => obtain ⟨rfl, _⟩ := h; cases hm
    | num hd => cases hd with
      | some o => cases hr
      | none => obtain ⟨rfl, _⟩ := h; cases hm
    | freeze hd => cases hd with
      | some o => cases hr
      | none => obtain ⟨rfl, _⟩ := h; cases hm
    | thaw t => obtain ⟨_, _, rfl, _⟩ := h; simp at hm
    | xget t k => obtain ⟨rfl, _⟩ := h; cases hm
    | xlongest t k => obtain ⟨rfl, _⟩ := h; cases hm
    | xnum t => obtain ⟨rfl, _⟩ := h; cases hm
    | walk t cb s => obtain ⟨rfl, _⟩ := h; cases hm
    | diff t u cb s => obtain ⟨_, _, _, rfl, _⟩ := h; cases hm
    | map t f s => obtain ⟨_, _, _, _, _, rfl, _⟩ := h; cases hm
    | aggregate t => obtain ⟨_, _, _, _, _, rfl, _⟩ := h; cases hm
  read := by
    intro c tr z v o h hr
    have key : ∀ {f : Table α D → TVal α D σ}, ReadSpec (some o) f tr z v →
        (∀ T : Table α D, T.Reachable → z = f T → TCall.eff c tr v T.contents z T.contents) →
        (∀ o' x y, (.swap o' x y : Event D) ∉ tr) ∧
        ∃ pre ob post a, tr = pre ++ .load o ob :: post ∧ tableAbs v ob a ∧ TCall.eff c tr v a z a := by
      rintro f ⟨ob, T, rfl, h1, h2, h3⟩ he
      exact ⟨by simp, [], ob, [], T.contents, rfl, ⟨T, h1, h2, rfl⟩, he T h2 h3⟩
    cases c with
    | op hd p =>
      cases hd with
      | none => cases hr
      | some o' =>
        simp only [TCall.role] at hr
        split at hr
        · cases hr
        · next hw =>
          cases hr
          simp only [TCall.spec, OpSpec] at h
          rw [if_neg hw] at h
          refine key h ?_
          intro T h1 h2
          refine ⟨T, h1, rfl, h2, ?_⟩
          cases p with
          | get k => rfl
          | _ => exact (hw rfl).elim
    | longest hd k => cases hd with
      | none => cases hr
      | some o' => cases hr; exact key h fun T h1 h2 => ⟨T, h1, rfl, h2, rfl⟩
    | num hd => cases hd with
      | none => cases hr
      | some o' => cases hr; exact key h fun T h1 h2 => ⟨T, h1, rfl, h2, rfl⟩
    | freeze hd => cases hd with
      | none => cases hr
      | some o' =>
        cases hr
        obtain ⟨ob, rfl, rfl, T, h1, h2⟩ := h
        exact ⟨by simp, [], ob, [], T.contents, rfl, ⟨T, h1, h2, rfl⟩, T, h2, rfl, ob, rfl, h1, rfl⟩
    | _ => cases hr
  write := by
    intro c tr z v o κ h hr
    cases c with
    | op hd p =>
      cases hd with
      | none => cases hr
      | some o' =>
        simp only [TCall.role] at hr
        split at hr
        · next hw =>
          cases hr
          simp only [TCall.spec, OpSpec] at h
          rw [if_pos hw] at h
          obtain ⟨i, r, h1, rfl, ob1, ob2, T2, g1, heq, i2, r2, r3, rfl, h⟩ := h
          cases h1
          have hrs : ∀ {ob : Obj D}, ob.Is v (T2.step p).1 → tobj v ob → tableAbs v ob (T2.step p).1.contents := by
            rintro ob hi ⟨⟨T', h1, h2⟩, _⟩
            cases hi.functional h1
            exact ⟨_, hi, h2, rfl⟩
          rcases h with ⟨h1, h2⟩ | ⟨new, h1, h2, h3, _⟩
          · refine ⟨ob1, [], ob2, [], T2.contents, (T2.step p).1.contents, by simp, ⟨T2, i2, r2, rfl⟩,
              ⟨T2, r2, rfl, rfl, rfl⟩, Or.inl ⟨h1, ?_⟩⟩
            rcases h2 with h2 | ⟨h2, h3⟩
            · left; rw [h2]
            · right; exact ⟨by rw [h2]; rfl, hrs h3.1 g1, ob2, by simp, Or.inr ⟨h2, h3.2⟩⟩
          · refine ⟨ob1, [], ob2, [], T2.contents, (T2.step p).1.contents, by simp, ⟨T2, i2, r2, rfl⟩,
              ⟨T2, r2, rfl, rfl, rfl⟩, Or.inr ⟨new, h1, h2, ?_⟩⟩
            refine ⟨_, ?_, r3, rfl⟩
            rw [heq]; exact h3
        · cases hr
    | longest hd k => cases hd <;> cases hr
    | num hd => cases hd <;> cases hr
    | freeze hd => cases hd <;> cases hr
    | _ => cases hr
  fresh := by
    intro c o κ v tr q hr hf h
    cases c with
    | op hd p =>
      obtain ⟨ob, h1, h2 | ⟨h2, _⟩⟩ := h
      · exact ⟨ob, h1, h2⟩
      · cases hd with
        | none => cases hr
        | some o' =>
          simp only [TCall.role] at hr
          split at hr
          · cases hr; rw [h2] at hf; cases hf
          · cases hr
    | _ => exact h.elim
  le_refl _ a := ⟨rfl, List.Sublist.refl _⟩
  le_trans h h' := ⟨h.1.trans h'.1, h'.2.trans h.2⟩
  le_antisymm := by
    rintro κ ⟨a1, a2⟩ ⟨b1, b2⟩ _ ⟨rfl, h1⟩ ⟨_, h2⟩
    simp only at h1 h2 ⊢
    rw [h2.eq_of_length_le h1.length_le]
  le_eff := by
    rintro c tr v a z a' o κ hr hf ⟨T, h1, rfl, h2⟩
    have hf : κ = true := by simpa using hf
    subst hf
    cases c with
    | op hd p =>
      cases hd with
      | none => cases hr
      | some o' =>
        cases p with
        | remove k =>
          obtain ⟨_, rfl⟩ := h2
          exact ⟨(T.remove_eq k).symm, T.remove_sublist k⟩
        | _ => simp [TCall.role, TableOp.writes, TableOp.removes] at hr
    | longest hd k => cases hd <;> cases hr
    | num hd => cases hd <;> cases hr
    | freeze hd => cases hd <;> cases hr
    | _ => cases hr

end
end Addrs

import Verif.SetLib
import Verif.ConcLin
import Verif.PropSets
/-
  Mutable sets are linearizable as long as `Insert` does not overlap `Remove`.
-/
set_option linter.unusedSectionVars false
namespace Addrs
open GoWord LawfulGoWord

section
variable {α σ : Type} [HeapFamily α]

/-- The set that the call is made on, and for a write whether it is `Remove`. -/
def SCall.role : SCall α σ → Option (Nat × Option Bool)
  | insert (some o) _ _ => some (o, some false)
  | remove (some o) _ _ => some (o, some true)
  | freeze (some o) | size (.obj (some o)) | isEmpty (.obj (some o)) | contains (.obj (some o)) _
  | equal_ (some o) _ _ | union (.obj (some o)) _ | intersection (.obj (some o)) _
  | difference (.obj (some o)) _ => some (o, none)
  | _ => none

/-- The argument had the members `B` when the call read it (`tr` are the accesses of the call). -/
def SetArg.Has (v : View α Empty) (arg : SetArg α) (tr : List (Event Empty)) (B : α → Prop) : Prop :=
  ∃ evs A, (∀ e ∈ evs, e ∈ tr) ∧ arg.Is v evs A ∧ A.Reachable ∧ B = A.has

/-- the result is a `Set` with the members `B` -/
def SVal.Has (v : View α Empty) (z : SVal α σ) (B : α → Prop) : Prop :=
  ∃ t S, z = .set t ∧ t.Holds v S ∧ B = S.has

/-- The call on a set with the members `a`, when nothing else is running, can return `z` and leave the
    members `a'`. -/
def SCall.eff (c : SCall α σ) (tr : List (Event Empty)) (v : View α Empty) (a : α → Prop) (z : SVal α σ)
    (a' : α → Prop) : Prop :=
  match c with
  | insert _ arg _ => ∃ B, arg.Has v tr B ∧ z = .unit ∧ a' = fun x => a x ∨ B x
  | remove _ arg _ => ∃ B, arg.Has v tr B ∧ z = .unit ∧ a' = fun x => a x ∧ ¬ B x
  | freeze _ => z.Has v a ∧ a' = a
  | size _ => (∃ S : IPSet α, S.Reachable ∧ a = S.has ∧ z = .size S.size) ∧ a' = a
  | isEmpty _ => (∃ b, z = .bool b ∧ (b = true ↔ ∀ x, ¬ a x)) ∧ a' = a
  | contains _ arg => (∃ B b, arg.Has v tr B ∧ z = .bool b ∧ (b = true ↔ ∀ x, B x → a x)) ∧ a' = a
  | equal_ _ h _ => (∃ S A : IPSet α, S.Reachable ∧ A.Reachable ∧ a = S.has ∧ SetArg.Has v (.obj h) tr A.has ∧
      z = .bool (S.equal A)) ∧ a' = a
  | union _ arg => (∃ B, arg.Has v tr B ∧ z.Has v fun x => a x ∨ B x) ∧ a' = a
  | intersection _ arg => (∃ B, arg.Has v tr B ∧ z.Has v fun x => a x ∧ B x) ∧ a' = a
  | difference _ arg => (∃ B, arg.Has v tr B ∧ z.Has v fun x => a x ∧ ¬ B x) ∧ a' = a
  | _ => False

/-- the members of the object -/
def setAbs (v : View α Empty) (ob : Obj Empty) (a : α → Prop) : Prop :=
  ∃ S : IPSet α, ob.Holds v S ∧ a = S.has

theorem SetArg.Has.mono {v v' : View α Empty} (le : v ≤ v') {arg : SetArg α} {tr : List (Event Empty)} {B : α → Prop}
    (h : arg.Has v tr B) : arg.Has v' tr B := by
  obtain ⟨evs, A, h1, h2, h3⟩ := h
  exact ⟨evs, A, h1, h2.mono le, h3⟩

theorem SVal.Has.mono {v v' : View α Empty} (le : v ≤ v') {z : SVal α σ} {B : α → Prop} (h : z.Has v B) :
    z.Has v' B := by
  obtain ⟨t, S, h1, h2, h3⟩ := h
  exact ⟨t, S, h1, h2.mono le, h3⟩

theorem IPSet.has_union {S A : IPSet α} (hS : S.Reachable) (hA : A.Reachable) :
    (S.union (.set A)).has = fun x => S.has x ∨ A.has x :=
  funext fun x => propext (C09_union S (.set A) hS hA x)

theorem IPSet.has_intersection {S A : IPSet α} (hS : S.Reachable) (hA : A.Reachable) :
    (S.intersection (.set A)).has = fun x => S.has x ∧ A.has x :=
  funext fun x => propext (C10_intersection S (.set A) hS hA x)

theorem IPSet.has_difference {S A : IPSet α} (hS : S.Reachable) (hA : A.Reachable) :
    (S.difference (.set A)).has = fun x => S.has x ∧ ¬ A.has x :=
  funext fun x => propext (C11_difference S (.set A) hS hA x)

/-- a write and what it computes -/
theorem SWriteSpec.lin {o : Nat} {arg : SetArg α} {f : IPSet α → SetI α → IPSet α} {fr : OldRoots α Empty}
    {tr : List (Event Empty)} {v : View α Empty} (h : SWriteSpec o arg f fr tr v) :
    ∃ ob1 pre ob2 post a2 a' S2 A, (∀ o' x y, (.swap o' x y : Event Empty) ∉ pre ++ post) ∧ setAbs v ob2 a2 ∧
      S2.Reachable ∧ A.Reachable ∧ arg.Has v tr A.has ∧ a2 = S2.has ∧ a' = (f S2 (.set A)).has ∧
      ((tr = .load o ob1 :: pre ++ .load o ob2 :: post ∧ setAbs v ob1 a' ∧ fr v [.load o ob2] o ob1.trie) ∨
        ∃ new, tr = (.load o ob1 :: pre ++ .load o ob2 :: post) ++ [.swap o ob1.trie new] ∧ new ≠ ob1.trie ∧
          setAbs v { ob1 with trie := new } a') := by
  obtain ⟨ob1, ob2, S2, A, evs, pre, post, h1, h2, h3, h4, h5⟩ := h
  have hsub : ∀ e ∈ evs, e ∈ tr := by
    intro e he
    rcases h5 with ⟨rfl, _⟩ | ⟨new, rfl, _⟩ <;> rcases h4 with ⟨rfl, rfl⟩ | ⟨rfl, rfl⟩ <;> simp [he]
  have hns := h3.no_swap
  refine ⟨ob1, pre, ob2, post, S2.has, (f S2 (.set A)).has, S2, A, ?_, ⟨S2, h2, rfl⟩, h2.2.1, h3.reachable,
    ⟨evs, A, hsub, h3, h3.reachable, rfl⟩, rfl, rfl, ?_⟩
  · intro o' x y
    rcases h4 with ⟨rfl, rfl⟩ | ⟨rfl, rfl⟩ <;> simpa using hns o' x y
  · rcases h5 with ⟨h5, h6, h7⟩ | ⟨new, h5, h6, h7⟩
    · exact Or.inl ⟨h5, ⟨_, h6, rfl⟩, h7⟩
    · obtain ⟨S1, h8⟩ := h1
      exact Or.inr ⟨new, h5, h6, _, ⟨h7.1, h7.2.1, h8.2.2⟩, rfl⟩

theorem SRead.lin {o : Nat} {P : IPSet α → Prop} {tr : List (Event Empty)} {v : View α Empty}
    (h : SRead (.obj (some o)) P tr v) : (∀ o' x y, (.swap o' x y : Event Empty) ∉ tr) ∧
    ∃ pre ob post S, tr = pre ++ .load o ob :: post ∧ setAbs v ob S.has ∧ S.Reachable ∧ P S := by
  obtain ⟨S, h1, h2⟩ := h
  have h3 := h1.no_swap
  obtain ⟨ob, rfl, h4⟩ := h1
  exact ⟨h3, [], ob, [], S, rfl, ⟨S, h4, rfl⟩, h4.2.1, h2⟩

theorem SRead2.lin {o : Nat} {arg : SetArg α} {P : IPSet α → IPSet α → Prop} {tr : List (Event Empty)}
    {v : View α Empty} (h : SRead2 (.obj (some o)) arg P tr v) : (∀ o' x y, (.swap o' x y : Event Empty) ∉ tr) ∧
    ∃ pre ob post S A, tr = pre ++ .load o ob :: post ∧ setAbs v ob S.has ∧ S.Reachable ∧ A.Reachable ∧
      arg.Has v tr A.has ∧ P S A := by
  obtain ⟨S, A, tr1, tr2, h1, h2, h3, h4⟩ := h
  have n2 := h2.no_swap
  obtain ⟨ob, rfl, h5⟩ := h1
  have hsub : ∀ e ∈ tr2, e ∈ tr := by
    intro e he
    rcases h3 with rfl | rfl <;> simp [he]
  refine ⟨?_, ?_⟩
  · intro o' x y hm
    rcases h3 with rfl | rfl <;> simp at hm <;> exact n2 _ _ _ hm
  · rcases h3 with rfl | rfl
    · exact ⟨[], ob, tr2, S, A, rfl, ⟨S, h5, rfl⟩, h5.2.1, h2.reachable, ⟨tr2, A, hsub, h2, h2.reachable, rfl⟩, h4⟩
    · exact ⟨tr2, ob, [], S, A, rfl, ⟨S, h5, rfl⟩, h5.2.1, h2.reachable, ⟨tr2, A, hsub, h2, h2.reachable, rfl⟩, h4⟩

theorem SRead.none_swap {r : SetRecv} {P : IPSet α → Prop} {tr : List (Event Empty)} {v : View α Empty}
    (h : SRead r P tr v) : ∀ o' x y, (.swap o' x y : Event Empty) ∉ tr := by
  obtain ⟨S, h1, h2⟩ := h
  exact h1.no_swap

theorem SRead2.none_swap {r : SetRecv} {arg : SetArg α} {P : IPSet α → IPSet α → Prop} {tr : List (Event Empty)}
    {v : View α Empty} (h : SRead2 r arg P tr v) : ∀ o' x y, (.swap o' x y : Event Empty) ∉ tr := by
  obtain ⟨S, A, tr1, tr2, h1, h2, h3, h4⟩ := h
  have n1 := h1.no_swap
  have n2 := h2.no_swap
  intro o' x y hm
  rcases h3 with rfl | rfl <;> rcases List.mem_append.mp hm with hm | hm <;>
    first | exact n1 _ _ _ hm | exact n2 _ _ _ hm

theorem setLin {F : Nat} : LinOk (L := setLib α σ F) sval SCall.olds SCall.spec SCall.role setAbs SCall.eff
    (fun _ => false) (fun κ a b => if κ then ∀ x, b x → a x else ∀ x, a x → b x) where
  abs_good := by
    rintro v ob ⟨S, h⟩
    exact ⟨_, S, h, rfl⟩
  abs_fun := by
    rintro v ob a a' ⟨S, h1, rfl⟩ ⟨S', h2, rfl⟩
    rw [h1.functional h2]
  abs_mono := by
    rintro v v' ob a le ⟨S, h1, h2⟩
    exact ⟨S, h1.mono le, h2⟩
  eff_mono := by
    intro c tr v v' a z a' le h
    cases c with
    | insert hd arg l => obtain ⟨B, h1, h2⟩ := h; exact ⟨B, h1.mono le, h2⟩
    | remove hd arg l => obtain ⟨B, h1, h2⟩ := h; exact ⟨B, h1.mono le, h2⟩
    | freeze hd => exact ⟨h.1.mono le, h.2⟩
    | contains r arg => obtain ⟨⟨B, b, h1, h2⟩, h3⟩ := h; exact ⟨⟨B, b, h1.mono le, h2⟩, h3⟩
    | equal_ hd hd' l => obtain ⟨⟨S, A, h1, h2, h3, h4, h5⟩, h6⟩ := h; exact ⟨⟨S, A, h1, h2, h3, h4.mono le, h5⟩, h6⟩
    | union r arg => obtain ⟨⟨B, h1, h2⟩, h3⟩ := h; exact ⟨⟨B, h1.mono le, h2.mono le⟩, h3⟩
    | intersection r arg => obtain ⟨⟨B, h1, h2⟩, h3⟩ := h; exact ⟨⟨B, h1.mono le, h2.mono le⟩, h3⟩
    | difference r arg => obtain ⟨⟨B, h1, h2⟩, h3⟩ := h; exact ⟨⟨B, h1.mono le, h2.mono le⟩, h3⟩
    | _ => exact h
  none_ := by
    intro c tr z v h hr o x y hm
    cases c with
    | new_ => obtain ⟨_, rfl, _⟩ := h; simp at hm
    | freeze hd => exact SRead.none_swap h _ _ _ hm
    | thaw t => obtain ⟨_, _, rfl, _⟩ := h; simp at hm
    | insert hd arg l => obtain ⟨o, rfl, _⟩ := h; cases hr
    | remove hd arg l => obtain ⟨o, rfl, _⟩ := h; cases hr
    | size r => exact SRead.none_swap h _ _ _ hm
    | isEmpty r => exact SRead.none_swap h _ _ _ hm
    | contains r arg => exact SRead2.none_swap h _ _ _ hm
    | equal_ hd hd' l => exact SRead2.none_swap h _ _ _ hm
    | equal t u => exact SRead2.none_swap h _ _ _ hm
    | union r arg => exact SRead2.none_swap h _ _ _ hm
    | intersection r arg =>
      rcases h with ⟨_, rfl, _⟩ | h
      · cases hm
      · exact SRead2.none_swap h _ _ _ hm
    | difference r arg =>
      rcases h with ⟨_, rfl, _⟩ | h
      · cases hm
      · exact SRead2.none_swap h _ _ _ hm
    | walk t cb s => exact SRead.none_swap h _ _ _ hm
    | find t arg n => exact SRead2.none_swap h _ _ _ hm
  read := by
    intro c tr z v o h hr
    cases c with
    | new_ => cases hr
    | thaw t => cases hr
    | insert hd arg l => cases hd <;> cases hr
    | remove hd arg l => cases hd <;> cases hr
    | freeze hd =>
      cases hd with
      | none => cases hr
      | some o' =>
        cases hr
        obtain ⟨ns, pre, ob, post, S, h1, h2, h3, t, h4, h5⟩ := SRead.lin h
        exact ⟨ns, pre, ob, post, _, h1, h2, ⟨t, S, h4, h5, rfl⟩, rfl⟩
    | size r =>
      rcases r with (_ | o') | t <;> cases hr
      obtain ⟨ns, pre, ob, post, S, h1, h2, h3, h4⟩ := SRead.lin h
      exact ⟨ns, pre, ob, post, _, h1, h2, ⟨S, h3, rfl, h4⟩, rfl⟩
    | isEmpty r =>
      rcases r with (_ | o') | t <;> cases hr
      obtain ⟨ns, pre, ob, post, S, h1, h2, h3, h4⟩ := SRead.lin h
      exact ⟨ns, pre, ob, post, _, h1, h2, ⟨_, h4, C12_isEmpty S h3⟩, rfl⟩
    | contains r arg =>
      rcases r with (_ | o') | t <;> cases hr
      obtain ⟨ns, pre, ob, post, S, A, h1, h2, h3, h4, h5, h6⟩ := SRead2.lin h
      exact ⟨ns, pre, ob, post, _, h1, h2, ⟨_, _, h5, h6, C12_contains S (.set A) h3 h4⟩, rfl⟩
    | equal_ hd hd' l =>
      cases hd with
      | none => cases hr
      | some o' =>
        cases hr
        obtain ⟨ns, pre, ob, post, S, A, h1, h2, h3, h4, h5, h6⟩ := SRead2.lin h
        exact ⟨ns, pre, ob, post, _, h1, h2, ⟨S, A, h3, h4, rfl, h5, h6⟩, rfl⟩
    | equal t u => cases hr
    | union r arg =>
      rcases r with (_ | o') | t <;> cases hr
      obtain ⟨ns, pre, ob, post, S, A, h1, h2, h3, h4, h5, t, h6, h7⟩ := SRead2.lin h
      exact ⟨ns, pre, ob, post, _, h1, h2, ⟨_, h5, t, _, h6, h7, (IPSet.has_union h3 h4).symm⟩, rfl⟩
    | intersection r arg =>
      rcases r with (_ | o') | t <;> cases hr
      rcases h with ⟨h, _⟩ | h
      · cases h
      obtain ⟨ns, pre, ob, post, S, A, h1, h2, h3, h4, h5, t, h6, h7⟩ := SRead2.lin h
      exact ⟨ns, pre, ob, post, _, h1, h2, ⟨_, h5, t, _, h6, h7, (IPSet.has_intersection h3 h4).symm⟩, rfl⟩
    | difference r arg =>
      rcases r with (_ | o') | t <;> cases hr
      rcases h with ⟨h, _⟩ | h
      · cases h
      obtain ⟨ns, pre, ob, post, S, A, h1, h2, h3, h4, h5, t, h6, h7⟩ := SRead2.lin h
      exact ⟨ns, pre, ob, post, _, h1, h2, ⟨_, h5, t, _, h6, h7, (IPSet.has_difference h3 h4).symm⟩, rfl⟩
    | walk t cb s => cases hr
    | find t arg n => cases hr
  write := by
    intro c tr z v o κ h hr
    cases c with
    | insert hd arg l =>
      obtain ⟨o', rfl, h1, h⟩ := h
      cases hr
      obtain ⟨ob1, pre, ob2, post, a2, a', S2, A, h2, h3, h4, h5, h6, h7, h8, h9⟩ := h.lin
      refine ⟨ob1, pre, ob2, post, a2, a', h2, h3, ⟨_, h6, h1, ?_⟩, h9.imp (fun h => ⟨h.1, Or.inr ⟨rfl, h.2.1, h.2.2⟩⟩) id⟩
      rw [h8, h7]; exact IPSet.has_union h4 h5
    | remove hd arg l =>
      obtain ⟨o', rfl, h1, h⟩ := h
      cases hr
      obtain ⟨ob1, pre, ob2, post, a2, a', S2, A, h2, h3, h4, h5, h6, h7, h8, h9⟩ := h.lin
      refine ⟨ob1, pre, ob2, post, a2, a', h2, h3, ⟨_, h6, h1, ?_⟩, h9.imp (fun h => ⟨h.1, Or.inr ⟨rfl, h.2.1, h.2.2⟩⟩) id⟩
      rw [h8, h7]; exact IPSet.has_difference h4 h5
    | freeze hd => cases hd <;> cases hr
    | size r => rcases r with (_ | o') | t <;> cases hr
    | isEmpty r => rcases r with (_ | o') | t <;> cases hr
    | contains r arg => rcases r with (_ | o') | t <;> cases hr
    | equal_ hd hd' l => cases hd <;> cases hr
    | union r arg => rcases r with (_ | o') | t <;> cases hr
    | intersection r arg => rcases r with (_ | o') | t <;> cases hr
    | difference r arg => rcases r with (_ | o') | t <;> cases hr
    | _ => cases hr
  fresh := by
    intro c o κ _ _ _ _ h
    cases h
  le_refl κ a := by
    cases κ
    · exact fun _ h => h
    · exact fun _ h => h
  le_trans := by
    intro κ a b c h h'
    cases κ
    · exact fun x hx => h' x (h x hx)
    · exact fun x hx => h x (h' x hx)
  le_antisymm := by
    intro κ a b _ h h'
    cases κ
    · exact funext fun x => propext ⟨h x, h' x⟩
    · exact funext fun x => propext ⟨h' x, h x⟩
  le_eff := by
    intro c tr v a z a' o κ hr _ h
    cases c with
    | insert hd arg l =>
      cases hd <;> cases hr
      obtain ⟨B, _, _, rfl⟩ := h
      exact fun x hx => Or.inl hx
    | remove hd arg l =>
      cases hd <;> cases hr
      obtain ⟨B, _, _, rfl⟩ := h
      exact fun x hx => hx.1
    | freeze hd => cases hd <;> cases hr
    | size r => rcases r with (_ | o') | t <;> cases hr
    | isEmpty r => rcases r with (_ | o') | t <;> cases hr
    | contains r arg => rcases r with (_ | o') | t <;> cases hr
    | equal_ hd hd' l => cases hd <;> cases hr
    | union r arg => rcases r with (_ | o') | t <;> cases hr
    | intersection r arg => rcases r with (_ | o') | t <;> cases hr
    | difference r arg => rcases r with (_ | o') | t <;> cases hr
    | _ => cases hr

end
end Addrs

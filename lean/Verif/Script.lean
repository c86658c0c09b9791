import Verif.PropReenterMap
/-
  Programs whose callbacks are programs: the language, what it does on the heap, and what it should do.
-/
set_option linter.unusedSectionVars false
namespace Addrs
open GoWord LawfulGoWord Heap Prog

/-- the callbacks of `Diff` -/
inductive DiffKind where
  | changed
  | left
  | right
  | unchanged
deriving DecidableEq

/-- A program that uses tables and returns a `β`.  What it does between the calls is a function of what it has
    seen.  `h` is a variable of type `Table_`, `t` and `u` number the `Table` values that the program has got so
    far (0 is `Table{}`); where a call yields one more `Table`, its number is the second argument of `k`.  The
    callbacks of `Walk`, `Diff` and `Map` are programs again, which use the same variables and values; `given`
    says which callbacks of `Diff` are not nil. -/
inductive TScript (α D : Type) : Type → Type 1
  | ret {β : Type} (b : β) : TScript α D β
  | panic {β : Type} : TScript α D β
  | call {β τ : Type} (c : TCmd α D τ) (k : TSeen α D τ → Nat → TScript α D β) : TScript α D β
  | walk {β τ : Type} (t : Nat) (cb : Prefix α → D → τ → TScript α D (τ × Bool)) (s : τ) (k : τ × Bool → TScript α D β) : TScript α D β
  | diff {β τ : Type} (t u : Nat) (given : DiffKind → Bool) (cb : DiffKind → Prefix α → D → D → τ → TScript α D (τ × Bool)) (s : τ)
      (k : τ × Bool → TScript α D β) : TScript α D β
  | map {β τ : Type} (t : Nat) (f : Prefix α → D → τ → TScript α D (D × τ)) (s : τ) (k : τ → Nat → TScript α D β) : TScript α D β

/-! ### on the heap -/
section
variable {α D : Type} [GoWord α] [GoType D] [Inhabited D]

/-- a callback of a walk: its state is that of the program and the `Table`s that the program has got -/
def withRegs {β τ : Type} (P : Prog α D ((τ × Bool) × β)) : Prog α D ((τ × β) × Bool) :=
  P >>= fun y => pure ((y.1.1, y.2), y.1.2)

/-- The program on the heap; `r` are the `Table`s it has got. -/
def TScript.code (F : Nat) {β : Type} : TScript α D β → List (Obj D) → Prog α D (β × List (Obj D))
  | .ret b, r => pure (b, r)
  | .panic, _ => Prog.panic
  | .call c k, r => (c.call r).code F >>= fun x => (k x.seen r.length).code F (r ++ x.outs)
  | .walk t cb s k, r =>
    xWalkR F (r.getD t .zero) (fun p d x => withRegs ((cb p d x.1).code F x.2)) (s, r) >>= fun x =>
      (k (x.1.1, x.2)).code F x.1.2
  | .diff t u given cb s k, r =>
    xDiffR F (r.getD t .zero) (r.getD u .zero)
      { changed := if given .changed then some fun p d e x => withRegs ((cb .changed p d e x.1).code F x.2) else none
        left := if given .left then some fun p d x => withRegs ((cb .left p d d x.1).code F x.2) else none
        right := if given .right then some fun p d x => withRegs ((cb .right p d d x.1).code F x.2) else none
        unchanged := if given .unchanged then some fun p d x => withRegs ((cb .unchanged p d d x.1).code F x.2) else none }
      (s, r) >>= fun x => (k (x.1.1, x.2)).code F x.1.2
  | .map t f s k, r =>
    xMapR F (r.getD t .zero) (some fun p d x => (f p d x.1).code F x.2 >>= fun y => pure (y.1.1, (y.1.2, y.2))) (s, r) >>= fun x =>
      (k x.2.1 x.2.2.length).code F (x.2.2 ++ [x.1])

end

/-! ### as it should be -/
section
variable {W β γ σ : Type}

/-- What calls a callback for the elements of a list, one after the other until it returns false, can do: `R x s w
    o w'` says that the callback for `x`, given the state `s` in the world `w`, can return `o` (`none`: it panics)
    in the world `w'`. -/
inductive Loop (R : β → σ → W → Option (σ × Bool) → W → Prop) : List β → σ → W → Option (σ × Bool) → W → Prop
  | nil {s : σ} {w : W} : Loop R [] s w (some (s, true)) w
  | next {x : β} {xs : List β} {s s' : σ} {w w1 w' : W} {o : Option (σ × Bool)} (h : R x s w (some (s', true)) w1)
      (rest : Loop R xs s' w1 o w') : Loop R (x :: xs) s w o w'
  | stop {x : β} {xs : List β} {s s' : σ} {w w' : W} (h : R x s w (some (s', false)) w') : Loop R (x :: xs) s w (some (s', false)) w'
  | panic {x : β} {xs : List β} {s : σ} {w w' : W} (h : R x s w none w') : Loop R (x :: xs) s w none w'

/-- The same without stopping; the results are collected. -/
inductive Collect (R : β → σ → W → Option (γ × σ) → W → Prop) : List β → σ → W → Option (List γ × σ) → W → Prop
  | nil {s : σ} {w : W} : Collect R [] s w (some ([], s)) w
  | next {x : β} {xs : List β} {s s' : σ} {w w1 w' : W} {y : γ} {o : Option (List γ × σ)} (h : R x s w (some (y, s')) w1)
      (rest : Collect R xs s' w1 o w') : Collect R (x :: xs) s w (o.map fun z => (y :: z.1, z.2)) w'
  | panic {x : β} {xs : List β} {s : σ} {w w' : W} (h : R x s w none w') : Collect R (x :: xs) s w none w'

/-- all calls of such a loop satisfy `P` -/
def LoopFine (P : β → σ → W → Prop) (R : β → σ → W → Option (σ × Bool) → W → Prop) : List β → σ → W → Prop
  | [], _, _ => True
  | x :: xs, s, w => P x s w ∧ ∀ s' w', R x s w (some (s', true)) w' → LoopFine P R xs s' w'

/-- the same for `Collect` -/
def CollectFine (P : β → σ → W → Prop) (R : β → σ → W → Option (γ × σ) → W → Prop) : List β → σ → W → Prop
  | [], _, _ => True
  | x :: xs, s, w => P x s w ∧ ∀ y s' w', R x s w (some (y, s')) w' → CollectFine P R xs s' w'

end

section
variable {α D : Type} [LawfulGoWord α] [Inhabited D] [Comparable D]

/-- which callback `Diff` calls for a change, and with what -/
def Change.kind (e : D → D → Bool) : Change α D → DiffKind × Prefix α × D × D
  | .onlyLeft p v => (.left, p, v, v)
  | .onlyRight p v => (.right, p, v, v)
  | .both p v _ w => if e v w then (.unchanged, p, v, v) else (.changed, p, v, w)

/-- a nil callback counts as returning true -/
def orTrue {W τ : Type} (given : Bool) (R : τ → W → Option (τ × Bool) → W → Prop) (s : τ) (w : W) (o : Option (τ × Bool)) (w' : W) : Prop :=
  if given then R s w o w' else o = some (s, true) ∧ w' = w

/-- What the program can return (`none`: it panics), and what the world can be afterwards, if `Table_` is a variable
    that holds a map and `Table` is a map. -/
def TScript.Explained {β : Type} : TScript α D β → SWorld (MTable α D) → Option β → SWorld (MTable α D) → Prop
  | .ret b, w, o, w' => o = some b ∧ w' = w
  | .panic, w, o, w' => o = none ∧ w' = w
  | .call c k, w, o, w' => ∃ x w1, c.Explained w x w1 ∧ (k x w.vals.length).Explained w1 o w'
  | .walk t cb s k, w, o, w' =>
    ∃ L x w1, (w.val t).entries.Listed L ∧ Loop (fun y s => (cb y.1 y.2 s).Explained) L s w x w1 ∧
      match x with
      | some z => (k z).Explained w1 o w'
      | none => o = none ∧ w' = w1
  | .diff t u given cb s k, w, o, w' =>
    ∃ C x w1, (w.val t).entries.Differ (w.val u).entries C ∧
      Loop (fun y => orTrue (given y.1) fun s => (cb y.1 y.2.1 y.2.2.1 y.2.2.2 s).Explained) (C.map (Change.kind (w.val t).same)) s w x w1 ∧
      match x with
      | some z => (k z).Explained w1 o w'
      | none => o = none ∧ w' = w1
  | .map t f s k, w, o, w' =>
    ∃ N x w1, (w.val t).entries.Calls N ∧ Collect (fun (y : Prefix α × D × Bool) s => (f y.1 y.2.1 s).Explained) N s w x w1 ∧
      match x with
      | some z => ∃ m', m'.Listed (mapResults N z.1) ∧ (k z.2 w1.vals.length).Explained (w1.got ⟨m', (w.val t).cmp⟩) o w'
      | none => o = none ∧ w' = w1

/-- Every call that the program makes, in a callback or not, can be made (`TCmd.Fine`). -/
def TScript.Proper {β : Type} : TScript α D β → SWorld (MTable α D) → Prop
  | .ret _, _ => True
  | .panic, _ => True
  | .call c k, w => c.Fine w ∧ ∀ x w1, c.Explained w x w1 → (k x w.vals.length).Proper w1
  | .walk t cb s k, w => w.HasVal t ∧ ∀ L, (w.val t).entries.Listed L →
    LoopFine (fun y s => (cb y.1 y.2 s).Proper) (fun y s => (cb y.1 y.2 s).Explained) L s w ∧
    ∀ z w1, Loop (fun y s => (cb y.1 y.2 s).Explained) L s w (some z) w1 → (k z).Proper w1
  | .diff t u given cb s k, w => (w.HasVal t ∧ w.HasVal u ∧ ((w.val t).cmp = .nil → (w.val t).entries = Entries.empty) ∧
      (given .unchanged = false → ∀ e, (w.val t).cmp = .custom e → (∀ x, e x x = true) ∨ given .changed = false)) ∧
    ∀ C, (w.val t).entries.Differ (w.val u).entries C →
      LoopFine (fun y s w => given y.1 = true → (cb y.1 y.2.1 y.2.2.1 y.2.2.2 s).Proper w)
        (fun y => orTrue (given y.1) fun s => (cb y.1 y.2.1 y.2.2.1 y.2.2.2 s).Explained) (C.map (Change.kind (w.val t).same)) s w ∧
      ∀ z w1, Loop (fun y => orTrue (given y.1) fun s => (cb y.1 y.2.1 y.2.2.1 y.2.2.2 s).Explained)
        (C.map (Change.kind (w.val t).same)) s w (some z) w1 → (k z).Proper w1
  | .map t f s k, w => (w.HasVal t ∧ ((w.val t).entries = Entries.empty ∨ (w.val t).cmp = .dflt)) ∧
    ∀ N, (w.val t).entries.Calls N →
      CollectFine (fun (y : Prefix α × D × Bool) s => (f y.1 y.2.1 s).Proper) (fun y s => (f y.1 y.2.1 s).Explained) N s w ∧
      ∀ z w1, Collect (fun (y : Prefix α × D × Bool) s => (f y.1 y.2.1 s).Explained) N s w (some z) w1 →
        ∀ m', m'.Listed (mapResults N z.1) → (k z.2 w1.vals.length).Proper (w1.got ⟨m', (w.val t).cmp⟩)

/-! ### composition -/

/-- one program after the other -/
def TScript.bind {β γ : Type} : TScript α D β → (β → TScript α D γ) → TScript α D γ
  | .ret b, k => k b
  | .panic, _ => .panic
  | .call c k', k => .call c fun x n => (k' x n).bind k
  | .walk t cb s k', k => .walk t cb s fun x => (k' x).bind k
  | .diff t u given cb s k', k => .diff t u given cb s fun x => (k' x).bind k
  | .map t f s k', k => .map t f s fun x n => (k' x n).bind k

/-- ipv4/table.go:156-162 `Build`: the builder is a program that gets the new `Table_`; `k` gets the number of the
    `Table` that `Build` returns -/
def TScript.build {β : Type} (t : Nat) (builder : Nat → TScript α D Bool) (k : Nat → TScript α D β) : TScript α D β :=
  .call (.thaw t : TCmd α D Unit) fun x _ =>
    match x with
    | .handle h => (builder h).bind fun b => if b then .call (.freeze (some h) : TCmd α D Unit) fun _ n => k n else k t
    | _ => .panic

end
end Addrs

import Verif.SetApi
/-
  The vocabulary of the property statements, independent of tries.
-/
namespace Addrs
open GoWord LawfulGoWord

/-- What "calls `callback` for each element in this order and stops at the first `false`" means for a
    callback with state `σ`: the final state and whether the iteration ran to its end. -/
def visit {β σ : Type} (cb : β → σ → σ × Bool) : List β → σ → σ × Bool
  | [], s => (s, true)
  | x :: xs, s =>
    match cb x s with
    | (s', true) => visit cb xs s'
    | (s', false) => (s', false)

section
variable {α : Type} [LawfulGoWord α]

/-- number of addresses of a prefix of length `n` -/
def blockSize (α : Type) [LawfulGoWord α] (n : Nat) : Nat := 2 ^ (width α - n)

/-- address `a` belongs to prefix `p`: same quotient by the block size (host bits ignored) -/
def InPrefix (p : Prefix α) (a : α) : Prop :=
  toNat p.addr / blockSize α p.len = toNat a / blockSize α p.len

/-- address `a` belongs to range `r` -/
def InRange (r : Range α) (a : α) : Prop := toNat r.first ≤ toNat a ∧ toNat a ≤ toNat r.last

/-- a valid range -/
def Range.Valid (r : Range α) : Prop := toNat r.first ≤ toNat r.last

theorem inPrefix_iff {p : Prefix α} (hp : p.WF) {a : α} : InPrefix p a ↔ Covers p a :=
  (agree_iff_div hp).symm

end

section
variable {α : Type} [IPFamily α]

/-- the API question "is this address in the set" -/
def IPSet.has (s : IPSet α) (a : α) : Prop := s.contains (.address a) = true

/-- Every set a program can obtain from valid addresses, prefixes and ranges with the operations of
    the API.  (`Set_.Insert`/`Remove` compute the same results as `Union`/`Difference`.) -/
inductive IPSet.Reachable : IPSet α → Prop
  | empty : Reachable IPSet.empty
  | address (a : α) : Reachable (SetI.address a).toSet
  | «prefix» (p : Prefix α) (h : p.WF) : Reachable (SetI.prefix p).toSet
  | range (r : Range α) (h : r.Valid) : Reachable (SetI.range r).toSet
  | union (s t : IPSet α) (hs : Reachable s) (ht : Reachable t) : Reachable (s.union (.set t))
  | intersection (s t : IPSet α) (hs : Reachable s) (ht : Reachable t) :
      Reachable (s.intersection (.set t))
  | difference (s t : IPSet α) (hs : Reachable s) (ht : Reachable t) :
      Reachable (s.difference (.set t))

/-- Valid arguments of type `SetI`. -/
def SetI.Valid : SetI α → Prop
  | .nil => True
  | .address _ => True
  | .prefix p => p.WF
  | .range r => r.Valid
  | .set s => s.Reachable

end
end Addrs

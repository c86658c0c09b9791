import Verif.SetEdit
import Verif.PropSetText
import Verif.PropValid
import Verif.TableApi
/-
  Not proofs of properties: checks that the MODEL gives the results that the authors of /repo wrote down for the CODE.
  The functions here say what the bodies of the test functions of /repo check; the rows are in `Verif/RepoTests4.lean` and
  `Verif/RepoTests6.lean`, written by tools/gotests.py from the text of the tests.  Evaluated by the kernel (`decide +kernel`).
  setNode.Insert and setNode.Remove, which no API function calls, are taken as Union and Difference with the prefix.
-/
namespace Addrs
namespace RepoTest

def p4 (s : String) : Prefix (BitVec 32) := (V4.prefixFromString s.toList).getD ⟨0, 77⟩
def a4 (s : String) : BitVec 32 := (V4.addressFromString s.toList).getD 0
def p6 (s : String) : Prefix U128 := (V6.prefixFromString s.toList).getD ⟨⟨0, 0⟩, 777⟩
def a6 (s : String) : U128 := (V6.addressFromString s.toList).getD ⟨0, 0⟩

section
variable {α : Type} [IPFamily α]

def set (l : List (SetI α)) : IPSet α := l.foldl (fun s x => s.union x) .empty
def ranges (s : IPSet α) : List (Range α) := (s.walkRanges (fun r acc => (acc ++ [r], true)) []).1
def prefixes (s : IPSet α) : List (Prefix α) := (s.walkPrefixes (fun r acc => (acc ++ [r], true)) []).1

/-- TestRangeMinus -/
def minus : Range α × Range α × List (Range α) × List (Range α) → Bool
  | (a, b, res, back) => decide (a.minus b = res) && decide (b.minus a = back)
/-- TestRangePlus -/
def plus : Range α × Range α × List (Range α) → Bool
  | (a, b, res) => decide (a.plus b = res) && decide (b.plus a = res)
/-- TestRangeContains -/
def rangeContains : Range α × Range α → Bool
  | (a, b) => a.contains (.range b) && b.contains (.range a) == decide (a = b)
/-- TestRangeFirstLast -/
def firstLast : Range α × α × α → Bool
  | (r, f, l) => decide (r.first = f) && decide (r.last = l)
/-- TestRangeComparable, TestPrefixComparable -/
def rangeComparable : Range α × Range α × Bool → Bool
  | (a, b, e) => decide (a = b) == e
/-- TestWalkRanges -/
def walkRanges : List (SetI α) × List (Range α) → Bool
  | (l, rs) => decide (ranges (set l) = rs) && (set l).isValid
/-- TestFindAvailablePrefix; `change` bounds the change of the number of prefixes -/
def findAvailable : List (SetI α) × List (SetI α) × Nat × Prefix α × Bool × Int → Bool
  | (space, reserved, n, expected, err, change) =>
    match (set space).findAvailablePrefix (.set (set reserved)) n with
    | .err => err
    | .panic => false
    | .ok p =>
      !err && ((set reserved).intersection (.prefix p)).isEmpty && (expected.len = 0 || decide (p = expected)) &&
      decide (((prefixes ((set reserved).union (.prefix p))).length : Int) - (prefixes (set reserved)).length ≤ min 1 change)
/-- TestNetworkHostBroadcast -/
def networkHost : Prefix α × Prefix α × Prefix α → Bool
  | (p, n, h) => decide (p.network = n) && decide (p.host = h)
def broadcast : Prefix α × Prefix α → Bool
  | (p, b) => decide (p.broadcast = b)
/-- TestPrefixContainsPrefix -/
def containsPrefix : Prefix α × Prefix α → Bool
  | (a, b) => a.contains (.prefix b) && b.contains (.prefix a) == decide (a = b)
/-- TestPrefixContainsAddress -/
def containsAddress : Prefix α × List α × List α → Bool
  | (p, yes, no) => yes.all (fun a => p.contains (.address a)) && no.all fun a => !p.contains (.address a)
/-- TestPrefixLessThan: ascending -/
def ascending : List (Prefix α) → Bool
  | [] => true
  | p :: L => !p.lessThan p && L.all (fun q => p.lessThan q && !q.lessThan p) && ascending L
/-- TestPrefixHalves -/
def halves : Prefix α × Prefix α × Prefix α → Bool
  | (p, a, b) => decide (p.halves = (a, b))
/-- TestPrefixSet -/
def prefixSet : Prefix α × α × α → Bool
  | (p, a, b) => (SetI.prefix p).toSet.contains (.address a) && !(SetI.prefix p).toSet.contains (.address b)
/-- TestContains of node_test.go; `child` is 0 or 1 -/
def nodeContains : Prefix α × Prefix α × Bool × Bool × Nat × Nat → Bool
  | (a, b, m, e, c, ch) => decide (containsP a b = (m, e, c, ch == 1)) && !(compareP a b).2.1 && (compareP b a).2.1 == decide (a.len ≠ b.len)
/-- TestTrieNodeSet32Union -/
def setUnion : List (SetNode α) × List α × List α → Bool
  | (sets, yes, no) => [sets, sets.reverse].all fun L =>
    (List.range (L.length + 1)).all (fun n =>
      let s := (L.take n).foldl SetNode.union .nil
      decide (s.union s = s) && Trie.isValid s) &&
    (let s := L.foldl SetNode.union .nil
    yes.all (fun a => (Trie.match (.ofAddress a) s).isSome) && no.all fun a => (Trie.match (.ofAddress a) s).isNone)

/-- a trie with these entries; `none` if an Insert fails -/
def fill (l : List (Prefix α × Option Nat)) : Option (Trie α Nat) :=
  l.foldl (fun t x => t.bind fun t => t.insert ⟨true, false, fun a b => decide (a = b)⟩ x.1 x.2) (some .nil)
/-- the same with the error of Insert ignored, `trie, _ = trie.Insert(key, nil)` -/
def pour (l : List (Prefix α × Option Nat)) : Trie α Nat :=
  l.foldl (fun t x => (t.insert ⟨true, false, fun a b => decide (a = b)⟩ x.1 x.2).getD t) .nil
def ieq : Option Nat → Option Nat → Bool := fun a b => decide (a = b)
def walked (t : Trie α Nat) : List (Prefix α × Option Nat) := (t.walk (fun p d acc => (acc ++ [(p, d)], true)) []).1
def agg (t : Trie α Nat) : Trie α Nat := (t.aggregate ieq ieq none).1
/-- TestAggregate -/
def aggregate : List (Prefix α × Option Nat) × List (Prefix α × Option Nat) → Bool
  | (l, golden) =>
    let g := l.foldl (fun (t : Trie α Nat) x => (t.getOrInsert x.1 x.2).1) .nil
    [pour l, g].all fun t => decide (walked (agg t) = golden) && ((agg t).walk (fun _ _ n => (n + 1, false)) 0).1 == min 1 golden.length
/-- TestNewAggregate -/
def newAggregate : List (Prefix α × Option Nat) × List (Prefix α × Option Nat) → Bool
  | (l, golden) =>
    match fill l, fill golden with
    | some t, some g => (agg t).equal ieq g
    | _, _ => false

/-- `diffAction` -/
structure Act (α : Type) where
  t : Char
  pair : Prefix α × Option Nat
  val : Option Nat
deriving DecidableEq

def record (go : Bool) : Trie.DiffCallbacks α Nat (List (Act α)) where
  removed := some fun p d acc => (acc ++ [⟨'R', (p, d), none⟩], go)
  added := some fun p d acc => (acc ++ [⟨'A', (p, d), none⟩], go)
  modified := some fun p d e acc => (acc ++ [⟨'C', (p, d), e⟩], go)
  same := some fun p d acc => (acc ++ [⟨'S', (p, d), none⟩], go)
def turned (l : List (Act α)) : List (Act α) :=
  l.map fun x => if x.t = 'R' then ⟨'A', x.pair, x.val⟩ else if x.t = 'A' then ⟨'R', x.pair, x.val⟩ else ⟨x.t, (x.pair.1, x.val), x.pair.2⟩
/-- TestDiff -/
def diff : List (Prefix α × Option Nat) × List (Prefix α × Option Nat) × List (Act α) × List (Act α) → Bool
  | (l, r, actions, aggregated) =>
    match fill l, fill r with
    | some l, some r =>
      let aggregated := if aggregated.isEmpty then actions else aggregated
      decide ((Trie.Diff (record true) ieq l r []).1 = actions) && decide ((Trie.Diff (record false) ieq l r []).1 = actions.take 1) &&
      decide ((Trie.Diff (record true) ieq (agg l) (agg r) []).1 = aggregated) &&
      decide ((Trie.Diff (record true) ieq r l []).1 = turned actions) && decide ((Trie.Diff (record true) ieq (agg r) (agg l) []).1 = turned aggregated)
    | _, _ => false
/-- TestMap of node_test.go -/
def map (l : List (Prefix α)) : Bool :=
  match fill (l.map fun p => (p, some 0)), fill (l.map fun p => (p, some 1)) with
  | some o, some e =>
    let t := (o.map (fun _ _ s => (some 1, s)) ieq ()).1
    o.numNodes == t.numNodes && decide (walked e = walked t) && (Trie.Diff (record true) ieq e t []).1.all (fun x => x.t = 'S') &&
    decide (o = (o.map (fun _ d s => (d, s)) ieq ()).1)
  | _, _ => false
/-- TestInsertOverlapping -/
def overlapping : Prefix α × Prefix α × Prefix α → Bool
  | (a, b, c) =>
    let step := fun (x : Trie α Nat × Bool) (k : Prefix α × Nat) =>
      match x.1.insert ⟨true, false, ieq⟩ k.1 none with
      | none => (x.1, false)
      | some t => (t, x.2 && (t.match k.1).isSome && t.isValid && t.height == k.2)
    ([(a, 1), (b, 2), (c, 3)].foldl step (.nil, true)).2 && ([(c, 1), (b, 2), (a, 3)].foldl step (.nil, true)).2 &&
    [a, b].all fun k => match fill [(k, none)] with
      | some t => t.isActive && t.isValid && t.height == 1 && (t.insert ⟨true, false, ieq⟩ k none).isNone
      | none => false
/-- TestInsertOverlappingSet, with Union for setNode.Insert -/
def overlappingSet : Prefix α × Prefix α × Prefix α → Bool
  | (a, b, c) =>
    [[a, b, c], [c, b, a]].all fun l =>
      (l.foldl (fun (x : SetNode α × Bool) k =>
        let t := SetNode.union x.1 (SetNode.fromPrefix k)
        (t, x.2 && (Trie.match k t).isSome && Trie.isValid t && Trie.height t == 1 && Trie.numNodes t == 1)) (.nil, true)).2
/-- TestInsertDisjoint -/
def disjoint : Prefix α × Prefix α × Prefix α → Bool
  | (a, b, super) => [(a, b), (b, a)].all fun x =>
    match fill [(x.1, none), (x.2, none)], fill [(x.1, none), (x.2, none), (super, none)] with
    | some t, some u =>
      (t.match x.2).isSome && t.isValid && t.height == 2 && (t.match super).isNone && !t.isActive &&
      (match t with | .node p .. => decide (p = super) | .nil => false) && (u.match super).isSome && u.isValid && u.height == 2
    | _, _ => false
/-- TestInsertMoreComplex -/
def complex (keys : List (Prefix α)) : Bool :=
  [keys, keys.reverse].all fun ks => match fill (ks.map fun k => (k, none)) with
    | some t => ks.all fun k => (t.match k).isSome
    | none => false
/-- TestNoMatchPrefixMisMatch -/
def mismatch : α × Nat × α × Nat → Bool
  | (a, n, b, m) => match fill [(⟨a, n⟩, none)] with
    | some t => t.isActive && t.isValid && t.height == 1 && (t.match ⟨b, m⟩).isNone
    | none => false
/-- TestMatchSimplePrefixMatch -/
def simpleMatch : α × Nat → Bool
  | (a, n) => match fill [(⟨a, n⟩, none)] with
    | some t => t.isValid && t.height == 1 && decide (t.match ⟨a, n⟩ = some (⟨a, n⟩, none))
    | none => false
/-- TestSuccessivelyBetter -/
def better (keys : List (Prefix α)) : Bool :=
  (List.range keys.length).all fun i =>
    let kept := keys.take (i + 1)
    (match fill (kept.map fun k => (k, none)) with
    | none => false
    | some t => t.numNodes == i + 1 && t.isValid && t.height == i + 1 &&
      (List.range keys.length).all fun j => match keys[j]?, keys[min i j]? with
        | some k, some e => (t.match k).map (·.1) == some e
        | _, _ => false) &&
    match (fill (keys.map fun k => (k, none))).bind fun t => kept.foldl (fun (t : Option (Trie α Nat)) k => t.bind (·.del k)) (some t) with
    | none => false
    | some t => t.numNodes == keys.length - i - 1 && t.isValid && t.height == keys.length - i - 1 &&
      (List.range keys.length).all fun j => match keys[j]? with
        | some k => (t.match k).map (·.1) == if j ≤ i then none else some k
        | none => false
/-- TestWalk: the result of Walk after Insert and after GetOrInsert -/
def walks (keys golden : List (Prefix α)) : Bool :=
  [pour (keys.map fun k => (k, none)), keys.foldl (fun (t : Trie α Nat) k => (t.getOrInsert k none).1) .nil].all fun t =>
    decide ((walked t).map (·.1) = golden) && (t.walk (fun _ _ n => (n + 1, false)) 0).1 == 1

/-- TestTableTExample1-3: the entries, what Walk visits, what Walk of Aggregate() visits -/
def tableExample (l w g : List (Prefix α × Bool)) : Bool :=
  let t := l.foldl (fun (t : Table α Bool) x => (t.insert (.prefix x.1) x.2).1) Table.new_
  let f := fun (t : Table α Bool) => (t.walk (fun p v acc => (acc ++ [(p, v)], true)) []).1
  decide (f t = w) && decide (f t.aggregate = g)
/-- TestTableVariousComparators -/
def comparators (l : List (Prefix α × Nat)) (rows : List ((Nat → Nat → Bool) × List (Prefix α))) : Bool :=
  rows.all fun x =>
    let t := l.foldl (fun (t : Table α Nat) y => (t.insert (.prefix y.1) y.2).1) (Table.newCustom x.1)
    decide ((t.aggregate.walk (fun p _ acc => (acc ++ [p], true)) []).1 = x.2)
/-- TestOldEqualAllIPv4, TestOldEqualAllIPv6; `whole` is 0.0.0.0/0 or ::/0 -/
def equalAll (whole : Prefix α) (bs cs : List (Prefix α)) : Bool :=
  let a := set [.prefix whole]
  let b := bs.foldl (fun (x : IPSet α × Bool) p =>
    let n := x.1.union (.prefix p)
    (n, x.2 && !a.equal x.1 && !x.1.equal a && !n.equal .empty && !IPSet.empty.equal n)) (.empty, true)
  let c := cs.foldl (fun (x : IPSet α × Bool) p =>
    let n := x.1.union (.prefix p)
    (n, x.2 && !x.1.equal a && !x.1.equal b.1 && n.isValid)) (.empty, true)
  b.2 && c.2 && a.equal b.1 && a.equal c.1 && b.1.equal a && b.1.equal c.1 && c.1.equal a && c.1.equal b.1

end

/-- TestSetNumPrefixes, TestRangeNumPrefixes, TestPrefixNumPrefixes, TestPrefixSize -/
def setNumPrefixes4 : List (SetI (BitVec 32)) × Nat × Nat × Bool → Bool
  | (l, n, c, e) => ((set l).numPrefixes4 n).2 == e && (e || ((set l).numPrefixes4 n).1.toNat == c)
def setNumPrefixes6 : List (SetI U128) × Nat × Nat × Bool → Bool
  | (l, n, c, e) => ((set l).numPrefixes6 n).2 == e && (e || ((set l).numPrefixes6 n).1.toNat == c)
def rangeNumPrefixes4 : Range (BitVec 32) × Nat × Nat × Bool → Bool
  | (r, n, c, e) => (r.numPrefixes4 n).2 == e && (r.numPrefixes4 n).1.toNat == c
def rangeNumPrefixes6 : Range U128 × Nat × Nat × Bool → Bool
  | (r, n, c, e) => (r.numPrefixes6 n).2 == e && (r.numPrefixes6 n).1.toNat == c
def prefixNumPrefixes4 : Prefix (BitVec 32) × Nat × Nat × Bool → Bool
  | (p, n, c, e) => (p.numPrefixes4 n).2 == e && (p.numPrefixes4 n).1.toNat == c
def prefixNumPrefixes6 : Prefix U128 × Nat × Nat × Bool → Bool
  | (p, n, c, e) => (p.numPrefixes6 n).2 == e && (p.numPrefixes6 n).1.toNat == c
def prefixSize : Prefix (BitVec 32) × Nat → Bool
  | (p, n) => p.numAddresses.toNat == n
/-- TestPrefixFromString -/
def fromString4 : String × Prefix (BitVec 32) × Bool → Bool
  | (s, p, e) => V4.prefixFromString s.toList == if e then none else some p
def fromString6 : String × Prefix U128 × Bool → Bool
  | (s, p, e) => V6.prefixFromString s.toList == if e then none else some p
/-- TestPrefixString -/
def string4 (s : String) : Bool := V4.prefixString (p4 s) == s.toList
def string6 (s : String) : Bool := V6.prefixString (p6 s) == s.toList
/-- TestWalkRanges: String -/
def setString4 : List (SetI (BitVec 32)) × String → Bool
  | (l, s) => V4.setString (set l) == s.toList
/-- TestWalkAddress -/
def walkAddress : Prefix (BitVec 32) × BitVec 32 × BitVec 32 → Bool
  | (p, f, l) =>
    match p.walkAddresses 300 (fun a (acc : List (BitVec 32)) => (acc ++ [a], acc.length + 1 != 100)) [] with
    | (acc, some _) => acc.head? == some f && acc.getLast? == some l
    | (_, none) => false
/-- testIntersection -/
def intersection4 : List String × List String × List String → Bool
  | (a, b, c) => let s := fun l => set ((l : List String).map fun x => SetI.prefix (p4 x))
    (s c).equal ((s a).intersection (.set (s b))) && (s a).isValid && (s b).isValid && ((s a).intersection (.set (s b))).isValid
def intersection6 : List String × List String × List String → Bool
  | (a, b, c) => let s := fun l => set ((l : List String).map fun x => SetI.prefix (p6 x))
    (s c).equal ((s a).intersection (.set (s b))) && (s a).isValid && (s b).isValid && ((s a).intersection (.set (s b))).isValid

end RepoTest
end Addrs

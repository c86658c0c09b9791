import Verif.RepoTests
/-
  Not proofs of properties: more tests of /repo (node_test.go, table_test.go of both packages), evaluated in the model by the
  kernel.  The bodies are written once, for both address families; the literals are those of the two test files.
-/
namespace Addrs
namespace RepoTest
section
variable {α : Type} [IPFamily α]

/-- the options of node.go:308-325 `InsertOrUpdate`, `Insert`, `Update` -/
def iou : Trie.InsertOpts Nat := ⟨true, true, ieq⟩
def ionly : Trie.InsertOpts Nat := ⟨true, false, fun _ _ => false⟩
def uonly : Trie.InsertOpts Nat := ⟨false, true, ieq⟩
/-- `trie.Match(k).Data` -/
def dat (t : Trie α Nat) (k : Prefix α) : Option (Option Nat) := (t.match k).map (·.2)
/-- a write that must succeed, followed by `isValid()` -/
def ok (t : Option (Trie α Nat)) (k : Trie α Nat → Bool) : Bool :=
  match t with
  | some t => t.isValid && k t
  | none => false
/-- the write must fail: the trie stays -/
def bad (t : Option (Trie α Nat)) (k : Bool) : Bool := t.isNone && k

/-- node_test.go TestInsertOrUpdateChangeValue (true is 1, false is 0) -/
def iouChange (key : Prefix α) : Bool :=
  ok (Trie.nil.insert iou key (some 1)) fun t => decide (dat t key = some (some 1)) &&
  ok (t.insert iou key (some 0)) fun t => decide (dat t key = some (some 0))
/-- TestInsertOrUpdateNewKey, TestInsertOrUpdateNarrowerKey, TestInsertOrUpdateDisjointKeys -/
def iouNew (key newKey : Prefix α) : Bool :=
  ok (Trie.nil.insert iou key (some 1)) fun t => decide (dat t key = some (some 1)) &&
  ok (t.insert iou newKey (some 0)) fun t => decide (dat t key = some (some 1)) && decide (dat t newKey = some (some 0))
/-- TestInsertOrUpdateInactive ("value" is 7) -/
def iouInactive (key newKey inactiveKey : Prefix α) : Bool :=
  ok (Trie.nil.insert iou key (some 1)) fun t => ok (t.insert iou newKey (some 0)) fun t =>
  ok (t.insert iou inactiveKey (some 7)) fun t =>
    decide (dat t key = some (some 1)) && decide (dat t newKey = some (some 0)) && decide (dat t inactiveKey = some (some 7))
/-- TestUpdateChangeValue -/
def updChange (key : Prefix α) : Bool :=
  ok (Trie.nil.insert ionly key (some 1)) fun t => decide (dat t key = some (some 1)) &&
  ok (t.insert uonly key (some 0)) fun t => decide (dat t key = some (some 0))
/-- TestUpdateNewKey, TestUpdateNarrowerKey, TestUpdateDisjointKeys: `found` is what `Match(newKey)` finds -/
def updNew (key newKey : Prefix α) (found : Option (Option Nat)) : Bool :=
  ok (Trie.nil.insert ionly key (some 1)) fun t => decide (dat t key = some (some 1)) &&
  bad (t.insert uonly newKey (some 0)) (decide (dat t key = some (some 1)) && decide (dat t newKey = found))
/-- TestUpdateInactive -/
def updInactive (key newKey inactiveKey : Prefix α) : Bool :=
  ok (Trie.nil.insert ionly key (some 1)) fun t => ok (t.insert ionly newKey (some 0)) fun t =>
  bad (t.insert uonly inactiveKey (some 7))
    (decide (dat t key = some (some 1)) && decide (dat t newKey = some (some 0)) && decide (dat t inactiveKey = none))
/-- TestMatchNilKey, TestMatchNilTrie -/
def matchNil (key : Prefix α) : Bool := (Trie.match key (Trie.nil : Trie α Nat)).isNone
/-- TestMatchZeroLength, TestMatchPartialByteMatches -/
def matchOne (key yes : Prefix α) (no : Option (Prefix α)) : Bool :=
  ok (Trie.nil.insert ionly key none) fun t => t.isActive && t.height == 1 &&
    decide (t.match yes = some (key, none)) && no.all fun k => (t.match k).isNone
/-- TestNoMatchTooBroad -/
def tooBroad (key broad : Prefix α) : Bool :=
  ok (Trie.nil.insert ionly key none) fun t => t.isActive && t.height == 1 && (t.match broad).isNone
/-- TestGetOrInsertTrivial; `assert.Equal(trie, node)` compares what they hold -/
def goiTrivial (key : Prefix α) : Bool :=
  let x := (Trie.nil : Trie α Nat).getOrInsert key (some 1)
  x.1.isValid && decide (x.2 = some 1) && decide (x.1.data = some 1) && decide (x.1.entries = [(key, some 1)])
/-- TestGetOrInsertExists -/
def goiExists (key : Prefix α) : Bool :=
  ok (Trie.nil.insert ionly key (some 1)) fun t =>
    let x := t.getOrInsert key (some 0)
    x.1.isValid && decide (x.2 = some 1) && decide (x.1 = t)
/-- TestGetOrInsertBroader, TestGetOrInsertNarrower, TestGetOrInsertDisjoint; `top`: whether the node is the root -/
def goiNew (key newKey : Prefix α) (top : Option Bool) : Bool :=
  ok (Trie.nil.insert ionly key (some 1)) fun t =>
    let x := t.getOrInsert newKey (some 0)
    x.1.isValid && decide (x.2 = some 0) && top.all (fun b => decide (x.1.data = some 0) == b) &&
    decide (dat x.1 key = some (some 1)) && decide (dat x.1 newKey = some (some 0))
/-- TestGetOrInsertInActive -/
def goiInactive (k1 k2 key : Prefix α) : Bool :=
  ok (Trie.nil.insert ionly k1 (some 1)) fun t => ok (t.insert ionly k2 (some 1)) fun t =>
    let x := t.getOrInsert key (some 0)
    x.1.isValid && decide (x.2 = some 0) && decide (x.1.data = some 0)
/-- TestDeleteFromNilTree -/
def delNil (key : Prefix α) : Bool := ((Trie.nil : Trie α Nat).del key).isNone
/-- TestDeleteSimple, TestDeleteLeftChild, TestDeleteRightChild, TestDeleteBothChildren: `key` and then `children` are
    inserted and `key` deleted; afterwards the children are found, and the key is not -/
def delWith (key : Prefix α) (children : List (Prefix α)) : Bool :=
  match (key :: children).foldl (fun (t : Option (Trie α Nat)) k => t.bind (·.insert ionly k none)) (some .nil) with
  | none => false
  | some t =>
    match t.del key with
    | none => false
    | some t => t.isNil == children.isEmpty && (t.match key).isNone && children.all fun k => (t.match k).isSome
/-- TestDeleteRecursiveNil, TestDeleteKeyTooBroad, TestDeleteKeyDisjoint: deleting `other` fails -/
def delFails (key other : Prefix α) : Bool :=
  ok (Trie.nil.insert ionly key none) fun t => (t.del other).isNone && (t.match key).isSome &&
    (t.match other).all fun x => decide (x.1 ≠ other)
/-- TestDeleteRecursiveLeftChild -/
def delChild (key child : Prefix α) : Bool :=
  ok (Trie.nil.insert ionly key none) fun t => ok (t.insert ionly child none) fun t => ok (t.del child) fun t =>
    (t.match key).isSome && (t.match child).all fun x => decide (x.1 ≠ child)
/-- TestDeleteRecursiveLeftChild32Promote, TestDeleteRecursiveLeftChild128Promote -/
def delPromote (key child : Prefix α) : Bool :=
  ok (Trie.nil.insert ionly key none) fun t => ok (t.insert ionly child none) fun t => ok (t.del child) fun t =>
    (t.match key).isSome && (t.match child).isNone && t.height == 1 && t.numNodes == 1
/-- TestAggregateEqualComparable -/
def aggEqual (l golden : List (Prefix α × Option Nat)) : Bool :=
  match l.foldl (fun (t : Option (Trie α Nat)) x => t.bind (·.insert ionly x.1 x.2)) (some .nil) with
  | none => false
  | some t => decide ((t.aggregate ieq ieq none).1.entries = golden)
/-- TestTrieNodeEqual: each node is compared with the other in both directions -/
def nodeEqual : Trie α Nat × Trie α Nat × Bool → Bool
  | (a, b, e) => a.equal ieq b == e && b.equal ieq a == e
/-- `&trieNode{…}` with zero `size` and `h` -/
def nd (p : Prefix α) (act : Bool) (l r : Trie α Nat) (d : Option Nat := none) : Trie α Nat := .node p d 0 0 act l r
def zeroP : Prefix α := ⟨GoWord.zero, 0⟩
def zeroNode : Trie α Nat := nd zeroP false .nil .nil
/-- TestTrieNodeEqual; `k` are the two prefixes of the row "inactive different prefixes", `q` those of the next row -/
def nodeEqualAll (k k' q q' : Prefix α) : Bool :=
  [(.nil, .nil, true), (zeroNode, .nil, false), (zeroNode, zeroNode, true), (zeroNode, nd zeroP true .nil .nil, false),
   (nd zeroP true .nil .nil, nd zeroP true .nil .nil, true),
   (nd zeroP true .nil .nil (some 1), nd zeroP true .nil .nil (some 0), false),
   (nd k false .nil .nil, nd k' false .nil .nil, false), (nd q false .nil .nil, nd q' false .nil .nil, false),
   (zeroNode, nd zeroP false zeroNode .nil, false), (zeroNode, nd zeroP false .nil zeroNode, false)].all nodeEqual
/-- TestFlatten: the children disappear and the node becomes active (`flat`), or everything stays -/
def flattens : Prefix α × Bool × Prefix α × Bool × Prefix α × Bool × Bool → Bool
  | (p, act, l, lact, r, ract, flat) =>
    let x := Trie.flatten p act (nd l lact .nil .nil) (nd r ract .nil .nil)
    decide (x = if flat then (true, .nil, .nil) else (act, nd l lact .nil .nil, nd r ract .nil .nil))

/-! ### table_test.go -/
/-- `q6 hi lo n` -/
def q6 (hi lo : BitVec 64) (n : Nat) : Prefix U128 := ⟨⟨hi, lo⟩, n⟩
def tab (l : List (Prefix α × Nat)) : Table α Nat := l.foldl (fun t x => (t.insert (.prefix x.1) x.2).1) .new_
def twalk (t : Table α Nat) : List (Prefix α × Nat) := (t.walk (fun p d acc => (acc ++ [(p, d)], true)) []).1
/-- TestTableTWalk -/
def tableWalk (k : Prefix α) : Bool := decide (twalk (tab [(k, 1)]) = [(k, 1)]) && (tab [(k, 1)]).trie.isValid
/-- TestTableTWalkAggregates -/
def tableWalkAgg (k k2 : Prefix α) : Bool :=
  decide (twalk (tab [(k, 1), (k2, 1)]).aggregate = [(k, 1)]) && (tab [(k, 1), (k2, 1)]).trie.isValid
/-- TestTableTEqual -/
def tableEqual (k k' : Prefix α) : Bool :=
  let eq (a b : Table α Nat) := a.trie.equal ieq b.trie
  let n : Table α Nat := .new_
  eq n n && !eq (tab [(k, 1)]) n && !eq n (tab [(k, 1)]) && !eq (tab [(k, 1)]) (tab [(k', 1)]) && !eq (tab [(k', 1)]) (tab [(k, 1)])
/-- TestTableTDiff: what the three callbacks record (prefix, before, after; false is 0) -/
def tableDiff (a b : List (Prefix α × Nat)) (forward backward : List (Prefix α × Nat × Nat)) : Bool :=
  let cb : TableDiffCallbacks α Nat (List (Prefix α × Nat × Nat)) :=
    { changed := some fun p l r acc => (acc ++ [(p, l, r)], true), left := some fun p v acc => (acc ++ [(p, v, 0)], true),
      right := some fun p v acc => (acc ++ [(p, 0, v)], true), unchanged := none }
  decide (((tab a).diff (tab b) cb []).1 = forward) && decide (((tab b).diff (tab a) cb []).1 = backward)
/-- TestTableMap -/
def tableMap (a : List (Prefix α × Nat)) (no : Prefix α) : Bool :=
  let n : Table α Nat := .empty
  let f : Option (Prefix α → Nat → Bool → Nat × Bool) := some fun _ _ _ => (0, true)
  let r := ((tab a).map f false).1
  decide ((n.map (none : Option (Prefix α → Nat → Bool → Nat × Bool)) false).1.trie = n.trie) && decide ((n.map f false).1.trie = n.trie) && !(n.map f false).2 &&
  r.numEntries == a.length && a.all (fun x => decide (r.get (.prefix x.1) = (0, true))) && !(r.get (.prefix no)).2
/-- TestTableVariousComparators; `none`: `==` -/
def comparators1 (l : List (Prefix α × Nat)) (cmp : Option (Nat → Nat → Bool)) (expected : List (Prefix α)) : Bool :=
  let t0 : Table α Nat := match cmp with
    | none => Table.empty.table_
    | some c => Table.newCustom c
  let t := l.foldl (fun t x => (t.insert (.prefix x.1) x.2).1) t0
  decide ((twalk t.aggregate).map (·.1) = expected)
/-- TestTableXVariousComparators: the same with a list of the comparators1 of the tests -/
def comparatorRows (l : List (Prefix α × Nat)) (e1 e2 e3 e4 : List (Prefix α)) : Bool :=
  comparators1 l none e1 && comparators1 l (some fun _ _ => false) e2 && comparators1 l (some fun a b => decide (a ≤ 2) && decide (b ≤ 2)) e3 &&
  comparators1 l (some fun a b => decide (a ≤ 3) && decide (b ≤ 3)) e4
end

/-- /repo/ipv4/node_test.go `TestInsertOrUpdateChangeValue`, `TestInsertOrUpdateNewKey`, `TestInsertOrUpdateNarrowerKey`,
    `TestInsertOrUpdateDisjointKeys`, `TestInsertOrUpdateInactive` -/
example : (iouChange (⟨0#32, 0⟩ : Prefix (BitVec 32)) && iouNew ⟨0#32, 0⟩ ⟨0#32, 1⟩ && iouNew ⟨0#32, 1⟩ ⟨0#32, 0⟩ &&
    iouNew ⟨0#32, 1⟩ ⟨0x80000000#32, 1⟩ && iouInactive ⟨0#32, 1⟩ ⟨0x80000000#32, 1⟩ ⟨0#32, 0⟩) = true := by decide +kernel
/-- /repo/ipv6/node_test.go, the same -/
example : (iouChange (q6 0 0 0) && iouNew (q6 0 0 0) (q6 0 0 1) && iouNew (q6 0 0 1) (q6 0 0 0) &&
    iouNew (q6 0 0 1) (q6 0x8000000000000000 0 1) && iouInactive (q6 0 0 1) (q6 0x8000000000000000 0 1) (q6 0 0 0)) = true := by
  decide +kernel
/-- /repo/ipv4/node_test.go `TestUpdateChangeValue`, `TestUpdateNewKey`, `TestUpdateNarrowerKey`, `TestUpdateDisjointKeys`,
    `TestUpdateInactive` -/
example : (updChange (⟨0#32, 0⟩ : Prefix (BitVec 32)) && updNew ⟨0#32, 0⟩ ⟨0#32, 1⟩ (some (some 1)) && updNew ⟨0#32, 1⟩ ⟨0#32, 0⟩ none &&
    updNew ⟨0#32, 1⟩ ⟨0x80000000#32, 1⟩ none && updInactive ⟨0#32, 1⟩ ⟨0x80000000#32, 1⟩ ⟨0#32, 0⟩) = true := by decide +kernel
/-- /repo/ipv6/node_test.go, the same -/
example : (updChange (q6 0 0 0) && updNew (q6 0 0 0) (q6 0 0 1) (some (some 1)) && updNew (q6 0 0 1) (q6 0 0 0) none &&
    updNew (q6 0 0 1) (q6 0x8000000000000000 0 1) none && updInactive (q6 0 0 1) (q6 0x8000000000000000 0 1) (q6 0 0 0)) = true := by
  decide +kernel
/-- /repo/ipv4/node_test.go `TestMatchNilKey`, `TestMatchNilTrie`, `TestMatchZeroLength`, `TestMatchPartialByteMatches`,
    `TestNoMatchTooBroad` -/
example : (matchNil (⟨0#32, 0⟩ : Prefix (BitVec 32)) && matchOne ⟨0#32, 0⟩ ⟨a4 "10.0.0.0", 0⟩ none && tooBroad ⟨a4 "10.0.0.0", 24⟩ ⟨a4 "10.0.0.0", 23⟩ &&
    [(0x80000000#32, 1), (0xc0000000#32, 2), (0xe0000000#32, 3), (0xf0000000#32, 4), (0xf8000000#32, 5), (0xfc000000#32, 6),
     (0xfe000000#32, 7), (0xff000000#32, 8)].all fun (a, n) =>
      matchOne ⟨a, n⟩ ⟨0xff000000#32, n⟩ (some ⟨0xff000000#32 &&& ~~~(0x80000000#32 >>> (n - 1)), n⟩)) = true := by decide +kernel
/-- /repo/ipv6/node_test.go, the same without `TestMatchPartialByteMatches` -/
example : (matchNil (q6 0 0 0) && matchOne (q6 0 0 0) ⟨a6 "2001::", 0⟩ none && tooBroad ⟨a6 "10::", 24⟩ ⟨a6 "10::", 23⟩) = true := by
  decide +kernel
/-- /repo/ipv4/node_test.go `TestGetOrInsertTrivial`, `TestGetOrInsertExists`, `TestGetOrInsertBroader`, `TestGetOrInsertNarrower`,
    `TestGetOrInsertDisjoint`, `TestGetOrInsertInActive` -/
example : (goiTrivial (⟨0#32, 0⟩ : Prefix (BitVec 32)) && goiExists (⟨0#32, 0⟩ : Prefix (BitVec 32)) && goiNew (p4 "10.224.0.0/16") (p4 "10.0.0.0/8") (some true) &&
    goiNew (p4 "10.224.0.0/16") (p4 "10.224.24.0/24") (some false) && goiNew (p4 "10.224.0.0/16") (p4 "10.225.0.0/16") none &&
    goiInactive (p4 "10.224.0.0/16") (p4 "10.225.0.0/16") (p4 "10.224.0.0/15")) = true := by decide +kernel
/-- /repo/ipv6/node_test.go, the same -/
example : (goiTrivial (q6 0 0 0) && goiExists (q6 0 0 0) && goiNew (p6 "2001:224::/32") (p6 "2001::/16") (some true) &&
    goiNew (p6 "2001:224::/32") (p6 "2001:224:24::/96") (some false) && goiNew (p6 "2001:224::/32") (p6 "2001:225::/32") none &&
    goiInactive (p6 "2001:224::/32") (p6 "2001:225::/32") (p6 "2001:224::/31")) = true := by decide +kernel
/-- /repo/ipv4/node_test.go `TestDeleteFromNilTree`, `TestDeleteSimple`, `TestDeleteLeftChild`, `TestDeleteRightChild`,
    `TestDeleteBothChildren`, `TestDeleteRecursiveNil`, `TestDeleteRecursiveLeftChild`, `TestDeleteRecursiveLeftChild32Promote`,
    `TestDeleteKeyTooBroad`, `TestDeleteKeyDisjoint` -/
example : (delNil (⟨0#32, 0⟩ : Prefix (BitVec 32)) && delWith (p4 "172.16.200.0/24") [] && delWith (p4 "172.16.200.0/24") [p4 "172.16.200.0/25"] &&
    delWith (p4 "172.16.200.0/24") [p4 "172.16.200.128/25"] && delWith (p4 "172.16.200.0/24") [p4 "172.16.200.0/25", p4 "172.16.200.128/25"] &&
    delFails (p4 "172.16.200.0/24") (p4 "172.16.200.0/25") && delChild (p4 "172.16.200.0/24") (p4 "172.16.200.0/25") &&
    delPromote (p4 "172.16.200.128/25") (p4 "172.16.200.0/25") && delFails (p4 "172.16.200.0/25") (p4 "172.16.200.0/24") &&
    delFails (p4 "172.16.200.0/25") (p4 "172.16.200.128/25")) = true := by decide +kernel
/-- /repo/ipv6/node_test.go, the same (`TestDeleteRecursiveLeftChild128Promote`) -/
example : (delNil (q6 0 0 0) && delWith (p6 "1720:16:200::/48") [] && delWith (p6 "1720:16:200::/48") [p6 "1720:16:200::/49"] &&
    delWith (p6 "1720:16:200::/48") [p6 "1720:16:200:8000::/49"] &&
    delWith (p6 "1720:16:200::/48") [p6 "1720:16:200::/49", p6 "1720:16:200:8000::/49"] &&
    delFails (p6 "1720:16:200::/48") (p6 "1720:16:200::/49") && delChild (p6 "1720:16:200::/48") (p6 "1720:16:200::/49") &&
    delPromote (p6 "1720:16:200:8000::/49") (p6 "1720:16:200::/49") && delFails (p6 "1720:16:200::/49") (p6 "1720:16:200::/48") &&
    delFails (p6 "1720:16:200::/49") (p6 "1720:16:200:8000::/49")) = true := by decide +kernel
/-- /repo/ipv4/node_test.go `TestAggregateEqualComparable`, `TestTrieNodeEqual`, `TestFlatten` -/
example : (aggEqual [(p4 "10.224.24.0/30", some 1), (p4 "10.224.24.0/31", some 2), (p4 "10.224.24.1/32", some 1), (p4 "10.224.24.0/32", some 2)]
      [(p4 "10.224.24.0/30", some 1), (p4 "10.224.24.0/31", some 2), (p4 "10.224.24.1/32", some 1)] &&
    nodeEqualAll ⟨0#32, 32⟩ ⟨1#32, 32⟩ ⟨0#32, 32⟩ ⟨0#32, 31⟩ &&
    [(p4 "1.2.3.0/24", true, zeroP, false, zeroP, false, true),
     (p4 "1.2.3.0/24", false, p4 "1.2.3.0/26", false, p4 "1.2.3.128/25", false, false),
     (p4 "1.2.3.0/24", false, p4 "1.2.3.0/26", false, p4 "1.2.3.128/26", false, false),
     (p4 "1.2.3.0/24", false, p4 "1.2.3.0/25", true, p4 "1.2.3.128/25", false, false),
     (p4 "1.2.3.0/24", false, p4 "1.2.3.0/25", false, p4 "1.2.3.128/25", true, false),
     (p4 "1.2.3.0/24", false, p4 "1.2.3.0/25", true, p4 "1.2.3.128/25", true, true)].all flattens) = true := by decide +kernel
/-- /repo/ipv6/node_test.go, the same -/
example : (aggEqual [(p6 "2001:2d24:24::0/126", some 1), (p6 "2001:2d24:24::0/127", some 2), (p6 "2001:2d24:24::1/128", some 1), (p6 "2001:2d24:24::0/128", some 2)]
      [(p6 "2001:2d24:24::0/126", some 1), (p6 "2001:2d24:24::0/127", some 2), (p6 "2001:2d24:24::1/128", some 1)] &&
    nodeEqualAll (q6 0 0 128) (q6 0 1 128) (q6 0 0 128) (q6 0 0 127) &&
    [(p6 "1:2:3::/48", true, zeroP, false, zeroP, false, true),
     (p6 "1:2:3::/48", false, p6 "1:2:3::/52", false, p6 "1:2:3:8000::/49", false, false),
     (p6 "1:2:3::/48", false, p6 "1:2:3::/52", false, p6 "1:2:3:8000::/52", false, false),
     (p6 "1:2:3::/48", false, p6 "1:2:3::/49", true, p6 "1:2:3:8000::/49", false, false),
     (p6 "1:2:3::/48", false, p6 "1:2:3::/49", false, p6 "1:2:3:8000::/49", true, false),
     (p6 "1:2:3::/48", false, p6 "1:2:3::/49", true, p6 "1:2:3:8000::/49", true, true)].all flattens) = true := by decide +kernel
/-- /repo/ipv4/table_test.go `TestTableTWalk`, `TestTableTWalkAggregates`, `TestTableTEqual` -/
example : (tableWalk (⟨0x0ae01800#32, 24⟩ : Prefix (BitVec 32)) && tableWalkAgg (⟨0x0ae01800#32, 24⟩ : Prefix (BitVec 32)) ⟨0x0ae01817#32, 32⟩ &&
    tableEqual (⟨0x0ae01801#32, 24⟩ : Prefix (BitVec 32)) ⟨0x0ae01800#32, 24⟩) = true := by decide +kernel
/-- /repo/ipv6/table_test.go, the same -/
example : (tableWalk (q6 0x2001 0x0180000 112) && tableWalkAgg (q6 0x2001 0x0180000 112) (q6 0x2001 0x0180017 128) &&
    tableEqual (q6 0x2001 0x0180001 112) (q6 0x2001 0x0180000 112)) = true := by decide +kernel
/-- /repo/ipv4/table_test.go `TestTableTDiff`, `TestTableMap`, `TestTableVariousComparators` -/
example : (tableDiff [(p4 "203.0.113.0/27", 1), (p4 "203.0.113.64/27", 1), (p4 "203.0.113.0/25", 1)]
      [(p4 "203.0.113.0/27", 1), (p4 "203.0.113.96/27", 1), (p4 "203.0.113.0/25", 0)]
      [(p4 "203.0.113.0/25", 1, 0), (p4 "203.0.113.64/27", 1, 0), (p4 "203.0.113.96/27", 0, 1)]
      [(p4 "203.0.113.0/25", 0, 1), (p4 "203.0.113.64/27", 0, 1), (p4 "203.0.113.96/27", 1, 0)] &&
    tableMap [(p4 "203.0.113.0/27", 1), (p4 "203.0.113.64/27", 1), (p4 "203.0.113.0/25", 1)] (p4 "0.0.0.0/0") &&
    comparatorRows [(p4 "203.0.113.0/27", 0), (p4 "203.0.113.0/28", 0), (p4 "203.0.113.0/29", 1), (p4 "203.0.113.0/30", 2), (p4 "203.0.113.0/31", 3),
        (p4 "203.0.113.0/32", 4)]
      [p4 "203.0.113.0/27", p4 "203.0.113.0/29", p4 "203.0.113.0/30", p4 "203.0.113.0/31", p4 "203.0.113.0/32"]
      [p4 "203.0.113.0/27", p4 "203.0.113.0/28", p4 "203.0.113.0/29", p4 "203.0.113.0/30", p4 "203.0.113.0/31", p4 "203.0.113.0/32"]
      [p4 "203.0.113.0/27", p4 "203.0.113.0/31", p4 "203.0.113.0/32"] [p4 "203.0.113.0/27", p4 "203.0.113.0/32"]) = true := by decide +kernel
/-- /repo/ipv6/table_test.go, the same -/
example : (tableDiff [(p6 "2001::1234:0/115", 1), (p6 "2001::1234:6400/115", 1), (p6 "2001::1234:0/113", 1)]
      [(p6 "2001::1234:0/115", 1), (p6 "2001::1234:9600/115", 1), (p6 "2001::1234:0/113", 0)]
      [(p6 "2001::1234:0/113", 1, 0), (p6 "2001::1234:6400/115", 1, 0), (p6 "2001::1234:9600/115", 0, 1)]
      [(p6 "2001::1234:0/113", 0, 1), (p6 "2001::1234:6400/115", 0, 1), (p6 "2001::1234:9600/115", 1, 0)] &&
    tableMap [(p6 "2001::1234:0/115", 1), (p6 "2001::1234:6400/115", 1), (p6 "2001::1234:0/113", 1)] (p6 "::/0") &&
    comparatorRows [(p6 "2001::1234:0/118", 0), (p6 "2001::1234:0/120", 0), (p6 "2001::1234:0/122", 1), (p6 "2001::1234:0/124", 2), (p6 "2001::1234:0/126", 3),
        (p6 "2001::1234:0/128", 4)]
      [p6 "2001::1234:0/118", p6 "2001::1234:0/122", p6 "2001::1234:0/124", p6 "2001::1234:0/126", p6 "2001::1234:0/128"]
      [p6 "2001::1234:0/118", p6 "2001::1234:0/120", p6 "2001::1234:0/122", p6 "2001::1234:0/124", p6 "2001::1234:0/126", p6 "2001::1234:0/128"]
      [p6 "2001::1234:0/118", p6 "2001::1234:0/126", p6 "2001::1234:0/128"] [p6 "2001::1234:0/118", p6 "2001::1234:0/128"]) = true := by decide +kernel

end RepoTest
end Addrs

# Formal model of go-addrs/addrs in Lean 4 — design

Everything is in `lean/Verif/*.lean` (one flat directory, namespace `Addrs`, no Mathlib import).  The
claims are in `properties.jsonl`, what is proved of each in `MANIFEST.json`, the tests of the theorems
against wrong programs in `seeded/LOG.jsonl`.

## 1. Layers of the model

Each layer is a transcription of Go code (every definition cites file and lines; `tools/cite.py` checks
that the cited lines hold the cited function) followed by proofs.

1. **Words** — `Word`, `U128`.  The class `GoWord` lists exactly the unsigned integer operations the
   code uses.  Two instances: `BitVec 32` (Go `uint32`, package ipv4) and `U128`, a literal transcription
   of `ipv6/uint128.go` (two 64-bit halves).  `LawfulGoWord` says that the operations are those of the
   `width`-bit unsigned integer; it is *proved* for both.  Everything above is written once, generically,
   and so holds for both families: ipv4/*.go and ipv6/*.go are copies that differ in these operations
   (where they differ in more — NumAddresses, NumPrefixes, IsEmpty, bytes, text — there is one definition
   per family, class `IPFamily`/`HeapFamily` or suffixes 4/6).
2. **Values** — `Prefix` (Address, Mask, Prefix, Range), `Compare` (contains/compare of node.go),
   `Bytes` (slices, `net.IP`, `net.IPMask`, `net.IPNet`, package ip), `Text` (String and …FromString, with
   the printers and parsers of package net they call).
3. **Tries as values** — `Trie`, `SetNode`, `Table` (node.go, setnode.go as total functions on immutable
   trees; a `*trieNode` is a tree, nil a constructor), `SetApi`, `TableApi` (set.go, table.go, tablex.go:
   a method of a mutable object is a function from the old to the new value).  Pointer comparisons,
   nil-comparator panics and sharing are not visible here.  Invariants and correctness: `SetInv`,
   `SetOps`, `SetRange`, `SetCanon`, `FindAvail`, `SetWalks`, `Walk`, `Count`, `SetApiProofs`; `TableInv`,
   `TableOps`, `TableDiff`, `TableDiffOrder`, `TableAgg`, `TableApiProofs`.
4. **Memory and goroutines**.
   * `Heap`: programs (`Prog`) are trees of primitive actions — read a node, write a node in place,
     allocate, load/CAS a mutable object, panic — over a heap of `trieNode` structs.  `wp` is a weakest
     precondition logic over the *part* of the heap the program may rely on (`View`).
   * `HeapNode`, `HeapSet`, `HeapTable`, `HeapSetApi`: node.go, setnode.go, tablex.go, table.go, set.go again,
     now line by line as such programs: with pointers, pointer-equality shortcuts (`a == b`), `copyMutate`
     and in-place `mutate`, Go's `==` on structs, comparators that panic, nil receivers, and the
     load – compute – compare-and-swap – panic pattern of every write to `Table_`/`Set_`.
   * `HeapSetProofs`, `HeapSetProofs2`, `HeapRead`, `HeapTableProofs`, `HeapAgg`, `HeapDiff`: the heap code
     returns a pointer to the tree that layer 3 computes (`Den`), writes only to nodes it allocated, does
     not panic, and does not run out of the recursion bound.
   * `Machine`: any number of threads, each one API call, interleaved action by action; a log of
     invocations, object accesses and responses.  `Conc`, `ConcInv`: a rely/guarantee program logic and
     the invariant of every reachable state.  `ConcLog`, `ConcTime`, `ConcLin`, `ConcProps`: consequences
     for whole executions (what a log says about time, linearizability, termination, panics).
     `TableLib`, `SetLib`, `TableLin`, `SetLin`: the two packages as instances.  `Exec`, `ConcSamples`:
     executable schedules, used to exhibit concrete executions.
5. **Specification** — `Spec` and `SpecTable`: addresses are numbers, a prefix is a set of numbers, a set
   is a predicate on addresses, a table is a finite map from (length, network number) to values, an
   iteration is `visit` over a list.  No vocabulary of tries.
6. **Properties** — `Prop*.lean`.  Each `Cxx_…` theorem is about API functions of layers 2–4 and the
   vocabulary of layer 5, followed by `example`s that show concrete values meeting its hypotheses.

## 2. Proof method

* Values: bit-level reasoning on arbitrary words (`bit`, `Agree n a b`: the first `n` bits agree), order
  and division arithmetic on `toNat`.
* Tries: structural induction with invariants `SetNode.Inv` (children strictly inside, right half; active
  nodes are leaves; inactive ones have two children; sizes) and `Trie.TInv`; the API type `Reachable` is the
  closure of the zero value under *all* operations, so statements quantify over all histories.
* Memory: `wp` of each heap function against the layer 3 function.  Recursion in Go is unbounded; the
  heap functions take a depth bound and running out of it is `stuck`.  It is *proved* that no call gets
  stuck if the bound is at least 2·width + 3 (67 for ipv4, 259 for ipv6; hypothesis `hF` of the theorems), so
  the recursion never goes deeper than that.
* Machine: an inductive invariant over arbitrary interleavings; no bound on threads, objects, steps.
  A `View` contains frozen nodes (reachable from a published root: nobody writes them) and the
  thread's own fresh nodes; allocation may return any unused address.
* False properties: where the code violates the documented behaviour, the *negation* is proved with a
  concrete witness and the strongest positive part is proved under the suffix `_partial`, with an exact
  characterisation where possible (`…_iff`).

## 3. Trusted base

* Lean's kernel.  Axioms: only `propext`, `Classical.choice`, `Quot.sound` (table at the end of this file,
  produced by `tools/axioms.py` from `#print axioms`).  No axioms of our own, no compiled evaluation.
* That the definitions transcribe the Go code.  Simplifications are stated at each definition; the ones
  that matter:
  - Go's semantics: unsigned wrap-around, shifts by at least the width give 0, struct `==` field by field,
    interface `==`, nil maps/slices/pointers, evaluation order of calls.  Where Go leaves the order open
    (`me.s.trie` against `other.Set()` in Set_ methods) the model has both orders (parameter `late`).
  - Memory: loads, stores and CAS on words are atomic and sequentially consistent.  The two words
    (trie, eq) of a mutable table object are loaded together.  CAS is `ipv4/unsafe_atomic.go:8-26`.  Nodes
    are never freed (garbage collection is invisible); address reuse for *new* nodes cannot happen while a
    pointer is live.  Memory exhaustion and stack overflow are not modelled.
  - Values of a table: any type `D` with decidable equality, compared by Go's `==` as identity (`structEq`, the
    comparison of interface values, panics for uncomparable types as in Go).  Most theorems are about comparable
    types; C69 carries them over to types on which `==` may panic (`Storable`), C72 covers interface types `T` with
    nil among their values, and C73 types with a total `==` that is not identity (floating point: NaN, ±0), with a
    stand-in for floating point numbers in the witnesses.
  - `PrefixI` and `SetI` are interfaces that users may implement: the model takes such an argument as the
    prefix or the set that its method returns.
  - Callbacks and mappers are functions on a state σ of the caller's choosing, except in C57, where they are
    arbitrary programs of the machine (they may use any part of the library, run into a panic, or never
    return).  Mappers that use the library (Map) are interference by another thread.
  - A goroutine making several calls, a builder used over time: sequences of threads of the machine (a
    call may be started at any time, with any objects and values that exist by then).
  - WalkRanges, WalkAddresses and NumPrefixes of a `Set_` on the machine are its WalkPrefixes with particular
    callbacks; `late` (above) is the only scheduling choice inside an expression.
  - A CAS compares pointers; a pointer that went away and came back (ABA) is possible in the model as in Go
    (the same node can become the root again) and the theorems account for it.
  - Cost (C48): one step is one action of the machine; reading a node counts once although Go reads its
    fields one by one (at most 7 times as many loads); arithmetic is free.
  - `ip.FirstFromRange`/`LastFromRange` in the model return the address as the Go code does: boxed in the
    interface type of its family.
  - Sets and tables run on separate machines (they share no memory).
  - Text: `net.IP.String`, `net.ParseIP`, `net.ParseCIDR`, `fmt.Sprintf("%s/%d")`, `strings.Split` are
    outside the repository; they are modelled from the Go 1.18 source.  A Go string is a list of characters.

  **How the transcription was checked.**  `tools/gotests.py` translates the authors' own unit tests (the text of
  /repo/ipv4/*_test.go and /repo/ipv6/*_test.go; nothing is run) to evaluations of the functional model:
  897 + 1822 rows and assertions in `Verif/RepoTests4.lean` and `Verif/RepoTests6.lean` (tries, sets, tables, ranges,
  text, uint128, Aggregate, Diff, Map, FindAvailablePrefix), each evaluated by the kernel (`decide +kernel`).  All agree.
  `Verif/RepoTestsNodes.lean` does the same by hand for the tests that are not tables (insert, update, match, get-or-insert,
  delete, equal and flatten of nodes; walk, diff, map, equal and comparators of tables).
  These are tests of the model, not proofs, and no claim rests on them.  Not translated: the tests of tableX (the same as
  those of Table), of address.go, mask.go and package ip, and tests with goroutines, random numbers or panics.
  The functional model and the heap model are tied by refinement theorems, so the agreement carries over.

## 4. What is modelled, file by file

| file | modelled | not modelled |
|------|----------|--------------|
| ipv4/address.go, ipv6/address.go | all | — |
| ipv6/uint128.go | all used operations | — |
| ipv4/mask.go, ipv6/mask.go | all | — |
| ipv4/prefix.go, ipv6/prefix.go | all | — |
| ipv4/range.go, ipv6/range.go | all | — |
| ipv4/node.go, ipv6/node.go | all that the public API reaches, twice (values, heap); `isValid` | `intMin` (unused) |
| ipv4/setnode.go, ipv6/setnode.go | all; what the API reaches twice, `Insert` and `Remove` (unit tests only) as values (C81) | — |
| ipv4/set.go, ipv6/set.go | all, `Set_` also concurrently; `String` in PropSetText | — |
| ipv4/table.go, tablex.go and ipv6 copies | all, twice (`tableX.Build`, `tableX.Aggregate`, which only unit tests call, through those of Table[T]); `Table_` also concurrently | `GetOrInsert`'s deferred function beyond the panic it raises |
| ipv4/unsafe_atomic.go | as the atomic CAS action | the pointer casts |
| ip/*.go | constructors, dispatch, conversions, text | — |
| cmd, examples, tests | — | not part of the library |

## 5. Property by property

| id | property | what is modelled | how it is proved | status | theorems in |
|---|---|---|---|---|---|
| C01 | Address byte / integer round trip | Bytes: byte slices of any length, big-endian assembly, uint32 / (uint64,uint64) | algebra on bit vectors; the number `beNat` of a byte list | proved | PropValues |
| C02 | Mask constructors accept exactly the contiguous masks | Bytes: masks | bitwise characterisation of leading-ones count = population count | proved | PropValues |
| C03 | 128-bit arithmetic of IPv6 is exact | U128: every operation of uint128.go on two 64-bit words | each operation equals the one on `BitVec 128`; statements on numbers below 2^128 | proved | PropValues |
| C04 | Prefix geometry | Prefix | bits, then division with remainder | proved | PropValues |
| C05 | Halves split a prefix exactly | Prefix.halves | as C04 | proved | PropValues |
| C06 | Range.Minus is interval difference | Prefix: Range.Minus with its wrap-around in prev/next | case analysis with order arithmetic | proved | PropValues |
| C07 | Range.Plus is interval union | Range.Plus | as C06; witness at the last address | partial | PropValues |
| C08 | Sets from Address / Prefix / Range contain exactly those addresses | SetNode.fromPrefix, fromRange (recursive), SetApi.toSet | induction on the number of common leading bits; `BadRange` characterises the ranges that go wrong | partial | PropSetExact, PropSets |
| C09 | Union is set union | SetNode.union + flatten | induction on both tries with invariant `Inv`; result stated through Contains only | proved | PropCode, PropConcMix, PropSeq, PropSets |
| C10 | Intersection is set intersection | SetNode.intersect | as C09 | proved | PropCode, PropSets |
| C11 | Difference is set difference | SetNode.difference with halves | as C09; measure: sum of lengths | proved | PropCode, PropConcMix, PropSeq, PropSets |
| C12 | Contains is subset, IsEmpty is emptiness | IPSet.contains, isEmpty (one per family) | as C09 | proved | PropCode, PropSets |
| C13 | Set.Equal is extensional equality | SetNode.equal | two `Inv` tries with the same members have the same prefixes up to host bits; witness with host bits; `Tidy`: closure under all operations without them | partial | PropCode, PropSets |
| C14 | Set representation is canonical: history does not matter | as C13 | canonicity theorem | proved | PropCode2, PropSets |
| C15 | IPv4 Set.NumAddresses is the cardinality | SetNode.numAddresses (int64) | counting over the 2^32 addresses, sum over disjoint blocks | proved | PropCode, PropSetCount |
| C16 | WalkPrefixes enumerates an ordered, disjoint, exact, maximal cover | IPSet.walkPrefixes = Trie.diff with nil | the walk is the in-order list of entries (`visit`); maximality from `Mergeable`-freeness | proved | PropCode, PropCode2, PropSets |
| C17 | Stored prefixes are the minimum possible | as C16 | a cover by prefixes refines the maximal blocks; counting nodes | proved | PropSets |
| C18 | WalkRanges enumerates maximal ranges | IPSet.walkRanges (state machine over WalkPrefixes) | loop invariant over the sorted list of blocks | proved | PropCode2, PropSets |
| C19 | IPv4 WalkAddresses enumerates each address once | Prefix.walkAddresses as a loop with wrap-around | the exact sequence of visited addresses for all sets; for the last address a proof that no number of iterations finishes; a larger bound on iterations changes nothing | partial | PropCode2, PropReenter, PropSetCount, PropWalkAddr |
| C20 | NumPrefixes counts the aligned prefixes contained | numPrefixes4, numPrefixes6 of Prefix, Range, Set | counting aligned blocks | proved | PropCode2, PropSetCount, PropSetExact |
| C21 | FindAvailablePrefix is sound | SetNode.findSmallest, findSmallestReserved, best | induction on both tries; witness for n > width | partial | PropCode, PropSetExact, PropSets |
| C22 | FindAvailablePrefix is complete and best-fit | as C21 | as C21: minimality over maximal free blocks | proved | PropCode2, PropSetExact, PropSets |
| C23 | Table_ behaves as a map from prefix to value | Trie.insert/getOrInsert/del, Table API | simulation of a finite map keyed by (network number, length), induction on the history | proved | PropCode, PropTableEntries, PropTableExact, PropTables |
| C24 | Table_.Remove reports whether the entry existed | Trie.del | exact condition; witness | partial | PropTableExact, PropTables |
| C25 | LongestMatch returns the longest entry containing the key | Trie.match | path lemma: the entries containing a key lie on one path | proved | PropCode, PropTables |
| C26 | NumEntries counts the entries | size field (uint32) | `size` = number of entries mod 2^32 | proved | PropCode, PropTables |
| C27 | Walk visits every entry once in lexicographic order | Trie.walk | sortedness of the in-order list | proved | PropCode, PropTables |
| C28 | Diff classifies every entry exactly once | Trie.diff, Diff | induction on the sum of sizes of both tries: the sequence of callbacks is a merge of the entry lists | proved | PropCode, PropTableDiff |
| C29 | Diff reports in lexicographic order | as C28 | exact order of the callbacks by induction on the run over both tries: which pairs are swapped, stated through smallest enclosing prefixes of entries; witness | partial | PropCode, PropDiffOrder, PropTableDiff |
| C30 | Skipping shared sub-tables in Diff is invisible | HeapDiff: pointer shortcut `me == other` | equal pointers denote equal trees; on any two Diff calls of any execution | proved | PropTableShared |
| C31 | Map keeps keys and maps values | Trie.map | simulation; witness of the extra mapper calls | partial | PropCode, PropTableDiff, PropTableEntries |
| C32 | Aggregate preserves every address lookup | Trie.aggregate | lookup of every address before and after; the loss condition is exact; witness | partial | PropAggExact, PropCode, PropTableAgg |
| C33 | Aggregate is minimal | Trie.aggregate; a specification PMap.aggregate of Aggregate on plain maps (no tries) | the result is exactly what the specification says (induction on the number of bits left, then on the trie); no redundant siblings, minimal if all values are equal; witness against minimality | partial | PropAggExact, PropCode, PropTableAgg |
| C34 | Snapshots are immutable | the concurrent machine | frozen nodes never change: invariant of every reachable state | proved | PropConcSets, PropConcTables |
| C35 | Mutable objects are references; clones are detached | the concurrent machine | objects are identities; own writes are seen | proved | PropConcSets, PropConcTables |
| C36 | Concurrent writers: atomic or panic | the concurrent machine, CAS and panic | linearizability of every execution by ordering the successful CASes (old roots come back only through Remove, and only when the span of the entries changes, or through Insert of a Set; HeapRoots: where the root that union and difference return comes from); witnesses of lost updates by explicit schedules | partial | PropConcBad, PropConcBad2, PropConcSets, PropConcSteady, PropConcSteady2, PropConcTables |
| C37 | Concurrent readers see a consistent state | the concurrent machine | a read loads the root once; the log tells when | proved | PropConcSets, PropConcTables |
| C38 | Internal panics are unreachable | the concurrent machine | `wp` excludes panic and stuck; termination by structural bound | proved | PropConcSets, PropConcTables, PropReads |
| C39 | Custom comparators suffice for non-comparable values | heap layer with comparators that may panic | `wp` for comparable values; explicit panicking runs otherwise | partial | PropPanics, PropStorable, PropTableCustom, PropUncomparable |
| C40 | Derived tables keep working with the comparator | heap layer, nil comparator | explicit panicking runs; reads proved | partial | PropPanics, PropTableDerived |
| C41 | Zero values and nil arguments | machine (nil receivers) and API (nil arguments) | case analysis; witness | partial | PropConcSets, PropConcTables, PropPanics, PropSets |
| C42 | Build is transactional | machine: Build as clone, arbitrary calls, snapshot | corollary of C34/C35 | proved | PropConcSets, PropConcTables |
| C43 | Prefix ordering is a strict total order | Prefix.lessThan | lexicographic order of (network, length, host) | proved | PropValues |
| C44 | net.IPNet / net.IPMask round trips and family dispatch | Bytes: net.IPNet, net.IPMask, package ip | round trips for arbitrary slices | proved | PropNet |
| C45 | Textual round trip | Text: printers and parsers of net and of the packages | a parser run on the printed text, for arbitrary values; witness | partial | PropText |
| C46 | Lookup depth is bounded by the address width | h field, real depth | lengths grow along every path | proved | PropSets, PropTables |
| C47 | Text of a set | IPSet.String, rangeString, maskString | injectivity of the printers | proved | PropCode2, PropSetText |
| C48 | Cost of single-key operations and snapshots | the machine; steps and allocations of a call | `Prog.AtMost`: a bound on actions along every branch, whatever is read | proved | PropCost |
| C49 | Contains and NumAddresses of prefixes and ranges | Prefix.Contains, Range.Contains, NumAddresses | from C08, C12, C20 | partial | PropContains, PropSetExact |
| C50 | The integrity check accepts everything | Trie.isValid | induction on the invariants; soundness of the check on arbitrary tries | proved | PropValid |
| C51 | Algebra of sets; taking a set apart and putting it together | the set API of C09-C18; the rebuilding loops as client code over WalkPrefixes/WalkRanges and Insert | from C09-C11 pointwise; rebuilding by induction over the visited list of C16/C18 | partial | PropAlgebra, PropSetExact |
| C52 | History of a set | Insert/Remove as Union/Difference (C34-C37 link them to the heap code) | induction on the history from its end | proved | PropAlgebra, PropConcMix, PropSeq, PropSeqSets |
| C53 | NumAddresses of combined sets | NumAddresses of C15 | counting over the address space, C15 and C09-C12 | proved | PropAlgebra |
| C54 | Allocating prefixes | a client loop over FindAvailablePrefix, Insert, Remove | invariant over the history, from C21, C22, C09, C11 | proved | PropAlloc |
| C55 | Allocating does not fragment the space | the same client loop without releases | invariant: maximal free blocks have pairwise different sizes (preserved because C22 takes from a smallest block that fits); a geometric sum bounds the free addresses when nothing fits | proved | PropAlloc |
| C56 | Which texts are accepted | the parsers and printers of C45 (package net as in Go 1.18) | inversion lemmas for dtoi, parseIPv4, ParseCIDR: an accepted text is taken apart into what the printer prints | partial | PropParse |
| C57 | Callbacks may use the library | Walk, Diff, Map, WalkPrefixes, WalkRanges on the heap, with callbacks that are programs of the machine (Verif/Reenter.lean, Verif/ReenterWalk.lean, Verif/ReenterMap.lean) | frame argument: code of the library writes only to nodes it allocated itself, so the nodes of the walked value stay (Tame, by recursion over every API call); then induction over the depth of the tries. For Map: the nodes that Map has allocated and not finished are hidden from the mapper, by induction over the depth | proved | PropReenter, PropReenterMap |
| C58 | Tables and sets are values | a program is a function from the results seen so far to the next call; it is run with Prog.run on the heap model of every call (Verif/Seq.lean, SeqTable.lean, SeqSet.lean) | simulation: the heap stands for a world of plain tables and sets; the specification of every call proved for the machine (C34-C38) gives one step; C58_*_machine shows that the run is an execution of the machine | proved | PropSeq |
| C59 | Sets are mathematical sets | the programs of C58; a world of predicates on addresses as the specification (SCmd.Explained) | simulation of the world of C58 by the world of predicates, one call at a time from C08-C22; uniqueness of the listing by order and maximality | proved | PropSeqSets |
| C60 | Tables are maps | the programs of C58; a world of maps from prefixes to entries as the specification (TCmd.Explained) | simulation of the world of C58 by the world of maps, one call at a time from C23-C33 | proved | PropSeqTables |
| C61 | No data races | the machine of C34-C38 with every step labelled by the memory access it makes (Verif/Race.lean); happens-before from program order, the synchronisation of the client between calls, and successful swaps to later atomic operations on the same root | invariant over traces: every node a goroutine can reach was allocated and last written at a step that happens before its own next step (by what it was handed, by what it allocated, or by the root it loaded); a write goes only to nodes of the writer that no other goroutine can reach | partial | PropRace |
| C62 | Concurrent writers cannot corrupt or lose unrelated data | the machine of C34-C38 | what each call did (the specification of C34-C38) gives the first part; the rest by induction over the versions of the object: a swap replaces the version that the writer read first by the write applied to a version it read in between (Verif/ConcKeep.lean, keeps) | proved | PropConcMix |
| C63 | Diff costs no more than the changes | the machine of C34-C38 and its count of steps (C48); which nodes of the heap are reachable from two roots (Verif/HeapShare.lean) | every write shares with the version it started from all nodes whose prefix does not contain its key (induction over insert and del on the heap); so do all versions of an object since a time without writes in progress (induction over the versions); Diff stops at equal pointers, and by the order of the trie a node it reads from either side that is not common to both contains a written key (Verif/HeapDiffCost.lean) | proved | PropDiffCost |
| C64 | Memory is proportional to the minimum | the heap of the machine of C34-C38; the nodes reachable from a root (In) | the tree a root stands for has no fewer positions than it has nodes; invariant: inactive nodes have two children; C17 | proved | PropMemory |
| C65 | Cost of set operations | the machine of C34-C38 and its count of steps (C48) | the numbers of recursive calls of Union, Difference, Intersect and setNodeFromRange as functions on trees (Verif/SetCost.lean, SetCost2.lean), bounded by counting for each node of one set the nodes of the other that contain it or are contained in it on the way (at most one path); each call costs a fixed number of steps on the heap (HeapSetCost.lean, HeapReadCost.lean, HeapSetCost2.lean, SetCallCost.lean); Takes.lean carries such bounds from code to all executions | proved | PropSetCost |
| C66 | Cost of going through tables | the machine of C34-C38 and its count of steps (C48) | induction over the trees on the heap: a fixed number of steps for each node (Verif/TableCost.lean, HeapReadCost.lean); a table has at most twice as many nodes as entries (C64); Takes.lean carries the bounds to all executions | proved | PropTableCost |
| C67 | Callbacks may do anything | programs as trees of calls whose callbacks are such trees again (Verif/Script.lean), run on the heap of C34-C38; the specification is the same tree run in a world whose variables hold maps (or sets) and whose values are maps (or sets) | induction over the program; a call is C60 (C59) with the nodes hidden that a running Map has not finished; a walk is run_walkR (C57) and an induction over its calls; Map is run_xMapR (C57_map); Verif/ScriptSim.lean, PropScript.lean, PropScriptSets.lean | proved | PropScript, PropScriptSets |
| C68 | Which calls on tables panic | the heap of C34-C38 with the three ways a table can compare values (none, ==, a custom function that fails on the interface nil of an inactive node); the specification is a world of variables and values that are maps with a comparison function, and a predicate on maps that says which calls panic | exact run theorems for Map, Aggregate and Diff on the heap, returning and panicking (Verif/Panics.lean, PanicsAgg.lean, PanicsDiff.lean, PanicStep.lean), the shape of tables with a custom function (Tidy.lean), and the translation of the condition on nodes to one on entries (Calm.lean); then induction over the program | proved | PropPanics |
| C69 | Values that == cannot compare | the machine of C34-C38 over values for which == may panic (Storable), and the same machine over the same values with an == that does not | every call over the former is the same program as over the latter, except that it may panic where the latter goes on, and not after its swap (Verif/Cut.lean, by induction over the code); simulation of executions (Verif/CutMachine.lean) | proved | PropStorable |
| C70 | Which calls on tables panic when the values cannot be compared | sequential programs as in C68, over values for which == always panics | for each function of node.go, exactly when its code panics with such values (Verif/Uncomp.lean, UncompAgg.lean, UncompKeys.lean, UncompLoud.lean), read off as a condition on the entries; where it does not panic it does what it does with comparable values (Verif/Cut.lean), so C68 says the rest; induction on the number of calls (Verif/PropUncomparable.lean) | proved | PropUncomparable |
| C71 | Trying again after a concurrent modification | The concurrent machine (Machine.lean): every call of tables and sets as code on the heap, interleaved action by action; a failed compare-and-swap is recorded in the log. | A failed compare-and-swap expected a root that the call had read: the invariant of the machine gives the read, the log replay gives a successful swap by another thread after it (fail_race); a thread swaps at most once (swap_facts), so attempts in turn are hit by different threads (retry, induction over the attempts); a thread that swapped runs to its return (run_to_end, no_fail_swap). | proved | PropRetry |
| C72 | Nil in tables of an interface type | the calls of table.go over an interface type T: the values of T are Option V, with none for nil, which is also the Data of a node (Verif/Iface.lean); a custom comparison function that panics on nil | each function of node.go on a trie whose Data are such values does what the same function does on the trie with boxed values, the boxes forgotten (Trie.flat, Verif/IfaceFlat.lean); with the run theorems for the heap this gives each call (IfaceStep.lean, IfaceRun.lean), and the simulation by maps of C60 the rest; induction on the number of calls | partial | PropIface |
| C73 | Values for which == is not identity | the heap of C34-C38 over values with any total, symmetric and transitive == (class Total in Verif/HeapNode.lean); the same specification as C60, with == in place of identity | the run theorems for the heap, proved for Total types (copyMutate changes a node only if == sees a difference; each use of it is shown to lose nothing, Keeps in Verif/HeapTableProofs.lean, or, in Aggregate, no more than == can tell, wp_aggregate_total in Verif/HeapAgg.lean), and the laws of tables as maps for an arbitrary comparison function (Verif/FloatStep.lean, FloatRun.lean); induction on the number of calls. Witnesses with a stand-in for floating point numbers | partial | PropFloat |
| C74 | Aggregating an aggregated table | Trie.aggregate (Verif/Table.lean) and Table.aggregate, Table.table_ (Verif/TableApi.lean) as for C32/C33; the specification ClosestEntry/NoRepeat/NoPair on the list of entries | induction over the trie: a trie with nothing to do is returned as it is, any other loses an entry; after one round only entries without anything below them repeat the value above; the second round removes these and cannot create new pairs, because a node that takes the place of its parent is longer (Verif/AggTwice.lean); false for one round: a table of four entries | partial | PropAggTwice |
| C75 | Copying and synchronising tables | Table.diff, walk, insert, update, remove (Verif/TableApi.lean), with callbacks that carry a Table_ as their state (syncCbs, copyInto in Verif/PropSync.lean) | the list of changes of C28 and the laws of tables as maps of C23: along the list, the table under construction shows the map to which the changes so far have been applied; induction over the list. Exchange: membership in the list of changes characterised by the entries of both tables | proved | PropSync |
| C76 | Tables and sets together | the table API and the set API together (Verif/PropBoth.lean) | C25 and C27 for tables, C09, C14 and C16 for sets; the aggregated trie without its values is a canonical set trie (strip_spec in Verif/TableAgg.lean), and canonical tries with the same addresses have the same prefixes (C14) | proved | PropBoth |
| C77 | A write changes only the lookups it should | Table.step (one call on a Table_) and Table.longestMatch, Table.get (Verif/TableApi.lean) | one call changes the map of C23 under its own key only; LongestMatch is determined by the entries that contain its argument (C25), and so compared before and after (Verif/PropLocal.lean) | proved | PropLocal |
| C78 | Map goes well with the other calls | Table.map with a mapper without effects (Verif/TableApi.lean), and the lookups, writes, Diff and Aggregate of the result | Map keeps the list of prefixes and maps the values (C31_map); each of the other calls is determined by the entries (C23, C25, C28, C76), and so compared before and after (Verif/PropMap.lean) | proved | PropMap |
| C79 | Calculating with the ranges of sets | IPSet.walkRanges, difference, intersection, contains, numAddresses (Verif/SetApi.lean), Range.minus (Verif/Prefix.lean) | lists of ranges with gaps are determined by their addresses (Gapped.unique, induction over both lists); subtracting ranges keeps the gaps and removes the addresses (C06), for every list (induction); with C18, C10-C12, C15 | proved | PropRanges |
| C80 | Minus and Plus agree with the sets of ranges | as for C79, with Range.plus and the sets of ranges | the range that the code takes a range for (C08_range_exact) and C79; witnesses where C07 and C08 fail | partial | PropRanges |
| C81 | Set tries of the package: Insert and Remove | setNode.Insert and setNode.Remove, i.e. trieNode.insert and trieNode.del with the option flatten, with their panics (SetNode.insertKey, delKey, removeKey, Verif/SetEdit.lean) | induction over the trie: Insert is Union with the prefix or nothing (insertKey_eq); Remove keeps the invariant of set tries, where splitting an active prefix uses only ranges that setNodeFromRange gets right (good_start, good_end); then induction over the history; a witness for the lost Insert | partial | PropSetEdit |
| C82 | Nil callbacks | the walks and Diff of C57 with callbacks that may be nil, where calling nil panics (Verif/PropNil.lean) | from C57: with the callback that panics at once the visit of the list panics unless the list is empty; Diff by comparing what it reports change by change | partial | PropNil |
| C83 | No call returns a malformed value | an inductive predicate with one rule for each call that makes a mask, prefix, range, set or table from others (ApiValue.Made, Verif/PropMade.lean) | induction over how the value was made, with C02, C06, C16, C18, C21, C25 and C44; conversely each well formed value by MaskFromLength and PrefixFromAddressMask, RangeFromAddresses, MaskFromUint, and induction over how the set or table was built; the witness of C21 | partial | PropMade |
| C84 | Every prefix has its own history | the calls of C23 on tables (Table.step, runOps) | C23_entries, which replaces the table by a map from keys to entries; the part of that map under one key is a machine of its own (cell), driven by the calls for the key only (run_cell); then equal maps give equal lists, as both are in lexicographic order | partial | PropOrder |
| C85 | Lookups of prefixes and of what is inside them | Get and LongestMatch of C25 | from longestMatch_iff (LongestMatch is the longest of the entries that contain the argument) and from the order of prefixes by containment (ContainsP.down, ContainsP.nest) | proved | PropLookup |
| C86 | How many prefixes sets have | the operations of C08 to C11 and WalkPrefixes | C17_minimal: the set has no more prefixes than any list of prefixes that covers it; so it is enough to give such a list (Cover): both lists; those inside one of the other list; the first list with one prefix replaced by the at most q.len - p.len prefixes that are left of p without q (complement_cover, by halving p); for a range the halves of the shortest prefix around it (interval_cover, up_cover, down_cover), also by halving; for the number of ranges, each range has a prefix of its own that contains its first address (pigeon) | proved | PropSizes |

Properties marked partial: what is missing, or why the property is false of the code, is in the notes of
MANIFEST.json:

* C07: The addresses are always exactly those of the union. The shape (one range if they touch) is false of the code exactly when the range that starts first ends at the last address (C07_plus_exact); even r.Plus(r) then returns two ranges: [0.0.0.5,255.255.255.255].Plus([0.0.0.7,0.0.0.9]) returns two overlapping ranges.
* C08: False of the code for ranges: [10.0.0.1,10.0.0.2].Set() holds four addresses. Proved exactly for addresses, prefixes; for ranges what the set holds is characterised in every case (C08_range_exact).
* C13: False of the code with host bits (10.0.0.1/24 vs 10.0.0.0/24). Proved for all sets made without such prefixes, by any combination of operations.
* C19: False of the code for sets holding 255.255.255.255: never terminates.
* C21: False for lengths above the width: then a result is never a prefix, and there is one exactly if anything is free (C21_too_long; C22_exact: what it is).
* C24: False of the code: Remove of a prefix that is not an entry but has entries in both halves returns true. Exactly characterised.
* C29: False of the code: {10.0.0.0/24} vs {11.0.0.0/8} is reported in the wrong order. The order is characterised exactly (C29_order_exact): two reported prefixes are swapped iff the entries each table has inside their smallest common prefix lie in a prefix of their own and the one of the left table is longer; C29_order_iff: when everything is in order. C29_order_partial: order per side, containing prefix first, full order when the keys of one table are among those of the other.
* C31: False of the code: the mapper is also called for prefixes of inactive internal nodes.
* C32: False of the code: merging two halves drops more specific entries. Proved under a no-loss hypothesis (C32_lookup_partial, C32_disjoint_partial); the entries of the result, from which every lookup follows with C25, are characterised exactly (C33_exact).
* C33: False of the code in general.
* C36: False of the code: a Remove can be lost, and removed entries can come back, without any panic. Proved (linearizability, for any number of goroutines) when no Remove overlaps a write of another kind; and, with writes of all kinds that overlap in any way, while the smallest prefix that contains all the entries (members) stays the same, for instance because a table has a default route that nobody removes, or a set has an address in the lower and one in the upper half of all addresses that nobody removes (for sets only if the arguments of Insert are addresses, prefixes or ranges: a Set brings its own root, which may have been there before; C36_set_halves_needs_plain is an execution that shows that this condition is needed).
* C39: False of the code: with slices, Insert below an entry and Map panic; with any type, Map and Aggregate panic on internal nodes without a value. Proved for comparable values without Map and Aggregate.
* C40: False of the code: the result of Aggregate has no comparison function, so Diff, Map and Aggregate on it panic, and Table_() falls back to ==. Proved: reads, and Table_() for the default comparison function.
* C41: False of the code in one point: FindAvailablePrefix(nil, n) panics.
* C45: False as stated for ipv6 (C45_v6_counterexample): addresses in ::ffff:0:0/96 are printed as dotted IPv4 text, which package ipv6 rejects and package ip reads as an IPv4 value. Proved exactly for which values the round trip holds, for all addresses and prefixes of both families and for package ip.
* C49: Prefixes: proved in full. Ranges: false of the code exactly for the ranges of C08 (ends symmetric in an aligned block); then Contains may be true and NumAddresses too large (C49_range_counterexample); never wrongly false. What they return in every case: the _exact theorems.
* C51: Everything but rebuilding from WalkRanges is proved in full; that is false of the code exactly when a maximal run of the set is one of the ranges of C08 (C51_rebuild_ranges_exact, which also says what is rebuilt).
* C56: Proved in full for addresses and for IPv4 prefixes. False of the code for IPv6 prefixes whose address is a mapped IPv4 address: accepted, but printed as a text that is rejected (C56_prefix_counterexample).
* C61: README.md 90-99 says one can read and write concurrently. The full statement is false of the code (C61_tables_false, C61_sets_false: a concrete reachable execution with a race): writers swap the root with atomic.CompareAndSwapPointer (ipv4/unsafe_atomic.go, ipv4/set.go:36-45, ipv4/tablex.go:67-75) but readers and writers load it with a plain load. Proved: no other race exists. With atomic loads there would be none in any execution (the _atomic theorems), and with the code as it is there is none if a write to a Table_ or Set_ does not overlap with another call on it; values (Table, Set) may be used by any number of goroutines meanwhile.
* C72: False of the code for tables with a custom comparison function: NewTableCustomCompare_ asserts a.(T), which panics if a is nil, so Update, InsertOrUpdate and Diff panic when a nil is to be compared (C72_custom_nil_false; C72_panics says exactly when the methods of Table_ do). Proved in full for programs without custom comparison functions (C72_default), and for those that give them no nil (C72_tables_partial). The values that the interface holds are of types on which == is identity.
* C73: False of the code for values that are not equal to themselves (NaN): Diff skips nodes that the tables share without comparing, so with unchanged nil it reports such an entry as changed or not depending on which nodes the tables share (C73_nan_false, C73_nan_shared). Proved for programs whose Diffs without unchanged meet no such entry in both tables. Map on a table with a custom comparison function drops changes that == does not see (C73_map_false; such Maps are outside C60 as well, C39). Aggregate is covered as in C60, with values that are the same or equal by ==: entries whose value is not equal to itself are never merged or dropped as redundant.
* C74: False of the code: entries of a prefix that are merged into an entry that now has the value of the entry around it stay until the next Aggregate (C74_idempotent_false). Proved: the second Aggregate changes nothing exactly if no entry of the first result repeats the value of the entry that most closely contains it (C74_idempotent_partial); such entries contain no others (C74_leftover); a third Aggregate never changes anything (C74_twice); Aggregate changes nothing exactly if nothing is to be done, and otherwise the result has fewer entries (C74_unchanged_iff, C74_fewer; any comparison function that is an equivalence). The repeated Aggregate goes through Table_().Table(), because the result of Aggregate has no comparison function.
* C80: False of the code: for the ranges of C08 the set has more addresses (C80_counterexample), and Plus returns overlapping ranges where C07 says (C80_plus_counterexample). Proved for all others; C80_minus_exact, C80_plus_exact and C80_range_exact say for all valid ranges what is computed.
* C81: False of the code: Insert of 10.0.0.0/24 after 10.0.0.0/26 and 10.0.0.128/25 does nothing (C81_counterexample). C81_history_exact says for every history what the set is; Remove is always right; Insert is Union unless the set has addresses in both halves of the prefix, and then it does nothing. No function of the API calls the two.
* C82: False of the code for the walks of the API: Walk(nil) of a table that is not empty and WalkPrefixes(nil), WalkRanges(nil), WalkAddresses(nil) of a set that is not empty panic (C82_counterexample), because the nil callback is wrapped in a function that is not nil before trieNode.Walk tests it; of an empty one they return true (the _partial theorems say exactly when). Diff for comparators that call every value equal to itself or with unchanged not nil (for others C73). Walk(nil) of the untyped tables returns true (C82_walk_untyped).
* C83: False of the code: FindAvailablePrefix with a length above 32 (128) returns a prefix of that length (C83_counterexample). With no such length, both directions, for both families: C83_v4_partial, C83_v6_partial.
* C84: False of the code for what Remove returns: removing 10.0.0.0/24, no entry, is reported as done after its two halves were inserted, and not before (C84_counterexample). Everything else: C84_history_partial, C84_alone_partial; the order of calls for different prefixes without exception: C84_order.

## 6. Axioms of each theorem

From `#print axioms` (`tools/design.py`):

* **Classical.choice, Quot.sound, propext** (428 theorems): C01_v4_roundtrip, C01_v4_toNetIP, C01_v4_unique, C01_v6_roundtrip, C01_v6_toNetIP, C01_v6_uint16, C01_v6_unique, C02_fromLength, C02_fromWord, C02_inverse, C02_value, C03_bitwise, C03_compare, C03_leadingZeros, C03_onesCount, C04_broadcast, C04_host, C04_network, C04_range, C05_exactlyOne, C05_halves, C06_minus, C07_plus_addresses, C07_plus_exact, C07_plus_partial, C08_address, C08_prefix, C08_range_bad_block, C08_range_counterexample, C08_range_counterexample6, C08_range_exact, C08_range_exact_iff, C08_range_partial, C08_range_superset, C09_code, C09_union, C10_code, C10_intersection, C11_code, C11_difference, C12_code, C12_code_isEmpty, C12_code_isEmpty_v6, C12_contains, C12_contains_nil, C12_contains_v4, C12_contains_v6, C12_isEmpty, C12_isEmpty_v4, C12_isEmpty_v6, C12_nil, C13_code, C13_equal_counterexample, C13_equal_iff_prefixes, C13_equal_partial, C13_equal_sound, C13_equal_tidy_partial, C13_tidy_walk_partial, C14_canonical, C14_code, C14_walk, C15_code, C15_numAddresses, C16_code, C16_code_maximal, C16_walkPrefixes, C17_minimal, C17_nodes, C18_code, C18_walkRanges, C19_bound, C19_code_partial, C19_exact_partial, C19_never_ends_any, C19_reentrant_partial, C19_stopped, C19_walkAddresses_partial, C19_wraps, C20_code4, C20_code6, C20_numPrefixes4, C20_numPrefixes6, C20_prefix6, C20_range4_exact, C20_range6_exact, C20_too_long6, C21_code, C21_sound_partial, C21_too_long, C22_bestFit, C22_code, C22_exact, C23_code_get, C23_entries, C23_history, C23_shows, C24_remove_counterexample, C24_remove_exact, C24_remove_map, C24_remove_partial, C25_code, C25_get, C25_longestMatch_found, C25_longestMatch_get, C25_longestMatch_notFound, C26_code, C26_numEntries, C26_numEntries_mod, C27_code, C27_complete, C27_sorted, C28_apply, C28_code, C28_diff, C29_order_counterexample, C29_order_exact, C29_order_iff, C29_order_partial, C29_report_unique, C30_shared, C31_calls_counterexample, C31_calls_exact_partial, C31_calls_partial, C31_code, C31_map, C32_code, C32_disjoint_partial, C32_found, C32_lookup_counterexample, C32_lookup_partial, C32_value, C33_code, C33_exact, C33_exact_default, C33_length, C33_minimal_counterexample, C33_minimal_partial, C33_siblings, C34_set, C34_table, C34_table_repeat, C35_set_clone, C35_set_fresh, C35_set_own_writes, C35_table_clone, C35_table_fresh, C35_table_own_writes, C36_lost_remove, C36_resurrected_insert, C36_set_halves_needs_plain, C36_set_halves_partial, C36_set_oneKind_partial, C36_set_oneWriter_partial, C36_set_partial, C36_set_pinned_partial, C36_set_resurrected_insert, C36_set_steady_partial, C36_table_defaultRoute_partial, C36_table_oneKind_partial, C36_table_oneWriter_partial, C36_table_partial, C36_table_pinned_partial, C36_table_steady_partial, C37_set, C37_table, C38_set_panics, C38_set_progress, C38_set_reads, C38_set_returns, C38_set_terminates, C38_table_panics, C38_table_progress, C38_table_reads, C38_table_returns, C38_table_terminates, C39_partial, C40_partial, C41_set_read, C41_table_read, C42_set, C42_table, C43_containerFirst, C43_lessThan, C43_strictTotal, C44_addressMask, C44_ip_accessors, C44_ip_address, C44_ip_address_roundtrip, C44_ip_mask, C44_ip_net_roundtrip, C44_mask_accepts, C44_mask_roundtrip, C44_net_roundtrip, C44_uint, C44_v4_net_accepts, C44_v6_net_accepts, C45_ip_address, C45_ip_prefix, C45_partial, C45_v4_roundtrip, C45_v6_address, C45_v6_counterexample, C45_v6_injective, C45_v6_never_mapped, C45_v6_prefix, C46_height, C46_table_height, C47_code, C47_determines, C47_equal, C47_format, C47_hostbits, C47_range_mask, C47_readable, C48_lookup, C48_set_snapshot, C48_snapshot, C48_write, C49_prefix_contains, C49_prefix_contains_exact, C49_prefix_prefix, C49_prefix_range, C49_range_contains_exact, C49_range_contains_partial, C49_range_counterexample, C49_range_never_false, C49_range_numAddresses_exact, C49_range_numAddresses_partial, C49_range_range_exact, C49_range_range_partial, C50_check, C50_set, C50_table, C51_equal, C51_laws, C51_rebuild_prefixes, C51_rebuild_ranges_counterexample, C51_rebuild_ranges_exact, C51_rebuild_ranges_partial, C52_history, C52_history_any, C53_count, C53_monotone, C54_alloc, C54_served, C55_noFragmentation, C55_onePrefix, C56_address_again, C56_ip_address, C56_ip_prefix, C56_prefix_again_partial, C56_prefix_counterexample, C56_v4_address, C56_v4_colon_counterexample, C56_v4_prefix, C57_diff, C57_map, C57_set_unchanged, C57_unchanged, C57_walk, C57_walkPrefixes, C57_walkRanges, C58_sets, C58_sets_machine, C58_tables, C58_tables_machine, C59_sets, C60_differ_unique, C60_tables, C61_sets_atomic_partial, C61_sets_false, C61_sets_partial, C61_tables_atomic_partial, C61_tables_partial, C62_set_gone, C62_set_kept, C62_set_origin, C62_set_valid, C62_set_versions, C62_set_write, C62_table_gone, C62_table_kept, C62_table_origin, C62_table_valid, C62_table_versions, C62_table_write, C63_copy, C63_snapshots, C63_versions, C64_set, C64_set_object, C64_table, C64_table_object, C65_address, C65_arguments, C65_linear, C65_looks, C65_small, C65_union, C66_aggregate, C66_diff, C66_map, C66_walk, C67_build, C67_build_proper, C67_sets, C67_tables, C68_exact, C69_atomic, C69_own_writes, C69_panics, C69_progress, C69_reads, C69_snapshots, C70_exact, C71_set_detected, C71_set_retry, C71_set_succeeds, C71_set_winner, C71_table_detected, C71_table_retry, C71_table_succeeds, C71_table_winner, C72_custom_nil_false, C72_default, C72_panics, C72_tables_partial, C73_nan_false, C73_nan_shared, C73_tables_partial, C74_fewer, C74_idempotent_false, C74_idempotent_partial, C74_leftover, C74_twice, C74_twice_settled, C74_unchanged, C74_unchanged_iff, C75_copy, C75_mirror, C75_mirror_counts, C75_sync, C75_sync_done, C75_sync_same, C76_aggregate, C76_footprint, C76_round_trip, C76_spread, C77_count, C77_elsewhere, C77_get, C77_longer, C77_remove_absent, C77_removed, C77_written, C78_aggregate, C78_compose, C78_diff, C78_get, C78_identity, C78_longestMatch, C78_prefixes, C78_write, C79_contains, C79_count, C79_difference, C79_intersection, C79_prefix, C79_prefix_minus, C79_ranges, C80_counterexample, C80_minus_exact, C80_minus_partial, C80_plus_counterexample, C80_plus_exact, C80_plus_partial, C80_range_exact, C81_canonical, C81_history_exact, C81_history_partial, C81_insert_lost, C81_insert_partial, C81_remove, C82_diff_nil, C82_walkAddresses_partial, C82_walkPrefixes_partial, C82_walkRanges_partial, C82_walk_partial, C82_walk_untyped, C83_complete, C83_counterexample, C83_v4_partial, C83_v6_partial, C84_alone_partial, C84_history_partial, C84_order, C85_addresses, C85_between, C85_get, C85_nested, C85_same, C86_address, C86_built, C86_difference, C86_intersection, C86_prefix, C86_range, C86_range4, C86_range6, C86_ranges, C86_union
* **Quot.sound, propext** (55 theorems): C01_v4_fromBytes, C01_v4_fromNetIP, C01_v4_fromSlice, C01_v6_fromNetIP, C01_v6_fromSlice, C02_fromBytes, C03_addSub, C03_shifts, C07_plus_counterexample, C07_plus_wraps, C19_never_ends, C20_prefix4, C20_too_long4, C21_counterexample, C23_empty, C23_key, C25_longestMatch_zero, C27_walk, C31_nil, C39_aggregate_nil_panics, C39_fails_for_numbers, C39_fails_for_slices, C39_map_nil_panics, C39_map_panics, C39_nested_insert_panics, C40_aggregate_again_panics, C40_diff_panics, C40_fails, C40_map_panics, C40_other_equality, C41_findAvailable_nil, C41_set_nil, C41_set_write, C41_table_nil, C41_table_write, C44_ip_families, C44_ip_net, C49_prefix_numAddresses, C56_address_families, C57_map_nil, C57_runs_alone, C59_listing_unique, C60_listing_unique, C61_tables_false, C67_set_build, C69_history, C72_custom_nil_same_calls, C73_map_false, C81_counterexample, C82_build_nil, C82_counterexample, C82_map_nil, C82_set_build_nil, C84_counterexample

# Formal model of go-addrs/addrs in Lean 4 — design

Everything is in `lean/Verif/*.lean` (one flat directory, namespace `Addrs`, no Mathlib import).  The
claims are in `properties.jsonl`, what is proved of each in `MANIFEST.json`, the tests of the theorems
against wrong programs in `seeded/LOG.jsonl`.

## 1. Layers of the model

Each layer is a transcription of Go code (every definition cites file and lines; `tools/cite.py` checks
that the cited lines hold the cited function) followed by proofs.

1. **Words** — `Word`, `U128`.  The class `GoWord` lists exactly the unsigned integer operations the
   code uses.  Two instances: `BitVec 32` (Go `uint32`, package ipv4) and `U128`, a literal transcription
   of `ipv6/uint128.go` (two 64-bit halves).  `LawfulGoWord` says that the operations are those of the
   `width`-bit unsigned integer; it is *proved* for both.  Everything above is written once, generically,
   and so holds for both families: ipv4/*.go and ipv6/*.go are copies that differ in these operations
   (where they differ in more — NumAddresses, NumPrefixes, IsEmpty, bytes, text — there is one definition
   per family, class `IPFamily`/`HeapFamily` or suffixes 4/6).
2. **Values** — `Prefix` (Address, Mask, Prefix, Range), `Compare` (contains/compare of node.go),
   `Bytes` (slices, `net.IP`, `net.IPMask`, `net.IPNet`, package ip), `Text` (String and …FromString, with
   the printers and parsers of package net they call).
3. **Tries as values** — `Trie`, `SetNode`, `Table` (node.go, setnode.go as total functions on immutable
   trees; a `*trieNode` is a tree, nil a constructor), `SetApi`, `TableApi` (set.go, table.go, tablex.go:
   a method of a mutable object is a function from the old to the new value).  Pointer comparisons,
   nil-comparator panics and sharing are not visible here.  Invariants and correctness: `SetInv`,
   `SetOps`, `SetRange`, `SetCanon`, `FindAvail`, `SetWalks`, `Walk`, `Count`, `SetApiProofs`; `TableInv`,
   `TableOps`, `TableDiff`, `TableDiffOrder`, `TableAgg`, `TableApiProofs`.
4. **Memory and goroutines**.
   * `Heap`: programs (`Prog`) are trees of primitive actions — read a node, write a node in place,
     allocate, load/CAS a mutable object, panic — over a heap of `trieNode` structs.  `wp` is a weakest
     precondition logic over the *part* of the heap the program may rely on (`View`).
   * `HeapNode`, `HeapSet`, `HeapTable`, `HeapSetApi`: node.go, setnode.go, tablex.go, table.go, set.go again,
     now line by line as such programs: with pointers, pointer-equality shortcuts (`a == b`), `copyMutate`
     and in-place `mutate`, Go's `==` on structs, comparators that panic, nil receivers, and the
     load – compute – compare-and-swap – panic pattern of every write to `Table_`/`Set_`.
   * `HeapSetProofs`, `HeapSetProofs2`, `HeapRead`, `HeapTableProofs`, `HeapAgg`, `HeapDiff`: the heap code
     returns a pointer to the tree that layer 3 computes (`Den`), writes only to nodes it allocated, does
     not panic, and does not run out of the recursion bound.
   * `Machine`: any number of threads, each one API call, interleaved action by action; a log of
     invocations, object accesses and responses.  `Conc`, `ConcInv`: a rely/guarantee program logic and
     the invariant of every reachable state.  `ConcLog`, `ConcTime`, `ConcLin`, `ConcProps`: consequences
     for whole executions (what a log says about time, linearizability, termination, panics).
     `TableLib`, `SetLib`, `TableLin`, `SetLin`: the two packages as instances.  `Exec`, `ConcSamples`:
     executable schedules, used to exhibit concrete executions.
5. **Specification** — `Spec` and `SpecTable`: addresses are numbers, a prefix is a set of numbers, a set
   is a predicate on addresses, a table is a finite map from (length, network number) to values, an
   iteration is `visit` over a list.  No vocabulary of tries.
6. **Properties** — `Prop*.lean`.  Each `Cxx_…` theorem is about API functions of layers 2–4 and the
   vocabulary of layer 5, followed by `example`s that show concrete values meeting its hypotheses.

## 2. Proof method

* Values: bit-level reasoning on arbitrary words (`bit`, `Agree n a b`: the first `n` bits agree), order
  and division arithmetic on `toNat`.
* Tries: structural induction with invariants `SetNode.Inv` (children strictly inside, right half; active
  nodes are leaves; inactive ones have two children; sizes) and `Trie.TInv`; the API type `Reachable` is the
  closure of the zero value under *all* operations, so statements quantify over all histories.
* Memory: `wp` of each heap function against the layer 3 function.  Recursion in Go is unbounded; the
  heap functions take a depth bound and running out of it is `stuck`.  It is *proved* that no call gets
  stuck if the bound is at least 2·width + 3 (67 for ipv4, 259 for ipv6; hypothesis `hF` of the theorems), so
  the recursion never goes deeper than that.
* Machine: an inductive invariant over arbitrary interleavings; no bound on threads, objects, steps.
  A `View` contains frozen nodes (reachable from a published root: nobody writes them) and the
  thread's own fresh nodes; allocation may return any unused address.
* False properties: where the code violates the documented behaviour, the *negation* is proved with a
  concrete witness and the strongest positive part is proved under the suffix `_partial`, with an exact
  characterisation where possible (`…_iff`).

## 3. Trusted base

* Lean's kernel.  Axioms: only `propext`, `Classical.choice`, `Quot.sound` (table at the end of this file,
  produced by `tools/axioms.py` from `#print axioms`).  No axioms of our own, no compiled evaluation.
* That the definitions transcribe the Go code.  Simplifications are stated at each definition; the ones
  that matter:
  - Go's semantics: unsigned wrap-around, shifts by at least the width give 0, struct `==` field by field,
    interface `==`, nil maps/slices/pointers, evaluation order of calls.  Where Go leaves the order open
    (`me.s.trie` against `other.Set()` in Set_ methods) the model has both orders (parameter `late`).
  - Memory: loads, stores and CAS on words are atomic and sequentially consistent.  The two words
    (trie, eq) of a mutable table object are loaded together.  CAS is `ipv4/unsafe_atomic.go:8-26`.  Nodes
    are never freed (garbage collection is invisible); address reuse for *new* nodes cannot happen while a
    pointer is live.  Memory exhaustion and stack overflow are not modelled.
  - Values of a table: any type `D` with decidable equality, compared by Go's `==` as identity (`structEq`, the
    comparison of interface values, panics for uncomparable types as in Go).  Most theorems are about comparable
    types; C69 carries them over to types on which `==` may panic (`Storable`), C72 covers interface types `T` with
    nil among their values, and C73 types with a total `==` that is not identity (floating point: NaN, ±0), with a
    stand-in for floating point numbers in the witnesses.
  - `PrefixI` and `SetI` are interfaces that users may implement: the model takes such an argument as the
    prefix or the set that its method returns.
  - Callbacks and mappers are functions on a state σ of the caller's choosing, except in C57, where they are
    arbitrary programs of the machine (they may use any part of the library, run into a panic, or never
    return).  Mappers that use the library (Map) are interference by another thread.
  - A goroutine making several calls, a builder used over time: sequences of threads of the machine (a
    call may be started at any time, with any objects and values that exist by then).
  - WalkRanges, WalkAddresses and NumPrefixes of a `Set_` on the machine are its WalkPrefixes with particular
    callbacks; `late` (above) is the only scheduling choice inside an expression.
  - A CAS compares pointers; a pointer that went away and came back (ABA) is possible in the model as in Go
    (the same node can become the root again) and the theorems account for it.
  - Cost (C48): one step is one action of the machine; reading a node counts once although Go reads its
    fields one by one (at most 7 times as many loads); arithmetic is free.
  - `ip.FirstFromRange`/`LastFromRange` in the model return the address as the Go code does: boxed in the
    interface type of its family.
  - Sets and tables run on separate machines (they share no memory).
  - Text: `net.IP.String`, `net.ParseIP`, `net.ParseCIDR`, `fmt.Sprintf("%s/%d")`, `strings.Split` are
    outside the repository; they are modelled from the Go 1.18 source.  A Go string is a list of characters.

  **How the transcription was checked.**  `tools/gotests.py` translates the authors' own unit tests (the text of
  /repo/ipv4/*_test.go and /repo/ipv6/*_test.go; nothing is run) to evaluations of the functional model:
  897 + 1822 rows and assertions in `Verif/RepoTests4.lean` and `Verif/RepoTests6.lean` (tries, sets, tables, ranges,
  text, uint128, Aggregate, Diff, Map, FindAvailablePrefix), each evaluated by the kernel (`decide +kernel`).  All agree.
  `Verif/RepoTestsNodes.lean` does the same by hand for the tests that are not tables (insert, update, match, get-or-insert,
  delete, equal and flatten of nodes; walk, diff, map, equal and comparators of tables).
  These are tests of the model, not proofs, and no claim rests on them.  Not translated: the tests of tableX (the same as
  those of Table), of address.go, mask.go and package ip, and tests with goroutines, random numbers or panics.
  The functional model and the heap model are tied by refinement theorems, so the agreement carries over.

## 4. What is modelled, file by file

| file | modelled | not modelled |
|------|----------|--------------|
| ipv4/address.go, ipv6/address.go | all | — |
| ipv6/uint128.go | all used operations | — |
| ipv4/mask.go, ipv6/mask.go | all | — |
| ipv4/prefix.go, ipv6/prefix.go | all | — |
| ipv4/range.go, ipv6/range.go | all | — |
| ipv4/node.go, ipv6/node.go | all that the public API reaches, twice (values, heap); `isValid` | `intMin` (unused) |
| ipv4/setnode.go, ipv6/setnode.go | all; what the API reaches twice, `Insert` and `Remove` (unit tests only) as values (C81) | — |
| ipv4/set.go, ipv6/set.go | all, `Set_` also concurrently; `String` in PropSetText | — |
| ipv4/table.go, tablex.go and ipv6 copies | all, twice (`tableX.Build`, `tableX.Aggregate`, which only unit tests call, through those of Table[T]); `Table_` also concurrently | `GetOrInsert`'s deferred function beyond the panic it raises |
| ipv4/unsafe_atomic.go | as the atomic CAS action | the pointer casts |
| ip/*.go | constructors, dispatch, conversions, text | — |
| cmd, examples, tests | — | not part of the library |

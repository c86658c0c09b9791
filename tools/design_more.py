
M['C51']=('the set API of C09-C18; the rebuilding loops as client code over WalkPrefixes/WalkRanges and Insert','from C09-C11 pointwise; rebuilding by induction over the visited list of C16/C18')
M['C52']=('Insert/Remove as Union/Difference (C34-C37 link them to the heap code)','induction on the history from its end')
M['C53']=('NumAddresses of C15','counting over the address space, C15 and C09-C12')
M['C54']=('a client loop over FindAvailablePrefix, Insert, Remove','invariant over the history, from C21, C22, C09, C11')
M['C55']=('the same client loop without releases','invariant: maximal free blocks have pairwise different sizes (preserved because C22 takes from a smallest block that fits); a geometric sum bounds the free addresses when nothing fits')
M['C56']=('the parsers and printers of C45 (package net as in Go 1.18)','inversion lemmas for dtoi, parseIPv4, ParseCIDR: an accepted text is taken apart into what the printer prints')
M['C57']=('Walk, Diff, Map, WalkPrefixes, WalkRanges on the heap, with callbacks that are programs of the machine (Verif/Reenter.lean, Verif/ReenterWalk.lean, Verif/ReenterMap.lean)','frame argument: code of the library writes only to nodes it allocated itself, so the nodes of the walked value stay (Tame, by recursion over every API call); then induction over the depth of the tries. For Map: the nodes that Map has allocated and not finished are hidden from the mapper, by induction over the depth')
M['C58']=('a program is a function from the results seen so far to the next call; it is run with Prog.run on the heap model of every call (Verif/Seq.lean, SeqTable.lean, SeqSet.lean)','simulation: the heap stands for a world of plain tables and sets; the specification of every call proved for the machine (C34-C38) gives one step; C58_*_machine shows that the run is an execution of the machine')
M['C59']=('the programs of C58; a world of predicates on addresses as the specification (SCmd.Explained)','simulation of the world of C58 by the world of predicates, one call at a time from C08-C22; uniqueness of the listing by order and maximality')
M['C60']=('the programs of C58; a world of maps from prefixes to entries as the specification (TCmd.Explained)','simulation of the world of C58 by the world of maps, one call at a time from C23-C33')
M['C61']=('the machine of C34-C38 with every step labelled by the memory access it makes (Verif/Race.lean); happens-before from program order, the synchronisation of the client between calls, and successful swaps to later atomic operations on the same root','invariant over traces: every node a goroutine can reach was allocated and last written at a step that happens before its own next step (by what it was handed, by what it allocated, or by the root it loaded); a write goes only to nodes of the writer that no other goroutine can reach')
M['C62']=('the machine of C34-C38','what each call did (the specification of C34-C38) gives the first part; the rest by induction over the versions of the object: a swap replaces the version that the writer read first by the write applied to a version it read in between (Verif/ConcKeep.lean, keeps)')
M['C33']=('Trie.aggregate; a specification PMap.aggregate of Aggregate on plain maps (no tries)','the result is exactly what the specification says (induction on the number of bits left, then on the trie); no redundant siblings, minimal if all values are equal; witness against minimality')
M['C19']=('Prefix.walkAddresses as a loop with wrap-around','the exact sequence of visited addresses for all sets; for the last address a proof that no number of iterations finishes; a larger bound on iterations changes nothing')
M['C63']=('the machine of C34-C38 and its count of steps (C48); which nodes of the heap are reachable from two roots (Verif/HeapShare.lean)','every write shares with the version it started from all nodes whose prefix does not contain its key (induction over insert and del on the heap); so do all versions of an object since a time without writes in progress (induction over the versions); Diff stops at equal pointers, and by the order of the trie a node it reads from either side that is not common to both contains a written key (Verif/HeapDiffCost.lean)')
M['C64']=('the heap of the machine of C34-C38; the nodes reachable from a root (In)','the tree a root stands for has no fewer positions than it has nodes; invariant: inactive nodes have two children; C17')

M['C65']=('the machine of C34-C38 and its count of steps (C48)','the numbers of recursive calls of Union, Difference, Intersect and setNodeFromRange as functions on trees (Verif/SetCost.lean, SetCost2.lean), bounded by counting for each node of one set the nodes of the other that contain it or are contained in it on the way (at most one path); each call costs a fixed number of steps on the heap (HeapSetCost.lean, HeapReadCost.lean, HeapSetCost2.lean, SetCallCost.lean); Takes.lean carries such bounds from code to all executions')

M['C66']=('the machine of C34-C38 and its count of steps (C48)','induction over the trees on the heap: a fixed number of steps for each node (Verif/TableCost.lean, HeapReadCost.lean); a table has at most twice as many nodes as entries (C64); Takes.lean carries the bounds to all executions')
M['C67']=('programs as trees of calls whose callbacks are such trees again (Verif/Script.lean), run on the heap of C34-C38; the specification is the same tree run in a world whose variables hold maps (or sets) and whose values are maps (or sets)','induction over the program; a call is C60 (C59) with the nodes hidden that a running Map has not finished; a walk is run_walkR (C57) and an induction over its calls; Map is run_xMapR (C57_map); Verif/ScriptSim.lean, PropScript.lean, PropScriptSets.lean')
M['C68']=('the heap of C34-C38 with the three ways a table can compare values (none, ==, a custom function that fails on the interface nil of an inactive node); the specification is a world of variables and values that are maps with a comparison function, and a predicate on maps that says which calls panic','exact run theorems for Map, Aggregate and Diff on the heap, returning and panicking (Verif/Panics.lean, PanicsAgg.lean, PanicsDiff.lean, PanicStep.lean), the shape of tables with a custom function (Tidy.lean), and the translation of the condition on nodes to one on entries (Calm.lean); then induction over the program')

M['C69']=('the machine of C34-C38 over values for which == may panic (Storable), and the same machine over the same values with an == that does not','every call over the former is the same program as over the latter, except that it may panic where the latter goes on, and not after its swap (Verif/Cut.lean, by induction over the code); simulation of executions (Verif/CutMachine.lean)')
M['C70']=('sequential programs as in C68, over values for which == always panics','for each function of node.go, exactly when its code panics with such values (Verif/Uncomp.lean, UncompAgg.lean, UncompKeys.lean, UncompLoud.lean), read off as a condition on the entries; where it does not panic it does what it does with comparable values (Verif/Cut.lean), so C68 says the rest; induction on the number of calls (Verif/PropUncomparable.lean)')

M['C71']=('The concurrent machine (Machine.lean): every call of tables and sets as code on the heap, interleaved action by action; a failed compare-and-swap is recorded in the log.',
 'A failed compare-and-swap expected a root that the call had read: the invariant of the machine gives the read, the log replay gives a successful swap by another thread after it (fail_race); a thread swaps at most once (swap_facts), so attempts in turn are hit by different threads (retry, induction over the attempts); a thread that swapped runs to its return (run_to_end, no_fail_swap).')

M['C72']=('the calls of table.go over an interface type T: the values of T are Option V, with none for nil, which is also the Data of a node (Verif/Iface.lean); a custom comparison function that panics on nil','each function of node.go on a trie whose Data are such values does what the same function does on the trie with boxed values, the boxes forgotten (Trie.flat, Verif/IfaceFlat.lean); with the run theorems for the heap this gives each call (IfaceStep.lean, IfaceRun.lean), and the simulation by maps of C60 the rest; induction on the number of calls')

M['C73']=('the heap of C34-C38 over values with any total, symmetric and transitive == (class Total in Verif/HeapNode.lean); the same specification as C60, with == in place of identity','the run theorems for the heap, proved for Total types (copyMutate changes a node only if == sees a difference; each use of it is shown to lose nothing, Keeps in Verif/HeapTableProofs.lean, or, in Aggregate, no more than == can tell, wp_aggregate_total in Verif/HeapAgg.lean), and the laws of tables as maps for an arbitrary comparison function (Verif/FloatStep.lean, FloatRun.lean); induction on the number of calls. Witnesses with a stand-in for floating point numbers')

M['C74']=('Trie.aggregate (Verif/Table.lean) and Table.aggregate, Table.table_ (Verif/TableApi.lean) as for C32/C33; the specification ClosestEntry/NoRepeat/NoPair on the list of entries',
 'induction over the trie: a trie with nothing to do is returned as it is, any other loses an entry; after one round only entries without anything below them repeat the value above; the second round removes these and cannot create new pairs, because a node that takes the place of its parent is longer (Verif/AggTwice.lean); false for one round: a table of four entries')

M['C75']=('Table.diff, walk, insert, update, remove (Verif/TableApi.lean), with callbacks that carry a Table_ as their state (syncCbs, copyInto in Verif/PropSync.lean)','the list of changes of C28 and the laws of tables as maps of C23: along the list, the table under construction shows the map to which the changes so far have been applied; induction over the list. Exchange: membership in the list of changes characterised by the entries of both tables')
M['C76']=('the table API and the set API together (Verif/PropBoth.lean)','C25 and C27 for tables, C09, C14 and C16 for sets; the aggregated trie without its values is a canonical set trie (strip_spec in Verif/TableAgg.lean), and canonical tries with the same addresses have the same prefixes (C14)')

M['C77']=('Table.step (one call on a Table_) and Table.longestMatch, Table.get (Verif/TableApi.lean)','one call changes the map of C23 under its own key only; LongestMatch is determined by the entries that contain its argument (C25), and so compared before and after (Verif/PropLocal.lean)')
M['C78']=('Table.map with a mapper without effects (Verif/TableApi.lean), and the lookups, writes, Diff and Aggregate of the result','Map keeps the list of prefixes and maps the values (C31_map); each of the other calls is determined by the entries (C23, C25, C28, C76), and so compared before and after (Verif/PropMap.lean)')

M['C79']=('IPSet.walkRanges, difference, intersection, contains, numAddresses (Verif/SetApi.lean), Range.minus (Verif/Prefix.lean)','lists of ranges with gaps are determined by their addresses (Gapped.unique, induction over both lists); subtracting ranges keeps the gaps and removes the addresses (C06), for every list (induction); with C18, C10-C12, C15')
M['C80']=('as for C79, with Range.plus and the sets of ranges','the range that the code takes a range for (C08_range_exact) and C79; witnesses where C07 and C08 fail')
M['C81']=('setNode.Insert and setNode.Remove, i.e. trieNode.insert and trieNode.del with the option flatten, with their panics (SetNode.insertKey, delKey, removeKey, Verif/SetEdit.lean)','induction over the trie: Insert is Union with the prefix or nothing (insertKey_eq); Remove keeps the invariant of set tries, where splitting an active prefix uses only ranges that setNodeFromRange gets right (good_start, good_end); then induction over the history; a witness for the lost Insert')
M['C82']=('the walks and Diff of C57 with callbacks that may be nil, where calling nil panics (Verif/PropNil.lean)','from C57: with the callback that panics at once the visit of the list panics unless the list is empty; Diff by comparing what it reports change by change')
M['C83']=('an inductive predicate with one rule for each call that makes a mask, prefix, range, set or table from others (ApiValue.Made, Verif/PropMade.lean)','induction over how the value was made, with C02, C06, C16, C18, C21, C25 and C44; conversely each well formed value by MaskFromLength and PrefixFromAddressMask, RangeFromAddresses, MaskFromUint, and induction over how the set or table was built; the witness of C21')
M['C84']=('the calls of C23 on tables (Table.step, runOps)','C23_entries, which replaces the table by a map from keys to entries; the part of that map under one key is a machine of its own (cell), driven by the calls for the key only (run_cell); then equal maps give equal lists, as both are in lexicographic order')
M['C85']=('Get and LongestMatch of C25','from longestMatch_iff (LongestMatch is the longest of the entries that contain the argument) and from the order of prefixes by containment (ContainsP.down, ContainsP.nest)')
M['C86']=('the operations of C08 to C11 and WalkPrefixes','C17_minimal: the set has no more prefixes than any list of prefixes that covers it; so it is enough to give such a list (Cover): both lists; those inside one of the other list; the first list with one prefix replaced by the at most q.len - p.len prefixes that are left of p without q (complement_cover, by halving p); for a range the halves of the shortest prefix around it (interval_cover, up_cover, down_cover), also by halving; for the number of ranges, each range has a prefix of its own that contains its first address (pigeon)')

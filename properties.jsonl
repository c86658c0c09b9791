{"id": "C01", "title": "Address byte / integer round trip", "statement": "Converting an Address to its byte form (net.IP / bytes / uint32 / uint64 pair) and back yields the same Address, the byte form is big-endian (most significant byte first), every byte string of the right length (4 or 16) is the byte form of exactly one Address, and every byte string of a wrong length (or nil) is rejected with an error (ipv4.AddressFromNetIP also takes the 16-byte form that package net uses for an IPv4 address).", "quantifier": "every IPv4 and IPv6 address and every byte slice of any length", "why_tests_cant": "2^32 / 2^128 addresses and unboundedly many slices; a test samples a handful of bytes", "anchors": ["ipv4/address.go:AddressFromBytes,AddressFromSlice,ToNetIP,fromSlice,toBytes", "ipv6/address.go:AddressFromUint64,AddressFromUint16,fromSlice", "ipv6/uint128.go:uint128FromBytes,toBytes"]}
{"id": "C02", "title": "Mask constructors accept exactly the contiguous masks", "statement": "MaskFromUint32/MaskFromBytes/MaskFromUint64/MaskFromUint16 succeed exactly on a run of 1s followed by 0s; MaskFromLength succeeds exactly for 0..width; Length and MaskFromLength are mutually inverse; a mask built from length n has exactly its n most significant bits set.", "quantifier": "every word value and every (signed) length", "why_tests_cant": "the accepted masks are 33 of 2^32 (129 of 2^128) values; tests cannot rule out a wrongly accepted one", "anchors": ["ipv4/mask.go:MaskFromLength,MaskFromUint32,MaskFromBytes,Length,valid,lengthToMask", "ipv6/mask.go"]}
{"id": "C03", "title": "128-bit arithmetic of IPv6 is exact", "statement": "The IPv6 two-word integer type implements and/or/xor/complement, shifts by any amount, comparison, +1/-1 with wrap-around, leading-zero count and population count exactly as the mathematical 128-bit unsigned integer does, including across the 64-bit word boundary. (For addition and subtraction of an arbitrary 64-bit quantity as well.)", "quantifier": "every pair of 128-bit values and every shift amount", "why_tests_cant": "carry / borrow / cross-word shift bugs live on boundaries of a 2^128 domain", "anchors": ["ipv6/uint128.go"]}
{"id": "C04", "title": "Prefix geometry", "statement": "For a prefix with length n: Network is the address rounded down to a multiple of 2^(width-n), Broadcast (upper limit) is Network + 2^(width-n) - 1, Host is the remainder, the address is Network + Host; Network is idempotent; all keep the length; and an address belongs to the prefix (shares its first n bits) iff it lies in Prefix.Range(), i.e. Network <= a <= Broadcast.", "quantifier": "every address, every length 0..width, both families", "why_tests_cant": "needs all address/length pairs, including lengths 0, 64 and width where shifts degenerate", "anchors": ["ipv4/prefix.go:Network,Broadcast,Host,Range,Mask", "ipv6/prefix.go:Network,Host,prefixUpperLimit,Range"]}
{"id": "C05", "title": "Halves split a prefix exactly", "statement": "For a prefix shorter than the full width, Halves returns two prefixes of length+1, the first covering exactly the lower half of the addresses and the second exactly the upper half; every address of the prefix is in exactly one half.", "quantifier": "every prefix with length < width", "why_tests_cant": "all address/length pairs", "anchors": ["ipv4/prefix.go:Halves", "ipv6/prefix.go:Halves"]}
{"id": "C06", "title": "Range.Minus is interval difference", "statement": "r.Minus(s) returns 0, 1 or 2 valid (first <= last), disjoint, ascending ranges whose addresses are exactly those in r and not in s.", "quantifier": "every pair of valid ranges, including those touching the first or the last address", "why_tests_cant": "boundary wrap-around of prev/next happens only at the ends of the address space", "anchors": ["ipv4/range.go:Minus,prev,next", "ipv6/range.go:Minus"]}
{"id": "C07", "title": "Range.Plus is interval union", "statement": "r.Plus(s) returns one range if the two overlap or are adjacent, otherwise the two ranges sorted; the addresses covered are exactly those in r or in s.", "quantifier": "every pair of valid ranges, including those touching the last address", "why_tests_cant": "wrap-around of next() at the top of the address space is a corner a sampled test misses", "anchors": ["ipv4/range.go:Plus", "ipv6/range.go:Plus"]}
{"id": "C08", "title": "Sets from Address / Prefix / Range contain exactly those addresses", "statement": "x.Set() for an Address, Prefix or Range contains an address a iff a equals it / shares its leading bits / lies between first and last.", "quantifier": "every address, prefix and valid range, and every queried address", "why_tests_cant": "the range decomposition recursion branches on bit patterns of both ends: 2^64 (2^256) ranges", "anchors": ["ipv4/setnode.go:setNodeFromRange,setNodeFromPrefix", "ipv4/prefix.go:Set", "ipv4/range.go:Set", "ipv6/setnode.go"]}
{"id": "C09", "title": "Union is set union", "statement": "For any sets s,t: s.Union(t) contains exactly the addresses contained in s or t. Set_.Insert has the same effect in place.", "quantifier": "all sets obtainable through any history of API calls, and every address", "why_tests_cant": "sets are unbounded trees; correctness depends on how the two tries interleave", "anchors": ["ipv4/setnode.go:Union", "ipv4/set.go:Union,Insert", "ipv6/setnode.go", "ipv6/set.go"]}
{"id": "C10", "title": "Intersection is set intersection", "statement": "s.Intersection(t) contains exactly the addresses contained in both s and t.", "quantifier": "all API-reachable sets, every address", "why_tests_cant": "as for union", "anchors": ["ipv4/setnode.go:Intersect", "ipv4/set.go:Intersection", "ipv6/setnode.go"]}
{"id": "C11", "title": "Difference is set difference", "statement": "s.Difference(t) contains exactly the addresses in s and not in t; Set_.Remove has the same effect in place.", "quantifier": "all API-reachable sets, every address", "why_tests_cant": "as for union; prefix splitting recursion depends on all relative positions", "anchors": ["ipv4/setnode.go:Difference", "ipv4/set.go:Difference,Remove", "ipv6/setnode.go"]}
{"id": "C12", "title": "Contains is subset, IsEmpty is emptiness", "statement": "s.Contains(x) is true iff every address of x is in s, for x an Address, Prefix, Range or Set; s.IsEmpty() is true iff s contains no address; nil is treated as the empty set.", "quantifier": "all API-reachable sets s and x", "why_tests_cant": "universally quantified over addresses", "anchors": ["ipv4/set.go:Contains,IsEmpty", "ipv4/prefix.go:Contains", "ipv4/range.go:Contains", "ipv6/set.go"]}
{"id": "C13", "title": "Set.Equal is extensional equality", "statement": "s.Equal(t) is true iff s and t contain the same addresses.", "quantifier": "all API-reachable pairs of sets, including ones built from prefixes with host bits", "why_tests_cant": "two different histories may build the same set; all pairs of histories are needed", "anchors": ["ipv4/set.go:Equal", "ipv4/node.go:Equal", "ipv4/setnode.go:Equal,setNodeFromPrefix"]}
{"id": "C14", "title": "Set representation is canonical: history does not matter", "statement": "Two sets with the same addresses yield the same sequence of prefixes from WalkPrefixes (up to host bits of prefixes the caller supplied), the same number of stored prefixes, no matter by which operations and in which order they were built.", "quantifier": "all pairs of API histories with equal resulting address sets", "why_tests_cant": "order-independence over unbounded histories", "anchors": ["ipv4/setnode.go:Union,Difference,Intersect", "ipv4/node.go:flatten"]}
{"id": "C15", "title": "IPv4 Set.NumAddresses is the cardinality", "statement": "NumAddresses returns exactly the number of addresses contained in the set (0 to 2^32), never overflowing.", "quantifier": "all API-reachable IPv4 sets", "why_tests_cant": "a counting claim over all sets", "anchors": ["ipv4/set.go:NumAddresses", "ipv4/node.go:NumAddresses"]}
{"id": "C16", "title": "WalkPrefixes enumerates an ordered, disjoint, exact, maximal cover", "statement": "WalkPrefixes visits prefixes in ascending order, pairwise disjoint, whose addresses are exactly the set's, each maximal (no larger aligned prefix containing it is inside the set).", "quantifier": "all API-reachable sets", "why_tests_cant": "universally quantified over sets and addresses", "anchors": ["ipv4/set.go:WalkPrefixes", "ipv4/node.go:Walk,Diff,diff"]}
{"id": "C17", "title": "Stored prefixes are the minimum possible", "statement": "The number of prefixes visited by WalkPrefixes is the minimum number of prefixes that exactly cover the set: any list of prefixes whose union is the set has at least as many elements. The internal number of nodes is at most twice that minus one.", "quantifier": "all API-reachable sets and all competing covers", "why_tests_cant": "minimality quantifies over every possible cover", "anchors": ["README.md:Set_", "ipv4/node.go:flatten", "ipv4/setnode.go:Union"]}
{"id": "C18", "title": "WalkRanges enumerates maximal ranges", "statement": "WalkRanges visits valid ranges in ascending order, pairwise separated by at least one missing address, covering exactly the set's addresses.", "quantifier": "all API-reachable sets, including those touching the last address", "why_tests_cant": "depends on merging arbitrary prefix sequences and on wrap-around at the top", "anchors": ["ipv4/set.go:WalkRanges", "ipv4/range.go:Plus", "ipv6/set.go:WalkRanges"]}
{"id": "C19", "title": "IPv4 WalkAddresses enumerates each address once", "statement": "WalkAddresses visits exactly the addresses of the set in ascending order, each once, and terminates.", "quantifier": "all API-reachable IPv4 sets, including those containing 255.255.255.255", "why_tests_cant": "the loop counter wraps only at the very top of the space", "anchors": ["ipv4/set.go:WalkAddresses", "ipv4/prefix.go:walkAddresses"]}
{"id": "C20", "title": "NumPrefixes counts the aligned prefixes contained", "statement": "Set.NumPrefixes(n) for n <= width returns the number of length-n prefixes wholly contained in the set; for IPv6 it returns an error exactly when that number does not fit in 64 bits. Prefix.NumPrefixes and Range.NumPrefixes agree with it.", "quantifier": "all API-reachable sets and all lengths", "why_tests_cant": "counts range up to 2^128; overflow boundary", "anchors": ["ipv4/set.go:NumPrefixes", "ipv6/set.go:NumPrefixes", "ipv4/prefix.go:NumPrefixes", "ipv6/prefix.go:NumPrefixes"]}
{"id": "C21", "title": "FindAvailablePrefix is sound", "statement": "If FindAvailablePrefix(reserved, n) succeeds, the result is a valid prefix of length n, wholly inside the set and sharing no address with reserved.", "quantifier": "all API-reachable set/reserved pairs and every requested length (including lengths above the address width)", "why_tests_cant": "allocation safety must hold for all fragmentation patterns", "anchors": ["ipv4/set.go:FindAvailablePrefix", "ipv4/setnode.go:FindSmallestContainingPrefix,findSmallestContainingPrefix,best"]}
{"id": "C22", "title": "FindAvailablePrefix is complete and best-fit", "statement": "It fails only if no length-n prefix fits in set minus reserved; when it succeeds, the prefix is cut from a smallest maximal free block that fits (no other free maximal block of size between is smaller).", "quantifier": "all API-reachable set/reserved pairs, n <= width", "why_tests_cant": "completeness and optimality quantify over all alternatives", "anchors": ["ipv4/set.go:FindAvailablePrefix", "ipv4/setnode.go:FindSmallestContainingPrefix,best"]}
{"id": "C23", "title": "Table_ behaves as a map from prefix to value", "statement": "For every sequence of Insert/Update/InsertOrUpdate/Get/GetOrInsert/Remove, each call returns what the same call on a plain map keyed by (masked address, length) returns (what Remove returns for an absent key is the subject of C24), and afterwards the table reads as that map; host bits of the key are ignored; Insert never overwrites, Update never adds.", "quantifier": "every finite history of operations with any prefixes and values", "why_tests_cant": "unbounded histories; trie shape depends on all earlier keys", "anchors": ["ipv4/tablex.go:Insert,Update,InsertOrUpdate,Get,GetOrInsert,Remove", "ipv4/node.go:insert,del,GetOrInsert,Match", "ipv4/table.go"]}
{"id": "C24", "title": "Table_.Remove reports whether the entry existed", "statement": "Remove returns true iff an entry with exactly that prefix existed; otherwise it does nothing and returns false.", "quantifier": "every table state reachable by any history and every prefix", "why_tests_cant": "the trie contains internal nodes that are not entries; which exist depends on the whole history", "anchors": ["ipv4/tablex.go:Remove", "ipv4/node.go:del"]}
{"id": "C25", "title": "LongestMatch returns the longest entry containing the key", "statement": "LongestMatch(p) returns the entry with the greatest length among those whose prefix contains p; found is false iff there is none; Get is found iff the exact entry exists.", "quantifier": "every reachable table and every search prefix", "why_tests_cant": "quantifies over all competing entries", "anchors": ["ipv4/node.go:Match", "ipv4/tablex.go:longestMatch,LongestMatch,Get"]}
{"id": "C26", "title": "NumEntries counts the entries", "statement": "NumEntries equals the number of entries in the table (number of entries Walk visits) as long as there are fewer than 2^32.", "quantifier": "every reachable table", "why_tests_cant": "cached counters must be maintained by every operation on every path", "anchors": ["ipv4/tablex.go:NumEntries", "ipv4/node.go:mutate,NumNodes"]}
{"id": "C27", "title": "Walk visits every entry once in lexicographic order", "statement": "Table.Walk calls the callback exactly once for every entry, in ascending order of (network address, length), stops at the first false and returns false iff stopped.", "quantifier": "every reachable table, every stateful callback", "why_tests_cant": "order and completeness over unbounded tables and arbitrary callbacks", "anchors": ["ipv4/node.go:Walk,Diff,diff", "ipv4/table.go:Walk"]}
{"id": "C28", "title": "Diff classifies every entry exactly once", "statement": "Diff(left,right) reports: removed for each entry only in left, added for each entry only in right, changed for each key in both with values that do not compare equal, unchanged (if requested) for the others; every key exactly once, stops at the first false. Applying the reported changes to left yields right.", "quantifier": "every pair of reachable tables, every stateful callback", "why_tests_cant": "all pairs of tries in all relative shapes", "anchors": ["ipv4/node.go:Diff,diff", "ipv4/table.go:Diff"]}
{"id": "C29", "title": "Diff reports in lexicographic order", "statement": "Diff invokes its callbacks in lexicographic order of the prefixes.", "quantifier": "every pair of reachable tables", "why_tests_cant": "ordering depends on relative positions and lengths of keys of both tables", "anchors": ["ipv4/node.go:diff", "ipv4/table.go:Diff"]}
{"id": "C30", "title": "Skipping shared sub-tables in Diff is invisible", "statement": "Passing nil for unchanged never changes which removed/added/changed callbacks are made, provided the comparator is reflexive.", "quantifier": "every pair of tables, however much structure they share", "why_tests_cant": "depends on pointer sharing produced by arbitrary earlier histories", "anchors": ["ipv4/node.go:diff"]}
{"id": "C31", "title": "Map keeps keys and maps values", "statement": "Map(f) returns a table with exactly the same prefixes where each value v at p is f(p,v) (or v itself if that compares equal); the original is unchanged; f is invoked only on entries of the table, in lexicographic order.", "quantifier": "every reachable table and every mapper", "why_tests_cant": "universally quantified over tables and mapper functions", "anchors": ["ipv4/node.go:Map", "ipv4/table.go:Map"]}
{"id": "C32", "title": "Aggregate preserves every address lookup", "statement": "For every address, LongestMatch on t.Aggregate() finds an entry iff it does on t, with a value that compares equal.", "quantifier": "every reachable table, every address, every comparator that is an equivalence", "why_tests_cant": "all addresses and all tables", "anchors": ["ipv4/node.go:aggregate", "ipv4/table.go:Aggregate"]}
{"id": "C33", "title": "Aggregate is minimal", "statement": "t.Aggregate() has the minimum number of entries among tables giving the same address lookups; in particular an entry is never kept beneath a broader entry with an equal value and nothing different between.", "quantifier": "every reachable table and every competing table", "why_tests_cant": "minimality quantifies over all alternatives", "anchors": ["ipv4/node.go:aggregate", "ipv4/table.go:Aggregate", "README.md"]}
{"id": "C34", "title": "Snapshots are immutable", "statement": "A Set or Table value never changes: whatever operations are later performed on the mutable object it was taken from, on clones, or on other values sharing structure, every read of the snapshot returns what it returned before.", "quantifier": "every history of operations after the snapshot, any sharing", "why_tests_cant": "copy-on-write bugs appear only under particular sharing patterns", "anchors": ["ipv4/node.go:mutate,copyMutate,insert,del", "ipv4/setnode.go:Union", "ipv4/tablex.go:Table,Table_", "ipv4/set.go:Set,Set_"]}
{"id": "C35", "title": "Mutable objects are references; clones are detached", "statement": "Copies of a Set_/Table_ observe each other's changes; Table().Table_() (Set().Set_()) gives an object whose later changes do not affect the original and vice versa.", "quantifier": "every history interleaving operations on several handles", "why_tests_cant": "aliasing over unbounded histories", "anchors": ["ipv4/tablex.go:Table_,Table", "ipv4/set.go:Set_"]}
{"id": "C36", "title": "Concurrent writers: atomic or panic", "statement": "If several goroutines write to the same Set_/Table_ concurrently, then under every interleaving each write either takes effect atomically (no acknowledged write is lost) or panics; concurrent writes are always detected.", "quantifier": "every interleaving of any number of writers' steps", "why_tests_cant": "schedules; ABA on the root pointer needs a specific interleaving", "anchors": ["ipv4/set.go:mutate", "ipv4/tablex.go:mutate", "ipv4/unsafe_atomic.go"]}
{"id": "C37", "title": "Concurrent readers see a consistent state", "statement": "A read running concurrently with writers returns a result computed from one single state the object actually had between the start and the end of the read.", "quantifier": "every interleaving of readers and writers", "why_tests_cant": "schedules", "anchors": ["ipv4/set.go", "ipv4/tablex.go", "README.md"]}
{"id": "C38", "title": "Internal panics are unreachable", "statement": "The panics guarding internal errors ('this should never happen', 'this error shouldn't happen', 'unreachable') never fire and every operation terminates, for sets and tables built through the API from valid prefixes (comparable values). (Termination of WalkAddresses is the subject of C19.)", "quantifier": "all API histories", "why_tests_cant": "unreachability of a branch is a universally quantified claim", "anchors": ["ipv4/node.go:flatten,GetOrInsert,InsertOrUpdate,insert,del", "ipv4/setnode.go:Difference"]}
{"id": "C39", "title": "Custom comparators suffice for non-comparable values", "statement": "A table created with NewTableCustomCompare_ works with any value type: no operation (insert, update, remove, map, aggregate, diff) panics because the values are not comparable with == or because of absent values.", "quantifier": "all histories on tables with a custom comparator", "why_tests_cant": "panic depends on whether internal nodes happen to exist / be copied", "anchors": ["ipv4/node.go:copyMutate,Map,aggregate", "ipv4/table.go:NewTableCustomCompare_"]}
{"id": "C40", "title": "Derived tables keep working with the comparator", "statement": "The table returned by Aggregate supports all operations (Diff, Map, Aggregate again, conversion to Table_) with the same notion of equality as the original.", "quantifier": "all reachable tables and follow-up operations", "why_tests_cant": "composition of operations", "anchors": ["ipv4/table.go:Aggregate,Map,Diff", "ipv4/tablex.go:Table_"]}
{"id": "C41", "title": "Zero values and nil arguments", "statement": "An uninitialized Set_/Table_ reads as empty and panics on modification; nil passed as SetI is the empty set and nil as PrefixI is the zero prefix in every method.", "quantifier": "all methods, all arguments", "why_tests_cant": "every method must individually handle it", "anchors": ["ipv4/set.go", "ipv4/tablex.go", "ipv4/prefix.go:PrefixI"]}
{"id": "C42", "title": "Build is transactional", "statement": "s.Build(f) returns the modified clone if f returns true and exactly the original otherwise; the original is never changed.", "quantifier": "all starting values and all builder programs", "why_tests_cant": "quantifies over arbitrary builder programs", "anchors": ["ipv4/set.go:Build", "ipv4/table.go:Build"]}
{"id": "C43", "title": "Prefix ordering is a strict total order", "statement": "The prefix order used for sorting (network address, then length, then host bits) is irreflexive, transitive and total, and places a prefix before everything it contains.", "quantifier": "all triples of prefixes", "why_tests_cant": "transitivity over all triples", "anchors": ["ipv4/prefix.go:lessThan", "ipv6/prefix.go:lessThan"]}
{"id": "C44", "title": "net.IPNet / net.IPMask round trips and family dispatch", "statement": "Prefix -> net.IPNet -> Prefix, Mask -> net.IPMask -> Mask and Prefix -> (address, mask) as integers -> Prefix are identities; package ip dispatches to the family of its argument, rejects mixed families and wrong sizes with an error.", "quantifier": "all prefixes, masks, and byte slices of any size", "why_tests_cant": "all values", "anchors": ["ip/address.go", "ip/prefix.go", "ip/mask.go", "ip/range.go", "ipv4/prefix.go:PrefixFromNetIPNet,ToNetIPNet", "ipv4/mask.go:MaskFromNetIPMask,ToNetIPMask"]}
{"id": "C45", "title": "Textual round trip", "statement": "AddressFromString(a.String()) = a and PrefixFromString(p.String()) = p for every address and prefix.", "quantifier": "all addresses and prefixes of both families", "why_tests_cant": "2^32 / 2^128 values; special textual forms for particular ranges", "anchors": ["ipv4/address.go:String,AddressFromString", "ipv4/prefix.go:String,PrefixFromString", "ipv6/address.go:String,AddressFromString"]}
{"id": "C46", "title": "Lookup depth is bounded by the address width", "statement": "The height of any set or table is at most width+1, whatever the number of entries, so every lookup visits at most width+1 nodes.", "quantifier": "all reachable sets and tables", "why_tests_cant": "worst case over all histories", "anchors": ["ipv4/node.go:height,mutate,isValid"]}
{"id": "C47", "title": "Text of a set", "statement": "Set.String() is '[' + the texts of the prefixes WalkPrefixes visits, in order, separated by ', ' + ']'. Two sets have the same text exactly if Equal says so, sets with the same text hold the same addresses, and every prefix in the text of an IPv4 set can be read back with PrefixFromString. The texts of ranges and masks determine them.", "quantifier": "all sets, ranges and masks of both families", "why_tests_cant": "injectivity over all pairs of sets", "anchors": ["ipv4/set.go:String", "ipv6/set.go:String", "ipv4/range.go:String", "ipv4/mask.go:String"]}
{"id": "C48", "title": "Cost of single-key operations and snapshots", "statement": "Get and LongestMatch finish after a number of steps bounded by a linear function of the address width, and allocate nothing; Insert, Update, InsertOrUpdate, GetOrInsert and Remove finish within a linear number of steps and allocate a linear number of nodes. Neither bound depends on how many entries the table has or on what other goroutines do (the operations are wait-free). Taking a snapshot of a table or set (Table(), Set(), and building back with Table_(), Set_()) takes a constant number of steps and copies no node.", "quantifier": "all reachable tables and sets, all keys, all schedules of all other goroutines", "why_tests_cant": "a bound over every history and schedule cannot be measured", "anchors": ["ipv4/tablex.go", "ipv4/node.go:Match,Insert,Delete,mutate", "ipv4/table.go:Table,Table_", "ipv4/set.go:Set,Set_"]}
{"id": "C49", "title": "Contains and NumAddresses of prefixes and ranges", "statement": "Prefix.Contains(x) and Range.Contains(x) are true exactly if every address of x (address, prefix, range or set) lies in the prefix or range; for two prefixes: the argument is at least as long and its address lies inside; for two ranges: its ends lie between the ends. An IPv4 prefix of length n has NumAddresses 2^(32-n) and a range last-first+1.", "quantifier": "all prefixes and ranges of both families and all arguments", "why_tests_cant": "quantifies over all pairs of values; a bug at particular symmetric ranges", "anchors": ["ipv4/prefix.go:Contains,NumAddresses", "ipv4/range.go:Contains,NumAddresses", "ipv6/prefix.go:Contains", "ipv6/range.go:Contains"]}
{"id": "C50", "title": "The integrity check accepts everything", "statement": "The integrity check that the project's unit tests run on particular tries (sizes and heights are right, inactive nodes have two children, prefixes get longer downwards) holds of every set and table that can ever be produced, by any sequence of operations; and whatever passes the check has as its entry count the number of its entries and as its height its depth.", "quantifier": "all sets and tables reachable through the API, of both families", "why_tests_cant": "unit tests call the check on a few tries; the statement is about all histories", "anchors": ["ipv4/node.go:isValid,isValidLen", "ipv4/set.go:isValid", "ipv4/setnode.go:isValid"]}
{"id": "C51", "title": "Algebra of sets; taking a set apart and putting it together", "statement": "Union, Intersection and Difference obey the laws of the algebra of sets (commutative, associative, idempotent, absorption, distribution, De Morgan, s-t and s&t put together are s, s-s is empty), and results with the same addresses are Equal as long as the caller put in no host bits. Inserting everything WalkPrefixes reports into an empty set gives the same addresses back, and so does inserting everything WalkRanges reports.", "quantifier": "all sets of both families", "why_tests_cant": "equations between all sets", "anchors": ["ipv4/set.go:Union,Intersection,Difference,WalkPrefixes,WalkRanges,Equal", "ipv6/set.go"]}
{"id": "C52", "title": "History of a set", "statement": "After any history of Insert and Remove calls on a mutable set (with addresses, prefixes, ranges or sets as arguments), an address is in the set exactly if the last call whose argument holds it was an Insert, or no call's argument holds it and it was there from the start. (An argument holds what the set that its method Set returns holds: an address itself, a prefix its addresses, a set its members, a range its addresses unless it is one of those of C08.)", "quantifier": "all histories of any length, all addresses, both families", "why_tests_cant": "quantifies over all histories", "anchors": ["ipv4/set.go:Insert,Remove", "ipv6/set.go:Insert,Remove"]}
{"id": "C53", "title": "NumAddresses of combined sets", "statement": "For IPv4 sets NumAddresses obeys inclusion and exclusion: |s or t| + |s and t| = |s| + |t| and |s minus t| + |s and t| = |s|. A set that contains another one has at least as many addresses, and as many only if the two hold the same addresses.", "quantifier": "all pairs of IPv4 sets", "why_tests_cant": "quantifies over all pairs of sets", "anchors": ["ipv4/set.go:NumAddresses,Union,Intersection,Difference,Contains"]}
{"id": "C54", "title": "Allocating prefixes", "statement": "A program that keeps a set of reserved addresses, asks FindAvailablePrefix for prefixes, inserts what it gets, and removes what it gives back, has at any time handed out pairwise disjoint prefixes, all inside the space and outside of what was reserved at the start; its set of reserved addresses is exactly what was reserved at the start plus what is handed out; and a request that fits somewhere is answered, with the length asked for.", "quantifier": "all spaces, all initially reserved sets, all histories of requests and releases, both families", "why_tests_cant": "quantifies over all histories", "anchors": ["ipv4/set.go:FindAvailablePrefix,Insert,Remove", "ipv6/set.go:FindAvailablePrefix,Insert,Remove"]}
{"id": "C55", "title": "Allocating does not fragment the space", "statement": "FindAvailablePrefix is documented to place prefixes so that the space is not fragmented. While nothing is released, and if at the start no two maximal free blocks have the same size (for instance if the space is one prefix), a request after any requests succeeds exactly if the sizes of the prefixes handed out and of the one requested add up to no more than the space: a request never fails for want of a contiguous aligned block while enough addresses are free.", "quantifier": "all prefixes as the space, all histories of requests of all lengths, both families", "why_tests_cant": "quantifies over all histories of requests", "anchors": ["ipv4/set.go:FindAvailablePrefix", "ipv4/setnode.go:FindSmallestContainingPrefix", "ipv6/set.go:FindAvailablePrefix"]}
{"id": "C56", "title": "Which texts are accepted", "statement": "ip.AddressFromString accepts a text as an IPv4 address exactly if it is the text that String prints for that address (ipv4.AddressFromString likewise, for texts without a colon); ipv4.PrefixFromString accepts exactly the text of an address, a slash and decimal digits that stand for a length of at most 32. No text is both IPv4 and IPv6; package ip accepts exactly what the package of the family accepts. Whatever is accepted, as an address or a prefix, prints as a text that is accepted again and stands for the same value.", "quantifier": "all character strings", "why_tests_cant": "infinitely many texts; a parser test tries a few", "anchors": ["ipv4/address.go:AddressFromString", "ipv6/address.go:AddressFromString", "ipv4/prefix.go:PrefixFromString", "ipv6/prefix.go:PrefixFromString", "ip/address.go:AddressFromString", "ip/prefix.go:PrefixFromString"]}
{"id": "C57", "title": "Callbacks may use the library", "statement": "A callback of Table.Walk, Table.Diff, Table.Map, Set.WalkPrefixes or Set.WalkRanges may itself use the library: change any mutable table or set (also the one the walked value was taken from), take and convert values, start walks of its own, or panic. Whatever it does, the walk or diff calls it for exactly the entries, differences, prefixes or ranges that the walked value had when the call was made, in order, once each, until it returns false; and the walked value is the same afterwards. Map returns a table with the entries that its table had when Map was called and the results of the calls as values, and the mapper cannot see the table being made.", "quantifier": "all reachable states, all values known to the program, all callbacks that are programs over the API (nested to any depth, with any state of their own), all address families and value types", "why_tests_cant": "quantifies over all client programs", "anchors": ["ipv4/node.go:Walk,Diff,Map,diff,copyMutate,mutate", "ipv4/table.go:Walk,Diff,Map", "ipv4/set.go:WalkPrefixes,WalkRanges", "ipv6/table.go", "ipv6/set.go"]}
{"id": "C58", "title": "Tables and sets are values", "statement": "A sequential program that uses any number of Table_ and Set_ variables and of Table and Set values, and freezes, thaws, changes, maps, aggregates, combines, walks, compares them in any order, sees in every result exactly what it would see if nothing were shared: each Table_ and Set_ a variable of its own, changed only by calls on it, each Table and Set a value that never changes. No call panics or fails to return, except the documented misuses (changing an uninitialised Table_ or Set_, C41; comparing with a table that has no comparison function, C40).", "quantifier": "all sequential programs, that is all functions from what was seen so far to the next call, of any length; both families, all value types", "why_tests_cant": "quantifies over all programs and histories; sharing bugs depend on the shape of the whole history", "anchors": ["ipv4/table.go", "ipv4/set.go", "ipv4/node.go", "ipv4/setnode.go", "ipv6/table.go", "ipv6/set.go"]}
{"id": "C59", "title": "Sets are mathematical sets", "statement": "A sequential program that uses any number of Set_ variables and Set values sees in every result what it would see if Set_ were a variable holding a mathematical set of addresses and Set were such a set: Insert adds, Remove takes away, Union, Intersection and Difference are the set operations, Contains is inclusion, Equal is having the same addresses, NumAddresses is the number of addresses, WalkPrefixes visits the one sorted list of maximal prefixes until the callback stops it, and FindAvailablePrefix is best fit. What it sees never depends on how a set was built.", "quantifier": "all sequential programs, that is all functions from what was seen so far to the next call, of any length, that use prefixes without host bits, ranges other than those of C08 and requested lengths of at most the width; both families", "why_tests_cant": "quantifies over all programs and histories", "anchors": ["ipv4/set.go", "ipv4/setnode.go", "ipv6/set.go", "ipv6/setnode.go"]}
{"id": "C60", "title": "Tables are maps", "statement": "A sequential program that uses any number of Table_ variables and Table values sees in every result what it would see if Table_ were a variable holding a map from prefixes to values and Table were such a map: Insert, Update, InsertOrUpdate, GetOrInsert and Remove change the one entry they name, an entry keeps the prefix as it was last written, LongestMatch returns the longest entry that contains the argument, NumEntries is their number (mod 2^32), Walk visits the one sorted list of the entries until the callback stops it, Diff reports the entries of both maps paired by key, Map and Aggregate give the maps described by C31-C33. What it sees never depends on how a table was built, apart from the known deviations C24 (Remove of an absent key), C29 (order of Diff), C31 (extra calls of the mapper), C32 and C33.", "quantifier": "all sequential programs, that is all functions from what was seen so far to the next call, of any length, that write valid prefixes, do not change an uninitialised Table_ (C41), compare only with a comparison function (C40), and do not call Map or Aggregate with a custom comparison function (C39); both families, all value types", "why_tests_cant": "quantifies over all programs and histories", "anchors": ["ipv4/table.go", "ipv4/tablex.go", "ipv4/node.go", "ipv6/table.go", "ipv6/node.go"]}
{"id": "C61", "title": "No data races", "statement": "If every value and every handle is passed between goroutines with synchronisation (it was returned before the call that uses it, in the happens-before order), then in every execution in which goroutines use tables and sets concurrently no two accesses to the same memory, of which one is a write and not both are atomic, are unordered by happens-before: immutable values may be used by any number of goroutines while the mutable object they were taken from is written, and a mutable object may be read and written concurrently, as the README says.", "quantifier": "all executions of the concurrent machine (any number of goroutines, any interleaving of their memory accesses, all calls of the API), all happens-before relations between calls, both families, all value types", "why_tests_cant": "quantifies over all schedules; the race detector sees one execution, and only if the race happens in it", "anchors": ["README.md", "ipv4/unsafe_atomic.go:swapSetNodePtr,swapTrieNodePtr", "ipv4/set.go:mutate", "ipv4/tablex.go:mutate", "ipv4/node.go:copyMutate,mutate,newNode"]}
{"id": "C62", "title": "Concurrent writers cannot corrupt or lose unrelated data", "statement": "However reads and writes by several goroutines interleave (also where C36 fails): a table or set holds proper contents at every time; each change of its contents is one write, applied as a whole to contents it had at a time since that write was started; a write that returned reported the result for contents it had during the call, and the contents that the write makes of them are contents it held during the call. Hence, if nobody has called Remove with a key since a moment without writes in progress, then from the return of an Insert, InsertOrUpdate or GetOrInsert of that key on every Get finds a value; and the other way round after Remove, if nobody inserts the key. The same for Insert, Remove and Contains of addresses of sets. A value or address that a read finds was put there by a call on this table or set with this key, or was in the value the table or set was made from.", "quantifier": "all executions of the concurrent machine (any number of goroutines, any interleaving, all calls of the API), all objects, keys and addresses, both families, all value types", "why_tests_cant": "quantifies over all schedules", "anchors": ["ipv4/tablex.go:mutate,Insert,Update,InsertOrUpdate,GetOrInsert,Remove,Get", "ipv4/set.go:mutate,Insert,Remove,Contains", "ipv4/unsafe_atomic.go:swapSetNodePtr,swapTrieNodePtr", "ipv6/set.go", "ipv6/tablex.go"]}
{"id": "C63", "title": "Diff costs no more than the changes", "statement": "The cost of comparing two snapshots of a table, one of which was derived from the other by writes on a Table_, does not depend on the size of the table: with nil for the unchanged handler, Diff takes at most 4 * (address width + 1) steps (memory accesses) for each key that was written in between, plus one, and allocates nothing. Nodes that the writes did not have to copy are shared between all versions.", "quantifier": "all executions of the concurrent machine, all pairs of snapshots of one Table_ or of a Table and a snapshot of a modified copy of it, any number of writes in between, also concurrent ones; all tables of any size, both families, all value types and callbacks", "why_tests_cant": "quantifies over all tables and histories; a benchmark measures one", "anchors": ["README.md", "ipv4/node.go:diff,Diff,insert,del,copyMutate", "ipv4/table.go:Diff", "ipv4/tablex.go:mutate", "ipv6/node.go"]}
{"id": "C64", "title": "Memory is proportional to the minimum", "statement": "The nodes that a Set or Set_ keeps in memory are at most twice as many, minus one, as the prefixes in any list that covers exactly its addresses, at every time, however it came about; those of a Table or Table_ are at most twice as many, minus one, as its entries.", "quantifier": "all executions of the concurrent machine, all values and objects at every time, all competing covers, both families, all value types", "why_tests_cant": "quantifies over all histories and all competing covers", "anchors": ["README.md", "ipv4/setnode.go:Union,Intersect,Difference", "ipv4/node.go:insert,del,flatten", "ipv6/setnode.go", "ipv6/node.go"]}
{"id": "C65", "title": "Cost of set operations", "statement": "Every operation on sets ends after a number of steps (memory accesses) that is linear in the number of prefixes the sets it works on are made of: at most 300 * (w+1) * (N+w+1) steps if each of them is the union of at most N prefixes, where w is the address width; Insert and Union at most 48*N + 96*w + 28; NumAddresses, IsEmpty, Equal and WalkPrefixes at most 4*N + 5, allocating nothing. However large the receiver is, Insert, Union, Remove and Difference with an argument made of at most M prefixes (an address or prefix is one, a range at most 2*w+1) end after at most 160*M*(w+1) + 48*w + 16 steps and allocate at most 30*M*(w+1) + 4*w + 1 nodes, and Contains of, and Intersection with, a single address end after at most 18*w + 24 and 56*w + 75 steps.", "quantifier": "all executions of the concurrent machine, all calls of the set API, sets of any size and shape, both families", "why_tests_cant": "quantifies over all sets; a benchmark measures a few, and a bad case (one in which the recursion visits pairs of nodes, say) may not be among them", "anchors": ["ipv4/setnode.go:Union,Intersect,Difference,setNodeFromRange,NumAddresses,FindSmallestContainingPrefix", "ipv4/set.go", "ipv4/node.go:Equal,Walk", "ipv6/setnode.go", "ipv6/set.go"]}
{"id": "C66", "title": "Cost of going through tables", "statement": "Walk of a Table with N entries takes at most 2*N + 1 steps (memory accesses) and allocates nothing; Diff of Tables with N and M entries at most 4*(N+M) + 1 steps, allocating nothing, whatever handlers are given; Map at most 24*N + 1 steps, allocating at most 2*N nodes; Aggregate at most 30*N + 1 steps, allocating at most 2*N nodes.", "quantifier": "all executions of the concurrent machine, all tables of any size and shape, all callbacks, both families, all value types", "why_tests_cant": "quantifies over all tables; a benchmark measures a few", "anchors": ["ipv4/node.go:Walk,diff,Diff,Map,aggregate,copyMutate", "ipv4/table.go:Walk,Diff,Map,Aggregate", "ipv6/node.go", "ipv6/table.go"]}
{"id": "C67", "title": "Callbacks may do anything", "statement": "A program that uses tables or sets, and whose callbacks (given to Walk, Diff, Map, Build, WalkPrefixes, WalkRanges) are again such programs - they may read and write the tables that are being walked or mapped, take snapshots, walk again, and so on to any depth - returns exactly what it would return if a Table_ were a variable that holds a map from prefixes to values and a Table such a map (a Set_ a variable that holds a set of addresses, a Set such a set): every walk reports the contents that the value had, whatever the callbacks write; Map returns the results of its mapper; Build returns what the builder made of the clone if it returned true and the original otherwise. No call of the library panics or fails to return.", "quantifier": "all programs made of calls of the API, with callbacks that are programs, nested to any depth, with any data-dependent behaviour, both families, all value types", "why_tests_cant": "quantifies over all programs and all callbacks; a test runs a few", "anchors": ["ipv4/table.go:Walk,Diff,Map,Build,Table_,Table", "ipv4/tablex.go", "ipv4/set.go:WalkPrefixes,WalkRanges,Build,Set_,Set", "ipv4/node.go:Walk,diff,Diff,Map,copyMutate", "ipv6/table.go", "ipv6/set.go"]}
{"id": "C68", "title": "Which calls on tables panic", "statement": "A sequential program that uses Tables and Table_s of comparable values, with the default or with custom comparison functions, sees maps (as in C60), and a call panics exactly when it is one of these: a write to an uninitialised Table_; Map (with a mapper) or Aggregate of a Table with entries that was returned by Aggregate, or by Map of such a table; Map of a Table with a custom comparison function in which some prefix is no entry but has entries in both halves; Aggregate of such a Table if inside such a prefix nothing can be aggregated: no entry there has the value of the nearest entry that strictly contains it, and no two entries there are the two halves of a prefix and have equal values; Diff of a Table returned by Aggregate (or by Map of such a table) with a table that has an entry in common, unless a callback returns false before that entry is reached. The program may call anything at any time, with valid prefixes, custom functions that are equivalences where it calls Aggregate, and with an unchanged callback where it calls Diff on a Table returned by Aggregate that has entries in common with the other one.", "quantifier": "all programs with any data-dependent behaviour, any number of variables and values, all callbacks, all comparison functions, both families, all comparable value types", "why_tests_cant": "quantifies over all programs and all tables; a panic is only seen by a test that builds the table shape that triggers it", "anchors": ["ipv4/table.go:Map,Aggregate,Table_,Table,NewTableCustomCompare_", "ipv4/tablex.go", "ipv4/node.go:Map,aggregate,createReturnValue,copyMutate", "ipv6/table.go", "ipv6/node.go"]}
{"id": "C69", "title": "Values that == cannot compare", "statement": "In tables of values of any type on which == is identity or panics (slices, maps, functions, structs and interfaces that may hold them), some calls may panic where they would not for comparable values: writes, Diff, Map and Aggregate. But that is all: whatever any number of goroutines do, all results of all calls and all contents of all tables are such as could have come about with comparable values, so all that is claimed for these holds; a call that panics has changed no table; reads (Get, LongestMatch, NumEntries, Walk, Table, Table_) never panic; a Table never changes; writes are atomic as in C36.", "quantifier": "all executions of the concurrent machine, all calls, both families, all value types on which == is identity or panics", "why_tests_cant": "quantifies over all executions, interleavings and value types", "anchors": ["ipv4/node.go:copyMutate,insert,del,Map,aggregate,GetOrInsert", "ipv4/tablex.go:mutate,defaultComparator", "ipv4/table.go", "ipv6/node.go", "ipv6/tablex.go"]}
{"id": "C70", "title": "Which calls on tables panic when the values cannot be compared", "statement": "A sequential program that uses Tables and Table_s of values no two of which can be compared with == (slices, maps, functions), with the default or with custom comparison functions, sees maps (as in C60), and a call panics exactly when it is one of these: a write to an uninitialised Table_; Insert of a prefix that is no entry and is strictly contained in an entry; Update of an entry that is strictly contained in another one, or of any entry of a table with the default comparison function; InsertOrUpdate of a prefix that is strictly contained in an entry, or of any entry of a table with the default comparison function; GetOrInsert of a prefix that is strictly contained in an entry; Remove of a prefix that is strictly contained in an entry and is an entry itself, or has entries in both halves; Map, with a mapper, of a Table that has entries; Aggregate of a Table that has entries and no custom comparison function; Aggregate of a Table with a custom one in which some entry is equal to the nearest entry that strictly contains it, or two entries strictly contained in another one are the two halves of a prefix and have equal values, or (as in C68) some prefix is no entry but has entries in both halves and nothing can be aggregated inside it; Diff of a Table without custom comparison function with a Table that has an entry in common, unless a callback returns false before that entry is reached. The program may call anything at any time, with valid prefixes, custom functions that are equivalences where it calls Aggregate, and with an unchanged callback where it calls Diff on a Table without custom comparison function that has entries in common with the other one.", "quantifier": "all programs with any data-dependent behaviour, any number of variables and values, all callbacks, all comparison functions, both families, all value types on which == always panics", "why_tests_cant": "quantifies over all programs and all tables; a panic is only seen by a test that stores such values and builds the table shape that triggers it", "anchors": ["ipv4/node.go:copyMutate,insert,del,Map,aggregate,createReturnValue,GetOrInsert", "ipv4/tablex.go:mutate,defaultComparator", "ipv4/table.go", "ipv6/node.go", "ipv6/tablex.go", "ipv6/table.go"]}
{"id": "C71", "title": "Trying again after a concurrent modification", "statement": "A write on a Set_/Table_ panics with 'concurrent modification' only if another write on the same object takes effect during the call, and that other write does not panic: it returns, however the execution goes on. So of writes that overlap at least one succeeds. If a goroutine repeats a write that panicked, n panics in a row need n different writes by others that took effect in between; with at most m other writes, at most m attempts panic.", "quantifier": "all executions of the concurrent machine: any number of goroutines, any interleaving, all numbers of attempts, both families, all value types", "why_tests_cant": "Progress under contention concerns all schedules and all numbers of attempts; a test sees a few schedules.", "anchors": ["ipv4/tablex.go:tableX_.mutate", "ipv4/set.go:Set_.mutate", "ipv4/unsafe_atomic.go", "ipv6/unsafe_atomic.go"]}
{"id": "C72", "title": "Nil in tables of an interface type", "statement": "Where the type T of the values of a table is an interface type (error, any, fmt.Stringer, ...), nil is a value like any other: it can be inserted, updated, found (Get returns nil, true), mapped, compared and aggregated, and an entry with value nil is told apart from no entry. A sequential program that uses such Tables and Table_s sees maps from prefixes to values, as in C60, and no call panics, with the default and with custom comparison functions.", "quantifier": "all sequential programs with any data-dependent behaviour, any number of variables and values, all callbacks, all values with nil among them, both families", "why_tests_cant": "A test stores nil in a few tables; that nil is never confused with the empty interface value of nodes without entry concerns all shapes of tables and all histories.", "anchors": ["ipv4/table.go:NewTableCustomCompare_,Table_.Get,Table.Get,Table.Map,Table.Diff", "ipv4/tablex.go:defaultComparator,mutate", "ipv4/node.go:insert,aggregate,Map", "ipv6/table.go"]}
{"id": "C73", "title": "Values for which == is not identity", "statement": "The type T of the values of a table may be one for which == is not identity: floating point numbers (NaN != NaN, 0.0 == -0.0), or arrays and structs of them. A sequential program that uses such Tables and Table_s sees maps from prefixes to values, as in C60, where two values count as the same if and only if == (or the custom comparison function) says so: Update and InsertOrUpdate keep the stored value exactly if it compares equal to the new one, Diff calls changed exactly for the prefixes in both tables whose values do not compare equal, Map returns a table with the results that do not compare equal to the old values, Aggregate merges or drops entries only if their values compare equal; every stored value is returned as it was given; no call panics.", "quantifier": "all sequential programs with any data-dependent behaviour, any number of variables and values, all callbacks, all types with a total, symmetric and transitive ==, both families", "why_tests_cant": "A test tries a few values; whether a value that is equal to another, or not to itself, is kept, replaced or reported depends on the shapes of the tables and on the nodes they share.", "anchors": ["ipv4/node.go:copyMutate,insert,diff,Map", "ipv4/tablex.go:defaultComparator", "ipv4/table.go:Table.Diff,Table.Map,Table_.Update", "ipv6/node.go", "ipv6/table.go"]}
{"id": "C74", "title": "Aggregating an aggregated table", "statement": "Aggregating a table that is the result of Aggregate changes nothing. Aggregate changes nothing exactly if no entry has a value that compares equal to that of the entry that most closely contains it and no two halves of a prefix are entries with equal values; otherwise the result has fewer entries. Repeating Aggregate settles after a fixed number of rounds.", "quantifier": "all tables that can be built through the API, all comparison functions that are equivalences, both families", "why_tests_cant": "Whether a second round finds something to do depends on the shape of the whole table; a test repeats Aggregate on a few tables.", "anchors": ["ipv4/node.go:aggregate,childrenAggregate,createReturnValue", "ipv4/table.go:Table.Aggregate", "ipv6/node.go", "ipv6/table.go"]}
{"id": "C75", "title": "Copying and synchronising tables", "statement": "Going through a table with Walk and inserting every entry into a new Table_ yields a table with the same entries in the same order, and every Insert returns true. Turning a table l into a table r with the changes that Diff reports works: starting with l.Table_(), if the callbacks call Remove for what is only in l, Insert for what is only in r and Update for what has changed, every one of these calls returns true, and afterwards Get returns for every prefix what it returns for r (where the comparison function takes two values for equal, the old one stays), and Diff with r reports no more differences. Diff(r, l) reports the same changes as Diff(l, r) with left and right exchanged, each once.", "quantifier": "all pairs of tables that can be built through the API, all comparison functions, all prefixes, both families", "why_tests_cant": "A test synchronises a few pairs of tables; each change goes through insertion and deletion in tries whose shape depends on all changes before.", "anchors": ["ipv4/table.go:Table.Diff,Table.Walk,Table.Table_,Table_.Insert,Table_.Update,Table_.Remove", "ipv4/node.go:diff,insert,del,Walk", "ipv6/table.go", "ipv6/node.go"]}
{"id": "C76", "title": "Tables and sets together", "statement": "The prefixes of a table collected in a Set_ are a set that contains exactly the addresses for which LongestMatch finds an entry. The prefixes of a set (WalkPrefixes), each inserted with a value v into a new Table_, make a table whose entries are these prefixes, for which LongestMatch finds v for each address of the set and nothing for any other address. Aggregate of a table whose values are all equal has exactly the prefixes that WalkPrefixes reports for the set of the addresses covered by the table, in the same order.", "quantifier": "all tables and sets that can be built through the API, all addresses, both families", "why_tests_cant": "It relates two data structures over all addresses; a test compares a few.", "anchors": ["ipv4/table.go:Table.Walk,Table.LongestMatch,Table.Aggregate", "ipv4/set.go:Set_.Insert,Set.WalkPrefixes,Set.Contains", "ipv4/setnode.go", "ipv4/node.go:aggregate", "ipv6"]}
{"id": "C77", "title": "A write changes only the lookups it should", "statement": "Insert, Update, InsertOrUpdate, GetOrInsert and Remove with a prefix k leave Get of every other prefix and LongestMatch of everything that is not inside k as they were. Inside k, LongestMatch stays as it was where it found something longer than k; elsewhere it finds the entry of k, if there is one afterwards. After Remove of k, LongestMatch finds where it found k what it found for the prefix that is one bit shorter (nothing if k has length 0). Remove of a prefix that is no entry changes no lookup and no entry. The number of entries grows by one with an Insert that returns true, shrinks by one with Remove of an entry, and stays with Update.", "quantifier": "all tables that can be built through the API, all calls, all keys and lookups, all comparison functions, both families", "why_tests_cant": "It is about all lookups in all tables; a test looks up a few addresses after a write.", "anchors": ["ipv4/table.go:Table_.Insert,Table_.Update,Table_.InsertOrUpdate,Table_.GetOrInsert,Table_.Remove,Table_.LongestMatch,Table_.Get", "ipv4/node.go:insert,del,Match", "ipv6/table.go", "ipv6/node.go"]}
{"id": "C78", "title": "Map goes well with the other calls", "statement": "For a mapper f without side effects: in Map(f) of a table LongestMatch finds the prefix it found before, with the mapped value (the old value if the comparison takes the two for equal), and nothing where it found nothing; so does Get; the prefixes, as written, their order and NumEntries are the same. A mapper that changes no value gives the same entries. Diff of a table and its image reports every entry of the table once, in order: to Changed with the old and the new value if these differ, else to Unchanged; it reports nothing to Left or Right. If values that compare equal are equal, Map(f) and then Map(g) is Map of both, and a write followed by Map is Map followed by the same write of the mapped value. Aggregate after mapping all values to one constant has exactly the prefixes that WalkPrefixes reports for the set of the addresses the table covers.", "quantifier": "all tables that can be built through the API, all mappers without effects, all comparison functions, all keys, addresses and calls, both families", "why_tests_cant": "It relates whole tables, for all mappers and lookups; a test maps a few tables.", "anchors": ["ipv4/table.go:Table.Map,Table.Diff,Table.Aggregate,Table.LongestMatch,Table.Get", "ipv4/node.go:Map,diff,aggregate,Match", "ipv4/set.go:Set.WalkPrefixes", "ipv6/table.go", "ipv6/node.go"]}
{"id": "C79", "title": "Calculating with the ranges of sets", "statement": "WalkRanges lists the ranges of a set in ascending order, with at least one address between any two, and no other such list of ranges has the addresses of the set. One can calculate with these ranges instead of with the sets: subtracting with Range.Minus every range of a set t from every range of a set s gives exactly the ranges of s.Difference(t), in order; doing it twice gives those of s.Intersection(t); s.Contains(t) exactly if nothing is left of the ranges of t after subtracting those of s. The set of a prefix p has the one range p.Range(), and p.Range().Minus(q.Range()) are the ranges of p.Set().Difference(q). For IPv4, NumAddresses is the sum of the sizes of the ranges.", "quantifier": "all sets that can be built through the API, all valid prefixes, both families (NumAddresses is IPv4 only)", "why_tests_cant": "A test compares a few sets; that two independent ways to calculate (tries of prefixes, and arithmetic on end addresses) agree is a statement about all pairs of sets.", "anchors": ["ipv4/range.go:Minus", "ipv4/set.go:Set.WalkRanges,Set.Difference,Set.Intersection,Set.Contains,Set.NumAddresses", "ipv4/prefix.go:Prefix.Range,Prefix.Set", "ipv6/range.go", "ipv6/set.go"]}
{"id": "C80", "title": "Minus and Plus agree with the sets of ranges", "statement": "For two ranges r and q, the ranges of r.Set().Difference(q) are those that r.Minus(q) returns, and the ranges of r.Set().Union(q) are those that r.Plus(q) returns; the set of a range has one range, the range itself.", "quantifier": "all pairs of valid ranges, both families", "why_tests_cant": "A test compares a few pairs of ranges; the code that turns a range into a set of prefixes and the arithmetic on its ends are independent.", "anchors": ["ipv4/range.go:Minus,Plus,Set", "ipv4/setnode.go:setNodeFromRange", "ipv4/set.go:Set.WalkRanges,Set.Difference,Set.Union", "ipv6/range.go", "ipv6/setnode.go"]}
{"id": "C81", "title": "Set tries of the package: Insert and Remove", "statement": "Any sequence of Insert and Remove of the package's own set tries (setNode.Insert, setNode.Remove, with which its tests and future code inside the package build sets), starting with the nil trie, gives without a panic a trie that contains exactly the addresses that the same sequence on sets of addresses gives: Insert adds all addresses of the prefix, Remove takes them out. The trie has the shape that any set of the API with the same addresses has.", "quantifier": "all sequences of the two calls, all valid prefixes, both families", "why_tests_cant": "Whether a call goes wrong depends on the shape of the trie the calls before it left; the tests insert and remove a few prefixes.", "anchors": ["ipv4/setnode.go:setNode.Insert,setNode.Remove", "ipv4/node.go:insert,del,flatten", "ipv6/setnode.go", "ipv6/node.go"]}
{"id": "C82", "title": "Nil callbacks", "statement": "A nil callback is as good as one that does nothing and returns true: for every table Diff with some nil callbacks does and returns what it does with such functions in their place, Map(nil) returns the table itself, and Walk(nil), and WalkPrefixes(nil), WalkRanges(nil) and WalkAddresses(nil) for every set, return true. Only Build(nil) panics, whatever the table or set.", "quantifier": "all tables and sets of all executions, all combinations of nil callbacks, both families", "why_tests_cant": "Whether a nil callback is ever called depends on the contents; the tests pass nil to the Walk of the internal nodes only.", "anchors": ["ipv4/table.go:Table.Walk,Table.Diff,Table.Map,Table.Build", "ipv4/tablex.go:tableX.Walk", "ipv4/set.go:Set.WalkPrefixes,Set.WalkRanges,Set.WalkAddresses,Set.Build", "ipv4/node.go:trieNode.Walk,trieNode.Diff", "ipv6/table.go", "ipv6/set.go"]}
{"id": "C83", "title": "No call returns a malformed value", "statement": "Starting from nothing but addresses, texts, nets and numbers, no sequence of calls of the API returns a malformed value: the length of every prefix is at most the number of bits of an address, no range is empty (the last address is not below the first), every mask is a row of ones followed by zeros; sets and tables are built from such values. Conversely every such value can be made with the API.", "quantifier": "all sequences of calls of the constructors and operations of masks, prefixes, ranges, sets and tables, fed with each other's results; both families", "why_tests_cant": "It is about all finite compositions of calls; a test composes two or three.", "anchors": ["README.md", "ipv4/prefix.go:Prefix", "ipv4/range.go:RangeFromAddresses,Minus,Plus", "ipv4/mask.go:Mask", "ipv4/set.go:Set.FindAvailablePrefix,Set.WalkPrefixes,Set.WalkRanges", "ipv4/table.go:Table.Walk,Table.LongestMatch", "ipv6/prefix.go", "ipv6/range.go", "ipv6/mask.go", "ipv6/set.go", "ipv6/table.go"]}
{"id": "C84", "title": "Every prefix has its own history", "statement": "The calls for one prefix do not depend on the calls for others: two histories of a Table_ that make, for every prefix, the same calls in the same order end with the same entries, written in the same way, in the same order, with the same NumEntries and the same answers of LongestMatch and Get, and each call returns the same in both. So calls for other prefixes may be left out as far as Get and the results for one prefix are concerned, and the order of calls for different prefixes does not matter.", "quantifier": "all tables that can be built through the API, all histories of Insert, Update, InsertOrUpdate, GetOrInsert, Get and Remove, all interleavings, all comparison functions, both families", "why_tests_cant": "The shape of the trie on the way depends on the order; a test tries a few orders of a few prefixes.", "anchors": ["ipv4/table.go:Table_.Insert,Table_.Update,Table_.InsertOrUpdate,Table_.GetOrInsert,Table_.Get,Table_.Remove,Table_.LongestMatch", "ipv4/tablex.go", "ipv4/node.go:insert,del,Match", "ipv6/table.go", "ipv6/node.go"]}
{"id": "C85", "title": "Lookups of prefixes and of what is inside them", "statement": "If LongestMatch finds p for a prefix k, then for every prefix or address inside k it finds p or an entry inside p. It finds the same for k and for q inside k exactly if no entry inside k, and longer than k, contains q; so all addresses of k have the match of k exactly if the table has no entry inside k but perhaps k. All prefixes between p and k, and p, have the match p, and Get finds p. Get is LongestMatch with an answer only if the match is as long as the argument.", "quantifier": "all tables that can be built through the API, all keys, all comparison functions, both families", "why_tests_cant": "It relates all lookups in all tables; a test looks up a few prefixes.", "anchors": ["ipv4/table.go:Table.LongestMatch,Table.Get", "ipv4/tablex.go:tableX.longestMatch", "ipv4/node.go:Match", "ipv6/table.go", "ipv6/node.go"]}
{"id": "C86", "title": "How many prefixes sets have", "statement": "Counted by WalkPrefixes: the set of an address or a prefix has one prefix; the set of a range has at most two for every bit of an address, less three (61 and 253; some ranges reach it); Union and Intersection have at most as many as both arguments together; Difference has at most as many as the first and, for every prefix of the second, one for every bit of an address. So a set that is built from n addresses and prefixes has at most n. WalkRanges reports at most as many ranges as WalkPrefixes prefixes, and there are at most 62 and 254 prefixes for each range (some sets reach it). With C17 this bounds the nodes in memory.", "quantifier": "all sets that can be built through the API, all valid arguments, both families", "why_tests_cant": "A bound for all sets; a test counts the prefixes of a few.", "anchors": ["ipv4/set.go:Set.Union,Set.Intersection,Set.Difference,Set_.Insert,Set.WalkPrefixes,Set.WalkRanges", "ipv4/setnode.go:setNodeFromRange,setNode.Union,setNode.Intersect,setNode.Difference", "ipv4/node.go", "ipv6/set.go", "ipv6/setnode.go"]}

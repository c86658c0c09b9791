claims={}
for i in range(1,87): claims[f'C{i:02d}']=('partial',[],'in progress')
def c(i,s,t,n): claims[i]=(s,t.split(),n)
c('C08','partial','C08_address C08_prefix C08_range_partial C08_range_exact_iff C08_range_bad_block C08_range_superset C08_range_counterexample C08_range_counterexample6','False of the code for ranges: [10.0.0.1,10.0.0.2].Set() holds four addresses. Proved exactly for addresses, prefixes; for ranges the exact set of good ranges is characterised.')
c('C09','proved','C09_union','')
c('C10','proved','C10_intersection','')
c('C11','proved','C11_difference','')
c('C12','proved','C12_contains C12_isEmpty C12_nil C12_contains_nil','')
c('C13','partial','C13_equal_iff_prefixes C13_equal_sound C13_equal_partial C13_equal_tidy_partial C13_tidy_walk_partial C13_equal_counterexample','False of the code with host bits (10.0.0.1/24 vs 10.0.0.0/24). Proved for all sets made without such prefixes, by any combination of operations.')
c('C14','proved','C14_canonical C14_walk','')
c('C15','proved','C15_numAddresses','')
c('C16','proved','C16_walkPrefixes','')
c('C17','proved','C17_minimal C17_nodes','')
c('C18','proved','C18_walkRanges','')
c('C19','partial','C19_walkAddresses_partial C19_never_ends C19_wraps','False of the code for sets holding 255.255.255.255: never terminates.')
c('C20','proved','C20_numPrefixes4 C20_numPrefixes6 C20_too_long4 C20_too_long6 C20_prefix4 C20_prefix6','')
c('C21','partial','C21_sound_partial C21_counterexample','False for lengths above the width.')
c('C22','proved','C22_bestFit','')
c('C41','partial','C41_findAvailable_nil','nil reserved panics')
c('C46','partial','C46_height','sets; tables to come')
c('C23','partial','C23_history_partial C23_history_exact_partial C23_shows C23_empty C23_key','All results and the final contents agree with a plain map for every history, except the boolean of Remove on an absent key (false of the code, see C24).')
c('C24','partial','C24_remove_partial C24_remove_exact C24_remove_counterexample','False of the code: Remove of a prefix that is not an entry but has entries in both halves returns true. Exactly characterised.')
c('C25','proved','C25_longestMatch_found C25_longestMatch_notFound C25_longestMatch_zero C25_get C25_longestMatch_get','')
c('C26','proved','C26_numEntries C26_numEntries_mod','')
c('C27','proved','C27_walk C27_sorted C27_complete','')
c('C28','proved','C28_diff C28_apply','')
c('C29','partial','C29_order_partial C29_order_exact C29_order_iff C29_report_unique C29_order_counterexample','False of the code: {10.0.0.0/24} vs {11.0.0.0/8} is reported in the wrong order. The order is characterised exactly (C29_order_exact): two reported prefixes are swapped iff the entries each table has inside their smallest common prefix lie in a prefix of their own and the one of the left table is longer; C29_order_iff: when everything is in order. C29_order_partial: order per side, containing prefix first, full order when the keys of one table are among those of the other.')
c('C31','partial','C31_map C31_calls_partial C31_nil C31_calls_counterexample','False of the code: the mapper is also called for prefixes of inactive internal nodes.')
c('C32','partial','C32_found C32_value C32_lookup_partial C32_disjoint_partial C32_lookup_counterexample','False of the code: merging two halves drops more specific entries. Proved under a no-loss hypothesis (C32_lookup_partial, C32_disjoint_partial); the entries of the result, from which every lookup follows with C25, are characterised exactly (C33_exact).')
c('C33','partial','C33_length C33_siblings C33_minimal_partial C33_minimal_counterexample','False of the code in general.')
c('C46','proved','C46_height C46_table_height','')
c('C01','proved','C01_v4_fromSlice C01_v4_toNetIP C01_v4_roundtrip C01_v4_unique C01_v4_fromNetIP C01_v6_fromSlice C01_v6_fromNetIP C01_v6_toNetIP C01_v6_roundtrip C01_v6_unique C01_v6_uint16','')
c('C02','proved','C02_fromWord C02_fromLength C02_value C02_inverse C02_fromBytes','')
c('C03','proved','C03_bitwise C03_shifts C03_addSub C03_compare C03_leadingZeros C03_onesCount','')
c('C04','proved','C04_network C04_broadcast C04_host C04_range','')
c('C05','proved','C05_halves C05_exactlyOne','')
c('C06','proved','C06_minus','')
c('C07','partial','C07_plus_addresses C07_plus_partial C07_plus_wraps C07_plus_exact C07_plus_counterexample','The addresses are always exactly those of the union. The shape (one range if they touch) is false of the code exactly when the range that starts first ends at the last address (C07_plus_exact); even r.Plus(r) then returns two ranges: [0.0.0.5,255.255.255.255].Plus([0.0.0.7,0.0.0.9]) returns two overlapping ranges.')
c('C43','proved','C43_lessThan C43_strictTotal C43_containerFirst','')
c('C44','proved','C44_uint C44_mask_roundtrip C44_mask_accepts C44_net_roundtrip C44_v4_net_accepts C44_v6_net_accepts C44_addressMask C44_ip_address C44_ip_address_roundtrip C44_ip_families C44_ip_mask C44_ip_net C44_ip_net_roundtrip C44_ip_accessors','')
c('C23','partial','C23_history C23_history_partial C23_history_exact_partial C23_shows C23_empty C23_key','Every result of every history and the final contents are characterised exactly in terms of a plain map (C23_history). The English property is false of the code in one point: the boolean of Remove on an absent key (see C24).')
c('C24','partial','C24_remove_map C24_remove_partial C24_remove_exact C24_remove_counterexample','False of the code: Remove of a prefix that is not an entry but has entries in both halves returns true. Exactly characterised.')
c('C34','proved','C34_table C34_table_repeat C34_set','every execution of the concurrent machine')
c('C35','proved','C35_table_own_writes C35_table_fresh C35_table_clone C35_set_own_writes C35_set_fresh C35_set_clone','copies of a Table_/Set_ are the same object of the machine')
c('C36','partial','C36_table_partial C36_table_oneKind_partial C36_table_oneWriter_partial C36_table_steady_partial C36_table_pinned_partial C36_table_defaultRoute_partial C36_set_partial C36_set_oneKind_partial C36_set_oneWriter_partial C36_set_steady_partial C36_set_pinned_partial C36_set_halves_partial C36_lost_remove C36_resurrected_insert C36_set_resurrected_insert C36_set_halves_needs_plain','False of the code: a Remove can be lost, and removed entries can come back, without any panic. Proved (linearizability, for any number of goroutines) when no Remove overlaps a write of another kind; and, with writes of all kinds that overlap in any way, while the smallest prefix that contains all the entries (members) stays the same, for instance because a table has a default route that nobody removes, or a set has an address in the lower and one in the upper half of all addresses that nobody removes (for sets only if the arguments of Insert are addresses, prefixes or ranges: a Set brings its own root, which may have been there before; C36_set_halves_needs_plain is an execution that shows that this condition is needed).')
c('C37','proved','C37_table C37_set','')
c('C38','partial','C38_table_panics C38_table_progress C38_table_terminates C38_table_returns C38_set_panics C38_set_progress C38_set_terminates C38_set_returns','Every call panics only on a detected write race and terminates; missing: WalkAddresses does not terminate on sets holding the last address (C19).')
c('C41','partial','C41_findAvailable_nil C41_table_write C41_table_read C41_table_nil C41_set_write C41_set_read C41_set_nil','False of the code in one point: FindAvailablePrefix(nil, n) panics.')
c('C42','proved','C42_table C42_set C35_table_own_writes C35_set_own_writes','')
c('C30','proved','C30_shared','any two Diff calls of any execution')
c('C39','partial','C39_partial C39_nested_insert_panics C39_map_panics C39_map_nil_panics C39_aggregate_nil_panics C39_fails_for_slices C39_fails_for_numbers','False of the code: with slices, Insert below an entry and Map panic; with any type, Map and Aggregate panic on internal nodes without a value. Proved for comparable values without Map and Aggregate.')
c('C40','partial','C40_partial C40_aggregate_again_panics C40_map_panics C40_diff_panics C40_fails C40_other_equality','False of the code: the result of Aggregate has no comparison function, so Diff, Map and Aggregate on it panic, and Table_() falls back to ==. Proved: reads, and Table_() for the default comparison function.')

c('C45','partial','C45_partial C45_v4_roundtrip C45_v6_address C45_v6_prefix C45_v6_counterexample C45_v6_never_mapped C45_v6_injective C45_ip_address C45_ip_prefix','False as stated for ipv6 (C45_v6_counterexample): addresses in ::ffff:0:0/96 are printed as dotted IPv4 text, which package ipv6 rejects and package ip reads as an IPv4 value. Proved exactly for which values the round trip holds, for all addresses and prefixes of both families and for package ip.')
c('C47','proved','C47_format C47_equal C47_determines C47_readable C47_range_mask C47_hostbits','Two sets have the same text exactly if Equal; because of C13 two sets with the same addresses can have different texts (C47_hostbits).')
c('C23','proved','C23_history C23_history_partial C23_history_exact_partial C23_shows C23_empty C23_key','C23_history: every result of every history and the final contents, exactly, in terms of a plain map whose Remove follows C24_remove_exact on absent keys; C23_history_partial states it against the ordinary map with that one boolean free.')
c('C38','proved','C38_table_panics C38_table_progress C38_table_terminates C38_table_returns C38_set_panics C38_set_progress C38_set_terminates C38_set_returns','Every call, in every execution of the concurrent machine, panics only on a detected write race and terminates. WalkAddresses is treated in C19.')

c('C48','proved','C48_lookup C48_write C48_snapshot C48_set_snapshot','One step = one atomic action of the concurrent machine (a whole-node read counts as one).')
c('C49','partial','C49_prefix_contains C49_prefix_prefix C49_prefix_range C49_range_contains_partial C49_range_range_partial C49_range_never_false C49_range_counterexample C49_prefix_numAddresses C49_range_numAddresses_partial','Prefixes: proved in full. Ranges: false of the code exactly for the ranges of C08 (ends symmetric in an aligned block); then Contains may be true and NumAddresses too large (C49_range_counterexample); never wrongly false.')

c('C12','proved','C12_contains C12_isEmpty C12_nil C12_contains_nil C12_isEmpty_v4 C12_isEmpty_v6 C12_contains_v4 C12_contains_v6','')
c('C50','proved','C50_set C50_table C50_check','')

c('C51','partial','C51_laws C51_equal C51_rebuild_prefixes C51_rebuild_ranges_partial C51_rebuild_ranges_counterexample','Everything but rebuilding from WalkRanges is proved in full; that is false of the code exactly when a maximal run of the set is one of the ranges of C08 (then addresses are added, never lost).')
c('C52','proved','C52_history_any C52_history','C52_history_any: all valid arguments, in terms of the set an argument converts to. C52_history: in terms of the argument itself, for all but the ranges of C08.')
c('C53','proved','C53_count C53_monotone','')
c('C54','proved','C54_alloc C54_served','Requested lengths at most the width (longer ones: C21_counterexample).')
c('C55','proved','C55_noFragmentation C55_onePrefix','')

def more(i, th):
    x = claims[i]
    claims[i] = (x[0], x[1] + th.split(), x[2])
for i, th in dict(C09='C09_code', C10='C10_code', C11='C11_code C36_set_oneWriter_partial', C12='C12_code C12_code_isEmpty', C13='C13_code', C15='C15_code', C16='C16_code',
  C21='C21_code', C23='C23_code_get C36_table_oneWriter_partial', C25='C25_code', C26='C26_code', C27='C27_code', C28='C28_code', C31='C31_code', C32='C32_code', C33='C33_code').items():
    more(i, th)
more('C52', 'C36_set_oneWriter_partial')
more('C12','C12_code_isEmpty_v6')
c('C20','proved','C20_numPrefixes4 C20_numPrefixes6 C20_too_long4 C20_too_long6 C20_prefix4 C20_prefix6 C20_range4_partial C20_range6_partial','Range.NumPrefixes is by definition the count of the set of the range; measured against the ends of the range it is right except for the ranges of C08 (C20_range4_partial, C20_range6_partial).')
c('C56','partial','C56_v4_address C56_address_families C56_ip_address C56_address_again C56_v4_prefix C56_ip_prefix C56_prefix_again_partial C56_prefix_counterexample C56_v4_colon_counterexample','Proved in full for addresses and for IPv4 prefixes. False of the code for IPv6 prefixes whose address is a mapped IPv4 address: accepted, but printed as a text that is rejected (C56_prefix_counterexample).')
c('C57','proved','C57_runs_alone C57_unchanged C57_walk C57_diff C57_set_unchanged C57_walkPrefixes C57_walkRanges C57_map C57_map_nil','The callbacks run while other goroutines are suspended (C57_runs_alone says what that means in the machine); with other goroutines running, C34-C38 cover callbacks that keep state of their own. For WalkAddresses see C19_reentrant_partial. Map calls its mapper also for prefixes that are no entries (C31), and is not covered for tables with a custom comparison function (C39).')
more('C19','C19_reentrant_partial')
c('C58','proved','C58_tables C58_sets C58_tables_machine C58_sets_machine','Map and Aggregate on tables with a custom comparison function are left out (C39), and Diff with a nil unchanged callback and a comparison function that is not reflexive. WalkRanges, WalkAddresses and NumPrefixes are loops over WalkPrefixes (C57, C19).')
more('C09','C58_sets')
more('C11','C58_sets')
c('C59','proved','C59_sets C59_listing_unique','The quantifier leaves out prefixes with host bits (C13), the ranges of C08 and lengths over the width (C21), for which the code is wrong. WalkRanges, WalkAddresses and NumPrefixes are loops over WalkPrefixes (C57, C19).')
c('C60','proved','C60_tables C60_listing_unique C60_differ_unique','Which result Remove gives for an absent key, which further calls Map makes and what Aggregate keeps is stated exactly as the code does it (C24, C31-C33), and so is the order in which Diff reports (C29).')
more('C23','C23_entries')
c('C61','partial','C61_tables_partial C61_tables_atomic_partial C61_tables_false C61_sets_partial C61_sets_atomic_partial C61_sets_false','README.md 90-99 says one can read and write concurrently. The full statement is false of the code (C61_tables_false, C61_sets_false: a concrete reachable execution with a race): writers swap the root with atomic.CompareAndSwapPointer (ipv4/unsafe_atomic.go, ipv4/set.go:36-45, ipv4/tablex.go:67-75) but readers and writers load it with a plain load. Proved: no other race exists. With atomic loads there would be none in any execution (the _atomic theorems), and with the code as it is there is none if a write to a Table_ or Set_ does not overlap with another call on it; values (Table, Set) may be used by any number of goroutines meanwhile.')
more('C31','C31_calls_exact_partial')
c('C62','proved','C62_table_write C62_table_versions C62_table_valid C62_table_kept C62_table_gone C62_table_origin C62_set_write C62_set_versions C62_set_valid C62_set_kept C62_set_gone C62_set_origin','Memory is sequentially consistent in the machine; C61 says where Go does not guarantee that (plain root reads concurrent with writes).')
more('C19','C19_exact_partial C19_stopped C19_never_ends_any C19_bound')
more('C33','C33_exact C33_exact_default')
more('C32','C33_exact')
c('C63','proved','C63_versions C63_snapshots C63_copy','The time spent in the callbacks and in the comparison function is not counted; one step is one access to a node.')
c('C64','proved','C64_set C64_set_object C64_table C64_table_object','Counts the nodes reachable from the root. How long unreachable nodes stay in memory is up to the garbage collector.')

c('C65','proved','C65_linear C65_union C65_looks C65_small C65_arguments C65_address','One step is one access to a node or root, or one allocation; the time spent in the callback of WalkPrefixes is not counted. The bounds hold for every recursion bound of the model that is large enough.')
c('C66','proved','C66_walk C66_diff C66_map C66_aggregate','One step is one access to a node or root, or one allocation; the time spent in callbacks and in the comparison function is not counted. Map and Aggregate are modelled for tables with the default comparison function (see C39).')
c('C67','proved','C67_tables C67_sets C67_build C67_set_build','The programs are trees of calls: what a program or callback does next is a function of what it has seen, and each of them ends after finitely many calls (a program that never ends is the subject of C58-C60). Excluded are the calls that earlier properties show to misbehave (host bits and BadRange for sets, Map and Aggregate with a custom comparison function, Diff of an aggregated table), as in C59 and C60. WalkAddresses is the subject of C19_reentrant_partial.')
more('C14','C14_code')
more('C16','C16_code_maximal')
more('C18','C18_code')
more('C19','C19_code_partial')
more('C20','C20_code4 C20_code6')
more('C22','C22_code')
more('C47','C47_code')
more('C67','C67_build_proper')

c('C68','proved','C68_exact','Diff of a table without a comparison function, with nil unchanged and with entries in common, is left out: whether it panics depends on which nodes the tables share (C40 has a witness). Values that cannot be compared with == (slices) are left out (C39 has witnesses).')
more('C39','C68_exact')
more('C40','C68_exact')
more('C41','C68_exact')

more('C08','C08_range_exact')
more('C49','C49_range_contains_exact C49_prefix_contains_exact C49_range_range_exact C49_range_numAddresses_exact')
more('C51','C51_rebuild_ranges_exact')
more('C20','C20_range4_exact C20_range6_exact')
more('C21','C22_exact C21_too_long')
more('C22','C22_exact')
more('C11','C62_set_write')
more('C09','C62_set_write')
more('C52','C58_sets C59_sets C62_set_versions')
st,th,_=claims['C20']; claims['C20']=(st,th,'Range.NumPrefixes is by definition the count of the set of the range; measured against the ends of the range it is the count for the range that C08_range_exact says it is taken for (C20_range4_exact, C20_range6_exact).')
st,th,_=claims['C49']; claims['C49']=(st,th,'Prefixes: proved in full. Ranges: false of the code exactly for the ranges of C08 (ends symmetric in an aligned block); then Contains may be true and NumAddresses too large (C49_range_counterexample); never wrongly false. What they return in every case: the _exact theorems.')
st,th,_=claims['C51']; claims['C51']=(st,th,'Everything but rebuilding from WalkRanges is proved in full; that is false of the code exactly when a maximal run of the set is one of the ranges of C08 (C51_rebuild_ranges_exact, which also says what is rebuilt).')
st,th,_=claims['C21']; claims['C21']=(st,th,'False for lengths above the width: then a result is never a prefix, and there is one exactly if anything is free (C21_too_long; C22_exact: what it is).')
st,th,_=claims['C08']; claims['C08']=(st,th,'False of the code for ranges: [10.0.0.1,10.0.0.2].Set() holds four addresses. Proved exactly for addresses, prefixes; for ranges what the set holds is characterised in every case (C08_range_exact).')
st,th,_=claims['C23']; claims['C23']=(st,th,'C23_history: every result of every history and the final contents, exactly, in terms of a plain map whose Remove follows C24_remove_exact on absent keys.')
st,th,_=claims['C57']; claims['C57']=(st,th,claims['C57'][2].replace('is not covered for tables with a custom comparison function (C39)','is not covered for tables with a custom comparison function (for which C68 says when it panics)'))
st,th,_=claims['C66']; claims['C66']=(st,th,'One step is one access to a node or root, or one allocation; the time spent in callbacks and in the comparison function is not counted. The bounds also hold for calls that panic (C39, C68).')
c('C69','proved','C69_history C69_snapshots C69_own_writes C69_atomic C69_progress C69_panics C69_reads','C69_atomic, like C36, asks that no Remove overlaps with a write of another kind (else C36 is false of the code).')
more('C39','C69_panics C69_history')
more('C29','C28_code')
more('C38','C38_table_reads C38_set_reads')
c('C70','proved','C70_exact','')
more('C39','C70_exact')
c('C71','proved','C71_table_detected C71_table_winner C71_table_retry C71_table_succeeds C71_set_detected C71_set_winner C71_set_retry C71_set_succeeds','')
c('C72','partial','C72_tables_partial C72_default C72_panics C72_custom_nil_false C72_custom_nil_same_calls','False of the code for tables with a custom comparison function: NewTableCustomCompare_ asserts a.(T), which panics if a is nil, so Update, InsertOrUpdate and Diff panic when a nil is to be compared (C72_custom_nil_false; C72_panics says exactly when the methods of Table_ do). Proved in full for programs without custom comparison functions (C72_default), and for those that give them no nil (C72_tables_partial). The values that the interface holds are of types on which == is identity.')
c('C73','partial','C73_tables_partial C73_nan_false C73_nan_shared C73_map_false','False of the code for values that are not equal to themselves (NaN): Diff skips nodes that the tables share without comparing, so with unchanged nil it reports such an entry as changed or not depending on which nodes the tables share (C73_nan_false, C73_nan_shared). Proved for programs whose Diffs without unchanged meet no such entry in both tables. Map on a table with a custom comparison function drops changes that == does not see (C73_map_false; such Maps are outside C60 as well, C39). Aggregate is covered as in C60, with values that are the same or equal by ==: entries whose value is not equal to itself are never merged or dropped as redundant.')
c('C74','partial','C74_idempotent_partial C74_idempotent_false C74_unchanged C74_fewer C74_unchanged_iff C74_leftover C74_twice C74_twice_settled','False of the code: entries of a prefix that are merged into an entry that now has the value of the entry around it stay until the next Aggregate (C74_idempotent_false). Proved: the second Aggregate changes nothing exactly if no entry of the first result repeats the value of the entry that most closely contains it (C74_idempotent_partial); such entries contain no others (C74_leftover); a third Aggregate never changes anything (C74_twice); Aggregate changes nothing exactly if nothing is to be done, and otherwise the result has fewer entries (C74_unchanged_iff, C74_fewer; any comparison function that is an equivalence). The repeated Aggregate goes through Table_().Table(), because the result of Aggregate has no comparison function.')
c('C75','proved','C75_sync C75_sync_same C75_sync_done C75_copy C75_mirror C75_mirror_counts','Stated for the calls as functions on tables; that the code on the heap computes these functions, callbacks included, is C34-C38, C57 and C60.')
c('C76','proved','C76_footprint C76_spread C76_aggregate C76_round_trip','Stated for the calls as functions on tables and sets; that the code on the heap computes these functions is C34-C38, C57-C60.')
c('C77','proved','C77_get C77_elsewhere C77_longer C77_written C77_removed C77_remove_absent C77_count','Stated for the calls as functions on tables and sets; that the code on the heap computes these functions is C34-C38, C57-C60.')
c('C78','proved','C78_longestMatch C78_get C78_prefixes C78_identity C78_compose C78_diff C78_write C78_aggregate','For mappers without effects; which calls a mapper gets, and one with effects, is C31. Stated for the calls as functions on tables and sets; that the code on the heap computes these functions is C34-C38, C57-C60.')
c('C79','proved','C79_ranges C79_difference C79_intersection C79_contains C79_prefix C79_prefix_minus C79_count','Stated for the calls as functions on sets; that the code on the heap computes these functions is C34-C38 and C59.')
c('C80','partial','C80_minus_partial C80_minus_exact C80_plus_partial C80_plus_exact C80_range_exact C80_counterexample C80_plus_counterexample','False of the code: for the ranges of C08 the set has more addresses (C80_counterexample), and Plus returns overlapping ranges where C07 says (C80_plus_counterexample). Proved for all others; C80_minus_exact, C80_plus_exact and C80_range_exact say for all valid ranges what is computed.')
more('C01','C01_v4_fromBytes')
c('C81','partial','C81_history_partial C81_history_exact C81_canonical C81_remove C81_insert_partial C81_insert_lost C81_counterexample','False of the code: Insert of 10.0.0.0/24 after 10.0.0.0/26 and 10.0.0.128/25 does nothing (C81_counterexample). C81_history_exact says for every history what the set is; Remove is always right; Insert is Union unless the set has addresses in both halves of the prefix, and then it does nothing. No function of the API calls the two.')
c('C82','partial','C82_diff_nil C82_map_nil C82_walk_partial C82_walk_untyped C82_walkPrefixes_partial C82_walkRanges_partial C82_walkAddresses_partial C82_build_nil C82_set_build_nil C82_counterexample','False of the code for the walks of the API: Walk(nil) of a table that is not empty and WalkPrefixes(nil), WalkRanges(nil), WalkAddresses(nil) of a set that is not empty panic (C82_counterexample), because the nil callback is wrapped in a function that is not nil before trieNode.Walk tests it; of an empty one they return true (the _partial theorems say exactly when). Diff for comparators that call every value equal to itself or with unchanged not nil (for others C73). Walk(nil) of the untyped tables returns true (C82_walk_untyped).')
c('C83','partial','C83_v4_partial C83_v6_partial C83_complete C83_counterexample','False of the code: FindAvailablePrefix with a length above 32 (128) returns a prefix of that length (C83_counterexample). With no such length, both directions, for both families: C83_v4_partial, C83_v6_partial.')
c('C84','partial','C84_history_partial C84_alone_partial C84_order C84_counterexample','False of the code for what Remove returns: removing 10.0.0.0/24, no entry, is reported as done after its two halves were inserted, and not before (C84_counterexample). Everything else: C84_history_partial, C84_alone_partial; the order of calls for different prefixes without exception: C84_order.')
c('C85','proved','C85_nested C85_same C85_between C85_addresses C85_get','')
c('C86','proved','C86_union C86_intersection C86_difference C86_range C86_range4 C86_range6 C86_prefix C86_address C86_built C86_ranges','')
# what a claim with status proved rests on contains no theorem that proves only a part of something
for k in list(claims):
    if claims[k][0]=='proved': claims[k]=(claims[k][0],[t for t in claims[k][1] if '_partial' not in t],claims[k][2])

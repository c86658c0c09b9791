{
 "claims": [
  {
   "property": "C01",
   "status": "proved",
   "theorems": [
    "Addrs.C01_v4_fromSlice",
    "Addrs.C01_v4_toNetIP",
    "Addrs.C01_v4_roundtrip",
    "Addrs.C01_v4_unique",
    "Addrs.C01_v4_fromNetIP",
    "Addrs.C01_v6_fromSlice",
    "Addrs.C01_v6_fromNetIP",
    "Addrs.C01_v6_toNetIP",
    "Addrs.C01_v6_roundtrip",
    "Addrs.C01_v6_unique",
    "Addrs.C01_v6_uint16",
    "Addrs.C01_v4_fromBytes"
   ],
   "note": ""
  },
  {
   "property": "C02",
   "status": "proved",
   "theorems": [
    "Addrs.C02_fromWord",
    "Addrs.C02_fromLength",
    "Addrs.C02_value",
    "Addrs.C02_inverse",
    "Addrs.C02_fromBytes"
   ],
   "note": ""
  },
  {
   "property": "C03",
   "status": "proved",
   "theorems": [
    "Addrs.C03_bitwise",
    "Addrs.C03_shifts",
    "Addrs.C03_addSub",
    "Addrs.C03_compare",
    "Addrs.C03_leadingZeros",
    "Addrs.C03_onesCount"
   ],
   "note": ""
  },
  {
   "property": "C04",
   "status": "proved",
   "theorems": [
    "Addrs.C04_network",
    "Addrs.C04_broadcast",
    "Addrs.C04_host",
    "Addrs.C04_range"
   ],
   "note": ""
  },
  {
   "property": "C05",
   "status": "proved",
   "theorems": [
    "Addrs.C05_halves",
    "Addrs.C05_exactlyOne"
   ],
   "note": ""
  },
  {
   "property": "C06",
   "status": "proved",
   "theorems": [
    "Addrs.C06_minus"
   ],
   "note": ""
  },
  {
   "property": "C07",
   "status": "partial",
   "theorems": [
    "Addrs.C07_plus_addresses",
    "Addrs.C07_plus_partial",
    "Addrs.C07_plus_wraps",
    "Addrs.C07_plus_exact",
    "Addrs.C07_plus_counterexample"
   ],
   "note": "The addresses are always exactly those of the union. The shape (one range if they touch) is false of the code exactly when the range that starts first ends at the last address (C07_plus_exact); even r.Plus(r) then returns two ranges: [0.0.0.5,255.255.255.255].Plus([0.0.0.7,0.0.0.9]) returns two overlapping ranges."
  },
  {
   "property": "C08",
   "status": "partial",
   "theorems": [
    "Addrs.C08_address",
    "Addrs.C08_prefix",
    "Addrs.C08_range_partial",
    "Addrs.C08_range_exact_iff",
    "Addrs.C08_range_bad_block",
    "Addrs.C08_range_superset",
    "Addrs.C08_range_counterexample",
    "Addrs.C08_range_counterexample6",
    "Addrs.C08_range_exact"
   ],
   "note": "False of the code for ranges: [10.0.0.1,10.0.0.2].Set() holds four addresses. Proved exactly for addresses, prefixes; for ranges what the set holds is characterised in every case (C08_range_exact)."
  },
  {
   "property": "C09",
   "status": "proved",
   "theorems": [
    "Addrs.C09_union",
    "Addrs.C09_code",
    "Addrs.C58_sets",
    "Addrs.C62_set_write"
   ],
   "note": ""
  },
  {
   "property": "C10",
   "status": "proved",
   "theorems": [
    "Addrs.C10_intersection",
    "Addrs.C10_code"
   ],
   "note": ""
  },
  {
   "property": "C11",
   "status": "proved",
   "theorems": [
    "Addrs.C11_difference",
    "Addrs.C11_code",
    "Addrs.C58_sets",
    "Addrs.C62_set_write"
   ],
   "note": ""
  },
  {
   "property": "C12",
   "status": "proved",
   "theorems": [
    "Addrs.C12_contains",
    "Addrs.C12_isEmpty",
    "Addrs.C12_nil",
    "Addrs.C12_contains_nil",
    "Addrs.C12_isEmpty_v4",
    "Addrs.C12_isEmpty_v6",
    "Addrs.C12_contains_v4",
    "Addrs.C12_contains_v6",
    "Addrs.C12_code",
    "Addrs.C12_code_isEmpty",
    "Addrs.C12_code_isEmpty_v6"
   ],
   "note": ""
  },
  {
   "property": "C13",
   "status": "partial",
   "theorems": [
    "Addrs.C13_equal_iff_prefixes",
    "Addrs.C13_equal_sound",
    "Addrs.C13_equal_partial",
    "Addrs.C13_equal_tidy_partial",
    "Addrs.C13_tidy_walk_partial",
    "Addrs.C13_equal_counterexample",
    "Addrs.C13_code"
   ],
   "note": "False of the code with host bits (10.0.0.1/24 vs 10.0.0.0/24). Proved for all sets made without such prefixes, by any combination of operations."
  },
  {
   "property": "C14",
   "status": "proved",
   "theorems": [
    "Addrs.C14_canonical",
    "Addrs.C14_walk",
    "Addrs.C14_code"
   ],
   "note": ""
  },
  {
   "property": "C15",
   "status": "proved",
   "theorems": [
    "Addrs.C15_numAddresses",
    "Addrs.C15_code"
   ],
   "note": ""
  },
  {
   "property": "C16",
   "status": "proved",
   "theorems": [
    "Addrs.C16_walkPrefixes",
    "Addrs.C16_code",
    "Addrs.C16_code_maximal"
   ],
   "note": ""
  },
  {
   "property": "C17",
   "status": "proved",
   "theorems": [
    "Addrs.C17_minimal",
    "Addrs.C17_nodes"
   ],
   "note": ""
  },
  {
   "property": "C18",
   "status": "proved",
   "theorems": [
    "Addrs.C18_walkRanges",
    "Addrs.C18_code"
   ],
   "note": ""
  },
  {
   "property": "C19",
   "status": "partial",
   "theorems": [
    "Addrs.C19_walkAddresses_partial",
    "Addrs.C19_never_ends",
    "Addrs.C19_wraps",
    "Addrs.C19_reentrant_partial",
    "Addrs.C19_exact_partial",
    "Addrs.C19_stopped",
    "Addrs.C19_never_ends_any",
    "Addrs.C19_bound",
    "Addrs.C19_code_partial"
   ],
   "note": "False of the code for sets holding 255.255.255.255: never terminates."
  },
  {
   "property": "C20",
   "status": "proved",
   "theorems": [
    "Addrs.C20_numPrefixes4",
    "Addrs.C20_numPrefixes6",
    "Addrs.C20_too_long4",
    "Addrs.C20_too_long6",
    "Addrs.C20_prefix4",
    "Addrs.C20_prefix6",
    "Addrs.C20_code4",
    "Addrs.C20_code6",
    "Addrs.C20_range4_exact",
    "Addrs.C20_range6_exact"
   ],
   "note": "Range.NumPrefixes is by definition the count of the set of the range; measured against the ends of the range it is the count for the range that C08_range_exact says it is taken for (C20_range4_exact, C20_range6_exact)."
  },
  {
   "property": "C21",
   "status": "partial",
   "theorems": [
    "Addrs.C21_sound_partial",
    "Addrs.C21_counterexample",
    "Addrs.C21_code",
    "Addrs.C22_exact",
    "Addrs.C21_too_long"
   ],
   "note": "False for lengths above the width: then a result is never a prefix, and there is one exactly if anything is free (C21_too_long; C22_exact: what it is)."
  },
  {
   "property": "C22",
   "status": "proved",
   "theorems": [
    "Addrs.C22_bestFit",
    "Addrs.C22_code",
    "Addrs.C22_exact"
   ],
   "note": ""
  },
  {
   "property": "C23",
   "status": "proved",
   "theorems": [
    "Addrs.C23_history",
    "Addrs.C23_shows",
    "Addrs.C23_empty",
    "Addrs.C23_key",
    "Addrs.C23_code_get",
    "Addrs.C23_entries"
   ],
   "note": "C23_history: every result of every history and the final contents, exactly, in terms of a plain map whose Remove follows C24_remove_exact on absent keys."
  },
  {
   "property": "C24",
   "status": "partial",
   "theorems": [
    "Addrs.C24_remove_map",
    "Addrs.C24_remove_partial",
    "Addrs.C24_remove_exact",
    "Addrs.C24_remove_counterexample"
   ],
   "note": "False of the code: Remove of a prefix that is not an entry but has entries in both halves returns true. Exactly characterised."
  },
  {
   "property": "C25",
   "status": "proved",
   "theorems": [
    "Addrs.C25_longestMatch_found",
    "Addrs.C25_longestMatch_notFound",
    "Addrs.C25_longestMatch_zero",
    "Addrs.C25_get",
    "Addrs.C25_longestMatch_get",
    "Addrs.C25_code"
   ],
   "note": ""
  },
  {
   "property": "C26",
   "status": "proved",
   "theorems": [
    "Addrs.C26_numEntries",
    "Addrs.C26_numEntries_mod",
    "Addrs.C26_code"
   ],
   "note": ""
  },
  {
   "property": "C27",
   "status": "proved",
   "theorems": [
    "Addrs.C27_walk",
    "Addrs.C27_sorted",
    "Addrs.C27_complete",
    "Addrs.C27_code"
   ],
   "note": ""
  },
  {
   "property": "C28",
   "status": "proved",
   "theorems": [
    "Addrs.C28_diff",
    "Addrs.C28_apply",
    "Addrs.C28_code"
   ],
   "note": ""
  },
  {
   "property": "C29",
   "status": "partial",
   "theorems": [
    "Addrs.C29_order_partial",
    "Addrs.C29_order_exact",
    "Addrs.C29_order_iff",
    "Addrs.C29_report_unique",
    "Addrs.C29_order_counterexample",
    "Addrs.C28_code"
   ],
   "note": "False of the code: {10.0.0.0/24} vs {11.0.0.0/8} is reported in the wrong order. The order is characterised exactly (C29_order_exact): two reported prefixes are swapped iff the entries each table has inside their smallest common prefix lie in a prefix of their own and the one of the left table is longer; C29_order_iff: when everything is in order. C29_order_partial: order per side, containing prefix first, full order when the keys of one table are among those of the other."
  },
  {
   "property": "C30",
   "status": "proved",
   "theorems": [
    "Addrs.C30_shared"
   ],
   "note": "any two Diff calls of any execution"
  },
  {
   "property": "C31",
   "status": "partial",
   "theorems": [
    "Addrs.C31_map",
    "Addrs.C31_calls_partial",
    "Addrs.C31_nil",
    "Addrs.C31_calls_counterexample",
    "Addrs.C31_code",
    "Addrs.C31_calls_exact_partial"
   ],
   "note": "False of the code: the mapper is also called for prefixes of inactive internal nodes."
  },
  {
   "property": "C32",
   "status": "partial",
   "theorems": [
    "Addrs.C32_found",
    "Addrs.C32_value",
    "Addrs.C32_lookup_partial",
    "Addrs.C32_disjoint_partial",
    "Addrs.C32_lookup_counterexample",
    "Addrs.C32_code",
    "Addrs.C33_exact"
   ],
   "note": "False of the code: merging two halves drops more specific entries. Proved under a no-loss hypothesis (C32_lookup_partial, C32_disjoint_partial); the entries of the result, from which every lookup follows with C25, are characterised exactly (C33_exact)."
  },
  {
   "property": "C33",
   "status": "partial",
   "theorems": [
    "Addrs.C33_length",
    "Addrs.C33_siblings",
    "Addrs.C33_minimal_partial",
    "Addrs.C33_minimal_counterexample",
    "Addrs.C33_code",
    "Addrs.C33_exact",
    "Addrs.C33_exact_default"
   ],
   "note": "False of the code in general."
  },
  {
   "property": "C34",
   "status": "proved",
   "theorems": [
    "Addrs.C34_table",
    "Addrs.C34_table_repeat",
    "Addrs.C34_set"
   ],
   "note": "every execution of the concurrent machine"
  },
  {
   "property": "C35",
   "status": "proved",
   "theorems": [
    "Addrs.C35_table_own_writes",
    "Addrs.C35_table_fresh",
    "Addrs.C35_table_clone",
    "Addrs.C35_set_own_writes",
    "Addrs.C35_set_fresh",
    "Addrs.C35_set_clone"
   ],
   "note": "copies of a Table_/Set_ are the same object of the machine"
  },
  {
   "property": "C36",
   "status": "partial",
   "theorems": [
    "Addrs.C36_table_partial",
    "Addrs.C36_table_oneKind_partial",
    "Addrs.C36_table_oneWriter_partial",
    "Addrs.C36_table_steady_partial",
    "Addrs.C36_table_pinned_partial",
    "Addrs.C36_table_defaultRoute_partial",
    "Addrs.C36_set_partial",
    "Addrs.C36_set_oneKind_partial",
    "Addrs.C36_set_oneWriter_partial",
    "Addrs.C36_set_steady_partial",
    "Addrs.C36_set_pinned_partial",
    "Addrs.C36_set_halves_partial",
    "Addrs.C36_lost_remove",
    "Addrs.C36_resurrected_insert",
    "Addrs.C36_set_resurrected_insert",
    "Addrs.C36_set_halves_needs_plain"
   ],
   "note": "False of the code: a Remove can be lost, and removed entries can come back, without any panic. Proved (linearizability, for any number of goroutines) when no Remove overlaps a write of another kind; and, with writes of all kinds that overlap in any way, while the smallest prefix that contains all the entries (members) stays the same, for instance because a table has a default route that nobody removes, or a set has an address in the lower and one in the upper half of all addresses that nobody removes (for sets only if the arguments of Insert are addresses, prefixes or ranges: a Set brings its own root, which may have been there before; C36_set_halves_needs_plain is an execution that shows that this condition is needed)."
  },
  {
   "property": "C37",
   "status": "proved",
   "theorems": [
    "Addrs.C37_table",
    "Addrs.C37_set"
   ],
   "note": ""
  },
  {
   "property": "C38",
   "status": "proved",
   "theorems": [
    "Addrs.C38_table_panics",
    "Addrs.C38_table_progress",
    "Addrs.C38_table_terminates",
    "Addrs.C38_table_returns",
    "Addrs.C38_set_panics",
    "Addrs.C38_set_progress",
    "Addrs.C38_set_terminates",
    "Addrs.C38_set_returns",
    "Addrs.C38_table_reads",
    "Addrs.C38_set_reads"
   ],
   "note": "Every call, in every execution of the concurrent machine, panics only on a detected write race and terminates. WalkAddresses is treated in C19."
  },
  {
   "property": "C39",
   "status": "partial",
   "theorems": [
    "Addrs.C39_partial",
    "Addrs.C39_nested_insert_panics",
    "Addrs.C39_map_panics",
    "Addrs.C39_map_nil_panics",
    "Addrs.C39_aggregate_nil_panics",
    "Addrs.C39_fails_for_slices",
    "Addrs.C39_fails_for_numbers",
    "Addrs.C68_exact",
    "Addrs.C69_panics",
    "Addrs.C69_history",
    "Addrs.C70_exact"
   ],
   "note": "False of the code: with slices, Insert below an entry and Map panic; with any type, Map and Aggregate panic on internal nodes without a value. Proved for comparable values without Map and Aggregate."
  },
  {
   "property": "C40",
   "status": "partial",
   "theorems": [
    "Addrs.C40_partial",
    "Addrs.C40_aggregate_again_panics",
    "Addrs.C40_map_panics",
    "Addrs.C40_diff_panics",
    "Addrs.C40_fails",
    "Addrs.C40_other_equality",
    "Addrs.C68_exact"
   ],
   "note": "False of the code: the result of Aggregate has no comparison function, so Diff, Map and Aggregate on it panic, and Table_() falls back to ==. Proved: reads, and Table_() for the default comparison function."
  },
  {
   "property": "C41",
   "status": "partial",
   "theorems": [
    "Addrs.C41_findAvailable_nil",
    "Addrs.C41_table_write",
    "Addrs.C41_table_read",
    "Addrs.C41_table_nil",
    "Addrs.C41_set_write",
    "Addrs.C41_set_read",
    "Addrs.C41_set_nil",
    "Addrs.C68_exact"
   ],
   "note": "False of the code in one point: FindAvailablePrefix(nil, n) panics."
  },
  {
   "property": "C42",
   "status": "proved",
   "theorems": [
    "Addrs.C42_table",
    "Addrs.C42_set",
    "Addrs.C35_table_own_writes",
    "Addrs.C35_set_own_writes"
   ],
   "note": ""
  },
  {
   "property": "C43",
   "status": "proved",
   "theorems": [
    "Addrs.C43_lessThan",
    "Addrs.C43_strictTotal",
    "Addrs.C43_containerFirst"
   ],
   "note": ""
  },
  {
   "property": "C44",
   "status": "proved",
   "theorems": [
    "Addrs.C44_uint",
    "Addrs.C44_mask_roundtrip",
    "Addrs.C44_mask_accepts",
    "Addrs.C44_net_roundtrip",
    "Addrs.C44_v4_net_accepts",
    "Addrs.C44_v6_net_accepts",
    "Addrs.C44_addressMask",
    "Addrs.C44_ip_address",
    "Addrs.C44_ip_address_roundtrip",
    "Addrs.C44_ip_families",
    "Addrs.C44_ip_mask",
    "Addrs.C44_ip_net",
    "Addrs.C44_ip_net_roundtrip",
    "Addrs.C44_ip_accessors"
   ],
   "note": ""
  },
  {
   "property": "C45",
   "status": "partial",
   "theorems": [
    "Addrs.C45_partial",
    "Addrs.C45_v4_roundtrip",
    "Addrs.C45_v6_address",
    "Addrs.C45_v6_prefix",
    "Addrs.C45_v6_counterexample",
    "Addrs.C45_v6_never_mapped",
    "Addrs.C45_v6_injective",
    "Addrs.C45_ip_address",
    "Addrs.C45_ip_prefix"
   ],
   "note": "False as stated for ipv6 (C45_v6_counterexample): addresses in ::ffff:0:0/96 are printed as dotted IPv4 text, which package ipv6 rejects and package ip reads as an IPv4 value. Proved exactly for which values the round trip holds, for all addresses and prefixes of both families and for package ip."
  },
  {
   "property": "C46",
   "status": "proved",
   "theorems": [
    "Addrs.C46_height",
    "Addrs.C46_table_height"
   ],
   "note": ""
  },
  {
   "property": "C47",
   "status": "proved",
   "theorems": [
    "Addrs.C47_format",
    "Addrs.C47_equal",
    "Addrs.C47_determines",
    "Addrs.C47_readable",
    "Addrs.C47_range_mask",
    "Addrs.C47_hostbits",
    "Addrs.C47_code"
   ],
   "note": "Two sets have the same text exactly if Equal; because of C13 two sets with the same addresses can have different texts (C47_hostbits)."
  },
  {
   "property": "C48",
   "status": "proved",
   "theorems": [
    "Addrs.C48_lookup",
    "Addrs.C48_write",
    "Addrs.C48_snapshot",
    "Addrs.C48_set_snapshot"
   ],
   "note": "One step = one atomic action of the concurrent machine (a whole-node read counts as one)."
  },
  {
   "property": "C49",
   "status": "partial",
   "theorems": [
    "Addrs.C49_prefix_contains",
    "Addrs.C49_prefix_prefix",
    "Addrs.C49_prefix_range",
    "Addrs.C49_range_contains_partial",
    "Addrs.C49_range_range_partial",
    "Addrs.C49_range_never_false",
    "Addrs.C49_range_counterexample",
    "Addrs.C49_prefix_numAddresses",
    "Addrs.C49_range_numAddresses_partial",
    "Addrs.C49_range_contains_exact",
    "Addrs.C49_prefix_contains_exact",
    "Addrs.C49_range_range_exact",
    "Addrs.C49_range_numAddresses_exact"
   ],
   "note": "Prefixes: proved in full. Ranges: false of the code exactly for the ranges of C08 (ends symmetric in an aligned block); then Contains may be true and NumAddresses too large (C49_range_counterexample); never wrongly false. What they return in every case: the _exact theorems."
  },
  {
   "property": "C50",
   "status": "proved",
   "theorems": [
    "Addrs.C50_set",
    "Addrs.C50_table",
    "Addrs.C50_check"
   ],
   "note": ""
  },
  {
   "property": "C51",
   "status": "partial",
   "theorems": [
    "Addrs.C51_laws",
    "Addrs.C51_equal",
    "Addrs.C51_rebuild_prefixes",
    "Addrs.C51_rebuild_ranges_partial",
    "Addrs.C51_rebuild_ranges_counterexample",
    "Addrs.C51_rebuild_ranges_exact"
   ],
   "note": "Everything but rebuilding from WalkRanges is proved in full; that is false of the code exactly when a maximal run of the set is one of the ranges of C08 (C51_rebuild_ranges_exact, which also says what is rebuilt)."
  },
  {
   "property": "C52",
   "status": "proved",
   "theorems": [
    "Addrs.C52_history_any",
    "Addrs.C52_history",
    "Addrs.C58_sets",
    "Addrs.C59_sets",
    "Addrs.C62_set_versions"
   ],
   "note": "C52_history_any: all valid arguments, in terms of the set an argument converts to. C52_history: in terms of the argument itself, for all but the ranges of C08."
  },
  {
   "property": "C53",
   "status": "proved",
   "theorems": [
    "Addrs.C53_count",
    "Addrs.C53_monotone"
   ],
   "note": ""
  },
  {
   "property": "C54",
   "status": "proved",
   "theorems": [
    "Addrs.C54_alloc",
    "Addrs.C54_served"
   ],
   "note": "Requested lengths at most the width (longer ones: C21_counterexample)."
  },
  {
   "property": "C55",
   "status": "proved",
   "theorems": [
    "Addrs.C55_noFragmentation",
    "Addrs.C55_onePrefix"
   ],
   "note": ""
  },
  {
   "property": "C56",
   "status": "partial",
   "theorems": [
    "Addrs.C56_v4_address",
    "Addrs.C56_address_families",
    "Addrs.C56_ip_address",
    "Addrs.C56_address_again",
    "Addrs.C56_v4_prefix",
    "Addrs.C56_ip_prefix",
    "Addrs.C56_prefix_again_partial",
    "Addrs.C56_prefix_counterexample",
    "Addrs.C56_v4_colon_counterexample"
   ],
   "note": "Proved in full for addresses and for IPv4 prefixes. False of the code for IPv6 prefixes whose address is a mapped IPv4 address: accepted, but printed as a text that is rejected (C56_prefix_counterexample)."
  },
  {
   "property": "C57",
   "status": "proved",
   "theorems": [
    "Addrs.C57_runs_alone",
    "Addrs.C57_unchanged",
    "Addrs.C57_walk",
    "Addrs.C57_diff",
    "Addrs.C57_set_unchanged",
    "Addrs.C57_walkPrefixes",
    "Addrs.C57_walkRanges",
    "Addrs.C57_map",
    "Addrs.C57_map_nil"
   ],
   "note": "The callbacks run while other goroutines are suspended (C57_runs_alone says what that means in the machine); with other goroutines running, C34-C38 cover callbacks that keep state of their own. For WalkAddresses see C19_reentrant_partial. Map calls its mapper also for prefixes that are no entries (C31), and is not covered for tables with a custom comparison function (for which C68 says when it panics)."
  },
  {
   "property": "C58",
   "status": "proved",
   "theorems": [
    "Addrs.C58_tables",
    "Addrs.C58_sets",
    "Addrs.C58_tables_machine",
    "Addrs.C58_sets_machine"
   ],
   "note": "Map and Aggregate on tables with a custom comparison function are left out (C39), and Diff with a nil unchanged callback and a comparison function that is not reflexive. WalkRanges, WalkAddresses and NumPrefixes are loops over WalkPrefixes (C57, C19)."
  },
  {
   "property": "C59",
   "status": "proved",
   "theorems": [
    "Addrs.C59_sets",
    "Addrs.C59_listing_unique"
   ],
   "note": "The quantifier leaves out prefixes with host bits (C13), the ranges of C08 and lengths over the width (C21), for which the code is wrong. WalkRanges, WalkAddresses and NumPrefixes are loops over WalkPrefixes (C57, C19)."
  },
  {
   "property": "C60",
   "status": "proved",
   "theorems": [
    "Addrs.C60_tables",
    "Addrs.C60_listing_unique",
    "Addrs.C60_differ_unique"
   ],
   "note": "Which result Remove gives for an absent key, which further calls Map makes and what Aggregate keeps is stated exactly as the code does it (C24, C31-C33), and so is the order in which Diff reports (C29)."
  },
  {
   "property": "C61",
   "status": "partial",
   "theorems": [
    "Addrs.C61_tables_partial",
    "Addrs.C61_tables_atomic_partial",
    "Addrs.C61_tables_false",
    "Addrs.C61_sets_partial",
    "Addrs.C61_sets_atomic_partial",
    "Addrs.C61_sets_false"
   ],
   "note": "README.md 90-99 says one can read and write concurrently. The full statement is false of the code (C61_tables_false, C61_sets_false: a concrete reachable execution with a race): writers swap the root with atomic.CompareAndSwapPointer (ipv4/unsafe_atomic.go, ipv4/set.go:36-45, ipv4/tablex.go:67-75) but readers and writers load it with a plain load. Proved: no other race exists. With atomic loads there would be none in any execution (the _atomic theorems), and with the code as it is there is none if a write to a Table_ or Set_ does not overlap with another call on it; values (Table, Set) may be used by any number of goroutines meanwhile."
  },
  {
   "property": "C62",
   "status": "proved",
   "theorems": [
    "Addrs.C62_table_write",
    "Addrs.C62_table_versions",
    "Addrs.C62_table_valid",
    "Addrs.C62_table_kept",
    "Addrs.C62_table_gone",
    "Addrs.C62_table_origin",
    "Addrs.C62_set_write",
    "Addrs.C62_set_versions",
    "Addrs.C62_set_valid",
    "Addrs.C62_set_kept",
    "Addrs.C62_set_gone",
    "Addrs.C62_set_origin"
   ],
   "note": "Memory is sequentially consistent in the machine; C61 says where Go does not guarantee that (plain root reads concurrent with writes)."
  },
  {
   "property": "C63",
   "status": "proved",
   "theorems": [
    "Addrs.C63_versions",
    "Addrs.C63_snapshots",
    "Addrs.C63_copy"
   ],
   "note": "The time spent in the callbacks and in the comparison function is not counted; one step is one access to a node."
  },
  {
   "property": "C64",
   "status": "proved",
   "theorems": [
    "Addrs.C64_set",
    "Addrs.C64_set_object",
    "Addrs.C64_table",
    "Addrs.C64_table_object"
   ],
   "note": "Counts the nodes reachable from the root. How long unreachable nodes stay in memory is up to the garbage collector."
  },
  {
   "property": "C65",
   "status": "proved",
   "theorems": [
    "Addrs.C65_linear",
    "Addrs.C65_union",
    "Addrs.C65_looks",
    "Addrs.C65_small",
    "Addrs.C65_arguments",
    "Addrs.C65_address"
   ],
   "note": "One step is one access to a node or root, or one allocation; the time spent in the callback of WalkPrefixes is not counted. The bounds hold for every recursion bound of the model that is large enough."
  },
  {
   "property": "C66",
   "status": "proved",
   "theorems": [
    "Addrs.C66_walk",
    "Addrs.C66_diff",
    "Addrs.C66_map",
    "Addrs.C66_aggregate"
   ],
   "note": "One step is one access to a node or root, or one allocation; the time spent in callbacks and in the comparison function is not counted. The bounds also hold for calls that panic (C39, C68)."
  },
  {
   "property": "C67",
   "status": "proved",
   "theorems": [
    "Addrs.C67_tables",
    "Addrs.C67_sets",
    "Addrs.C67_build",
    "Addrs.C67_set_build",
    "Addrs.C67_build_proper"
   ],
   "note": "The programs are trees of calls: what a program or callback does next is a function of what it has seen, and each of them ends after finitely many calls (a program that never ends is the subject of C58-C60). Excluded are the calls that earlier properties show to misbehave (host bits and BadRange for sets, Map and Aggregate with a custom comparison function, Diff of an aggregated table), as in C59 and C60. WalkAddresses is the subject of C19_reentrant_partial."
  },
  {
   "property": "C68",
   "status": "proved",
   "theorems": [
    "Addrs.C68_exact"
   ],
   "note": "Diff of a table without a comparison function, with nil unchanged and with entries in common, is left out: whether it panics depends on which nodes the tables share (C40 has a witness). Values that cannot be compared with == (slices) are left out (C39 has witnesses)."
  },
  {
   "property": "C69",
   "status": "proved",
   "theorems": [
    "Addrs.C69_history",
    "Addrs.C69_snapshots",
    "Addrs.C69_own_writes",
    "Addrs.C69_atomic",
    "Addrs.C69_progress",
    "Addrs.C69_panics",
    "Addrs.C69_reads"
   ],
   "note": "C69_atomic, like C36, asks that no Remove overlaps with a write of another kind (else C36 is false of the code)."
  },
  {
   "property": "C70",
   "status": "proved",
   "theorems": [
    "Addrs.C70_exact"
   ],
   "note": ""
  },
  {
   "property": "C71",
   "status": "proved",
   "theorems": [
    "Addrs.C71_table_detected",
    "Addrs.C71_table_winner",
    "Addrs.C71_table_retry",
    "Addrs.C71_table_succeeds",
    "Addrs.C71_set_detected",
    "Addrs.C71_set_winner",
    "Addrs.C71_set_retry",
    "Addrs.C71_set_succeeds"
   ],
   "note": ""
  },
  {
   "property": "C72",
   "status": "partial",
   "theorems": [
    "Addrs.C72_tables_partial",
    "Addrs.C72_default",
    "Addrs.C72_panics",
    "Addrs.C72_custom_nil_false",
    "Addrs.C72_custom_nil_same_calls"
   ],
   "note": "False of the code for tables with a custom comparison function: NewTableCustomCompare_ asserts a.(T), which panics if a is nil, so Update, InsertOrUpdate and Diff panic when a nil is to be compared (C72_custom_nil_false; C72_panics says exactly when the methods of Table_ do). Proved in full for programs without custom comparison functions (C72_default), and for those that give them no nil (C72_tables_partial). The values that the interface holds are of types on which == is identity."
  },
  {
   "property": "C73",
   "status": "partial",
   "theorems": [
    "Addrs.C73_tables_partial",
    "Addrs.C73_nan_false",
    "Addrs.C73_nan_shared",
    "Addrs.C73_map_false"
   ],
   "note": "False of the code for values that are not equal to themselves (NaN): Diff skips nodes that the tables share without comparing, so with unchanged nil it reports such an entry as changed or not depending on which nodes the tables share (C73_nan_false, C73_nan_shared). Proved for programs whose Diffs without unchanged meet no such entry in both tables. Map on a table with a custom comparison function drops changes that == does not see (C73_map_false; such Maps are outside C60 as well, C39). Aggregate is covered as in C60, with values that are the same or equal by ==: entries whose value is not equal to itself are never merged or dropped as redundant."
  },
  {
   "property": "C74",
   "status": "partial",
   "theorems": [
    "Addrs.C74_idempotent_partial",
    "Addrs.C74_idempotent_false",
    "Addrs.C74_unchanged",
    "Addrs.C74_fewer",
    "Addrs.C74_unchanged_iff",
    "Addrs.C74_leftover",
    "Addrs.C74_twice",
    "Addrs.C74_twice_settled"
   ],
   "note": "False of the code: entries of a prefix that are merged into an entry that now has the value of the entry around it stay until the next Aggregate (C74_idempotent_false). Proved: the second Aggregate changes nothing exactly if no entry of the first result repeats the value of the entry that most closely contains it (C74_idempotent_partial); such entries contain no others (C74_leftover); a third Aggregate never changes anything (C74_twice); Aggregate changes nothing exactly if nothing is to be done, and otherwise the result has fewer entries (C74_unchanged_iff, C74_fewer; any comparison function that is an equivalence). The repeated Aggregate goes through Table_().Table(), because the result of Aggregate has no comparison function."
  },
  {
   "property": "C75",
   "status": "proved",
   "theorems": [
    "Addrs.C75_sync",
    "Addrs.C75_sync_same",
    "Addrs.C75_sync_done",
    "Addrs.C75_copy",
    "Addrs.C75_mirror",
    "Addrs.C75_mirror_counts"
   ],
   "note": "Stated for the calls as functions on tables; that the code on the heap computes these functions, callbacks included, is C34-C38, C57 and C60."
  },
  {
   "property": "C76",
   "status": "proved",
   "theorems": [
    "Addrs.C76_footprint",
    "Addrs.C76_spread",
    "Addrs.C76_aggregate",
    "Addrs.C76_round_trip"
   ],
   "note": "Stated for the calls as functions on tables and sets; that the code on the heap computes these functions is C34-C38, C57-C60."
  },
  {
   "property": "C77",
   "status": "proved",
   "theorems": [
    "Addrs.C77_get",
    "Addrs.C77_elsewhere",
    "Addrs.C77_longer",
    "Addrs.C77_written",
    "Addrs.C77_removed",
    "Addrs.C77_remove_absent",
    "Addrs.C77_count"
   ],
   "note": "Stated for the calls as functions on tables and sets; that the code on the heap computes these functions is C34-C38, C57-C60."
  },
  {
   "property": "C78",
   "status": "proved",
   "theorems": [
    "Addrs.C78_longestMatch",
    "Addrs.C78_get",
    "Addrs.C78_prefixes",
    "Addrs.C78_identity",
    "Addrs.C78_compose",
    "Addrs.C78_diff",
    "Addrs.C78_write",
    "Addrs.C78_aggregate"
   ],
   "note": "For mappers without effects; which calls a mapper gets, and one with effects, is C31. Stated for the calls as functions on tables and sets; that the code on the heap computes these functions is C34-C38, C57-C60."
  },
  {
   "property": "C79",
   "status": "proved",
   "theorems": [
    "Addrs.C79_ranges",
    "Addrs.C79_difference",
    "Addrs.C79_intersection",
    "Addrs.C79_contains",
    "Addrs.C79_prefix",
    "Addrs.C79_prefix_minus",
    "Addrs.C79_count"
   ],
   "note": "Stated for the calls as functions on sets; that the code on the heap computes these functions is C34-C38 and C59."
  },
  {
   "property": "C80",
   "status": "partial",
   "theorems": [
    "Addrs.C80_minus_partial",
    "Addrs.C80_minus_exact",
    "Addrs.C80_plus_partial",
    "Addrs.C80_plus_exact",
    "Addrs.C80_range_exact",
    "Addrs.C80_counterexample",
    "Addrs.C80_plus_counterexample"
   ],
   "note": "False of the code: for the ranges of C08 the set has more addresses (C80_counterexample), and Plus returns overlapping ranges where C07 says (C80_plus_counterexample). Proved for all others; C80_minus_exact, C80_plus_exact and C80_range_exact say for all valid ranges what is computed."
  },
  {
   "property": "C81",
   "status": "partial",
   "theorems": [
    "Addrs.C81_history_partial",
    "Addrs.C81_history_exact",
    "Addrs.C81_canonical",
    "Addrs.C81_remove",
    "Addrs.C81_insert_partial",
    "Addrs.C81_insert_lost",
    "Addrs.C81_counterexample"
   ],
   "note": "False of the code: Insert of 10.0.0.0/24 after 10.0.0.0/26 and 10.0.0.128/25 does nothing (C81_counterexample). C81_history_exact says for every history what the set is; Remove is always right; Insert is Union unless the set has addresses in both halves of the prefix, and then it does nothing. No function of the API calls the two."
  },
  {
   "property": "C82",
   "status": "partial",
   "theorems": [
    "Addrs.C82_diff_nil",
    "Addrs.C82_map_nil",
    "Addrs.C82_walk_partial",
    "Addrs.C82_walk_untyped",
    "Addrs.C82_walkPrefixes_partial",
    "Addrs.C82_walkRanges_partial",
    "Addrs.C82_walkAddresses_partial",
    "Addrs.C82_build_nil",
    "Addrs.C82_set_build_nil",
    "Addrs.C82_counterexample"
   ],
   "note": "False of the code for the walks of the API: Walk(nil) of a table that is not empty and WalkPrefixes(nil), WalkRanges(nil), WalkAddresses(nil) of a set that is not empty panic (C82_counterexample), because the nil callback is wrapped in a function that is not nil before trieNode.Walk tests it; of an empty one they return true (the _partial theorems say exactly when). Diff for comparators that call every value equal to itself or with unchanged not nil (for others C73). Walk(nil) of the untyped tables returns true (C82_walk_untyped)."
  },
  {
   "property": "C83",
   "status": "partial",
   "theorems": [
    "Addrs.C83_v4_partial",
    "Addrs.C83_v6_partial",
    "Addrs.C83_complete",
    "Addrs.C83_counterexample"
   ],
   "note": "False of the code: FindAvailablePrefix with a length above 32 (128) returns a prefix of that length (C83_counterexample). With no such length, both directions, for both families: C83_v4_partial, C83_v6_partial."
  },
  {
   "property": "C84",
   "status": "partial",
   "theorems": [
    "Addrs.C84_history_partial",
    "Addrs.C84_alone_partial",
    "Addrs.C84_order",
    "Addrs.C84_counterexample"
   ],
   "note": "False of the code for what Remove returns: removing 10.0.0.0/24, no entry, is reported as done after its two halves were inserted, and not before (C84_counterexample). Everything else: C84_history_partial, C84_alone_partial; the order of calls for different prefixes without exception: C84_order."
  },
  {
   "property": "C85",
   "status": "proved",
   "theorems": [
    "Addrs.C85_nested",
    "Addrs.C85_same",
    "Addrs.C85_between",
    "Addrs.C85_addresses",
    "Addrs.C85_get"
   ],
   "note": ""
  },
  {
   "property": "C86",
   "status": "proved",
   "theorems": [
    "Addrs.C86_union",
    "Addrs.C86_intersection",
    "Addrs.C86_difference",
    "Addrs.C86_range",
    "Addrs.C86_range4",
    "Addrs.C86_range6",
    "Addrs.C86_prefix",
    "Addrs.C86_address",
    "Addrs.C86_built",
    "Addrs.C86_ranges"
   ],
   "note": ""
  }
 ]
}
import Verif.RepoTests
/-
  Written by tools/gotests.py from /repo/ipv6/*_test.go: checks of the model, see `Verif/RepoTests.lean`.
-/
set_option maxRecDepth 10000
namespace Addrs
namespace RepoTest
open GoWord

/-- /repo/ipv6/range_test.go:119-274 `TestRangeMinus`, 13 rows -/
example : ([
  ((p6 "2001::1:0:0/112").range, (p6 "2001::/112").range, [(p6 "2001::1:0:0/112").range], [(p6 "2001::/112").range]),
  ((⟨(⟨0#64, 100#64⟩ : U128), (⟨0#64, 200#64⟩ : U128)⟩ : Range U128), (⟨(⟨0#64, 50#64⟩ : U128), (⟨0#64, 150#64⟩ : U128)⟩ : Range U128), [(⟨(⟨0#64, 151#64⟩ : U128), (⟨0#64, 200#64⟩ : U128)⟩ : Range U128)], [(⟨(⟨0#64, 50#64⟩ : U128), (⟨0#64, 99#64⟩ : U128)⟩ : Range U128)]),
  ((p6 "2001::ff:0/112").range, (p6 "2001::fd:0/108").range, [], [(Range.fromAddresses (a6 "2001::f0:0") (a6 "2001::fe:ffff")).1]),
  ((⟨(⟨0#64, 100#64⟩ : U128), (⟨0#64, 200#64⟩ : U128)⟩ : Range U128), (⟨(⟨0#64, 50#64⟩ : U128), (⟨0#64, 250#64⟩ : U128)⟩ : Range U128), [], [(⟨(⟨0#64, 50#64⟩ : U128), (⟨0#64, 99#64⟩ : U128)⟩ : Range U128), (⟨(⟨0#64, 201#64⟩ : U128), (⟨0#64, 250#64⟩ : U128)⟩ : Range U128)]),
  ((p6 "2001::fc:0/110").range, (p6 "2001::fc:0/112").range, [(Range.fromAddresses (a6 "2001::fd:0") (a6 "2001::ff:ffff")).1], []),
  ((p6 "2001::fd:0/112").range, (p6 "2001::fd:0/112").range, [], []),
  ((⟨(⟨0#64, 100#64⟩ : U128), (⟨0#64, 200#64⟩ : U128)⟩ : Range U128), (⟨(⟨0#64, 110#64⟩ : U128), (⟨0#64, 190#64⟩ : U128)⟩ : Range U128), [(⟨(⟨0#64, 100#64⟩ : U128), (⟨0#64, 109#64⟩ : U128)⟩ : Range U128), (⟨(⟨0#64, 191#64⟩ : U128), (⟨0#64, 200#64⟩ : U128)⟩ : Range U128)], []),
  ((p6 "2001::fb:0/108").range, (p6 "2001::ff:0/112").range, [(Range.fromAddresses (a6 "2001::f0:0") (a6 "2001::fe:ffff")).1], []),
  ((⟨(⟨0#64, 100#64⟩ : U128), (⟨0#64, 200#64⟩ : U128)⟩ : Range U128), (⟨(⟨0#64, 150#64⟩ : U128), (⟨0#64, 250#64⟩ : U128)⟩ : Range U128), [(⟨(⟨0#64, 100#64⟩ : U128), (⟨0#64, 149#64⟩ : U128)⟩ : Range U128)], [(⟨(⟨0#64, 201#64⟩ : U128), (⟨0#64, 250#64⟩ : U128)⟩ : Range U128)]),
  ((⟨(⟨0#64, 100#64⟩ : U128), (⟨0#64, 200#64⟩ : U128)⟩ : Range U128), (⟨(⟨0#64, 200#64⟩ : U128), (⟨0#64, 250#64⟩ : U128)⟩ : Range U128), [(⟨(⟨0#64, 100#64⟩ : U128), (⟨0#64, 199#64⟩ : U128)⟩ : Range U128)], [(⟨(⟨0#64, 201#64⟩ : U128), (⟨0#64, 250#64⟩ : U128)⟩ : Range U128)]),
  ((⟨(⟨0#64, 100#64⟩ : U128), (⟨0#64, 200#64⟩ : U128)⟩ : Range U128), (⟨(⟨0#64, 199#64⟩ : U128), (⟨0#64, 250#64⟩ : U128)⟩ : Range U128), [(⟨(⟨0#64, 100#64⟩ : U128), (⟨0#64, 198#64⟩ : U128)⟩ : Range U128)], [(⟨(⟨0#64, 201#64⟩ : U128), (⟨0#64, 250#64⟩ : U128)⟩ : Range U128)]),
  ((⟨(⟨0#64, 100#64⟩ : U128), (⟨0#64, 200#64⟩ : U128)⟩ : Range U128), (⟨(⟨0#64, 201#64⟩ : U128), (⟨0#64, 250#64⟩ : U128)⟩ : Range U128), [(⟨(⟨0#64, 100#64⟩ : U128), (⟨0#64, 200#64⟩ : U128)⟩ : Range U128)], [(⟨(⟨0#64, 201#64⟩ : U128), (⟨0#64, 250#64⟩ : U128)⟩ : Range U128)]),
  ((p6 "2001::fd:0/112").range, (p6 "2001::f00:0/112").range, [(p6 "2001::fd:0/112").range], [(p6 "2001::f00:0/112").range])].all minus) = true := by decide +kernel

/-- /repo/ipv6/range_test.go:321-388 `TestRangePlus`, 6 rows -/
example : ([
  ((p6 "2001::1:0:0/112").range, (p6 "2001::/112").range, [(p6 "2001::/112").range, (p6 "2001::1:0:0/112").range]),
  ((p6 "2001::1:0/112").range, (p6 "2001::/112").range, [(p6 "2001::/111").range]),
  ((p6 "2001::1:0/112").range, (p6 "2001::/111").range, [(p6 "2001::/111").range]),
  ((p6 "2001::/16").range, (p6 "2001::/16").range, [(p6 "2001::/16").range]),
  ((Range.fromAddresses (a6 "2001::f") (a6 "2001::fe")).1, (Range.fromAddresses (a6 "2001::") (a6 "2001::ff")).1, [(Range.fromAddresses (a6 "2001::") (a6 "2001::ff")).1]),
  ((Range.fromAddresses (a6 "2001::") (a6 "2001::fe")).1, (Range.fromAddresses (a6 "2001::f") (a6 "2001::ff")).1, [(Range.fromAddresses (a6 "2001::") (a6 "2001::ff")).1])].all plus) = true := by decide +kernel

/-- /repo/ipv6/range_test.go:94-117 `TestRangeContains`, 2 rows -/
example : ([
  ((p6 "::ffff:10.224.24.1/118").range, (p6 "::ffff:10.224.26.1/120").range),
  ((Range.fromAddresses (⟨0#64, 281470987163256#64⟩ : U128) (⟨0#64, 281471273494409#64⟩ : U128)).1, (p6 "::ffff:20.224.26.1/120").range)].all rangeContains) = true := by decide +kernel

/-- /repo/ipv6/range_test.go:67-92 `TestRangeFirstLast`, 2 rows -/
example : ([
  ((Range.fromAddresses (⟨305419896#64, 0#64⟩ : U128) (⟨591751049#64, 0#64⟩ : U128)).1, (⟨305419896#64, 0#64⟩ : U128), (⟨591751049#64, 0#64⟩ : U128)),
  ((p6 "2001::1/96").range, (a6 "2001::"), (a6 "2001::ffff:ffff"))].all firstLast) = true := by decide +kernel

/-- /repo/ipv6/range_test.go:17-47 `TestRangeComparable`, 3 rows -/
example : ([
  ((Range.fromAddresses (a6 "2001::") (a6 "2001::1000:0")).1, (Range.fromAddresses (a6 "2001::") (a6 "2001::1000:0")).1, true),
  ((Range.fromAddresses (a6 "2001::") (a6 "2001::1000:0")).1, (Range.fromAddresses (a6 "2001::1") (a6 "2001::1000:0")).1, false),
  ((Range.fromAddresses (a6 "2001::") (a6 "2001::1000:0")).1, (Range.fromAddresses (a6 "2001::") (a6 "2001::1:0")).1, false)].all rangeComparable) = true := by decide +kernel

/-- /repo/ipv6/range_test.go:398-426 `TestRangeNumPrefixes`, 2 rows -/
example : ([
  ((Range.fromAddresses (a6 "2001::") (a6 "2002::")).1, 24, 256, false),
  ((Range.fromAddresses (a6 "2001::") (a6 "2001::1:0")).1, 128, 65537, false)].all rangeNumPrefixes6) = true := by decide +kernel

/-- /repo/ipv6/prefix_test.go:78-117 `TestPrefixFromString`, 4 rows -/
example : ([
  ("10.224.24.1/27", (⟨⟨0#64, 0#64⟩, 0⟩ : Prefix U128), true),
  ("::ffff:203.0.113.17/128", (⟨⟨0#64, 281474087547153#64⟩, 128⟩ : Prefix U128), false),
  ("2001::1/64", (⟨⟨2306124484190404608#64, 1#64⟩, 64⟩ : Prefix U128), false),
  ("bogus", (⟨⟨0#64, 0#64⟩, 0⟩ : Prefix U128), true)].all fromString6) = true := by decide +kernel

/-- /repo/ipv6/prefix_test.go:176-211 `TestPrefixLessThan`, 19 rows -/
example : ascending [
  (⟨⟨0#64, 0#64⟩, 0⟩ : Prefix U128),
  (⟨⟨0#64, 0#64⟩, 32⟩ : Prefix U128),
  (⟨⟨0#64, 0#64⟩, 64⟩ : Prefix U128),
  (⟨⟨0#64, 0#64⟩, 96⟩ : Prefix U128),
  (⟨⟨0#64, 0#64⟩, 112⟩ : Prefix U128),
  (⟨⟨0#64, 0#64⟩, 127⟩ : Prefix U128),
  (⟨⟨0#64, 0#64⟩, 128⟩ : Prefix U128),
  (⟨⟨2306139570357600256#64, 0#64⟩, 32⟩ : Prefix U128),
  (⟨⟨2306139570357665791#64, 0#64⟩, 32⟩ : Prefix U128),
  (⟨⟨2306139570357606145#64, 0#64⟩, 56⟩ : Prefix U128),
  (⟨⟨2306139570357606146#64, 0#64⟩, 56⟩ : Prefix U128),
  (⟨⟨2306139570357606399#64, 0#64⟩, 56⟩ : Prefix U128),
  (⟨⟨2306139570357606145#64, 0#64⟩, 64⟩ : Prefix U128),
  (⟨⟨2306139570357606145#64, 151930230829876#64⟩, 96⟩ : Prefix U128),
  (⟨⟨2306139570357606145#64, 151930230829877#64⟩, 96⟩ : Prefix U128),
  (⟨⟨2306139570357606145#64, 151930230830079#64⟩, 96⟩ : Prefix U128),
  (⟨⟨2306139570357606145#64, 151930230829876#64⟩, 128⟩ : Prefix U128),
  (⟨⟨2306139570357606145#64, 151930230829877#64⟩, 128⟩ : Prefix U128),
  (⟨⟨2306139570357606145#64, 151930230830132#64⟩, 120⟩ : Prefix U128)] = true := by decide +kernel

/-- /repo/ipv6/prefix_test.go:213-263 `TestNetworkHost`, 5 rows -/
example : ([
  ((p6 "2001::1/0"), (p6 "::/0"), (p6 "2001::1/0")),
  ((p6 "2001::1/32"), (p6 "2001::0/32"), (p6 "::1/32")),
  ((p6 "2001::1/64"), (p6 "2001::0/64"), (p6 "::1/64")),
  ((p6 "2001::1/96"), (p6 "2001::0/96"), (p6 "::1/96")),
  ((p6 "2001::1/128"), (p6 "2001::1/128"), (p6 "::/128"))].all networkHost) = true := by decide +kernel

/-- /repo/ipv6/prefix_test.go:265-312 `TestPrefixContainsPrefix`, 6 rows -/
example : ([
  ((p6 "::/0"), (p6 "1:2:3::4/128")),
  ((p6 "1:2:3::4/128"), (p6 "1:2:3::4/128")),
  ((p6 "1:2:3::4/128"), (p6 "1:2:3::4/128")),
  ((p6 "C000:1680::20/112"), (p6 "C000:1680::20/112")),
  ((p6 "C000:1680::/32"), (p6 "C000:1680:20::/48")),
  ((p6 "1:2:3::4/112"), (p6 "1:2:3::5/128"))].all containsPrefix) = true := by decide +kernel

/-- /repo/ipv6/prefix_test.go:314-377 `TestPrefixContainsAddress`, 5 rows -/
example : ([
  ((p6 "::/0"), [(a6 "2001:db8:3::4"), (a6 "2001:db8:192:168::4:2")], []),
  ((p6 "2001:db8::1:2:3:4/128"), [(a6 "2001:db8::1:2:3:4")], [(a6 "2001:db8::1:2:3:5"), (a6 "2001:db8::1:2:3:3")]),
  ((p6 "2001:db8:192:168::/64"), [(a6 "2001:db8:192:168::1234")], []),
  ((p6 "2001:db8:192:168::/64"), [(a6 "2001:db8:192:168:20::")], []),
  ((p6 "2001:db8:1:2::3:4/64"), [(a6 "2001:db8:1:2::3:5"), (a6 "2001:db8:1:2:3::245")], [])].all containsAddress) = true := by decide +kernel

/-- /repo/ipv6/prefix_test.go:383-396 `TestPrefixString`, 4 rows -/
example : ([
  "::/0",
  "2001::/32",
  "ffff:ffff:ffff:ffff:ffff:ffff:ffff:ffff/128",
  "2001:db8:85a3::8a2e:370:7334/64"].all string6) = true := by decide +kernel

/-- /repo/ipv6/prefix_test.go:412-446 `TestPrefixHalves`, 4 rows -/
example : ([
  ((p6 "::/0"), (p6 "::/1"), (p6 "8000:0000::/1")),
  ((p6 "2001:db8::/32"), (p6 "2001:db8:0000::/33"), (p6 "2001:db8:8000::/33")),
  ((p6 "2001:db8:85a3:8a2e::/64"), (p6 "2001:db8:85a3:8a2e::/65"), (p6 "2001:db8:85a3:8a2e:8000::/65")),
  ((p6 "2001:db8:85a3::8a2e:370:7334/127"), (p6 "2001:db8:85a3::8a2e:370:7334/128"), (p6 "2001:db8:85a3::8a2e:370:7335/128"))].all halves) = true := by decide +kernel

/-- /repo/ipv6/prefix_test.go:448-482 `TestPrefixSet`, 4 rows -/
example : ([
  ((p6 "::/1"), (a6 "2001::1"), (a6 "8000::")),
  ((p6 "2001:db8::/32"), (a6 "2001:db8::"), (a6 "2001:ef01::ab60:43")),
  ((p6 "2001:db8:85a3:8a2e::/64"), (a6 "2001:db8:85a3:8a2e::"), (a6 "3abc:db8:90a3::231:1")),
  ((p6 "2001:db8:85a3::8a2e:370:7334/127"), (a6 "2001:db8:85a3::8a2e:370:7334"), (a6 "2001:db8:85a3::8a2e:370:7336"))].all prefixSet) = true := by decide +kernel

/-- /repo/ipv6/prefix_test.go:492-537 `TestPrefixNumPrefixes`, 6 rows -/
example : ([
  ((⟨⟨0#64, 0#64⟩, 0⟩ : Prefix U128), 64, 0, true),
  ((⟨⟨0#64, 0#64⟩, 0⟩ : Prefix U128), 129, 0, true),
  ((p6 "2001:db8::/64"), 64, 1, false),
  ((p6 "2001:db8::/64"), 32, 0, false),
  ((p6 "2001:db8::/32"), 64, 4294967296, false),
  ((p6 "2001:db8::/56"), 64, 256, false)].all prefixNumPrefixes6) = true := by decide +kernel

/-- /repo/ipv6/set_test.go:237-364 `TestWalkRanges`, 5 rows -/
example : ([
  ([], []),
  ([.prefix (p6 "2001::123:0/112")], [(p6 "2001::123:0/112").range]),
  ([.prefix (p6 "2001::123:0/113"), .prefix (p6 "2001::123:8000/114")], [(Range.fromAddresses (a6 "2001::123:0") (a6 "2001::123:bfff")).1]),
  ([.prefix (p6 "2001::123:0/113"), .prefix (p6 "2001::123:c000/114")], [(Range.fromAddresses (a6 "2001::123:0") (a6 "2001::123:7fff")).1, (Range.fromAddresses (a6 "2001::123:c000") (a6 "2001::123:ffff")).1]),
  ([.prefix (p6 "2001::241:122/127"), .prefix (p6 "2001::241:124/126"), .prefix (p6 "2001::241:128/125"), .prefix (p6 "2001::241:130/124"), .prefix (p6 "2001::241:140/122"), .prefix (p6 "2001::241:180/121"), .prefix (p6 "2001::241:200/119"), .prefix (p6 "2001::241:400/118"), .prefix (p6 "2001::241:800/117"), .prefix (p6 "2001::241:1000/116"), .prefix (p6 "2001::241:2000/115"), .prefix (p6 "2001::241:4000/114"), .prefix (p6 "2001::241:8000/113"), .prefix (p6 "2001::242:0/111"), .prefix (p6 "2001::244:0/110"), .prefix (p6 "2001::248:0/109"), .prefix (p6 "2001::250:0/108"), .prefix (p6 "2001::260:0/107"), .prefix (p6 "2001::280:0/105"), .prefix (p6 "2001::300:0/104"), .prefix (p6 "2001::400:0/102"), .prefix (p6 "2001::800:0/101"), .prefix (p6 "2001::1000:0/100"), .prefix (p6 "2001::2000:0/99"), .prefix (p6 "2001::4000:0/98"), .prefix (p6 "2001::8000:0/99"), .prefix (p6 "2001::a000:0/101"), .prefix (p6 "2001::a800:0/102"), .prefix (p6 "2001::ac00:0/104"), .prefix (p6 "2001::ad00:0/107"), .prefix (p6 "2001::ad20:0/111"), .prefix (p6 "2001::ad22:0/112"), .prefix (p6 "2001::ad23:0/117"), .prefix (p6 "2001::ad23:800/123"), .prefix (p6 "2001::ad23:820/126"), .prefix (p6 "2001::ad23:824/128")], [(Range.fromAddresses (a6 "2001::0241:0122") (a6 "2001::ad23:824")).1])].all walkRanges) = true := by decide +kernel

/-- /repo/ipv6/set_test.go:768-818 `TestSetNumPrefixes`, 4 rows -/
example : ([
  ([], 32, 0, false),
  ([.prefix (p6 "2001:db8::/56")], 64, 256, false),
  ([.prefix (p6 "2001:db8::/56")], 128, 0, true),
  ([.prefix (p6 "2001:db8:0:0::/65"), .prefix (p6 "2001:db8:0:1::/65")], 128, 0, true)].all setNumPrefixes6) = true := by decide +kernel

/-- /repo/ipv6/set_test.go:877-1113 `TestFindAvailablePrefix`, 7 rows -/
example : ([
  ([.prefix (p6 "::ffff:10.0.0.0/104")], [], 120, (⟨⟨0#64, 0#64⟩, 0⟩ : Prefix U128), false, 1),
  ([.prefix (p6 "::ffff:10.0.0.0/104")], [.prefix (p6 "::ffff:10.224.123.0/120")], 120, (p6 "::ffff:10.224.122.0/120"), false, 0),
  ([.prefix (p6 "::ffff:10.0.0.0/112")], [.prefix (p6 "::ffff:10.0.1.0/120"), .prefix (p6 "::ffff:10.0.2.0/119"), .prefix (p6 "::ffff:10.0.4.0/118"), .prefix (p6 "::ffff:10.0.8.0/117"), .prefix (p6 "::ffff:10.0.16.0/116"), .prefix (p6 "::ffff:10.0.32.0/115"), .prefix (p6 "::ffff:10.0.64.0/114"), .prefix (p6 "::ffff:10.0.128.0/113")], 120, (⟨⟨0#64, 0#64⟩, 0⟩ : Prefix U128), false, (-7)),
  ([.prefix (p6 "::ffff:10.0.0.0/104")], [.prefix (p6 "::ffff:10.128.0.0/105"), .prefix (p6 "::ffff:10.64.0.0/106"), .prefix (p6 "::ffff:10.32.0.0/107"), .prefix (p6 "::ffff:10.16.0.0/108")], 107, (⟨⟨0#64, 0#64⟩, 0⟩ : Prefix U128), true, 0),
  ([.prefix (p6 "::ffff:10.0.0.0/104")], [], 103, (⟨⟨0#64, 0#64⟩, 0⟩ : Prefix U128), true, 0),
  ([.prefix (p6 "::ffff:10.0.0.0/118"), .prefix (p6 "::ffff:192.168.0.0/117"), .prefix (p6 "::ffff:172.16.0.0/116")], [.prefix (p6 "::ffff:192.168.0.0/117"), .prefix (p6 "::ffff:172.16.0.0/117"), .prefix (p6 "::ffff:172.16.8.0/118"), .prefix (p6 "::ffff:10.0.0.0/118"), .prefix (p6 "::ffff:172.16.12.0/120"), .prefix (p6 "::ffff:172.16.14.0/120"), .prefix (p6 "::ffff:172.16.15.0/120")], 120, (p6 "::ffff:172.16.13.0/120"), false, 1),
  ([.prefix (p6 "::ffff:10.0.0.0/120")], [.prefix (p6 "::ffff:10.0.0.0/123"), .prefix (p6 "::ffff:10.0.0.64/123"), .prefix (p6 "::ffff:10.0.0.128/123"), .prefix (p6 "::ffff:10.0.0.192/123")], 121, (⟨⟨0#64, 0#64⟩, 0⟩ : Prefix U128), true, 0)].all findAvailable) = true := by decide +kernel

/-- /repo/ipv6/setnode_test.go:14-225 `TestTrieNodeSet32Union`, 9 rows -/
example : ([
  ([(SetNode.fromPrefix (p6 "2001::224:24:0/112")), (SetNode.fromPrefix (p6 "2001::224:24:8000/113"))], [(a6 "2001::224:24:0"), (a6 "2001::224:24:ffff"), (a6 "2001::224:24:7fff"), (a6 "2001::224:24:8000")], [(a6 "2001::224:23:ffff"), (a6 "2001::224:25:0")]),
  ([.nil], [], [(a6 "2001::224:23:117"), (a6 "2001:193::25:0")]),
  ([(SetNode.fromPrefix (p6 "2001::224:24:0/128")), .nil], [(a6 "2001::224:24:0")], [(a6 "2001::224:23:ffff"), (a6 "2001::224:24:1")]),
  ([(SetNode.fromPrefix (p6 "2001::224:24:0/128")), (SetNode.fromPrefix (p6 "2001::224:24:0/128"))], [(a6 "2001::224:24:0")], []),
  ([(SetNode.fromPrefix (p6 "2001::224:29:0/128")), (SetNode.fromPrefix (p6 "2001::224:24:0/128"))], [(a6 "2001::224:24:0"), (a6 "2001::224:29:0")], []),
  ([(SetNode.fromPrefix (p6 "2001::224:24:0/128")), (SetNode.fromPrefix (p6 "2001::224:24:8000/128")), (SetNode.fromPrefix (p6 "2001::224:24:0/112"))], [(a6 "2001::224:24:0"), (a6 "2001::224:24:8000"), (a6 "2001::224:24:ffff")], [(a6 "2001::224:25:0"), (a6 "2001::224:28:0")]),
  ([(SetNode.union (SetNode.fromPrefix (p6 "2001::224:24:0/128")) (SetNode.fromPrefix (p6 "2001::224:24:8000/128"))), (SetNode.union (SetNode.fromPrefix (p6 "2001::224:24:0/128")) (SetNode.fromPrefix (p6 "2001::224:24:8000/128")))], [(a6 "2001::224:24:0"), (a6 "2001::224:24:8000")], [(a6 "2001::224:24:ffff"), (a6 "2001::224:25:0"), (a6 "2001::224:28:0")]),
  ([(SetNode.union (SetNode.fromPrefix (p6 "2001::224:24:0/128")) (SetNode.fromPrefix (p6 "2001::224:24:8000/128"))), (SetNode.union (SetNode.fromPrefix (p6 "2001::224:24:8000/128")) (SetNode.fromPrefix (p6 "2001::224:24:0/128")))], [(a6 "2001::224:24:0"), (a6 "2001::224:24:8000")], [(a6 "2001::224:24:ffff"), (a6 "2001::224:25:0"), (a6 "2001::224:28:0")]),
  ([(SetNode.fromPrefix (p6 "2001::224:24:0/128")), (SetNode.fromPrefix (p6 "2001::224:24:0/127")), (SetNode.fromPrefix (p6 "2001::224:24:0/126")), (SetNode.fromPrefix (p6 "2001::224:24:0/125")), (SetNode.fromPrefix (p6 "2001::224:24:0/124")), (SetNode.fromPrefix (p6 "2001::224:24:0/123")), (SetNode.fromPrefix (p6 "2001::224:24:0/122")), (SetNode.fromPrefix (p6 "2001::224:24:0/121")), (SetNode.fromPrefix (p6 "2001::224:24:0/120")), (SetNode.fromPrefix (p6 "2001::224:24:0/119")), (SetNode.fromPrefix (p6 "2001::224:24:0/118")), (SetNode.fromPrefix (p6 "2001::224:24:0/117")), (SetNode.fromPrefix (p6 "2001::224:24:0/116")), (SetNode.fromPrefix (p6 "2001::224:24:0/115")), (SetNode.fromPrefix (p6 "2001::224:24:0/114")), (SetNode.fromPrefix (p6 "2001::224:24:0/113")), (SetNode.fromPrefix (p6 "2001::224:24:0/112")), (SetNode.fromPrefix (p6 "2001::224:24:0/111")), (SetNode.fromPrefix (p6 "2001::224:24:0/110")), (SetNode.fromPrefix (p6 "2001::224:24:0/109")), (SetNode.fromPrefix (p6 "2001::224:24:0/108"))], [(a6 "2001::224:20:0"), (a6 "2001::224:21:0"), (a6 "2001::224:22:0"), (a6 "2001::224:23:0"), (a6 "2001::224:24:0"), (a6 "2001::224:25:0"), (a6 "2001::224:26:0"), (a6 "2001::224:27:0"), (a6 "2001::224:28:0"), (a6 "2001::224:29:0"), (a6 "2001::224:2a:0"), (a6 "2001::224:2b:0"), (a6 "2001::224:2c:0"), (a6 "2001::224:2d:0"), (a6 "2001::224:2e:0"), (a6 "2001::224:2f:0")], [(a6 "2001::224:19:0"), (a6 "2001::224:30:0")])].all setUnion) = true := by decide +kernel

/-- /repo/ipv6/setnode_test.go:227-289 `TestInsertOverlappingSet`, 4 rows -/
example : ([
  ((⟨(a6 "2001:0:0:200::"), 64⟩ : Prefix U128), (⟨(a6 "2001:0:0:200:20::"), 112⟩ : Prefix U128), (⟨(a6 "2001:0:0:200:20::"), 128⟩ : Prefix U128)),
  ((⟨(a6 "2001:0:0:200::"), 65⟩ : Prefix U128), (⟨(a6 "2001:0:0:200::E000"), 115⟩ : Prefix U128), (⟨(a6 "2001:0:0:200::f800"), 127⟩ : Prefix U128)),
  ((⟨(a6 "::"), 0⟩ : Prefix U128), (⟨(a6 "2001::"), 16⟩ : Prefix U128), (⟨(a6 "2001:10::"), 32⟩ : Prefix U128)),
  ((⟨(a6 "::"), 0⟩ : Prefix U128), (⟨(a6 "2001::"), 16⟩ : Prefix U128), (⟨(a6 "2001::"), 16⟩ : Prefix U128))].all overlappingSet) = true := by decide +kernel

/-- /repo/ipv6/node_test.go:392-463 `TestNoMatchPrefixMisMatch`, 6 rows -/
example : ([
  ((a6 "10::"), 112, (a6 "10::1:0"), 128),
  ((a6 "10::"), 112, (a6 "10:1::"), 128),
  ((a6 "10::"), 112, (a6 "11::"), 128),
  ((a6 "10::"), 120, (a6 "10::8000"), 128),
  (⟨0#64, 0#64⟩, 15, (a6 "2::"), 16),
  (⟨0#64, 0#64⟩, 16, (a6 "10::"), 32)].all mismatch) = true := by decide +kernel

/-- /repo/ipv6/node_test.go:465-520 `TestMatchSimplePrefixMatch`, 6 rows -/
example : ([
  ((a6 "10::"), 112),
  ((a6 "10::"), 112),
  ((a6 "10::"), 112),
  ((a6 "10::"), 120),
  (⟨0#64, 0#64⟩, 16),
  ((⟨18302628885633695744#64, 0#64⟩ : U128), 15)].all simpleMatch) = true := by decide +kernel

/-- /repo/ipv6/node_test.go:594-673 `TestInsertOverlapping`, 3 rows -/
example : ([
  ((⟨(a6 "10:200::"), 32⟩ : Prefix U128), (⟨(a6 "10:200:20::"), 48⟩ : Prefix U128), (⟨(a6 "10:200:20::"), 128⟩ : Prefix U128)),
  ((⟨(a6 "10:200::"), 34⟩ : Prefix U128), (⟨(⟨776871897794084864#64, 0#64⟩ : U128), 60⟩ : Prefix U128), (⟨(⟨776872000873299968#64, 0#64⟩ : U128), 127⟩ : Prefix U128)),
  ((⟨(⟨0#64, 0#64⟩ : U128), 0⟩ : Prefix U128), (⟨(a6 "10::"), 16⟩ : Prefix U128), (⟨(a6 "10:10::"), 32⟩ : Prefix U128))].all overlapping) = true := by decide +kernel

/-- /repo/ipv6/node_test.go:675-739 `TestInsertDisjoint`, 3 rows -/
example : ([
  ((⟨(⟨0#64, 0#64⟩ : U128), 1⟩ : Prefix U128), (⟨(a6 "8000::"), 1⟩ : Prefix U128), (⟨(⟨0#64, 0#64⟩ : U128), 0⟩ : Prefix U128)),
  ((⟨(a6 "A000:2240::"), 33⟩ : Prefix U128), (⟨(a6 "A000:2240:8000::"), 33⟩ : Prefix U128), (⟨(a6 "A000:2240::"), 32⟩ : Prefix U128)),
  ((⟨(a6 "A000:2240::"), 47⟩ : Prefix U128), (⟨(a6 "A000:2240:8::"), 47⟩ : Prefix U128), (⟨(a6 "A000:2240::"), 44⟩ : Prefix U128))].all disjoint) = true := by decide +kernel

/-- /repo/ipv6/node_test.go:741-794 `TestInsertMoreComplex`, 1 rows -/
example : ([
  [(⟨(⟨0#64, 0#64⟩ : U128), 0⟩ : Prefix U128), (⟨(⟨18374686479671623680#64, 0#64⟩ : U128), 8⟩ : Prefix U128), (⟨(⟨18302628885633695744#64, 0#64⟩ : U128), 8⟩ : Prefix U128), (⟨(⟨18446462598732840960#64, 0#64⟩ : U128), 16⟩ : Prefix U128), (⟨(⟨18446181123756130304#64, 0#64⟩ : U128), 16⟩ : Prefix U128), (⟨(⟨18446462598732840960#64, 0#64⟩ : U128), 17⟩ : Prefix U128), (⟨(⟨18446321861244485632#64, 0#64⟩ : U128), 17⟩ : Prefix U128), (⟨(⟨18446321861244485632#64, 0#64⟩ : U128), 18⟩ : Prefix U128), (⟨(⟨18446656112779329536#64, 0#64⟩ : U128), 18⟩ : Prefix U128), (⟨(⟨18446391130477035520#64, 0#64⟩ : U128), 24⟩ : Prefix U128), (⟨(⟨18446671505942118400#64, 0#64⟩ : U128), 24⟩ : Prefix U128), (⟨(⟨18446744073709551295#64, 0#64⟩ : U128), 64⟩ : Prefix U128), (⟨(⟨18446744073709551550#64, 0#64⟩ : U128), 64⟩ : Prefix U128), (⟨(⟨18446744073709551615#64, 18446744069414584320#64⟩ : U128), 96⟩ : Prefix U128), (⟨(⟨18446744073709551615#64, 18446744065119617024#64⟩ : U128), 96⟩ : Prefix U128)]].all complex) = true := by decide +kernel

/-- /repo/ipv6/node_test.go:796-967 `TestContains`, 17 rows -/
example : ([
  ((⟨(⟨0#64, 0#64⟩ : U128), 0⟩ : Prefix U128), (⟨(⟨0#64, 0#64⟩ : U128), 0⟩ : Prefix U128), true, true, 0, 0),
  ((⟨(a6 "2001::"), 32⟩ : Prefix U128), (⟨(a6 "2001::"), 32⟩ : Prefix U128), true, true, 32, 0),
  ((⟨(a6 "0a00:1f00::"), 39⟩ : Prefix U128), (⟨(a6 "0a00:1f00:00F0::"), 39⟩ : Prefix U128), true, true, 39, 0),
  ((⟨(⟨0#64, 0#64⟩ : U128), 0⟩ : Prefix U128), (⟨(a6 "2001:10::"), 32⟩ : Prefix U128), true, false, 0, 0),
  ((⟨(⟨0#64, 0#64⟩ : U128), 0⟩ : Prefix U128), (⟨(a6 "F030:10::"), 32⟩ : Prefix U128), true, false, 0, 1),
  ((⟨(a6 "2001::"), 16⟩ : Prefix U128), (⟨(a6 "2001:10::"), 32⟩ : Prefix U128), true, false, 16, 0),
  ((⟨(a6 "2001:2000::"), 17⟩ : Prefix U128), (⟨(a6 "2001:2190::"), 32⟩ : Prefix U128), true, false, 17, 0),
  ((⟨(a6 "A0::"), 16⟩ : Prefix U128), (⟨(a6 "A0:c800::"), 32⟩ : Prefix U128), true, false, 16, 1),
  ((⟨(a6 "10:f000::"), 17⟩ : Prefix U128), (⟨(a6 "10:c800::"), 32⟩ : Prefix U128), true, false, 17, 1),
  ((⟨(⟨0#64, 0#64⟩ : U128), 1⟩ : Prefix U128), (⟨(a6 "8000::"), 1⟩ : Prefix U128), false, false, 0, 1),
  ((⟨(a6 "::"), 65⟩ : Prefix U128), (⟨(a6 "::8000:0:0:0"), 65⟩ : Prefix U128), false, false, 64, 1),
  ((⟨(a6 "::"), 65⟩ : Prefix U128), (⟨(a6 "0:0:0:1::"), 65⟩ : Prefix U128), false, false, 63, 1),
  ((⟨(a6 "8000::"), 1⟩ : Prefix U128), (⟨(⟨0#64, 0#64⟩ : U128), 1⟩ : Prefix U128), false, false, 0, 0),
  ((⟨(a6 "::8000:0:0:0"), 71⟩ : Prefix U128), (⟨(a6 "::"), 71⟩ : Prefix U128), false, false, 64, 0),
  ((⟨(a6 "0:0:0:1::"), 71⟩ : Prefix U128), (⟨(a6 "::"), 71⟩ : Prefix U128), false, false, 63, 0),
  ((⟨(a6 "A0::"), 32⟩ : Prefix U128), (⟨(a6 "A0:A0::"), 32⟩ : Prefix U128), false, false, 24, 1),
  ((⟨(a6 "0:0:ffff:ffff:ffff:ffff:0:0"), 112⟩ : Prefix U128), (⟨(a6 "8000::"), 112⟩ : Prefix U128), false, false, 0, 1)].all nodeContains) = true := by decide +kernel

/-- /repo/ipv6/node_test.go:1188-1254 `TestSuccessivelyBetter`, 18 rows -/
example : better [
  (⟨(a6 "2001:224::0d24"), 0⟩ : Prefix U128),
  (⟨(a6 "2001:224::0d24"), 1⟩ : Prefix U128),
  (⟨(a6 "2001:224::0d24"), 8⟩ : Prefix U128),
  (⟨(a6 "2001:224::0d24"), 16⟩ : Prefix U128),
  (⟨(a6 "2001:224::0d24"), 24⟩ : Prefix U128),
  (⟨(a6 "2001:224::0d24"), 32⟩ : Prefix U128),
  (⟨(a6 "2001:224::0d24"), 40⟩ : Prefix U128),
  (⟨(a6 "2001:224::0d24"), 48⟩ : Prefix U128),
  (⟨(a6 "2001:224::0d24"), 56⟩ : Prefix U128),
  (⟨(a6 "2001:224::0d24"), 64⟩ : Prefix U128),
  (⟨(a6 "2001:224::0d24"), 72⟩ : Prefix U128),
  (⟨(a6 "2001:224::0d24"), 80⟩ : Prefix U128),
  (⟨(a6 "2001:224::0d24"), 88⟩ : Prefix U128),
  (⟨(a6 "2001:224::0d24"), 96⟩ : Prefix U128),
  (⟨(a6 "2001:224::0d24"), 104⟩ : Prefix U128),
  (⟨(a6 "2001:224::0d24"), 112⟩ : Prefix U128),
  (⟨(a6 "2001:224::0d24"), 120⟩ : Prefix U128),
  (⟨(a6 "2001:224::0d24"), 128⟩ : Prefix U128)] = true := by decide +kernel

/-- /repo/ipv6/node_test.go:1256-1326 `TestWalk`, 15 rows -/
example : walks [
  (⟨(a6 "1272:21::"), 40⟩ : Prefix U128),
  (⟨(a6 "3920:6c8:27::"), 49⟩ : Prefix U128),
  (⟨(a6 "3920:16c8:26::8000"), 49⟩ : Prefix U128),
  (⟨(a6 "2001:2d24:24::0"), 128⟩ : Prefix U128),
  (⟨(a6 "3920:6c8:24::"), 48⟩ : Prefix U128),
  (⟨(a6 "1272:16::"), 18⟩ : Prefix U128),
  (⟨(a6 "3920:6c8:26::"), 48⟩ : Prefix U128),
  (⟨(a6 "2001:2d24:24::0"), 124⟩ : Prefix U128),
  (⟨(a6 "3920:16c8:24::"), 48⟩ : Prefix U128),
  (⟨(a6 "3920:16c8:25::"), 48⟩ : Prefix U128),
  (⟨(a6 "3920:16c8:26::"), 49⟩ : Prefix U128),
  (⟨(a6 "3920:6c8:25::"), 48⟩ : Prefix U128),
  (⟨(a6 "3920:16c8:27::"), 48⟩ : Prefix U128),
  (⟨(a6 "1272:20:8000::"), 39⟩ : Prefix U128),
  (⟨(a6 "3920:6c8:25::8000"), 49⟩ : Prefix U128)] [
  (⟨(a6 "1272:16::"), 18⟩ : Prefix U128),
  (⟨(a6 "1272:20:8000::"), 39⟩ : Prefix U128),
  (⟨(a6 "1272:21::"), 40⟩ : Prefix U128),
  (⟨(a6 "2001:2d24:24::"), 124⟩ : Prefix U128),
  (⟨(a6 "2001:2d24:24::"), 128⟩ : Prefix U128),
  (⟨(a6 "3920:6c8:24::"), 48⟩ : Prefix U128),
  (⟨(a6 "3920:6c8:25::"), 48⟩ : Prefix U128),
  (⟨(a6 "3920:6c8:25::8000"), 49⟩ : Prefix U128),
  (⟨(a6 "3920:6c8:26::"), 48⟩ : Prefix U128),
  (⟨(a6 "3920:6c8:27::"), 49⟩ : Prefix U128),
  (⟨(a6 "3920:16c8:24::"), 48⟩ : Prefix U128),
  (⟨(a6 "3920:16c8:25::"), 48⟩ : Prefix U128),
  (⟨(a6 "3920:16c8:26::8000"), 49⟩ : Prefix U128),
  (⟨(a6 "3920:16c8:27::"), 48⟩ : Prefix U128)] = true := by decide +kernel

/-- /repo/ipv6/node_test.go:1355-1463 `TestAggregate`, 4 rows -/
example : ([
  ([], []),
  ([((⟨(a6 "2001:2d24:24::2"), 127⟩ : Prefix U128), none), ((⟨(a6 "2001:2d24:24::1"), 128⟩ : Prefix U128), none), ((⟨(a6 "2001:2d24:24::0"), 128⟩ : Prefix U128), none)], [((⟨(a6 "2001:2d24:24::0"), 126⟩ : Prefix U128), none)]),
  ([((⟨(a6 "1272:21::"), 40⟩ : Prefix U128), none), ((⟨(a6 "3920:6c8:27::"), 49⟩ : Prefix U128), none), ((⟨(a6 "3920:16c8:26::8000"), 49⟩ : Prefix U128), none), ((⟨(a6 "2001:2d24:24::0"), 128⟩ : Prefix U128), none), ((⟨(a6 "3920:6c8:24::"), 48⟩ : Prefix U128), none), ((⟨(a6 "1272:16::"), 18⟩ : Prefix U128), none), ((⟨(a6 "3920:6c8:26::"), 48⟩ : Prefix U128), none), ((⟨(a6 "2001:2d24:24::0"), 124⟩ : Prefix U128), none), ((⟨(a6 "3920:16c8:24::"), 48⟩ : Prefix U128), none), ((⟨(a6 "3920:16c8:25::"), 48⟩ : Prefix U128), none), ((⟨(a6 "3920:16c8:26::"), 49⟩ : Prefix U128), none), ((⟨(a6 "3920:6c8:25::"), 48⟩ : Prefix U128), none), ((⟨(a6 "3920:16c8:27::"), 48⟩ : Prefix U128), none), ((⟨(a6 "1272:20:8000::"), 39⟩ : Prefix U128), none), ((⟨(a6 "3920:6c8:25::8000"), 49⟩ : Prefix U128), none)], [((⟨(a6 "1272:16::"), 18⟩ : Prefix U128), none), ((⟨(a6 "2001:2d24:24::"), 124⟩ : Prefix U128), none), ((⟨(a6 "3920:6c8:24::"), 47⟩ : Prefix U128), none), ((⟨(a6 "3920:6c8:26::"), 48⟩ : Prefix U128), none), ((⟨(a6 "3920:6c8:27::"), 49⟩ : Prefix U128), none), ((⟨(a6 "3920:16c8:24::"), 47⟩ : Prefix U128), none), ((⟨(a6 "3920:16c8:26::8000"), 49⟩ : Prefix U128), none), ((⟨(a6 "3920:16c8:27::"), 48⟩ : Prefix U128), none)]),
  ([((⟨(a6 "2001:2d24:24::0"), 126⟩ : Prefix U128), some 1), ((⟨(a6 "2001:2d24:24::0"), 127⟩ : Prefix U128), some 0), ((⟨(a6 "2001:2d24:24::1"), 128⟩ : Prefix U128), some 1), ((⟨(a6 "2001:2d24:24::0"), 128⟩ : Prefix U128), some 0)], [((⟨(a6 "2001:2d24:24::0"), 126⟩ : Prefix U128), some 1), ((⟨(a6 "2001:2d24:24::0"), 127⟩ : Prefix U128), some 0), ((⟨(a6 "2001:2d24:24::1"), 128⟩ : Prefix U128), some 1)])].all aggregate) = true := by decide +kernel

/-- /repo/ipv6/node_test.go:1738-2065 `TestDiff`, 15 rows -/
example : ([
  ([], [], [], []),
  ([((⟨(a6 "2003::1b13:0"), 112⟩ : Prefix U128), none)], [], [⟨'R', ((⟨(a6 "2003::1b13:0"), 112⟩ : Prefix U128), none), none⟩], []),
  ([((⟨(a6 "2003::1b13:0"), 112⟩ : Prefix U128), none), ((⟨(a6 "2003::1b13:8000"), 113⟩ : Prefix U128), none)], [], [⟨'R', ((⟨(a6 "2003::1b13:0"), 112⟩ : Prefix U128), none), none⟩, ⟨'R', ((⟨(a6 "2003::1b13:8000"), 113⟩ : Prefix U128), none), none⟩], [⟨'R', ((⟨(a6 "2003::1b13:0"), 112⟩ : Prefix U128), none), none⟩]),
  ([((⟨(a6 "2003::1b13:0"), 112⟩ : Prefix U128), none), ((⟨(a6 "2003::1b13:4000"), 114⟩ : Prefix U128), none)], [], [⟨'R', ((⟨(a6 "2003::1b13:0"), 112⟩ : Prefix U128), none), none⟩, ⟨'R', ((⟨(a6 "2003::1b13:4000"), 114⟩ : Prefix U128), none), none⟩], [⟨'R', ((⟨(a6 "2003::1b13:0"), 112⟩ : Prefix U128), none), none⟩]),
  ([((⟨(a6 "2003::1b13:0"), 112⟩ : Prefix U128), none), ((⟨(a6 "2003::1b13:C000"), 114⟩ : Prefix U128), none)], [], [⟨'R', ((⟨(a6 "2003::1b13:0"), 112⟩ : Prefix U128), none), none⟩, ⟨'R', ((⟨(a6 "2003::1b13:C000"), 114⟩ : Prefix U128), none), none⟩], [⟨'R', ((⟨(a6 "2003::1b13:0"), 112⟩ : Prefix U128), none), none⟩]),
  ([((⟨(a6 "2003::1b13:0"), 112⟩ : Prefix U128), none)], [((⟨(a6 "2003::1b13:0"), 112⟩ : Prefix U128), none)], [⟨'S', ((⟨(a6 "2003::1b13:0"), 112⟩ : Prefix U128), none), none⟩], []),
  ([((⟨(a6 "2003::1b13:0"), 112⟩ : Prefix U128), some 2)], [((⟨(a6 "2003::1b13:0"), 112⟩ : Prefix U128), some 3)], [⟨'C', ((⟨(a6 "2003::1b13:0"), 112⟩ : Prefix U128), some 2), some 3⟩], []),
  ([((⟨(a6 "2003::1b13:0"), 112⟩ : Prefix U128), some 2)], [((⟨(a6 "2003::1b13:0"), 113⟩ : Prefix U128), some 3), ((⟨(a6 "2003::1b13:8000"), 113⟩ : Prefix U128), some 3)], [⟨'R', ((⟨(a6 "2003::1b13:0"), 112⟩ : Prefix U128), some 2), none⟩, ⟨'A', ((⟨(a6 "2003::1b13:0"), 113⟩ : Prefix U128), some 3), none⟩, ⟨'A', ((⟨(a6 "2003::1b13:8000"), 113⟩ : Prefix U128), some 3), none⟩], [⟨'C', ((⟨(a6 "2003::1b13:0"), 112⟩ : Prefix U128), some 2), some 3⟩]),
  ([((⟨(a6 "2003::1b13:0"), 113⟩ : Prefix U128), some 2), ((⟨(a6 "2003::1b13:8000"), 113⟩ : Prefix U128), some 2)], [((⟨(a6 "2003::1b13:0"), 113⟩ : Prefix U128), some 3), ((⟨(a6 "2003::1b13:8000"), 113⟩ : Prefix U128), some 3)], [⟨'C', ((⟨(a6 "2003::1b13:0"), 113⟩ : Prefix U128), some 2), some 3⟩, ⟨'C', ((⟨(a6 "2003::1b13:8000"), 113⟩ : Prefix U128), some 2), some 3⟩], [⟨'C', ((⟨(a6 "2003::1b13:0"), 112⟩ : Prefix U128), some 2), some 3⟩]),
  ([((⟨(a6 "2003::1b13:0"), 113⟩ : Prefix U128), none)], [((⟨(a6 "2003::1b13:8000"), 113⟩ : Prefix U128), none)], [⟨'R', ((⟨(a6 "2003::1b13:0"), 113⟩ : Prefix U128), none), none⟩, ⟨'A', ((⟨(a6 "2003::1b13:8000"), 113⟩ : Prefix U128), none), none⟩], []),
  ([((⟨(a6 "2003::1b13:0"), 112⟩ : Prefix U128), none)], [((⟨(a6 "2003::1b13:8000"), 113⟩ : Prefix U128), none)], [⟨'R', ((⟨(a6 "2003::1b13:0"), 112⟩ : Prefix U128), none), none⟩, ⟨'A', ((⟨(a6 "2003::1b13:8000"), 113⟩ : Prefix U128), none), none⟩], []),
  ([((⟨(a6 "2003::1b13:0"), 113⟩ : Prefix U128), none), ((⟨(a6 "2003::1b13:8000"), 113⟩ : Prefix U128), none)], [((⟨(a6 "2003::1b13:8000"), 113⟩ : Prefix U128), none)], [⟨'R', ((⟨(a6 "2003::1b13:0"), 113⟩ : Prefix U128), none), none⟩, ⟨'S', ((⟨(a6 "2003::1b13:8000"), 113⟩ : Prefix U128), none), none⟩], [⟨'R', ((⟨(a6 "2003::1b13:0"), 112⟩ : Prefix U128), none), none⟩, ⟨'A', ((⟨(a6 "2003::1b13:8000"), 113⟩ : Prefix U128), none), none⟩]),
  ([((⟨(a6 "2003::1b13:0"), 112⟩ : Prefix U128), none)], [((⟨(a6 "2003::1b13:0"), 113⟩ : Prefix U128), none)], [⟨'R', ((⟨(a6 "2003::1b13:0"), 112⟩ : Prefix U128), none), none⟩, ⟨'A', ((⟨(a6 "2003::1b13:0"), 113⟩ : Prefix U128), none), none⟩], []),
  ([((⟨(a6 "2003::1b13:0"), 113⟩ : Prefix U128), none), ((⟨(a6 "2003::1b13:8000"), 113⟩ : Prefix U128), none)], [((⟨(a6 "2003::1b13:0"), 113⟩ : Prefix U128), none)], [⟨'S', ((⟨(a6 "2003::1b13:0"), 113⟩ : Prefix U128), none), none⟩, ⟨'R', ((⟨(a6 "2003::1b13:8000"), 113⟩ : Prefix U128), none), none⟩], [⟨'R', ((⟨(a6 "2003::1b13:0"), 112⟩ : Prefix U128), none), none⟩, ⟨'A', ((⟨(a6 "2003::1b13:0"), 113⟩ : Prefix U128), none), none⟩]),
  ([((⟨(a6 "2003::1b13:0"), 113⟩ : Prefix U128), none), ((⟨(a6 "2003::1b13:8000"), 113⟩ : Prefix U128), none)], [((⟨(a6 "2003::1b13:0"), 112⟩ : Prefix U128), none)], [⟨'A', ((⟨(a6 "2003::1b13:0"), 112⟩ : Prefix U128), none), none⟩, ⟨'R', ((⟨(a6 "2003::1b13:0"), 113⟩ : Prefix U128), none), none⟩, ⟨'R', ((⟨(a6 "2003::1b13:8000"), 113⟩ : Prefix U128), none), none⟩], [⟨'S', ((⟨(a6 "2003::1b13:0"), 112⟩ : Prefix U128), none), none⟩])].all diff) = true := by decide +kernel

/-- /repo/ipv6/node_test.go:2067-2136 `TestMap`, 3 rows -/
example : ([
  [],
  [(⟨(a6 "2001:db8:203:113::"), 56⟩ : Prefix U128)],
  [(⟨(a6 "2001:db8:203:113::"), 56⟩ : Prefix U128), (⟨(a6 "2001:db8:203:113::"), 64⟩ : Prefix U128), (⟨(a6 "2001:db8:192:2::"), 59⟩ : Prefix U128), (⟨(a6 "2001:db8:198:51::"), 56⟩ : Prefix U128), (⟨(a6 "2001:db8:198:51::"), 57⟩ : Prefix U128), (⟨(a6 "2001:db8:198:51::"), 58⟩ : Prefix U128), (⟨(a6 "2001:db8:198:51::"), 59⟩ : Prefix U128), (⟨(a6 "2001:db8:198:51::"), 60⟩ : Prefix U128), (⟨(a6 "2001:db8:198:51::"), 61⟩ : Prefix U128), (⟨(a6 "2001:db8:198:51::"), 62⟩ : Prefix U128), (⟨(a6 "2001:db8:198:51::"), 63⟩ : Prefix U128), (⟨(a6 "2001:db8:198:51::"), 64⟩ : Prefix U128)]].all map) = true := by decide +kernel

/-- /repo/ipv6/uint128_test.go:69-106 `TestCompare`, 4 rows -/
example : ([
  ((⟨2306139570357600256#64, 151930230830132#64⟩ : U128), 0, (⟨2306139570357600256#64, 151930230830132#64⟩ : U128)),
  ((⟨2306139570357600256#64, 151930230830132#64⟩ : U128), (-1), (⟨2306139570357600257#64, 151930230830132#64⟩ : U128)),
  ((⟨2306139570357600256#64, 151930230830132#64⟩ : U128), (-1), (⟨2306139570357600256#64, 151930230830133#64⟩ : U128)),
  ((⟨2306139570357600256#64, 151930230830133#64⟩ : U128), 1, (⟨2306139570357600256#64, 151930230830132#64⟩ : U128))].all fun (a, c, b) => decide (U128.compare a b = c)) = true := by decide +kernel

/-- /repo/ipv6/uint128_test.go:116-147 `TestAnd`, 3 rows -/
example : ([
  ((⟨2306139570357600256#64, 151930230830132#64⟩ : U128), (⟨2306139570357600256#64, 151930230830132#64⟩ : U128), (⟨2306139570357600256#64, 151930230830132#64⟩ : U128)),
  ((⟨2306139570357600256#64, 151930230830132#64⟩ : U128), (⟨2846572694031482880#64, 1225131242014185780#64⟩ : U128), (⟨2306138264676990976#64, 151792791851060#64⟩ : U128)),
  ((⟨0#64, 0#64⟩ : U128), (⟨18446744073709551615#64, 18446744073709551615#64⟩ : U128), (⟨0#64, 0#64⟩ : U128))].all fun (a, b, c) => decide (U128.and a b = c)) = true := by decide +kernel

/-- /repo/ipv6/uint128_test.go:149-180 `TestOr`, 3 rows -/
example : ([
  ((⟨2306139570357600256#64, 151930230830132#64⟩ : U128), (⟨2306139570357600256#64, 151930230830132#64⟩ : U128), (⟨2306139570357600256#64, 151930230830132#64⟩ : U128)),
  ((⟨2306139570357600256#64, 151930230830132#64⟩ : U128), (⟨2846572694031482880#64, 1225131242014185780#64⟩ : U128), (⟨2846573999712092160#64, 1225131379453164852#64⟩ : U128)),
  ((⟨0#64, 0#64⟩ : U128), (⟨18446744073709551615#64, 18446744073709551615#64⟩ : U128), (⟨18446744073709551615#64, 18446744073709551615#64⟩ : U128))].all fun (a, b, c) => decide (U128.or a b = c)) = true := by decide +kernel

/-- /repo/ipv6/uint128_test.go:182-213 `TestXor`, 3 rows -/
example : ([
  ((⟨2306139570357600256#64, 151930230830132#64⟩ : U128), (⟨2306139570357600256#64, 151930230830132#64⟩ : U128), (⟨0#64, 0#64⟩ : U128)),
  ((⟨2306139570357600256#64, 151930230830132#64⟩ : U128), (⟨2846572694031482880#64, 1225131242014185780#64⟩ : U128), (⟨540435735035101184#64, 1224979586661313792#64⟩ : U128)),
  ((⟨0#64, 0#64⟩ : U128), (⟨18446744073709551615#64, 18446744073709551615#64⟩ : U128), (⟨18446744073709551615#64, 18446744073709551615#64⟩ : U128))].all fun (a, b, c) => decide (U128.xor a b = c)) = true := by decide +kernel

/-- /repo/ipv6/node_test.go:2138-2254 `TestNewAggregate`, 10 rows -/
example : ([
  ([], []),
  ([((⟨(a6 "2003::1b13:0"), 113⟩ : Prefix U128), none)], [((⟨(a6 "2003::1b13:0"), 113⟩ : Prefix U128), none)]),
  ([((⟨(a6 "2003::1b13:0"), 112⟩ : Prefix U128), none), ((⟨(a6 "2003::1b13:0"), 113⟩ : Prefix U128), none)], [((⟨(a6 "2003::1b13:0"), 112⟩ : Prefix U128), none)]),
  ([((⟨(a6 "2003::1b13:0"), 112⟩ : Prefix U128), none), ((⟨(a6 "2003::1b13:0"), 113⟩ : Prefix U128), some 1)], [((⟨(a6 "2003::1b13:0"), 112⟩ : Prefix U128), none), ((⟨(a6 "2003::1b13:0"), 113⟩ : Prefix U128), some 1)]),
  ([((⟨(a6 "2003::1b13:0"), 114⟩ : Prefix U128), none), ((⟨(a6 "2003::1b13:8000"), 114⟩ : Prefix U128), none)], [((⟨(a6 "2003::1b13:0"), 114⟩ : Prefix U128), none), ((⟨(a6 "2003::1b13:8000"), 114⟩ : Prefix U128), none)]),
  ([((⟨(a6 "2003::1b13:0"), 112⟩ : Prefix U128), none), ((⟨(a6 "2003::1b13:0"), 114⟩ : Prefix U128), some 1), ((⟨(a6 "2003::1b13:4000"), 114⟩ : Prefix U128), none)], [((⟨(a6 "2003::1b13:0"), 112⟩ : Prefix U128), none), ((⟨(a6 "2003::1b13:0"), 114⟩ : Prefix U128), some 1)]),
  ([((⟨(a6 "2003::1b13:0"), 113⟩ : Prefix U128), none), ((⟨(a6 "2003::1b13:8000"), 113⟩ : Prefix U128), none)], [((⟨(a6 "2003::1b13:0"), 112⟩ : Prefix U128), none)]),
  ([((⟨(a6 "2003::1b13:0"), 113⟩ : Prefix U128), none), ((⟨(a6 "2003::1b13:8000"), 113⟩ : Prefix U128), some 1)], [((⟨(a6 "2003::1b13:0"), 113⟩ : Prefix U128), none), ((⟨(a6 "2003::1b13:8000"), 113⟩ : Prefix U128), some 1)]),
  ([((⟨(a6 "2003::1b13:0"), 113⟩ : Prefix U128), none), ((⟨(a6 "2003::1b13:8000"), 114⟩ : Prefix U128), none)], [((⟨(a6 "2003::1b13:0"), 113⟩ : Prefix U128), none), ((⟨(a6 "2003::1b13:8000"), 114⟩ : Prefix U128), none)]),
  ([((⟨(a6 "2003::1b13:0"), 112⟩ : Prefix U128), none), ((⟨(a6 "2003::1b13:0"), 113⟩ : Prefix U128), some 1), ((⟨(a6 "2003::1b13:8000"), 113⟩ : Prefix U128), some 1)], [((⟨(a6 "2003::1b13:0"), 112⟩ : Prefix U128), some 1)])].all newAggregate) = true := by decide +kernel

/-- /repo/ipv6/uint128_test.go:51-58 `TestLeadingZero`, 6 rows -/
example : ([
  decide (128 = (U128.leadingZeros (⟨0#64, 0#64⟩ : U128))),
  decide (100 = (U128.leadingZeros (⟨0#64, 251658240#64⟩ : U128))),
  decide (84 = (U128.leadingZeros (⟨0#64, 15393162788864#64⟩ : U128))),
  decide (64 = (U128.leadingZeros (⟨0#64, 17293822569102704640#64⟩ : U128))),
  decide (36 = (U128.leadingZeros (⟨268435455#64, 0#64⟩ : U128))),
  decide (0 = (U128.leadingZeros (⟨17293822569102704640#64, 0#64⟩ : U128)))].all id) = true := by decide +kernel

/-- /repo/ipv6/uint128_test.go:60-67 `TestOnesCount`, 6 rows -/
example : ([
  decide (0 = (U128.onesCount (⟨0#64, 0#64⟩ : U128))),
  decide (19 = (U128.onesCount (⟨0#64, 151930230830132#64⟩ : U128))),
  decide (35 = (U128.onesCount (⟨2306139570357600256#64, 151930230830132#64⟩ : U128))),
  decide (61 = (U128.onesCount (⟨144133879767433216#64, 2430887065026559#64⟩ : U128))),
  decide (80 = (U128.onesCount (⟨144133723275657215#64, 2533274639925247#64⟩ : U128))),
  decide (128 = (U128.onesCount (⟨18446744073709551615#64, 18446744073709551615#64⟩ : U128)))].all id) = true := by decide +kernel

/-- /repo/ipv6/uint128_test.go:108-114 `TestComplement`, 5 rows -/
example : ([
  decide ((⟨18446744073709551615#64, 18446744073709551615#64⟩ : U128) = (U128.complement (⟨0#64, 0#64⟩ : U128))),
  decide ((⟨16140604503351951359#64, 18446592143478721483#64⟩ : U128) = (U128.complement (⟨2306139570357600256#64, 151930230830132#64⟩ : U128))),
  decide ((⟨18380830550653727366#64, 18444313186644525056#64⟩ : U128) = (U128.complement (⟨65913523055824249#64, 2430887065026559#64⟩ : U128))),
  decide ((⟨18446744073441116160#64, 18446744073709551615#64⟩ : U128) = (U128.complement (⟨268435455#64, 0#64⟩ : U128))),
  decide ((⟨0#64, 0#64⟩ : U128) = (U128.complement (⟨18446744073709551615#64, 18446744073709551615#64⟩ : U128)))].all id) = true := by decide +kernel

/-- /repo/ipv6/uint128_test.go:215-224 `TestLeftShift`, 8 rows -/
example : ([
  decide ((⟨18446744073709551615#64, 18446744073709551615#64⟩ : U128) = (U128.leftShift (⟨18446744073709551615#64, 18446744073709551615#64⟩ : U128) 0)),
  decide ((⟨18446744073709551615#64, 18446744069414584320#64⟩ : U128) = (U128.leftShift (⟨18446744073709551615#64, 18446744073709551615#64⟩ : U128) 32)),
  decide ((⟨18446744073709551615#64, 18446603336221196288#64⟩ : U128) = (U128.leftShift (⟨18446744073709551615#64, 18446744073709551615#64⟩ : U128) 47)),
  decide ((⟨18446744073709551615#64, 0#64⟩ : U128) = (U128.leftShift (⟨18446744073709551615#64, 18446744073709551615#64⟩ : U128) 64)),
  decide ((⟨18446744073709518848#64, 0#64⟩ : U128) = (U128.leftShift (⟨18446744073709551615#64, 18446744073709551615#64⟩ : U128) 79)),
  decide ((⟨18446744004990074880#64, 0#64⟩ : U128) = (U128.leftShift (⟨18446744073709551615#64, 18446744073709551615#64⟩ : U128) 100)),
  decide ((⟨0#64, 0#64⟩ : U128) = (U128.leftShift (⟨18446744073709551615#64, 18446744073709551615#64⟩ : U128) 128)),
  decide ((⟨0#64, 0#64⟩ : U128) = (U128.leftShift (⟨18446744073709551615#64, 18446744073709551615#64⟩ : U128) 129))].all id) = true := by decide +kernel

/-- /repo/ipv6/uint128_test.go:226-235 `TestRightShift`, 8 rows -/
example : ([
  decide ((⟨18446744073709551615#64, 18446744073709551615#64⟩ : U128) = (U128.rightShift (⟨18446744073709551615#64, 18446744073709551615#64⟩ : U128) 0)),
  decide ((⟨4294967295#64, 18446744073709551615#64⟩ : U128) = (U128.rightShift (⟨18446744073709551615#64, 18446744073709551615#64⟩ : U128) 32)),
  decide ((⟨131071#64, 18446744073709551615#64⟩ : U128) = (U128.rightShift (⟨18446744073709551615#64, 18446744073709551615#64⟩ : U128) 47)),
  decide ((⟨0#64, 18446744073709551615#64⟩ : U128) = (U128.rightShift (⟨18446744073709551615#64, 18446744073709551615#64⟩ : U128) 64)),
  decide ((⟨0#64, 562949953421311#64⟩ : U128) = (U128.rightShift (⟨18446744073709551615#64, 18446744073709551615#64⟩ : U128) 79)),
  decide ((⟨0#64, 268435455#64⟩ : U128) = (U128.rightShift (⟨18446744073709551615#64, 18446744073709551615#64⟩ : U128) 100)),
  decide ((⟨0#64, 0#64⟩ : U128) = (U128.rightShift (⟨18446744073709551615#64, 18446744073709551615#64⟩ : U128) 128)),
  decide ((⟨0#64, 0#64⟩ : U128) = (U128.rightShift (⟨18446744073709551615#64, 18446744073709551615#64⟩ : U128) 129))].all id) = true := by decide +kernel

/-- /repo/ipv6/uint128_test.go:237-243 `TestAddUint64`, 5 rows -/
example : ([
  decide ((⟨2306139570357600257#64, 151930230830131#64⟩ : U128) = (U128.addUint64 (⟨2306139570357600256#64, 151930230830132#64⟩ : U128) 18446744073709551615#64)),
  decide ((⟨0#64, 151930230830131#64⟩ : U128) = (U128.addUint64 (⟨18446744073709551615#64, 151930230830132#64⟩ : U128) 18446744073709551615#64)),
  decide ((⟨2306139570357600256#64, 151934525797427#64⟩ : U128) = (U128.addUint64 (⟨2306139570357600256#64, 151930230830132#64⟩ : U128) 4294967295#64)),
  decide ((⟨2306139570357600256#64, 151930230830133#64⟩ : U128) = (U128.addUint64 (⟨2306139570357600256#64, 151930230830132#64⟩ : U128) 1#64)),
  decide ((⟨2306139570357600256#64, 151930230830132#64⟩ : U128) = (U128.addUint64 (⟨2306139570357600256#64, 151930230830132#64⟩ : U128) 0#64))].all id) = true := by decide +kernel

/-- /repo/ipv6/uint128_test.go:245-251 `TestSubtractUint64`, 5 rows -/
example : ([
  decide ((⟨2306139570357600255#64, 151930230830133#64⟩ : U128) = (U128.subtractUint64 (⟨2306139570357600256#64, 151930230830132#64⟩ : U128) 18446744073709551615#64)),
  decide ((⟨18446744073709551615#64, 151930230830133#64⟩ : U128) = (U128.subtractUint64 (⟨0#64, 151930230830132#64⟩ : U128) 18446744073709551615#64)),
  decide ((⟨2306139570357600256#64, 151925935862837#64⟩ : U128) = (U128.subtractUint64 (⟨2306139570357600256#64, 151930230830132#64⟩ : U128) 4294967295#64)),
  decide ((⟨2306139570357600256#64, 151930230830131#64⟩ : U128) = (U128.subtractUint64 (⟨2306139570357600256#64, 151930230830132#64⟩ : U128) 1#64)),
  decide ((⟨2306139570357600256#64, 151930230830132#64⟩ : U128) = (U128.subtractUint64 (⟨2306139570357600256#64, 151930230830132#64⟩ : U128) 0#64))].all id) = true := by decide +kernel

/-- /repo/ipv6/range_test.go:62-65 `TestRangeString`, 2 rows -/
example : ([
  decide ("[2001:db8:85a3::8a2e:370:7334,2001:db8:9621::1234:c28:1]" = (String.ofList (V6.rangeString (Range.fromAddresses (⟨2306139570357600256#64, 151930230829876#64⟩ : U128) (⟨2306139570634293248#64, 20014751547393#64⟩ : U128)).1))),
  decide ("[2001:db8:85a3:1234:abcd:8a2e::,2001:db8:85a3:1234:abcd:8a2e:ffff:ffff]" = (String.ofList (V6.rangeString (p6 "2001:db8:85a3:1234:abcd:8a2e:1:1/96").range)))].all id) = true := by decide +kernel

/-- /repo/ipv6/set_test.go:14-25 `TestSetInsertPrefix`, 4 assertions -/
example : (
  let s := (IPSet.empty : IPSet U128)
  let s := s.union (.prefix (p6 "2001::/112"))
  let c0 := (s.contains (.prefix (p6 "2001::/112")))
  let c1 := !(s.contains (.prefix (p6 "2001::/104")))
  let s := s.union (.prefix (p6 "2001::/104"))
  let c2 := (s.contains (.prefix (p6 "2001::/112")))
  let c3 := (s.contains (.prefix (p6 "2001::/104")))
  c0 && c1 && c2 && c3) = true := by decide +kernel

/-- /repo/ipv6/set_test.go:27-39 `TestSetRemovePrefix`, 5 assertions -/
example : (
  let s := (IPSet.empty : IPSet U128)
  let s := s.union (.prefix (p6 "2001::/104"))
  let c0 := (s.contains (.prefix (p6 "2001::/112")))
  let c1 := (s.contains (.prefix (p6 "2001::/104")))
  let s := s.difference (.prefix (p6 "2001::/112"))
  let c2 := !(s.contains (.prefix (p6 "2001::/112")))
  let c3 := !(s.contains (.prefix (p6 "2001::/104")))
  let c4 := (s.contains (.prefix (p6 "2001::1:0/112")))
  c0 && c1 && c2 && c3 && c4) = true := by decide +kernel

/-- /repo/ipv6/set_test.go:59-69 `TestSetInsertSet`, 4 assertions -/
example : (
  let a := (IPSet.empty : IPSet U128)
  let b := (IPSet.empty : IPSet U128)
  let a := a.union (.prefix (p6 "2001::/112"))
  let b := b.union (.prefix (p6 "2001::8000/113"))
  let a := a.union (.set b)
  let c0 := a.isValid
  let c1 := (a.contains (.prefix (p6 "2001::/113")))
  let c2 := (a.contains (.prefix (p6 "2001::8000/113")))
  let c3 := (a.contains (.prefix (p6 "2001::/112")))
  c0 && c1 && c2 && c3) = true := by decide +kernel

/-- /repo/ipv6/set_test.go:71-81 `TestSetRemoveSet`, 4 assertions -/
example : (
  let a := (IPSet.empty : IPSet U128)
  let b := (IPSet.empty : IPSet U128)
  let a := a.union (.prefix (p6 "2001::/112"))
  let b := b.union (.prefix (p6 "2001::8000/113"))
  let a := a.difference (.set b)
  let c0 := a.isValid
  let c1 := (a.contains (.prefix (p6 "2001::/113")))
  let c2 := !(a.contains (.prefix (p6 "2001::8000/113")))
  let c3 := !(a.contains (.prefix (p6 "2001::/112")))
  c0 && c1 && c2 && c3) = true := by decide +kernel

/-- /repo/ipv6/set_test.go:188-191 `TestSetContainsNil`, 2 assertions -/
example : (
  let c0 := ((IPSet.empty : IPSet U128).contains .nil)
  let c1 := ((IPSet.empty : IPSet U128).contains .nil)
  c0 && c1) = true := by decide +kernel

/-- /repo/ipv6/set_test.go:193-196 `TestSetUnionNil`, 2 assertions -/
example : (
  let c0 := ((IPSet.empty : IPSet U128).union .nil).isEmpty
  let c1 := ((IPSet.empty : IPSet U128).union .nil).isEmpty
  c0 && c1) = true := by decide +kernel

/-- /repo/ipv6/set_test.go:198-201 `TestSetIntesectionNil`, 2 assertions -/
example : (
  let c0 := ((IPSet.empty : IPSet U128).intersection .nil).isEmpty
  let c1 := ((IPSet.empty : IPSet U128).intersection .nil).isEmpty
  c0 && c1) = true := by decide +kernel

/-- /repo/ipv6/set_test.go:203-206 `TestSetDifferenceNil`, 2 assertions -/
example : (
  let c0 := ((IPSet.empty : IPSet U128).difference .nil).isEmpty
  let c1 := ((IPSet.empty : IPSet U128).difference .nil).isEmpty
  c0 && c1) = true := by decide +kernel

/-- /repo/ipv6/set_test.go:208-212 `TestSetInsertNil`, 1 assertions -/
example : (
  let s := (IPSet.empty : IPSet U128)
  let s := s.union .nil
  let c0 := s.isEmpty
  c0) = true := by decide +kernel

/-- /repo/ipv6/set_test.go:214-218 `TestSetRemoveNil`, 1 assertions -/
example : (
  let s := (IPSet.empty : IPSet U128)
  let s := s.difference .nil
  let c0 := s.isEmpty
  c0) = true := by decide +kernel

/-- /repo/ipv6/set_test.go:366-383 `TestFixedSetContainsSet`, 2 assertions -/
example : (
  let s := (IPSet.empty : IPSet U128)
  let s := s.union (.prefix (p6 "2001::/64"))
  let other := (IPSet.empty : IPSet U128)
  let other := other.union (.prefix (p6 "2001::/112"))
  let other := other.union (.prefix (p6 "2001::1234:0/115"))
  let other := other.union (.prefix (p6 "2001:0:0:0:8000:0:0:0/65"))
  let c0 := (s.contains (.set other))
  let other := other.union (.prefix (p6 "2001:1234::/112"))
  let other := other.union (.prefix (p6 "2001:1::1234:0/115"))
  let other := other.union (.prefix (p6 "2001:0:0:0:8000:0:0:0/63"))
  let c1 := !(s.contains (.set other))
  c0 && c1) = true := by decide +kernel

/-- /repo/ipv6/set_test.go:397-402 `TestOldSetInit`, 2 assertions -/
example : (
  let set := (IPSet.empty : IPSet U128)
  let c0 := set.isEmpty
  let c1 := set.isValid
  c0 && c1) = true := by decide +kernel

/-- /repo/ipv6/set_test.go:404-411 `TestOldSetContains`, 4 assertions -/
example : (
  let set := (IPSet.empty : IPSet U128)
  let c0 := set.isEmpty
  let c1 := !(set.contains (.address (a6 "8:8:8:8:8:8:8:8")))
  let c2 := !(set.contains (.address (a6 "9:9:9:9:9:9:9:9")))
  let c3 := set.isValid
  c0 && c1 && c2 && c3) = true := by decide +kernel

/-- /repo/ipv6/set_test.go:413-424 `TestOldSetInsert`, 6 assertions -/
example : (
  let s := (IPSet.empty : IPSet U128)
  let s := s.union (.address (a6 "9:9:9:9:9:9:9:9"))
  let c0 := !s.isEmpty
  let c1 := (s.contains (.address (a6 "9:9:9:9:9:9:9:9")))
  let c2 := !(s.contains (.address (a6 "8:8:8:8:8:8:8:8")))
  let s := s.union (.address (a6 "8:8:8:8:8:8:8:8"))
  let c3 := decide (2 = s.trie.numNodes)
  let c4 := (s.contains (.address (a6 "8:8:8:8:8:8:8:8")))
  let c5 := s.isValid
  c0 && c1 && c2 && c3 && c4 && c5) = true := by decide +kernel

/-- /repo/ipv6/set_test.go:426-437 `TestOldSetInsertPrefixwork`, 7 assertions -/
example : (
  let s := (IPSet.empty : IPSet U128)
  let s := s.union (.prefix (p6 "10::/112"))
  let c0 := decide (1 = s.trie.numNodes)
  let c1 := !s.isEmpty
  let c2 := (s.contains (.prefix (p6 "10::/112")))
  let c3 := (s.contains (.prefix (p6 "10::8000/113")))
  let c4 := !(s.contains (.address (a6 "9:9:9:9:9:9:9:9")))
  let c5 := !(s.contains (.address (a6 "8:8:8:8:8:8:8:8")))
  let c6 := s.isValid
  c0 && c1 && c2 && c3 && c4 && c5 && c6) = true := by decide +kernel

/-- /repo/ipv6/set_test.go:439-480 `TestOldSetInsertSequential`, 17 assertions -/
example : (
  let s := (IPSet.empty : IPSet U128)
  let s := s.union (.address (a6 "2001::"))
  let c0 := decide (1 = s.trie.numNodes)
  let s := s.union (.address (a6 "2001::1"))
  let c1 := decide (1 = s.trie.numNodes)
  let s := s.union (.address (a6 "2001::2"))
  let c2 := decide (2 = s.trie.numNodes)
  let s := s.union (.address (a6 "2001::3"))
  let c3 := decide (1 = s.trie.numNodes)
  let c4 := !s.isEmpty
  let cidr := (p6 "2001::/126")
  let c5 := (s.contains (.prefix cidr))
  let cidr := (p6 "2001::4/127")
  let s := s.union (.prefix cidr)
  let c6 := decide (2 = s.trie.numNodes)
  let c7 := (s.contains (.prefix cidr))
  let cidr := (p6 "2001::6/127")
  let s := s.union (.prefix cidr)
  let c8 := decide (1 = s.trie.numNodes)
  let c9 := (s.contains (.prefix cidr))
  let cidr := (p6 "2001::6/127")
  let s := s.union (.prefix cidr)
  let c10 := decide (1 = s.trie.numNodes)
  let c11 := (s.contains (.prefix cidr))
  let cidr := (p6 "2001::240/125")
  let s := s.union (.prefix cidr)
  let c12 := decide (2 = s.trie.numNodes)
  let c13 := (s.contains (.prefix cidr))
  let cidr := (p6 "2001::248/125")
  let s := s.union (.prefix cidr)
  let c14 := decide (2 = s.trie.numNodes)
  let c15 := (s.contains (.prefix cidr))
  let c16 := s.isValid
  c0 && c1 && c2 && c3 && c4 && c5 && c6 && c7 && c8 && c9 && c10 && c11 && c12 && c13 && c14 && c15 && c16) = true := by decide +kernel

/-- /repo/ipv6/set_test.go:482-499 `TestOldSetRemove`, 9 assertions -/
example : (
  let s := (IPSet.empty : IPSet U128)
  let s := s.union (.prefix (p6 "10::/112"))
  let c0 := decide (1 = s.trie.numNodes)
  let s := s.difference (.prefix (p6 "10::8000/113"))
  let c1 := decide (1 = s.trie.numNodes)
  let c2 := !s.isEmpty
  let c3 := !(s.contains (.prefix (p6 "10::/112")))
  let c4 := !(s.contains (.prefix (p6 "10::8000/113")))
  let cidr := (p6 "10::/113")
  let c5 := (s.contains (.prefix cidr))
  let s := s.difference (.address (a6 "10::1"))
  let c6 := !s.isEmpty
  let c7 := decide (15 = s.trie.numNodes)
  let c8 := s.isValid
  c0 && c1 && c2 && c3 && c4 && c5 && c6 && c7 && c8) = true := by decide +kernel

/-- /repo/ipv6/set_test.go:501-523 `TestOldSetRemovePrefixworkBroadcast`, 12 assertions -/
example : (
  let s := (IPSet.empty : IPSet U128)
  let s := s.union (.prefix (p6 "10::/112"))
  let c0 := decide (1 = s.trie.numNodes)
  let s := s.difference (.address (p6 "10::/112").addr)
  let s := s.difference (.address (a6 "10::ffff"))
  let c1 := !s.isEmpty
  let c2 := decide (30 = s.trie.numNodes)
  let c3 := !(s.contains (.prefix (p6 "10::/112")))
  let c4 := !(s.contains (.prefix (p6 "10::8000/113")))
  let c5 := !(s.contains (.address (a6 "10::ffff")))
  let c6 := !(s.contains (.address (p6 "10::/112").addr))
  let cidr := (p6 "10::8000/114")
  let c7 := (s.contains (.prefix cidr))
  let c8 := (s.contains (.address (a6 "10::1")))
  let s := s.difference (.address (a6 "10::1"))
  let c9 := !s.isEmpty
  let c10 := decide (29 = s.trie.numNodes)
  let c11 := s.isValid
  c0 && c1 && c2 && c3 && c4 && c5 && c6 && c7 && c8 && c9 && c10 && c11) = true := by decide +kernel

/-- /repo/ipv6/set_test.go:525-540 `TestOldSetRemoveAll`, 6 assertions -/
example : (
  let s := (IPSet.empty : IPSet U128)
  let s := s.union (.prefix (p6 "10::/112"))
  let cidr1 := (p6 "2001::/113")
  let s := s.union (.prefix cidr1)
  let c0 := decide (2 = s.trie.numNodes)
  let cidr2 := (p6 "::/0")
  let s := s.difference (.prefix cidr2)
  let c1 := decide (0 = s.trie.numNodes)
  let c2 := !(s.contains (.prefix (p6 "10::/112")))
  let c3 := !(s.contains (.prefix (p6 "10::8000/113")))
  let c4 := !(s.contains (.prefix cidr1))
  let c5 := s.isValid
  c0 && c1 && c2 && c3 && c4 && c5) = true := by decide +kernel

/-- /repo/ipv6/set_test.go:542-554 `TestOldSet_RemoveTop`, 3 assertions -/
example : (
  let testSet := (IPSet.empty : IPSet U128)
  let ip1 := (a6 "10::1")
  let ip2 := (a6 "10::2")
  let testSet := testSet.union (.address ip2)
  let testSet := testSet.union (.address ip1)
  let testSet := testSet.difference (.address ip2)
  let c0 := (testSet.contains (.address ip1))
  let c1 := !(testSet.contains (.address ip2))
  let c2 := testSet.isValid
  c0 && c1 && c2) = true := by decide +kernel

/-- /repo/ipv6/set_test.go:556-570 `TestOldSetInsertOverlapping`, 9 assertions -/
example : (
  let s := (IPSet.empty : IPSet U128)
  let s := s.union (.prefix (p6 "10::8000/113"))
  let c0 := !(s.contains (.prefix (p6 "10::/112")))
  let c1 := decide (1 = s.trie.numNodes)
  let s := s.union (.prefix (p6 "10::/112"))
  let c2 := decide (1 = s.trie.numNodes)
  let c3 := !s.isEmpty
  let c4 := (s.contains (.prefix (p6 "10::/112")))
  let c5 := (s.contains (.address (a6 "10::1")))
  let c6 := !(s.contains (.address (a6 "8:8:8:8:8:8:8:8")))
  let c7 := !(s.contains (.address (a6 "9:9:9:9:9:9:9:9")))
  let c8 := s.isValid
  c0 && c1 && c2 && c3 && c4 && c5 && c6 && c7 && c8) = true := by decide +kernel

/-- /repo/ipv6/set_test.go:572-585 `TestOldSetUnion`, 4 assertions -/
example : (
  let set1 := (IPSet.empty : IPSet U128)
  let set2 := (IPSet.empty : IPSet U128)
  let set1 := set1.union (.prefix (p6 "10::/112"))
  let cidr := (p6 "2001::248/125")
  let set2 := set2.union (.prefix cidr)
  let set := (set1.union (.set set2))
  let c0 := (set.contains (.prefix (p6 "10::/112")))
  let c1 := (set.contains (.prefix cidr))
  let c2 := set1.isValid
  let c3 := set2.isValid
  c0 && c1 && c2 && c3) = true := by decide +kernel

/-- /repo/ipv6/set_test.go:587-600 `TestOldSetDifference`, 4 assertions -/
example : (
  let set1 := (IPSet.empty : IPSet U128)
  let set2 := (IPSet.empty : IPSet U128)
  let set1 := set1.union (.prefix (p6 "10::/112"))
  let cidr := (p6 "2001::248/125")
  let set2 := set2.union (.prefix cidr)
  let set := (set1.difference (.set set2))
  let c0 := (set.contains (.prefix (p6 "10::/112")))
  let c1 := !(set.contains (.prefix cidr))
  let c2 := set1.isValid
  let c3 := set2.isValid
  c0 && c1 && c2 && c3) = true := by decide +kernel

/-- /repo/ipv6/set_test.go:690-702 `TestOldEqualTrivial`, 7 assertions -/
example : (
  let a := (IPSet.empty : IPSet U128)
  let b := (IPSet.empty : IPSet U128)
  let c0 := (a.equal b)
  let a := a.union (.prefix (p6 "10::/112"))
  let c1 := !(a.equal b)
  let c2 := !(b.equal a)
  let c3 := (a.equal a)
  let c4 := (b.equal b)
  let c5 := a.isValid
  let c6 := b.isValid
  c0 && c1 && c2 && c3 && c4 && c5 && c6) = true := by decide +kernel

/-- /repo/ipv6/set_test.go:704-714 `TestOldEqualSingleNode`, 4 assertions -/
example : (
  let a := (IPSet.empty : IPSet U128)
  let b := (IPSet.empty : IPSet U128)
  let a := a.union (.prefix (p6 "10::/112"))
  let b := b.union (.prefix (p6 "10::/112"))
  let c0 := (a.equal b)
  let c1 := (b.equal a)
  let c2 := a.isValid
  let c3 := b.isValid
  c0 && c1 && c2 && c3) = true := by decide +kernel

/-- /repo/ipv6/setnode_test.go:304-353 `TestSetRemove`, 10 assertions -/
example : (
  let trie := (Trie.nil : SetNode U128)
  let c0 := (SetNode.isEmpty trie)
  let trie := ((SetNode.removeKey (p6 "2001::1234:0/112") trie).getD .nil)
  let c1 := (SetNode.isEmpty trie)
  let trie := (Trie.nil : SetNode U128)
  let prefix_ := (p6 "2001::1234:0/112")
  let trie := ((SetNode.insertKey prefix_ trie).getD .nil)
  let c2 := !(SetNode.isEmpty trie)
  let trie := ((SetNode.removeKey prefix_ trie).getD .nil)
  let c3 := (SetNode.isEmpty trie)
  let trie := (Trie.nil : SetNode U128)
  let prefix_ := (p6 "2001::1234:0/112")
  let trie := ((SetNode.insertKey prefix_ trie).getD .nil)
  let c4 := !(SetNode.isEmpty trie)
  let trie := ((SetNode.removeKey (p6 "2001::1234:233/128") trie).getD .nil)
  let c5 := !(SetNode.isEmpty trie)
  let trie := (Trie.nil : SetNode U128)
  let prefix_ := (p6 "2001::1234:0/112")
  let trie := ((SetNode.insertKey prefix_ trie).getD .nil)
  let c6 := !(SetNode.isEmpty trie)
  let trie := ((SetNode.removeKey (p6 "2001::1234:8000/113") trie).getD .nil)
  let c7 := !(SetNode.isEmpty trie)
  let trie := (Trie.nil : SetNode U128)
  let prefix_ := (p6 "2001::1234:0/112")
  let trie := ((SetNode.insertKey prefix_ trie).getD .nil)
  let c8 := !(SetNode.isEmpty trie)
  let trie := ((SetNode.removeKey (p6 "2001::1233:0/111") trie).getD .nil)
  let c9 := !(SetNode.isEmpty trie)
  c0 && c1 && c2 && c3 && c4 && c5 && c6 && c7 && c8 && c9) = true := by decide +kernel

/-- /repo/ipv6/setnode_test.go:355-406 `TestSetIntersect`, 20 assertions -/
example : (
  let one := (Trie.nil : SetNode U128)
  let two := (Trie.nil : SetNode U128)
  let three := (Trie.nil : SetNode U128)
  let three := ((SetNode.insertKey (p6 "2001::1234:0/112") three).getD .nil)
  let c0 := (SetNode.isEmpty one)
  let c1 := (SetNode.isEmpty two)
  let c2 := !(SetNode.isEmpty three)
  let c3 := (SetNode.isEmpty (SetNode.intersect one two))
  let c4 := (SetNode.isEmpty (SetNode.intersect one three))
  let c5 := (SetNode.isEmpty (SetNode.intersect three one))
  let one := (Trie.nil : SetNode U128)
  let two := (Trie.nil : SetNode U128)
  let one := ((SetNode.insertKey (p6 "2001::1234:0/115") one).getD .nil)
  let two := ((SetNode.insertKey (p6 "2001::1234:8000/113") two).getD .nil)
  let c6 := (SetNode.isEmpty (SetNode.intersect one two))
  let c7 := (SetNode.isEmpty (SetNode.intersect two one))
  let one := (Trie.nil : SetNode U128)
  let two := (Trie.nil : SetNode U128)
  let one := ((SetNode.insertKey (p6 "2001::1234:0/112") one).getD .nil)
  let two := ((SetNode.insertKey (p6 "2001::1234:8000/113") two).getD .nil)
  let result := (SetNode.intersect one two)
  let c8 := !(SetNode.isEmpty result)
  let c9 := !(SetNode.isEmpty (SetNode.intersect two one))
  let c10 := (Trie.match (p6 "2001::1234:7100/128") result).isNone
  let c11 := (Trie.match (p6 "2001::1234:8100/128") result).isSome
  let one := (Trie.nil : SetNode U128)
  let two := (Trie.nil : SetNode U128)
  let one := ((SetNode.insertKey (p6 "198:51::100:0/112") one).getD .nil)
  let one := ((SetNode.insertKey (p6 "2001::1234:0/112") one).getD .nil)
  let two := ((SetNode.insertKey (p6 "2001::1234:8000/113") two).getD .nil)
  let result := (SetNode.intersect one two)
  let c12 := !(SetNode.isEmpty result)
  let c13 := (Trie.match (p6 "198:51::100:0/112") result).isNone
  let c14 := (Trie.match (p6 "2001::1234:0/113") result).isNone
  let c15 := (Trie.match (p6 "2001::1234:8000/113") result).isSome
  let result := (SetNode.intersect two one)
  let c16 := !(SetNode.isEmpty result)
  let c17 := (Trie.match (p6 "198:51::100:0/112") result).isNone
  let c18 := (Trie.match (p6 "2001::1234:0/113") result).isNone
  let c19 := (Trie.match (p6 "2001::1234:8000/113") result).isSome
  c0 && c1 && c2 && c3 && c4 && c5 && c6 && c7 && c8 && c9 && c10 && c11 && c12 && c13 && c14 && c15 && c16 && c17 && c18 && c19) = true := by decide +kernel

/-- /repo/ipv6/setnode_test.go:408-497 `TestSetDifference`, 33 assertions -/
example : (
  let one := (Trie.nil : SetNode U128)
  let two := (Trie.nil : SetNode U128)
  let three := (Trie.nil : SetNode U128)
  let three := ((SetNode.insertKey (p6 "2001::1234:0/112") three).getD .nil)
  let c0 := (SetNode.isEmpty one)
  let c1 := (SetNode.isEmpty two)
  let c2 := !(SetNode.isEmpty three)
  let c3 := (SetNode.isEmpty (SetNode.difference one two))
  let c4 := (SetNode.isEmpty (SetNode.difference one three))
  let c5 := !(SetNode.isEmpty (SetNode.difference three one))
  let one := (Trie.nil : SetNode U128)
  let two := (Trie.nil : SetNode U128)
  let one := ((SetNode.insertKey (p6 "2001::1234:0/115") one).getD .nil)
  let two := ((SetNode.insertKey (p6 "2001::1234:8000/113") two).getD .nil)
  let result := (SetNode.difference one two)
  let c6 := !(SetNode.isEmpty result)
  let c7 := (Trie.match (p6 "2001::1234:0/115") result).isSome
  let c8 := (Trie.match (p6 "2001::1234:8000/113") result).isNone
  let result := (SetNode.difference two one)
  let c9 := !(SetNode.isEmpty result)
  let c10 := (Trie.match (p6 "2001::1234:0/115") result).isNone
  let c11 := (Trie.match (p6 "2001::1234:8000/113") result).isSome
  let one := (Trie.nil : SetNode U128)
  let two := (Trie.nil : SetNode U128)
  let one := ((SetNode.insertKey (p6 "2001::1234:0/112") one).getD .nil)
  let two := ((SetNode.insertKey (p6 "2001::1234:8000/113") two).getD .nil)
  let result := (SetNode.difference one two)
  let c12 := !(SetNode.isEmpty result)
  let c13 := (Trie.match (p6 "2001::1234:7100/128") result).isSome
  let c14 := (Trie.match (p6 "2001::1234:8100/128") result).isNone
  let c15 := (SetNode.isEmpty (SetNode.difference two one))
  let one := (Trie.nil : SetNode U128)
  let two := (Trie.nil : SetNode U128)
  let one := ((SetNode.insertKey (p6 "198:51::100:0/112") one).getD .nil)
  let one := ((SetNode.insertKey (p6 "2001::1234:0/112") one).getD .nil)
  let two := ((SetNode.insertKey (p6 "2001::1234:8000/113") two).getD .nil)
  let result := (SetNode.difference one two)
  let c16 := !(SetNode.isEmpty result)
  let c17 := (Trie.match (p6 "198:51::100:0/112") result).isSome
  let c18 := (Trie.match (p6 "2001::1234:0/113") result).isSome
  let c19 := (Trie.match (p6 "2001::1234:8000/113") result).isNone
  let result := (SetNode.difference two one)
  let c20 := (SetNode.isEmpty result)
  let c21 := (Trie.match (p6 "198:51::100:0/112") result).isNone
  let c22 := (Trie.match (p6 "2001::1234:0/113") result).isNone
  let c23 := (Trie.match (p6 "2001::1234:8000/113") result).isNone
  let one := (Trie.nil : SetNode U128)
  let two := (Trie.nil : SetNode U128)
  let one := ((SetNode.insertKey (p6 "198:51::100:0/112") one).getD .nil)
  let one := ((SetNode.insertKey (p6 "2001::1234:0/112") one).getD .nil)
  let two := ((SetNode.insertKey (p6 "192::2:0/112") two).getD .nil)
  let result := (SetNode.difference one two)
  let c24 := !(SetNode.isEmpty result)
  let c25 := (Trie.match (p6 "198:51::100:0/112") result).isSome
  let c26 := (Trie.match (p6 "2001::1234:0/112") result).isSome
  let c27 := (Trie.match (p6 "192::2:0/112") result).isNone
  let one := (Trie.nil : SetNode U128)
  let two := (Trie.nil : SetNode U128)
  let one := ((SetNode.insertKey (p6 "2192::/8") one).getD .nil)
  let two := ((SetNode.insertKey (p6 "2198:51::100:0/112") two).getD .nil)
  let two := ((SetNode.insertKey (p6 "2001::1234:0/112") two).getD .nil)
  let result := (SetNode.difference one two)
  let c28 := !(SetNode.isEmpty result)
  let c29 := (Trie.match (p6 "2198:51::100:0/112") result).isNone
  let c30 := (Trie.match (p6 "2001::1234:0/112") result).isNone
  let c31 := (Trie.match (p6 "2197:51::100:8000/113") result).isSome
  let c32 := (Trie.match (p6 "2100::1234:8000/113") result).isSome
  c0 && c1 && c2 && c3 && c4 && c5 && c6 && c7 && c8 && c9 && c10 && c11 && c12 && c13 && c14 && c15 && c16 && c17 && c18 && c19 && c20 && c21 && c22 && c23 && c24 && c25 && c26 && c27 && c28 && c29 && c30 && c31 && c32) = true := by decide +kernel

/-- /repo/ipv6/table_test.go:13-22 `TestTableTInsertOrUpdate`, 3 assertions -/
example : (
  let m := (Table.new_ : Table U128 Nat)
  let res := m.insert (.address (a6 "2001::")) 0
  let m := res.1
  let m := m.insertOrUpdate (.address (a6 "2001::")) 3
  let c0 := decide (1 = m.numEntries)
  let res := m.get (.address (a6 "2001::"))
  let data := res.1
  let ok := res.2
  let c1 := ok
  let c2 := decide (3 = data)
  c0 && c1 && c2) = true := by decide +kernel

/-- /repo/ipv6/table_test.go:24-37 `TestTableTInsertOrUpdateDuplicate`, 6 assertions -/
example : (
  let m := (Table.new_ : Table U128 Nat)
  let m := m.insertOrUpdate (.address (a6 "2001::")) 3
  let c0 := decide (1 = m.numEntries)
  let res := m.get (.address (a6 "2001::"))
  let data := res.1
  let ok := res.2
  let c1 := ok
  let c2 := decide (3 = data)
  let m := m.insertOrUpdate (.address (a6 "2001::")) 4
  let c3 := decide (1 = m.numEntries)
  let res := m.get (.address (a6 "2001::"))
  let data := res.1
  let ok := res.2
  let c4 := ok
  let c5 := decide (4 = data)
  c0 && c1 && c2 && c3 && c4 && c5) = true := by decide +kernel

/-- /repo/ipv6/table_test.go:39-46 `TestTableTGetOnlyExactMatch`, 2 assertions -/
example : (
  let m := (Table.new_ : Table U128 Nat)
  let res := m.insert (.prefix (p6 "2001::/112")) 3
  let m := res.1
  let c0 := decide (1 = m.numEntries)
  let res := m.get (.address (a6 "2001::1"))
  let ok := res.2
  let c1 := !ok
  c0 && c1) = true := by decide +kernel

/-- /repo/ipv6/table_test.go:48-56 `TestTableTGetNotFound`, 3 assertions -/
example : (
  let m := (Table.new_ : Table U128 Nat)
  let res := m.insert (.address (a6 "2001::1")) 3
  let m := res.1
  let succeeded := res.2
  let c0 := succeeded
  let c1 := decide (1 = m.numEntries)
  let res := m.get (.address (a6 "2001:0:1::1"))
  let ok := res.2
  let c2 := !ok
  c0 && c1 && c2) = true := by decide +kernel

/-- /repo/ipv6/table_test.go:58-66 `TestTableTGetOrInsertOnlyExactMatch`, 3 assertions -/
example : (
  let m := (Table.new_ : Table U128 Nat)
  let res := m.insert (.prefix (p6 "2001::/112")) 3
  let m := res.1
  let c0 := decide (1 = m.numEntries)
  let res := m.getOrInsert (.address (a6 "2001::1")) 5
  let m := res.1
  let value := res.2
  let c1 := decide (5 = value)
  let c2 := decide (2 = m.numEntries)
  c0 && c1 && c2) = true := by decide +kernel

/-- /repo/ipv6/table_test.go:68-76 `TestTableTGetOrInsertNotFound`, 3 assertions -/
example : (
  let m := (Table.new_ : Table U128 Nat)
  let res := m.insert (.address (a6 "2001::1")) 3
  let m := res.1
  let succeeded := res.2
  let c0 := succeeded
  let res := m.getOrInsert (.address (a6 "2001:0:1::1")) 5
  let m := res.1
  let value := res.2
  let c1 := decide (5 = value)
  let c2 := decide (2 = m.numEntries)
  c0 && c1 && c2) = true := by decide +kernel

/-- /repo/ipv6/table_test.go:78-86 `TestTableTGetOrInsertPrefixOnlyExactMatch`, 3 assertions -/
example : (
  let m := (Table.new_ : Table U128 Nat)
  let res := m.insert (.prefix (p6 "2001::/112")) 3
  let m := res.1
  let c0 := decide (1 = m.numEntries)
  let res := m.getOrInsert (.prefix (p6 "2001::2/127")) 5
  let m := res.1
  let value := res.2
  let c1 := decide (5 = value)
  let c2 := decide (2 = m.numEntries)
  c0 && c1 && c2) = true := by decide +kernel

/-- /repo/ipv6/table_test.go:88-96 `TestTableTGetOrInsertPrefixNotFound`, 3 assertions -/
example : (
  let m := (Table.new_ : Table U128 Nat)
  let res := m.insert (.address (a6 "2001::1")) 3
  let m := res.1
  let succeeded := res.2
  let c0 := succeeded
  let res := m.getOrInsert (.prefix (p6 "2001:0:1::2/127")) 5
  let m := res.1
  let value := res.2
  let c1 := decide (5 = value)
  let c2 := decide (2 = m.numEntries)
  c0 && c1 && c2) = true := by decide +kernel

/-- /repo/ipv6/table_test.go:98-109 `TestTableTMatchLongestPrefixMatch`, 5 assertions -/
example : (
  let m := (Table.new_ : Table U128 Nat)
  let res := m.insert (.prefix (p6 "2001::/112")) 3
  let m := res.1
  let c0 := decide (1 = m.numEntries)
  let res := m.insert (.prefix (p6 "2001::/96")) 4
  let m := res.1
  let c1 := decide (2 = m.numEntries)
  let res := m.longestMatch (.address (a6 "2001::1"))
  let data := res.1
  let matched := res.2.1
  let n := res.2.2
  let c2 := matched
  let c3 := decide ((p6 "2001::/112") = n)
  let c4 := decide (3 = data)
  c0 && c1 && c2 && c3 && c4) = true := by decide +kernel

/-- /repo/ipv6/table_test.go:111-119 `TestMTableatchNotFound`, 3 assertions -/
example : (
  let m := (Table.new_ : Table U128 Nat)
  let res := m.insert (.address (a6 "2001::1")) 3
  let m := res.1
  let succeeded := res.2
  let c0 := succeeded
  let c1 := decide (1 = m.numEntries)
  let res := m.longestMatch (.address (a6 "2001:0:1::1"))
  let matched := res.2.1
  let c2 := !matched
  c0 && c1 && c2) = true := by decide +kernel

/-- /repo/ipv6/table_test.go:121-129 `TestTableTRemove`, 3 assertions -/
example : (
  let m := (Table.new_ : Table U128 Nat)
  let res := m.insert (.address (a6 "2001::1")) 3
  let m := res.1
  let succeeded := res.2
  let c0 := succeeded
  let c1 := decide (1 = m.numEntries)
  let res := m.remove (.address (a6 "2001::1"))
  let m := res.1
  let c2 := decide (0 = m.numEntries)
  c0 && c1 && c2) = true := by decide +kernel

/-- /repo/ipv6/table_test.go:131-139 `TestTableTRemoveNotFound`, 3 assertions -/
example : (
  let m := (Table.new_ : Table U128 Nat)
  let res := m.insert (.address (a6 "2001::1")) 3
  let m := res.1
  let succeeded := res.2
  let c0 := succeeded
  let c1 := decide (1 = m.numEntries)
  let res := m.remove (.address (a6 "2001:0:1::1"))
  let m := res.1
  let c2 := decide (1 = m.numEntries)
  c0 && c1 && c2) = true := by decide +kernel

/-- /repo/ipv6/table_test.go:141-153 `TestTableTInsert`, 5 assertions -/
example : (
  let m := (Table.new_ : Table U128 Nat)
  let res := m.insert (.prefix (p6 "2001::/112")) 3
  let m := res.1
  let succeeded := res.2
  let c0 := succeeded
  let c1 := decide (1 = m.numEntries)
  let res := m.get (.prefix (p6 "2001::/112"))
  let data := res.1
  let ok := res.2
  let c2 := ok
  let c3 := decide (3 = data)
  let res := m.get (.prefix (p6 "2001:0:1::/112"))
  let ok := res.2
  let c4 := !ok
  c0 && c1 && c2 && c3 && c4) = true := by decide +kernel

/-- /repo/ipv6/table_test.go:155-167 `TestTableTInsertOrUpdatePrefix`, 4 assertions -/
example : (
  let m := (Table.new_ : Table U128 Nat)
  let res := m.insert (.prefix (p6 "2001::/112")) 0
  let m := res.1
  let m := m.insertOrUpdate (.prefix (p6 "2001::/112")) 3
  let c0 := decide (1 = m.numEntries)
  let res := m.get (.prefix (p6 "2001::/112"))
  let data := res.1
  let ok := res.2
  let c1 := ok
  let c2 := decide (3 = data)
  let res := m.get (.prefix (p6 "2001:0:1::/112"))
  let ok := res.2
  let c3 := !ok
  c0 && c1 && c2 && c3) = true := by decide +kernel

/-- /repo/ipv6/table_test.go:169-177 `TestTableTRemovePrefixNotFound`, 3 assertions -/
example : (
  let m := (Table.new_ : Table U128 Nat)
  let res := m.insert (.prefix (p6 "2001::/112")) 3
  let m := res.1
  let succeeded := res.2
  let c0 := succeeded
  let c1 := decide (1 = m.numEntries)
  let res := m.remove (.prefix (p6 "2001:0:1::/112"))
  let m := res.1
  let c2 := decide (1 = m.numEntries)
  c0 && c1 && c2) = true := by decide +kernel

/-- /repo/ipv6/table_test.go:179-192 `TestTableTMatchPrefixLongestPrefixMatch`, 6 assertions -/
example : (
  let m := (Table.new_ : Table U128 Nat)
  let res := m.insert (.prefix (p6 "2001::/112")) 3
  let m := res.1
  let c0 := decide (1 = m.numEntries)
  let res := m.insert (.prefix (p6 "2001::/96")) 4
  let m := res.1
  let c1 := decide (2 = m.numEntries)
  let prefix_ := (p6 "2001::/118")
  let res := m.longestMatch (.prefix prefix_)
  let data := res.1
  let matched := res.2.1
  let n := res.2.2
  let c2 := decide (prefix_ ≠ n)
  let c3 := matched
  let c4 := decide (3 = data)
  let c5 := decide ((p6 "2001::/112") = n)
  c0 && c1 && c2 && c3 && c4 && c5) = true := by decide +kernel

/-- /repo/ipv6/table_test.go:194-201 `TestTableTMatchPrefixNotFound`, 2 assertions -/
example : (
  let m := (Table.new_ : Table U128 Nat)
  let res := m.insert (.prefix (p6 "2001::/112")) 3
  let m := res.1
  let c0 := decide (1 = m.numEntries)
  let res := m.longestMatch (.prefix (p6 "2001:0:1::/112"))
  let matched := res.2.1
  let c1 := !matched
  c0 && c1) = true := by decide +kernel

/-- /repo/ipv6/table_test.go:368-377 `TestTableTnsert`, 4 assertions -/
example : (
  let m := (Table.new_ : Table U128 Bool)
  let c0 := decide (0 = m.trie.numNodes)
  let key := (⟨(⟨8193#64, 1572864#64⟩ : U128), 112⟩ : Prefix U128)
  let res := m.insert (.prefix key) true
  let m := res.1
  let succeeded := res.2
  let c1 := succeeded
  let c2 := decide (1 = m.trie.numNodes)
  let c3 := m.trie.isValid
  c0 && c1 && c2 && c3) = true := by decide +kernel

/-- /repo/ipv6/table_test.go:379-400 `TestTableTnsertOrUpdate`, 12 assertions -/
example : (
  let m := (Table.new_ : Table U128 Bool)
  let c0 := decide (0 = m.trie.numNodes)
  let key := (⟨(⟨8193#64, 1572864#64⟩ : U128), 112⟩ : Prefix U128)
  let m := m.insertOrUpdate (.prefix key) true
  let c1 := decide (1 = m.trie.numNodes)
  let res := m.longestMatch (.prefix key)
  let value := res.1
  let match_ := res.2.1
  let matchedKey := res.2.2
  let c2 := decide (key = matchedKey)
  let c3 := match_
  let c4 := decide (key = matchedKey)
  let c5 := value
  let m := m.insertOrUpdate (.prefix key) false
  let c6 := decide (1 = m.trie.numNodes)
  let res := m.longestMatch (.prefix key)
  let value := res.1
  let match_ := res.2.1
  let matchedKey := res.2.2
  let c7 := decide (key = matchedKey)
  let c8 := match_
  let c9 := decide (key = matchedKey)
  let c10 := !value
  let c11 := m.trie.isValid
  c0 && c1 && c2 && c3 && c4 && c5 && c6 && c7 && c8 && c9 && c10 && c11) = true := by decide +kernel

/-- /repo/ipv6/table_test.go:402-427 `TestTableTUpdate`, 14 assertions -/
example : (
  let m := (Table.new_ : Table U128 Bool)
  let c0 := decide (0 = m.trie.numNodes)
  let key := (⟨(⟨8193#64, 1572864#64⟩ : U128), 112⟩ : Prefix U128)
  let res := m.insert (.prefix key) false
  let m := res.1
  let res := m.update (.prefix key) true
  let m := res.1
  let succeeded := res.2
  let c1 := succeeded
  let c2 := decide (1 = m.trie.numNodes)
  let res := m.longestMatch (.prefix key)
  let value := res.1
  let match_ := res.2.1
  let matchedKey := res.2.2
  let c3 := decide (key = matchedKey)
  let c4 := match_
  let c5 := decide (key = matchedKey)
  let c6 := value
  let res := m.update (.prefix key) false
  let m := res.1
  let succeeded := res.2
  let c7 := succeeded
  let c8 := decide (1 = m.trie.numNodes)
  let res := m.longestMatch (.prefix key)
  let value := res.1
  let match_ := res.2.1
  let matchedKey := res.2.2
  let c9 := decide (key = matchedKey)
  let c10 := match_
  let c11 := decide (key = matchedKey)
  let c12 := !value
  let c13 := m.trie.isValid
  c0 && c1 && c2 && c3 && c4 && c5 && c6 && c7 && c8 && c9 && c10 && c11 && c12 && c13) = true := by decide +kernel

/-- /repo/ipv6/table_test.go:429-438 `TestTableTGetOrInsert`, 4 assertions -/
example : (
  let m := (Table.new_ : Table U128 Bool)
  let c0 := decide (0 = m.trie.numNodes)
  let key := (⟨(⟨8193#64, 1572864#64⟩ : U128), 112⟩ : Prefix U128)
  let res := m.getOrInsert (.prefix key) true
  let m := res.1
  let value := res.2
  let c1 := value
  let c2 := decide (1 = m.trie.numNodes)
  let c3 := m.trie.isValid
  c0 && c1 && c2 && c3) = true := by decide +kernel

/-- /repo/ipv6/table_test.go:440-471 `TestTableTMatch`, 12 assertions -/
example : (
  let m := (Table.new_ : Table U128 Bool)
  let insertKey := (⟨(⟨8193#64, 1572864#64⟩ : U128), 112⟩ : Prefix U128)
  let res := m.insert (.prefix insertKey) true
  let m := res.1
  let res := m.longestMatch (.prefix (⟨(⟨8193#64, 1048576#64⟩ : U128), 112⟩ : Prefix U128))
  let found := res.2.1
  let c0 := !found
  let c1 := m.trie.isValid
  let prefix_ := (⟨(⟨8193#64, 1572864#64⟩ : U128), 112⟩ : Prefix U128)
  let res := m.longestMatch (.prefix prefix_)
  let value := res.1
  let found := res.2.1
  let key := res.2.2
  let c2 := decide (prefix_ = key)
  let c3 := found
  let c4 := decide (insertKey = key)
  let c5 := value
  let c6 := m.trie.isValid
  let prefix_ := (⟨(⟨8193#64, 1572887#64⟩ : U128), 128⟩ : Prefix U128)
  let res := m.longestMatch (.prefix prefix_)
  let value := res.1
  let found := res.2.1
  let key := res.2.2
  let c7 := decide (prefix_ ≠ key)
  let c8 := found
  let c9 := decide (insertKey = key)
  let c10 := value
  let c11 := m.trie.isValid
  c0 && c1 && c2 && c3 && c4 && c5 && c6 && c7 && c8 && c9 && c10 && c11) = true := by decide +kernel

/-- /repo/ipv6/table_test.go:473-512 `TestTableTRemovePrefix`, 9 assertions -/
example : (
  let m := (Table.new_ : Table U128 Bool)
  let insertKey := (⟨(⟨8193#64, 1572864#64⟩ : U128), 112⟩ : Prefix U128)
  let res := m.insert (.prefix insertKey) true
  let m := res.1
  let key := (⟨(⟨8193#64, 1572864#64⟩ : U128), 112⟩ : Prefix U128)
  let res := m.remove (.prefix key)
  let m := res.1
  let succeeded := res.2
  let c0 := succeeded
  let c1 := decide (0 = m.trie.numNodes)
  let c2 := m.trie.isValid
  let m := (Table.new_ : Table U128 Bool)
  let insertKey := (⟨(⟨8193#64, 1572864#64⟩ : U128), 112⟩ : Prefix U128)
  let res := m.insert (.prefix insertKey) true
  let m := res.1
  let key := (⟨(⟨8193#64, 1048576#64⟩ : U128), 112⟩ : Prefix U128)
  let res := m.remove (.prefix key)
  let m := res.1
  let succeeded := res.2
  let c3 := !succeeded
  let c4 := decide (1 = m.trie.numNodes)
  let c5 := m.trie.isValid
  let m := (Table.new_ : Table U128 Bool)
  let insertKey := (⟨(⟨8193#64, 1572864#64⟩ : U128), 112⟩ : Prefix U128)
  let res := m.insert (.prefix insertKey) true
  let m := res.1
  let key := (⟨(⟨8193#64, 1572887#64⟩ : U128), 128⟩ : Prefix U128)
  let res := m.remove (.prefix key)
  let m := res.1
  let succeeded := res.2
  let c6 := !succeeded
  let c7 := decide (1 = m.trie.numNodes)
  let c8 := m.trie.isValid
  c0 && c1 && c2 && c3 && c4 && c5 && c6 && c7 && c8) = true := by decide +kernel

/-- /repo/ipv6/table_test.go:679-687 `TestTableInsertNil`, 4 assertions -/
example : (
  let m := (Table.new_ : Table U128 Nat)
  let res := m.insert .nil 3
  let m := res.1
  let succeeded := res.2
  let c0 := succeeded
  let c1 := decide (1 = m.numEntries)
  let res := m.get (.prefix (p6 "::/0"))
  let value := res.1
  let found := res.2
  let c2 := found
  let c3 := decide (3 = value)
  c0 && c1 && c2 && c3) = true := by decide +kernel

/-- /repo/ipv6/table_test.go:689-699 `TestTableUpdateNil`, 4 assertions -/
example : (
  let m := (Table.new_ : Table U128 Nat)
  let res := m.insert .nil 10
  let m := res.1
  let res := m.update .nil 3
  let m := res.1
  let succeeded := res.2
  let c0 := succeeded
  let c1 := decide (1 = m.numEntries)
  let res := m.get (.prefix (p6 "::/0"))
  let value := res.1
  let found := res.2
  let c2 := found
  let c3 := decide (3 = value)
  c0 && c1 && c2 && c3) = true := by decide +kernel

/-- /repo/ipv6/table_test.go:701-710 `TestTableRemoveNil`, 2 assertions -/
example : (
  let m := (Table.new_ : Table U128 Nat)
  let res := m.insert (.prefix (p6 "::/0")) 10
  let m := res.1
  let res := m.remove .nil
  let m := res.1
  let succeeded := res.2
  let c0 := succeeded
  let res := m.get (.prefix (p6 "::/0"))
  let found := res.2
  let c1 := !found
  c0 && c1) = true := by decide +kernel

/-- /repo/ipv6/table_test.go:712-721 `TestTableLongestMatch`, 4 assertions -/
example : (
  let m := (Table.new_ : Table U128 Nat)
  let res := m.insert (.prefix (p6 "::/0")) 10
  let m := res.1
  let res := m.longestMatch .nil
  let value := res.1
  let matched := res.2.1
  let prefix_ := res.2.2
  let c0 := decide (10 = value)
  let c1 := decide (prefix_ = (⟨⟨0#64, 0#64⟩, 0⟩ : Prefix U128))
  let c2 := matched
  let c3 := decide ((p6 "::/0") = prefix_)
  c0 && c1 && c2 && c3) = true := by decide +kernel

/-- /repo/ipv6/table_test.go:723-731 `TestTableInsertOrUpdateNil`, 3 assertions -/
example : (
  let m := (Table.new_ : Table U128 Nat)
  let m := m.insertOrUpdate .nil 3
  let c0 := decide (1 = m.numEntries)
  let res := m.get (.prefix (p6 "::/0"))
  let value := res.1
  let found := res.2
  let c1 := found
  let c2 := decide (3 = value)
  c0 && c1 && c2) = true := by decide +kernel

/-- /repo/ipv6/table_test.go:733-741 `TestTableGetOrInsertNil`, 3 assertions -/
example : (
  let m := (Table.new_ : Table U128 Nat)
  let res := m.getOrInsert .nil 11
  let m := res.1
  let result := res.2
  let c0 := decide (11 = result)
  let res := m.get (.prefix (p6 "::/0"))
  let value := res.1
  let found := res.2
  let c1 := found
  let c2 := decide (11 = value)
  c0 && c1 && c2) = true := by decide +kernel

/-- /repo/ipv6/table_test.go:807-854 `TestFixedTableT`, 19 assertions -/
example : (
  let addrOne := (a6 "2001::1")
  let addrTwo := (a6 "2001::2")
  let addrThree := (a6 "2001::3")
  let m := (Table.new_ : Table U128 Nat)
  let res := m.insert (.address addrOne) 1
  let m := res.1
  let succeeded := res.2
  let c0 := succeeded
  let im := m
  let res := m.insert (.address addrTwo) 2
  let m := res.1
  let succeeded := res.2
  let c1 := succeeded
  let m2 := im
  let res := m2.insert (.address addrThree) 3
  let m2 := res.1
  let succeeded := res.2
  let c2 := succeeded
  let res := m.get (.address addrOne)
  let value := res.1
  let found := res.2
  let c3 := found
  let c4 := decide (1 = value)
  let res := m.get (.address addrTwo)
  let value := res.1
  let found := res.2
  let c5 := found
  let c6 := decide (2 = value)
  let res := m.get (.address addrThree)
  let found := res.2
  let c7 := !found
  let c8 := decide (1 = im.numEntries)
  let res := im.get (.address addrOne)
  let value := res.1
  let found := res.2
  let c9 := found
  let c10 := decide (1 = value)
  let res := im.get (.address addrTwo)
  let found := res.2
  let c11 := !found
  let res := im.get (.address addrThree)
  let found := res.2
  let c12 := !found
  let c13 := decide (2 = m2.numEntries)
  let res := m2.get (.address addrOne)
  let value := res.1
  let found := res.2
  let c14 := found
  let c15 := decide (1 = value)
  let res := m2.get (.address addrTwo)
  let found := res.2
  let c16 := !found
  let res := m2.get (.address addrThree)
  let value := res.1
  let found := res.2
  let c17 := found
  let c18 := decide (3 = value)
  c0 && c1 && c2 && c3 && c4 && c5 && c6 && c7 && c8 && c9 && c10 && c11 && c12 && c13 && c14 && c15 && c16 && c17 && c18) = true := by decide +kernel

/-- /repo/ipv6/set_test.go:602-608 `TestOldIntersectionAinB1` -/
example : intersection6 (["10::16:0/104", "10::5:8:0/112", "10::23:224:0/110"], ["10::20:0/124", "10::5:8:0/122", "10::23:224:0/118"], ["10::23:224:0/118", "10::20:0/124", "10::5:8:0/122"]) = true := by decide +kernel

/-- /repo/ipv6/set_test.go:610-615 `TestOldIntersectionAinB2` -/
example : intersection6 (["10::10:0:0/124", "10::5:8:0/122", "10::23:224:0/118"], ["10::10:0:0/104", "10::5:8:0/112", "10::23:224:0/110"], ["10::10:0:0/124", "10::5:8:0/122", "10::23:224:0/118"]) = true := by decide +kernel

/-- /repo/ipv6/set_test.go:617-622 `TestOldIntersectionAinB3` -/
example : intersection6 (["10::5:0/112", "10::5:8:0/122", "10::23:224:0/118"], ["10::6:0:0/112", "10::9:9:0/122", "10::23:6:0/110"], []) = true := by decide +kernel

/-- /repo/ipv6/set_test.go:624-629 `TestOldIntersectionAinB4` -/
example : intersection6 (["10::23:6:0/112", "10::5:8:0/122", "10::23:224:0/118"], ["10::6:0:0/112", "10::9:9:0/122", "10::23:6:0/122"], ["10::23:6:0/122"]) = true := by decide +kernel

/-- /repo/ipv6/set_test.go:631-636 `TestOldIntersectionAinB5` -/
example : intersection6 (["10::23:0/118", "10::20:0/118", "10::15:0/118"], ["10::23:0/112", "10::20:0/112", "10::15:0/112"], ["10::23:0/118", "10::20:0/118", "10::15:0/118"]) = true := by decide +kernel

/-- /repo/ipv6/set_test.go:638-643 `TestOldIntersectionAinB6` -/
example : intersection6 (["10::23:0/112", "10::20:0/112", "10::15:0/112"], ["10::23:0/118", "10::20:0/118", "10::15:0/118"], ["10::15:0/118", "10::20:0/118", "10::23:0/118"]) = true := by decide +kernel

/-- /repo/ipv6/set_test.go:645-650 `TestOldIntersectionAinB7` -/
example : intersection6 (["10::23:0/112", "10::20:0/112", "10::15:0/112"], ["10::14:0/118", "10::10:0/118", "10::8:0/118"], []) = true := by decide +kernel

/-- /repo/ipv6/set_test.go:652-657 `TestOldIntersectionAinB8` -/
example : intersection6 (["10::23:0/112", "10::20:0/112", "172::16:1:0/112"], ["10::14:0/118", "10::10:0/118", "172::16:1:0/120"], ["172::16:1:0/120"]) = true := by decide +kernel

/-- /repo/ipv6/set_test.go:659-664 `TestOldIntersectionAinB9` -/
example : intersection6 (["10::5:8:0/122"], ["10::10:0:0/104", "10::5:8:0/112", "10::23:224:0/110"], ["10::5:8:0/122"]) = true := by decide +kernel

/-- /repo/ipv6/table_test.go:203-236 `TestTableTExample1`, 2 rows -/
example : tableExample [(p6 "2001::2/127", true), (p6 "2001::1/128", true), (p6 "2001::/128", true)] [(p6 "2001::/128", true), (p6 "2001::1/128", true), (p6 "2001::2/127", true)] [(p6 "2001::/126", true)] = true := by decide +kernel

/-- /repo/ipv6/table_test.go:243-292 `TestTableTExample2`, 2 rows -/
example : tableExample [(p6 "2001::/126", true), (p6 "2001::/127", false), (p6 "2001::1/128", true), (p6 "2001::/128", false)] [(p6 "2001::/126", true), (p6 "2001::/127", false), (p6 "2001::/128", false), (p6 "2001::1/128", true)] [(p6 "2001::/126", true), (p6 "2001::/127", false), (p6 "2001::1/128", true)] = true := by decide +kernel

/-- /repo/ipv6/table_test.go:294-366 `TestTableTExample3`, 2 rows -/
example : tableExample [(p6 "172:21::/40", false), (p6 "192:68:27::/49", false), (p6 "192:168:26:8000::/49", false), (p6 "10:224:24::/64", false), (p6 "192:68:24::/48", false), (p6 "172:16::/24", false), (p6 "192:68:26::/48", false), (p6 "10:224:24::/60", false), (p6 "192:168:24::/48", false), (p6 "192:168:25::/48", false), (p6 "192:168:26::/49", false), (p6 "192:68:25::/48", false), (p6 "192:168:27::/48", false), (p6 "172:20:8000::/38", false), (p6 "192:68:27:8000::/49", false)] [(p6 "10:224:24::/60", false), (p6 "10:224:24::/64", false), (p6 "172:16::/24", false), (p6 "172:20:8000::/38", false), (p6 "172:21::/40", false), (p6 "192:68:24::/48", false), (p6 "192:68:25::/48", false), (p6 "192:68:26::/48", false), (p6 "192:68:27::/49", false), (p6 "192:68:27:8000::/49", false), (p6 "192:168:24::/48", false), (p6 "192:168:25::/48", false), (p6 "192:168:26::/49", false), (p6 "192:168:26:8000::/49", false), (p6 "192:168:27::/48", false)] [(p6 "10:224:24::/60", false), (p6 "172:16::/24", false), (p6 "192:68:24::/46", false), (p6 "192:168:24::/46", false)] = true := by decide +kernel

/-- /repo/ipv6/table_test.go:891-963 `TestTableVariousComparators`, 4 rows -/
example : comparators [(p6 "2001::1234:0/118", 0), (p6 "2001::1234:0/120", 0), (p6 "2001::1234:0/122", 1), (p6 "2001::1234:0/124", 2), (p6 "2001::1234:0/126", 3), (p6 "2001::1234:0/128", 4)]
  [(fun a b => decide (a = b), [p6 "2001::1234:0/118", p6 "2001::1234:0/122", p6 "2001::1234:0/124", p6 "2001::1234:0/126", p6 "2001::1234:0/128"]),
   (fun _ _ => false, [p6 "2001::1234:0/118", p6 "2001::1234:0/120", p6 "2001::1234:0/122", p6 "2001::1234:0/124", p6 "2001::1234:0/126", p6 "2001::1234:0/128"]),
   (fun a b => decide (a ≤ 2 ∧ b ≤ 2), [p6 "2001::1234:0/118", p6 "2001::1234:0/126", p6 "2001::1234:0/128"]),
   (fun a b => decide (a ≤ 3 ∧ b ≤ 3), [p6 "2001::1234:0/118", p6 "2001::1234:0/128"])] = true := by decide +kernel

/-- /repo/ipv6/set_test.go:820-875 `TestSetNumPrefixesStairs`, 19 rows -/
example : ([(48, 1), (49, 3), (50, 7), (51, 15), (52, 31), (53, 63), (54, 127), (55, 255), (56, 511), (57, 1023), (58, 2047), (59, 4095), (60, 8191), (61, 16383), (62, 32767), (63, 65535), (64, 131071), (65, 262142), (66, 524284)].all fun x => setNumPrefixes6 ([.prefix (p6 "2001:db8:0:0000::/48"), .prefix (p6 "2001:db8:1:0000::/49"), .prefix (p6 "2001:db8:1:8000::/50"), .prefix (p6 "2001:db8:1:c000::/51"), .prefix (p6 "2001:db8:1:e000::/52"), .prefix (p6 "2001:db8:1:f000::/53"), .prefix (p6 "2001:db8:1:f800::/54"), .prefix (p6 "2001:db8:1:fc00::/55"), .prefix (p6 "2001:db8:1:fe00::/56"), .prefix (p6 "2001:db8:1:ff00::/57"), .prefix (p6 "2001:db8:1:ff80::/58"), .prefix (p6 "2001:db8:1:ffc0::/59"), .prefix (p6 "2001:db8:1:ffe0::/60"), .prefix (p6 "2001:db8:1:fff0::/61"), .prefix (p6 "2001:db8:1:fff8::/62"), .prefix (p6 "2001:db8:1:fffc::/63"), .prefix (p6 "2001:db8:1:fffe::/64")], x.1, x.2, false)) = true := by decide +kernel

/-- /repo/ipv6/set_test.go:716-766 `TestOldEqualAllIPv6`, 1171 rows -/
example : equalAll (p6 "::/0")
  (p6 "::/128" :: (List.range 129).map fun i => ⟨(⟨0x8000000000000000, 0⟩ : U128).rightShift (128 - i), 129 - i⟩)
  (p6 "ffff:ffff:ffff:ffff:ffff:ffff:ffff:ffff/128" :: (List.range 128).map fun i => ⟨(⟨0xffffffffffffffff, 0xffffffffffffffff⟩ : U128).leftShift (i + 1), 128 - i⟩) = true := by decide +kernel

end RepoTest
end Addrs

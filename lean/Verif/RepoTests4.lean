import Verif.RepoTests
/-
  Written by tools/gotests.py from /repo/ipv4/*_test.go: checks of the model, see `Verif/RepoTests.lean`.
-/
set_option maxRecDepth 10000
namespace Addrs
namespace RepoTest
open GoWord

/-- /repo/ipv4/range_test.go:125-281 `TestRangeMinus`, 13 rows -/
example : ([
  ((p4 "10.224.24.0/22").range, (p4 "10.224.0.0/22").range, [(p4 "10.224.24.0/22").range], [(p4 "10.224.0.0/22").range]),
  ((⟨100#32, 200#32⟩ : Range (BitVec 32)), (⟨50#32, 150#32⟩ : Range (BitVec 32)), [(⟨151#32, 200#32⟩ : Range (BitVec 32))], [(⟨50#32, 99#32⟩ : Range (BitVec 32))]),
  ((p4 "10.224.27.0/24").range, (p4 "10.224.24.0/22").range, [], [(Range.fromAddresses (a4 "10.224.24.0") (a4 "10.224.26.255")).1]),
  ((⟨100#32, 200#32⟩ : Range (BitVec 32)), (⟨50#32, 250#32⟩ : Range (BitVec 32)), [], [(⟨50#32, 99#32⟩ : Range (BitVec 32)), (⟨201#32, 250#32⟩ : Range (BitVec 32))]),
  ((p4 "10.224.24.0/22").range, (p4 "10.224.24.0/24").range, [(Range.fromAddresses (a4 "10.224.25.0") (a4 "10.224.27.255")).1], []),
  ((p4 "10.224.24.0/22").range, (p4 "10.224.24.0/22").range, [], []),
  ((⟨100#32, 200#32⟩ : Range (BitVec 32)), (⟨110#32, 190#32⟩ : Range (BitVec 32)), [(⟨100#32, 109#32⟩ : Range (BitVec 32)), (⟨191#32, 200#32⟩ : Range (BitVec 32))], []),
  ((p4 "10.224.24.0/22").range, (p4 "10.224.27.0/24").range, [(Range.fromAddresses (a4 "10.224.24.0") (a4 "10.224.26.255")).1], []),
  ((⟨100#32, 200#32⟩ : Range (BitVec 32)), (⟨150#32, 250#32⟩ : Range (BitVec 32)), [(⟨100#32, 149#32⟩ : Range (BitVec 32))], [(⟨201#32, 250#32⟩ : Range (BitVec 32))]),
  ((⟨100#32, 200#32⟩ : Range (BitVec 32)), (⟨200#32, 250#32⟩ : Range (BitVec 32)), [(⟨100#32, 199#32⟩ : Range (BitVec 32))], [(⟨201#32, 250#32⟩ : Range (BitVec 32))]),
  ((⟨100#32, 200#32⟩ : Range (BitVec 32)), (⟨199#32, 250#32⟩ : Range (BitVec 32)), [(⟨100#32, 198#32⟩ : Range (BitVec 32))], [(⟨201#32, 250#32⟩ : Range (BitVec 32))]),
  ((⟨100#32, 200#32⟩ : Range (BitVec 32)), (⟨201#32, 250#32⟩ : Range (BitVec 32)), [(⟨100#32, 200#32⟩ : Range (BitVec 32))], [(⟨201#32, 250#32⟩ : Range (BitVec 32))]),
  ((p4 "10.224.24.0/22").range, (p4 "10.224.200.0/22").range, [(p4 "10.224.24.0/22").range], [(p4 "10.224.200.0/22").range])].all minus) = true := by decide +kernel

/-- /repo/ipv4/range_test.go:325-392 `TestRangePlus`, 6 rows -/
example : ([
  ((p4 "10.224.24.0/22").range, (p4 "10.224.0.0/22").range, [(p4 "10.224.0.0/22").range, (p4 "10.224.24.0/22").range]),
  ((p4 "10.224.4.0/22").range, (p4 "10.224.0.0/22").range, [(p4 "10.224.0.0/21").range]),
  ((p4 "10.224.4.0/22").range, (p4 "10.224.0.0/21").range, [(p4 "10.224.0.0/21").range]),
  ((p4 "10.224.0.0/21").range, (p4 "10.224.0.0/21").range, [(p4 "10.224.0.0/21").range]),
  ((Range.fromAddresses (a4 "10.224.0.99") (a4 "10.224.0.247")).1, (Range.fromAddresses (a4 "10.224.0.90") (a4 "10.224.0.248")).1, [(Range.fromAddresses (a4 "10.224.0.90") (a4 "10.224.0.248")).1]),
  ((Range.fromAddresses (a4 "10.224.0.90") (a4 "10.224.0.247")).1, (Range.fromAddresses (a4 "10.224.0.99") (a4 "10.224.0.248")).1, [(Range.fromAddresses (a4 "10.224.0.90") (a4 "10.224.0.248")).1])].all plus) = true := by decide +kernel

/-- /repo/ipv4/range_test.go:100-123 `TestRangeContains`, 2 rows -/
example : ([
  ((p4 "10.224.24.1/22").range, (p4 "10.224.26.1/24").range),
  ((Range.fromAddresses 305419896#32 591751049#32).1, (p4 "20.224.26.1/24").range)].all rangeContains) = true := by decide +kernel

/-- /repo/ipv4/range_test.go:73-98 `TestRangeFirstLast`, 2 rows -/
example : ([
  ((Range.fromAddresses 305419896#32 591751049#32).1, 305419896#32, 591751049#32),
  ((p4 "10.224.24.1/24").range, (a4 "10.224.24.0"), (a4 "10.224.24.255"))].all firstLast) = true := by decide +kernel

/-- /repo/ipv4/range_test.go:17-47 `TestRangeComparable`, 3 rows -/
example : ([
  ((Range.fromAddresses (a4 "10.0.0.0") (a4 "10.1.0.0")).1, (Range.fromAddresses (a4 "10.0.0.0") (a4 "10.1.0.0")).1, true),
  ((Range.fromAddresses (a4 "10.0.0.0") (a4 "10.1.0.0")).1, (Range.fromAddresses (a4 "10.0.0.1") (a4 "10.1.0.0")).1, false),
  ((Range.fromAddresses (a4 "10.0.0.0") (a4 "10.0.1.0")).1, (Range.fromAddresses (a4 "10.0.0.0") (a4 "10.1.0.0")).1, false)].all rangeComparable) = true := by decide +kernel

/-- /repo/ipv4/range_test.go:402-430 `TestRangeNumPrefixes`, 2 rows -/
example : ([
  ((Range.fromAddresses (a4 "203.0.113.0") (a4 "203.0.114.0")).1, 31, 128, false),
  ((Range.fromAddresses (a4 "203.0.113.0") (a4 "203.0.114.0")).1, 32, 257, false)].all rangeNumPrefixes4) = true := by decide +kernel

/-- /repo/ipv4/prefix_test.go:78-112 `TestPrefixFromString`, 3 rows -/
example : ([
  ("10.224.24.1/27", (⟨182458369#32, 27⟩ : Prefix (BitVec 32)), false),
  ("2001::1/64", (⟨0#32, 0⟩ : Prefix (BitVec 32)), true),
  ("bogus", (⟨0#32, 0⟩ : Prefix (BitVec 32)), true)].all fromString4) = true := by decide +kernel

/-- /repo/ipv4/prefix_test.go:171-200 `TestPrefixLessThan`, 13 rows -/
example : ascending [
  (⟨0#32, 0⟩ : Prefix (BitVec 32)),
  (⟨0#32, 16⟩ : Prefix (BitVec 32)),
  (⟨0#32, 31⟩ : Prefix (BitVec 32)),
  (⟨0#32, 32⟩ : Prefix (BitVec 32)),
  (⟨182458113#32, 16⟩ : Prefix (BitVec 32)),
  (⟨182517759#32, 16⟩ : Prefix (BitVec 32)),
  (⟨182458113#32, 24⟩ : Prefix (BitVec 32)),
  (⟨182458114#32, 24⟩ : Prefix (BitVec 32)),
  (⟨182458367#32, 24⟩ : Prefix (BitVec 32)),
  (⟨182458113#32, 32⟩ : Prefix (BitVec 32)),
  (⟨182458114#32, 32⟩ : Prefix (BitVec 32)),
  (⟨182458367#32, 32⟩ : Prefix (BitVec 32)),
  (⟨182458369#32, 24⟩ : Prefix (BitVec 32))] = true := by decide +kernel

/-- /repo/ipv4/prefix_test.go:202-245 `TestNetworkHostBroadcast`, 4 rows -/
example : ([
  ((p4 "10.224.24.1/0"), (p4 "0.0.0.0/0"), (p4 "10.224.24.1/0")),
  ((p4 "10.224.24.1/8"), (p4 "10.0.0.0/8"), (p4 "0.224.24.1/8")),
  ((p4 "10.224.24.1/22"), (p4 "10.224.24.0/22"), (p4 "0.0.0.1/22")),
  ((p4 "10.224.24.1/32"), (p4 "10.224.24.1/32"), (p4 "0.0.0.0/32"))].all networkHost) = true := by decide +kernel

/-- /repo/ipv4/prefix_test.go:202-245 `TestNetworkHostBroadcast`, 4 rows -/
example : ([
  ((p4 "10.224.24.1/0"), (p4 "255.255.255.255/0")),
  ((p4 "10.224.24.1/8"), (p4 "10.255.255.255/8")),
  ((p4 "10.224.24.1/22"), (p4 "10.224.27.255/22")),
  ((p4 "10.224.24.1/32"), (p4 "10.224.24.1/32"))].all broadcast) = true := by decide +kernel

/-- /repo/ipv4/prefix_test.go:247-294 `TestPrefixContainsPrefix`, 6 rows -/
example : ([
  ((p4 "0.0.0.0/0"), (p4 "1.2.3.4/32")),
  ((p4 "1.2.3.4/32"), (p4 "1.2.3.4/32")),
  ((p4 "1.2.3.4/32"), (p4 "1.2.3.4/32")),
  ((p4 "192.168.20.0/24"), (p4 "192.168.20.0/24")),
  ((p4 "192.168.0.0/16"), (p4 "192.168.20.0/24")),
  ((p4 "1.2.3.4/24"), (p4 "1.2.3.5/32"))].all containsPrefix) = true := by decide +kernel

/-- /repo/ipv4/prefix_test.go:296-359 `TestPrefixContainsAddress`, 5 rows -/
example : ([
  ((p4 "0.0.0.0/0"), [(a4 "1.2.3.4"), (a4 "192.168.4.2")], []),
  ((p4 "1.2.3.4/32"), [(a4 "1.2.3.4")], [(a4 "1.2.3.5"), (a4 "1.2.3.3")]),
  ((p4 "192.168.20.0/24"), [(a4 "192.168.20.0")], []),
  ((p4 "192.168.0.0/16"), [(a4 "192.168.20.0")], []),
  ((p4 "1.2.3.4/24"), [(a4 "1.2.3.5"), (a4 "1.2.3.245")], [])].all containsAddress) = true := by decide +kernel

/-- /repo/ipv4/prefix_test.go:361-389 `TestPrefixSize`, 3 rows -/
example : ([
  ((p4 "0.0.0.0/0"), 4294967296),
  ((p4 "172.16.0.0/12"), 1048576),
  ((p4 "172.16.244.117/32"), 1)].all prefixSize) = true := by decide +kernel

/-- /repo/ipv4/prefix_test.go:395-407 `TestPrefixString`, 3 rows -/
example : ([
  "0.0.0.0/0",
  "10.224.24.117/25",
  "1.2.3.4/32"].all string4) = true := by decide +kernel

/-- /repo/ipv4/prefix_test.go:421-455 `TestPrefixHalves`, 4 rows -/
example : ([
  ((p4 "0.0.0.0/0"), (p4 "0.0.0.0/1"), (p4 "128.0.0.0/1")),
  ((p4 "10.224.0.0/16"), (p4 "10.224.0.0/17"), (p4 "10.224.128.0/17")),
  ((p4 "10.224.24.1/24"), (p4 "10.224.24.0/25"), (p4 "10.224.24.128/25")),
  ((p4 "10.224.24.117/31"), (p4 "10.224.24.116/32"), (p4 "10.224.24.117/32"))].all halves) = true := by decide +kernel

/-- /repo/ipv4/prefix_test.go:457-492 `TestWalkAddress`, 3 rows -/
example : ([
  ((p4 "10.224.0.0/24"), (a4 "10.224.0.0"), (a4 "10.224.0.99")),
  ((p4 "203.0.113.116/31"), (a4 "203.0.113.116"), (a4 "203.0.113.117")),
  ((p4 "100.64.0.1/32"), (a4 "100.64.0.1"), (a4 "100.64.0.1"))].all walkAddress) = true := by decide +kernel

/-- /repo/ipv4/prefix_test.go:494-528 `TestPrefixSet`, 4 rows -/
example : ([
  ((p4 "0.0.0.0/1"), (a4 "127.0.0.1"), (a4 "192.168.0.3")),
  ((p4 "10.224.0.0/16"), (a4 "10.224.0.123"), (a4 "10.225.128.123")),
  ((p4 "10.224.24.1/24"), (a4 "10.224.24.0"), (a4 "10.224.25.128")),
  ((p4 "10.224.24.117/31"), (a4 "10.224.24.116"), (a4 "10.224.24.118"))].all prefixSet) = true := by decide +kernel

/-- /repo/ipv4/prefix_test.go:538-579 `TestPrefixNumPrefixes`, 5 rows -/
example : ([
  ((⟨0#32, 0⟩ : Prefix (BitVec 32)), 33, 0, true),
  ((p4 "203.0.113.0/24"), 24, 1, false),
  ((p4 "203.0.113.0/24"), 23, 0, false),
  ((p4 "203.0.113.0/24"), 30, 64, false),
  ((p4 "203.0.113.0/24"), 26, 4, false)].all prefixNumPrefixes4) = true := by decide +kernel

/-- /repo/ipv4/set_test.go:233-364 `TestWalkRanges`, 5 rows -/
example : ([
  ([], []),
  ([.prefix (p4 "203.0.113.0/24")], [(p4 "203.0.113.0/24").range]),
  ([.prefix (p4 "203.0.113.0/25"), .prefix (p4 "203.0.113.128/26")], [(Range.fromAddresses (a4 "203.0.113.0") (a4 "203.0.113.191")).1]),
  ([.prefix (p4 "203.0.113.0/25"), .prefix (p4 "203.0.113.192/26")], [(Range.fromAddresses (a4 "203.0.113.0") (a4 "203.0.113.127")).1, (Range.fromAddresses (a4 "203.0.113.192") (a4 "203.0.113.255")).1]),
  ([.prefix (p4 "7.0.37.17/32"), .prefix (p4 "7.0.37.18/31"), .prefix (p4 "7.0.37.20/30"), .prefix (p4 "7.0.37.24/29"), .prefix (p4 "7.0.37.32/27"), .prefix (p4 "7.0.37.64/26"), .prefix (p4 "7.0.37.128/25"), .prefix (p4 "7.0.38.0/23"), .prefix (p4 "7.0.40.0/21"), .prefix (p4 "7.0.48.0/20"), .prefix (p4 "7.0.64.0/18"), .prefix (p4 "7.0.128.0/17"), .prefix (p4 "7.1.0.0/16"), .prefix (p4 "7.2.0.0/15"), .prefix (p4 "7.4.0.0/14"), .prefix (p4 "7.8.0.0/13"), .prefix (p4 "7.16.0.0/12"), .prefix (p4 "7.32.0.0/11"), .prefix (p4 "7.64.0.0/10"), .prefix (p4 "7.128.0.0/9"), .prefix (p4 "8.0.0.0/6"), .prefix (p4 "12.0.0.0/8"), .prefix (p4 "13.0.0.0/13"), .prefix (p4 "13.8.0.0/17"), .prefix (p4 "13.8.128.0/18"), .prefix (p4 "13.8.192.0/20"), .prefix (p4 "13.8.208.0/21"), .prefix (p4 "13.8.216.0/22"), .prefix (p4 "13.8.220.0/23"), .prefix (p4 "13.8.222.0/26"), .prefix (p4 "13.8.222.64/27"), .prefix (p4 "13.8.222.96/28"), .prefix (p4 "13.8.222.112/31")], [(Range.fromAddresses (a4 "7.0.37.17") (a4 "13.8.222.113")).1])].all walkRanges) = true := by decide +kernel

/-- /repo/ipv4/set_test.go:233-364 `TestWalkRanges`, 5 rows -/
example : ([
  ([], "[]"),
  ([.prefix (p4 "203.0.113.0/24")], "[203.0.113.0/24]"),
  ([.prefix (p4 "203.0.113.0/25"), .prefix (p4 "203.0.113.128/26")], "[203.0.113.0/25, 203.0.113.128/26]"),
  ([.prefix (p4 "203.0.113.0/25"), .prefix (p4 "203.0.113.192/26")], "[203.0.113.0/25, 203.0.113.192/26]"),
  ([.prefix (p4 "7.0.37.17/32"), .prefix (p4 "7.0.37.18/31"), .prefix (p4 "7.0.37.20/30"), .prefix (p4 "7.0.37.24/29"), .prefix (p4 "7.0.37.32/27"), .prefix (p4 "7.0.37.64/26"), .prefix (p4 "7.0.37.128/25"), .prefix (p4 "7.0.38.0/23"), .prefix (p4 "7.0.40.0/21"), .prefix (p4 "7.0.48.0/20"), .prefix (p4 "7.0.64.0/18"), .prefix (p4 "7.0.128.0/17"), .prefix (p4 "7.1.0.0/16"), .prefix (p4 "7.2.0.0/15"), .prefix (p4 "7.4.0.0/14"), .prefix (p4 "7.8.0.0/13"), .prefix (p4 "7.16.0.0/12"), .prefix (p4 "7.32.0.0/11"), .prefix (p4 "7.64.0.0/10"), .prefix (p4 "7.128.0.0/9"), .prefix (p4 "8.0.0.0/6"), .prefix (p4 "12.0.0.0/8"), .prefix (p4 "13.0.0.0/13"), .prefix (p4 "13.8.0.0/17"), .prefix (p4 "13.8.128.0/18"), .prefix (p4 "13.8.192.0/20"), .prefix (p4 "13.8.208.0/21"), .prefix (p4 "13.8.216.0/22"), .prefix (p4 "13.8.220.0/23"), .prefix (p4 "13.8.222.0/26"), .prefix (p4 "13.8.222.64/27"), .prefix (p4 "13.8.222.96/28"), .prefix (p4 "13.8.222.112/31")], "[7.0.37.17/32, 7.0.37.18/31, 7.0.37.20/30, 7.0.37.24/29, 7.0.37.32/27, 7.0.37.64/26, 7.0.37.128/25, 7.0.38.0/23, 7.0.40.0/21, 7.0.48.0/20, 7.0.64.0/18, 7.0.128.0/17, 7.1.0.0/16, 7.2.0.0/15, 7.4.0.0/14, 7.8.0.0/13, 7.16.0.0/12, 7.32.0.0/11, 7.64.0.0/10, 7.128.0.0/9, 8.0.0.0/6, 12.0.0.0/8, 13.0.0.0/13, 13.8.0.0/17, 13.8.128.0/18, 13.8.192.0/20, 13.8.208.0/21, 13.8.216.0/22, 13.8.220.0/23, 13.8.222.0/26, 13.8.222.64/27, 13.8.222.96/28, 13.8.222.112/31]")].all setString4) = true := by decide +kernel

/-- /repo/ipv4/set_test.go:866-903 `TestSetNumPrefixes`, 2 rows -/
example : ([
  ([], 32, 0, false),
  ([.prefix (p4 "203.0.113.0/8")], 16, 256, false)].all setNumPrefixes4) = true := by decide +kernel

/-- /repo/ipv4/set_test.go:958-1146 `TestFindAvailablePrefix`, 7 rows -/
example : ([
  ([.prefix (p4 "10.0.0.0/8")], [], 24, (⟨0#32, 0⟩ : Prefix (BitVec 32)), false, 1),
  ([.prefix (p4 "10.0.0.0/8")], [.prefix (p4 "10.224.123.0/24")], 24, (p4 "10.224.122.0/24"), false, 0),
  ([.prefix (p4 "10.0.0.0/16")], [.prefix (p4 "10.0.1.0/24"), .prefix (p4 "10.0.2.0/23"), .prefix (p4 "10.0.4.0/22"), .prefix (p4 "10.0.8.0/21"), .prefix (p4 "10.0.16.0/20"), .prefix (p4 "10.0.32.0/19"), .prefix (p4 "10.0.64.0/18"), .prefix (p4 "10.0.128.0/17")], 24, (⟨0#32, 0⟩ : Prefix (BitVec 32)), false, (-7)),
  ([.prefix (p4 "10.0.0.0/8")], [.prefix (p4 "10.128.0.0/9"), .prefix (p4 "10.64.0.0/10"), .prefix (p4 "10.32.0.0/11"), .prefix (p4 "10.16.0.0/12")], 11, (⟨0#32, 0⟩ : Prefix (BitVec 32)), true, 0),
  ([.prefix (p4 "10.0.0.0/8")], [], 7, (⟨0#32, 0⟩ : Prefix (BitVec 32)), true, 0),
  ([.prefix (p4 "10.0.0.0/22"), .prefix (p4 "192.168.0.0/21"), .prefix (p4 "172.16.0.0/20")], [.prefix (p4 "192.168.0.0/21"), .prefix (p4 "172.16.0.0/21"), .prefix (p4 "172.16.8.0/22"), .prefix (p4 "10.0.0.0/22"), .prefix (p4 "172.16.12.0/24"), .prefix (p4 "172.16.14.0/24"), .prefix (p4 "172.16.15.0/24")], 24, (p4 "172.16.13.0/24"), false, 1),
  ([.prefix (p4 "10.0.0.0/24")], [.prefix (p4 "10.0.0.0/27"), .prefix (p4 "10.0.0.64/27"), .prefix (p4 "10.0.0.128/27"), .prefix (p4 "10.0.0.192/27")], 25, (⟨0#32, 0⟩ : Prefix (BitVec 32)), true, 0)].all findAvailable) = true := by decide +kernel

/-- /repo/ipv4/setnode_test.go:13-216 `TestTrieNodeSet32Union`, 9 rows -/
example : ([
  ([(SetNode.fromPrefix (p4 "10.224.24.0/25")), (SetNode.fromPrefix (p4 "10.224.24.128/25"))], [(a4 "10.224.24.0"), (a4 "10.224.24.255"), (a4 "10.224.24.127"), (a4 "10.224.24.128")], [(a4 "10.224.23.255"), (a4 "10.224.25.0")]),
  ([.nil], [], [(a4 "10.224.23.117"), (a4 "200.193.25.0")]),
  ([(SetNode.fromPrefix (p4 "10.224.24.0/32")), .nil], [(a4 "10.224.24.0")], [(a4 "10.224.23.255"), (a4 "200.193.24.1")]),
  ([(SetNode.fromPrefix (p4 "10.224.24.0/32")), (SetNode.fromPrefix (p4 "10.224.24.0/32"))], [(a4 "10.224.24.0")], []),
  ([(SetNode.fromPrefix (p4 "10.224.29.0/32")), (SetNode.fromPrefix (p4 "10.224.24.0/32")), (SetNode.fromPrefix (p4 "10.224.24.0/32"))], [(a4 "10.224.24.0"), (a4 "10.224.29.0")], []),
  ([(SetNode.fromPrefix (p4 "10.224.24.0/32")), (SetNode.fromPrefix (p4 "10.224.24.128/32")), (SetNode.fromPrefix (p4 "10.224.24.0/24"))], [(a4 "10.224.24.0"), (a4 "10.224.24.128"), (a4 "10.224.24.255")], [(a4 "10.224.25.0"), (a4 "10.224.28.0")]),
  ([(SetNode.union (SetNode.fromPrefix (p4 "10.224.24.0/32")) (SetNode.fromPrefix (p4 "10.224.24.128/32"))), (SetNode.union (SetNode.fromPrefix (p4 "10.224.24.0/32")) (SetNode.fromPrefix (p4 "10.224.24.128/32")))], [(a4 "10.224.24.0"), (a4 "10.224.24.128")], [(a4 "10.224.24.255"), (a4 "10.224.25.0"), (a4 "10.224.28.0")]),
  ([(SetNode.union (SetNode.fromPrefix (p4 "10.224.24.0/32")) (SetNode.fromPrefix (p4 "10.224.24.128/32"))), (SetNode.union (SetNode.fromPrefix (p4 "10.224.24.128/32")) (SetNode.fromPrefix (p4 "10.224.24.0/32")))], [(a4 "10.224.24.0"), (a4 "10.224.24.128")], [(a4 "10.224.24.255"), (a4 "10.224.25.0"), (a4 "10.224.28.0")]),
  ([(SetNode.fromPrefix (p4 "10.224.24.0/32")), (SetNode.fromPrefix (p4 "10.224.24.0/31")), (SetNode.fromPrefix (p4 "10.224.24.0/30")), (SetNode.fromPrefix (p4 "10.224.24.0/29")), (SetNode.fromPrefix (p4 "10.224.24.0/28")), (SetNode.fromPrefix (p4 "10.224.24.0/27")), (SetNode.fromPrefix (p4 "10.224.24.0/26")), (SetNode.fromPrefix (p4 "10.224.24.0/25")), (SetNode.fromPrefix (p4 "10.224.24.0/24")), (SetNode.fromPrefix (p4 "10.224.24.0/23")), (SetNode.fromPrefix (p4 "10.224.24.0/22")), (SetNode.fromPrefix (p4 "10.224.24.0/21")), (SetNode.fromPrefix (p4 "10.224.24.0/20"))], [(a4 "10.224.16.0"), (a4 "10.224.17.0"), (a4 "10.224.18.0"), (a4 "10.224.19.0"), (a4 "10.224.20.0"), (a4 "10.224.21.0"), (a4 "10.224.22.0"), (a4 "10.224.23.0"), (a4 "10.224.24.0"), (a4 "10.224.25.0"), (a4 "10.224.26.0"), (a4 "10.224.27.0"), (a4 "10.224.28.0"), (a4 "10.224.29.0"), (a4 "10.224.30.0"), (a4 "10.224.31.0")], [(a4 "10.224.15.0"), (a4 "10.224.32.0")])].all setUnion) = true := by decide +kernel

/-- /repo/ipv4/setnode_test.go:218-280 `TestInsertOverlappingSet`, 4 rows -/
example : ([
  ((⟨(a4 "10.200.0.0"), 16⟩ : Prefix (BitVec 32)), (⟨(a4 "10.200.20.0"), 24⟩ : Prefix (BitVec 32)), (⟨(a4 "10.200.20.0"), 32⟩ : Prefix (BitVec 32))),
  ((⟨(a4 "10.200.0.0"), 17⟩ : Prefix (BitVec 32)), (⟨180879584#32, 27⟩ : Prefix (BitVec 32)), (⟨180879608#32, 31⟩ : Prefix (BitVec 32))),
  ((⟨0#32, 0⟩ : Prefix (BitVec 32)), (⟨(a4 "10.0.0.0"), 8⟩ : Prefix (BitVec 32)), (⟨(a4 "10.10.0.0"), 16⟩ : Prefix (BitVec 32))),
  ((⟨0#32, 0⟩ : Prefix (BitVec 32)), (⟨(a4 "10.0.0.0"), 8⟩ : Prefix (BitVec 32)), (⟨(a4 "10.0.0.0"), 8⟩ : Prefix (BitVec 32)))].all overlappingSet) = true := by decide +kernel

/-- /repo/ipv4/node_test.go:392-463 `TestNoMatchPrefixMisMatch`, 6 rows -/
example : ([
  ((a4 "10.0.0.0"), 24, (a4 "10.0.1.0"), 32),
  ((a4 "10.0.0.0"), 24, (a4 "10.1.0.0"), 32),
  ((a4 "10.0.0.0"), 24, (a4 "11.0.0.0"), 32),
  ((a4 "10.0.0.0"), 27, (a4 "10.0.0.128"), 32),
  (0#32, 7, (a4 "2.0.0.0"), 8),
  (0#32, 8, (a4 "10.0.0.0"), 16)].all mismatch) = true := by decide +kernel

/-- /repo/ipv4/node_test.go:465-520 `TestMatchSimplePrefixMatch`, 6 rows -/
example : ([
  ((a4 "10.0.0.0"), 24),
  ((a4 "10.0.0.0"), 24),
  ((a4 "10.0.0.0"), 24),
  ((a4 "10.0.0.0"), 27),
  (0#32, 8),
  (4261412864#32, 7)].all simpleMatch) = true := by decide +kernel

/-- /repo/ipv4/node_test.go:594-673 `TestInsertOverlapping`, 3 rows -/
example : ([
  ((⟨(a4 "10.200.0.0"), 16⟩ : Prefix (BitVec 32)), (⟨(a4 "10.200.20.0"), 24⟩ : Prefix (BitVec 32)), (⟨(a4 "10.200.20.0"), 32⟩ : Prefix (BitVec 32))),
  ((⟨(a4 "10.200.0.0"), 17⟩ : Prefix (BitVec 32)), (⟨180879584#32, 27⟩ : Prefix (BitVec 32)), (⟨180879608#32, 31⟩ : Prefix (BitVec 32))),
  ((⟨0#32, 0⟩ : Prefix (BitVec 32)), (⟨(a4 "10.0.0.0"), 8⟩ : Prefix (BitVec 32)), (⟨(a4 "10.10.0.0"), 16⟩ : Prefix (BitVec 32)))].all overlapping) = true := by decide +kernel

/-- /repo/ipv4/node_test.go:675-739 `TestInsertDisjoint`, 3 rows -/
example : ([
  ((⟨0#32, 1⟩ : Prefix (BitVec 32)), (⟨(a4 "128.0.0.0"), 1⟩ : Prefix (BitVec 32)), (⟨0#32, 0⟩ : Prefix (BitVec 32))),
  ((⟨(a4 "10.224.0.0"), 17⟩ : Prefix (BitVec 32)), (⟨(a4 "10.224.128.0"), 17⟩ : Prefix (BitVec 32)), (⟨(a4 "10.224.0.0"), 16⟩ : Prefix (BitVec 32))),
  ((⟨(a4 "10.224.0.0"), 23⟩ : Prefix (BitVec 32)), (⟨(a4 "10.224.8.0"), 23⟩ : Prefix (BitVec 32)), (⟨(a4 "10.224.0.0"), 20⟩ : Prefix (BitVec 32)))].all disjoint) = true := by decide +kernel

/-- /repo/ipv4/node_test.go:741-790 `TestInsertMoreComplex`, 1 rows -/
example : ([
  [(⟨0#32, 0⟩ : Prefix (BitVec 32)), (⟨4278190080#32, 8⟩ : Prefix (BitVec 32)), (⟨4261412864#32, 8⟩ : Prefix (BitVec 32)), (⟨4294901760#32, 16⟩ : Prefix (BitVec 32)), (⟨4294836224#32, 16⟩ : Prefix (BitVec 32)), (⟨4294901760#32, 17⟩ : Prefix (BitVec 32)), (⟨4294868992#32, 17⟩ : Prefix (BitVec 32)), (⟨4294868992#32, 18⟩ : Prefix (BitVec 32)), (⟨4294946816#32, 18⟩ : Prefix (BitVec 32)), (⟨4294885120#32, 24⟩ : Prefix (BitVec 32)), (⟨4294950400#32, 24⟩ : Prefix (BitVec 32))]].all complex) = true := by decide +kernel

/-- /repo/ipv4/node_test.go:792-963 `TestContains`, 17 rows -/
example : ([
  ((⟨0#32, 0⟩ : Prefix (BitVec 32)), (⟨0#32, 0⟩ : Prefix (BitVec 32)), true, true, 0, 0),
  ((⟨(a4 "10.0.0.0"), 16⟩ : Prefix (BitVec 32)), (⟨(a4 "10.0.0.0"), 16⟩ : Prefix (BitVec 32)), true, true, 16, 0),
  ((⟨(a4 "10.0.0.0"), 19⟩ : Prefix (BitVec 32)), (⟨167780096#32, 19⟩ : Prefix (BitVec 32)), true, true, 19, 0),
  ((⟨0#32, 0⟩ : Prefix (BitVec 32)), (⟨(a4 "10.10.0.0"), 16⟩ : Prefix (BitVec 32)), true, false, 0, 0),
  ((⟨0#32, 0⟩ : Prefix (BitVec 32)), (⟨(a4 "130.10.0.0"), 16⟩ : Prefix (BitVec 32)), true, false, 0, 1),
  ((⟨(a4 "10.0.0.0"), 8⟩ : Prefix (BitVec 32)), (⟨(a4 "10.10.0.0"), 16⟩ : Prefix (BitVec 32)), true, false, 8, 0),
  ((⟨(a4 "10.200.0.0"), 9⟩ : Prefix (BitVec 32)), (⟨(a4 "10.129.0.0"), 16⟩ : Prefix (BitVec 32)), true, false, 9, 0),
  ((⟨(a4 "10.0.0.0"), 8⟩ : Prefix (BitVec 32)), (⟨(a4 "10.200.0.0"), 16⟩ : Prefix (BitVec 32)), true, false, 8, 1),
  ((⟨(a4 "10.240.0.0"), 9⟩ : Prefix (BitVec 32)), (⟨(a4 "10.200.0.0"), 16⟩ : Prefix (BitVec 32)), true, false, 9, 1),
  ((⟨0#32, 1⟩ : Prefix (BitVec 32)), (⟨(a4 "128.0.0.0"), 1⟩ : Prefix (BitVec 32)), false, false, 0, 1),
  ((⟨(a4 "0.0.0.0"), 17⟩ : Prefix (BitVec 32)), (⟨(a4 "0.0.128.0"), 17⟩ : Prefix (BitVec 32)), false, false, 16, 1),
  ((⟨(a4 "0.0.0.0"), 17⟩ : Prefix (BitVec 32)), (⟨(a4 "0.1.0.0"), 17⟩ : Prefix (BitVec 32)), false, false, 15, 1),
  ((⟨(a4 "128.0.0.0"), 1⟩ : Prefix (BitVec 32)), (⟨0#32, 1⟩ : Prefix (BitVec 32)), false, false, 0, 0),
  ((⟨(a4 "0.0.128.0"), 19⟩ : Prefix (BitVec 32)), (⟨(a4 "0.0.0.0"), 19⟩ : Prefix (BitVec 32)), false, false, 16, 0),
  ((⟨(a4 "0.1.0.0"), 19⟩ : Prefix (BitVec 32)), (⟨(a4 "0.0.0.0"), 19⟩ : Prefix (BitVec 32)), false, false, 15, 0),
  ((⟨(a4 "10.0.0.0"), 16⟩ : Prefix (BitVec 32)), (⟨(a4 "10.10.0.0"), 16⟩ : Prefix (BitVec 32)), false, false, 12, 1),
  ((⟨(a4 "0.255.255.0"), 24⟩ : Prefix (BitVec 32)), (⟨(a4 "128.0.0.0"), 24⟩ : Prefix (BitVec 32)), false, false, 0, 1)].all nodeContains) = true := by decide +kernel

/-- /repo/ipv4/node_test.go:1184-1244 `TestSuccessivelyBetter`, 13 rows -/
example : better [
  (⟨(a4 "10.224.24.0"), 0⟩ : Prefix (BitVec 32)),
  (⟨(a4 "10.224.24.0"), 1⟩ : Prefix (BitVec 32)),
  (⟨(a4 "10.224.24.0"), 8⟩ : Prefix (BitVec 32)),
  (⟨(a4 "10.224.24.0"), 12⟩ : Prefix (BitVec 32)),
  (⟨(a4 "10.224.24.0"), 16⟩ : Prefix (BitVec 32)),
  (⟨(a4 "10.224.24.0"), 18⟩ : Prefix (BitVec 32)),
  (⟨(a4 "10.224.24.0"), 20⟩ : Prefix (BitVec 32)),
  (⟨(a4 "10.224.24.0"), 21⟩ : Prefix (BitVec 32)),
  (⟨(a4 "10.224.24.0"), 22⟩ : Prefix (BitVec 32)),
  (⟨(a4 "10.224.24.0"), 24⟩ : Prefix (BitVec 32)),
  (⟨(a4 "10.224.24.0"), 27⟩ : Prefix (BitVec 32)),
  (⟨(a4 "10.224.24.0"), 30⟩ : Prefix (BitVec 32)),
  (⟨(a4 "10.224.24.0"), 32⟩ : Prefix (BitVec 32))] = true := by decide +kernel

/-- /repo/ipv4/node_test.go:1246-1317 `TestWalk`, 15 rows -/
example : walks [
  (⟨(a4 "172.21.0.0"), 20⟩ : Prefix (BitVec 32)),
  (⟨(a4 "192.68.27.0"), 25⟩ : Prefix (BitVec 32)),
  (⟨(a4 "192.168.26.128"), 25⟩ : Prefix (BitVec 32)),
  (⟨(a4 "10.224.24.0"), 32⟩ : Prefix (BitVec 32)),
  (⟨(a4 "192.68.24.0"), 24⟩ : Prefix (BitVec 32)),
  (⟨(a4 "172.16.0.0"), 12⟩ : Prefix (BitVec 32)),
  (⟨(a4 "192.68.26.0"), 24⟩ : Prefix (BitVec 32)),
  (⟨(a4 "10.224.24.0"), 30⟩ : Prefix (BitVec 32)),
  (⟨(a4 "192.168.24.0"), 24⟩ : Prefix (BitVec 32)),
  (⟨(a4 "192.168.25.0"), 24⟩ : Prefix (BitVec 32)),
  (⟨(a4 "192.168.26.0"), 25⟩ : Prefix (BitVec 32)),
  (⟨(a4 "192.68.25.0"), 24⟩ : Prefix (BitVec 32)),
  (⟨(a4 "192.168.27.0"), 24⟩ : Prefix (BitVec 32)),
  (⟨(a4 "172.20.128.0"), 19⟩ : Prefix (BitVec 32)),
  (⟨(a4 "192.68.27.128"), 25⟩ : Prefix (BitVec 32))] [
  (⟨(a4 "10.224.24.0"), 30⟩ : Prefix (BitVec 32)),
  (⟨(a4 "10.224.24.0"), 32⟩ : Prefix (BitVec 32)),
  (⟨(a4 "172.16.0.0"), 12⟩ : Prefix (BitVec 32)),
  (⟨(a4 "172.20.128.0"), 19⟩ : Prefix (BitVec 32)),
  (⟨(a4 "172.21.0.0"), 20⟩ : Prefix (BitVec 32)),
  (⟨(a4 "192.68.24.0"), 24⟩ : Prefix (BitVec 32)),
  (⟨(a4 "192.68.25.0"), 24⟩ : Prefix (BitVec 32)),
  (⟨(a4 "192.68.26.0"), 24⟩ : Prefix (BitVec 32)),
  (⟨(a4 "192.68.27.0"), 25⟩ : Prefix (BitVec 32)),
  (⟨(a4 "192.68.27.128"), 25⟩ : Prefix (BitVec 32)),
  (⟨(a4 "192.168.24.0"), 24⟩ : Prefix (BitVec 32)),
  (⟨(a4 "192.168.25.0"), 24⟩ : Prefix (BitVec 32)),
  (⟨(a4 "192.168.26.0"), 25⟩ : Prefix (BitVec 32)),
  (⟨(a4 "192.168.26.128"), 25⟩ : Prefix (BitVec 32)),
  (⟨(a4 "192.168.27.0"), 24⟩ : Prefix (BitVec 32))] = true := by decide +kernel

/-- /repo/ipv4/node_test.go:1346-1450 `TestAggregate`, 4 rows -/
example : ([
  ([], []),
  ([((⟨(a4 "10.224.24.2"), 31⟩ : Prefix (BitVec 32)), none), ((⟨(a4 "10.224.24.1"), 32⟩ : Prefix (BitVec 32)), none), ((⟨(a4 "10.224.24.0"), 32⟩ : Prefix (BitVec 32)), none)], [((⟨(a4 "10.224.24.0"), 30⟩ : Prefix (BitVec 32)), none)]),
  ([((⟨(a4 "172.21.0.0"), 20⟩ : Prefix (BitVec 32)), none), ((⟨(a4 "192.68.27.0"), 25⟩ : Prefix (BitVec 32)), none), ((⟨(a4 "192.168.26.128"), 25⟩ : Prefix (BitVec 32)), none), ((⟨(a4 "10.224.24.0"), 32⟩ : Prefix (BitVec 32)), none), ((⟨(a4 "192.68.24.0"), 24⟩ : Prefix (BitVec 32)), none), ((⟨(a4 "172.16.0.0"), 12⟩ : Prefix (BitVec 32)), none), ((⟨(a4 "192.68.26.0"), 24⟩ : Prefix (BitVec 32)), none), ((⟨(a4 "10.224.24.0"), 30⟩ : Prefix (BitVec 32)), none), ((⟨(a4 "192.168.24.0"), 24⟩ : Prefix (BitVec 32)), none), ((⟨(a4 "192.168.25.0"), 24⟩ : Prefix (BitVec 32)), none), ((⟨(a4 "192.168.26.0"), 25⟩ : Prefix (BitVec 32)), none), ((⟨(a4 "192.68.25.0"), 24⟩ : Prefix (BitVec 32)), none), ((⟨(a4 "192.168.27.0"), 24⟩ : Prefix (BitVec 32)), none), ((⟨(a4 "172.20.128.0"), 19⟩ : Prefix (BitVec 32)), none), ((⟨(a4 "192.68.27.128"), 25⟩ : Prefix (BitVec 32)), none)], [((⟨(a4 "10.224.24.0"), 30⟩ : Prefix (BitVec 32)), none), ((⟨(a4 "172.16.0.0"), 12⟩ : Prefix (BitVec 32)), none), ((⟨(a4 "192.68.24.0"), 22⟩ : Prefix (BitVec 32)), none), ((⟨(a4 "192.168.24.0"), 22⟩ : Prefix (BitVec 32)), none)]),
  ([((⟨(a4 "10.224.24.0"), 30⟩ : Prefix (BitVec 32)), some 1), ((⟨(a4 "10.224.24.0"), 31⟩ : Prefix (BitVec 32)), some 0), ((⟨(a4 "10.224.24.1"), 32⟩ : Prefix (BitVec 32)), some 1), ((⟨(a4 "10.224.24.0"), 32⟩ : Prefix (BitVec 32)), some 0)], [((⟨(a4 "10.224.24.0"), 30⟩ : Prefix (BitVec 32)), some 1), ((⟨(a4 "10.224.24.0"), 31⟩ : Prefix (BitVec 32)), some 0), ((⟨(a4 "10.224.24.1"), 32⟩ : Prefix (BitVec 32)), some 1)])].all aggregate) = true := by decide +kernel

/-- /repo/ipv4/node_test.go:1725-2052 `TestDiff`, 15 rows -/
example : ([
  ([], [], [], []),
  ([((⟨(a4 "203.0.113.0"), 24⟩ : Prefix (BitVec 32)), none)], [], [⟨'R', ((⟨(a4 "203.0.113.0"), 24⟩ : Prefix (BitVec 32)), none), none⟩], []),
  ([((⟨(a4 "203.0.113.0"), 24⟩ : Prefix (BitVec 32)), none), ((⟨(a4 "203.0.113.128"), 25⟩ : Prefix (BitVec 32)), none)], [], [⟨'R', ((⟨(a4 "203.0.113.0"), 24⟩ : Prefix (BitVec 32)), none), none⟩, ⟨'R', ((⟨(a4 "203.0.113.128"), 25⟩ : Prefix (BitVec 32)), none), none⟩], [⟨'R', ((⟨(a4 "203.0.113.0"), 24⟩ : Prefix (BitVec 32)), none), none⟩]),
  ([((⟨(a4 "203.0.113.0"), 24⟩ : Prefix (BitVec 32)), none), ((⟨(a4 "203.0.113.64"), 26⟩ : Prefix (BitVec 32)), none)], [], [⟨'R', ((⟨(a4 "203.0.113.0"), 24⟩ : Prefix (BitVec 32)), none), none⟩, ⟨'R', ((⟨(a4 "203.0.113.64"), 26⟩ : Prefix (BitVec 32)), none), none⟩], [⟨'R', ((⟨(a4 "203.0.113.0"), 24⟩ : Prefix (BitVec 32)), none), none⟩]),
  ([((⟨(a4 "203.0.113.0"), 24⟩ : Prefix (BitVec 32)), none), ((⟨(a4 "203.0.113.192"), 26⟩ : Prefix (BitVec 32)), none)], [], [⟨'R', ((⟨(a4 "203.0.113.0"), 24⟩ : Prefix (BitVec 32)), none), none⟩, ⟨'R', ((⟨(a4 "203.0.113.192"), 26⟩ : Prefix (BitVec 32)), none), none⟩], [⟨'R', ((⟨(a4 "203.0.113.0"), 24⟩ : Prefix (BitVec 32)), none), none⟩]),
  ([((⟨(a4 "203.0.113.0"), 24⟩ : Prefix (BitVec 32)), none)], [((⟨(a4 "203.0.113.0"), 24⟩ : Prefix (BitVec 32)), none)], [⟨'S', ((⟨(a4 "203.0.113.0"), 24⟩ : Prefix (BitVec 32)), none), none⟩], []),
  ([((⟨(a4 "203.0.113.0"), 24⟩ : Prefix (BitVec 32)), some 2)], [((⟨(a4 "203.0.113.0"), 24⟩ : Prefix (BitVec 32)), some 3)], [⟨'C', ((⟨(a4 "203.0.113.0"), 24⟩ : Prefix (BitVec 32)), some 2), some 3⟩], []),
  ([((⟨(a4 "203.0.113.0"), 24⟩ : Prefix (BitVec 32)), some 2)], [((⟨(a4 "203.0.113.0"), 25⟩ : Prefix (BitVec 32)), some 3), ((⟨(a4 "203.0.113.128"), 25⟩ : Prefix (BitVec 32)), some 3)], [⟨'R', ((⟨(a4 "203.0.113.0"), 24⟩ : Prefix (BitVec 32)), some 2), none⟩, ⟨'A', ((⟨(a4 "203.0.113.0"), 25⟩ : Prefix (BitVec 32)), some 3), none⟩, ⟨'A', ((⟨(a4 "203.0.113.128"), 25⟩ : Prefix (BitVec 32)), some 3), none⟩], [⟨'C', ((⟨(a4 "203.0.113.0"), 24⟩ : Prefix (BitVec 32)), some 2), some 3⟩]),
  ([((⟨(a4 "203.0.113.0"), 25⟩ : Prefix (BitVec 32)), some 2), ((⟨(a4 "203.0.113.128"), 25⟩ : Prefix (BitVec 32)), some 2)], [((⟨(a4 "203.0.113.0"), 25⟩ : Prefix (BitVec 32)), some 3), ((⟨(a4 "203.0.113.128"), 25⟩ : Prefix (BitVec 32)), some 3)], [⟨'C', ((⟨(a4 "203.0.113.0"), 25⟩ : Prefix (BitVec 32)), some 2), some 3⟩, ⟨'C', ((⟨(a4 "203.0.113.128"), 25⟩ : Prefix (BitVec 32)), some 2), some 3⟩], [⟨'C', ((⟨(a4 "203.0.113.0"), 24⟩ : Prefix (BitVec 32)), some 2), some 3⟩]),
  ([((⟨(a4 "203.0.113.0"), 25⟩ : Prefix (BitVec 32)), none)], [((⟨(a4 "203.0.113.128"), 25⟩ : Prefix (BitVec 32)), none)], [⟨'R', ((⟨(a4 "203.0.113.0"), 25⟩ : Prefix (BitVec 32)), none), none⟩, ⟨'A', ((⟨(a4 "203.0.113.128"), 25⟩ : Prefix (BitVec 32)), none), none⟩], []),
  ([((⟨(a4 "203.0.113.0"), 24⟩ : Prefix (BitVec 32)), none)], [((⟨(a4 "203.0.113.128"), 25⟩ : Prefix (BitVec 32)), none)], [⟨'R', ((⟨(a4 "203.0.113.0"), 24⟩ : Prefix (BitVec 32)), none), none⟩, ⟨'A', ((⟨(a4 "203.0.113.128"), 25⟩ : Prefix (BitVec 32)), none), none⟩], []),
  ([((⟨(a4 "203.0.113.0"), 25⟩ : Prefix (BitVec 32)), none), ((⟨(a4 "203.0.113.128"), 25⟩ : Prefix (BitVec 32)), none)], [((⟨(a4 "203.0.113.128"), 25⟩ : Prefix (BitVec 32)), none)], [⟨'R', ((⟨(a4 "203.0.113.0"), 25⟩ : Prefix (BitVec 32)), none), none⟩, ⟨'S', ((⟨(a4 "203.0.113.128"), 25⟩ : Prefix (BitVec 32)), none), none⟩], [⟨'R', ((⟨(a4 "203.0.113.0"), 24⟩ : Prefix (BitVec 32)), none), none⟩, ⟨'A', ((⟨(a4 "203.0.113.128"), 25⟩ : Prefix (BitVec 32)), none), none⟩]),
  ([((⟨(a4 "203.0.113.0"), 24⟩ : Prefix (BitVec 32)), none)], [((⟨(a4 "203.0.113.0"), 25⟩ : Prefix (BitVec 32)), none)], [⟨'R', ((⟨(a4 "203.0.113.0"), 24⟩ : Prefix (BitVec 32)), none), none⟩, ⟨'A', ((⟨(a4 "203.0.113.0"), 25⟩ : Prefix (BitVec 32)), none), none⟩], []),
  ([((⟨(a4 "203.0.113.0"), 25⟩ : Prefix (BitVec 32)), none), ((⟨(a4 "203.0.113.128"), 25⟩ : Prefix (BitVec 32)), none)], [((⟨(a4 "203.0.113.0"), 25⟩ : Prefix (BitVec 32)), none)], [⟨'S', ((⟨(a4 "203.0.113.0"), 25⟩ : Prefix (BitVec 32)), none), none⟩, ⟨'R', ((⟨(a4 "203.0.113.128"), 25⟩ : Prefix (BitVec 32)), none), none⟩], [⟨'R', ((⟨(a4 "203.0.113.0"), 24⟩ : Prefix (BitVec 32)), none), none⟩, ⟨'A', ((⟨(a4 "203.0.113.0"), 25⟩ : Prefix (BitVec 32)), none), none⟩]),
  ([((⟨(a4 "203.0.113.0"), 25⟩ : Prefix (BitVec 32)), none), ((⟨(a4 "203.0.113.128"), 25⟩ : Prefix (BitVec 32)), none)], [((⟨(a4 "203.0.113.0"), 24⟩ : Prefix (BitVec 32)), none)], [⟨'A', ((⟨(a4 "203.0.113.0"), 24⟩ : Prefix (BitVec 32)), none), none⟩, ⟨'R', ((⟨(a4 "203.0.113.0"), 25⟩ : Prefix (BitVec 32)), none), none⟩, ⟨'R', ((⟨(a4 "203.0.113.128"), 25⟩ : Prefix (BitVec 32)), none), none⟩], [⟨'S', ((⟨(a4 "203.0.113.0"), 24⟩ : Prefix (BitVec 32)), none), none⟩])].all diff) = true := by decide +kernel

/-- /repo/ipv4/node_test.go:2054-2123 `TestMap`, 3 rows -/
example : ([
  [],
  [(⟨(a4 "203.0.113.0"), 24⟩ : Prefix (BitVec 32))],
  [(⟨(a4 "203.0.113.0"), 24⟩ : Prefix (BitVec 32)), (⟨(a4 "203.0.113.0"), 32⟩ : Prefix (BitVec 32)), (⟨(a4 "192.0.2.0"), 27⟩ : Prefix (BitVec 32)), (⟨(a4 "198.51.100.0"), 24⟩ : Prefix (BitVec 32)), (⟨(a4 "198.51.100.0"), 25⟩ : Prefix (BitVec 32)), (⟨(a4 "198.51.100.0"), 26⟩ : Prefix (BitVec 32)), (⟨(a4 "198.51.100.0"), 27⟩ : Prefix (BitVec 32)), (⟨(a4 "198.51.100.0"), 28⟩ : Prefix (BitVec 32)), (⟨(a4 "198.51.100.0"), 29⟩ : Prefix (BitVec 32)), (⟨(a4 "198.51.100.0"), 30⟩ : Prefix (BitVec 32)), (⟨(a4 "198.51.100.0"), 31⟩ : Prefix (BitVec 32)), (⟨(a4 "198.51.100.0"), 32⟩ : Prefix (BitVec 32))]].all map) = true := by decide +kernel

/-- /repo/ipv4/node_test.go:2124-2240 `TestNewAggregate`, 10 rows -/
example : ([
  ([], []),
  ([((⟨(a4 "203.0.113.0"), 25⟩ : Prefix (BitVec 32)), none)], [((⟨(a4 "203.0.113.0"), 25⟩ : Prefix (BitVec 32)), none)]),
  ([((⟨(a4 "203.0.113.0"), 24⟩ : Prefix (BitVec 32)), none), ((⟨(a4 "203.0.113.0"), 25⟩ : Prefix (BitVec 32)), none)], [((⟨(a4 "203.0.113.0"), 24⟩ : Prefix (BitVec 32)), none)]),
  ([((⟨(a4 "203.0.113.0"), 24⟩ : Prefix (BitVec 32)), none), ((⟨(a4 "203.0.113.0"), 25⟩ : Prefix (BitVec 32)), some 1)], [((⟨(a4 "203.0.113.0"), 24⟩ : Prefix (BitVec 32)), none), ((⟨(a4 "203.0.113.0"), 25⟩ : Prefix (BitVec 32)), some 1)]),
  ([((⟨(a4 "203.0.113.0"), 26⟩ : Prefix (BitVec 32)), none), ((⟨(a4 "203.0.113.128"), 26⟩ : Prefix (BitVec 32)), none)], [((⟨(a4 "203.0.113.0"), 26⟩ : Prefix (BitVec 32)), none), ((⟨(a4 "203.0.113.128"), 26⟩ : Prefix (BitVec 32)), none)]),
  ([((⟨(a4 "203.0.113.0"), 24⟩ : Prefix (BitVec 32)), none), ((⟨(a4 "203.0.113.0"), 26⟩ : Prefix (BitVec 32)), some 1), ((⟨(a4 "203.0.113.64"), 26⟩ : Prefix (BitVec 32)), none)], [((⟨(a4 "203.0.113.0"), 24⟩ : Prefix (BitVec 32)), none), ((⟨(a4 "203.0.113.0"), 26⟩ : Prefix (BitVec 32)), some 1)]),
  ([((⟨(a4 "203.0.113.0"), 25⟩ : Prefix (BitVec 32)), none), ((⟨(a4 "203.0.113.128"), 25⟩ : Prefix (BitVec 32)), none)], [((⟨(a4 "203.0.113.0"), 24⟩ : Prefix (BitVec 32)), none)]),
  ([((⟨(a4 "203.0.113.0"), 25⟩ : Prefix (BitVec 32)), none), ((⟨(a4 "203.0.113.128"), 25⟩ : Prefix (BitVec 32)), some 1)], [((⟨(a4 "203.0.113.0"), 25⟩ : Prefix (BitVec 32)), none), ((⟨(a4 "203.0.113.128"), 25⟩ : Prefix (BitVec 32)), some 1)]),
  ([((⟨(a4 "203.0.113.0"), 25⟩ : Prefix (BitVec 32)), none), ((⟨(a4 "203.0.113.128"), 26⟩ : Prefix (BitVec 32)), none)], [((⟨(a4 "203.0.113.0"), 25⟩ : Prefix (BitVec 32)), none), ((⟨(a4 "203.0.113.128"), 26⟩ : Prefix (BitVec 32)), none)]),
  ([((⟨(a4 "203.0.113.0"), 24⟩ : Prefix (BitVec 32)), none), ((⟨(a4 "203.0.113.0"), 25⟩ : Prefix (BitVec 32)), some 1), ((⟨(a4 "203.0.113.128"), 25⟩ : Prefix (BitVec 32)), some 1)], [((⟨(a4 "203.0.113.0"), 24⟩ : Prefix (BitVec 32)), some 1)])].all newAggregate) = true := by decide +kernel

/-- /repo/ipv4/range_test.go:62-65 `TestRangeString`, 2 rows -/
example : ([
  decide ("[18.52.86.120,35.69.103.137]" = (String.ofList (V4.rangeString (Range.fromAddresses 305419896#32 591751049#32).1))),
  decide ("[10.224.24.0,10.224.24.255]" = (String.ofList (V4.rangeString (p4 "10.224.24.1/24").range)))].all id) = true := by decide +kernel

/-- /repo/ipv4/range_test.go:67-71 `TestRangeSize`, 3 rows -/
example : ([
  decide (256 = (Range.numAddresses (p4 "10.224.24.1/24").range).toNat),
  decide (131072 = (Range.numAddresses (p4 "10.224.24.1/15").range).toNat),
  decide (286331154 = (Range.numAddresses (Range.fromAddresses 305419896#32 591751049#32).1).toNat)].all id) = true := by decide +kernel

/-- /repo/ipv4/set_test.go:14-25 `TestSetInsertPrefix`, 4 assertions -/
example : (
  let s := (IPSet.empty : IPSet (BitVec 32))
  let s := s.union (.prefix (p4 "10.0.0.0/24"))
  let c0 := (s.contains (.prefix (p4 "10.0.0.0/24")))
  let c1 := !(s.contains (.prefix (p4 "10.0.0.0/16")))
  let s := s.union (.prefix (p4 "10.0.0.0/16"))
  let c2 := (s.contains (.prefix (p4 "10.0.0.0/24")))
  let c3 := (s.contains (.prefix (p4 "10.0.0.0/16")))
  c0 && c1 && c2 && c3) = true := by decide +kernel

/-- /repo/ipv4/set_test.go:27-39 `TestSetRemovePrefix`, 5 assertions -/
example : (
  let s := (IPSet.empty : IPSet (BitVec 32))
  let s := s.union (.prefix (p4 "10.0.0.0/16"))
  let c0 := (s.contains (.prefix (p4 "10.0.0.0/24")))
  let c1 := (s.contains (.prefix (p4 "10.0.0.0/16")))
  let s := s.difference (.prefix (p4 "10.0.0.0/24"))
  let c2 := !(s.contains (.prefix (p4 "10.0.0.0/24")))
  let c3 := !(s.contains (.prefix (p4 "10.0.0.0/16")))
  let c4 := (s.contains (.prefix (p4 "10.0.1.0/24")))
  c0 && c1 && c2 && c3 && c4) = true := by decide +kernel

/-- /repo/ipv4/set_test.go:59-69 `TestSetInsertSet`, 4 assertions -/
example : (
  let a := (IPSet.empty : IPSet (BitVec 32))
  let b := (IPSet.empty : IPSet (BitVec 32))
  let a := a.union (.prefix (p4 "10.0.0.0/25"))
  let b := b.union (.prefix (p4 "10.0.0.128/25"))
  let a := a.union (.set b)
  let c0 := a.isValid
  let c1 := (a.contains (.prefix (p4 "10.0.0.0/25")))
  let c2 := (a.contains (.prefix (p4 "10.0.0.128/25")))
  let c3 := (a.contains (.prefix (p4 "10.0.0.0/24")))
  c0 && c1 && c2 && c3) = true := by decide +kernel

/-- /repo/ipv4/set_test.go:71-81 `TestSetRemoveSet`, 4 assertions -/
example : (
  let a := (IPSet.empty : IPSet (BitVec 32))
  let b := (IPSet.empty : IPSet (BitVec 32))
  let a := a.union (.prefix (p4 "10.0.0.0/24"))
  let b := b.union (.prefix (p4 "10.0.0.128/25"))
  let a := a.difference (.set b)
  let c0 := a.isValid
  let c1 := (a.contains (.prefix (p4 "10.0.0.0/25")))
  let c2 := !(a.contains (.prefix (p4 "10.0.0.128/25")))
  let c3 := !(a.contains (.prefix (p4 "10.0.0.0/24")))
  c0 && c1 && c2 && c3) = true := by decide +kernel

/-- /repo/ipv4/set_test.go:184-187 `TestSetContainsNil`, 2 assertions -/
example : (
  let c0 := ((IPSet.empty : IPSet (BitVec 32)).contains .nil)
  let c1 := ((IPSet.empty : IPSet (BitVec 32)).contains .nil)
  c0 && c1) = true := by decide +kernel

/-- /repo/ipv4/set_test.go:189-192 `TestSetUnionNil`, 2 assertions -/
example : (
  let c0 := decide (0 = ((IPSet.empty : IPSet (BitVec 32)).union .nil).numAddresses.toNat)
  let c1 := decide (0 = ((IPSet.empty : IPSet (BitVec 32)).union .nil).numAddresses.toNat)
  c0 && c1) = true := by decide +kernel

/-- /repo/ipv4/set_test.go:194-197 `TestSetIntesectionNil`, 2 assertions -/
example : (
  let c0 := decide (0 = ((IPSet.empty : IPSet (BitVec 32)).intersection .nil).numAddresses.toNat)
  let c1 := decide (0 = ((IPSet.empty : IPSet (BitVec 32)).intersection .nil).numAddresses.toNat)
  c0 && c1) = true := by decide +kernel

/-- /repo/ipv4/set_test.go:199-202 `TestSetDifferenceNil`, 2 assertions -/
example : (
  let c0 := decide (0 = ((IPSet.empty : IPSet (BitVec 32)).difference .nil).numAddresses.toNat)
  let c1 := decide (0 = ((IPSet.empty : IPSet (BitVec 32)).difference .nil).numAddresses.toNat)
  c0 && c1) = true := by decide +kernel

/-- /repo/ipv4/set_test.go:204-208 `TestSetInsertNil`, 1 assertions -/
example : (
  let s := (IPSet.empty : IPSet (BitVec 32))
  let s := s.union .nil
  let c0 := decide (0 = s.numAddresses.toNat)
  c0) = true := by decide +kernel

/-- /repo/ipv4/set_test.go:210-214 `TestSetRemoveNil`, 1 assertions -/
example : (
  let s := (IPSet.empty : IPSet (BitVec 32))
  let s := s.difference .nil
  let c0 := decide (0 = s.numAddresses.toNat)
  c0) = true := by decide +kernel

/-- /repo/ipv4/set_test.go:366-383 `TestFixedSetContainsSet`, 2 assertions -/
example : (
  let s := (IPSet.empty : IPSet (BitVec 32))
  let s := s.union (.prefix (p4 "10.0.0.0/16"))
  let other := (IPSet.empty : IPSet (BitVec 32))
  let other := other.union (.prefix (p4 "10.0.0.0/24"))
  let other := other.union (.prefix (p4 "10.0.30.0/27"))
  let other := other.union (.prefix (p4 "10.0.128.0/17"))
  let c0 := (s.contains (.set other))
  let other := other.union (.prefix (p4 "10.224.0.0/24"))
  let other := other.union (.prefix (p4 "10.1.30.0/27"))
  let other := other.union (.prefix (p4 "10.0.128.0/15"))
  let c1 := !(s.contains (.set other))
  c0 && c1) = true := by decide +kernel

/-- /repo/ipv4/set_test.go:397-402 `TestOldSetInit`, 2 assertions -/
example : (
  let set := (IPSet.empty : IPSet (BitVec 32))
  let c0 := decide (0 = set.numAddresses.toNat)
  let c1 := set.isValid
  c0 && c1) = true := by decide +kernel

/-- /repo/ipv4/set_test.go:404-411 `TestOldSetContains`, 4 assertions -/
example : (
  let set := (IPSet.empty : IPSet (BitVec 32))
  let c0 := decide (0 = set.numAddresses.toNat)
  let c1 := !(set.contains (.address (a4 "8.8.8.8")))
  let c2 := !(set.contains (.address (a4 "9.9.9.9")))
  let c3 := set.isValid
  c0 && c1 && c2 && c3) = true := by decide +kernel

/-- /repo/ipv4/set_test.go:413-424 `TestOldSetInsert`, 6 assertions -/
example : (
  let s := (IPSet.empty : IPSet (BitVec 32))
  let s := s.union (.address (a4 "9.9.9.9"))
  let c0 := decide (1 = s.numAddresses.toNat)
  let c1 := (s.contains (.address (a4 "9.9.9.9")))
  let c2 := !(s.contains (.address (a4 "8.8.8.8")))
  let s := s.union (.address (a4 "8.8.8.8"))
  let c3 := decide (2 = s.trie.numNodes)
  let c4 := (s.contains (.address (a4 "8.8.8.8")))
  let c5 := s.isValid
  c0 && c1 && c2 && c3 && c4 && c5) = true := by decide +kernel

/-- /repo/ipv4/set_test.go:426-437 `TestOldSetInsertPrefixwork`, 7 assertions -/
example : (
  let s := (IPSet.empty : IPSet (BitVec 32))
  let s := s.union (.prefix (p4 "10.0.0.0/24"))
  let c0 := decide (1 = s.trie.numNodes)
  let c1 := decide (256 = s.numAddresses.toNat)
  let c2 := (s.contains (.prefix (p4 "10.0.0.0/24")))
  let c3 := (s.contains (.prefix (p4 "10.0.0.128/25")))
  let c4 := !(s.contains (.address (a4 "9.9.9.9")))
  let c5 := !(s.contains (.address (a4 "8.8.8.8")))
  let c6 := s.isValid
  c0 && c1 && c2 && c3 && c4 && c5 && c6) = true := by decide +kernel

/-- /repo/ipv4/set_test.go:439-480 `TestOldSetInsertSequential`, 17 assertions -/
example : (
  let s := (IPSet.empty : IPSet (BitVec 32))
  let s := s.union (.address (a4 "192.168.1.0"))
  let c0 := decide (1 = s.trie.numNodes)
  let s := s.union (.address (a4 "192.168.1.1"))
  let c1 := decide (1 = s.trie.numNodes)
  let s := s.union (.address (a4 "192.168.1.2"))
  let c2 := decide (2 = s.trie.numNodes)
  let s := s.union (.address (a4 "192.168.1.3"))
  let c3 := decide (1 = s.trie.numNodes)
  let c4 := decide (4 = s.numAddresses.toNat)
  let cidr := (p4 "192.168.1.0/30")
  let c5 := (s.contains (.prefix cidr))
  let cidr := (p4 "192.168.1.4/31")
  let s := s.union (.prefix cidr)
  let c6 := decide (2 = s.trie.numNodes)
  let c7 := (s.contains (.prefix cidr))
  let cidr := (p4 "192.168.1.6/31")
  let s := s.union (.prefix cidr)
  let c8 := decide (1 = s.trie.numNodes)
  let c9 := (s.contains (.prefix cidr))
  let cidr := (p4 "192.168.1.6/31")
  let s := s.union (.prefix cidr)
  let c10 := decide (1 = s.trie.numNodes)
  let c11 := (s.contains (.prefix cidr))
  let cidr := (p4 "192.168.0.240/29")
  let s := s.union (.prefix cidr)
  let c12 := decide (2 = s.trie.numNodes)
  let c13 := (s.contains (.prefix cidr))
  let cidr := (p4 "192.168.0.248/29")
  let s := s.union (.prefix cidr)
  let c14 := decide (2 = s.trie.numNodes)
  let c15 := (s.contains (.prefix cidr))
  let c16 := s.isValid
  c0 && c1 && c2 && c3 && c4 && c5 && c6 && c7 && c8 && c9 && c10 && c11 && c12 && c13 && c14 && c15 && c16) = true := by decide +kernel

/-- /repo/ipv4/set_test.go:482-499 `TestOldSetRemove`, 9 assertions -/
example : (
  let s := (IPSet.empty : IPSet (BitVec 32))
  let s := s.union (.prefix (p4 "10.0.0.0/24"))
  let c0 := decide (1 = s.trie.numNodes)
  let s := s.difference (.prefix (p4 "10.0.0.128/25"))
  let c1 := decide (1 = s.trie.numNodes)
  let c2 := decide (128 = s.numAddresses.toNat)
  let c3 := !(s.contains (.prefix (p4 "10.0.0.0/24")))
  let c4 := !(s.contains (.prefix (p4 "10.0.0.128/25")))
  let cidr := (p4 "10.0.0.0/25")
  let c5 := (s.contains (.prefix cidr))
  let s := s.difference (.address (a4 "10.0.0.1"))
  let c6 := decide (127 = s.numAddresses.toNat)
  let c7 := decide (7 = s.trie.numNodes)
  let c8 := s.isValid
  c0 && c1 && c2 && c3 && c4 && c5 && c6 && c7 && c8) = true := by decide +kernel

/-- /repo/ipv4/set_test.go:501-523 `TestOldSetRemovePrefixworkBroadcast`, 12 assertions -/
example : (
  let s := (IPSet.empty : IPSet (BitVec 32))
  let s := s.union (.prefix (p4 "10.0.0.0/24"))
  let c0 := decide (1 = s.trie.numNodes)
  let s := s.difference (.address (p4 "10.0.0.0/24").addr)
  let s := s.difference (.address (a4 "10.0.0.255"))
  let c1 := decide (254 = s.numAddresses.toNat)
  let c2 := decide (14 = s.trie.numNodes)
  let c3 := !(s.contains (.prefix (p4 "10.0.0.0/24")))
  let c4 := !(s.contains (.prefix (p4 "10.0.0.128/25")))
  let c5 := !(s.contains (.address (a4 "10.0.0.255")))
  let c6 := !(s.contains (.address (p4 "10.0.0.0/24").addr))
  let cidr := (p4 "10.0.0.128/26")
  let c7 := (s.contains (.prefix cidr))
  let c8 := (s.contains (.address (a4 "10.0.0.1")))
  let s := s.difference (.address (a4 "10.0.0.1"))
  let c9 := decide (253 = s.numAddresses.toNat)
  let c10 := decide (13 = s.trie.numNodes)
  let c11 := s.isValid
  c0 && c1 && c2 && c3 && c4 && c5 && c6 && c7 && c8 && c9 && c10 && c11) = true := by decide +kernel

/-- /repo/ipv4/set_test.go:525-540 `TestOldSetRemoveAll`, 6 assertions -/
example : (
  let s := (IPSet.empty : IPSet (BitVec 32))
  let s := s.union (.prefix (p4 "10.0.0.0/24"))
  let cidr1 := (p4 "192.168.0.0/25")
  let s := s.union (.prefix cidr1)
  let c0 := decide (2 = s.trie.numNodes)
  let cidr2 := (p4 "0.0.0.0/0")
  let s := s.difference (.prefix cidr2)
  let c1 := decide (0 = s.trie.numNodes)
  let c2 := !(s.contains (.prefix (p4 "10.0.0.0/24")))
  let c3 := !(s.contains (.prefix (p4 "10.0.0.128/25")))
  let c4 := !(s.contains (.prefix cidr1))
  let c5 := s.isValid
  c0 && c1 && c2 && c3 && c4 && c5) = true := by decide +kernel

/-- /repo/ipv4/set_test.go:542-554 `TestOldSet_RemoveTop`, 3 assertions -/
example : (
  let testSet := (IPSet.empty : IPSet (BitVec 32))
  let ip1 := (a4 "10.0.0.1")
  let ip2 := (a4 "10.0.0.2")
  let testSet := testSet.union (.address ip2)
  let testSet := testSet.union (.address ip1)
  let testSet := testSet.difference (.address ip2)
  let c0 := (testSet.contains (.address ip1))
  let c1 := !(testSet.contains (.address ip2))
  let c2 := testSet.isValid
  c0 && c1 && c2) = true := by decide +kernel

/-- /repo/ipv4/set_test.go:556-570 `TestOldSetInsertOverlapping`, 9 assertions -/
example : (
  let s := (IPSet.empty : IPSet (BitVec 32))
  let s := s.union (.prefix (p4 "10.0.0.128/25"))
  let c0 := !(s.contains (.prefix (p4 "10.0.0.0/24")))
  let c1 := decide (1 = s.trie.numNodes)
  let s := s.union (.prefix (p4 "10.0.0.0/24"))
  let c2 := decide (1 = s.trie.numNodes)
  let c3 := decide (256 = s.numAddresses.toNat)
  let c4 := (s.contains (.prefix (p4 "10.0.0.0/24")))
  let c5 := (s.contains (.address (a4 "10.0.0.1")))
  let c6 := !(s.contains (.address (a4 "8.8.8.8")))
  let c7 := !(s.contains (.address (a4 "9.9.9.9")))
  let c8 := s.isValid
  c0 && c1 && c2 && c3 && c4 && c5 && c6 && c7 && c8) = true := by decide +kernel

/-- /repo/ipv4/set_test.go:572-585 `TestOldSetUnion`, 4 assertions -/
example : (
  let set1 := (IPSet.empty : IPSet (BitVec 32))
  let set2 := (IPSet.empty : IPSet (BitVec 32))
  let set1 := set1.union (.prefix (p4 "10.0.0.0/24"))
  let cidr := (p4 "192.168.0.248/29")
  let set2 := set2.union (.prefix cidr)
  let set := (set1.union (.set set2))
  let c0 := (set.contains (.prefix (p4 "10.0.0.0/24")))
  let c1 := (set.contains (.prefix cidr))
  let c2 := set1.isValid
  let c3 := set2.isValid
  c0 && c1 && c2 && c3) = true := by decide +kernel

/-- /repo/ipv4/set_test.go:587-600 `TestOldSetDifference`, 4 assertions -/
example : (
  let set1 := (IPSet.empty : IPSet (BitVec 32))
  let set2 := (IPSet.empty : IPSet (BitVec 32))
  let set1 := set1.union (.prefix (p4 "10.0.0.0/24"))
  let cidr := (p4 "192.168.0.248/29")
  let set2 := set2.union (.prefix cidr)
  let set := (set1.difference (.set set2))
  let c0 := (set.contains (.prefix (p4 "10.0.0.0/24")))
  let c1 := !(set.contains (.prefix cidr))
  let c2 := set1.isValid
  let c3 := set2.isValid
  c0 && c1 && c2 && c3) = true := by decide +kernel

/-- /repo/ipv4/set_test.go:729-741 `TestOldEqualTrivial`, 7 assertions -/
example : (
  let a := (IPSet.empty : IPSet (BitVec 32))
  let b := (IPSet.empty : IPSet (BitVec 32))
  let c0 := (a.equal b)
  let a := a.union (.prefix (p4 "10.0.0.0/24"))
  let c1 := !(a.equal b)
  let c2 := !(b.equal a)
  let c3 := (a.equal a)
  let c4 := (b.equal b)
  let c5 := a.isValid
  let c6 := b.isValid
  c0 && c1 && c2 && c3 && c4 && c5 && c6) = true := by decide +kernel

/-- /repo/ipv4/set_test.go:743-753 `TestOldEqualSingleNode`, 4 assertions -/
example : (
  let a := (IPSet.empty : IPSet (BitVec 32))
  let b := (IPSet.empty : IPSet (BitVec 32))
  let a := a.union (.prefix (p4 "10.0.0.0/24"))
  let b := b.union (.prefix (p4 "10.0.0.0/24"))
  let c0 := (a.equal b)
  let c1 := (b.equal a)
  let c2 := a.isValid
  let c3 := b.isValid
  c0 && c1 && c2 && c3) = true := by decide +kernel

/-- /repo/ipv4/setnode_test.go:295-344 `TestSetRemove`, 10 assertions -/
example : (
  let trie := (Trie.nil : SetNode (BitVec 32))
  let c0 := decide (0 = (SetNode.numAddresses trie).toNat)
  let trie := ((SetNode.removeKey (p4 "203.0.113.0/24") trie).getD .nil)
  let c1 := decide (0 = (SetNode.numAddresses trie).toNat)
  let trie := (Trie.nil : SetNode (BitVec 32))
  let prefix_ := (p4 "203.0.113.0/24")
  let trie := ((SetNode.insertKey prefix_ trie).getD .nil)
  let c2 := decide (256 = (SetNode.numAddresses trie).toNat)
  let trie := ((SetNode.removeKey prefix_ trie).getD .nil)
  let c3 := decide (0 = (SetNode.numAddresses trie).toNat)
  let trie := (Trie.nil : SetNode (BitVec 32))
  let prefix_ := (p4 "203.0.113.0/24")
  let trie := ((SetNode.insertKey prefix_ trie).getD .nil)
  let c4 := decide (256 = (SetNode.numAddresses trie).toNat)
  let trie := ((SetNode.removeKey (p4 "203.0.113.233/32") trie).getD .nil)
  let c5 := decide (255 = (SetNode.numAddresses trie).toNat)
  let trie := (Trie.nil : SetNode (BitVec 32))
  let prefix_ := (p4 "203.0.113.0/24")
  let trie := ((SetNode.insertKey prefix_ trie).getD .nil)
  let c6 := decide (256 = (SetNode.numAddresses trie).toNat)
  let trie := ((SetNode.removeKey (p4 "203.0.113.128/25") trie).getD .nil)
  let c7 := decide (128 = (SetNode.numAddresses trie).toNat)
  let trie := (Trie.nil : SetNode (BitVec 32))
  let prefix_ := (p4 "203.0.113.0/24")
  let trie := ((SetNode.insertKey prefix_ trie).getD .nil)
  let c8 := decide (256 = (SetNode.numAddresses trie).toNat)
  let trie := ((SetNode.removeKey (p4 "203.0.112.0/23") trie).getD .nil)
  let c9 := decide (0 = (SetNode.numAddresses trie).toNat)
  c0 && c1 && c2 && c3 && c4 && c5 && c6 && c7 && c8 && c9) = true := by decide +kernel

/-- /repo/ipv4/setnode_test.go:346-397 `TestSetIntersect`, 20 assertions -/
example : (
  let one := (Trie.nil : SetNode (BitVec 32))
  let two := (Trie.nil : SetNode (BitVec 32))
  let three := (Trie.nil : SetNode (BitVec 32))
  let three := ((SetNode.insertKey (p4 "203.0.113.0/24") three).getD .nil)
  let c0 := decide (0 = (SetNode.numAddresses one).toNat)
  let c1 := decide (0 = (SetNode.numAddresses two).toNat)
  let c2 := decide (256 = (SetNode.numAddresses three).toNat)
  let c3 := decide (0 = (SetNode.numAddresses (SetNode.intersect one two)).toNat)
  let c4 := decide (0 = (SetNode.numAddresses (SetNode.intersect one three)).toNat)
  let c5 := decide (0 = (SetNode.numAddresses (SetNode.intersect three one)).toNat)
  let one := (Trie.nil : SetNode (BitVec 32))
  let two := (Trie.nil : SetNode (BitVec 32))
  let one := ((SetNode.insertKey (p4 "203.0.113.0/27") one).getD .nil)
  let two := ((SetNode.insertKey (p4 "203.0.113.128/25") two).getD .nil)
  let c6 := decide (0 = (SetNode.numAddresses (SetNode.intersect one two)).toNat)
  let c7 := decide (0 = (SetNode.numAddresses (SetNode.intersect two one)).toNat)
  let one := (Trie.nil : SetNode (BitVec 32))
  let two := (Trie.nil : SetNode (BitVec 32))
  let one := ((SetNode.insertKey (p4 "203.0.113.0/24") one).getD .nil)
  let two := ((SetNode.insertKey (p4 "203.0.113.128/25") two).getD .nil)
  let result := (SetNode.intersect one two)
  let c8 := decide (128 = (SetNode.numAddresses result).toNat)
  let c9 := decide (128 = (SetNode.numAddresses (SetNode.intersect two one)).toNat)
  let c10 := (Trie.match (p4 "203.0.113.117/32") result).isNone
  let c11 := (Trie.match (p4 "203.0.113.217/32") result).isSome
  let one := (Trie.nil : SetNode (BitVec 32))
  let two := (Trie.nil : SetNode (BitVec 32))
  let one := ((SetNode.insertKey (p4 "198.51.100.0/24") one).getD .nil)
  let one := ((SetNode.insertKey (p4 "203.0.113.0/24") one).getD .nil)
  let two := ((SetNode.insertKey (p4 "203.0.113.128/25") two).getD .nil)
  let result := (SetNode.intersect one two)
  let c12 := decide (128 = (SetNode.numAddresses result).toNat)
  let c13 := (Trie.match (p4 "198.51.100.0/24") result).isNone
  let c14 := (Trie.match (p4 "203.0.113.0/25") result).isNone
  let c15 := (Trie.match (p4 "203.0.113.128/25") result).isSome
  let result := (SetNode.intersect two one)
  let c16 := decide (128 = (SetNode.numAddresses result).toNat)
  let c17 := (Trie.match (p4 "198.51.100.0/24") result).isNone
  let c18 := (Trie.match (p4 "203.0.113.0/25") result).isNone
  let c19 := (Trie.match (p4 "203.0.113.128/25") result).isSome
  c0 && c1 && c2 && c3 && c4 && c5 && c6 && c7 && c8 && c9 && c10 && c11 && c12 && c13 && c14 && c15 && c16 && c17 && c18 && c19) = true := by decide +kernel

/-- /repo/ipv4/setnode_test.go:399-487 `TestSetDifference`, 33 assertions -/
example : (
  let one := (Trie.nil : SetNode (BitVec 32))
  let two := (Trie.nil : SetNode (BitVec 32))
  let three := (Trie.nil : SetNode (BitVec 32))
  let three := ((SetNode.insertKey (p4 "203.0.113.0/24") three).getD .nil)
  let c0 := decide (0 = (SetNode.numAddresses one).toNat)
  let c1 := decide (0 = (SetNode.numAddresses two).toNat)
  let c2 := decide (256 = (SetNode.numAddresses three).toNat)
  let c3 := decide (0 = (SetNode.numAddresses (SetNode.difference one two)).toNat)
  let c4 := decide (0 = (SetNode.numAddresses (SetNode.difference one three)).toNat)
  let c5 := decide (256 = (SetNode.numAddresses (SetNode.difference three one)).toNat)
  let one := (Trie.nil : SetNode (BitVec 32))
  let two := (Trie.nil : SetNode (BitVec 32))
  let one := ((SetNode.insertKey (p4 "203.0.113.0/27") one).getD .nil)
  let two := ((SetNode.insertKey (p4 "203.0.113.128/25") two).getD .nil)
  let result := (SetNode.difference one two)
  let c6 := decide (32 = (SetNode.numAddresses result).toNat)
  let c7 := (Trie.match (p4 "203.0.113.0/27") result).isSome
  let c8 := (Trie.match (p4 "203.0.113.128/25") result).isNone
  let result := (SetNode.difference two one)
  let c9 := decide (128 = (SetNode.numAddresses result).toNat)
  let c10 := (Trie.match (p4 "203.0.113.0/27") result).isNone
  let c11 := (Trie.match (p4 "203.0.113.128/25") result).isSome
  let one := (Trie.nil : SetNode (BitVec 32))
  let two := (Trie.nil : SetNode (BitVec 32))
  let one := ((SetNode.insertKey (p4 "203.0.113.0/24") one).getD .nil)
  let two := ((SetNode.insertKey (p4 "203.0.113.128/25") two).getD .nil)
  let result := (SetNode.difference one two)
  let c12 := decide (128 = (SetNode.numAddresses result).toNat)
  let c13 := (Trie.match (p4 "203.0.113.117/32") result).isSome
  let c14 := (Trie.match (p4 "203.0.113.217/32") result).isNone
  let c15 := decide (0 = (SetNode.numAddresses (SetNode.difference two one)).toNat)
  let one := (Trie.nil : SetNode (BitVec 32))
  let two := (Trie.nil : SetNode (BitVec 32))
  let one := ((SetNode.insertKey (p4 "198.51.100.0/24") one).getD .nil)
  let one := ((SetNode.insertKey (p4 "203.0.113.0/24") one).getD .nil)
  let two := ((SetNode.insertKey (p4 "203.0.113.128/25") two).getD .nil)
  let result := (SetNode.difference one two)
  let c16 := decide (384 = (SetNode.numAddresses result).toNat)
  let c17 := (Trie.match (p4 "198.51.100.0/24") result).isSome
  let c18 := (Trie.match (p4 "203.0.113.0/25") result).isSome
  let c19 := (Trie.match (p4 "203.0.113.128/25") result).isNone
  let result := (SetNode.difference two one)
  let c20 := decide (0 = (SetNode.numAddresses result).toNat)
  let c21 := (Trie.match (p4 "198.51.100.0/24") result).isNone
  let c22 := (Trie.match (p4 "203.0.113.0/25") result).isNone
  let c23 := (Trie.match (p4 "203.0.113.128/25") result).isNone
  let one := (Trie.nil : SetNode (BitVec 32))
  let two := (Trie.nil : SetNode (BitVec 32))
  let one := ((SetNode.insertKey (p4 "198.51.100.0/24") one).getD .nil)
  let one := ((SetNode.insertKey (p4 "203.0.113.0/24") one).getD .nil)
  let two := ((SetNode.insertKey (p4 "192.0.2.0/24") two).getD .nil)
  let result := (SetNode.difference one two)
  let c24 := decide (512 = (SetNode.numAddresses result).toNat)
  let c25 := (Trie.match (p4 "198.51.100.0/24") result).isSome
  let c26 := (Trie.match (p4 "203.0.113.0/24") result).isSome
  let c27 := (Trie.match (p4 "192.0.2.0/24") result).isNone
  let one := (Trie.nil : SetNode (BitVec 32))
  let two := (Trie.nil : SetNode (BitVec 32))
  let one := ((SetNode.insertKey (p4 "192.0.0.0/4") one).getD .nil)
  let two := ((SetNode.insertKey (p4 "198.51.100.0/24") two).getD .nil)
  let two := ((SetNode.insertKey (p4 "203.0.113.0/24") two).getD .nil)
  let result := (SetNode.difference one two)
  let c28 := decide (268434944 = (SetNode.numAddresses result).toNat)
  let c29 := (Trie.match (p4 "198.51.100.0/24") result).isNone
  let c30 := (Trie.match (p4 "203.0.113.0/24") result).isNone
  let c31 := (Trie.match (p4 "197.51.100.128/25") result).isSome
  let c32 := (Trie.match (p4 "204.0.113.128/25") result).isSome
  c0 && c1 && c2 && c3 && c4 && c5 && c6 && c7 && c8 && c9 && c10 && c11 && c12 && c13 && c14 && c15 && c16 && c17 && c18 && c19 && c20 && c21 && c22 && c23 && c24 && c25 && c26 && c27 && c28 && c29 && c30 && c31 && c32) = true := by decide +kernel

/-- /repo/ipv4/table_test.go:13-22 `TestTableTInsertOrUpdate`, 3 assertions -/
example : (
  let m := (Table.new_ : Table (BitVec 32) Nat)
  let res := m.insert (.address (a4 "10.224.24.1")) 0
  let m := res.1
  let m := m.insertOrUpdate (.address (a4 "10.224.24.1")) 3
  let c0 := decide (1 = m.numEntries)
  let res := m.get (.address (a4 "10.224.24.1"))
  let data := res.1
  let ok := res.2
  let c1 := ok
  let c2 := decide (3 = data)
  c0 && c1 && c2) = true := by decide +kernel

/-- /repo/ipv4/table_test.go:24-37 `TestTableTInsertOrUpdateDuplicate`, 6 assertions -/
example : (
  let m := (Table.new_ : Table (BitVec 32) Nat)
  let m := m.insertOrUpdate (.address (a4 "10.224.24.1")) 3
  let c0 := decide (1 = m.numEntries)
  let res := m.get (.address (a4 "10.224.24.1"))
  let data := res.1
  let ok := res.2
  let c1 := ok
  let c2 := decide (3 = data)
  let m := m.insertOrUpdate (.address (a4 "10.224.24.1")) 4
  let c3 := decide (1 = m.numEntries)
  let res := m.get (.address (a4 "10.224.24.1"))
  let data := res.1
  let ok := res.2
  let c4 := ok
  let c5 := decide (4 = data)
  c0 && c1 && c2 && c3 && c4 && c5) = true := by decide +kernel

/-- /repo/ipv4/table_test.go:39-46 `TestTableTGetOnlyExactMatch`, 2 assertions -/
example : (
  let m := (Table.new_ : Table (BitVec 32) Nat)
  let res := m.insert (.prefix (p4 "10.224.24.0/24")) 3
  let m := res.1
  let c0 := decide (1 = m.numEntries)
  let res := m.get (.address (a4 "10.224.24.1"))
  let ok := res.2
  let c1 := !ok
  c0 && c1) = true := by decide +kernel

/-- /repo/ipv4/table_test.go:48-56 `TestTableTGetNotFound`, 3 assertions -/
example : (
  let m := (Table.new_ : Table (BitVec 32) Nat)
  let res := m.insert (.address (a4 "10.224.24.1")) 3
  let m := res.1
  let succeeded := res.2
  let c0 := succeeded
  let c1 := decide (1 = m.numEntries)
  let res := m.get (.address (a4 "10.225.24.1"))
  let ok := res.2
  let c2 := !ok
  c0 && c1 && c2) = true := by decide +kernel

/-- /repo/ipv4/table_test.go:58-66 `TestTableTGetOrInsertOnlyExactMatch`, 3 assertions -/
example : (
  let m := (Table.new_ : Table (BitVec 32) Nat)
  let res := m.insert (.prefix (p4 "10.224.24.0/24")) 3
  let m := res.1
  let c0 := decide (1 = m.numEntries)
  let res := m.getOrInsert (.address (a4 "10.224.24.1")) 5
  let m := res.1
  let value := res.2
  let c1 := decide (5 = value)
  let c2 := decide (2 = m.numEntries)
  c0 && c1 && c2) = true := by decide +kernel

/-- /repo/ipv4/table_test.go:68-76 `TestTableTGetOrInsertNotFound`, 3 assertions -/
example : (
  let m := (Table.new_ : Table (BitVec 32) Nat)
  let res := m.insert (.address (a4 "10.224.24.1")) 3
  let m := res.1
  let succeeded := res.2
  let c0 := succeeded
  let res := m.getOrInsert (.address (a4 "10.225.24.1")) 5
  let m := res.1
  let value := res.2
  let c1 := decide (5 = value)
  let c2 := decide (2 = m.numEntries)
  c0 && c1 && c2) = true := by decide +kernel

/-- /repo/ipv4/table_test.go:78-86 `TestTableTGetOrInsertPrefixOnlyExactMatch`, 3 assertions -/
example : (
  let m := (Table.new_ : Table (BitVec 32) Nat)
  let res := m.insert (.prefix (p4 "10.224.24.0/24")) 3
  let m := res.1
  let c0 := decide (1 = m.numEntries)
  let res := m.getOrInsert (.prefix (p4 "10.224.24.2/31")) 5
  let m := res.1
  let value := res.2
  let c1 := decide (5 = value)
  let c2 := decide (2 = m.numEntries)
  c0 && c1 && c2) = true := by decide +kernel

/-- /repo/ipv4/table_test.go:88-96 `TestTableTGetOrInsertPrefixNotFound`, 3 assertions -/
example : (
  let m := (Table.new_ : Table (BitVec 32) Nat)
  let res := m.insert (.address (a4 "10.224.24.1")) 3
  let m := res.1
  let succeeded := res.2
  let c0 := succeeded
  let res := m.getOrInsert (.prefix (p4 "10.225.24.2/31")) 5
  let m := res.1
  let value := res.2
  let c1 := decide (5 = value)
  let c2 := decide (2 = m.numEntries)
  c0 && c1 && c2) = true := by decide +kernel

/-- /repo/ipv4/table_test.go:98-109 `TestTableTMatchLongestPrefixMatch`, 5 assertions -/
example : (
  let m := (Table.new_ : Table (BitVec 32) Nat)
  let res := m.insert (.prefix (p4 "10.224.24.0/24")) 3
  let m := res.1
  let c0 := decide (1 = m.numEntries)
  let res := m.insert (.prefix (p4 "10.224.0.0/16")) 4
  let m := res.1
  let c1 := decide (2 = m.numEntries)
  let res := m.longestMatch (.address (a4 "10.224.24.1"))
  let data := res.1
  let matched := res.2.1
  let n := res.2.2
  let c2 := matched
  let c3 := decide ((p4 "10.224.24.0/24") = n)
  let c4 := decide (3 = data)
  c0 && c1 && c2 && c3 && c4) = true := by decide +kernel

/-- /repo/ipv4/table_test.go:111-119 `TestMTableatchNotFound`, 3 assertions -/
example : (
  let m := (Table.new_ : Table (BitVec 32) Nat)
  let res := m.insert (.address (a4 "10.224.24.1")) 3
  let m := res.1
  let succeeded := res.2
  let c0 := succeeded
  let c1 := decide (1 = m.numEntries)
  let res := m.longestMatch (.address (a4 "10.225.24.1"))
  let matched := res.2.1
  let c2 := !matched
  c0 && c1 && c2) = true := by decide +kernel

/-- /repo/ipv4/table_test.go:121-129 `TestTableTRemove`, 3 assertions -/
example : (
  let m := (Table.new_ : Table (BitVec 32) Nat)
  let res := m.insert (.address (a4 "10.224.24.1")) 3
  let m := res.1
  let succeeded := res.2
  let c0 := succeeded
  let c1 := decide (1 = m.numEntries)
  let res := m.remove (.address (a4 "10.224.24.1"))
  let m := res.1
  let c2 := decide (0 = m.numEntries)
  c0 && c1 && c2) = true := by decide +kernel

/-- /repo/ipv4/table_test.go:131-139 `TestTableTRemoveNotFound`, 3 assertions -/
example : (
  let m := (Table.new_ : Table (BitVec 32) Nat)
  let res := m.insert (.address (a4 "10.224.24.1")) 3
  let m := res.1
  let succeeded := res.2
  let c0 := succeeded
  let c1 := decide (1 = m.numEntries)
  let res := m.remove (.address (a4 "10.225.24.1"))
  let m := res.1
  let c2 := decide (1 = m.numEntries)
  c0 && c1 && c2) = true := by decide +kernel

/-- /repo/ipv4/table_test.go:141-153 `TestTableTInsert`, 5 assertions -/
example : (
  let m := (Table.new_ : Table (BitVec 32) Nat)
  let res := m.insert (.prefix (p4 "10.224.24.0/24")) 3
  let m := res.1
  let succeeded := res.2
  let c0 := succeeded
  let c1 := decide (1 = m.numEntries)
  let res := m.get (.prefix (p4 "10.224.24.0/24"))
  let data := res.1
  let ok := res.2
  let c2 := ok
  let c3 := decide (3 = data)
  let res := m.get (.prefix (p4 "10.225.24.0/24"))
  let ok := res.2
  let c4 := !ok
  c0 && c1 && c2 && c3 && c4) = true := by decide +kernel

/-- /repo/ipv4/table_test.go:155-167 `TestTableTInsertOrUpdatePrefix`, 4 assertions -/
example : (
  let m := (Table.new_ : Table (BitVec 32) Nat)
  let res := m.insert (.prefix (p4 "10.224.24.0/24")) 0
  let m := res.1
  let m := m.insertOrUpdate (.prefix (p4 "10.224.24.0/24")) 3
  let c0 := decide (1 = m.numEntries)
  let res := m.get (.prefix (p4 "10.224.24.0/24"))
  let data := res.1
  let ok := res.2
  let c1 := ok
  let c2 := decide (3 = data)
  let res := m.get (.prefix (p4 "10.225.24.0/24"))
  let ok := res.2
  let c3 := !ok
  c0 && c1 && c2 && c3) = true := by decide +kernel

/-- /repo/ipv4/table_test.go:169-177 `TestTableTRemovePrefixNotFound`, 3 assertions -/
example : (
  let m := (Table.new_ : Table (BitVec 32) Nat)
  let res := m.insert (.prefix (p4 "10.224.24.0/24")) 3
  let m := res.1
  let succeeded := res.2
  let c0 := succeeded
  let c1 := decide (1 = m.numEntries)
  let res := m.remove (.prefix (p4 "10.225.24.0/24"))
  let m := res.1
  let c2 := decide (1 = m.numEntries)
  c0 && c1 && c2) = true := by decide +kernel

/-- /repo/ipv4/table_test.go:179-192 `TestTableTMatchPrefixLongestPrefixMatch`, 6 assertions -/
example : (
  let m := (Table.new_ : Table (BitVec 32) Nat)
  let res := m.insert (.prefix (p4 "10.224.24.0/24")) 3
  let m := res.1
  let c0 := decide (1 = m.numEntries)
  let res := m.insert (.prefix (p4 "10.224.0.0/16")) 4
  let m := res.1
  let c1 := decide (2 = m.numEntries)
  let prefix_ := (p4 "10.224.24.0/27")
  let res := m.longestMatch (.prefix prefix_)
  let data := res.1
  let matched := res.2.1
  let n := res.2.2
  let c2 := decide (prefix_ ≠ n)
  let c3 := matched
  let c4 := decide (3 = data)
  let c5 := decide ((p4 "10.224.24.0/24") = n)
  c0 && c1 && c2 && c3 && c4 && c5) = true := by decide +kernel

/-- /repo/ipv4/table_test.go:194-201 `TestTableTMatchPrefixNotFound`, 2 assertions -/
example : (
  let m := (Table.new_ : Table (BitVec 32) Nat)
  let res := m.insert (.prefix (p4 "10.224.24.0/24")) 3
  let m := res.1
  let c0 := decide (1 = m.numEntries)
  let res := m.longestMatch (.prefix (p4 "10.225.24.0/24"))
  let matched := res.2.1
  let c1 := !matched
  c0 && c1) = true := by decide +kernel

/-- /repo/ipv4/table_test.go:368-377 `TestTableTnsert`, 4 assertions -/
example : (
  let m := (Table.new_ : Table (BitVec 32) Bool)
  let c0 := decide (0 = m.trie.numNodes)
  let key := (⟨182458368#32, 24⟩ : Prefix (BitVec 32))
  let res := m.insert (.prefix key) true
  let m := res.1
  let succeeded := res.2
  let c1 := succeeded
  let c2 := decide (1 = m.trie.numNodes)
  let c3 := m.trie.isValid
  c0 && c1 && c2 && c3) = true := by decide +kernel

/-- /repo/ipv4/table_test.go:379-400 `TestTableTnsertOrUpdate`, 12 assertions -/
example : (
  let m := (Table.new_ : Table (BitVec 32) Bool)
  let c0 := decide (0 = m.trie.numNodes)
  let key := (⟨182458368#32, 24⟩ : Prefix (BitVec 32))
  let m := m.insertOrUpdate (.prefix key) true
  let c1 := decide (1 = m.trie.numNodes)
  let res := m.longestMatch (.prefix key)
  let value := res.1
  let match_ := res.2.1
  let matchedKey := res.2.2
  let c2 := decide (key = matchedKey)
  let c3 := match_
  let c4 := decide (key = matchedKey)
  let c5 := value
  let m := m.insertOrUpdate (.prefix key) false
  let c6 := decide (1 = m.trie.numNodes)
  let res := m.longestMatch (.prefix key)
  let value := res.1
  let match_ := res.2.1
  let matchedKey := res.2.2
  let c7 := decide (key = matchedKey)
  let c8 := match_
  let c9 := decide (key = matchedKey)
  let c10 := !value
  let c11 := m.trie.isValid
  c0 && c1 && c2 && c3 && c4 && c5 && c6 && c7 && c8 && c9 && c10 && c11) = true := by decide +kernel

/-- /repo/ipv4/table_test.go:402-427 `TestTableTUpdate`, 14 assertions -/
example : (
  let m := (Table.new_ : Table (BitVec 32) Bool)
  let c0 := decide (0 = m.trie.numNodes)
  let key := (⟨182458368#32, 24⟩ : Prefix (BitVec 32))
  let res := m.insert (.prefix key) false
  let m := res.1
  let res := m.update (.prefix key) true
  let m := res.1
  let succeeded := res.2
  let c1 := succeeded
  let c2 := decide (1 = m.trie.numNodes)
  let res := m.longestMatch (.prefix key)
  let value := res.1
  let match_ := res.2.1
  let matchedKey := res.2.2
  let c3 := decide (key = matchedKey)
  let c4 := match_
  let c5 := decide (key = matchedKey)
  let c6 := value
  let res := m.update (.prefix key) false
  let m := res.1
  let succeeded := res.2
  let c7 := succeeded
  let c8 := decide (1 = m.trie.numNodes)
  let res := m.longestMatch (.prefix key)
  let value := res.1
  let match_ := res.2.1
  let matchedKey := res.2.2
  let c9 := decide (key = matchedKey)
  let c10 := match_
  let c11 := decide (key = matchedKey)
  let c12 := !value
  let c13 := m.trie.isValid
  c0 && c1 && c2 && c3 && c4 && c5 && c6 && c7 && c8 && c9 && c10 && c11 && c12 && c13) = true := by decide +kernel

/-- /repo/ipv4/table_test.go:429-438 `TestTableTGetOrInsert`, 4 assertions -/
example : (
  let m := (Table.new_ : Table (BitVec 32) Bool)
  let c0 := decide (0 = m.trie.numNodes)
  let key := (⟨182458368#32, 24⟩ : Prefix (BitVec 32))
  let res := m.getOrInsert (.prefix key) true
  let m := res.1
  let value := res.2
  let c1 := value
  let c2 := decide (1 = m.trie.numNodes)
  let c3 := m.trie.isValid
  c0 && c1 && c2 && c3) = true := by decide +kernel

/-- /repo/ipv4/table_test.go:440-471 `TestTableTMatch`, 12 assertions -/
example : (
  let m := (Table.new_ : Table (BitVec 32) Bool)
  let insertKey := (⟨182458368#32, 24⟩ : Prefix (BitVec 32))
  let res := m.insert (.prefix insertKey) true
  let m := res.1
  let res := m.longestMatch (.prefix (⟨182456320#32, 24⟩ : Prefix (BitVec 32)))
  let found := res.2.1
  let c0 := !found
  let c1 := m.trie.isValid
  let prefix_ := (⟨182458368#32, 24⟩ : Prefix (BitVec 32))
  let res := m.longestMatch (.prefix prefix_)
  let value := res.1
  let found := res.2.1
  let key := res.2.2
  let c2 := decide (prefix_ = key)
  let c3 := found
  let c4 := decide (insertKey = key)
  let c5 := value
  let c6 := m.trie.isValid
  let prefix_ := (⟨182458391#32, 32⟩ : Prefix (BitVec 32))
  let res := m.longestMatch (.prefix prefix_)
  let value := res.1
  let found := res.2.1
  let key := res.2.2
  let c7 := decide (prefix_ ≠ key)
  let c8 := found
  let c9 := decide (insertKey = key)
  let c10 := value
  let c11 := m.trie.isValid
  c0 && c1 && c2 && c3 && c4 && c5 && c6 && c7 && c8 && c9 && c10 && c11) = true := by decide +kernel

/-- /repo/ipv4/table_test.go:473-512 `TestTableTRemovePrefix`, 9 assertions -/
example : (
  let m := (Table.new_ : Table (BitVec 32) Bool)
  let insertKey := (⟨182458368#32, 24⟩ : Prefix (BitVec 32))
  let res := m.insert (.prefix insertKey) true
  let m := res.1
  let key := (⟨182458368#32, 24⟩ : Prefix (BitVec 32))
  let res := m.remove (.prefix key)
  let m := res.1
  let succeeded := res.2
  let c0 := succeeded
  let c1 := decide (0 = m.trie.numNodes)
  let c2 := m.trie.isValid
  let m := (Table.new_ : Table (BitVec 32) Bool)
  let insertKey := (⟨182458368#32, 24⟩ : Prefix (BitVec 32))
  let res := m.insert (.prefix insertKey) true
  let m := res.1
  let key := (⟨182456320#32, 24⟩ : Prefix (BitVec 32))
  let res := m.remove (.prefix key)
  let m := res.1
  let succeeded := res.2
  let c3 := !succeeded
  let c4 := decide (1 = m.trie.numNodes)
  let c5 := m.trie.isValid
  let m := (Table.new_ : Table (BitVec 32) Bool)
  let insertKey := (⟨182458368#32, 24⟩ : Prefix (BitVec 32))
  let res := m.insert (.prefix insertKey) true
  let m := res.1
  let key := (⟨182458391#32, 32⟩ : Prefix (BitVec 32))
  let res := m.remove (.prefix key)
  let m := res.1
  let succeeded := res.2
  let c6 := !succeeded
  let c7 := decide (1 = m.trie.numNodes)
  let c8 := m.trie.isValid
  c0 && c1 && c2 && c3 && c4 && c5 && c6 && c7 && c8) = true := by decide +kernel

/-- /repo/ipv4/table_test.go:679-687 `TestTableInsertNil`, 4 assertions -/
example : (
  let m := (Table.new_ : Table (BitVec 32) Nat)
  let res := m.insert .nil 3
  let m := res.1
  let succeeded := res.2
  let c0 := succeeded
  let c1 := decide (1 = m.numEntries)
  let res := m.get (.prefix (p4 "0.0.0.0/0"))
  let value := res.1
  let found := res.2
  let c2 := found
  let c3 := decide (3 = value)
  c0 && c1 && c2 && c3) = true := by decide +kernel

/-- /repo/ipv4/table_test.go:689-699 `TestTableUpdateNil`, 4 assertions -/
example : (
  let m := (Table.new_ : Table (BitVec 32) Nat)
  let res := m.insert .nil 10
  let m := res.1
  let res := m.update .nil 3
  let m := res.1
  let succeeded := res.2
  let c0 := succeeded
  let c1 := decide (1 = m.numEntries)
  let res := m.get (.prefix (p4 "0.0.0.0/0"))
  let value := res.1
  let found := res.2
  let c2 := found
  let c3 := decide (3 = value)
  c0 && c1 && c2 && c3) = true := by decide +kernel

/-- /repo/ipv4/table_test.go:701-710 `TestTableRemoveNil`, 2 assertions -/
example : (
  let m := (Table.new_ : Table (BitVec 32) Nat)
  let res := m.insert (.prefix (p4 "0.0.0.0/0")) 10
  let m := res.1
  let res := m.remove .nil
  let m := res.1
  let succeeded := res.2
  let c0 := succeeded
  let res := m.get (.prefix (p4 "0.0.0.0/0"))
  let found := res.2
  let c1 := !found
  c0 && c1) = true := by decide +kernel

/-- /repo/ipv4/table_test.go:712-721 `TestTableLongestMatch`, 4 assertions -/
example : (
  let m := (Table.new_ : Table (BitVec 32) Nat)
  let res := m.insert (.prefix (p4 "0.0.0.0/0")) 10
  let m := res.1
  let res := m.longestMatch .nil
  let value := res.1
  let matched := res.2.1
  let prefix_ := res.2.2
  let c0 := decide (10 = value)
  let c1 := decide (prefix_ = (⟨0#32, 0⟩ : Prefix (BitVec 32)))
  let c2 := matched
  let c3 := decide ((p4 "0.0.0.0/0") = prefix_)
  c0 && c1 && c2 && c3) = true := by decide +kernel

/-- /repo/ipv4/table_test.go:723-731 `TestTableInsertOrUpdateNil`, 3 assertions -/
example : (
  let m := (Table.new_ : Table (BitVec 32) Nat)
  let m := m.insertOrUpdate .nil 3
  let c0 := decide (1 = m.numEntries)
  let res := m.get (.prefix (p4 "0.0.0.0/0"))
  let value := res.1
  let found := res.2
  let c1 := found
  let c2 := decide (3 = value)
  c0 && c1 && c2) = true := by decide +kernel

/-- /repo/ipv4/table_test.go:733-741 `TestTableGetOrInsertNil`, 3 assertions -/
example : (
  let m := (Table.new_ : Table (BitVec 32) Nat)
  let res := m.getOrInsert .nil 11
  let m := res.1
  let result := res.2
  let c0 := decide (11 = result)
  let res := m.get (.prefix (p4 "0.0.0.0/0"))
  let value := res.1
  let found := res.2
  let c1 := found
  let c2 := decide (11 = value)
  c0 && c1 && c2) = true := by decide +kernel

/-- /repo/ipv4/table_test.go:807-854 `TestFixedTableT`, 19 assertions -/
example : (
  let addrOne := (a4 "10.224.24.1")
  let addrTwo := (a4 "10.224.24.2")
  let addrThree := (a4 "10.224.24.3")
  let m := (Table.new_ : Table (BitVec 32) Nat)
  let res := m.insert (.address addrOne) 1
  let m := res.1
  let succeeded := res.2
  let c0 := succeeded
  let im := m
  let res := m.insert (.address addrTwo) 2
  let m := res.1
  let succeeded := res.2
  let c1 := succeeded
  let m2 := im
  let res := m2.insert (.address addrThree) 3
  let m2 := res.1
  let succeeded := res.2
  let c2 := succeeded
  let res := m.get (.address addrOne)
  let value := res.1
  let found := res.2
  let c3 := found
  let c4 := decide (1 = value)
  let res := m.get (.address addrTwo)
  let value := res.1
  let found := res.2
  let c5 := found
  let c6 := decide (2 = value)
  let res := m.get (.address addrThree)
  let found := res.2
  let c7 := !found
  let c8 := decide (1 = im.numEntries)
  let res := im.get (.address addrOne)
  let value := res.1
  let found := res.2
  let c9 := found
  let c10 := decide (1 = value)
  let res := im.get (.address addrTwo)
  let found := res.2
  let c11 := !found
  let res := im.get (.address addrThree)
  let found := res.2
  let c12 := !found
  let c13 := decide (2 = m2.numEntries)
  let res := m2.get (.address addrOne)
  let value := res.1
  let found := res.2
  let c14 := found
  let c15 := decide (1 = value)
  let res := m2.get (.address addrTwo)
  let found := res.2
  let c16 := !found
  let res := m2.get (.address addrThree)
  let value := res.1
  let found := res.2
  let c17 := found
  let c18 := decide (3 = value)
  c0 && c1 && c2 && c3 && c4 && c5 && c6 && c7 && c8 && c9 && c10 && c11 && c12 && c13 && c14 && c15 && c16 && c17 && c18) = true := by decide +kernel

/-- /repo/ipv4/set_test.go:602-608 `TestOldIntersectionAinB1` -/
example : intersection4 (["10.0.16.0/20", "10.5.8.0/24", "10.23.224.0/23"], ["10.0.20.0/30", "10.5.8.0/29", "10.23.224.0/27"], ["10.23.224.0/27", "10.0.20.0/30", "10.5.8.0/29"]) = true := by decide +kernel

/-- /repo/ipv4/set_test.go:610-615 `TestOldIntersectionAinB2` -/
example : intersection4 (["10.10.0.0/30", "10.5.8.0/29", "10.23.224.0/27"], ["10.10.0.0/20", "10.5.8.0/24", "10.23.224.0/23"], ["10.10.0.0/30", "10.5.8.0/29", "10.23.224.0/27"]) = true := by decide +kernel

/-- /repo/ipv4/set_test.go:617-622 `TestOldIntersectionAinB3` -/
example : intersection4 (["10.0.5.0/24", "10.5.8.0/29", "10.23.224.0/27"], ["10.6.0.0/24", "10.9.9.0/29", "10.23.6.0/23"], []) = true := by decide +kernel

/-- /repo/ipv4/set_test.go:624-629 `TestOldIntersectionAinB4` -/
example : intersection4 (["10.23.6.0/24", "10.5.8.0/29", "10.23.224.0/27"], ["10.6.0.0/24", "10.9.9.0/29", "10.23.6.0/29"], ["10.23.6.0/29"]) = true := by decide +kernel

/-- /repo/ipv4/set_test.go:631-636 `TestOldIntersectionAinB5` -/
example : intersection4 (["10.0.23.0/27", "10.0.20.0/27", "10.0.15.0/27"], ["10.0.23.0/24", "10.0.20.0/24", "10.0.15.0/24"], ["10.0.23.0/27", "10.0.20.0/27", "10.0.15.0/27"]) = true := by decide +kernel

/-- /repo/ipv4/set_test.go:638-643 `TestOldIntersectionAinB6` -/
example : intersection4 (["10.0.23.0/24", "10.0.20.0/24", "10.0.15.0/24"], ["10.0.23.0/27", "10.0.20.0/27", "10.0.15.0/27"], ["10.0.15.0/27", "10.0.20.0/27", "10.0.23.0/27"]) = true := by decide +kernel

/-- /repo/ipv4/set_test.go:645-650 `TestOldIntersectionAinB7` -/
example : intersection4 (["10.0.23.0/24", "10.0.20.0/24", "10.0.15.0/24"], ["10.0.14.0/27", "10.0.10.0/27", "10.0.8.0/27"], []) = true := by decide +kernel

/-- /repo/ipv4/set_test.go:652-657 `TestOldIntersectionAinB8` -/
example : intersection4 (["10.0.23.0/24", "10.0.20.0/24", "172.16.1.0/24"], ["10.0.14.0/27", "10.0.10.0/27", "172.16.1.0/28"], ["172.16.1.0/28"]) = true := by decide +kernel

/-- /repo/ipv4/set_test.go:659-664 `TestOldIntersectionAinB9` -/
example : intersection4 (["10.5.8.0/29"], ["10.10.0.0/20", "10.5.8.0/24", "10.23.224.0/23"], ["10.5.8.0/29"]) = true := by decide +kernel

/-- /repo/ipv4/table_test.go:203-236 `TestTableTExample1`, 2 rows -/
example : tableExample [(p4 "10.224.24.2/31", true), (p4 "10.224.24.1/32", true), (p4 "10.224.24.0/32", true)] [(p4 "10.224.24.0/32", true), (p4 "10.224.24.1/32", true), (p4 "10.224.24.2/31", true)] [(p4 "10.224.24.0/30", true)] = true := by decide +kernel

/-- /repo/ipv4/table_test.go:243-292 `TestTableTExample2`, 2 rows -/
example : tableExample [(p4 "10.224.24.0/30", true), (p4 "10.224.24.0/31", false), (p4 "10.224.24.1/32", true), (p4 "10.224.24.0/32", false)] [(p4 "10.224.24.0/30", true), (p4 "10.224.24.0/31", false), (p4 "10.224.24.0/32", false), (p4 "10.224.24.1/32", true)] [(p4 "10.224.24.0/30", true), (p4 "10.224.24.0/31", false), (p4 "10.224.24.1/32", true)] = true := by decide +kernel

/-- /repo/ipv4/table_test.go:294-366 `TestTableTExample3`, 2 rows -/
example : tableExample [(p4 "172.21.0.0/20", false), (p4 "192.68.27.0/25", false), (p4 "192.168.26.128/25", false), (p4 "10.224.24.0/32", false), (p4 "192.68.24.0/24", false), (p4 "172.16.0.0/12", false), (p4 "192.68.26.0/24", false), (p4 "10.224.24.0/30", false), (p4 "192.168.24.0/24", false), (p4 "192.168.25.0/24", false), (p4 "192.168.26.0/25", false), (p4 "192.68.25.0/24", false), (p4 "192.168.27.0/24", false), (p4 "172.20.128.0/19", false), (p4 "192.68.27.128/25", false)] [(p4 "10.224.24.0/30", false), (p4 "10.224.24.0/32", false), (p4 "172.16.0.0/12", false), (p4 "172.20.128.0/19", false), (p4 "172.21.0.0/20", false), (p4 "192.68.24.0/24", false), (p4 "192.68.25.0/24", false), (p4 "192.68.26.0/24", false), (p4 "192.68.27.0/25", false), (p4 "192.68.27.128/25", false), (p4 "192.168.24.0/24", false), (p4 "192.168.25.0/24", false), (p4 "192.168.26.0/25", false), (p4 "192.168.26.128/25", false), (p4 "192.168.27.0/24", false)] [(p4 "10.224.24.0/30", false), (p4 "172.16.0.0/12", false), (p4 "192.68.24.0/22", false), (p4 "192.168.24.0/22", false)] = true := by decide +kernel

/-- /repo/ipv4/table_test.go:891-963 `TestTableVariousComparators`, 4 rows -/
example : comparators [(p4 "203.0.113.0/27", 0), (p4 "203.0.113.0/28", 0), (p4 "203.0.113.0/29", 1), (p4 "203.0.113.0/30", 2), (p4 "203.0.113.0/31", 3), (p4 "203.0.113.0/32", 4)]
  [(fun a b => decide (a = b), [p4 "203.0.113.0/27", p4 "203.0.113.0/29", p4 "203.0.113.0/30", p4 "203.0.113.0/31", p4 "203.0.113.0/32"]),
   (fun _ _ => false, [p4 "203.0.113.0/27", p4 "203.0.113.0/28", p4 "203.0.113.0/29", p4 "203.0.113.0/30", p4 "203.0.113.0/31", p4 "203.0.113.0/32"]),
   (fun a b => decide (a ≤ 2 ∧ b ≤ 2), [p4 "203.0.113.0/27", p4 "203.0.113.0/31", p4 "203.0.113.0/32"]),
   (fun a b => decide (a ≤ 3 ∧ b ≤ 3), [p4 "203.0.113.0/27", p4 "203.0.113.0/32"])] = true := by decide +kernel

/-- /repo/ipv4/set_test.go:905-956 `TestSetNumPrefixesStairs`, 17 rows -/
example : ([(8, 1), (9, 3), (10, 7), (11, 15), (12, 31), (13, 63), (14, 127), (15, 255), (16, 511), (17, 1023), (18, 2047), (19, 4095), (20, 8191), (21, 16383), (22, 32767), (23, 65534), (24, 131068)].all fun x => setNumPrefixes4 ([.prefix (p4 "10.0.0.0/8"), .prefix (p4 "11.0.0.0/9"), .prefix (p4 "11.128.0.0/10"), .prefix (p4 "11.192.0.0/11"), .prefix (p4 "11.224.0.0/12"), .prefix (p4 "11.240.0.0/13"), .prefix (p4 "11.248.0.0/14"), .prefix (p4 "11.252.0.0/15"), .prefix (p4 "11.254.0.0/16"), .prefix (p4 "11.255.0.0/17"), .prefix (p4 "11.255.128.0/18"), .prefix (p4 "11.255.192.0/19"), .prefix (p4 "11.255.224.0/20"), .prefix (p4 "11.255.240.0/21"), .prefix (p4 "11.255.248.0/22")], x.1, x.2, false)) = true := by decide +kernel

/-- /repo/ipv4/set_test.go:755-864 `TestOldEqualAllIPv4`, 303 rows -/
example : equalAll (p4 "0.0.0.0/0")
  [p4 "0.0.0.0/32", p4 "0.0.0.1/32", p4 "0.0.0.128/25", p4 "0.0.0.16/28", p4 "0.0.0.2/31", p4 "0.0.0.32/27", p4 "0.0.0.4/30", p4 "0.0.0.64/26", p4 "0.0.0.8/29", p4 "0.0.1.0/24", p4 "0.0.128.0/17", p4 "0.0.16.0/20", p4 "0.0.2.0/23", p4 "0.0.32.0/19", p4 "0.0.4.0/22", p4 "0.0.64.0/18", p4 "0.0.8.0/21", p4 "0.1.0.0/16", p4 "0.128.0.0/9", p4 "0.16.0.0/12", p4 "0.2.0.0/15", p4 "0.32.0.0/11", p4 "0.4.0.0/14", p4 "0.64.0.0/10", p4 "0.8.0.0/13", p4 "1.0.0.0/8", p4 "128.0.0.0/1", p4 "16.0.0.0/4", p4 "2.0.0.0/7", p4 "32.0.0.0/3", p4 "4.0.0.0/6", p4 "64.0.0.0/2", p4 "8.0.0.0/5"]
  [p4 "255.255.255.240/29", p4 "0.0.0.0/1", p4 "255.255.128.0/18", p4 "255.255.240.0/21", p4 "254.0.0.0/8", p4 "255.240.0.0/13", p4 "255.224.0.0/12", p4 "248.0.0.0/6", p4 "255.0.0.0/9", p4 "255.252.0.0/15", p4 "255.255.224.0/20", p4 "255.255.255.224/28", p4 "255.255.255.0/25", p4 "252.0.0.0/7", p4 "192.0.0.0/3", p4 "255.192.0.0/11", p4 "255.255.255.248/30", p4 "255.255.252.0/23", p4 "255.248.0.0/14", p4 "255.255.255.192/27", p4 "255.255.0.0/17", p4 "255.254.0.0/16", p4 "255.255.255.255/32", p4 "128.0.0.0/2", p4 "255.128.0.0/10", p4 "255.255.255.128/26", p4 "240.0.0.0/5", p4 "255.255.255.252/31", p4 "255.255.192.0/19", p4 "255.255.254.0/24", p4 "255.255.248.0/22", p4 "224.0.0.0/4", p4 "255.255.255.254/32"] = true := by decide +kernel

end RepoTest
end Addrs

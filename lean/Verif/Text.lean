import Verif.Bytes
/-
  Text: `String` and `…FromString` of packages ipv4, ipv6 and ip, with the parts of Go's packages net, fmt
  and strings they call (modelled from the source of Go 1.18; later versions behave alike).

  A Go string is a list of characters.  (Go's strings are bytes; a non-ASCII character is several bytes, of which
  each is treated like the character is here: it is none of those that the parsers accept.)
-/
set_option linter.unusedSectionVars false
namespace Addrs
open GoWord

/-- Go's `string` -/
abbrev Str := List Char

/-! ### packages fmt and strings -/
namespace Fmt

/-- the character of a decimal or hexadecimal digit, `"0123456789abcdef"[d]` -/
def digit (d : Nat) : Char := Char.ofNat (if d < 10 then 48 + d else 87 + d)

/-- fmt's `%d` of a non-negative integer -/
def dec (n : Nat) : Str := if n < 10 then [digit n] else dec (n / 10) ++ [digit (n % 10)]
decreasing_by omega

end Fmt

namespace Net
open Fmt

/-! ### package net: parsing -/

/-- `'0' <= c && c <= '9'` -/
def isDigit (c : Char) : Bool := decide ('0'.toNat ≤ c.toNat) && decide (c.toNat ≤ '9'.toNat)

/-- net/parse.go `const big = 0xFFFFFF` -/
def big : Nat := 0xffffff

/-- net/parse.go dtoi, the loop: the number and the index, or `none` if it is too big -/
def dtoiLoop : Nat → Nat → Str → Option (Nat × Nat)
  | n, i, [] => some (n, i)
  | n, i, c :: s =>
    if isDigit c then
      if big ≤ n * 10 + (c.toNat - 48) then none else dtoiLoop (n * 10 + (c.toNat - 48)) (i + 1) s
    else some (n, i)

/-- net/parse.go dtoi: the number and how many characters it has; `none` is "not ok" -/
def dtoi (s : Str) : Option (Nat × Nat) :=
  match dtoiLoop 0 0 s with
  | none => none
  | some (n, i) => if i = 0 then none else some (n, i)

/-- the value of a hexadecimal digit (net/parse.go xtoi) -/
def hexVal (c : Char) : Option Nat :=
  if isDigit c then some (c.toNat - 48)
  else if 'a'.toNat ≤ c.toNat ∧ c.toNat ≤ 'f'.toNat then some (c.toNat - 97 + 10)
  else if 'A'.toNat ≤ c.toNat ∧ c.toNat ≤ 'F'.toNat then some (c.toNat - 65 + 10)
  else none

/-- net/parse.go xtoi, the loop -/
def xtoiLoop : Nat → Nat → Str → Option (Nat × Nat)
  | n, i, [] => some (n, i)
  | n, i, c :: s =>
    match hexVal c with
    | some v => if big ≤ n * 16 + v then none else xtoiLoop (n * 16 + v) (i + 1) s
    | none => some (n, i)

/-- net/parse.go xtoi -/
def xtoi (s : Str) : Option (Nat × Nat) :=
  match xtoiLoop 0 0 s with
  | none => none
  | some (n, i) => if i = 0 then none else some (n, i)

/-- net/ip.go parseIPv4, the loop: `k` octets are still missing; `first` is `i == 0` -/
def octets : Nat → Bool → Str → Option (List (BitVec 8) × Str)
  | 0, _, s => some ([], s)
  | k + 1, first, s =>
    let afterDot : Option Str :=
      match s with
      | [] => none
      | c :: t => if first then some s else if c ≠ '.' then none else some t
    match afterDot with
    | none => none
    | some s =>
      match dtoi s with
      | none => none
      | some (n, c) =>
        if 0xff < n then none
        else if 1 < c ∧ s.head? = some '0' then none
        else
          match octets k false (s.drop c) with
          | none => none
          | some (bs, rest) => some (BitVec.ofNat 8 n :: bs, rest)

/-- net/ip.go parseIPv4 -/
def parseIPv4 (s : Str) : Slice :=
  match octets 4 true s with
  | some ([a, b, c, d], []) => ipv4 a b c d
  | _ => none

/-- net/ip.go parseIPv6, the loop while `i < IPv6len`, with `i = ip.length`; at most `k` more rounds, since every
    round adds at least two of the 16 bytes.  The result is what is left of the string, the bytes and the
    position of the ellipsis. -/
def groups : Nat → Str → List (BitVec 8) → Option Nat → Option (Str × List (BitVec 8) × Option Nat)
  | 0, s, ip, e => some (s, ip, e)
  | k + 1, s, ip, e =>
    match xtoi s with
    | none => none
    | some (n, c) =>
      if 0xffff < n then none
      else if (s.drop c).head? = some '.' then
        if e = none ∧ ip.length ≠ 12 then none
        else if 16 < ip.length + 4 then none
        else
          match parseIPv4 s with
          | none => none
          | some ip4 => some ([], ip ++ ip4.drop 12, e)
      else
        let ip := ip ++ [BitVec.ofNat 8 (n >>> 8), BitVec.ofNat 8 n]
        match s.drop c with
        | [] => some ([], ip, e)
        | [_] => none
        | x :: y :: t =>
          if x ≠ ':' then none
          else if y = ':' then
            if e.isSome then none
            else
              match t with
              | [] => some ([], ip, some ip.length)
              | _ => groups k t ip (some ip.length)
          else groups k (y :: t) ip e

/-- net/ip.go parseIPv6, after the loop: expand the ellipsis -/
def expand (ip : List (BitVec 8)) (e : Option Nat) : Slice :=
  if ip.length < 16 then
    match e with
    | none => none
    | some e => some (ip.take e ++ List.replicate (16 - ip.length) 0#8 ++ ip.drop e)
  else
    match e with
    | some _ => none
    | none => some ip

/-- net/ip.go parseIPv6, after a possible leading ellipsis -/
def parseGroups (s : Str) (e : Option Nat) : Slice :=
  match groups 8 s [] e with
  | some ([], ip, e) => expand ip e
  | _ => none

/-- net/ip.go parseIPv6 -/
def parseIPv6 (s : Str) : Slice :=
  match s with
  | ':' :: ':' :: t =>
    match t with
    | [] => some (List.replicate 16 0#8)
    | _ => parseGroups t (some 0)
  | _ => parseGroups s none

/-- net/ip.go ParseIP: the first dot or colon decides -/
def parseIP (s : Str) : Slice :=
  let rec go : Str → Slice
    | [] => none
    | c :: t => if c = '.' then parseIPv4 s else if c = ':' then parseIPv6 s else go t
  go s

/-- net/ip.go ParseCIDR: the address and the mask.  (The network address, which it also returns, is not
    used.) -/
def parseCIDR (s : Str) : Option (Slice × Slice) :=
  match s.idxOf? '/' with
  | none => none
  | some i =>
    let addr := s.take i
    let mask := s.drop (i + 1)
    let (iplen, ip) :=
      match parseIPv4 addr with
      | some b => (4, some b)
      | none => (16, parseIPv6 addr)
    match ip, dtoi mask with
    | some _, some (n, c) =>
      if c ≠ mask.length ∨ 8 * iplen < n then none
      else some (ip, cidrMask (n : Int) ((8 * iplen : Nat) : Int))
    | _, _ => none

/-! ### package net: printing -/

/-- net/ip.go ubtoa: the decimal digits of a byte -/
def ubtoa (v : BitVec 8) : Str :=
  let v := v.toNat
  if v < 10 then [digit v]
  else if v < 100 then [digit (v / 10), digit (v % 10)]
  else [digit (v / 100), digit (v / 10 % 10), digit (v % 10)]

/-- net/ip.go appendHex (hexadecimal digits without leading zeros) -/
def hex (i : Nat) : Str :=
  if i = 0 then ['0']
  else [7, 6, 5, 4, 3, 2, 1, 0].flatMap fun j => if 0 < i >>> (j * 4) then [digit (i >>> (j * 4) % 16)] else []

/-- the 16-bit group at byte `i` -/
def group (p : List (BitVec 8)) (i : Nat) : Nat := (p.getD i 0).toNat <<< 8 ||| (p.getD (i + 1) 0).toNat

/-- net/ip.go IP.String, `for j < IPv6len && p[j] == 0 && p[j+1] == 0 { j += 2 }`, at most `k` times -/
def runEnd (p : List (BitVec 8)) : Nat → Nat → Nat
  | 0, j => j
  | k + 1, j => if j < 16 ∧ p.getD j 0 = 0 ∧ p.getD (j + 1) 0 = 0 then runEnd p k (j + 2) else j

/-- `e1 - e0`; `none` is (-1, -1) -/
def runLen : Option (Nat × Nat) → Nat
  | none => 0
  | some (e0, e1) => e1 - e0

/-- net/ip.go IP.String, the loop that finds the longest run of zeros, at most `k` times -/
def longestRun (p : List (BitVec 8)) : Nat → Nat → Option (Nat × Nat) → Option (Nat × Nat)
  | 0, _, e => e
  | k + 1, i, e =>
    if 16 ≤ i then e
    else
      let j := runEnd p 8 i
      if i < j ∧ runLen e < j - i then longestRun p k (j + 2) (some (i, j))
      else longestRun p k (i + 2) e

/-- net/ip.go IP.String, the run that is replaced by `::`: one zero group alone is not -/
def shortened (p : List (BitVec 8)) : Option (Nat × Nat) :=
  let e := longestRun p 8 0 none
  if runLen e ≤ 2 then none else e

/-- net/ip.go IP.String, the loop that prints, at most `k` times -/
def print (p : List (BitVec 8)) (e : Option (Nat × Nat)) : Nat → Nat → Str
  | 0, _ => []
  | k + 1, i =>
    if 16 ≤ i then []
    else
      match e with
      | some (e0, e1) =>
        if i = e0 then
          if 16 ≤ e1 then [':', ':']
          else [':', ':'] ++ hex (group p e1) ++ print p e k (e1 + 2)
        else (if 0 < i then [':'] else []) ++ hex (group p i) ++ print p e k (i + 2)
      | none => (if 0 < i then [':'] else []) ++ hex (group p i) ++ print p e k (i + 2)

/-- net/ip.go IP.String of a non-nil 16-byte address (those ipv6/address.go:81-83 `ToNetIP` returns) -/
def ipString (ip : Slice) : Str :=
  match to4 ip with
  | some [a, b, c, d] => ubtoa a ++ ['.'] ++ ubtoa b ++ ['.'] ++ ubtoa c ++ ['.'] ++ ubtoa d
  | _ =>
    let p := ip.getD []
    print p (shortened p) 8 0

end Net

open Fmt

/-! ### package ipv4 -/
namespace V4

/-- ipv4/address.go:99-102 `Address.String` -/
def addressString (a : BitVec 32) : Str :=
  dec (toBytes a).1.toNat ++ ['.'] ++ dec (toBytes a).2.1.toNat ++ ['.'] ++ dec (toBytes a).2.2.1.toNat ++ ['.'] ++
    dec (toBytes a).2.2.2.toNat

/-- ipv4/address.go:46-58 `AddressFromString` -/
def addressFromString (address : Str) : Option (BitVec 32) :=
  match Net.parseIP address with
  | none => none
  | some netIP =>
    match Net.to4 (some netIP) with
    | none => none
    | some netIPv4 => addressFromNetIP (some netIPv4)

/-- ipv4/prefix.go:197-199 `Prefix.String` -/
def prefixString (p : Prefix (BitVec 32)) : Str := addressString p.addr ++ ['/'] ++ dec p.len

/-- ipv4/prefix.go:65-71 `parseNet` -/
def parseNet (prefix_ : Str) : Option IPNet := (Net.parseCIDR prefix_).map fun x => ⟨x.1, x.2⟩

/-- ipv4/prefix.go:76-82 `PrefixFromString` -/
def prefixFromString (prefix_ : Str) : Option (Prefix (BitVec 32)) :=
  match parseNet prefix_ with
  | none => none
  | some ipNet => prefixFromNetIPNet (some ipNet)

/-- ipv4/mask.go:75-77 `Mask.String` -/
def maskString (m : BitVec 32) : Str := addressString (addressFromUint32 m)

/-- ipv4/range.go:53-55 `Range.String` -/
def rangeString (r : Range (BitVec 32)) : Str := ['['] ++ addressString r.first ++ [','] ++ addressString r.last ++ [']']

end V4

/-! ### package ipv6 -/
namespace V6

/-- ipv6/address.go:102-104 `Address.String` -/
def addressString (a : U128) : Str := Net.ipString (toNetIP a)

/-- ipv6/address.go:50-62 `AddressFromString` -/
def addressFromString (address : Str) : Option U128 :=
  match Net.parseIP address with
  | none => none
  | some netIP =>
    match Net.to4 (some netIP) with
    | some _ => none
    | none => addressFromNetIP (some netIP)

/-- ipv6/prefix.go:178-180 `Prefix.String` -/
def prefixString (p : Prefix U128) : Str := addressString p.addr ++ ['/'] ++ dec p.len

/-- ipv6/prefix.go:65-71 `parseNet` -/
def parseNet (prefix_ : Str) : Option IPNet := (Net.parseCIDR prefix_).map fun x => ⟨x.1, x.2⟩

/-- ipv6/prefix.go:76-82 `PrefixFromString` -/
def prefixFromString (prefix_ : Str) : Option (Prefix U128) :=
  match parseNet prefix_ with
  | none => none
  | some ipNet => prefixFromNetIPNet (some ipNet)

/-- ipv6/mask.go:74-76 `Mask.String` -/
def maskString (m : U128) : Str := addressString (addressFromUint64 m.high m.low)

/-- ipv6/range.go:41-43 `Range.String` -/
def rangeString (r : Range U128) : Str := ['['] ++ addressString r.first ++ [','] ++ addressString r.last ++ [']']

end V6

/-! ### package ip -/
namespace IP

/-- ip/address.go:23-28 `AddressFromString` -/
def addressFromString (address : Str) : Option (Dyn (BitVec 32) U128) :=
  if address.contains ':' then (V6.addressFromString address).map .v6
  else (V4.addressFromString address).map .v4

/-- ip/prefix.go:40-45 `PrefixFromString` -/
def prefixFromString (prefix_ : Str) : Option (Dyn (Prefix (BitVec 32)) (Prefix U128)) :=
  if prefix_.contains ':' then (V6.prefixFromString prefix_).map .v6
  else (V4.prefixFromString prefix_).map .v4

/-- the `String` method of the interface `Address`, ip/address.go:13-17 -/
def addressString : Dyn (BitVec 32) U128 → Option Str
  | .v4 a => some (V4.addressString a)
  | .v6 a => some (V6.addressString a)
  | .other => none

/-- the `String` method of the interface `Prefix`, ip/prefix.go:13-17 -/
def prefixString : Dyn (Prefix (BitVec 32)) (Prefix U128) → Option Str
  | .v4 p => some (V4.prefixString p)
  | .v6 p => some (V6.prefixString p)
  | .other => none

end IP

end Addrs

import Verif.IP.Model
import Verif.Re.Match

/-! # Model of the texts of IPv6 addresses (ciscoconfparse/ccp_util.py) -/

namespace IP

open Py Re

/-! ## stdlib `ipaddress` -/

/-- `'%x' % n` for a number of 16 bits. -/
def hexStr (n : Nat) : Str :=
  match (padBase 16 4 n).dropWhile (· == '0') with
  | [] => ['0']
  | s => s

/-- The loop of `IPv6Address._compress_hextets` from the group with number `i` on: the best run of
`0` so far (start, length) and the current one. -/
def bestRun : List Str → Nat → Nat × Nat → Option Nat × Nat → Nat × Nat
  | [], _, best, _ => best
  | h :: hs, i, best, cur =>
    if h = ['0'] then
      let start := cur.1.getD i
      let len := cur.2 + 1
      bestRun hs (i + 1) (if best.2 < len then (start, len) else best) (some start, len)
    else bestRun hs (i + 1) best (none, 0)

/-- `IPv6Address._compress_hextets`. -/
def compressHextets (hs : List Str) : List Str :=
  let (start, len) := bestRun hs 0 (0, 0) (none, 0)
  if 1 < len then
    let stop := start + len
    let hs' := if stop = hs.length then hs ++ [[]] else hs
    let hs'' := hs'.take start ++ [] :: hs'.drop stop
    if start = 0 then [] :: hs'' else hs''
  else hs

/-- `str(IPv6Address)`.  (Until Python 3.12: from 3.13 on, addresses in `::ffff:0:0/96` end with a
dotted quad.) -/
def str6 (ip : Nat) : Str := join [':'] (compressHextets ((hextets ip).map hexStr))

/-- `IPv6Address.exploded`. -/
def exploded6 (ip : Nat) : Str := join [':'] ((hextets ip).map (padBase 16 4))

/-- The value of a hexadecimal digit. -/
def hexDigit (c : Char) : Option Nat :=
  if 48 ≤ c.toNat ∧ c.toNat ≤ 57 then some (c.toNat - 48)
  else if 97 ≤ c.toNat ∧ c.toNat ≤ 102 then some (c.toNat - 87)
  else if 65 ≤ c.toNat ∧ c.toNat ≤ 70 then some (c.toNat - 55)
  else none

/-- `int(s, 16)` for hexadecimal digits. -/
def hexNat : Str → Nat → Option Nat
  | [], acc => some acc
  | c :: s, acc =>
    match hexDigit c with
    | some d => hexNat s (acc * 16 + d)
    | none => none

/-- `IPv6Address._parse_hextet`.  (The empty text passes the tests and fails in `int`.) -/
def parseHextet (s : Str) : Except Err Nat :=
  if 4 < s.length ∨ s = [] then .error .addressValue
  else
    match hexNat s 0 with
    | some n => .ok n
    | none => .error .addressValue

/-- `ip_int <<= 16; ip_int |= ...` over some groups. -/
def parseHextets : List Str → Nat → Except Err Nat
  | [], acc => .ok acc
  | s :: l, acc => do parseHextets l (acc * 65536 + (← parseHextet s))

/-- `IPv6Address._ip_int_from_string`: a dotted quad at the end becomes two groups. -/
def expandQuad (parts : List Str) : Except Err (List Str) :=
  let last := parts.getLast?.getD []
  if '.' ∈ last then do
    let q ← parseAddr last
    .ok (parts.dropLast ++ [hexStr (q / 65536 % 65536), hexStr (q % 65536)])
  else .ok parts

/-- `IPv6Address._ip_int_from_string` from the parts between the colons on. -/
def parseParts (parts : List Str) : Except Err Nat :=
  if 9 < parts.length then .error .addressValue
  else
    match (List.range parts.length).filter (fun i => decide (1 ≤ i ∧ i + 1 < parts.length) && parts[i]? == some []) with
    | [] =>
      if parts.length ≠ 8 then .error .addressValue else parseHextets parts 0
    | [k] => do
      let hi ← (if parts.head? = some [] then (if k = 1 then .ok 0 else .error .addressValue) else .ok k)
      let lo := parts.length - k - 1
      let lo ← (if parts.getLast? = some [] then (if lo = 1 then .ok 0 else .error .addressValue) else .ok lo)
      if 8 < hi + lo + 1 then .error .addressValue
      else do
        let a ← parseHextets (parts.take hi) 0
        parseHextets (parts.drop (parts.length - lo)) (a * 65536 ^ (8 - (hi + lo)))
    | _ => .error .addressValue

/-- `IPv6Address._ip_int_from_string`.  Simplification: the number of a zone (`%eth0`) is not
accepted. -/
def parse6 (s : Str) : Except Err Nat :=
  let parts := splitOn ':' s
  if parts.length < 3 then .error .addressValue
  else do
    let parts ← expandQuad parts
    parseParts parts

/-- `IPv6Network(f"{addr}/{p}", strict=False)` for the digits `p`. -/
def makeNetmask6 (p : Str) : Except Err Nat :=
  if allDigits p ∧ natVal p ≤ 128 then .ok (natVal p) else .error .valueError

/-! ## IPv6Obj -/

/-- ccp_util.py:98-111 `_IPV6_REGEX_STR`, with 89 `_IPV6_RGX_CLS` put in. -/
def rgx6 : Str := chars! "(?!:::\\S+?$)             # Negative Lookahead for 3 colons
 (?P<addr>                                     # Begin a group named 'addr'
 (?P<opt1>[0-9a-fA-F]{1,4}(?::[0-9a-fA-F]{1,4}){7})                    # no double colons, option 1
|(?P<opt2>[0-9a-fA-F\\:]+?\\d+\\.\\d+\\.\\d+\\.\\d+)   # ipv4 embedded in an ipv6 address
|(?P<opt3>(?:[0-9a-fA-F]{1,4}:){1}(?::[0-9a-fA-F]{1,4}){1,6})        # match fe80::1
|(?P<opt4>(?:[0-9a-fA-F]{1,4}:){2}(?::[0-9a-fA-F]{1,4}){1,5})        # match fe80:a::1
|(?P<opt5>(?:[0-9a-fA-F]{1,4}:){3}(?::[0-9a-fA-F]{1,4}){1,4})        # match fe80:a:b::1
|(?P<opt6>(?:[0-9a-fA-F]{1,4}:){4}(?::[0-9a-fA-F]{1,4}){1,3})        # match fe80:a:b:c::1
|(?P<opt7>(?:[0-9a-fA-F]{1,4}:){5}(?::[0-9a-fA-F]{1,4}){1,2})        # match fe80:a:b:c:d::1
|(?P<opt8>(?:[0-9a-fA-F]{1,4}:){6}(?::[0-9a-fA-F]{1,4}){1,1})        # match fe80:a:b:c:d:e::1
|(?P<opt9>:(?::[0-9a-fA-F]{1,4}){1,7})                    # ipv6 with leading double colons
|(?P<opt10>(?:[0-9a-fA-F]{1,4}:){1,7}:)                   # ipv6 with trailing double colons
|(?P<opt11>(?:::))                             # ipv6 bare double colons (default route)
)([/\\s](?P<masklen>\\d+))*                      # match 'masklen' and end 'addr' group
"

/-- ccp_util.py:1870 `_RGX_IPV6ADDR.search`: the address and the mask length.  (1874-1881: the group
`addr` takes part in every match.) -/
def find6 (s : Str) : Except Err (Str × Option Str) :=
  match compileL rgx6 { verbose := true } with
  | .error _ => .error .reError
  | .ok p =>
    match search p s with
    | none => .error .attributeError
    | some m => .ok ((m.caps.lookup 1).getD [], m.caps.lookup 14)

/-- ccp_util.py:1861-1869: one or two words; two are joined with a slash. -/
def joinMask : List Str → Except Err Str
  | [a, b] => .ok (a ++ '/' :: b)
  | [a] => .ok a
  | [] => .ok []
  | _ => .error .notImplemented

/-- ccp_util.py:1870-1891: the address and the mask length that are found, then `IPv6Address` and
`IPv6Network`. -/
def V6.ofText (t : Str) : Except Err V6 := do
  let q ← find6 t
  let ip ← parse6 q.1
  let p ← makeNetmask6 (q.2.getD "128".toList)
  .ok (V6.make ip p)

/-- ccp_util.py:1858-1891 `IPv6Obj(str)`. -/
def V6.ofStr (s : Str) : Except Err V6 :=
  if 43 < s.length then .error .requirement
  else do
    let t ← joinMask (splitWs s)
    V6.ofText t

/-- ccp_util.py:2371-2373 `as_cidr_addr`. -/
def V6.asCidrAddr (o : V6) : Str := str6 o.ip ++ '/' :: natStr o.plen

/-- ccp_util.py:2377-2382 `as_cidr_net`. -/
def V6.asCidrNet (o : V6) : Str := str6 o.net ++ '/' :: natStr o.plen

/-- ccp_util.py:2210-2212 `exploded`. -/
def V6.exploded (o : V6) : Str := exploded6 o.ip

/-- ccp_util.py:2204-2206 `compressed` (of the network). -/
def V6.compressed (o : V6) : Str := o.asCidrNet

/-- ccp_util.py:2364-2367 `as_hex_tuple`. -/
def V6.asHexTuple (o : V6) : List Str := splitOn ':' o.exploded

/-- ccp_util.py:2351-2354 `as_binary_tuple`. -/
def V6.asBinaryTuple (o : V6) : List Str := o.asHexTuple.map (fun s => padBase 2 16 ((hexNat s 0).getD 0))

/-- ccp_util.py:2069-2071 `__hash__`: the pair of strings whose hashes are summed. -/
def V6.hashKey (o : V6) : Str × Str := (str6 o.ip, natStr o.plen)

/-- ccp_util.py:2118-2128 `is_ipv4_mapped`: the address is in `::ffff:0:0/96`. -/
def V6.isIpv4Mapped (o : V6) : Bool := networkOf 128 o.ip 96 == 281470681743360

end IP

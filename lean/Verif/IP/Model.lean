import Verif.Py

/-!
# Model of `IPv4Obj` and `IPv6Obj` (ciscoconfparse/ccp_util.py)

`ip_object` / `network_object` are objects of the Python standard library module
`ipaddress`; the few operations used here (`IPv4Address(str)`,
`IPv4Network(str, strict=False)`, `str()`, `exploded`) are modelled from their
documented behaviour (section "stdlib") and belong to the trusted base.
-/

namespace IP

open Py

/-! ## stdlib `ipaddress` -/

/-- `IPv4Network._make_netmask` / `IPv6Network._make_netmask` for a prefix length:
`ALL_ONES ^ (ALL_ONES >> p)` with `W` address bits. -/
def maskOf (W p : Nat) : Nat := (2 ^ W - 1) ^^^ ((2 ^ W - 1) >>> p)

/-- `network_address = ip & netmask` (`strict=False` drops the host bits). -/
def networkOf (W ip p : Nat) : Nat := ip &&& maskOf W p

/-- The four octets of an IPv4 address, most significant first. -/
def octets (ip : Nat) : List Nat :=
  [ip / 2 ^ 24 % 256, ip / 2 ^ 16 % 256, ip / 2 ^ 8 % 256, ip % 256]

/-- `str(IPv4Address)`. -/
def dotted (ip : Nat) : Str := join ['.'] ((octets ip).map natStr)

/-- The eight 16-bit groups of an IPv6 address (`exploded.split(":")` as numbers). -/
def hextets (ip : Nat) : List Nat :=
  [ip / 2 ^ 112 % 65536, ip / 2 ^ 96 % 65536, ip / 2 ^ 80 % 65536, ip / 2 ^ 64 % 65536,
   ip / 2 ^ 48 % 65536, ip / 2 ^ 32 % 65536, ip / 2 ^ 16 % 65536, ip % 65536]

/-- `IPv4Address._parse_octet` (Python >= 3.9.5: leading zeros rejected). -/
def parseOctet (s : Str) : Except Err Nat :=
  if !allDigits s then .error .addressValue
  else if 3 < s.length then .error .addressValue
  else if s != ['0'] && s.head? == some '0' then .error .addressValue
  else if 255 < natVal s then .error .addressValue
  else .ok (natVal s)

/-- `IPv4Address(str)`: exactly four octets. -/
def parseAddr (s : Str) : Except Err Nat :=
  match splitOn '.' s with
  | [a, b, c, d] => do
    let a ← parseOctet a
    let b ← parseOctet b
    let c ← parseOctet c
    let d ← parseOctet d
    .ok (a * 2 ^ 24 + b * 2 ^ 16 + c * 2 ^ 8 + d)
  | _ => .error .addressValue

/-- `ipaddress._count_righthand_zero_bits(number, bits)`. -/
def rightZeros : Nat → Nat → Nat
  | 0, _ => 0
  | bits + 1, n => if n % 2 = 1 then 0 else 1 + rightZeros bits (n / 2)

/-- `_IPAddressBase._prefix_from_ip_int`: prefix length of a netmask integer. -/
def prefixFromInt (m : Nat) : Option Nat :=
  let tz := rightZeros 32 m
  let p := 32 - tz
  if m >>> tz = 2 ^ p - 1 then some p else none

/-- `_IPAddressBase._prefix_from_prefix_string`. -/
def prefixFromDigits (s : Str) : Option Nat :=
  if allDigits s && decide (natVal s ≤ 32) then some (natVal s) else none

/-- `IPv4Network._make_netmask(arg)` for a string: prefix digits, else a dotted
netmask, else a dotted hostmask. -/
def makeNetmask (s : Str) : Except Err Nat :=
  match prefixFromDigits s with
  | some p => .ok p
  | none =>
    match parseAddr s with
    | .error _ => .error .valueError
    | .ok m =>
      match prefixFromInt m with
      | some p => .ok p
      | none =>
        match prefixFromInt (m ^^^ (2 ^ 32 - 1)) with
        | some p => .ok p
        | none => .error .valueError

/-! ## IPv4Obj -/

/-- A non-empty `IPv4Obj`: host address of `ip_object`, prefix length and network
address of `network_object`.  (`network_offset = k` changes the first and not
the last, so all three are stored.) -/
structure V4 where
  ip : Nat
  plen : Nat
  net : Nat
  deriving DecidableEq, Repr

/-- ccp_util.py:79 `IPV4_MAXINT`. -/
def maxInt4 : Nat := 4294967295

/-- Rebuild `network_object` from the host address and a valid prefix length. -/
def V4.setPlen (o : V4) (p : Nat) : V4 := ⟨o.ip, p, networkOf 32 o.ip p⟩

/-- ccp_util.py:1494-1499 `prefixlen` setter (also `masklen`, `masklength` and
`prefixlength`, 1459-1515): `IPv4Network(f"{ip}/{arg}")` rejects an integer
outside 0..32. -/
def V4.setPrefixlen (o : V4) (arg : Int) : Except Err V4 :=
  if 0 ≤ arg ∧ arg ≤ 32 then .ok (o.setPlen arg.toNat) else .error .valueError

/-- ccp_util.py:1074-1079: `IPv4Obj(int)` is a /32. -/
def V4.ofInt (n : Int) : Except Err V4 :=
  if 0 ≤ n ∧ n ≤ maxInt4 then .ok ⟨n.toNat, 32, networkOf 32 n.toNat 32⟩ else .error .requirement

/-- Address and prefix length as given to `IPv4Network(f"{addr}/{p}", strict=False)`. -/
def V4.make (ip p : Nat) : V4 := ⟨ip, p, networkOf 32 ip p⟩

/-- Digits of one octet at the front of a string (`\d+`, greedy). -/
def takeDigits (s : Str) : Str × Str := (s.takeWhile isDigit, s.dropWhile isDigit)

/-- `\d+\.` at the front. -/
def scanOctetDot (s : Str) : Option (Str × Str) :=
  match takeDigits s with
  | ([], _) => none
  | (d, '.' :: r) => some (d, r)
  | _ => none

/-- `\d+\.\d+\.\d+\.\d+` at the front of `s`: the matched text and the rest.
(The greedy choice is the only one that can be followed by `.`, `/`, whitespace
or the end.) -/
def scanQuad (s : Str) : Option (Str × Str) := do
  let (a, r) ← scanOctetDot s
  let (b, r) ← scanOctetDot r
  let (c, r) ← scanOctetDot r
  match takeDigits r with
  | ([], _) => none
  | (d, r) => some (a ++ '.' :: b ++ '.' :: c ++ '.' :: d, r)

/-- The separator `(\s+|\/)`: remainder after it, if present. -/
def scanSep : Str → Option Str
  | '/' :: r => some r
  | c :: r => if isSpace c then some (r.dropWhile isSpace) else none
  | [] => none

/-- ccp_util.py:122-135 `_RGX_IPV4ADDR_WITH_MASK` on the stripped input:
`(address, mask text)`; the mask text is `"32"` when no mask is given
(ccp_util.py:1035-1053). -/
def matchV4 (s : Str) : Option (Str × Str) :=
  match scanQuad s with
  | none => none
  | some (addr, []) => some (addr, ['3', '2'])
  | some (addr, r) =>
    match scanSep r with
    | none => none
    | some r' =>
      match scanQuad r' with
      | some (mask, []) => some (addr, mask)
      | _ =>
        match r with
        | '/' :: m => if allDigits m then some (addr, m) else none
        | _ => none

/-- ccp_util.py:1024-1072 `IPv4Obj(str)`. -/
def V4.ofStr (s : Str) : Except Err V4 :=
  match matchV4 (strip s) with
  | none => .error .addressValue
  | some (addr, mask) => do
    let ip ← parseAddr addr
    let p ← makeNetmask mask
    .ok (V4.make ip p)

/-- ccp_util.py:1645-1649 `as_decimal`: parse `str(ip)` back, base 256.  `natVal`
is `int()` of a digit string. -/
def decOfDotted (s : Str) : Nat :=
  ((splitOn '.' s).reverse.zipIdx.map (fun (num, idx) => natVal num * 256 ^ idx)).sum

def V4.asDecimal (o : V4) : Nat := decOfDotted (dotted o.ip)

/-- ccp_util.py:1654-1658. -/
def V4.asDecimalNetwork (o : V4) : Nat := decOfDotted (dotted o.net)

/-- ccp_util.py:1663-1666. -/
def V4.asDecimalBroadcast (o : V4) : Nat := o.asDecimalNetwork + (2 ^ (32 - o.plen) - 1)

/-- ccp_util.py:1629-1640 (`NotImplementedError` for other lengths). -/
def V4.numhosts (o : V4) : Except Err Nat :=
  if o.plen ≤ 30 then .ok (2 ^ (32 - o.plen) - 2)
  else if o.plen = 31 then .ok 2
  else if o.plen = 32 then .ok 1
  else .error .notImplemented

/-- ccp_util.py:1175-1197 `__eq__` on `Option V4`; `none` is `IPv4Obj(None)`
(`empty is True`). -/
def V4.eq : Option V4 → Option V4 → Bool
  | some a, some b => a.asDecimal == b.asDecimal && a.plen == b.plen
  | none, none => true
  | _, _ => false

/-- ccp_util.py:1210-1240. -/
def V4.gt (a b : V4) : Bool :=
  if a.asDecimalNetwork = b.asDecimalNetwork ∧ a.plen = b.plen then
    decide (a.asDecimal > b.asDecimal)
  else if a.asDecimalNetwork = b.asDecimalNetwork then decide (a.plen > b.plen)
  else decide (a.asDecimalNetwork > b.asDecimalNetwork)

/-- ccp_util.py:1244-1278. -/
def V4.lt (a b : V4) : Bool :=
  if a.asDecimalNetwork = b.asDecimalNetwork ∧ a.plen = b.plen then
    decide (a.asDecimal < b.asDecimal)
  else if a.asDecimalNetwork = b.asDecimalNetwork then decide (a.plen < b.plen)
  else decide (a.asDecimalNetwork < b.asDecimalNetwork)

/-- ccp_util.py:1300-1313. -/
def V4.add (o : V4) (n : Int) : Except Err V4 :=
  let total := (o.asDecimal : Int) + n
  if total > maxInt4 then .error .requirement
  else if total < 0 then .error .requirement
  else do
    let r ← V4.ofInt total
    .ok (r.setPlen o.plen)

/-- ccp_util.py:1317-1330 (note `>=` where `__add__` has `>`). -/
def V4.sub (o : V4) (n : Int) : Except Err V4 :=
  let total := (o.asDecimal : Int) - n
  if total ≥ maxInt4 then .error .requirement
  else if total < 0 then .error .requirement
  else do
    let r ← V4.ofInt total
    .ok (r.setPlen o.plen)

/-- ccp_util.py:1334-1361 `val in self`. -/
def V4.contains : Option V4 → Option V4 → Bool
  | none, none => true
  | none, _ => false
  | _, none => false
  | some self, some val =>
    if self.plen = 0 then true
    else if self.plen > val.plen then false
    else decide (self.asDecimalNetwork ≤ val.asDecimalNetwork) &&
      decide (self.asDecimalBroadcast ≥ val.asDecimalBroadcast) && decide (self.plen ≤ val.plen)

/-- ccp_util.py:1365-1370 `__hash__`: the pair of strings whose hashes are summed
(`hash` itself is an unmodelled function of this key). -/
def V4.hashKey (o : V4) : Str × Str := (dotted o.ip, natStr o.plen)

/-- ccp_util.py:1555-1560 (getter). -/
def V4.networkOffset (o : V4) : Except Err Int := do
  let offset := (o.asDecimal : Int) - o.asDecimalNetwork
  let nh ← o.numhosts
  if offset > nh then .error .requirement else .ok offset

/-- ccp_util.py:1565-1588 (setter); `IPv4Address(n)` rejects integers outside
0..2^32-1. -/
def V4.setNetworkOffset (o : V4) (arg : Int) : Except Err V4 :=
  let maxOffset : Int := (o.asDecimalBroadcast : Int) - o.asDecimalNetwork
  if arg ≤ maxOffset then
    let a := (o.asDecimalNetwork : Int) + arg
    if 0 ≤ a ∧ a ≤ maxInt4 then .ok { o with ip := a.toNat } else .error .addressValue
  else .error .addressValue

/-- Digit character in base <= 16, lower case (`format(.., "x")`). -/
def baseDigit (n : Nat) : Char := if n < 10 then Char.ofNat (48 + n) else Char.ofNat (87 + n)

/-- `{:03}`, `{:08b}`, `{:02x}`: zero-padded rendering.  Simplification: exactly
`width` digits (Python would print more digits if they did not fit; an octet
always fits). -/
def padBase (base : Nat) : Nat → Nat → Str
  | 0, _ => []
  | w + 1, n => padBase base w (n / base) ++ [baseDigit (n % base)]

/-- ccp_util.py:1678-1681 `as_zeropadded`. -/
def V4.asZeropadded (o : V4) : Str :=
  join ['.'] ((splitOn '.' (dotted o.ip)).map (fun num => padBase 10 3 (natVal num)))

/-- ccp_util.py:1702-1704. -/
def V4.asBinaryTuple (o : V4) : List Str :=
  (splitOn '.' (dotted o.ip)).map (fun num => padBase 2 8 (natVal num))

/-- ccp_util.py:1709-1711. -/
def V4.asHexTuple (o : V4) : List Str :=
  (splitOn '.' (dotted o.ip)).map (fun num => padBase 16 2 (natVal num))

/-- ccp_util.py:1716-1718 `as_cidr_addr`. -/
def V4.asCidrAddr (o : V4) : Str := dotted o.ip ++ '/' :: natStr o.plen

/-- ccp_util.py:1723-1728 `as_cidr_net`. -/
def V4.asCidrNet (o : V4) : Str := dotted o.net ++ '/' :: natStr o.plen

/-- ccp_util.py:1446-1448 `netmask` rendered with `str`. -/
def V4.netmaskStr (o : V4) : Str := dotted (maskOf 32 o.plen)

/-- ccp_util.py:1081-1084 `IPv4Obj(IPv4Obj)`: host from `.ip`, network from
`.as_cidr_net`. -/
def V4.copy (o : V4) : V4 := ⟨o.ip, o.plen, networkOf 32 o.net o.plen⟩

/-! ## IPv6Obj -/

/-- A non-empty `IPv6Obj`. -/
structure V6 where
  ip : Nat
  plen : Nat
  net : Nat
  deriving DecidableEq, Repr

/-- ccp_util.py:81 `IPV6_MAXINT`. -/
def maxInt6 : Nat := 340282366920938463463374607431768211455

/-- Rebuild `network_object` from the host address and a valid prefix length. -/
def V6.setPlen (o : V6) (p : Nat) : V6 := ⟨o.ip, p, networkOf 128 o.ip p⟩

/-- ccp_util.py:2189-2194 `prefixlen` setter. -/
def V6.setPrefixlen (o : V6) (arg : Int) : Except Err V6 :=
  if 0 ≤ arg ∧ arg ≤ 128 then .ok (o.setPlen arg.toNat) else .error .valueError

/-- ccp_util.py:1893-1897. -/
def V6.ofInt (n : Int) : Except Err V6 :=
  if 0 ≤ n ∧ n ≤ maxInt6 then .ok ⟨n.toNat, 128, networkOf 128 n.toNat 128⟩
  else .error .requirement

/-- Address and prefix length given to `IPv6Network(netstr, strict=False)`
(ccp_util.py:1883-1891).  `V6.ofStr` (IP/Text6.lean) reads them from a text. -/
def V6.make (ip p : Nat) : V6 := ⟨ip, p, networkOf 128 ip p⟩

/-- ccp_util.py:2336-2342: `sum(int(num,16) * 65536**idx)` over the reversed groups. -/
def decOfHextets (gs : List Nat) : Nat :=
  (gs.reverse.zipIdx.map (fun (num, idx) => num * 65536 ^ idx)).sum

def V6.asDecimal (o : V6) : Nat := decOfHextets (hextets o.ip)

/-- ccp_util.py:2272-2278. -/
def V6.asDecimalNetwork (o : V6) : Nat := decOfHextets (hextets o.net)

/-- ccp_util.py:2290-2293. -/
def V6.asDecimalNetworkMaxint (o : V6) : Nat := o.asDecimalNetwork + (2 ^ (128 - o.plen) - 1)

/-- ccp_util.py:2321-2332. -/
def V6.numhosts (o : V6) : Except Err Nat :=
  if o.plen ≤ 126 then .ok (2 ^ (128 - o.plen) - 2)
  else if o.plen = 127 then .ok 2
  else if o.plen = 128 then .ok 1
  else .error .notImplemented

/-- ccp_util.py:1917-1935. -/
def V6.eq (a b : V6) : Bool := a.asDecimal == b.asDecimal && a.plen == b.plen

/-- ccp_util.py:1942-1969. -/
def V6.gt (a b : V6) : Bool :=
  if a.asDecimalNetwork = b.asDecimalNetwork ∧ a.plen = b.plen then
    decide (a.asDecimal > b.asDecimal)
  else if a.asDecimalNetwork = b.asDecimalNetwork then decide (a.plen > b.plen)
  else decide (a.asDecimalNetwork > b.asDecimalNetwork)

/-- ccp_util.py:1972-1999. -/
def V6.lt (a b : V6) : Bool :=
  if a.asDecimalNetwork = b.asDecimalNetwork ∧ a.plen = b.plen then
    decide (a.asDecimal < b.asDecimal)
  else if a.asDecimalNetwork = b.asDecimalNetwork then decide (a.plen < b.plen)
  else decide (a.asDecimalNetwork < b.asDecimalNetwork)

/-- ccp_util.py:2018-2031. -/
def V6.add (o : V6) (n : Int) : Except Err V6 :=
  let total := (o.asDecimal : Int) + n
  if total > maxInt6 then .error .requirement
  else if total < 0 then .error .requirement
  else do
    let r ← V6.ofInt total
    .ok (r.setPlen o.plen)

/-- ccp_util.py:2034-2047. -/
def V6.sub (o : V6) (n : Int) : Except Err V6 :=
  let total := (o.asDecimal : Int) - n
  if total ≥ maxInt6 then .error .requirement
  else if total < 0 then .error .requirement
  else do
    let r ← V6.ofInt total
    .ok (r.setPlen o.plen)

/-- ccp_util.py:2050-2066 `val in self`: compares the ends of the ranges using
`numhosts`. -/
def V6.contains (self val : V6) : Except Err Bool :=
  if self.plen = 0 then .ok true
  else if self.plen > val.plen then .ok false
  else do
    let hs ← self.numhosts
    let hv ← val.numhosts
    .ok (decide (self.asDecimalNetwork ≤ val.asDecimalNetwork) &&
      decide ((self.asDecimalNetwork : Int) + hs - 1 ≥ (val.asDecimalNetwork : Int) + hv - 1))

/-- ccp_util.py:2234-2240. -/
def V6.networkOffset (o : V6) : Except Err Int := do
  let offset := (o.asDecimal : Int) - o.asDecimalNetwork
  let nh ← o.numhosts
  if offset > nh then .error .requirement else .ok offset

/-- ccp_util.py:2244-2268. -/
def V6.setNetworkOffset (o : V6) (arg : Int) : Except Err V6 :=
  let maxOffset : Int := (o.asDecimalNetworkMaxint : Int) - o.asDecimalNetwork
  if arg ≤ maxOffset then
    let a := (o.asDecimalNetwork : Int) + arg
    if 0 ≤ a ∧ a ≤ maxInt6 then .ok { o with ip := a.toNat } else .error .addressValue
  else .error .addressValue

/-- ccp_util.py:1899-1901 `IPv6Obj(IPv6Obj)`. -/
def V6.copy (o : V6) : V6 := ⟨o.ip, o.plen, networkOf 128 o.net o.plen⟩

end IP

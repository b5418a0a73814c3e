import Verif.IP.Text6

/-!
# Views of `IPv4Obj` and `IPv6Obj`, and `ip_factory`

`ciscoconfparse/ccp_util.py`.  The parts of the standard library's `ipaddress` that the code
calls are modelled with it: `IPv4Network.netmask`, `hostmask`, `broadcast_address`, iteration,
`is_multicast` and the like, and the constructors of `IPv4Network` and `IPv6Network` from a text.
-/

namespace IP

open Py

/-! ## Masks -/

/-- `_BaseNetwork.hostmask`: the netmask with all bits flipped. -/
def hostmaskOf (W p : Nat) : Nat := maskOf W p ^^^ (2 ^ W - 1)

/-- `_BaseNetwork.broadcast_address`: the last address, `network | hostmask`. -/
def lastOf (W net p : Nat) : Nat := net ||| hostmaskOf W p

/-- `_BaseNetwork.__iter__`: `for x in range(int(network), int(broadcast) + 1)`. -/
def addrsOf (W net p : Nat) : List Nat := (List.range (lastOf W net p + 1 - net)).map (net + ·)

/-- `address in IPv4Network(f"{base}/{p}")` (`IPv6Network`): the bits under the mask are those of the
base. -/
def inBlock (W base p x : Nat) : Bool := networkOf W x p == base

/-- `_BaseNetwork.is_multicast` and the like, for a class that is one block of addresses: the first
and the last address of the network are in the class.  (As in Python before 3.13, which does not look at
the IPv4 address in a mapped IPv6 address.) -/
def bothIn (W base q net p : Nat) : Bool := inBlock W base q net && inBlock W base q (lastOf W net p)

/-- `hex(n)` without the `0x`. -/
def hexAux : Nat → Nat → Str
  | 0, _ => []
  | f + 1, n => if n < 16 then [baseDigit n] else hexAux f (n / 16) ++ [baseDigit (n % 16)]

/-- `hex(n)`. -/
def pyHex (n : Nat) : Str := '0' :: 'x' :: hexAux (n + 1) n

/-! ## IPv4Obj -/

/-- ccp_util.py:1446-1448 `netmask`. -/
def V4.netmask (o : V4) : Nat := maskOf 32 o.plen

/-- ccp_util.py:1602-1604 `hostmask`. -/
def V4.hostmask (o : V4) : Nat := hostmaskOf 32 o.plen

/-- ccp_util.py:1616-1618 `inverse_netmask`. -/
def V4.inverseNetmask (o : V4) : Nat := hostmaskOf 32 o.plen

/-- ccp_util.py:1534-1539 `broadcast`. -/
def V4.broadcast (o : V4) : Nat := lastOf 32 o.net o.plen

/-- ccp_util.py:1544-1550 `network`: `IPv4Network(network_object.compressed, strict=False)`, its
address and its prefix length. -/
def V4.network (o : V4) : Nat × Nat := (networkOf 32 o.net o.plen, o.plen)

/-- ccp_util.py:1374-1375 `__iter__`. -/
def V4.iter (o : V4) : List Nat := addrsOf 32 o.net o.plen

/-- ccp_util.py:1282-1296 `__int__` and `__index__` (`as_decimal` is never `None`). -/
def V4.index (o : V4) : Nat := o.asDecimal

/-- ccp_util.py:1671-1673 `as_int`. -/
def V4.asInt (o : V4) : Nat := o.asDecimal

/-- ccp_util.py:1695-1697 `as_hex`. -/
def V4.asHex (o : V4) : Str := pyHex o.index

/-- ccp_util.py:1686-1690 `as_zeropadded_network`. -/
def V4.asZeropaddedNetwork (o : V4) : Str :=
  let nums := splitOn '.' ((splitOn '/' o.asCidrNet).headD [])
  join ['.'] (nums.map (fun num => padBase 10 3 (natVal num))) ++ '/' :: natStr o.plen

/-- ccp_util.py:1469-1471, 1453-1455, 1504-1506 `masklength`, `masklen`, `prefixlength`. -/
def V4.masklen (o : V4) : Nat := o.plen

/-- ccp_util.py:1733-1735 `is_multicast`: 224.0.0.0/4. -/
def V4.isMulticast (o : V4) : Bool := bothIn 32 3758096384 4 o.net o.plen

/-- ccp_util.py:1747-1749 `is_reserved`: 240.0.0.0/4. -/
def V4.isReserved (o : V4) : Bool := bothIn 32 4026531840 4 o.net o.plen

/-- ccp_util.py:1167-1171 `__repr__` (`none` is `IPv4Obj(None)`). -/
def V4.repr : Option V4 → Str
  | some o => "<IPv4Obj ".toList ++ dotted o.ip ++ '/' :: natStr o.plen ++ ['>']
  | none => "<IPv4Obj None empty=True>".toList

/-! ## IPv6Obj -/

/-- ccp_util.py:2150-2152 `netmask`. -/
def V6.netmask (o : V6) : Nat := maskOf 128 o.plen

/-- ccp_util.py:2297-2299 `hostmask`. -/
def V6.hostmask (o : V6) : Nat := hostmaskOf 128 o.plen

/-- ccp_util.py:2309-2311 `inverse_netmask`. -/
def V6.inverseNetmask (o : V6) : Nat := hostmaskOf 128 o.plen

/-- ccp_util.py:2227-2230 `network`. -/
def V6.network (o : V6) : Nat × Nat := (networkOf 128 o.net o.plen, o.plen)

/-- ccp_util.py:2074-2075 `__iter__`. -/
def V6.iter (o : V6) : List Nat := addrsOf 128 o.net o.plen

/-- ccp_util.py:2002-2015 `__int__` and `__index__`. -/
def V6.index (o : V6) : Nat := o.asDecimal

/-- ccp_util.py:2345-2347 `as_int()` (a method here). -/
def V6.asInt (o : V6) : Nat := o.asDecimal

/-- ccp_util.py:2358-2360 `as_hex`. -/
def V6.asHex (o : V6) : Str := pyHex o.index

/-- ccp_util.py:2386-2388 `is_multicast`: ff00::/8. -/
def V6.isMulticast (o : V6) : Bool := bothIn 128 338953138925153547590470800371487866880 8 o.net o.plen

/-- ccp_util.py:2404-2406 `is_link_local`: fe80::/10. -/
def V6.isLinkLocal (o : V6) : Bool := bothIn 128 338288524927261089654018896841347694592 10 o.net o.plen

/-- ccp_util.py:2410-2412 `is_site_local`: fec0::/10. -/
def V6.isSiteLocal (o : V6) : Bool := bothIn 128 338620831926207318622244848606417780736 10 o.net o.plen

/-- ccp_util.py:2416-2419 `is_unspecified`. -/
def V6.isUnspecified (o : V6) : Bool := bothIn 128 0 128 o.net o.plen

/-- ccp_util.py:1907-1914 `__repr__`: an IPv4-mapped address shows its last 32 bits as an IPv4
address. -/
def V6.repr (o : V6) : Str :=
  "<IPv6Obj ".toList ++ (if o.isIpv4Mapped then "::ffff:".toList ++ dotted (o.ip % 2 ^ 32) else str6 o.ip) ++
    '/' :: natStr o.plen ++ ['>']

/-! ## ip_factory -/

/-- `ipaddress._split_optional_netmask` and `_split_addr_prefix`: the address and the mask, the
longest one if none is given. -/
def splitMask (longest : Str) (s : Str) : Except Err (Str × Str) :=
  match splitOn '/' s with
  | [a] => .ok (a, longest)
  | [a, m] => .ok (a, m)
  | _ => .error .addressValue

/-- `IPv4Network(s, strict=False)`: address of the text (not of the network) and prefix length. -/
def stdNet4 (s : Str) : Except Err (Nat × Nat) := do
  let q ← splitMask "32".toList s
  let ip ← parseAddr q.1
  let p ← makeNetmask q.2
  .ok (ip, p)

/-- `_BaseV6._split_scope_id`: the address without the zone after `%`. -/
def splitScope (s : Str) : Except Err Str :=
  match splitOn '%' s with
  | [a] => .ok a
  | [a, z] => if z = [] then .error .addressValue else .ok a
  | _ => .error .addressValue

/-- `IPv6Network(s, strict=False)`. -/
def stdNet6 (s : Str) : Except Err (Nat × Nat) := do
  let q ← splitMask "128".toList s
  let a ← splitScope q.1
  let ip ← parse6 a
  let p ← makeNetmask6 q.2
  .ok (ip, p)

/-- What `ip_factory` returns: an object of this package or of the standard library. -/
inductive IPVal where
  | v4 (o : V4)
  | v6 (o : V6)
  | addr4 (ip : Nat)
  | net4 (net p : Nat)
  | addr6 (ip : Nat)
  | net6 (net p : Nat)
  deriving DecidableEq, Repr

/-- ccp_util.py:696-732 `_get_ipv4` for a text: the standard library's test first; every exception
becomes `AddressValueError`. -/
def getIpv4 (s : Str) (stdlib : Bool) : Except Err IPVal :=
  match (do
    let _ ← stdNet4 s
    V4.ofStr s) with
  | .error _ => .error .addressValue
  | .ok o =>
    if stdlib then (if o.plen = 32 then .ok (.addr4 o.ip) else .ok (.net4 o.network.1 o.network.2)) else .ok (.v4 o)

/-- ccp_util.py:736-773 `_get_ipv6`. -/
def getIpv6 (s : Str) (stdlib : Bool) : Except Err IPVal :=
  match (do
    let _ ← stdNet6 s
    V6.ofStr s) with
  | .error _ => .error .addressValue
  | .ok o =>
    if stdlib then (if o.plen = 128 then .ok (.addr6 o.ip) else .ok (.net6 o.network.1 o.network.2)) else .ok (.v6 o)

/-- ccp_util.py:777-835 `ip_factory` for a text; `mode` is the text of the mode. -/
def ipFactory (s : Str) (stdlib : Bool) (mode : Str) : Except Err IPVal :=
  if mode = "auto_detect".toList then
    (if ':' ∈ s then getIpv6 s stdlib else getIpv4 s stdlib)
  else if mode = "ipv4".toList then getIpv4 s stdlib
  else if mode = "ipv6".toList then getIpv6 s stdlib
  else .error .requirement

end IP

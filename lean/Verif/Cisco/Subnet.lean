import Verif.Cisco.Access
import Verif.Cisco.Model

/-! # Model of the networks and secondary addresses of IOS interfaces -/

namespace Cisco

open Py Conf Query Re

/-- models_cisco.py:1493-1500 `ip_network_object` (and 1486-1488 `ipv4_network_object`): the class
has no attribute `ipv4_mask`, so that ccp_abc.py:136-143 `__getattr__` raises AttributeError, and
the last `except` returns the empty object. -/
def ipNetworkObject (P : Parsed) (i : Nat) : Except Err (Option IP.V4) := do
  let _ ← ipv4Addr P i
  match (.error .attributeError : Except Err Str) with
  | .ok m => (IP.V4.ofStr m).map some
  | .error .dynamicAddress => .error .dynamicAddress
  | .error _ => .ok none

/-- What can be given to `in_ipv4_subnet`: None, an `IPv4Obj` (`none` is the empty one), or
something else. -/
inductive NetArg where
  | none | obj (o : Option IP.V4) | other
  deriving DecidableEq, Repr

/-- models_cisco.py:1809-1879 `in_ipv4_subnet`. -/
def inIpv4Subnet (P : Parsed) (i : Nat) (net : NetArg) : Except Err (Option Bool) := do
  match ← ipv4AddrObject P i with
  | none => .ok (some false)
  | some a =>
    match net with
    | .none => .ok (some false)
    | .obj none => .ok (some false)
    | .obj (some n) => .ok (some (IP.V4.contains (some n) (some a)))
    | .other => .ok none

/-- models_cisco.py:1889-1895: the loop; `tmp` is none before its first assignment. -/
def inSubnetsLoop (P : Parsed) (i : Nat) : Option (Option Bool) → List (Option IP.V4) → Except Err (Option Bool)
  | tmp, [] => match tmp with
    | some x => .ok x
    | none => .error .unbound
  | tmp, none :: ss => inSubnetsLoop P i tmp ss
  | _, some s :: ss => do
    let tmp ← inIpv4Subnet P i (.obj (some s))
    if IP.V4.contains (some s) (← ipv4AddrObject P i) then .ok tmp else inSubnetsLoop P i (some tmp) ss

/-- models_cisco.py:1883-1895 `in_ipv4_subnets`, for a list of `IPv4Obj`. -/
def inIpv4Subnets (P : Parsed) (i : Nat) : Option (List (Option IP.V4)) → Except Err (Option Bool)
  | none => .error .valueError
  | some ss => inSubnetsLoop P i none ss

/-- models_cisco.py:1505-1515 `has_autonegotiation`. -/
def hasAutonegotiation (P : Parsed) (i : Nat) : Except Err Bool := do
  if !(← isEthernetIntf (P.h i).text) then .ok false
  else if (← (do if (← hasManualSpeed P i) then .ok true else hasManualDuplex P i)) then .ok false
  else .ok true

/-- models_cisco.py:1437-1438, 1453-1454: the expression. -/
def reSecondary : String := "^\\s*ip\\s+address\\s+(?P<secondary>\\S+\\s+\\S+)\\s+secondary\\s*$"

/-- models_cisco.py:1437-1441, 1453-1457: the object of the secondary address of one line, or of the
first line below it that has one; none stands for the default False.  An `IPv4Obj` is true (it has
neither `__bool__` nor `__len__`). -/
def secondaryOf (P : Parsed) (j : Nat) : Except Err (Option IP.V4) := do
  match compile reSecondary with
  | .error _ => .error .reError
  | .ok p =>
    match firstMatch p (texts P j) with
    | none => .ok none
    | some m =>
      match (m.groupdict p).lookup "secondary".toList with
      | some (some s) => (IP.V4.ofStr s).map some
      | _ => .error .addressValue

/-- models_cisco.py:1436-1443, 1452-1459: the loop, with `f` for the text that is added. -/
def secondaryLoop (P : Parsed) (f : IP.V4 → Str) : List Nat → List Str → Except Err (List Str)
  | [], acc => .ok acc
  | j :: js, acc => do
    match ← secondaryOf P j with
    | none => secondaryLoop P f js acc
    | some o => secondaryLoop P f js (if f o ∈ acc then acc else acc ++ [f o])

/-- models_cisco.py:1433-1444 `ip_secondary_addresses`, a set. -/
def ipSecondaryAddresses (P : Parsed) (i : Nat) : Except Err (List Str) :=
  secondaryLoop P (fun o => IP.dotted o.ip) (allChildren P (P.h i).parent) []

/-- models_cisco.py:1449-1460 `ip_secondary_networks`, a set. -/
def ipSecondaryNetworks (P : Parsed) (i : Nat) : Except Err (List Str) :=
  secondaryLoop P (fun o => IP.dotted o.ip ++ '/' :: natStr o.plen) (allChildren P (P.h i).parent) []

end Cisco

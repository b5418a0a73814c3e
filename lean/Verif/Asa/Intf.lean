import Verif.Asa.Model
import Verif.Cisco.Addr6
import Verif.IP.Views

/-! # Model of the attributes of ASA interfaces

models_asa.py:102-140 and 224-568.  The interface is object `i` of the configuration `P`.  The
classes of ASA and IOS lines have the same methods `re_match` and `re_match_iter_typed`. -/

namespace Asa

open Py Conf Query Re Cisco

/-! ## The line -/

/-- models_asa.py:103-108 `is_intf`. -/
def isIntf (t : Str) : Except Err Bool := reTrue "^interface\\s+(\\S+.+)" t

/-- models_asa.py:112-116 `is_subintf`. -/
def isSubintf (t : Str) : Except Err Bool := reTrue "^interface\\s+(\\S+?\\.\\d+)" t

/-- models_asa.py:120-124 `is_virtual_intf`. -/
def isVirtualIntf (t : Str) : Except Err Bool := reTrue "^interface\\s+(Loopback|Tunnel|Virtual-Template|Port-Channel)" t

/-- models_asa.py:128-132 `is_loopback_intf`. -/
def isLoopbackIntf (t : Str) : Except Err Bool := reTrue "^interface\\s+(\\Soopback)" t

/-- models_asa.py:136-140 `is_ethernet_intf`. -/
def isEthernetIntf (t : Str) : Except Err Bool := reTrue "^interface\\s+(.*?\\Sthernet)" t

/-- models_asa.py:224-228 `name`. -/
def intfName (t : Str) : Except Err Str := do
  if !(← isIntf t) then .ok []
  else .ok (join [' '] ((splitWs t).drop 1))

/-- models_asa.py:238-241 `port_type`. -/
def portType (t : Str) : Except Err Str := do .ok ((← matchGroup t "^interface\\s+([A-Za-z\\-]+)" 1 []).getD [])

/-- models_asa.py:245-257 `ordinal_list`. -/
def ordinalList (t : Str) : Except Err (List Int) := do
  if !(← isIntf t) then .ok []
  else
    let number := (← matchGroup t "^interface\\s+[A-Za-z\\-]+\\s*(\\d+.*?)(\\.\\d+)*(\\s\\S+)*\\s*$" 1 []).getD []
    if number = [] then .ok [] else (splitOn '/' number).mapM pyInt

/-- models_asa.py:232-234 `port`. -/
def port (t : Str) : Except Err Int := do
  match (← ordinalList t).getLast? with
  | some n => .ok n
  | none => .error .indexError

/-! ## Numbers and flags -/

/-- models_asa.py:261-265 `description`. -/
def description (P : Parsed) (i : Nat) : Except Err Str := iterTyped P i "^\\s*description\\s+(\\S.+)$" 1 toStr []

/-- models_asa.py:269-273 `manual_delay`. -/
def manualDelay (P : Parsed) (i : Nat) : Except Err Int := iterTyped P i "^\\s*delay\\s+(\\d+)$" 1 toInt 0

/-- models_asa.py:403-407 `has_manual_speed`. -/
def hasManualSpeed (P : Parsed) (i : Nat) : Except Err Bool := iterTyped P i "^\\s*speed\\s+(\\d+)$" 1 toBool false

/-- models_asa.py:412-416 `has_manual_duplex`. -/
def hasManualDuplex (P : Parsed) (i : Nat) : Except Err Bool := iterTyped P i "^\\s*duplex\\s+(\\S.+)$" 1 toBool false

/-- models_asa.py:388-398 `has_autonegotiation`; the last branch cannot be reached. -/
def hasAutonegotiation (P : Parsed) (i : Nat) : Except Err Bool := do
  if !(← isEthernetIntf (P.h i).text) then .ok false
  else if (← (do if (← hasManualSpeed P i) then .ok true else hasManualDuplex P i)) then .ok false
  else .ok true

/-- models_asa.py:421-425 `is_shutdown`. -/
def isShutdown (P : Parsed) (i : Nat) : Except Err Bool := iterTyped P i "^\\s*(shut\\S*)\\s*$" 1 toBool false

/-- models_asa.py:530-534 `is_switchport`. -/
def isSwitchport (P : Parsed) (i : Nat) : Except Err Bool := iterTyped P i "^\\s*(switchport)\\s*" 1 toBool false

/-- models_asa.py:539-543 `has_manual_switch_access`. -/
def hasManualSwitchAccess (P : Parsed) (i : Nat) : Except Err Bool :=
  iterTyped P i "^\\s*(switchport\\smode\\s+access)\\s*$" 1 toBool false

/-- models_asa.py:548-549 `has_manual_switch_trunk_encap`: no ASA class has an attribute
`manual_switch_trunk_encap`. -/
def hasManualSwitchTrunkEncap (_P : Parsed) (_i : Nat) : Except Err Bool := .error .attributeError

/-- models_asa.py:554-558 `has_manual_switch_trunk`. -/
def hasManualSwitchTrunk (P : Parsed) (i : Nat) : Except Err Bool :=
  iterTyped P i "^\\s*(switchport\\s+mode\\s+trunk)\\s*$" 1 toBool false

/-- models_asa.py:563-568 `access_vlan`. -/
def accessVlan (P : Parsed) (i : Nat) : Except Err Int := iterTyped P i "^\\s*switchport\\s+access\\s+vlan\\s+(\\d+)$" 1 toInt 0

/-! ## IPv4 addresses -/

/-- models_asa.py:436-443 `ipv4_addr` (and 430-431 `ip_addr`). -/
def ipv4Addr (P : Parsed) (i : Nat) : Except Err Str :=
  iterTyped P i "^\\s+ip\\s+address\\s+(\\d+\\.\\d+\\.\\d+\\.\\d+)" 1 toStr []

/-- models_asa.py:460-467 `ipv4_netmask`. -/
def ipv4Netmask (P : Parsed) (i : Nat) : Except Err Str :=
  iterTyped P i "^\\s+ip\\s+address\\s+\\d+\\.\\d+\\.\\d+\\.\\d+\\s+(\\d+\\.\\d+\\.\\d+\\.\\d+)" 1 toStr []

/-- models_asa.py:448-455 `ipv4_standby_addr`. -/
def ipv4StandbyAddr (P : Parsed) (i : Nat) : Except Err Str :=
  iterTyped P i "^\\s+ip\\s+address\\s+\\d+\\.\\d+\\.\\d+\\.\\d+\\s+\\d+\\.\\d+\\.\\d+\\.\\d+\\sstandby\\s+(\\S+)\\s*$" 1 toStr []

/-- models_asa.py:299-304 `ipv4_addr_object` (and 285-294 `ip`, `ipv4`): every exception gives the
empty object. -/
def ipv4AddrObject (P : Parsed) (i : Nat) : Option IP.V4 :=
  match (do IP.V4.ofStr ((← ipv4Addr P i) ++ '/' :: (← ipv4Netmask P i)) : Except Err IP.V4) with
  | .ok o => some o
  | .error _ => none

/-- models_asa.py:330-335 `ipv4_standby_addr_object`. -/
def ipv4StandbyAddrObject (P : Parsed) (i : Nat) : Option IP.V4 :=
  match (do IP.V4.ofStr ((← ipv4StandbyAddr P i) ++ '/' :: (← ipv4Netmask P i)) : Except Err IP.V4) with
  | .ok o => some o
  | .error _ => none

/-- models_asa.py:278-280 `has_no_ipv4`. -/
def hasNoIpv4 (P : Parsed) (i : Nat) : Bool := IP.V4.eq (ipv4AddrObject P i) none

/-- models_asa.py:347-357 `ip_network_object` (and 340-342 `ipv4_network_object`): the address and
the prefix length of an `IPv4Network`. -/
def ipNetworkObject (P : Parsed) (i : Nat) : Except Err (Nat × Nat) :=
  match (do IP.V4.ofStr ((← ipv4Addr P i) ++ '/' :: (← ipv4Netmask P i)) : Except Err IP.V4) with
  | .ok o => .ok o.network
  | .error .attributeError => .error .attributeError
  | .error _ => .error .valueError

/-- models_asa.py:472-477 `ipv4_masklength`. -/
def ipv4Masklength (P : Parsed) (i : Nat) : Nat :=
  match ipv4AddrObject P i with
  | some o => if IP.V4.eq (some o) none then 0 else o.plen
  | none => 0

/-- models_asa.py:481-494 `in_ipv4_subnet`; the argument is an `IPv4Obj` (`none` is the empty one),
or something that has no `in`. -/
def inIpv4Subnet (P : Parsed) (i : Nat) (net : Option (Option IP.V4)) : Except Err (Option Bool) :=
  match ipv4AddrObject P i, net with
  | none, _ => .ok none
  | some _, none => .error .valueError
  | some a, some n => .ok (some (IP.V4.contains n (some a)))

/-- models_asa.py:504-508: the loop; `tmp` is none before its first assignment. -/
def inSubnetsLoop (P : Parsed) (i : Nat) : Option (Option Bool) → List (Option IP.V4) → Except Err (Option Bool)
  | some x, [] => .ok x
  | none, [] => .error .unbound
  | _, s :: ss => do
    let tmp ← inIpv4Subnet P i (some s)
    if IP.V4.contains s (ipv4AddrObject P i) then .ok tmp else inSubnetsLoop P i (some tmp) ss

/-- models_asa.py:498-508 `in_ipv4_subnets`, for a list of `IPv4Obj`. -/
def inIpv4Subnets (P : Parsed) (i : Nat) : Option (List (Option IP.V4)) → Except Err (Option Bool)
  | none => .error .valueError
  | some ss => inSubnetsLoop P i none ss

/-- models_asa.py:513-525 `has_ip_pim_sparse_mode`. -/
def hasIpPimSparseMode (P : Parsed) (i : Nat) : Except Err Bool := do
  if (← ipv4Addr P i) = [] then .ok false
  else iterTyped P i "^\\s*ip\\spim\\ssparse-mode\\s*$)\\s*$" 1 toBool false

/-! ## IPv6 addresses -/

/-- models_asa.py:309-325 `ipv6_addr_object`; none is the empty `IPv6Obj()`. -/
def ipv6AddrObject (P : Parsed) (i : Nat) : Except Err (Option IP.V6) := do
  let d ← iterDict P i "^\\s+ipv6\\s+address\\s+(?P<v6addr>\\S+?)\\/(?P<v6masklength>\\d+)"
    [("v6addr".toList, .str), ("v6masklength".toList, .str)] (.str [])
  match d.lookup "v6addr".toList, d.lookup "v6masklength".toList with
  | some (.str a), some (.str m) =>
    if a = [] then .ok none
    else if a = "dhcp".toList then .ok none
    else if a = "negotiated".toList then .ok none
    else (IP.V6.ofStr (a ++ '/' :: m)).map some
  | _, _ => .error .keyError

/-- models_asa.py:362-365 `ipv6_addr`. -/
def ipv6Addr (P : Parsed) (i : Nat) : Except Err Str := do
  match ← ipv6AddrObject P i with
  | some o => .ok (IP.str6 o.ip)
  | none => .ok []

/-- models_asa.py:380-383 `ipv6_masklength`. -/
def ipv6Masklength (P : Parsed) (i : Nat) : Except Err Nat := do
  match ← ipv6AddrObject P i with
  | some o => .ok o.plen
  | none => .ok 0

/-- models_asa.py:370-375: the loop. -/
def standby6Loop : List Str → Str
  | [] => []
  | t :: ts =>
    let parts := splitWs t
    if parts.length = 5 then
      if parts.take 2 = ["ipv6".toList, "address".toList] ∧ parts[3]? = some "standby".toList then
        (parts[4]?).getD []
      else standby6Loop ts
    else standby6Loop ts

/-- models_asa.py:369-375 `ipv6_standby_addr`. -/
def ipv6StandbyAddr (P : Parsed) (i : Nat) : Str := standby6Loop ((P.h i).children.map (fun j => (P.h j).text))

end Asa

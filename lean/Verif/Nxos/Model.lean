import Verif.Cisco.Access
import Verif.Cisco.Model
import Verif.Range.Model

/-! # Model of the properties of an NXOS interface line (`BaseNXOSIntfLine`)

models_nxos.py:306-1700.  An interface line is object `i` of the configuration `P`, parsed
with `syntax='nxos', factory=True`.  Only what differs from the IOS interface line is written
again; the rest is `Cisco.Model`.  A `float` that is read from digits is modelled as an exact
number. -/

namespace Nxos

open Py Conf Query Re Cisco

/-! ## Words, numbers and flags -/

/-- models_nxos.py:669-677 `description`. -/
def description (P : Parsed) (i : Nat) : Except Err Str := iterTyped P i "^\\s*description\\s+(\\S.+)$" 1 toStr []

/-- models_nxos.py:679-684 `manual_speed`. -/
def manualSpeed (P : Parsed) (i : Nat) : Except Err Int := iterTyped P i "^\\s*speed\\s+(\\d+)$" 1 toInt 0

/-- models_nxos.py:700-705 `manual_bandwidth`. -/
def manualBandwidth (P : Parsed) (i : Nat) : Except Err Int := iterTyped P i "^\\s*bandwidth\\s+(\\d+)$" 1 toInt 0

/-- models_nxos.py:707-712 `manual_delay`. -/
def manualDelay (P : Parsed) (i : Nat) : Except Err Int := iterTyped P i "^\\s*delay\\s+(\\d+)$" 1 toInt 0

/-- models_nxos.py:843-886 `manual_mtu`. -/
def manualMtu (P : Parsed) (i : Nat) : Except Err Int := iterTyped P i "^\\s*mtu\\s+(\\d+)$" 1 toInt 0

/-- models_nxos.py:693-698 `manual_beacon`. -/
def manualBeacon (P : Parsed) (i : Nat) : Except Err Bool := iterTyped P i "^\\s*(beacon)\\s*$" 1 toBool false

/-- models_nxos.py:714-717 `manual_holdqueue_out`. -/
def manualHoldqueueOut (_P : Parsed) (_i : Nat) : Except Err Int := .error .notImplemented

/-- models_nxos.py:719-722 `manual_holdqueue_in`. -/
def manualHoldqueueIn (_P : Parsed) (_i : Nat) : Except Err Int := .error .notImplemented

/-- models_nxos.py:731-736 `has_mpls`. -/
def hasMpls (P : Parsed) (i : Nat) : Except Err Bool :=
  iterTyped P i "^\\s*(mpls\\s+ip\\s+forwarding)$" 1 toBool false

/-- models_nxos.py:929-934 `vrf`. -/
def vrf (P : Parsed) (i : Nat) : Except Err Str := iterTyped P i "^\\s*vrf\\s+member\\s(\\S+)\\s*$" 1 toStr []

/-- models_nxos.py:925-927 `has_vrf`. -/
def hasVrf (P : Parsed) (i : Nat) : Except Err Bool := do .ok (!(← vrf P i).isEmpty)

/-- models_nxos.py:1321-1327 `manual_stp_link_type`. -/
def manualStpLinkType (P : Parsed) (i : Nat) : Except Err Str :=
  iterTyped P i "^\\s*spanning-tree\\s+link-type\\s+(\\S.+?)$" 1 toStr []

/-- models_nxos.py:1329-1335 `manual_stp_port_type`. -/
def manualStpPortType (P : Parsed) (i : Nat) : Except Err Str :=
  iterTyped P i "^\\s*spanning-tree\\s+port\\s+type\\s+(\\S.+?)$" 1 toStr []

/-- models_nxos.py:1337-1343 `vpc`. -/
def vpc (P : Parsed) (i : Nat) : Except Err Int := iterTyped P i "^\\s*vpc\\s+(\\d+)$" 1 toInt 0

/-- models_nxos.py:1345-1351 `fex_associate_chassis_id`. -/
def fexAssociateChassisId (P : Parsed) (i : Nat) : Except Err Int :=
  iterTyped P i "^\\s*fex\\s+associate\\s+(\\d+)$" 1 toInt 0

/-- models_nxos.py:285-291 `is_vpc_peerlink`: group 1 of an expression without groups. -/
def isVpcPeerlink (P : Parsed) (i : Nat) : Except Err Str := iterTyped P i "^\\s*vpc\\s+peer-link" 1 toStr []

/-- models_nxos.py:1435-1440 `has_manual_disable_cdp`. -/
def hasManualDisableCdp (P : Parsed) (i : Nat) : Except Err Bool :=
  iterTyped P i "^\\s*(no\\s+cdp\\s+enable\\s*)" 1 toBool false

/-! ## Switch ports -/

/-- models_nxos.py:1229-1234 `is_switchport`. -/
def isSwitchport (P : Parsed) (i : Nat) : Except Err Bool := iterTyped P i "^\\s*(switchport)\\s*" 1 toBool false

/-- models_nxos.py:1236-1241 `has_manual_switch_access`. -/
def hasManualSwitchAccess (P : Parsed) (i : Nat) : Except Err Bool :=
  iterTyped P i "^\\s*(switchport\\smode\\s+access)\\s*$" 1 toBool false

/-- models_nxos.py:1247-1255 `manual_switch_trunk_encap`. -/
def manualSwitchTrunkEncap (P : Parsed) (i : Nat) : Except Err Str :=
  iterTyped P i "^\\s*(switchport\\s+trunk\\s+encapsulation\\s+(\\S+))\\s*$" 1 toStr []

/-- models_nxos.py:1243-1245 `has_manual_switch_trunk_encap`. -/
def hasManualSwitchTrunkEncap (P : Parsed) (i : Nat) : Except Err Bool := do
  .ok (!(← manualSwitchTrunkEncap P i).isEmpty)

/-- models_nxos.py:1257-1263 `has_manual_switch_fex_fabric`. -/
def hasManualSwitchFexFabric (P : Parsed) (i : Nat) : Except Err Bool :=
  iterTyped P i "^\\s*(switchport\\smode\\s+fex-fabric)\\s*$" 1 toBool false

/-- models_nxos.py:1265-1270 `has_manual_switch_trunk`. -/
def hasManualSwitchTrunk (P : Parsed) (i : Nat) : Except Err Bool :=
  iterTyped P i "^\\s*(switchport\\s+mode\\s+trunk)\\s*$" 1 toBool false

/-- models_nxos.py:1272-1282 `has_switch_portsecurity`. -/
def hasSwitchPortsecurity (P : Parsed) (i : Nat) : Except Err Bool := do
  if !(← isSwitchport P i) then .ok false
  else iterTyped P i "^\\s*(switchport\\sport-security)\\s*$" 1 toBool false

/-- models_nxos.py:1284-1291 `has_switch_stormcontrol`. -/
def hasSwitchStormcontrol (P : Parsed) (i : Nat) : Except Err Bool := do
  if !(← isSwitchport P i) then .ok false
  else iterTyped P i "^\\s*(storm-control)\\s*$" 1 toBool false

/-- models_nxos.py:1293-1305 `has_dtp`: the loop is the one of IOS. -/
def hasDtp (P : Parsed) (i : Nat) : Except Err Bool := do
  if !(← isSwitchport P i) then .ok false else hasDtpT (childTexts P i)

/-- models_nxos.py:1307-1319 `access_vlan`. -/
def accessVlan (P : Parsed) (i : Nat) : Except Err Int := do
  iterTyped P i "^\\s*switchport\\s+access\\s+vlan\\s+(\\d+)$" 1 toInt (if ← isSwitchport P i then 1 else 0)

/-- models_nxos.py:1419-1431 `native_vlan`. -/
def nativeVlan (P : Parsed) (i : Nat) : Except Err Int := do
  iterTyped P i "^\\s*switchport\\s+trunk\\s+native\\s+vlan\\s+(\\d+)$" 1 toInt (if ← isSwitchport P i then 1 else 0)

/-- models_nxos.py:1648-1653 `mac_accessgroup_in`. -/
def macAccessgroupIn (P : Parsed) (i : Nat) : Except Err Str :=
  iterTyped P i "^\\s*mac\\saccess-group\\s+(\\S+)\\s+in\\s*$" 1 toStr []

/-- models_nxos.py:1655-1660 `mac_accessgroup_out`. -/
def macAccessgroupOut (P : Parsed) (i : Nat) : Except Err Str :=
  iterTyped P i "^\\s*mac\\saccess-group\\s+(\\S+)\\s+out\\s*$" 1 toStr []

/-- models_nxos.py:1636-1640 `has_mac_accessgroup_in`. -/
def hasMacAccessgroupIn (P : Parsed) (i : Nat) : Except Err Bool := do
  if !(← isSwitchport P i) then .ok false else .ok (!(← macAccessgroupIn P i).isEmpty)

/-- models_nxos.py:1642-1646 `has_mac_accessgroup_out`. -/
def hasMacAccessgroupOut (P : Parsed) (i : Nat) : Except Err Bool := do
  if !(← isSwitchport P i) then .ok false else .ok (!(← macAccessgroupOut P i).isEmpty)

/-! ## VLANs of a trunk -/

/-- `1-4094` (models_nxos.py:54 `MAX_VLAN`). -/
def allVlans : Except Err Range.R := Range.ofText "1-4094".toList

/-- The text of a statement, or the default `_nomatch_`. -/
def stmtOf (t : Str) (rx : String) : Except Err Str := do
  .ok ((← matchTyped t rx 1 toStr "_nomatch_".toList).map lowerChar)

/-- models_nxos.py:1400-1408: a whole new list. -/
def stepAbs (v : Str) (r : Range.R) : Except Err Range.R :=
  if v = "_nomatch_".toList then .ok r
  else if v = "all".toList then allVlans
  else if v = "none".toList then .ok ⟨[], false⟩
  else Range.ofText v

/-- models_nxos.py:1409-1410: `add`. -/
def stepAdd (v : Str) (r : Range.R) : Except Err Range.R :=
  if v = "_nomatch_".toList then .ok r else r.append (.str v)

/-- models_nxos.py:1411-1413: `except`. -/
def stepExcept (v : Str) (r : Range.R) : Except Err Range.R :=
  if v = "_nomatch_".toList then .ok r else do (← allVlans).remove (.str v)

/-- models_nxos.py:1414-1415: `remove`. -/
def stepRemove (v : Str) (r : Range.R) : Except Err Range.R :=
  if v = "_nomatch_".toList then .ok r else r.remove (.str v)

/-- models_nxos.py:1364-1415: one child. -/
def trunkStep (r : Range.R) (t : Str) : Except Err Range.R := do
  let a ← stmtOf t "^\\s+switchport\\s+trunk\\s+allowed\\s+vlan\\s(all|none|\\d.*?)$"
  let d ← stmtOf t "^\\s+switchport\\s+trunk\\s+allowed\\s+vlan\\s+add\\s+(\\d.*?)$"
  let e ← stmtOf t "^\\s+switchport\\s+trunk\\s+allowed\\s+vlan\\s+except\\s+(\\d.*?)$"
  let m ← stmtOf t "^\\s+switchport\\s+trunk\\s+allowed\\s+vlan\\s+remove\\s+(\\d.*?)$"
  stepRemove m (← stepExcept e (← stepAdd d (← stepAbs a r)))

/-- models_nxos.py:1353-1417 `trunk_vlans_allowed`; none is the integer 0. -/
def trunkVlansAllowed (P : Parsed) (i : Nat) : Except Err (Option Range.R) := do
  if (← isSwitchport P i) && !(← hasManualSwitchAccess P i) then
    .ok (some (← (childTexts P i).foldlM trunkStep (← allVlans)))
  else .ok none

/-! ## Addresses -/

/-- models_nxos.py:409-452 `name`. -/
def name (t : Str) : Except Err Str := do Intf.render (← interfaceObject t)

/-- models_nxos.py:940-955 `ipv4_addr` (and 936-938 `ip_addr`): the text of the exception needs
the name. -/
def ipv4Addr (P : Parsed) (i : Nat) : Except Err Str := do
  let r ← iterTyped P i "^\\s+ip\\s+address\\s+(\\d+\\.\\d+\\.\\d+\\.\\d+)\\s*\\/\\d+\\s*$" 1 toStr []
  let c ← iterTyped P i "^\\s+ip\\s+address\\s+(dhcp)\\s*$" 1 toStr []
  if c.map lowerChar = "dhcp".toList then
    match name (P.h i).text with
    | .error e => .error e
    | .ok _ => .error .dynamicAddress
  else .ok r

/-- models_nxos.py:957-965 `ipv4_masklength`. -/
def ipv4Masklength (P : Parsed) (i : Nat) : Except Err Int :=
  iterTyped P i "^\\s+ip\\s+address\\s+\\d+\\.\\d+\\.\\d+\\.\\d+\\s*\\/(\\d+)\\s*$" 1 toInt 0

/-- models_nxos.py:310 `default_ipv4_addr_object`: 0.0.0.1/32. -/
def noAddr : IP.V4 := IP.V4.make 1 32

/-- models_nxos.py:741-746,774-781: an object or the default; only the exception about a
dynamic address passes. -/
def orDefault (x : Except Err IP.V4) : Except Err IP.V4 :=
  match x with
  | .ok o => .ok o
  | .error .dynamicAddress => .error .dynamicAddress
  | .error _ => .ok noAddr

/-- models_nxos.py:738-746 `ipv4_addr_object` (and 754-764 `ip`, `ipv4`). -/
def ipv4AddrObject (P : Parsed) (i : Nat) : Except Err IP.V4 :=
  orDefault (do IP.V4.ofStr ((← ipv4Addr P i) ++ '/' :: intStr (← ipv4Masklength P i)))

/-- models_nxos.py:967-973 `ipv4_netmask`. -/
def ipv4Netmask (P : Parsed) (i : Nat) : Except Err Str := do
  let o ← ipv4AddrObject P i
  if IP.V4.eq (some o) (some noAddr) then .ok [] else .ok o.netmaskStr

/-- models_nxos.py:771-781 `ip_network_object` (and 766-769 `ipv4_network_object`): an address
object as well, written with the netmask. -/
def ipNetworkObject (P : Parsed) (i : Nat) : Except Err IP.V4 :=
  orDefault (do IP.V4.ofStr ((← ipv4Addr P i) ++ '/' :: (← ipv4Netmask P i)))

/-- models_nxos.py:748-752 `has_no_ipv4`. -/
def hasNoIpv4 (P : Parsed) (i : Nat) : Except Err Bool := do
  .ok (IP.V4.eq (some (← ipNetworkObject P i)) (some noAddr))

/-- models_nxos.py:981-1035 `in_ipv4_subnet`; none is None.  Simplification: the argument is an
`IPv4Obj`, so `in` raises nothing; an exception of the address object passes. -/
def inIpv4Subnet (P : Parsed) (i : Nat) (net : IP.V4) : Except Err (Option Bool) := do
  let o ← ipv4AddrObject P i
  if IP.dotted o.ip ≠ "0.0.0.1".toList then
    match ipNetworkObject P i with
    | .ok n => .ok (some (IP.V4.contains (some net) (some n)))
    | .error _ => .error .valueError
  else .ok none

/-- models_nxos.py:1043-1047: the loop, with the answer so far. -/
def inSubnetsLoop (P : Parsed) (i : Nat) : Option (Option Bool) → List IP.V4 → Except Err (Option Bool)
  | tmp, [] => match tmp with
    | some x => .ok x
    | none => .error .unbound
  | _, s :: ss => do
    let tmp ← inIpv4Subnet P i s
    if IP.V4.contains (some s) (some (← ipv4AddrObject P i)) then .ok tmp else inSubnetsLoop P i (some tmp) ss

/-- models_nxos.py:1037-1047 `in_ipv4_subnets`; none is a missing argument. -/
def inIpv4Subnets (P : Parsed) (i : Nat) : Option (List IP.V4) → Except Err (Option Bool)
  | none => .error .valueError
  | some ss => inSubnetsLoop P i none ss

/-- models_nxos.py:1049-1184: a property that needs an address on the interface. -/
def withAddr {α : Type} (P : Parsed) (i : Nat) (none : α) (f : Except Err α) : Except Err α := do
  if (← ipv4Addr P i) = [] then .ok none else f

/-- models_nxos.py:1049-1062 `has_no_icmp_unreachables`. -/
def hasNoIcmpUnreachables (P : Parsed) (i : Nat) : Except Err Bool :=
  withAddr P i false (iterTyped P i "^\\s*no\\sip\\s(unreachables)\\s*$" 1 toBool false)

/-- models_nxos.py:1064-1077 `has_no_icmp_redirects`. -/
def hasNoIcmpRedirects (P : Parsed) (i : Nat) : Except Err Bool :=
  withAddr P i false (iterTyped P i "^\\s*no\\sip\\s(redirects)\\s*$" 1 toBool false)

/-- models_nxos.py:1079-1121 `has_no_ip_proxyarp`. -/
def hasNoIpProxyarp (P : Parsed) (i : Nat) : Except Err Bool :=
  withAddr P i false (iterTyped P i "^\\s*no\\sip\\s(proxy-arp)\\s*$" 1 toBool false)

/-- models_nxos.py:1123-1136 `has_ip_pim_dense_mode`. -/
def hasIpPimDenseMode (P : Parsed) (i : Nat) : Except Err Bool :=
  withAddr P i false (iterTyped P i "^\\s*ip\\spim\\sdense-mode\\s*$)\\s*$" 1 toBool false)

/-- models_nxos.py:1138-1151 `has_ip_pim_sparse_mode`. -/
def hasIpPimSparseMode (P : Parsed) (i : Nat) : Except Err Bool :=
  withAddr P i false (iterTyped P i "^\\s*ip\\spim\\ssparse-mode\\s*$)\\s*$" 1 toBool false)

/-- models_nxos.py:1153-1166 `has_ip_pim_sparsedense_mode`. -/
def hasIpPimSparsedenseMode (P : Parsed) (i : Nat) : Except Err Bool :=
  withAddr P i false (iterTyped P i "^\\s*ip\\spim\\ssparse-dense-mode\\s*$)\\s*$" 1 toBool false)

/-- models_nxos.py:1168-1184 `manual_arp_timeout`. -/
def manualArpTimeout (P : Parsed) (i : Nat) : Except Err Int :=
  withAddr P i (-1) (iterTyped P i "^\\s*arp\\s+timeout\\s+(\\d+)\\s*$" 1 toInt 0)

/-! ## Helper addresses -/

/-- models_nxos.py:1215-1218: the variable `vrf`, unset without a line with `vrf member`. -/
def helperVrf : List Str → Except Err (Option Str)
  | [] => .ok none
  | t :: ts =>
    if isInfix "vrf member".toList t then do
      .ok (some (← matchTyped t "vrf\\s+member\\s+(\\S+)" 1 toStr []))
    else helperVrf ts

/-- models_nxos.py:1220-1226: the children one after the other. -/
def helpersT (vrf : Option Str) : List Str → Except Err (List Helper)
  | [] => .ok []
  | t :: ts => do
    if isInfix "dhcp relay address".toList t then
      let addr ← matchTyped t "ip\\s+dhcp\\s+relay\\s+address\\s+(\\d+\\.\\d+\\.\\d+\\.\\d+)" 1 toStr []
      match vrf with
      | none => .error .unbound
      | some v => .ok (⟨addr, v, false⟩ :: (← helpersT vrf ts))
    else helpersT vrf ts

/-- models_nxos.py:1193-1227 `ip_helper_addresses`. -/
def ipHelperAddresses (P : Parsed) (i : Nat) : Except Err (List Helper) := do
  helpersT (← helperVrf (childTexts P i)) (childTexts P i)

/-- models_nxos.py:1186-1191 `has_ip_helper_addresses`. -/
def hasIpHelperAddresses (P : Parsed) (i : Nat) : Except Err Bool := do
  .ok (decide ((← ipHelperAddresses P i).length > 0))

/-! ## HSRP -/

/-- models_nxos.py:1474,1519,1533: the number of the group that a line opens, or nothing. -/
def groupOf (t : Str) : Except Err Str := matchTyped t "^\\s+hsrp\\s+(\\d+)" 1 toStr []

/-- models_nxos.py:1475-1478: the children of one group; empty if none has an address. -/
def addrIn : List Str → Except Err Str
  | [] => .ok []
  | t :: ts => do
    let a ← matchTyped t "^\\s+ip\\s+(\\S+)" 1 toStr []
    if a ≠ [] then .ok a else addrIn ts

/-- models_nxos.py:1473-1479: the groups one after the other. -/
def hsrpAddrLoop (P : Parsed) : List Nat → Except Err Str
  | [] => .ok []
  | j :: js => do
    if (← groupOf (P.h j).text) ≠ [] then
      let a ← addrIn (childTexts P j)
      if a ≠ [] then .ok a else hsrpAddrLoop P js
    else hsrpAddrLoop P js

/-- models_nxos.py:1461-1479 `hsrp_ip_addr`. -/
def hsrpIpAddr (P : Parsed) (i : Nat) : Except Err Str := withAddr P i [] (hsrpAddrLoop P (P.h i).children)

/-- models_nxos.py:1457-1459 `has_ip_hsrp`. -/
def hasIpHsrp (P : Parsed) (i : Nat) : Except Err Bool := do .ok (!(← hsrpIpAddr P i).isEmpty)

/-- models_nxos.py:1481-1498 `hsrp_ip_mask`: the expression is the one of IOS. -/
def hsrpIpMask (P : Parsed) (i : Nat) : Except Err Str :=
  withAddr P i [] (iterTyped P i "^\\s*standby\\s+(\\d+\\s+)*ip\\s+\\S+\\s+(\\S+)\\s*$" 2 toStr [])

/-- models_nxos.py:1505-1509: the children one after the other. -/
def hsrpGroupT : List Str → Except Err Str
  | [] => .ok []
  | t :: ts => do
    let g ← groupOf t
    if g ≠ [] then .ok g else hsrpGroupT ts

/-- models_nxos.py:1500-1509 `hsrp_group`. -/
def hsrpGroup (P : Parsed) (i : Nat) : Except Err Str := hsrpGroupT (childTexts P i)

/-- models_nxos.py:1518-1524: the groups one after the other; none is None. -/
def hsrpPriorityLoop (P : Parsed) : List Nat → Except Err (Option Int)
  | [] => .ok none
  | j :: js => do
    if (← groupOf (P.h j).text) ≠ [] then
      let p ← iterTyped P j "^\\s+priority\\s+(\\d+)" 1 toInt 100
      if p ≠ 100 then .ok (some p) else hsrpPriorityLoop P js
    else hsrpPriorityLoop P js

/-- models_nxos.py:1511-1524 `hsrp_priority`. -/
def hsrpPriority (P : Parsed) (i : Nat) : Except Err (Option Int) := do
  if !(← hasIpHsrp P i) then .ok (some 0) else hsrpPriorityLoop P (P.h i).children

/-- models_nxos.py:1532-1548,1556-1572: the first group decides; `retval` is unset without a
group.  In milliseconds. -/
def timerLoop (P : Parsed) (sec msec : String) : List Nat → Except Err Int
  | [] => .error .unbound
  | j :: js => do
    if (← groupOf (P.h j).text) ≠ [] then
      let s ← iterTyped P j sec 1 toNum 0
      let ms ← iterTyped P j msec 1 toNum 0
      if s > 0 then .ok (1000 * s) else if ms > 0 then .ok ms else .ok 0
    else timerLoop P sec msec js

/-- models_nxos.py:1526-1548 `hsrp_hello_timer`, in milliseconds. -/
def hsrpHelloTimerMs (P : Parsed) (i : Nat) : Except Err Int :=
  timerLoop P "^\\s+timers\\s+(\\d+)\\s+\\d+" "^\\s+timers\\s+msec\\s+(\\d+)\\s+msec\\s+\\d+" (P.h i).children

/-- models_nxos.py:1550-1572 `hsrp_hold_timer`, in milliseconds. -/
def hsrpHoldTimerMs (P : Parsed) (i : Nat) : Except Err Int :=
  timerLoop P "^\\s+timers\\s+\\d+\\s+(\\d+)" "^\\s+timers\\s+msec\\s+\\d+\\s+msec\\s+(\\d+)" (P.h i).children

/-- models_nxos.py:1583-1588,1604-1609: every group overwrites what was there. -/
def lastGroup {α : Type} (P : Parsed) (f : Nat → Except Err α) : α → List Nat → Except Err α
  | r, [] => .ok r
  | r, j :: js => do
    if (← groupOf (P.h j).text) ≠ [] then lastGroup P f (← f j) js else lastGroup P f r js

/-- models_nxos.py:1578-1588 `hsrp_track`. -/
def hsrpTrack (P : Parsed) (i : Nat) : Except Err Str :=
  lastGroup P (fun j => iterTyped P j "^\\s+track\\s+(\\d+)" 1 toStr []) [] (P.h i).children

/-- models_nxos.py:1574-1576 `has_hsrp_track`. -/
def hasHsrpTrack (P : Parsed) (i : Nat) : Except Err Bool := do .ok (!(← hsrpTrack P i).isEmpty)

/-- models_nxos.py:1590-1597 `has_hsrp_usebia`. -/
def hasHsrpUsebia (P : Parsed) (i : Nat) : Except Err Bool := iterTyped P i "^\\s*hsrp\\s+(use-bia)" 1 toBool false

/-- models_nxos.py:1599-1609 `has_hsrp_preempt`. -/
def hasHsrpPreempt (P : Parsed) (i : Nat) : Except Err Bool :=
  lastGroup P (fun j => iterTyped P j "^\\s+(preempt)" 1 toBool false) false (P.h i).children

end Nxos

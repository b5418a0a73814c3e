import Verif.Cisco.Access
import Verif.Cisco.Model
import Verif.Cisco.Subnet
import Verif.Intf.XRModel
import Verif.IP.Views
import Verif.Nxos.Model

/-! # Model of the attributes of IOS-XR interfaces

models_iosxr.py:130-1958.  The interface is object `i` of the configuration `P`.  The classes of
IOS-XR and IOS lines have the same methods `re_match` and `re_match_iter_typed`. -/

namespace Xr

open Py Conf Query Re Cisco

/-! ## The line -/

/-- models_iosxr.py:155-157 `is_intf`. -/
def isIntf (t : Str) : Except Err Bool := Cisco.isIntf t

/-- models_iosxr.py:471-483 `interface_object`. -/
def interfaceObject (t : Str) : Except Err Intf.XR.Intf := do
  if !(← isIntf t) then .error .invalidInterface
  else Intf.XR.parse ((splitWs t).drop 1).flatten

/-- models_iosxr.py:488-530 `name`. -/
def name (t : Str) : Except Err Str := do Intf.XR.render (← interfaceObject t)

/-- models_iosxr.py:535-574 `port`. -/
def port (t : Str) : Except Err Nat := do .ok (← interfaceObject t).port

/-- models_iosxr.py:343-350 `is_portchannel_intf`. -/
def isPortchannelIntf (t : Str) : Except Err Bool := do .ok (isInfix "channel".toList ((← name t).map lowerChar))

/-- models_iosxr.py:579-621 `port_type`. -/
def portType (t : Str) : Except Err Str := do .ok ((← matchGroup t "^interface\\s+([A-Za-z\\-]+)" 1 []).getD [])

/-- models_iosxr.py:679-727 `interface_number`. -/
def interfaceNumber (t : Str) : Except Err Str := do
  if !(← isIntf t) then .ok []
  else .ok ((← matchGroup t "^interface\\s+[A-Za-z\\-]+\\s*(\\d+.*?)(\\.\\d+)*(\\s\\S+)*\\s*$" 1 []).getD [])

/-- models_iosxr.py:731-779 `subinterface_number`. -/
def subinterfaceNumber (t : Str) : Except Err Str := do
  if !(← isIntf t) then .ok []
  else .ok ((← matchGroup t "^interface\\s+[A-Za-z\\-]+\\s*(\\d+.*?\\.?\\d?)(\\s\\S+)*\\s*$" 1 []).getD [])

/-- models_iosxr.py:624-674 `ordinal_list`. -/
def ordinalList (t : Str) : Except Err (List Int) := do
  if !(← isIntf t) then .ok []
  else
    let number ← interfaceNumber t
    if number = [] then .ok [] else (splitOn '/' number).mapM pyInt

/-- models_iosxr.py:396-406 `_build_abbvs`: a set in the code, here the list of its members. -/
def abbvs (t : Str) : Except Err (List Str) := do
  let p := (← portType t).map lowerChar
  let n ← subinterfaceNumber t
  .ok ([[], [' ']].flatMap (fun sep => (List.range p.length).map (fun k => p.take (k + 1) ++ sep ++ n)))

/-- models_iosxr.py:1160-1164 `is_abbreviated_as`. -/
def isAbbreviatedAs (t v : Str) : Except Err Bool := do .ok ((← abbvs t).contains (v.map lowerChar))

/-! ## Numbers, texts and flags -/

/-- models_iosxr.py:783-790 `description`. -/
def description (P : Parsed) (i : Nat) : Except Err Str := iterTyped P i "^\\s*description\\s+(\\S.+)$" 1 toStr []

/-- models_iosxr.py:795-799 `manual_bandwidth`. -/
def manualBandwidth (P : Parsed) (i : Nat) : Except Err Int := iterTyped P i "^\\s*bandwidth\\s+(\\d+)$" 1 toInt 0

/-- models_iosxr.py:804-808 `manual_delay`. -/
def manualDelay (P : Parsed) (i : Nat) : Except Err Int := iterTyped P i "^\\s*delay\\s+(\\d+)$" 1 toInt 0

/-- models_iosxr.py:813-818 `manual_holdqueue_out`. -/
def manualHoldqueueOut (P : Parsed) (i : Nat) : Except Err Int := iterTyped P i "^\\s*hold-queue\\s+(\\d+)\\s+out$" 1 toInt 0

/-- models_iosxr.py:823-828 `manual_holdqueue_in`. -/
def manualHoldqueueIn (P : Parsed) (i : Nat) : Except Err Int := iterTyped P i "^\\s*hold-queue\\s+(\\d+)\\s+in$" 1 toInt 0

/-- models_iosxr.py:833-837 `manual_encapsulation`. -/
def manualEncapsulation (P : Parsed) (i : Nat) : Except Err Str := iterTyped P i "^\\s*encapsulation\\s+(\\S+)" 1 toStr []

/-- models_iosxr.py:842-846 `has_mpls`. -/
def hasMpls (P : Parsed) (i : Nat) : Except Err Bool := iterTyped P i "^\\s*(mpls\\s+ip)$" 1 toBool false

/-- models_iosxr.py:920-924 `has_manual_speed`. -/
def hasManualSpeed (P : Parsed) (i : Nat) : Except Err Bool := iterTyped P i "^\\s*speed\\s+(\\d+)$" 1 toBool false

/-- models_iosxr.py:929-933 `has_manual_duplex`. -/
def hasManualDuplex (P : Parsed) (i : Nat) : Except Err Bool := iterTyped P i "^\\s*duplex\\s+(\\S.+)$" 1 toBool false

/-- models_iosxr.py:905-915 `has_autonegotiation`, with models_iosxr.py:264-308 `is_ethernet_intf`; the last branch
cannot be reached. -/
def hasAutonegotiation (P : Parsed) (i : Nat) : Except Err Bool := do
  if !(← isEthernetIntf (P.h i).text) then .ok false
  else if (← (do if (← hasManualSpeed P i) then .ok true else hasManualDuplex P i)) then .ok false
  else .ok true

/-- models_iosxr.py:313-323 `intf_in_portchannel`. -/
def intfInPortchannel (P : Parsed) (i : Nat) : Except Err Bool := iterTyped P i "^\\s*channel-group\\s+(\\d+)" 1 toBool false

/-- models_iosxr.py:328-338 `portchannel_number`. -/
def portchannelNumber (P : Parsed) (i : Nat) : Except Err Int := iterTyped P i "^\\s*channel-group\\s+(\\d+)" 1 toInt (-1)

/-- models_iosxr.py:945-959 `manual_carrierdelay`, in milliseconds. -/
def manualCarrierdelayMs (P : Parsed) (i : Nat) : Except Err Int := do
  let s ← iterTyped P i "^\\s*carrier-delay\\s+(\\d+)$" 1 toNum 0
  let ms ← iterTyped P i "^\\s*carrier-delay\\s+msec\\s+(\\d+)$" 1 toNum 0
  if s > 0 then .ok (1000 * s) else if ms > 0 then .ok ms else .ok 0

/-- models_iosxr.py:938-940 `has_manual_carrierdelay`. -/
def hasManualCarrierdelay (P : Parsed) (i : Nat) : Except Err Bool := do .ok ((← manualCarrierdelayMs P i) != 0)

/-- models_iosxr.py:970-975 `manual_clock_rate`. -/
def manualClockRate (P : Parsed) (i : Nat) : Except Err Int := iterTyped P i "^\\s*clock\\s+rate\\s+(\\d+)$" 1 toInt 0

/-- models_iosxr.py:980-1026 `manual_mtu`. -/
def manualMtu (P : Parsed) (i : Nat) : Except Err Int := iterTyped P i "^\\s*mtu\\s+(\\d+)$" 1 toInt 0

/-- models_iosxr.py:1031-1037 `manual_mpls_mtu`. -/
def manualMplsMtu (P : Parsed) (i : Nat) : Except Err Int := iterTyped P i "^\\s*mpls\\s+mtu\\s+(\\d+)$" 1 toInt 0

/-- models_iosxr.py:1042-1048 `manual_ip_mtu`. -/
def manualIpMtu (P : Parsed) (i : Nat) : Except Err Int := iterTyped P i "^\\s*ip\\s+mtu\\s+(\\d+)$" 1 toInt 0

/-- models_iosxr.py:1053-1057 `manual_speed`. -/
def manualSpeed (P : Parsed) (i : Nat) : Except Err Int := iterTyped P i "^\\s*speed\\s+(\\d+)$" 1 toInt 0

/-- models_iosxr.py:1062-1066 `manual_duplex`. -/
def manualDuplex (P : Parsed) (i : Nat) : Except Err Str := iterTyped P i "^\\s*duplex\\s+(\\S.+)$" 1 toStr []

/-- models_iosxr.py:1089-1093 `is_shutdown`. -/
def isShutdown (P : Parsed) (i : Nat) : Except Err Bool := iterTyped P i "^\\s*(shut\\S*)\\s*$" 1 toBool false

/-- models_iosxr.py:1104-1109 `vrf`: the expression has one group, and the second one is asked
for. -/
def vrf (P : Parsed) (i : Nat) : Except Err Str := iterTyped P i "^\\s*vrf\\s(\\S+)$" 2 toStr []

/-- models_iosxr.py:1098-1099 `has_vrf`. -/
def hasVrf (P : Parsed) (i : Nat) : Except Err Bool := do .ok (!(← vrf P i).isEmpty)

/-- models_iosxr.py:1636-1640 `has_manual_disable_cdp`. -/
def hasManualDisableCdp (P : Parsed) (i : Nat) : Except Err Bool :=
  iterTyped P i "^\\s*(no\\s+cdp\\s+enable\\s*)" 1 toBool false

/-- models_iosxr.py:1653-1657 `xconnect_vc`. -/
def xconnectVc (P : Parsed) (i : Nat) : Except Err Int :=
  iterTyped P i "^\\s*xconnect\\s+\\S+\\s+(\\d+)\\s+\\S+" 1 toInt 0

/-- models_iosxr.py:1647-1648 `has_xconnect`. -/
def hasXconnect (P : Parsed) (i : Nat) : Except Err Bool := do .ok ((← xconnectVc P i) != 0)

/-! ## IPv4 addresses -/

/-- models_iosxr.py:1120-1134 `ipv4_addr` (and 1114-1115 `ip_addr`): the text of the exception
needs the name. -/
def ipv4Addr (P : Parsed) (i : Nat) : Except Err Str := do
  let r ← iterTyped P i "^\\s+ipv4\\s+address\\s+(\\d+\\.\\d+\\.\\d+\\.\\d+)\\s+\\d+\\.\\d+\\.\\d+\\.\\d+\\s*$" 1 toStr []
  let c ← iterTyped P i "^\\s+ipv4\\s+address\\s+(dhcp)\\s*$" 1 toStr []
  if c.map lowerChar = "dhcp".toList then
    match name (P.h i).text with
    | .error e => .error e
    | .ok _ => .error .dynamicAddress
  else .ok r

/-- models_iosxr.py:1139-1146 `ipv4_netmask`. -/
def ipv4Netmask (P : Parsed) (i : Nat) : Except Err Str :=
  iterTyped P i "^\\s+ipv4\\s+address\\s+\\d+\\.\\d+\\.\\d+\\.\\d+\\s+(\\d+\\.\\d+\\.\\d+\\.\\d+)\\s*$" 1 toStr []

/-- models_iosxr.py:371 `default_ipv4_addr_object`: 0.0.0.1/32. -/
def noAddr : IP.V4 := IP.V4.make 1 32

/-- models_iosxr.py:853-858,893-900: an object or the default; only the exception about a
dynamic address passes. -/
def orDefault (x : Except Err IP.V4) : Except Err IP.V4 :=
  match x with
  | .ok o => .ok o
  | .error .dynamicAddress => .error .dynamicAddress
  | .error _ => .ok noAddr

/-- models_iosxr.py:851-858 `ipv4_addr_object` (and 870-879 `ip`, `ipv4`). -/
def ipv4AddrObject (P : Parsed) (i : Nat) : Except Err IP.V4 :=
  orDefault (do IP.V4.ofStr ((← ipv4Addr P i) ++ '/' :: (← ipv4Netmask P i)))

/-- models_iosxr.py:891-900 `ip_network_object` (and 884-886 `ipv4_network_object`): an address
object as well. -/
def ipNetworkObject (P : Parsed) (i : Nat) : Except Err IP.V4 :=
  orDefault (do IP.V4.ofStr ((← ipv4Addr P i) ++ '/' :: (← ipv4Netmask P i)))

/-- models_iosxr.py:863-865 `has_no_ipv4`. -/
def hasNoIpv4 (P : Parsed) (i : Nat) : Except Err Bool := do
  .ok (IP.V4.eq (some (← ipNetworkObject P i)) (some noAddr))

/-- models_iosxr.py:1151-1156 `ipv4_masklength`. -/
def ipv4Masklength (P : Parsed) (i : Nat) : Except Err Nat := do
  let o ← ipv4AddrObject P i
  if !IP.V4.eq (some o) (some noAddr) then .ok o.plen else .ok 0

/-- models_iosxr.py:1168-1228 `in_ipv4_subnet`; none is None.  Simplification: the argument is an
`IPv4Obj`, so `in` raises nothing. -/
def inIpv4Subnet (P : Parsed) (i : Nat) (net : IP.V4) : Except Err (Option Bool) := do
  let o ← ipv4AddrObject P i
  if IP.dotted o.ip ≠ "0.0.0.1".toList then
    match ipNetworkObject P i with
    | .ok n => .ok (some (IP.V4.contains (some net) (some n)))
    | .error _ => .error .valueError
  else .ok none

/-- models_iosxr.py:1238-1242: the loop; `tmp` is none before its first assignment. -/
def inSubnetsLoop (P : Parsed) (i : Nat) : Option (Option Bool) → List IP.V4 → Except Err (Option Bool)
  | tmp, [] => match tmp with
    | some x => .ok x
    | none => .error .unbound
  | _, s :: ss => do
    let tmp ← inIpv4Subnet P i s
    if IP.V4.contains (some s) (some (← ipv4AddrObject P i)) then .ok tmp else inSubnetsLoop P i (some tmp) ss

/-- models_iosxr.py:1232-1242 `in_ipv4_subnets`; none is a missing argument. -/
def inIpv4Subnets (P : Parsed) (i : Nat) : Option (List IP.V4) → Except Err (Option Bool)
  | none => .error .valueError
  | some ss => inSubnetsLoop P i none ss

/-- models_iosxr.py:1247-1396: a property that needs an address on the interface. -/
def withAddr {α : Type} (P : Parsed) (i : Nat) (none : α) (f : Except Err α) : Except Err α := do
  if (← ipv4Addr P i) = [] then .ok none else f

/-- models_iosxr.py:1247-1259 `has_no_icmp_unreachables`. -/
def hasNoIcmpUnreachables (P : Parsed) (i : Nat) : Except Err Bool :=
  withAddr P i false (iterTyped P i "^\\s*no\\sip\\s(unreachables)\\s*$" 1 toBool false)

/-- models_iosxr.py:1264-1276 `has_no_icmp_redirects`. -/
def hasNoIcmpRedirects (P : Parsed) (i : Nat) : Except Err Bool :=
  withAddr P i false (iterTyped P i "^\\s*no\\sip\\s(redirects)\\s*$" 1 toBool false)

/-- models_iosxr.py:1281-1325 `has_no_ip_proxyarp`. -/
def hasNoIpProxyarp (P : Parsed) (i : Nat) : Except Err Bool :=
  withAddr P i false (iterTyped P i "^\\s*no\\sip\\s(proxy-arp)\\s*$" 1 toBool false)

/-- models_iosxr.py:1330-1342 `has_ip_pim_dense_mode`. -/
def hasIpPimDenseMode (P : Parsed) (i : Nat) : Except Err Bool :=
  withAddr P i false (iterTyped P i "^\\s*(ip\\spim\\sdense-mode)\\s*$" 1 toBool false)

/-- models_iosxr.py:1347-1359 `has_ip_pim_sparse_mode`. -/
def hasIpPimSparseMode (P : Parsed) (i : Nat) : Except Err Bool :=
  withAddr P i false (iterTyped P i "^\\s*(ip\\spim\\ssparse-mode)\\s*$" 1 toBool false)

/-- models_iosxr.py:1364-1376 `has_ip_pim_sparsedense_mode`. -/
def hasIpPimSparsedenseMode (P : Parsed) (i : Nat) : Except Err Bool :=
  withAddr P i false (iterTyped P i "^\\s*(ip\\spim\\ssparse-dense-mode)\\s*$" 1 toBool false)

/-- models_iosxr.py:1381-1396 `manual_arp_timeout`. -/
def manualArpTimeout (P : Parsed) (i : Nat) : Except Err Int :=
  withAddr P i (-1) (iterTyped P i "^\\s*arp\\s+timeout\\s+(\\d+)\\s*$" 1 toInt 0)

/-! ## Switch ports -/

/-- models_iosxr.py:1451-1455 `is_switchport`. -/
def isSwitchport (P : Parsed) (i : Nat) : Except Err Bool := iterTyped P i "^\\s*(switchport)\\s*" 1 toBool false

/-- models_iosxr.py:1460-1464 `has_manual_switch_access`. -/
def hasManualSwitchAccess (P : Parsed) (i : Nat) : Except Err Bool :=
  iterTyped P i "^\\s*(switchport\\smode\\s+access)\\s*$" 1 toBool false

/-- models_iosxr.py:1475-1479 `manual_switch_trunk_encap`. -/
def manualSwitchTrunkEncap (P : Parsed) (i : Nat) : Except Err Str :=
  iterTyped P i "^\\s*(switchport\\s+trunk\\s+encap\\s+(\\S+))\\s*$" 1 toStr []

/-- models_iosxr.py:1469-1470 `has_manual_switch_trunk_encap`. -/
def hasManualSwitchTrunkEncap (P : Parsed) (i : Nat) : Except Err Bool := do .ok (!(← manualSwitchTrunkEncap P i).isEmpty)

/-- models_iosxr.py:1484-1488 `has_manual_switch_trunk`. -/
def hasManualSwitchTrunk (P : Parsed) (i : Nat) : Except Err Bool :=
  iterTyped P i "^\\s*(switchport\\s+mode\\s+trunk)\\s*$" 1 toBool false

/-- models_iosxr.py:1493-1502 `has_switch_portsecurity`. -/
def hasSwitchPortsecurity (P : Parsed) (i : Nat) : Except Err Bool := do
  if !(← isSwitchport P i) then .ok false
  else iterTyped P i "^\\s*(switchport\\sport-security)\\s*$" 1 toBool false

/-- models_iosxr.py:1507-1513 `has_switch_stormcontrol`. -/
def hasSwitchStormcontrol (P : Parsed) (i : Nat) : Except Err Bool := do
  if !(← isSwitchport P i) then .ok false
  else iterTyped P i "^\\s*(storm-control)\\s*$" 1 toBool false

/-- models_iosxr.py:1518-1529 `has_dtp`; the loop over the children is that of IOS. -/
def hasDtp (P : Parsed) (i : Nat) : Except Err Bool := do
  if !(← isSwitchport P i) then .ok false else hasDtpT (childTexts P i)

/-- models_iosxr.py:1534-1545 `access_vlan`. -/
def accessVlan (P : Parsed) (i : Nat) : Except Err Int := do
  iterTyped P i "^\\s*switchport\\s+access\\s+vlan\\s+(\\d+)$" 1 toInt (if ← isSwitchport P i then 1 else 0)

/-- models_iosxr.py:1618-1629 `native_vlan`. -/
def nativeVlan (P : Parsed) (i : Nat) : Except Err Int := do
  iterTyped P i "^\\s*switchport\\s+trunk\\s+native\\s+vlan\\s+(\\d+)$" 1 toInt (if ← isSwitchport P i then 1 else 0)

/-- models_iosxr.py:1550-1613 `trunk_vlans_allowed`; none is the integer 0.  The body of the loop
(1560-1611) is the same text as that of NXOS. -/
def trunkVlansAllowed (P : Parsed) (i : Nat) : Except Err (Option Range.R) := do
  if (← isSwitchport P i) && !(← hasManualSwitchAccess P i) then
    .ok (some (← (childTexts P i).foldlM Nxos.trunkStep (← Nxos.allVlans)))
  else .ok none

/-! ## HSRP -/

/-- models_iosxr.py:1670-1683 `hsrp_ip_addr`. -/
def hsrpIpAddr (P : Parsed) (i : Nat) : Except Err Str :=
  withAddr P i [] (iterTyped P i "^\\s*standby\\s+(\\d+\\s+)*ip\\s+(\\S+)" 2 toStr [])

/-- models_iosxr.py:1664-1665 `has_ip_hsrp`. -/
def hasIpHsrp (P : Parsed) (i : Nat) : Except Err Bool := do .ok (!(← hsrpIpAddr P i).isEmpty)

/-- models_iosxr.py:1688-1703 `hsrp_ip_mask`. -/
def hsrpIpMask (P : Parsed) (i : Nat) : Except Err Str :=
  withAddr P i [] (iterTyped P i "^\\s*standby\\s+(\\d+\\s+)*ip\\s+\\S+\\s+(\\S+)\\s*$" 2 toStr [])

/-- models_iosxr.py:1708-1714 `hsrp_group`. -/
def hsrpGroup (P : Parsed) (i : Nat) : Except Err Int := iterTyped P i "^\\s*standby\\s+(\\d+)\\s+ip\\s+\\S+" 1 toInt (-1)

/-- models_iosxr.py:1719-1730 `hsrp_priority`. -/
def hsrpPriority (P : Parsed) (i : Nat) : Except Err Int := do
  if !(← hasIpHsrp P i) then .ok 0
  else iterTyped P i "^\\s*standby\\s+(\\d+\\s+)*priority\\s+(\\d+)" 2 toInt 100

/-- models_iosxr.py:1735-1746 `hsrp_hello_timer`. -/
def hsrpHelloTimer (P : Parsed) (i : Nat) : Except Err Int :=
  iterTyped P i "^\\s*standby\\s+(\\d+\\s+)*timers\\s+(\\d+)\\s+\\d+" 2 toNum 0

/-- models_iosxr.py:1751-1762 `hsrp_hold_timer`. -/
def hsrpHoldTimer (P : Parsed) (i : Nat) : Except Err Int :=
  iterTyped P i "^\\s*standby\\s+(\\d+\\s+)*timers\\s+\\d+\\s+(\\d+)" 2 toNum 0

/-- models_iosxr.py:1787-1796 `has_hsrp_usebia`. -/
def hasHsrpUsebia (P : Parsed) (i : Nat) : Except Err Bool :=
  iterTyped P i "^\\s*standby\\s+(\\d+\\s+)*(use-bia)" 2 toBool false

/-- models_iosxr.py:1801-1810 `has_hsrp_preempt`: the expression of `has_hsrp_usebia`. -/
def hasHsrpPreempt (P : Parsed) (i : Nat) : Except Err Bool :=
  iterTyped P i "^\\s*standby\\s+(\\d+\\s+)*(use-bia)" 2 toBool false

/-- models_iosxr.py:1815-1824 `hsrp_authentication_md5_keychain`. -/
def hsrpAuthenticationMd5Keychain (P : Parsed) (i : Nat) : Except Err Str :=
  iterTyped P i "^\\s*standby\\s+(\\d+\\s+)*authentication\\s+md5\\s+key-chain\\s+(\\S+)" 2 toStr []

/-- models_iosxr.py:1829-1831 `has_hsrp_authentication_md5`. -/
def hasHsrpAuthenticationMd5 (P : Parsed) (i : Nat) : Except Err Bool := do
  .ok (!(← hsrpAuthenticationMd5Keychain P i).isEmpty)

/-! ## Access lists -/

/-- models_iosxr.py:1860-1864 `mac_accessgroup_in`. -/
def macAccessgroupIn (P : Parsed) (i : Nat) : Except Err Str :=
  iterTyped P i "^\\s*mac\\saccess-group\\s+(\\S+)\\s+in\\s*$" 1 toStr []

/-- models_iosxr.py:1869-1873 `mac_accessgroup_out`. -/
def macAccessgroupOut (P : Parsed) (i : Nat) : Except Err Str :=
  iterTyped P i "^\\s*mac\\saccess-group\\s+(\\S+)\\s+out\\s*$" 1 toStr []

/-- models_iosxr.py:1844-1847 `has_mac_accessgroup_in`. -/
def hasMacAccessgroupIn (P : Parsed) (i : Nat) : Except Err Bool := do
  if !(← isSwitchport P i) then .ok false else .ok (!(← macAccessgroupIn P i).isEmpty)

/-- models_iosxr.py:1852-1855 `has_mac_accessgroup_out`. -/
def hasMacAccessgroupOut (P : Parsed) (i : Nat) : Except Err Bool := do
  if !(← isSwitchport P i) then .ok false else .ok (!(← macAccessgroupOut P i).isEmpty)

/-- models_iosxr.py:1916-1920 `ipv4_accessgroup_in` (and 1904-1905 `ip_accessgroup_in`). -/
def ipv4AccessgroupIn (P : Parsed) (i : Nat) : Except Err Str :=
  iterTyped P i "^\\s*ip\\saccess-group\\s+(\\S+)\\s+in\\s*$" 1 toStr []

/-- models_iosxr.py:1925-1929 `ipv4_accessgroup_out` (and 1910-1911 `ip_accessgroup_out`). -/
def ipv4AccessgroupOut (P : Parsed) (i : Nat) : Except Err Str :=
  iterTyped P i "^\\s*ip\\saccess-group\\s+(\\S+)\\s+out\\s*$" 1 toStr []

/-- models_iosxr.py:1880-1893 `has_ip_accessgroup_in`, `has_ipv4_accessgroup_in`. -/
def hasIpAccessgroupIn (P : Parsed) (i : Nat) : Except Err Bool := do .ok (!(← ipv4AccessgroupIn P i).isEmpty)

/-- models_iosxr.py:1886-1899 `has_ip_accessgroup_out`, `has_ipv4_accessgroup_out`. -/
def hasIpAccessgroupOut (P : Parsed) (i : Nat) : Except Err Bool := do .ok (!(← ipv4AccessgroupOut P i).isEmpty)

end Xr

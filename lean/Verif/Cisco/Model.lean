import Verif.Cisco.Typed
import Verif.IP.Model

/-! # Model of the properties of an interface line (`BaseIOSIntfLine`)

models_cisco.py:871-2652.  An interface line is object `i` of the configuration `P`, parsed
with `factory=True`.  A `float` that is read from digits is modelled as an exact number. -/

namespace Cisco

open Py Conf Query Re

/-- models_cisco.py:1311-1318 `description`. -/
def description (P : Parsed) (i : Nat) : Except Err Str := iterTyped P i "^\\s*description\\s+(\\S.*)$" 1 toStr []

/-- models_cisco.py:1323-1327 `manual_bandwidth`. -/
def manualBandwidth (P : Parsed) (i : Nat) : Except Err Int := iterTyped P i "^\\s*bandwidth\\s+(\\d+)$" 1 toInt 0

/-- models_cisco.py:1332-1336 `manual_delay`. -/
def manualDelay (P : Parsed) (i : Nat) : Except Err Int := iterTyped P i "^\\s*delay\\s+(\\d+)$" 1 toInt 0

/-- models_cisco.py:1341-1346 `manual_holdqueue_out`. -/
def manualHoldqueueOut (P : Parsed) (i : Nat) : Except Err Int :=
  iterTyped P i "^\\s*hold-queue\\s+(\\d+)\\s+out$" 1 toInt 0

/-- models_cisco.py:1351-1356 `manual_holdqueue_in`. -/
def manualHoldqueueIn (P : Parsed) (i : Nat) : Except Err Int :=
  iterTyped P i "^\\s*hold-queue\\s+(\\d+)\\s+in$" 1 toInt 0

/-- models_cisco.py:1361-1365 `manual_encapsulation`. -/
def manualEncapsulation (P : Parsed) (i : Nat) : Except Err Str :=
  iterTyped P i "^\\s*encapsulation\\s+(\\S+)" 1 toStr []

/-- models_cisco.py:1370-1374 `has_mpls`. -/
def hasMpls (P : Parsed) (i : Nat) : Except Err Bool := iterTyped P i "^\\s*(mpls\\s+ip)$" 1 toBool false

/-- models_cisco.py:1379-1395 `ipv4_addr_object`; none is the empty `IPv4Obj()`. -/
def ipv4AddrObject (P : Parsed) (i : Nat) : Except Err (Option IP.V4) := do
  let d ← iterDict P i "^\\s+ip\\s+address\\s+(?P<v4addr>\\S+)\\s+(?P<v4netmask>\\d+\\.\\d+\\.\\d+\\.\\d+)"
    [("v4addr".toList, .str), ("v4netmask".toList, .str)] (.str [])
  match d.lookup "v4addr".toList, d.lookup "v4netmask".toList with
  | some (.str a), some (.str m) =>
    if a = [] then .ok none
    else if a = "dhcp".toList then .ok none
    else if a = "negotiated".toList then .ok none
    else (IP.V4.ofStr (a ++ '/' :: m)).map some
  | _, _ => .error .keyError

/-- models_cisco.py:1421-1428 `has_ip_secondary`. -/
def hasIpSecondary (P : Parsed) (i : Nat) : Except Err Val :=
  getKey (iterDict P i "^\\s*ip\\s+address\\s+\\S+\\s+\\S+\\s+(?P<secondary>secondary)\\s*$"
    [("secondary".toList, .bool)] (.bool false)) "secondary".toList

/-- models_cisco.py:1465-1467 `has_no_ipv4`. -/
def hasNoIpv4 (P : Parsed) (i : Nat) : Except Err Bool := do .ok (IP.V4.eq (← ipv4AddrObject P i) none)

/-- models_cisco.py:1520-1524 `has_manual_speed`. -/
def hasManualSpeed (P : Parsed) (i : Nat) : Except Err Bool := iterTyped P i "^\\s*speed\\s+(\\d+)$" 1 toBool false

/-- models_cisco.py:1529-1533 `has_manual_duplex`. -/
def hasManualDuplex (P : Parsed) (i : Nat) : Except Err Bool := iterTyped P i "^\\s*duplex\\s+(\\S.+)$" 1 toBool false

/-- `float(m.group(g))` for digits, as an exact number. -/
def toNum : Option Str → Except Err Int := toInt

/-- models_cisco.py:1545-1559 `manual_carrierdelay`, in milliseconds. -/
def manualCarrierdelayMs (P : Parsed) (i : Nat) : Except Err Int := do
  let s ← iterTyped P i "^\\s*carrier-delay\\s+(\\d+)$" 1 toNum 0
  let ms ← iterTyped P i "^\\s*carrier-delay\\s+msec\\s+(\\d+)$" 1 toNum 0
  if s > 0 then .ok (1000 * s) else if ms > 0 then .ok ms else .ok 0

/-- models_cisco.py:1538-1540 `has_manual_carrierdelay`. -/
def hasManualCarrierdelay (P : Parsed) (i : Nat) : Except Err Bool := do .ok ((← manualCarrierdelayMs P i) != 0)

/-- models_cisco.py:1570-1575 `manual_clock_rate`. -/
def manualClockRate (P : Parsed) (i : Nat) : Except Err Int := iterTyped P i "^\\s*clock\\s+rate\\s+(\\d+)$" 1 toInt 0

/-- models_cisco.py:1564-1565 `has_manual_clock_rate`. -/
def hasManualClockRate (P : Parsed) (i : Nat) : Except Err Bool := do .ok ((← manualClockRate P i) != 0)

/-- models_cisco.py:1580-1626 `manual_mtu`. -/
def manualMtu (P : Parsed) (i : Nat) : Except Err Int := iterTyped P i "^\\s*mtu\\s+(\\d+)$" 1 toInt 0

/-- models_cisco.py:1631-1637 `manual_mpls_mtu`. -/
def manualMplsMtu (P : Parsed) (i : Nat) : Except Err Int := iterTyped P i "^\\s*mpls\\s+mtu\\s+(\\d+)$" 1 toInt 0

/-- models_cisco.py:1642-1648 `manual_ip_mtu`. -/
def manualIpMtu (P : Parsed) (i : Nat) : Except Err Int := iterTyped P i "^\\s*ip\\s+mtu\\s+(\\d+)$" 1 toInt 0

/-- models_cisco.py:1653-1657 `manual_speed`. -/
def manualSpeed (P : Parsed) (i : Nat) : Except Err Int := iterTyped P i "^\\s*speed\\s+(\\d+)$" 1 toInt 0

/-- models_cisco.py:1662-1666 `manual_duplex`. -/
def manualDuplex (P : Parsed) (i : Nat) : Except Err Str := iterTyped P i "^\\s*duplex\\s+(\\S.+)$" 1 toStr []

/-- models_cisco.py:1671-1672 `has_manual_mtu`. -/
def hasManualMtu (P : Parsed) (i : Nat) : Except Err Bool := do .ok ((← manualMtu P i) != 0)

/-- models_cisco.py:1677-1678 `has_manual_mpls_mtu`. -/
def hasManualMplsMtu (P : Parsed) (i : Nat) : Except Err Bool := do .ok ((← manualMplsMtu P i) != 0)

/-- models_cisco.py:1683-1684 `has_manual_ip_mtu`. -/
def hasManualIpMtu (P : Parsed) (i : Nat) : Except Err Bool := do .ok ((← manualIpMtu P i) != 0)

/-- models_cisco.py:1689-1693 `is_shutdown`. -/
def isShutdown (P : Parsed) (i : Nat) : Except Err Bool := iterTyped P i "^\\s*(shut\\S*)\\s*$" 1 toBool false

/-- models_cisco.py:1704-1708 `vrf`. -/
def vrf (P : Parsed) (i : Nat) : Except Err Str :=
  iterTyped P i "^\\s*(ip\\s+)*vrf\\sforwarding\\s(\\S+)$" 2 toStr []

/-- models_cisco.py:1698-1699 `has_vrf`. -/
def hasVrf (P : Parsed) (i : Nat) : Except Err Bool := do .ok (!(← vrf P i).isEmpty)

/-- models_cisco.py:1719-1737 `ipv4_addr`. -/
def ipv4Addr (P : Parsed) (i : Nat) : Except Err Str := do
  let r ← iterTyped P i "^\\s+ip\\s+address\\s+(\\d+\\.\\d+\\.\\d+\\.\\d+)\\s+\\d+\\.\\d+\\.\\d+\\.\\d+\\s*$" 1 toStr []
  let c1 ← iterTyped P i "^\\s+ip\\s+address\\s+(dhcp)\\s*$" 1 toStr []
  let c2 ← iterTyped P i "^\\s+ip\\s+address\\s+(negotiated)\\s*$" 1 toStr []
  if c1 = "dhcp".toList then .ok []
  else if c2 = "negotiated".toList then .ok []
  else .ok r

/-- models_cisco.py:1742-1749 `ipv4_netmask`. -/
def ipv4Netmask (P : Parsed) (i : Nat) : Except Err Str :=
  iterTyped P i "^\\s+ip\\s+address\\s+\\d+\\.\\d+\\.\\d+\\.\\d+\\s+(\\d+\\.\\d+\\.\\d+\\.\\d+)\\s*$" 1 toStr []

/-- models_cisco.py:1754-1759 `ipv4_masklength`. -/
def ipv4Masklength (P : Parsed) (i : Nat) : Except Err Nat := do
  match ← ipv4AddrObject P i with
  | some o => .ok o.plen
  | none => .ok 0

/-- models_cisco.py:1900-1978: a property that needs an address on the interface. -/
def withAddr {α : Type} (P : Parsed) (i : Nat) (none : α) (f : Except Err α) : Except Err α := do
  if (← ipv4Addr P i) = [] then .ok none else f

/-- models_cisco.py:1900-1912 `has_no_icmp_unreachables`. -/
def hasNoIcmpUnreachables (P : Parsed) (i : Nat) : Except Err Bool :=
  withAddr P i false (iterTyped P i "^\\s*no\\sip\\s(unreachables)\\s*$" 1 toBool false)

/-- models_cisco.py:1917-1929 `has_no_icmp_redirects`. -/
def hasNoIcmpRedirects (P : Parsed) (i : Nat) : Except Err Bool :=
  withAddr P i false (iterTyped P i "^\\s*no\\sip\\s(redirects)\\s*$" 1 toBool false)

/-- models_cisco.py:1934-1978 `has_no_ip_proxyarp`. -/
def hasNoIpProxyarp (P : Parsed) (i : Nat) : Except Err Bool :=
  withAddr P i false (iterTyped P i "^\\s*no\\sip\\s(proxy-arp)\\s*$" 1 toBool false)

/-- models_cisco.py:1983-1995 `has_ip_pim_dense_mode`. -/
def hasIpPimDenseMode (P : Parsed) (i : Nat) : Except Err Bool :=
  withAddr P i false (iterTyped P i "^\\s*(ip\\spim\\sdense-mode)\\s*$" 1 toBool false)

/-- models_cisco.py:2000-2012 `has_ip_pim_sparse_mode`. -/
def hasIpPimSparseMode (P : Parsed) (i : Nat) : Except Err Bool :=
  withAddr P i false (iterTyped P i "^\\s*(ip\\spim\\ssparse-mode)\\s*$" 1 toBool false)

/-- The texts of the children. -/
def childTexts (P : Parsed) (i : Nat) : List Str := (P.h i).children.map (fun j => (P.h j).text)

/-- `t.strip().split()`. -/
def parts (t : Str) : List Str := splitWs (strip t)

/-- `["ip", "pim", ...]`. -/
def ws (l : List String) : List Str := l.map String.toList

/-- models_cisco.py:2017-2029 `has_ip_pim_sparsedense_mode`. -/
def hasIpPimSparsedenseMode (P : Parsed) (i : Nat) : Except Err Bool :=
  withAddr P i false
    (.ok ((childTexts P i).any (fun t => (parts t).take 3 == ws ["ip", "pim", "sparse-dense-mode"])))

/-- models_cisco.py:2034-2049 `manual_arp_timeout`. -/
def manualArpTimeout (P : Parsed) (i : Nat) : Except Err Int :=
  withAddr P i (-1) (iterTyped P i "^\\s*arp\\s+timeout\\s+(\\d+)\\s*$" 1 toInt 0)

/-- An entry of `ip_helper_addresses`. -/
structure Helper where
  addr : Str
  vrf : Str
  glob : Bool
  deriving DecidableEq, Repr

/-- models_cisco.py:2087-2098: one child. -/
def helperOf (t : Str) : Except Err (Option Helper) := do
  if isInfix "helper-address".toList t then
    let addr ← matchTyped t "ip\\s+helper-address\\s.*?(\\d+\\.\\d+\\.\\d+\\.\\d+)" 1 toStr []
    let glob ← matchTyped t "ip\\s+helper-address\\s+(global)" 1 toBool false
    let vrf ← matchTyped t "ip\\s+helper-address\\s+vrf\\s+(\\S+)" 1 toStr []
    .ok (some ⟨addr, vrf, glob⟩)
  else .ok none

/-- models_cisco.py:2063-2099 `ip_helper_addresses`. -/
def ipHelperAddresses (P : Parsed) (i : Nat) : Except Err (List Helper) := do
  .ok ((← (childTexts P i).mapM helperOf).filterMap id)

/-- models_cisco.py:2054-2058 `has_ip_helper_addresses`. -/
def hasIpHelperAddresses (P : Parsed) (i : Nat) : Except Err Bool := do .ok (decide ((← ipHelperAddresses P i).length > 0))

/-- models_cisco.py:2104-2108 `is_switchport`: IndexError on a blank child. -/
def isSwitchportT : List Str → Except Err Bool
  | [] => .ok false
  | t :: ts =>
    match (parts t).head? with
    | none => .error .indexError
    | some w => if w = "switchport".toList then .ok true else isSwitchportT ts

/-- models_cisco.py:2104-2108 `is_switchport`. -/
def isSwitchport (P : Parsed) (i : Nat) : Except Err Bool := isSwitchportT (childTexts P i)

/-- models_cisco.py:2113-2117 `has_manual_switch_access`. -/
def hasManualSwitchAccess (P : Parsed) (i : Nat) : Bool :=
  (childTexts P i).any (fun t => (parts t).take 3 == ws ["switchport", "mode", "access"])

/-- models_cisco.py:2128-2133 `manual_switch_trunk_encap`. -/
def manualSwitchTrunkEncapT : List Str → Str
  | [] => []
  | t :: ts =>
    if (parts t).length = 4 ∧ (parts t).take 3 = ws ["switchport", "trunk", "encap"] then (parts t).getD 3 []
    else manualSwitchTrunkEncapT ts

/-- models_cisco.py:2128-2133 `manual_switch_trunk_encap`. -/
def manualSwitchTrunkEncap (P : Parsed) (i : Nat) : Str := manualSwitchTrunkEncapT (childTexts P i)

/-- models_cisco.py:2122-2123 `has_manual_switch_trunk_encap`. -/
def hasManualSwitchTrunkEncap (P : Parsed) (i : Nat) : Bool := !(manualSwitchTrunkEncap P i).isEmpty

/-- models_cisco.py:2138-2142 `has_manual_switch_trunk`. -/
def hasManualSwitchTrunk (P : Parsed) (i : Nat) : Bool :=
  (childTexts P i).any (fun t => (parts t).take 3 == ws ["switchport", "mode", "trunk"])

/-- models_cisco.py:2147-2156 `has_switch_portsecurity`. -/
def hasSwitchPortsecurity (P : Parsed) (i : Nat) : Except Err Bool := do
  if !(← isSwitchport P i) then .ok false
  else .ok ((childTexts P i).any (fun t => (parts t).take 2 == ws ["switchport", "port-security"]))

/-- models_cisco.py:2161-2167 `has_switch_stormcontrol`. -/
def hasSwitchStormcontrol (P : Parsed) (i : Nat) : Except Err Bool := do
  if !(← isSwitchport P i) then .ok false
  else .ok ((childTexts P i).any (fun t => (parts t).take 1 == ws ["storm-control"]))

/-- models_cisco.py:2179-2183: the children one after the other. -/
def hasDtpT : List Str → Except Err Bool
  | [] => .ok true
  | t :: ts => do
    match ← matchGroup t "^\\s*(switchport\\snoneg\\S*)\\s*$" 1 [] with
    | some _ => .ok false
    | none => hasDtpT ts

/-- models_cisco.py:2172-2183 `has_dtp`. -/
def hasDtp (P : Parsed) (i : Nat) : Except Err Bool := do
  if !(← isSwitchport P i) then .ok false else hasDtpT (childTexts P i)

/-- models_cisco.py:2195-2198: the children one after the other. -/
def accessVlanT (dflt : Int) : List Str → Except Err Int
  | [] => .ok dflt
  | t :: ts =>
    if (parts t).take 3 = ws ["switchport", "access", "vlan"] then
      match (parts t)[3]? with
      | some v => pyInt v
      | none => .error .indexError
    else accessVlanT dflt ts

/-- models_cisco.py:2188-2198 `access_vlan`. -/
def accessVlan (P : Parsed) (i : Nat) : Except Err Int := do
  accessVlanT (if ← isSwitchport P i then 1 else 0) (childTexts P i)

/-- models_cisco.py:2342-2347: the children one after the other. -/
def nativeVlanT (dflt : Int) : List Str → Except Err Int
  | [] => .ok dflt
  | t :: ts =>
    if (parts t).length = 5 ∧ (parts t).take 4 = ws ["switchport", "trunk", "native", "vlan"] then
      pyInt ((parts t).getD 4 [])
    else nativeVlanT dflt ts

/-- models_cisco.py:2336-2347 `native_vlan`. -/
def nativeVlan (P : Parsed) (i : Nat) : Except Err Int := do
  nativeVlanT (if ← isSwitchport P i then 1 else 0) (childTexts P i)

/-- models_cisco.py:2354-2359 `has_manual_disable_cdp`. -/
def hasManualDisableCdp (P : Parsed) (i : Nat) : Bool :=
  (childTexts P i).any (fun t => (parts t).length == 3 && (parts t).take 3 == ws ["no", "cdp", "enable"])

/-- models_cisco.py:2372-2376 `xconnect_vc`. -/
def xconnectVc (P : Parsed) (i : Nat) : Except Err Int :=
  iterTyped P i "^\\s*xconnect\\s+\\S+\\s+(\\d+)\\s+\\S+" 1 toInt 0

/-- models_cisco.py:2366-2367 `has_xconnect`. -/
def hasXconnect (P : Parsed) (i : Nat) : Except Err Bool := do .ok ((← xconnectVc P i) != 0)

/-- models_cisco.py:2389-2402 `hsrp_ip_addr`. -/
def hsrpIpAddr (P : Parsed) (i : Nat) : Except Err Str :=
  withAddr P i [] (iterTyped P i "^\\s*standby\\s+(\\d+\\s+)*ip\\s+(\\S+)" 2 toStr [])

/-- models_cisco.py:2383-2384 `has_ip_hsrp`. -/
def hasIpHsrp (P : Parsed) (i : Nat) : Except Err Bool := do .ok (!(← hsrpIpAddr P i).isEmpty)

/-- models_cisco.py:2407-2421 `hsrp_ip_mask`. -/
def hsrpIpMask (P : Parsed) (i : Nat) : Except Err Val :=
  withAddr P i (.str [])
    (getKey (iterDict P i "^\\s*standby\\s+(?P<group>\\d+\\s+)*ip\\s+\\S+\\s+(?P<mask>\\S+)\\s*$"
      [("mask".toList, .str)] (.str [])) "mask".toList)

/-- models_cisco.py:2426-2434 `hsrp_group`. -/
def hsrpGroup (P : Parsed) (i : Nat) : Except Err Val :=
  getKey (iterDict P i "^\\s*standby\\s+(?P<group>\\d+)\\s+ip\\s+(?P<hsrp_addr>\\S+)"
    [("group".toList, .int)] (.int (-1))) "group".toList

/-- models_cisco.py:2439-2449 `hsrp_priority`. -/
def hsrpPriority (P : Parsed) (i : Nat) : Except Err Val := do
  if !(← hasIpHsrp P i) then .ok (.int 0)
  else
    getKey (iterDict P i "^\\s*standby\\s+(?P<group>\\d+\\s+)*priority\\s+(?P<priority>\\d+)"
      [("group".toList, .int), ("priority".toList, .int)] (.int 100)) "priority".toList

/-- models_cisco.py:2454-2465 `hsrp_hello_timer`. -/
def hsrpHelloTimer (P : Parsed) (i : Nat) : Except Err Int :=
  iterTyped P i "^\\s*standby\\s+(\\d+\\s+)*timers\\s+(\\d+)\\s+\\d+" 2 toNum 0

/-- models_cisco.py:2470-2481 `hsrp_hold_timer`. -/
def hsrpHoldTimer (P : Parsed) (i : Nat) : Except Err Int :=
  iterTyped P i "^\\s*standby\\s+(\\d+\\s+)*timers\\s+\\d+\\s+(\\d+)" 2 toNum 0

/-- models_cisco.py:2492-2501 `hsrp_track`. -/
def hsrpTrack (P : Parsed) (i : Nat) : Except Err Str :=
  iterTyped P i "^\\s*standby\\s+(\\d+\\s+)*track\\s(\\S+.+?)\\s+\\d+\\s*" 2 toStr []

/-- models_cisco.py:2486-2487 `has_hsrp_track`. -/
def hasHsrpTrack (P : Parsed) (i : Nat) : Except Err Bool := do .ok (!(← hsrpTrack P i).isEmpty)

/-- models_cisco.py:2506-2515 `has_hsrp_usebia`. -/
def hasHsrpUsebia (P : Parsed) (i : Nat) : Except Err Bool :=
  iterTyped P i "^\\s*standby\\s+(\\d+\\s+)*(use-bia)" 2 toBool false

/-- models_cisco.py:2520-2529 `has_hsrp_preempt`: the expression is the one of `use-bia`. -/
def hasHsrpPreempt (P : Parsed) (i : Nat) : Except Err Bool :=
  iterTyped P i "^\\s*standby\\s+(\\d+\\s+)*(use-bia)" 2 toBool false

/-- models_cisco.py:2534-2543 `hsrp_authentication_md5_keychain`. -/
def hsrpAuthenticationMd5Keychain (P : Parsed) (i : Nat) : Except Err Str :=
  iterTyped P i "^\\s*standby\\s+(\\d+\\s+)*authentication\\s+md5\\s+key-chain\\s+(\\S+)" 2 toStr []

/-- models_cisco.py:2548-2550 `has_hsrp_authentication_md5`. -/
def hasHsrpAuthenticationMd5 (P : Parsed) (i : Nat) : Except Err Bool := do
  .ok (!(← hsrpAuthenticationMd5Keychain P i).isEmpty)

/-- models_cisco.py:2579-2585 `mac_accessgroup_in`. -/
def macAccessgroupIn (P : Parsed) (i : Nat) : Except Err Val :=
  getKey (iterDict P i "^\\s*mac\\saccess-group\\s+(?P<group_number>\\S+)\\s+in\\s*$"
    [("group_number".toList, .str)] (.str [])) "group_number".toList

/-- models_cisco.py:2590-2596 `mac_accessgroup_out`. -/
def macAccessgroupOut (P : Parsed) (i : Nat) : Except Err Val :=
  getKey (iterDict P i "^\\s*mac\\saccess-group\\s+(?P<group_number>\\S+)\\s+out\\s*$"
    [("group_number".toList, .str)] (.str [])) "group_number".toList

/-- models_cisco.py:2563-2566 `has_mac_accessgroup_in`. -/
def hasMacAccessgroupIn (P : Parsed) (i : Nat) : Except Err Bool := do
  if !(← isSwitchport P i) then .ok false else .ok ((← macAccessgroupIn P i) != .str [])

/-- models_cisco.py:2571-2574 `has_mac_accessgroup_out`. -/
def hasMacAccessgroupOut (P : Parsed) (i : Nat) : Except Err Bool := do
  if !(← isSwitchport P i) then .ok false else .ok ((← macAccessgroupOut P i) != .str [])

/-- models_cisco.py:2639-2643 `ipv4_accessgroup_in` (and `ip_accessgroup_in`). -/
def ipv4AccessgroupIn (P : Parsed) (i : Nat) : Except Err Str :=
  iterTyped P i "^\\s*ip\\saccess-group\\s+(\\S+)\\s+in\\s*$" 1 toStr []

/-- models_cisco.py:2648-2652 `ipv4_accessgroup_out` (and `ip_accessgroup_out`). -/
def ipv4AccessgroupOut (P : Parsed) (i : Nat) : Except Err Str :=
  iterTyped P i "^\\s*ip\\saccess-group\\s+(\\S+)\\s+out\\s*$" 1 toStr []

/-- models_cisco.py:2603-2604,2615-2616 `has_ip_accessgroup_in`. -/
def hasIpAccessgroupIn (P : Parsed) (i : Nat) : Except Err Bool := do .ok (!(← ipv4AccessgroupIn P i).isEmpty)

/-- models_cisco.py:2609-2610,2621-2622 `has_ip_accessgroup_out`. -/
def hasIpAccessgroupOut (P : Parsed) (i : Nat) : Except Err Bool := do .ok (!(← ipv4AccessgroupOut P i).isEmpty)

end Cisco

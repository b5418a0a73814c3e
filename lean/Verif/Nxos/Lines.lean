import Verif.Cisco.Factory
import Verif.Aaa.Model

/-! # Model of `config_line_factory` for NXOS and of the NXOS route, host name, access and global lines

ciscoconfparse.py:119-134,6090-6166, models_nxos.py:1720-1771, 1934-2022, 2042-2054 and 2094-2263. -/

namespace Nxos.Lines

open Py Conf Query Re Cisco

/-! ## Static routes -/

/-- models_nxos.py:2094-2108 `_RE_IP_ROUTE`. -/
def reIpRoute : Str := chars! r"^ip\s+route
\s+
(?P<prefix>\d+\.\d+\.\d+\.\d+)          # Prefix detection
\/
(?P<masklen>\d+)                        # Netmask detection
(?:\s+(?P<nh_intf>[^\d]\S+))?           # NH intf
(?:\s+(?P<nh_addr>\d+\.\d+\.\d+\.\d+))? # NH addr
(?:\s+track\s+(?P<track_group>\d+))?    # Tracking object
(?:\s+name\s+(?P<name>\S+))?     # Route name
(?:\s+tag\s+(?P<tag>\d+))?       # Route tag
(?:\s+(?P<ad>\d+))?              # Admin distance
"

/-- models_nxos.py:2111-2129 `_RE_IPV6_ROUTE`. -/
def reIpv6Route : Str := chars! r"^ipv6\s+route
(?:\s+vrf\s+(?P<vrf>\S+))?
(?:\s+(?P<prefix>" ++ v6rx '1' ++ chars! r")\/(?P<masklength>\d+))    # Prefix detection
(?:
  (?:\s+(?P<nh_addr1>" ++ v6rx '2' ++ chars! r"))
  |(?:\s+(?P<nh_intf>\S+(?:\s+\d\S*?\/\S+)?)(?:\s+(?P<nh_addr2>" ++ v6rx '3' ++ chars! r"))?)
)
(?:\s+nexthop-vrf\s+(?P<nexthop_vrf>\S+))?
(?:\s+(?P<ad>\d+))?              # Administrative distance
(?:\s+(?:(?P<ucast>unicast)|(?P<mcast>multicast)))?
(?:\s+tag\s+(?P<tag>\d+))?       # Route tag
"

/-- models_nxos.py:2133-2150: `route_info` of an `NXOSRouteLine` with text `t`; `isV6` is
`"ipv6" in text[0:4]` (2135). -/
def routeInfo (t : Str) : Except Err (List (Str × Option Str)) :=
  match compileL (if isV6 t then reIpv6Route else reIpRoute) { verbose := true } with
  | .error _ => .error .reError
  | .ok p =>
    match search p t with
    | some m => .ok (m.groupdict p)
    | none => .error .valueError

/-- `self.route_info[key]`. -/
def routeGet (t : Str) (key : String) : Except Err (Option Str) := do
  match (← routeInfo t).lookup key.toList with
  | some v => .ok v
  | none => .error .keyError

/-- `self.route_info[key] or ""`. -/
def routeStr (t : Str) (key : String) : Except Err Str := do .ok ((← routeGet t key).getD [])

/-- models_nxos.py:2163-2169 `admin_distance`: a text. -/
def routeAdminDistance (t : Str) : Except Err Str := do
  match ← routeGet t "ad" with
  | none => .ok "1".toList
  | some v => .ok v

/-- models_nxos.py:2171-2182 `network`.  The group always takes part in an IPv4 match. -/
def routeNetwork (t : Str) : Except Err Str :=
  if isV6 t then matchTyped t "^ipv6\\s+route\\s+(vrf\\s+)*(\\S+?)\\/\\d+" 2 toStr []
  else routeStr t "prefix"

/-- models_nxos.py:2188-2194 `masklen` of an IPv4 route: a text. -/
def routeMasklen (t : Str) : Except Err Str := routeStr t "masklen"

/-- models_nxos.py:2188-2194 `masklen` of an IPv6 route: a number. -/
def routeMasklen6 (t : Str) : Except Err Int := do
  let m ← routeStr t "masklength"
  pyInt (if m.isEmpty then "128".toList else m)

/-- models_nxos.py:2196-2204 `network_object` of an IPv4 route: None after any exception. -/
def routeNetworkObject (t : Str) : Except Err (Option IP.V4) := do
  match IP.V4.ofStr ((← routeNetwork t) ++ '/' :: (← routeMasklen t)) with
  | .ok o => .ok (some o)
  | .error _ => .ok none

/-- models_nxos.py:2184-2186 `netmask` of an IPv4 route. -/
def routeNetmask (t : Str) : Except Err Str := do
  match ← routeNetworkObject t with
  | some o => .ok o.netmaskStr
  | none => .error .attributeError

/-- models_nxos.py:2222-2233 `next_hop_interface`. -/
def routeNextHopInterface (t : Str) : Except Err Str := routeStr t "nh_intf"

/-- models_nxos.py:2235-2240 `next_hop_addr`. -/
def routeNextHopAddr (t : Str) : Except Err Str := do
  if isV6 t then
    let a ← routeStr t "nh_addr1"
    if a.isEmpty then routeStr t "nh_addr2" else .ok a
  else routeStr t "nh_addr"

/-- models_nxos.py:2206-2220 `nexthop_str`. -/
def routeNexthopStr (t : Str) : Except Err Str := do
  if isV6 t then matchTyped t "^ipv6\\s+route\\s+(vrf\\s+)*\\S+\\s+(\\S+)" 2 toStr []
  else
    let i ← routeNextHopInterface t
    let a ← routeNextHopAddr t
    if i.isEmpty then .ok a else .ok (i ++ ' ' :: a)

/-- models_nxos.py:2247-2255 `route_name`. -/
def routeName (t : Str) : Except Err Str := if isV6 t then .error .notImplemented else routeStr t "name"

/-- models_nxos.py:2257-2259 `tag`. -/
def routeTag (t : Str) : Except Err Str := routeStr t "tag"

/-- models_nxos.py:2261-2263 `tracking_object_name`; None if the line has none. -/
def routeTrack (t : Str) : Except Err (Option Str) := routeGet t "track_group"

/-- models_nxos.py:2042-2054 `routeinfo`. -/
def routeText (t : Str) : Except Err Str := do
  let tr ← routeTrack t
  let nh ← routeNexthopStr t
  let ad ← routeAdminDistance t
  if (tr.getD []).isEmpty then .ok (nh ++ " AD: ".toList ++ ad)
  else .ok (nh ++ " AD: ".toList ++ ad ++ " Track: ".toList ++ tr.getD [])

/-! ## Host name, access lines and globals -/

/-- models_nxos.py:1940-1943 `hostname`. -/
def hostname (t : Str) : Except Err Str := matchTyped t "^hostname\\s+(\\S+)" 1 toStr []

/-- models_nxos.py:1970-1973 `is_accessline`. -/
def isAccessline (t : Str) : Except Err Bool := do .ok (!(← matchTyped t "^(line\\s+\\S+)" 1 toStr []).isEmpty)

/-- models_nxos.py:1975-1981 `name`. -/
def accessName (t : Str) : Except Err Str := do
  let r ← matchTyped t "^line\\s+(\\S+)" 1 toStr []
  if ← reTrue "\\d+" r then .ok [] else .ok r

/-- models_nxos.py:1995-2004 `line_range`, as the list of the numbers (the code gives an iterator). -/
def accessRange (t : Str) : Except Err (List Int) := do
  let r ← matchTyped t "([a-zA-Z]+\\s+)*(\\d+\\s*\\d*)$" 2 toStr []
  (splitWs (strip r)).mapM pyInt

/-- models_nxos.py:1991-1993 `range_str`. -/
def accessRangeStr (t : Str) : Except Err Str := do .ok (join [' '] ((← accessRange t).map intStr))

/-- models_nxos.py:2016-2022 `parse_exectimeout`, as the list of the numbers (the code gives an iterator). -/
def parseExectimeout (P : Parsed) (i : Nat) : Except Err (List Int) := do
  let r ← iterTyped P i "^\\s*exec-timeout\\s+(\\d+\\s*\\d*)\\s*$" 1 toStr []
  (splitWs (strip r)).mapM pyInt

/-- models_nxos.py:2006-2008 `manual_exectimeout_minutes()`: an iterator has no `[0]`.  `map` calls
`int` only when it is asked for a number, so the only exception is this one. -/
def exectimeoutMinutes (P : Parsed) (i : Nat) : Except Err Int := do
  let _ ← iterTyped P i "^\\s*exec-timeout\\s+(\\d+\\s*\\d*)\\s*$" 1 toStr []
  .error .typeError

/-- models_nxos.py:2010-2014 `manual_exectimeout_seconds()`: `tmp > 0` compares an iterator with a number. -/
def exectimeoutSeconds (P : Parsed) (i : Nat) : Except Err Int := do
  let _ ← iterTyped P i "^\\s*exec-timeout\\s+(\\d+\\s*\\d*)\\s*$" 1 toStr []
  .error .typeError

/-- models_nxos.py:1749-1753 `has_cdp_disabled`. -/
def hasCdpDisabled (t : Str) : Except Err Bool := reTrue "^no\\s+cdp\\s+run\\s*" t

/-- models_nxos.py:1755-1759 `has_intf_logging_def`. -/
def hasIntfLoggingDef (t : Str) : Except Err Bool := reTrue "^logging\\s+event\\s+link-status\\s+global" t

/-- models_nxos.py:1761-1765 `has_stp_portfast_bpduguard_def`. -/
def hasStpPortfastBpduguardDef (t : Str) : Except Err Bool := reTrue "^spanning-tree\\sportfast\\sbpduguard\\sdefault" t

/-- models_nxos.py:1767-1771 `has_stp_mode_rapidpvst`. -/
def hasStpModeRapidpvst (t : Str) : Except Err Bool := reTrue "^spanning-tree\\smode\\srapid-pvst" t

/-! ## Choosing the class -/

/-- ciscoconfparse.py:119-134: the classes of NXOS lines. -/
inductive Cls where
  | intf | route | access | aaaLogin | aaaEnable | aaaCommandsAuthz | aaaConsoleAuthz | aaaCommandsAcct | aaaExecAcct
  | aaaGroup | vpc | hostname | intfGlobal | cfg
  deriving DecidableEq, Repr

/-- ciscoconfparse.py:119-134 `ALL_NXOS_FACTORY_CLASSES`, in the order in which they are tried. -/
def classes : List Cls :=
  [.intf, .route, .access, .aaaLogin, .aaaEnable, .aaaCommandsAuthz, .aaaConsoleAuthz, .aaaCommandsAcct, .aaaExecAcct,
    .aaaGroup, .vpc, .hostname, .intfGlobal, .cfg]

/-- models_nxos.py:1720-1724, 2152-2156, 1964-1968 (interface, route, access line), models_nxos.py:2337-2341, 2360-2364,
2384-2388, 2408-2412, 2433-2437, 2457-2461 (AAA), models_nxos.py:2289-2293, 1785-1789, 1934-1938, 1740-1747, 86-88 (AAA
group, vPC, host name, globals, all others): `is_object_for`. -/
def isObjectFor (t : Str) : Cls → Except Err Bool
  | .intf => reTrue "^interface\\s+([a-zA-Z0-9]\\S*)" t
  | .route => .ok (t.take 8 == "ip route".toList || t.take 11 == "ipv6 route ".toList)
  | .access => reTrue "^line" t
  | .aaaLogin => reTrue "^aaa\\sauthentication\\slogin" t
  | .aaaEnable => reTrue "^aaa\\sauthentication\\senable" t
  | .aaaCommandsAuthz => reTrue "^aaa\\sauthorization\\scommands" t
  | .aaaConsoleAuthz => reTrue "^aaa\\s+authorization\\s+console" (strip t)
  | .aaaCommandsAcct => reTrue "^aaa\\saccounting\\scommands" t
  | .aaaExecAcct => reTrue "^aaa\\saccounting\\sexec" t
  | .aaaGroup => reTrue "^aaa\\sgroup\\sserver" t
  | .vpc => reTrue "^vpc\\s+domain" t
  | .hostname => reTrue "^hostname" t
  | .intfGlobal => reTrue "^(no\\s+cdp\\s+run)|(logging\\s+event\\s+link-status\\s+global)|(spanning-tree\\sportfast\\sdefault)|(spanning-tree\\sportfast\\sbpduguard\\sdefault)" t
  | .cfg => .ok true

/-- What the constructor of the class raises on the text (2133-2150, 2276-2287; the others raise nothing). -/
def construct (t : Str) : Cls → Except Err Unit
  | .route => do let _ ← routeInfo (lineText t); .ok ()
  | .aaaGroup => do let _ ← aaaGroup (lineText t); .ok ()
  | _ => .ok ()

/-- ciscoconfparse.py:6148-6156: the first class that takes the line. -/
def firstCls (t : Str) : List Cls → Except Err (Option Cls)
  | [] => .ok none
  | c :: cs => do
    if ← isObjectFor t c then
      construct t c
      .ok (some c)
    else firstCls t cs

/-- ciscoconfparse.py:6090-6166 `config_line_factory(line=t, syntax="nxos")`: the class of the
object; none is the default object, an `IOSCfgLine`. -/
def lineFactory (t : Str) : Except Err (Option Cls) :=
  match firstCls t classes with
  | .ok c => .ok c
  | .error .valueError => .error .valueError
  | .error _ => .ok none

end Nxos.Lines

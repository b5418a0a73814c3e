import Verif.Cisco.Model

/-! # Model of `config_line_factory` and of the IOS line classes other than interfaces

ciscoconfparse.py:6090-6166, models_cisco.py:533-623 and 2660-3415. -/

namespace Cisco

open Py Conf Query Re

/-- ciscoconfparse.py:104-118: the classes of IOS lines, in the order in which they are
tried. -/
inductive LineCls where
  | intf | route | access | aaaLogin | aaaEnable | aaaCommandsAuthz | aaaConsoleAuthz | aaaCommandsAcct | aaaExecAcct
  | aaaGroup | hostname | intfGlobal | cfg
  deriving DecidableEq, Repr

/-- ciscoconfparse.py:104-118 `ALL_IOS_FACTORY_CLASSES`. -/
def iosClasses : List LineCls :=
  [.intf, .route, .access, .aaaLogin, .aaaEnable, .aaaCommandsAuthz, .aaaConsoleAuthz, .aaaCommandsAcct, .aaaExecAcct,
    .aaaGroup, .hostname, .intfGlobal, .cfg]

/-- `bool(re.search(rx, t))`. -/
def reTrue (rx : String) (t : Str) : Except Err Bool := do .ok (← reSearch rx t).isSome

/-- models_cisco.py:561-623 `is_object_for_hostname` and its like: the line begins with
these words. -/
def beginsWith (l : List String) (t : Str) : Bool := (parts t).take l.length == ws l

/-- models_cisco.py:539-557 `IOSCfgLine.is_object_for`. -/
def isCfg (t : Str) : Bool :=
  !(beginsWith ["hostname"] t || beginsWith ["interface"] t || beginsWith ["aaa", "authentication"] t ||
    beginsWith ["aaa", "authorization"] t || beginsWith ["aaa", "accounting"] t || beginsWith ["ip", "route"] t ||
    beginsWith ["ipv6", "route"] t)

/-- models_cisco.py:2678-2679, 3011-3014, 2795-2798 (interface, route, access line),
models_cisco.py:3277-3280, 3303-3306, 3330-3333, 3357-3360, 3385-3388, 3412-3415 (AAA),
models_cisco.py:3220-3223, 2761-2764, 2700-2706 (AAA group, hostname, globals): `is_object_for`. -/
def isObjectFor (t : Str) : LineCls → Except Err Bool
  | .intf => .ok (beginsWith ["interface"] t)
  | .route => .ok (t.take 9 == "ip route ".toList || t.take 11 == "ipv6 route ".toList)
  | .access => reTrue "^line" t
  | .aaaLogin => reTrue "^aaa\\s+authentication\\s+login" (strip t)
  | .aaaEnable => reTrue "^aaa\\s+authentication\\s+enable" (strip t)
  | .aaaCommandsAuthz => reTrue "^aaa\\s+authorization\\s+commands" (strip t)
  | .aaaConsoleAuthz => reTrue "^aaa\\s+authorization\\s+console" (strip t)
  | .aaaCommandsAcct => reTrue "^aaa\\s+accounting\\s+commands" (strip t)
  | .aaaExecAcct => reTrue "^aaa\\s+accounting\\s+exec" (strip t)
  | .aaaGroup => reTrue "^aaa\\sgroup\\sserver" t
  | .hostname => reTrue "^hostname" t
  | .intfGlobal => reTrue "^(no\\s+cdp\\s+run)|(logging\\s+event\\s+link-status\\s+global)|(spanning-tree\\sportfast\\sdefault)|(spanning-tree\\sportfast\\sbpduguard\\sdefault)" t
  | .cfg => .ok (isCfg t)

/-! ## Static routes -/

/-- models_cisco.py:2944-2963 `_RE_IP_ROUTE`. -/
def reIpRoute : Str := chars! r"^ip\s+route
(?:\s+(?:vrf\s+(?P<vrf>\S+)))?          # VRF detection
\s+
(?P<prefix>\d+\.\d+\.\d+\.\d+)          # Prefix detection
\s+
(?P<netmask>\d+\.\d+\.\d+\.\d+)         # Netmask detection
(?:\s+(?P<nh_intf>[^\d]\S+))?           # NH intf
(?:\s+(?P<nh_addr>\d+\.\d+\.\d+\.\d+))? # NH addr
(?:\s+(?P<dhcp>dhcp))?           # DHCP keyword       (FIXME: add unit test)
(?:\s+(?P<global>global))?       # Global keyword
(?:\s+(?P<ad>\d+))?              # Administrative distance
(?:\s+(?P<mcast>multicast))?     # Multicast Keyword  (FIXME: add unit test)
(?:\s+name\s+(?P<name>\S+))?     # Route name
(?:\s+(?P<permanent>permanent))? # Permanent Keyword  (exclusive of track)
(?:\s+track\s+(?P<track>\d+))?   # Track object (exclusive of permanent)
(?:\s+tag\s+(?P<tag>\d+))?       # Route tag
"

/-- ccp_util.py:89 `_IPV6_RGX_CLS`. -/
def v6cls : Str := chars! "[0-9a-fA-F]{1,4}"

/-- ccp_util.py:113-117 `_IPV6_REGEX_STR_COMPRESSED1` to `3`, for `k` = 1 to 3. -/
def v6rx (k : Char) : Str :=
  chars! r"(?!:::\S+?$)(?P<addr" ++ k :: chars! r">(?P<opt" ++ k :: chars! r"_1>" ++ v6cls ++ chars! r"(?::" ++ v6cls ++ chars! r"){7})" ++
  chars! r"|(?P<opt" ++ k :: chars! r"_2>(?:" ++ v6cls ++ chars! r":){1}(?::" ++ v6cls ++ chars! r"){1,6})" ++
  chars! r"|(?P<opt" ++ k :: chars! r"_3>(?:" ++ v6cls ++ chars! r":){2}(?::" ++ v6cls ++ chars! r"){1,5})" ++
  chars! r"|(?P<opt" ++ k :: chars! r"_4>(?:" ++ v6cls ++ chars! r":){3}(?::" ++ v6cls ++ chars! r"){1,4})" ++
  chars! r"|(?P<opt" ++ k :: chars! r"_5>(?:" ++ v6cls ++ chars! r":){4}(?::" ++ v6cls ++ chars! r"){1,3})" ++
  chars! r"|(?P<opt" ++ k :: chars! r"_6>(?:" ++ v6cls ++ chars! r":){5}(?::" ++ v6cls ++ chars! r"){1,2})" ++
  chars! r"|(?P<opt" ++ k :: chars! r"_7>(?:" ++ v6cls ++ chars! r":){6}(?::" ++ v6cls ++ chars! r"){1,1})" ++
  chars! r"|(?P<opt" ++ k :: chars! r"_8>:(?::" ++ v6cls ++ chars! r"){1,7})" ++
  chars! r"|(?P<opt" ++ k :: chars! r"_9>(?:" ++ v6cls ++ chars! r":){1,7}:)" ++
  chars! r"|(?P<opt" ++ k :: chars! r"_10>(?:::)))"

/-- models_cisco.py:2965-2985 `_RE_IPV6_ROUTE`. -/
def reIpv6Route : Str := chars! r"^ipv6\s+route
(?:\s+vrf\s+(?P<vrf>\S+))?
(?:\s+(?P<prefix>" ++ v6rx '1' ++ chars! r")\/(?P<masklength>\d+))    # Prefix detection
(?:
  (?:\s+(?P<nh_addr1>" ++ v6rx '2' ++ chars! r"))
  |(?:\s+(?P<nh_intf>\S+(?:\s+\d\S*?\/\S+)?)(?:\s+(?P<nh_addr2>" ++ v6rx '3' ++ chars! r"))?)
)
(?:\s+nexthop-vrf\s+(?P<nexthop_vrf>\S+))?
(?:\s+(?P<ad>\d+))?              # Administrative distance
(?:\s+(?:(?P<ucast>unicast)|(?P<mcast>multicast)))?
(?:\s+tag\s+(?P<tag>\d+))?       # Route tag
(?:\s+track\s+(?P<track>\d+))?   # Track object
(?:\s+name\s+(?P<name>\S+))?     # Route name
"

/-- models_cisco.py:2992-2994: `_address_family` is ipv6. -/
def isV6 (t : Str) : Bool := t.take 4 == "ipv6".toList

/-- models_cisco.py:2990-3007: `route_info` of an `IOSRouteLine` with text `t`. -/
def routeInfo (t : Str) : Except Err (List (Str × Option Str)) :=
  match compileL (if isV6 t then reIpv6Route else reIpRoute) { verbose := true } with
  | .error _ => .error .reError
  | .ok p =>
    match search p t with
    | some m => .ok (m.groupdict p)
    | none => .error .valueError

/-- `self.route_info[key]`. -/
def routeGet (t : Str) (key : String) : Except Err (Option Str) := do
  match (← routeInfo t).lookup key.toList with
  | some v => .ok v
  | none => .error .keyError

/-- `self.route_info[key] or ""`: 3018-3022 `vrf`, 3092-3102 `next_hop_interface`,
3165-3169 `route_name`, 3184-3188 `tracking_object_name`, 3192-3193 `tag`. -/
def routeStr (t : Str) (key : String) : Except Err Str := do .ok ((← routeGet t key).getD [])

/-- models_cisco.py:3018-3022 `vrf`. -/
def routeVrf (t : Str) : Except Err Str := routeStr t "vrf"

/-- models_cisco.py:3032-3042 `network`. -/
def routeNetwork (t : Str) : Except Err Str :=
  if isV6 t then matchTyped t "^ipv6\\s+route\\s+(vrf\\s+)*(\\S+?)\\/\\d+" 2 toStr []
  else routeStr t "prefix"

/-- models_cisco.py:3046-3048 `netmask`, of an IPv4 route. -/
def routeNetmask (t : Str) : Except Err Str := routeStr t "netmask"

/-- models_cisco.py:3063-3071 `network_object`, of an IPv4 route: None after any exception. -/
def routeNetworkObject (t : Str) : Except Err (Option IP.V4) := do
  match IP.V4.ofStr ((← routeNetwork t) ++ '/' :: (← routeNetmask t)) with
  | .ok o => .ok (some o)
  | .error _ => .ok none

/-- models_cisco.py:3054-3056 `masklen`, of an IPv4 route. -/
def routeMasklen (t : Str) : Except Err Nat := do
  match ← routeNetworkObject t with
  | some o => .ok o.plen
  | none => .error .attributeError

/-- models_cisco.py:3092-3102 `next_hop_interface`. -/
def routeNextHopInterface (t : Str) : Except Err Str := routeStr t "nh_intf"

/-- models_cisco.py:3106-3110 `next_hop_addr`. -/
def routeNextHopAddr (t : Str) : Except Err Str := do
  if isV6 t then
    let a ← routeStr t "nh_addr1"
    if a.isEmpty then routeStr t "nh_addr2" else .ok a
  else routeStr t "nh_addr"

/-- models_cisco.py:3075-3088 `nexthop_str`. -/
def routeNexthopStr (t : Str) : Except Err Str := do
  if isV6 t then matchTyped t "^ipv6\\s+route\\s+(vrf\\s+)*\\S+\\s+(\\S+)" 2 toStr []
  else
    let i ← routeNextHopInterface t
    let a ← routeNextHopAddr t
    if i.isEmpty then .ok a else .ok (i ++ ' ' :: a)

/-- models_cisco.py:3114-3129 `global_next_hop`. -/
def routeGlobalNextHop (t : Str) : Except Err Bool := do
  if isV6 t then .error .valueError
  else if !(← routeVrf t).isEmpty then .ok (!(← routeStr t "global").isEmpty)
  else .ok true

/-- models_cisco.py:3133-3141 `nexthop_vrf`. -/
def routeNexthopVrf (t : Str) : Except Err Str :=
  if isV6 t then routeStr t "nexthop_vrf" else .error .valueError

/-- models_cisco.py:3145-3149 `admin_distance`. -/
def routeAdminDistance (t : Str) : Except Err Int := do
  match ← routeGet t "ad" with
  | some v => if v.isEmpty then .ok 1 else pyInt v
  | none => .ok 1

/-- models_cisco.py:3153-3155 `multicast`. -/
def routeMulticast (t : Str) : Except Err Bool := do .ok (!(← routeStr t "mcast").isEmpty)

/-- models_cisco.py:3165-3169 `route_name`. -/
def routeName (t : Str) : Except Err Str := routeStr t "name"

/-- models_cisco.py:3173-3180 `permanent`. -/
def routePermanent (t : Str) : Except Err Bool := do
  if isV6 t then .error .notImplemented else .ok (!(← routeStr t "permanent").isEmpty)

/-- models_cisco.py:3184-3188 `tracking_object_name`. -/
def routeTrack (t : Str) : Except Err Str := routeStr t "track"

/-- models_cisco.py:3192-3193 `tag`. -/
def routeTag (t : Str) : Except Err Str := routeStr t "tag"

/-! ## Choosing the class -/

/-- models_cisco.py:3205-3216: `(protocol, group)` of an AAA server group line. -/
def aaaGroup (t : Str) : Except Err (Option Str × Option Str) := do
  match ← reSearch "^aaa\\sgroup\\sserver\\s(?P<protocol>\\S+)\\s(?P<group>\\S+)\\s*$" t with
  | some (p, m) => .ok (← m.group p 1, ← m.group p 2)
  | none => .error .valueError

/-- What the constructor of the class raises on the text (2990-3007, 3205-3216; the others
raise nothing). -/
def construct (t : Str) : LineCls → Except Err Unit
  | .route => do let _ ← routeInfo (lineText t); .ok ()
  | .aaaGroup => do let _ ← aaaGroup (lineText t); .ok ()
  | _ => .ok ()

/-- ciscoconfparse.py:6148-6156: the first class that takes the line. -/
def firstCls (t : Str) : List LineCls → Except Err (Option LineCls)
  | [] => .ok none
  | c :: cs => do
    if ← isObjectFor t c then
      construct t c
      .ok (some c)
    else firstCls t cs

/-- ciscoconfparse.py:6090-6166 `config_line_factory(line=t, syntax="ios")`: the class of
the object.  An exception other than ValueError ends in the default class. -/
def lineFactory (t : Str) : Except Err LineCls :=
  match firstCls t iosClasses with
  | .ok (some c) => .ok c
  | .ok none => .ok .cfg
  | .error .valueError => .error .valueError
  | .error _ => .ok .cfg

/-- ciscoconfparse.py:615-790,5757-5772 `CiscoConfParse(lines, factory=True)` for IOS: the
objects are made line by line, before anything else; with the classes of the lines. -/
def parseFactory (o : Opts) (lines : List Str) : Except Err (List LineCls × Parsed) := do
  let cs ← (preFilter { o with factory := true } lines).mapM lineFactory
  let P ← parse { o with factory := true } lines
  .ok (cs, P)

/-! ## Attributes of the classes -/

/-- models_cisco.py:2768-2770 `hostname`. -/
def hostname (t : Str) : Except Err Str := matchTyped t "^hostname\\s+(\\S+)" 1 toStr []

/-- models_cisco.py:2802-2804 `is_accessline`. -/
def isAccessline (t : Str) : Except Err Bool := do .ok (!(← matchTyped t "^(line\\s+\\S+)" 1 toStr []).isEmpty)

/-- models_cisco.py:2808-2813 `name` of an access line. -/
def accessName (t : Str) : Except Err Str := do
  let r ← matchTyped t "^line\\s+(\\S+)" 1 toStr []
  if ← reTrue "\\d+" r then .ok [] else .ok r

/-- models_cisco.py:2832-2840 `line_range`, as the list of the numbers. -/
def accessRange (t : Str) : Except Err (List Int) := do
  let r ← matchTyped t "([a-zA-Z]+\\s+)*(\\d+\\s*\\d*)$" 2 toStr []
  (splitWs (strip r)).mapM pyInt

/-- models_cisco.py:2827-2828 `range_str`. -/
def accessRangeStr (t : Str) : Except Err Str := do .ok (join [' '] ((← accessRange t).map intStr))

/-- models_cisco.py:2856-2861 `parse_exectimeout`, as the list of the numbers. -/
def parseExectimeout (P : Parsed) (i : Nat) : Except Err (List Int) := do
  let r ← iterTyped P i "^\\s*exec-timeout\\s+(\\d+\\s*\\d*)\\s*$" 1 toStr []
  (splitWs (strip r)).mapM pyInt

/-- models_cisco.py:2821-2823 `build_reset_string`. -/
def accessReset (t : Str) : Str := "default ".toList ++ t

/-- models_cisco.py:2710-2713 `has_cdp_disabled`. -/
def hasCdpDisabled (t : Str) : Except Err Bool := reTrue "^no\\s+cdp\\s+run\\s*" t

/-- models_cisco.py:2717-2720 `has_intf_logging_def`. -/
def hasIntfLoggingDef (t : Str) : Except Err Bool := reTrue "^logging\\s+event\\s+link-status\\s+global" t

/-- models_cisco.py:2724-2727 `has_stp_portfast_def`. -/
def hasStpPortfastDef (t : Str) : Except Err Bool := reTrue "^spanning-tree\\sportfast\\sdefault" t

/-- models_cisco.py:2731-2734 `has_stp_portfast_bpduguard_def`. -/
def hasStpPortfastBpduguardDef (t : Str) : Except Err Bool := reTrue "^spanning-tree\\sportfast\\sbpduguard\\sdefault" t

/-- models_cisco.py:2738-2741 `has_stp_mode_rapidpvst`. -/
def hasStpModeRapidpvst (t : Str) : Except Err Bool := reTrue "^spanning-tree\\smode\\srapid-pvst" t

/-- models_cisco.py:627,668-670 `is_intf`. -/
def isIntf (t : Str) : Except Err Bool :=
  if t.take 10 == "interface ".toList then
    match t[10]? with
    | some c => .ok (c != ' ')
    | none => .error .indexError
  else .ok false

/-- models_cisco.py:674,713-716 `is_subintf` (`re_match` gives the group or the default). -/
def isSubintf (t : Str) : Except Err Bool := reTrue "^interface\\s+(\\S+?\\.\\d+)" t

end Cisco

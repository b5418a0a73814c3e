import Verif.Cisco.Access
import Verif.Cisco.Factory
import Verif.Query.Required
import Verif.Misc.L4Pass
import Verif.IP.Model

/-! # Model of the ASA line classes and of the ASA attributes of `ConfigList`

models_asa.py:575-1469 and ciscoconfparse.py:4983-4990, 5926-5978.  A line object is `P, i`:
object `i` of the configuration `P`; `cs` are the classes of the objects. -/

namespace Asa

open Py Conf Query Re Cisco

/-! ## Dictionaries -/

/-- `d[k] = v`. -/
def put {α : Type} (d : List (Str × α)) (k : Str) (v : α) : List (Str × α) :=
  if (d.lookup k).isSome then d.map (fun q => if q.1 = k then (k, v) else q) else d ++ [(k, v)]

/-- ciscoconfparse.py:4984-4986 `_RE_NAMES`. -/
def reNames : String := "^\\s*name\\s+(\\d+\\.\\d+\\.\\d+\\.\\d+)\\s+(\\S+)"

/-- ciscoconfparse.py:4987 `_RE_OBJNET`. -/
def reObjNet : String := "^\\s*object-group\\s+network\\s+(\\S+)"

/-- ciscoconfparse.py:4989 `_RE_OBJACL`. -/
def reObjAcl : String := "^\\s*access-list\\s+(\\S+)"

/-- ciscoconfparse.py:5939-5942: the loop. -/
def namesLoop (P : Parsed) : List Nat → List (Str × Str) → Except Err (List (Str × Str))
  | [], d => .ok d
  | i :: is, d => do
    let addr ← matchTyped (P.h i).text reNames 1 toStr []
    let name ← matchTyped (P.h i).text reNames 2 toStr []
    namesLoop P is (put d name addr)

/-- ciscoconfparse.py:5932-5943 `ConfigList.names`. -/
def names (syn : Syntax) (P : Parsed) : Except Err (List (Str × Str)) :=
  if syn ≠ .asa then .error .requirement
  else do
    let l ← liftBad (findObjectsT P reNames.toList false false)
    namesLoop P l []

/-- ciscoconfparse.py:5955-5957: the loop. -/
def groupsLoop (P : Parsed) : List Nat → List (Str × Nat) → Except Err (List (Str × Nat))
  | [], d => .ok d
  | i :: is, d => do
    let name ← matchTyped (P.h i).text reObjNet 1 toStr []
    groupsLoop P is (put d name i)

/-- ciscoconfparse.py:5948-5958 `ConfigList.object_group_network`. -/
def objectGroupNetwork (syn : Syntax) (P : Parsed) : Except Err (List (Str × Nat)) :=
  if syn ≠ .asa then .error .requirement
  else do
    let l ← liftBad (findObjectsT P reObjNet.toList false false)
    groupsLoop P l []

/-- ciscoconfparse.py:5969-5977: the loop. -/
def aclLoop (P : Parsed) : List Nat → List (Str × List Nat) → Except Err (List (Str × List Nat))
  | [], d => .ok d
  | i :: is, d => do
    let name ← matchTyped (P.h i).text reObjAcl 1 toStr []
    aclLoop P is (put d name ((d.lookup name).getD [] ++ [i]))

/-- ciscoconfparse.py:5963-5978 `ConfigList.access_list`. -/
def accessList (syn : Syntax) (P : Parsed) : Except Err (List (Str × List Nat)) :=
  if syn ≠ .asa then .error .requirement
  else do
    let l ← liftBad (findObjectsT P reObjAcl.toList false false)
    aclLoop P l []

/-! ## The classes of the lines -/

/-- ciscoconfparse.py:139-150: the classes of ASA lines. -/
inductive Cls where
  | intf | name | objNetwork | objService | objGroupNetwork | objGroupService | intfGlobal | hostname | acl | cfg
  deriving DecidableEq, Repr

/-- ciscoconfparse.py:139-150 `ALL_ASA_FACTORY_CLASSES`, in the order in which they are tried. -/
def classes : List Cls :=
  [.intf, .name, .objNetwork, .objService, .objGroupNetwork, .objGroupService, .intfGlobal, .hostname, .acl, .cfg]

/-- `w in line[0:len(w)].lower()`.  Simplification: `lower` changes ASCII letters only. -/
def starts (w : String) (t : Str) : Bool := isInfix w.toList ((t.take w.toList.length).map lowerChar)

/-- models_asa.py:913-917, 596-599, 626-629, 646-649, 677-680, 811-814, 937-940, 960-963,
1308-1313, 97-99: `is_object_for`. -/
def isObjectFor (t : Str) : Cls → Except Err Bool
  | .intf => reTrue "^interface\\s+(\\S+.+)" t
  | .name => .ok (starts "name " t)
  | .objNetwork => .ok (starts "object network " t)
  | .objService => .ok (starts "object service " t)
  | .objGroupNetwork => .ok (starts "object-group network " t)
  | .objGroupService => .ok (starts "object-group service " t)
  | .intfGlobal => reTrue "^mtu" t
  | .hostname => reTrue "^hostname" t
  | .acl => .ok (starts "access-list " t)
  | .cfg => .ok true

/-- models_asa.py:575-576 `_RE_NAMEOBJECT`. -/
def reNameObject : Str := chars! r"^name\s+(?P<addr>\d+\.\d+\.\d+\.\d+)\s(?P<name>\S+)"

/-- models_asa.py:1141-1143 `_ACL_PROTOCOLS`. -/
def aclProtocols : Str := chars! r"ip|tcp|udp|ah|eigrp|esp|gre|igmp|igrp|ipinip|ipsec|ospf|pcp|pim|pptp|snp|\d+"

/-- models_asa.py:1144 `_ACL_ICMP_PROTOCOLS`. -/
def aclIcmpProtocols : Str := chars! "alternate-address|conversion-error|echo-reply|echo|information-reply|information-request|mask-reply|mask-request|mobile-redirect|parameter-problem|redirect|router-advertisement|router-solicitation|source-quench|time-exceeded|timestamp-reply|timestamp-request|traceroute|unreachable"

/-- models_asa.py:1145 `_ACL_LOGLEVELS`. -/
def aclLoglevels : Str := chars! r"alerts|critical|debugging|emergencies|errors|informational|notifications|warnings|[0-7]"

/-- models_asa.py:1146-1281 `_RE_ACLOBJECT_STR`. -/
def reAclObject : Str :=
  chars! r"(?:                         # Non-capturing parenthesis
# remark
 (^access-list\s+(?P<acl_name0>\S+)\s+(?P<action0>remark)\s+(?P<remark>\S.+?)$)

# extended service object with source network object, destination network object
|(?:^access-list\s+(?P<acl_name1>\S+)
  \s+extended\s+(?P<action1>permit|deny)
  \s+(?:
     (?:object-group\s+(?P<service_object1>\S+))
    |(?P<protocol1>" ++
  aclProtocols ++
  chars! r")
  )
  \s+(?:                       # 10.0.0.0 255.255.255.0
     (?:object-group\s+(?P<src_networkobject1>\S+))
    |(?:object\s+(?P<src_object1>\S+))
    |(?:(?P<src_network1a>\S+)\s+(?P<src_netmask1a>\d+\.\d+\.\d+\.\d+))
  )
  \s+(?:                       # 10.0.0.0 255.255.255.0
     (?:object-group\s+(?P<dst_networkobject1>\S+))
    |(?:object\s+(?P<dst_object1>\S+))
    |(?:(?P<dst_network1a>\S+)\s+(?P<dst_netmask1a>\d+\.\d+\.\d+\.\d+))
  )
  (?:\s+
    (?P<log1>log)
    (?:\s+(?P<loglevel1>" ++
  aclLoglevels ++
  chars! r"))?
    (?:\s+interval\s+(?P<log_interval1>\d+))?
  )?
  (?:\s+(?P<disable1>disable))?
  (?:
    (?:\s+(?P<inactive1>inactive))
   |(?:\s+time-range\s+(?P<time_range1>\S+))
  )?
 \s*$)    # END access-list 1 parse

# extended service object with source network, destination network
# access-list TESTME1 extended permit ip any any log
|(?:^access-list\s+(?P<acl_name2>\S+)
  \s+extended
  \s+(?P<action2>permit|deny)
  \s+(?:                       # service-object or protocol
     (?:object-group\s+(?P<service_object2>\S+))
    |(?P<protocol2>" ++
  aclProtocols ++
  chars! r")
  )
  (?:\s+       # any, any4, host foo, object-group FOO or 10.0.0.0 255.255.255.0
     (?:
       (?P<src_network2a>any|any4)
      |(?:host\s+(?P<src_network2b>\S+))
      |(?:object\s+(?P<src_object2>\S+))
      |(?:object-group\s+(?P<src_networkobject2>\S+))
      |(?:(?P<src_network2c>\S+)\s+(?P<src_netmask2c>\d+\.\d+\.\d+\.\d+))
    )
  )
  (?:\s+
    (?:
       (?:(?P<src_port_operator>eq|neq|lt|gt)\s+(?P<src_port>\S+))
      |(?:range\s+(?P<src_port_low>\S+)\s+(?P<src_port_high>\S+))
      |(?:object-group\s+(?P<src_service_object>\S+))
    )
  )?
  (?:\s+       # any, any4, host foo, object-group FOO or 10.0.0.0 255.255.255.0
     (?:
       (?P<dst_network2a>any|any4)
      |(?:host\s+(?P<dst_network2b>\S+))
      |(?:object\s+(?P<dst_object2>\S+))
      |(?:object-group\s+(?P<dst_networkobject2>\S+))
      |(?:(?P<dst_network2c>\S+)\s+(?P<dst_netmask2c>\d+\.\d+\.\d+\.\d+))
    )
  )
  (?:\s+
    (?:
       (?:(?P<dst_port_operator>eq|neq|lt|gt)\s+(?P<dst_port>\S+))
      |(?:range\s+(?P<dst_port_low>\S+)\s+(?P<dst_port_high>\S+))
      |(?:object-group\s+(?P<dst_service_object>\S+))
    )
  )?
  (?:\s+
    (?P<log2>log)
    (?:\s+(?P<loglevel2>" ++
  aclLoglevels ++
  chars! r"))?
    (?:\s+interval\s+(?P<log_interval2>\d+))?
  )?
  (?:\s+(?P<disable2>disable))?
  (?:
    (?:\s+(?P<inactive2>inactive))
   |(?:\s+time-range\s+(?P<time_range2>\S+))
  )?
 \s*$)    # END access-list 2 parse

# access-list SPLIT_TUNNEL_NETS standard permit 192.0.2.0 255.255.255.0
|(?:^access-list\s+(?P<acl_name3>\S+)
  \s+standard
  \s+(?P<action3>permit|deny)
  \s+(?:
    (?P<dst_network3a>any|any4)
   |(?:host\s+(?P<dst_network3b>\S+))
   |(?:(?P<dst_network3c>\S+)\s+(?P<dst_netmask3c>\d+\.\d+\.\d+\.\d+))
  )

  )
#access-list TESTME extended permit icmp any4 0.0.0.0 0.0.0.0 unreachable log interval 1
|(?:^access-list\s+(?P<acl_name4>\S+)
  \s+extended
  \s+(?P<action4>permit|deny)
  \s+(?P<protocol4>icmp)
  (?:\s+       # any, any4, host foo, object-group FOO or 10.0.0.0 255.255.255.0
     (?:
       (?P<src_network4a>any|any4)
      |(?:host\s+(?P<src_network4b>\S+))
      |(?:object\s+(?P<src_object4>\S+))
      |(?:object-group\s+(?P<src_networkobject4>\S+))
      |(?:(?P<src_network4c>\S+)\s+(?P<src_netmask4c>\d+\.\d+\.\d+\.\d+))
    )
  )
  (?:\s+       # any, any4, host foo, object-group FOO or 10.0.0.0 255.255.255.0
     (?:
       (?P<dst_network4a>any|any4)
      |(?:host\s+(?P<dst_network4b>\S+))
      |(?:object\s+(?P<dst_object4>\S+))
      |(?:object-group\s+(?P<dst_networkobject4>\S+))
      |(?:(?P<dst_network4c>\S+)\s+(?P<dst_netmask4c>\d+\.\d+\.\d+\.\d+))
    )
  )
  (?:\s+(?P<icmp_proto4>" ++
  aclIcmpProtocols ++
  chars! r"|\d+))?
  (?:\s+
    (?P<log4>log)
    (?:\s+(?P<loglevel4>" ++
  aclLoglevels ++
  chars! r"))?
    (?:\s+interval\s+(?P<log_interval4>\d+))?
  )?
  (?:\s+(?P<disable4>disable))?
  (?:
    (?:\s+(?P<inactive4>inactive))
   |(?:\s+time-range\s+(?P<time_range4>\S+))
  )?
  )
)                                                   # Close non-capture parens
"

/-- `mm.groupdict()` of a search with an expression for `re.VERBOSE`; none without a match. -/
def verboseDict (rx t : Str) : Except Err (Option (List (Str × Option Str))) :=
  match compileL rx { verbose := true } with
  | .error _ => .error .reError
  | .ok p => .ok ((search p t).map (fun m => m.groupdict p))

/-- `d[k]`, or None without a key `k`. -/
def entry (d : List (Str × Option Str)) (k : String) : Option Str := (d.lookup k.toList).join

/-- `d.get(k, None)` in a condition: the value if it counts as true. -/
def truthy (d : List (Str × Option Str)) (k : String) : Option Str :=
  match entry d k with
  | some [] => none
  | o => o

/-- models_asa.py:581-592 `ASAName.__init__`, 603-609 `result_dict`: the address and the name. -/
def nameLine (t : Str) : Except Err (Option Str × Option Str) := do
  match ← verboseDict reNameObject (rstrip t) with
  | some d => .ok (entry d "addr", entry d "name")
  | none => .error .valueError

/-- models_asa.py:1287-1306 `ASAAclLine.__init__`. -/
def aclLine (t : Str) : Except Err (List (Str × Option Str)) := do
  match ← verboseDict reAclObject t with
  | some d => .ok d
  | none => .error .valueError

/-- The constructors: only those of names and access lists raise. -/
def construct (t : Str) : Cls → Except Err Unit
  | .name => do let _ ← nameLine t; .ok ()
  | .acl => do let _ ← aclLine t; .ok ()
  | _ => .ok ()

/-- ciscoconfparse.py:6148-6156: the loop. -/
def firstCls (t : Str) : List Cls → Except Err (Option Cls)
  | [] => .ok none
  | c :: cs => do
    if ← isObjectFor t c then
      construct t c
      .ok (some c)
    else firstCls t cs

/-- ciscoconfparse.py:6090-6166 `config_line_factory(line=t, syntax="asa")`.  (The default,
IOSCfgLine, is not reached: ASACfgLine accepts every line.) -/
def lineFactory (t : Str) : Except Err Cls :=
  match firstCls t classes with
  | .ok (some c) => .ok c
  | .ok none => .ok .cfg
  | .error .valueError => .error .valueError
  | .error _ => .ok .cfg

/-- ciscoconfparse.py:615-790,5757-5772 `CiscoConfParse(lines, factory=True, syntax="asa")`. -/
def parseFactory (o : Opts) (lines : List Str) : Except Err (List Cls × Parsed) := do
  let o' := { o with factory := true, syn := .asa }
  let cs ← (preFilter o' lines).mapM lineFactory
  let P ← parse o' lines
  .ok (cs, P)

/-! ## Network object groups -/

/-- models_asa.py:655-661 `_RE_NETOBJECT`. -/
def reNetObject : Str := chars! r"(?:                         # Non-capturing parenthesis
 (^\s*network-object\s+host\s+(?P<host>\S+))
|(^\s*network-object\s+(?P<network>\S+)\s+(?P<netmask>\d+\.\d+\.\d+\.\d+))
|(^\s*group-object\s+(?P<groupobject>\S+))
)                                                   # Close non-capture parens
"

/-- What a line of a group says. -/
inductive Member where
  | host (h : Str) | net (n m : Str) | group (g : Str) | other
  deriving DecidableEq, Repr

/-- models_asa.py:707-725: the line is taken apart. -/
def member (t : Str) : Except Err Member := do
  let d := (← verboseDict reNetObject t).getD []
  let host := if entry d "netmask" = some "255.255.255.255".toList then
      (match entry d "network" with | some [] => none | o => o) else truthy d "host"
  match host with
  | some h => .ok (.host h)
  | none =>
    match truthy d "network" with
    | some n => .ok (.net n ((entry d "netmask").getD "None".toList))
    | none =>
      match truthy d "groupobject" with
      | some g => .ok (.group g)
      | none => .ok .other

/-- models_asa.py:671-673 `name`, of a network object group. -/
def groupName (t : Str) : Except Err Str := matchTyped t "^object-group\\s+network\\s+(\\S+)" 1 toStr []

/-- `names.get(k, k)`. -/
def translate (d : List (Str × Str)) (k : Str) : Str := (d.lookup k).getD k

/-- models_asa.py:704-746: the loop over the children; `self` is the name of the group, and
`rec` gives `network_strings` of another object. -/
def members (P : Parsed) (self : Str) (d : List (Str × Str)) (rec : Nat → Except Err (List Str)) :
    List Nat → Except Err (List Str)
  | [] => .ok []
  | c :: cs => do
    let r ← (match ← member (P.h c).text with
      | .host h => .ok [translate d h]
      | .net n m => .ok [translate d n ++ '/' :: m]
      | .group g =>
        if g = self then .error .valueError
        else do
          match (← objectGroupNetwork .asa P).lookup g with
          | none => .error .valueError
          | some j => rec j
      | .other => if isInfix "description ".toList (P.h c).text then .ok [] else .error .notImplemented)
    let rs ← members P self d rec cs
    .ok (r ++ rs)

/-- models_asa.py:699-746 `network_strings` of object `i`.  `limit` is the number of nested calls
that Python's stack has room for; without room, RecursionError.  An object of another class
has no such attribute (ccp_abc.py:136-143). -/
def networkStrings (P : Parsed) (cs : List Cls) : (limit : Nat) → Nat → Except Err (List Str)
  | 0, _ => .error .recursionError
  | n + 1, i =>
    if cs.getD i .cfg = .objGroupNetwork then do
      let d ← names .asa P
      let self ← groupName (P.h i).text
      members P self d (networkStrings P cs n) (P.h i).children
    else .error .attributeError

/-- models_asa.py:692-695 `network_count`. -/
def networkCount (P : Parsed) (cs : List Cls) (limit i : Nat) : Except Err Nat := do
  .ok (← networkStrings P cs limit i).length

/-- models_asa.py:757-764: the loop of `networks`; `k` is `_network_cache`. -/
def networksLoop : List Str → List (Str × IP.V4) → Except Err (List IP.V4 × List (Str × IP.V4))
  | [], k => .ok ([], k)
  | s :: ss, k =>
    match k.lookup s with
    | some v => do
      let q ← networksLoop ss k
      .ok (v :: q.1, q.2)
    | none => do
      let v ← IP.V4.ofStr s
      let q ← networksLoop ss (put k s v)
      .ok (v :: q.1, q.2)

/-- models_asa.py:750-766 `networks`: the objects, and the cache afterwards.  (After an exception,
the cache keeps what was put into it; `networksCache` gives it.) -/
def networks (P : Parsed) (cs : List Cls) (limit i : Nat) (k : List (Str × IP.V4)) :
    Except Err (List IP.V4 × List (Str × IP.V4)) := do
  networksLoop (← networkStrings P cs limit i) k

/-- models_asa.py:757-764: the cache after the loop, however it ends. -/
def networksCache : List Str → List (Str × IP.V4) → List (Str × IP.V4)
  | [], k => k
  | s :: ss, k =>
    match k.lookup s with
    | some _ => networksCache ss k
    | none =>
      match IP.V4.ofStr s with
      | .ok v => networksCache ss (put k s v)
      | .error _ => k

/-! ## Service object groups -/

/-- models_asa.py:772-781 `_RE_PORTOBJECT`. -/
def rePortObject : Str := chars! r"(?:                            # Non-capturing parentesis
 # service-object udp destination eq dns
 (^\s*service-object\s+(?P<protocol>tcp|udp|tcp-udp)\s+(?P<src_dst>\S+)\s+(?P<s_port>\S+))
|(^\s*port-object\s+(?P<operator>eq|range)\s+(?P<p_port>\S.+))
|(^\s*group-object\s+(?P<groupobject>\S+))
)                                                   # Close non-capture parens
"

/-- An `L4Object`: its protocol and its ports. -/
abbrev L4 := Str × List Int

/-- `L4Object(protocol=pr, port_spec=spec, syntax="asa")`. -/
def l4 (pr spec : Str) : Except Err L4 := do .ok (pr, ← Misc.l4object pr spec "asa".toList)

/-- models_asa.py:843-853, 860-874: one object, or two for `tcp-udp`. -/
def l4s (pr spec : Str) : Except Err (List L4) :=
  if pr = "tcp-udp".toList then do
    let a ← l4 "tcp".toList spec
    let b ← l4 "udp".toList spec
    .ok [a, b]
  else do
    let a ← l4 pr spec
    .ok [a]

/-- models_asa.py:830-895: what one child contributes; `ty` is `protocol_type`.  For a
`group-object` line, line 878 reads an attribute that `ConfigList` does not have. -/
def portsOf (ty t : Str) : Except Err (List L4) := do
  let d := (← verboseDict rePortObject t).getD []
  match truthy d "protocol" with
  | some pr => l4s pr ((entry d "s_port").getD [])
  | none =>
    match truthy d "operator" with
    | some op => l4s ty (op ++ ' ' :: (entry d "p_port").getD [])
    | none =>
      match truthy d "groupobject" with
      | some _ => .error .attributeError
      | none => if isInfix "description ".toList t then .ok [] else .error .notImplemented

/-- models_asa.py:791-796 `protocol_type`. -/
def protocolType (t : Str) : Except Err Str := do
  .ok (strip (← matchTyped t "^object-group\\s+service\\s+\\S+(\\s+.+)*$" 1 toStr []))

/-- models_asa.py:797-799 `name`, of a service object group. -/
def serviceName (t : Str) : Except Err Str := matchTyped t "^object-group\\s+service\\s+(\\S+)" 1 toStr []

/-- models_asa.py:804-807 `L4Objects_are_directional`. -/
def directional (t : Str) : Except Err Bool := do .ok ((← protocolType t).isEmpty)

/-- models_asa.py:824-896 `ports`, of a service object group. -/
def ports (P : Parsed) (i : Nat) : Except Err (List L4) := do
  let ty ← protocolType (P.h i).text
  let ls ← (P.h i).children.mapM (fun c => portsOf ty (P.h c).text)
  .ok ls.flatten

/-- models_asa.py:967-969 `hostname`. -/
def hostname (t : Str) : Except Err Str := matchTyped t "^hostname\\s+(\\S+)" 1 toStr []

end Asa

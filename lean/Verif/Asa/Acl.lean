import Verif.Asa.Model

/-! # The attributes of ASA access list lines -/

namespace Asa

open Py Re Cisco

/-- protocol_values.py:30-50 `ASA_IP_PROTOCOLS`. -/
def asaIpProtocols : List (Str × Int) :=
  [("ah".toList, 51), ("eigrp".toList, 88), ("esp".toList, 50), ("gre".toList, 47), ("icmp".toList, 1), ("icmp6".toList, 58),
    ("igmp".toList, 2), ("igrp".toList, 9), ("ip".toList, 0), ("ipinip".toList, 4), ("ipsec".toList, 50), ("nos".toList, 94),
    ("ospf".toList, 89), ("pcp".toList, 108), ("pim".toList, 103), ("pptp".toList, 47), ("snp".toList, 109), ("tcp".toList, 6),
    ("udp".toList, 17)]

/-- `d[a] or d[b] or ..`: the first that counts as true, else the last. -/
def pyOr (d : List (Str × Option Str)) : List String → Option Str
  | [] => none
  | [k] => entry d k
  | k :: ks =>
    match truthy d k with
    | some v => some v
    | none => pyOr d ks

/-- The value counts as true. -/
def isTrue : Option Str → Bool
  | none => false
  | some [] => false
  | some _ => true

/-- models_asa.py:1316-1349 `ASAAclLine.src_addr_method`.  (The entry that line 1344 adds for a
standard list is not modelled: nothing reads it.) -/
def srcMethod (d : List (Str × Option Str)) : Except Err Str :=
  if isTrue (entry d "action0") && entry d "action0" == some "remark".toList then .ok []
  else if isTrue (pyOr d ["src_networkobject1", "src_networkobject2", "src_networkobject4"]) then .ok "object-group".toList
  else if isTrue (pyOr d ["src_object1", "src_object2", "src_object4"]) then .ok "object".toList
  else if isTrue (pyOr d ["src_network1a", "src_network2a", "src_network2b", "src_network2c", "src_network4a", "src_network4b",
      "src_network4c"]) then .ok "network".toList
  else if isTrue (entry d "acl_name3") then .ok "network".toList
  else .error .valueError

/-- models_asa.py:1351-1383 `ASAAclLine.dst_addr_method`. -/
def dstMethod (d : List (Str × Option Str)) : Except Err Str :=
  if isTrue (entry d "action0") && entry d "action0" == some "remark".toList then .ok []
  else if isTrue (pyOr d ["dst_networkobject1", "dst_networkobject2", "dst_networkobject4"]) then .ok "object-group".toList
  else if isTrue (pyOr d ["dst_object1", "dst_object2", "dst_object4"]) then .ok "object".toList
  else if isTrue (pyOr d ["dst_network1a", "dst_network2a", "dst_network2b", "dst_network2c", "dst_network4a", "dst_network4b",
      "dst_network4c"]) then .ok "network".toList
  else if isTrue (pyOr d ["dst_network3a", "dst_network3b", "dst_network3c"]) then .ok "network".toList
  else .error .valueError

/-- `int(ASA_IP_PROTOCOLS.get(p, p))`. -/
def protoNumber (p : Str) : Except Err Int :=
  match asaIpProtocols.lookup p with
  | some n => .ok n
  | none => pyInt p

/-- models_asa.py:1385-1417 `ASAAclLine.acl_protocol_dict`: the protocol and the protocol object. -/
def protocolDict (d : List (Str × Option Str)) : Except Err (Int × Option Str) :=
  if isTrue (entry d "remark") then .ok (-1, some [])
  else if isTrue (pyOr d ["protocol1", "protocol2", "protocol4"]) then
    match pyOr d ["protocol1", "protocol2", "protocol4"] with
    | some p => do .ok (← protoNumber p, some [])
    | none => .error .typeError
  else if isTrue (entry d "acl_name3") then do .ok (← protoNumber "ip".toList, some [])
  else if isTrue (pyOr d ["service_object1", "service_object2"]) then .ok (65535, pyOr d ["service_object1", "service_object2"])
  else .error .valueError

/-- What `result_dict` has. -/
structure AclResult where
  ipProtocol : Int
  ipProtocolObject : Option Str
  aclName : Option Str
  action : Option Str
  remark : Option Str
  srcAddrMethod : Str
  dstAddrMethod : Str
  disable : Bool
  timeRange : Option Str
  log : Bool
  logInterval : Int
  logLevel : Str
  deriving DecidableEq, Repr

/-- models_asa.py:1452-1467: the interval and the level. -/
def logEntries (d : List (Str × Option Str)) (log : Bool) : Except Err (Int × Str) :=
  if !log then .ok (-1, [])
  else do
    let level := match pyOr d ["loglevel1", "loglevel2", "loglevel4"] with
      | some (x :: s) => x :: s
      | _ => "informational".toList
    let interval ← (match pyOr d ["log_interval1", "log_interval2", "log_interval4"] with
      | some (x :: s) => pyInt (x :: s)
      | _ => .ok 300)
    .ok (interval, level)

/-- models_asa.py:1419-1469 `ASAAclLine.result_dict`, of the groups. -/
def aclResult (d : List (Str × Option Str)) : Except Err AclResult := do
  let p ← protocolDict d
  let src ← srcMethod d
  let dst ← dstMethod d
  let log := isTrue (pyOr d ["log1", "log2", "log4"])
  let l ← logEntries d log
  .ok ⟨p.1, p.2, pyOr d ["acl_name0", "acl_name1", "acl_name2", "acl_name3", "acl_name4"],
    pyOr d ["action0", "action1", "action2", "action3", "action4"], entry d "remark", src, dst,
    isTrue (pyOr d ["disable1", "disable2", "disable4"]), pyOr d ["time_range1", "time_range2", "time_range4"], log, l.1, l.2⟩

/-- `ASAAclLine(text=t).result_dict`. -/
def resultDict (t : Str) : Except Err AclResult := do
  aclResult (← aclLine t)

end Asa

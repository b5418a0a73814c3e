import Verif.Asa.Acl
import Verif.Asa.Spec

/-! # Specification of the ASA access list lines, in terms of their words -/

namespace Asa.Spec

open Py Cisco.Spec

/-- The words of an address, and what kind of address they are. -/
inductive Address : String → List Str → Prop
  | group {g : Str} : Address "object-group" ["object-group".toList, g]
  | object {o : Str} : Address "object" ["object".toList, o]
  | any : Address "network" ["any".toList]
  | any4 : Address "network" ["any4".toList]
  | host {h : Str} : Address "network" ["host".toList, h]
  | net {x m : Str} : DottedQuad m → Address "network" [x, m]

/-- The words of a protocol, its number, and the name of the group of services. -/
inductive Protocol : List Str → Int → Str → Prop
  | group {g : Str} : Protocol ["object-group".toList, g] 65535 g
  | name {p : String} {n : Nat} : (p, n) ∈ [("ip", 0), ("tcp", 6), ("udp", 17), ("ah", 51), ("eigrp", 88), ("esp", 50), ("gre", 47),
      ("igmp", 2), ("igrp", 9), ("ipinip", 4), ("ipsec", 50), ("ospf", 89), ("pcp", 108), ("pim", 103), ("pptp", 47), ("snp", 109)] →
      Protocol [p.toList] n []
  | number {p : Str} : Digits p → Protocol [p] (natVal p) []

/-- The words of a condition on ports. -/
inductive Ports : List Str → Prop
  | all : Ports []
  | cmp {o p : Str} : o ∈ wd ["eq", "neq", "lt", "gt"] → Ports [o, p]
  | range {a b : Str} : Ports ["range".toList, a, b]
  | group {g : Str} : Ports ["object-group".toList, g]

/-- The levels of messages. -/
def Level (l : Str) : Prop :=
  l ∈ wd ["alerts", "critical", "debugging", "emergencies", "errors", "informational", "notifications", "warnings",
    "0", "1", "2", "3", "4", "5", "6", "7"]

/-- The words that ask for messages; the interval and the level. -/
inductive Logs : List Str → Bool → Int → Str → Prop
  | off : Logs [] false (-1) []
  | plain : Logs (wd ["log"]) true 300 "informational".toList
  | level {l : Str} : Level l → Logs ["log".toList, l] true 300 l
  | interval {i : Str} : Digits i → Logs ["log".toList, "interval".toList, i] true (natVal i) "informational".toList
  | both {l i : Str} : Level l → Digits i → Logs ["log".toList, l, "interval".toList, i] true (natVal i) l

inductive Disabled : List Str → Bool → Prop
  | no : Disabled [] false
  | yes : Disabled (wd ["disable"]) true

/-- The last words: the name of the time range. -/
inductive When : List Str → Option Str → Prop
  | always : When [] none
  | never : When (wd ["inactive"]) none
  | range {x : Str} : When ["time-range".toList, x] (some x)

/-- The first words of a line of an access list. -/
def firstWords (name : Str) (kind : String) (action : Str) : List Str := ["access-list".toList, name, kind.toList, action]

/-- `permit` or `deny`. -/
def Action (a : Str) : Prop := a ∈ wd ["permit", "deny"]

/-- The words of a line of an extended access list that is not for ICMP, and what it says. -/
def Extended (ws : List Str) (r : AclResult) : Prop :=
  ∃ name action pw src sw pw1 dst dw pw2 lw xw tw obj,
    ws = firstWords name "extended" action ++ pw ++ sw ++ pw1 ++ dw ++ pw2 ++ lw ++ xw ++ tw ∧
    Action action ∧ Protocol pw r.ipProtocol obj ∧ Address src sw ∧ Ports pw1 ∧ Address dst dw ∧ Ports pw2 ∧
    Logs lw r.log r.logInterval r.logLevel ∧ Disabled xw r.disable ∧ When tw r.timeRange ∧
    r.ipProtocolObject = some obj ∧ r.srcAddrMethod = src.toList ∧ r.dstAddrMethod = dst.toList ∧
    r.aclName = some name ∧ r.action = some action ∧ r.remark = none

/-- The last words of a line of a standard access list.  (What follows an address is not looked at.) -/
inductive Target : List Str → Prop
  | any {u : Str} {more : List Str} : Target (("any".toList ++ u) :: more)
  | host {h : Str} {more : List Str} : Target ("host".toList :: h :: more)
  | net {x m u : Str} {more : List Str} : DottedQuad m → Target (x :: (m ++ u) :: more)

/-- The words of a line of a standard access list, and what it says. -/
def Standard (ws : List Str) (r : AclResult) : Prop :=
  ∃ name action more, ws = firstWords name "standard" action ++ more ∧ Action action ∧ Target more ∧
    r = ⟨0, some [], some name, some action, none, "network".toList, "network".toList, false, none, false, -1, []⟩

/-- A remark: the text after the word and the blanks behind it. -/
def Remark (t : Str) (r : AclResult) : Prop :=
  ∃ pre x y text nl name, t = pre ++ x :: y :: text ++ nl ∧ (nl = [] ∨ nl = ['\n']) ∧ '\n' ∉ y :: text ∧ isSpace x = false ∧
    (∃ p b, pre = p ++ [b] ∧ isSpace b = true) ∧ splitWs pre = wd ["access-list"] ++ name :: wd ["remark"] ∧
    r = ⟨-1, some [], some name, some "remark".toList, some (x :: y :: text), [], [], false, none, false, -1, []⟩

/-- The destination of a line for ICMP.  (What follows an address is not looked at.) -/
inductive IcmpTarget : String → List Str → Prop
  | group {g : Str} {more : List Str} : IcmpTarget "object-group" ("object-group".toList :: g :: more)
  | object {o : Str} {more : List Str} : IcmpTarget "object" ("object".toList :: o :: more)
  | other {ws : List Str} : Target ws → IcmpTarget "network" ws

/-- The words of a line of an extended access list for ICMP, and what it says, except for what
follows the addresses. -/
def Icmp (ws : List Str) (r : AclResult) : Prop :=
  ∃ name action src sw dst dw, ws = firstWords name "extended" action ++ wd ["icmp"] ++ sw ++ dw ∧
    Action action ∧ Address src sw ∧ IcmpTarget dst dw ∧
    r.ipProtocol = 1 ∧ r.ipProtocolObject = some [] ∧ r.srcAddrMethod = src.toList ∧ r.dstAddrMethod = dst.toList ∧
    r.aclName = some name ∧ r.action = some action ∧ r.remark = none ∧
    (r.log = false ∧ r.logInterval = -1 ∧ r.logLevel = [] ∨ r.log = true ∧ 0 ≤ r.logInterval ∧ Level r.logLevel)

/-- The words of an address that cannot be read in two ways. -/
inductive Plain : String → List Str → Prop
  | group {g : Str} : Plain "object-group" ["object-group".toList, g]
  | object {o : Str} : Plain "object" ["object".toList, o]
  | any : Plain "network" ["any".toList]
  | any4 : Plain "network" ["any4".toList]
  | host {h : Str} : Plain "network" ["host".toList, h]
  | net {x m : Str} : DottedQuad m → ¬ "any".toList <+: x → x ∉ wd ["host", "object", "object-group"] → Plain "network" [x, m]

/-- The words for the type of an ICMP message. -/
inductive IcmpType : List Str → Prop
  | all : IcmpType []
  | name {x : Str} : x ∈ wd ["alternate-address", "conversion-error", "echo-reply", "echo", "information-reply", "information-request",
      "mask-reply", "mask-request", "mobile-redirect", "parameter-problem", "redirect", "router-advertisement", "router-solicitation",
      "source-quench", "time-exceeded", "timestamp-reply", "timestamp-request", "traceroute", "unreachable"] → IcmpType [x]
  | number {x : Str} : Digits x → IcmpType [x]

/-- The words of a line for ICMP to the destination `dw`, and what it says. -/
def IcmpRule (ws dw : List Str) (r : AclResult) : Prop :=
  ∃ name action src sw dst ty lw xw tw,
    ws = firstWords name "extended" action ++ wd ["icmp"] ++ sw ++ dw ++ ty ++ lw ++ xw ++ tw ∧
    Action action ∧ Plain src sw ∧ Plain dst dw ∧ IcmpType ty ∧
    Logs lw r.log r.logInterval r.logLevel ∧ Disabled xw r.disable ∧ When tw r.timeRange ∧
    r.ipProtocol = 1 ∧ r.ipProtocolObject = some [] ∧ r.srcAddrMethod = src.toList ∧ r.dstAddrMethod = dst.toList ∧
    r.aclName = some name ∧ r.action = some action ∧ r.remark = none

/-- What the line says. -/
def Reads (t : Str) (r : AclResult) : Prop :=
  Remark t r ∨ Extended (splitWs t) r ∨ Standard (splitWs t) r ∨ Icmp (splitWs t) r

end Asa.Spec

import Verif.Py

/-! # Models of `CiscoPassword.decrypt` and `L4Object` -/

namespace Misc

open Py

/-! ## CiscoPassword -/

/-- ciscoconfparse.py:6009-6063 `xlat`. -/
def xlat : List Nat := [
  0x64, 0x73, 0x66, 0x64, 0x3B, 0x6B, 0x66, 0x6F, 0x41, 0x2C, 0x2E, 0x69, 0x79, 0x65,
  0x77, 0x72, 0x6B, 0x6C, 0x64, 0x4A, 0x4B, 0x44, 0x48, 0x53, 0x55, 0x42, 0x73, 0x67,
  0x76, 0x63, 0x61, 0x36, 0x39, 0x38, 0x33, 0x34, 0x6E, 0x63, 0x78, 0x76, 0x39, 0x38,
  0x37, 0x33, 0x32, 0x35, 0x34, 0x6B, 0x3B, 0x66, 0x67, 0x38, 0x37]

/-- Value of a hex digit. -/
def hexDigit (c : Char) : Option Nat :=
  if isDigit c then some (c.toNat - 48)
  else if 97 ≤ c.toNat && c.toNat ≤ 102 then some (c.toNat - 87)
  else if 65 ≤ c.toNat && c.toNat ≤ 70 then some (c.toNat - 55)
  else none

/-- `int(xx, 16)` for two characters.  Simplification: sign, blank and underscore
forms that `int` would also accept are treated as errors. -/
def hexPair (a b : Char) : Except Err Nat :=
  match hexDigit a, hexDigit b with
  | some x, some y => .ok (16 * x + y)
  | _, _ => .error .valueError

/-- ciscoconfparse.py:6077-6083: the loop over the pairs of `e`; an odd last
character has no match object. -/
def decLoop : Int → Str → Except Err Str
  | _, [] => .ok []
  | _, [_] => .error .attributeError
  | s, a :: b :: rest => do
    let magic ← hexPair a b
    let newchar := Char.ofNat (magic ^^^ xlat.getD (s % 53).toNat 0)
    let dp ← decLoop (s + 1) rest
    .ok (newchar :: dp)

/-- ciscoconfparse.py:6004-6086 `decrypt(ep)`.  The regex is `^(..)(.+)`, where `.`
does not match a newline; with no match, `result.group` raises. -/
def decrypt (ep : Str) : Except Err Str :=
  if ep.length % 2 = 0 then
    match ep with
    | c1 :: c2 :: rest =>
      let e := rest.takeWhile (· != '\n')
      if c1 = '\n' ∨ c2 = '\n' ∨ e = [] then .error .attributeError
      else
        match pyInt [c1, c2] with
        | .error _ => .ok []
        | .ok s => decLoop s e
    | _ => .error .attributeError
  else .ok []

/-! ## L4Object -/

/-- protocol_values.py:53-106 `ASA_TCP_PORTS`. -/
def asaTcpPorts : List (Str × Int) := [
  ("aol".toList, 5190),
  ("bgp".toList, 179),
  ("chargen".toList, 19),
  ("cifs".toList, 3020),
  ("citrix-ica".toList, 1494),
  ("cmd".toList, 514),
  ("ctiqbe".toList, 2748),
  ("daytime".toList, 13),
  ("discard".toList, 9),
  ("domain".toList, 53),
  ("echo".toList, 7),
  ("exec".toList, 512),
  ("finger".toList, 79),
  ("ftp".toList, 20),
  ("ftp-data".toList, 21),
  ("gopher".toList, 70),
  ("h323".toList, 1720),
  ("hostname".toList, 101),
  ("http".toList, 80),
  ("https".toList, 443),
  ("ident".toList, 113),
  ("imap4".toList, 143),
  ("irc".toList, 194),
  ("kerberos".toList, 88),
  ("klogin".toList, 543),
  ("kshell".toList, 544),
  ("ldap".toList, 389),
  ("ldaps".toList, 636),
  ("login".toList, 513),
  ("lotusnotes".toList, 1352),
  ("lpd".toList, 515),
  ("netbios-ssn".toList, 139),
  ("nfs".toList, 2049),
  ("nntp".toList, 119),
  ("pcanywhere-data".toList, 5631),
  ("pim-auto-rp".toList, 496),
  ("pop2".toList, 109),
  ("pop3".toList, 110),
  ("pptp".toList, 1723),
  ("rsh".toList, 514),
  ("rtsp".toList, 554),
  ("sip".toList, 5060),
  ("smtp".toList, 25),
  ("sqlnet".toList, 1521),
  ("ssh".toList, 22),
  ("sunrpc".toList, 111),
  ("tacacs".toList, 49),
  ("talk".toList, 517),
  ("telnet".toList, 23),
  ("uucp".toList, 540),
  ("whois".toList, 43),
  ("www".toList, 80)]

/-- protocol_values.py:108-145 `ASA_UDP_PORTS`. -/
def asaUdpPorts : List (Str × Int) := [
  ("biff".toList, 512),
  ("bootpc".toList, 68),
  ("bootps".toList, 67),
  ("cifs".toList, 3020),
  ("discard".toList, 9),
  ("dnsix".toList, 90),
  ("domain".toList, 53),
  ("echo".toList, 7),
  ("http".toList, 80),
  ("isakmp".toList, 500),
  ("kerberos".toList, 88),
  ("mobile-ip".toList, 434),
  ("nameserver".toList, 42),
  ("netbios-dgm".toList, 138),
  ("netbios-ns".toList, 137),
  ("nfs".toList, 2049),
  ("ntp".toList, 123),
  ("pcanywhere-status".toList, 5632),
  ("pim-auto-rp".toList, 496),
  ("radius".toList, 1812),
  ("radius-acct".toList, 1813),
  ("rip".toList, 520),
  ("rtsp".toList, 5004),
  ("secureid-udp".toList, 5500),
  ("sip".toList, 5060),
  ("snmp".toList, 161),
  ("snmptrap".toList, 162),
  ("sunrpc".toList, 111),
  ("syslog".toList, 514),
  ("tacacs".toList, 49),
  ("talk".toList, 517),
  ("tftp".toList, 69),
  ("time".toList, 37),
  ("who".toList, 513),
  ("www".toList, 80),
  ("xdmcp".toList, 177)]

/-- `ports.get(tok, tok)` followed by `int()`. -/
def resolve (ports : List (Str × Int)) (tok : Str) : Except Err Int :=
  match ports.lookup tok with
  | some n => .ok n
  | none => pyInt tok

/-- `range(a, b)` (already sorted). -/
def portRange (a b : Int) : List Int := (List.range (b - a).toNat).map (fun i => a + (i : Nat))

/-- `re.split(r"\s+", s)` on a stripped string. -/
def words (s : Str) : List Str := match splitWs s with
  | [] => [[]]
  | l => l

/-- Last element. -/
def lastWord (s : Str) : Str := (words s).getLast?.getD []

/-- ccp_util.py:2470-2507: the port list of a specification. -/
def portList (ports : List (Str × Int)) (spec : Str) : Except Err (List Int) :=
  let p := strip spec
  if isInfix "eq ".toList p then do
    let n ← resolve ports (lastWord p)
    if 1 ≤ n ∧ n ≤ 65535 then .ok [n] else .error .requirement
  else if p ≠ [] ∧ p.all (fun c => !isSpace c) = true then do
    let n ← resolve ports p
    if 1 ≤ n ∧ n ≤ 65535 then .ok [n] else .error .requirement
  else if isInfix "range ".toList p then
    match (words p).tail with
    | a :: b :: _ => do
      let lo ← resolve ports a
      let hi ← resolve ports b
      if lo > hi then .error .requirement else .ok (portRange lo (hi + 1))
    | _ => .error .indexError
  else if isInfix "lt ".toList p then do
    let hi ← resolve ports (lastWord p)
    if 2 ≤ hi ∧ hi ≤ 65535 then .ok (portRange 1 hi) else .error .requirement
  else if isInfix "gt ".toList p then do
    let lo ← resolve ports (lastWord p)
    if 0 < lo ∧ lo < 65535 then .ok (portRange (lo + 1) 65536) else .error .requirement
  else if isInfix "neq ".toList p then do
    let n ← pyInt (lastWord p)
    if 1 ≤ n ∧ n < 65536 then .ok ((portRange 1 65536).filter (fun x => x != n))
    else .error .keyError
  else .error .notImplemented

/-- ccp_util.py:2448-2507 `L4Object(protocol, port_spec, syntax)`. -/
def l4object (protocol spec syn : Str) : Except Err (List Int) :=
  if syn = "asa".toList then
    if protocol = "tcp".toList then portList asaTcpPorts spec
    else if protocol = "udp".toList then portList asaUdpPorts spec
    else .error .notImplemented
  else .error .notImplemented

end Misc

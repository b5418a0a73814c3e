import Verif.Py

/-! # Specifications for the password, port and command-word properties -/

namespace Misc.Spec

open Py

/-- The published type-7 key. -/
def key : Str := "dsfd;kfoA,.iyewrkldJKDHSUBsgvca69834ncxv9873254k;fg87".toList

/-- Hexadecimal digit, upper case as IOS prints it. -/
def hexChar (n : Nat) : Char := "0123456789ABCDEF".toList.getD n '0'

/-- A byte as two hex digits. -/
def hexByte (b : Nat) : Str := [hexChar (b / 16), hexChar (b % 16)]

/-- The bytes of a type-7 encoding: character `i` is xored with key byte
`salt + i` (cyclically). -/
def cipher : Nat → Str → Str
  | _, [] => []
  | pos, c :: cs => hexByte (c.toNat ^^^ (key.getD (pos % 53) '0').toNat) ++ cipher (pos + 1) cs

/-- The type-7 encoding: the salt as two decimal digits, then the bytes. -/
def type7 (salt : Nat) (pw : Str) : Str :=
  [digitChar (salt / 10), digitChar (salt % 10)] ++ cipher salt pw

/-- `l` is the increasing list of the ports that satisfy `P`. -/
def PortsOf (l : List Int) (P : Int → Prop) : Prop :=
  l.Pairwise (· < ·) ∧ ∀ p, p ∈ l ↔ (1 ≤ p ∧ p ≤ 65535 ∧ P p)

/-- Well-known TCP ports (IANA service names; `ident` is registered as `auth`). -/
def ianaTcp : List (String × Int) := [("bgp", 179), ("chargen", 19), ("daytime", 13), ("discard", 9),
  ("domain", 53), ("echo", 7), ("exec", 512), ("finger", 79), ("gopher", 70), ("hostname", 101),
  ("http", 80), ("https", 443), ("ident", 113), ("irc", 194), ("kerberos", 88), ("klogin", 543),
  ("kshell", 544), ("ldap", 389), ("ldaps", 636), ("login", 513), ("netbios-ssn", 139), ("nfs", 2049),
  ("nntp", 119), ("pop2", 109), ("pop3", 110), ("pptp", 1723), ("rtsp", 554), ("sip", 5060),
  ("smtp", 25), ("ssh", 22), ("sunrpc", 111), ("tacacs", 49), ("talk", 517), ("telnet", 23),
  ("uucp", 540), ("whois", 43), ("www", 80)]

/-- Well-known UDP ports (IANA service names; `rip` is registered as `router`). -/
def ianaUdp : List (String × Int) := [("bootpc", 68), ("bootps", 67), ("discard", 9), ("domain", 53),
  ("echo", 7), ("isakmp", 500), ("kerberos", 88), ("nameserver", 42), ("netbios-dgm", 138),
  ("netbios-ns", 137), ("nfs", 2049), ("ntp", 123), ("radius", 1812), ("radius-acct", 1813),
  ("rip", 520), ("sip", 5060), ("snmp", 161), ("snmptrap", 162), ("sunrpc", 111), ("syslog", 514),
  ("tacacs", 49), ("talk", 517), ("tftp", 69), ("time", 37), ("who", 513), ("www", 80), ("xdmcp", 177)]

/-- The word "no" in any capitalisation. -/
def SaysNo (w : Str) : Prop := ∃ a b, w = [a, b] ∧ (a = 'n' ∨ a = 'N') ∧ (b = 'o' ∨ b = 'O')

/-- The first word of the text says "no". -/
def NoCommand (t : Str) : Prop :=
  ∃ w rest, SaysNo w ∧ t = w ++ rest ∧ ∀ c, rest.head? = some c → isSpace c = true

/-- `word` repeated in front of `body`, with the given separators. -/
def repeated (word : Str) (seps : List Str) (body : Str) : Str :=
  (seps.map (word ++ ·)).flatten ++ body

/-- A separator between words on one line. -/
def IsSep (s : Str) : Prop := s ≠ [] ∧ ∀ c ∈ s, isSpace c = true ∧ c ≠ '\n'

end Misc.Spec

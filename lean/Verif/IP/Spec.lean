import Verif.IP.Model

/-!
# Specification vocabulary for addresses

Independent of the code: what a network is, how digits are read, and which
objects a program can get hold of.
-/

namespace IP

open Py

/-- The addresses of the network of `a` with prefix length `p` (`W` address bits):
those that agree with `a` on the first `p` bits. -/
def InNet (W a p x : Nat) : Prop := x < 2 ^ W ∧ x / 2 ^ (W - p) = a / 2 ^ (W - p)

/-- Value of a digit character, upper bound base 16. -/
def hexVal (c : Char) : Nat := if c.toNat < 58 then c.toNat - 48 else c.toNat - 87

/-- Value of a digit string in base `b`. -/
def valBase (b : Nat) (s : Str) : Nat := s.foldl (fun a c => b * a + hexVal c) 0

/-- Address whose octets are given by four digit strings in base `b`. -/
def addrOfOctets (b : Nat) (l : List Str) : Nat := l.foldl (fun a s => 256 * a + valBase b s) 0

/-- The intended order: network, then prefix length, then host address. -/
def Before (a b : V4) : Prop :=
  a.net < b.net ∨ (a.net = b.net ∧ (a.plen < b.plen ∨ (a.plen = b.plen ∧ a.ip < b.ip)))

/-- The same for IPv6. -/
def Before6 (a b : V6) : Prop :=
  a.net < b.net ∨ (a.net = b.net ∧ (a.plen < b.plen ∨ (a.plen = b.plen ∧ a.ip < b.ip)))

/-- `sorted(routes, reverse=True)`: stable, never an element before a greater one. -/
def sortedReverse (routes : List V4) : List V4 := sortBy (fun a b => !(a.lt b)) routes

/-- Every `IPv4Obj` a program can obtain through the public API. -/
inductive V4.Reachable : V4 → Prop where
  | ofStr {s o} : V4.ofStr s = .ok o → Reachable o
  | ofInt {n o} : V4.ofInt n = .ok o → Reachable o
  | copy {o} : Reachable o → Reachable o.copy
  | setPrefixlen {o n o'} : Reachable o → o.setPrefixlen n = .ok o' → Reachable o'
  | add {o n o'} : Reachable o → o.add n = .ok o' → Reachable o'
  | sub {o n o'} : Reachable o → o.sub n = .ok o' → Reachable o'
  | setNetworkOffset {o k o'} : Reachable o → o.setNetworkOffset k = .ok o' → Reachable o'

/-- The same, for programs that never assign a negative `network_offset`. -/
inductive V4.Regular : V4 → Prop where
  | ofStr {s o} : V4.ofStr s = .ok o → Regular o
  | ofInt {n o} : V4.ofInt n = .ok o → Regular o
  | copy {o} : Regular o → Regular o.copy
  | setPrefixlen {o n o'} : Regular o → o.setPrefixlen n = .ok o' → Regular o'
  | add {o n o'} : Regular o → o.add n = .ok o' → Regular o'
  | sub {o n o'} : Regular o → o.sub n = .ok o' → Regular o'
  | setNetworkOffset {o k o'} : Regular o → 0 ≤ k → o.setNetworkOffset k = .ok o' → Regular o'

/-- `IPv6Obj`s; the string constructor is represented by `make` on any address and
prefix length. -/
inductive V6.Regular : V6 → Prop where
  | make {ip p} : ip < 2 ^ 128 → p ≤ 128 → Regular (V6.make ip p)
  | ofInt {n o} : V6.ofInt n = .ok o → Regular o
  | copy {o} : Regular o → Regular o.copy
  | setPrefixlen {o n o'} : Regular o → o.setPrefixlen n = .ok o' → Regular o'
  | add {o n o'} : Regular o → o.add n = .ok o' → Regular o'
  | sub {o n o'} : Regular o → o.sub n = .ok o' → Regular o'
  | setNetworkOffset {o k o'} : Regular o → 0 ≤ k → o.setNetworkOffset k = .ok o' → Regular o'

end IP

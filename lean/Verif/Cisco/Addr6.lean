import Verif.Cisco.Model
import Verif.Cisco.Access
import Verif.IP.Text6

/-! # IPv6 addresses of IOS interfaces -/

namespace Cisco

open Py Conf Query

/-- models_cisco.py:1404 -/
def reAddr6 : String := "^\\s+ipv6\\s+address\\s+(?P<v6addr>\\S+?)\\/(?P<v6masklength>\\d+)"

/-- models_cisco.py:1400-1416 `ipv6_addr_object`; none is the empty `IPv6Obj()`. -/
def ipv6AddrObject (P : Parsed) (i : Nat) : Except Err (Option IP.V6) := do
  let d ← iterDict P i reAddr6 [("v6addr".toList, .str), ("v6masklength".toList, .str)] (.str [])
  match d.lookup "v6addr".toList, d.lookup "v6masklength".toList with
  | some (.str a), some (.str m) =>
    if a = [] then .ok none
    else if a = "dhcp".toList then .ok none
    else if a = "negotiated".toList then .ok none
    else (IP.V6.ofStr (a ++ '/' :: m)).map some
  | _, _ => .error .keyError

/-- models_cisco.py:1764-1787 `ipv6_addr`. -/
def ipv6Addr (P : Parsed) (i : Nat) : Except Err Str := do
  let retval ← iterTyped P i "^\\s+ipv6\\s+address\\s+(?P<v6addr>[^\\/]+)" 1 toStr []
  let c1 ← iterTyped P i "^\\s+ipv6\\s+address\\s+(dhcp)\\s*$" 1 toStr []
  let c2 ← iterTyped P i "^\\s+ipv6\\s+address\\s+(autoconfig)\\s*$" 1 toStr []
  let c3 ← iterTyped P i "^\\s+ipv6\\s+address\\s+(negotiated)\\s*$" 1 toStr []
  if c1.map lowerChar = "dhcp".toList then .ok []
  else if c2.map lowerChar = "autoconfig".toList then .ok []
  else if c3.map lowerChar = "negotiated".toList then .ok []
  else .ok retval

/-- models_cisco.py:1792-1797 `ipv6_masklength`. -/
def ipv6Masklength (P : Parsed) (i : Nat) : Except Err Nat := do
  match ← ipv6AddrObject P i with
  | some o => .ok o.plen
  | none => .ok 0

end Cisco

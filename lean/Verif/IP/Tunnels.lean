import Verif.IP.Spec

/-! # C275: the IPv4 address in an IPv6 address, `sixtofour` and `teredo` -/

namespace IP

open Py

namespace Spec

/-- `ip` is a 6to4 address (2002::/16) of the IPv4 address `a`: 16 bits, the 32 bits of `a`, 80 bits. -/
def SixToFour (ip a : Nat) : Prop := a < 2 ^ 32 ∧ ∃ r < 2 ^ 80, ip = 0x2002 * 2 ^ 112 + a * 2 ^ 80 + r

/-- `ip` is a Teredo address (2001::/32) with the server `s`, and the client `c` in its last 32 bits,
each bit of it inverted. -/
def Teredo (ip s c : Nat) : Prop :=
  s < 2 ^ 32 ∧ c < 2 ^ 32 ∧ ∃ r < 2 ^ 32, ip = 0x20010000 * 2 ^ 96 + s * 2 ^ 64 + r * 2 ^ 32 + (2 ^ 32 - 1 - c)

end Spec

/-- The attributes of an `IPv6Address` and of an `IPv6Network` of the standard library. -/
inductive StdObj where
  | address (ip : Nat)
  | network (net plen : Nat)

/-- `ipaddress.IPv6Address.sixtofour`; `IPv6Network` has no such attribute. -/
def StdObj.sixtofour : StdObj → Except Err (Option Nat)
  | .address ip => .ok (if ip >>> 112 = 0x2002 then some ((ip >>> 80) % 2 ^ 32) else none)
  | .network _ _ => .error .attributeError

/-- `ipaddress.IPv6Address.teredo`: server and client; `IPv6Network` has no such attribute. -/
def StdObj.teredo : StdObj → Except Err (Option (Nat × Nat))
  | .address ip => .ok (if ip >>> 96 = 0x20010000 then some ((ip >>> 64) % 2 ^ 32, 2 ^ 32 - 1 - ip % 2 ^ 32) else none)
  | .network _ _ => .error .attributeError

/-- ccp_util.py:2428-2429 `sixtofour`: asks the network, not the address. -/
def V6.sixtofour (o : V6) : Except Err (Option Nat) := (StdObj.network o.net o.plen).sixtofour

/-- ccp_util.py:2423-2424 `teredo`: asks the network, not the address. -/
def V6.teredo (o : V6) : Except Err (Option (Nat × Nat)) := (StdObj.network o.net o.plen).teredo

/-- C275: the attributes of the address would be right: they give the IPv4 addresses in a 6to4 and in
a Teredo address, and none for any other address. -/
theorem C275_address_partial (ip : Nat) :
    (∃ r, (StdObj.address ip).sixtofour = .ok r ∧ ∀ a, r = some a ↔ Spec.SixToFour ip a) ∧
      ∃ r, (StdObj.address ip).teredo = .ok r ∧ ∀ s c, r = some (s, c) ↔ Spec.Teredo ip s c := by
  refine ⟨⟨_, rfl, fun a => ?_⟩, ⟨_, rfl, fun s c => ?_⟩⟩
  · rw [Spec.SixToFour, Nat.shiftRight_eq_div_pow, Nat.shiftRight_eq_div_pow]
    constructor
    · intro h
      split at h
      · cases h
        exact ⟨by omega, ip % 2 ^ 80, by omega, by omega⟩
      · cases h
    · rintro ⟨h1, r, h2, h3⟩
      rw [if_pos (by omega)]
      congr 1
      omega
  · rw [Spec.Teredo, Nat.shiftRight_eq_div_pow, Nat.shiftRight_eq_div_pow]
    constructor
    · intro h
      split at h
      · cases h
        exact ⟨by omega, by omega, ip / 2 ^ 32 % 2 ^ 32, by omega, by omega⟩
      · cases h
    · rintro ⟨h1, h2, r, h3, h4⟩
      rw [if_pos (by omega)]
      congr 2 <;> omega

/-- C275 fails: the object asks its network, which has neither attribute, so that both raise
AttributeError for every object, also for the 6to4 address of each IPv4 address. -/
theorem C275_object_fails :
    (∀ o : V6, o.sixtofour = .error .attributeError ∧ o.teredo = .error .attributeError) ∧
      ∀ a < 2 ^ 32, ∃ o : V6, o.Regular ∧ Spec.SixToFour o.ip a ∧ o.sixtofour ≠ .ok (some a) := by
  refine ⟨fun _ => ⟨rfl, rfl⟩, fun a ha => ?_⟩
  refine ⟨V6.make (0x2002 * 2 ^ 112 + a * 2 ^ 80 + 1) 48, .make (by omega) (by omega), ⟨ha, 1, by omega, rfl⟩, fun h => (by cases h)⟩

/- 2002:c000:201:: is the 6to4 address of 192.0.2.1. -/
example : Spec.SixToFour (0x2002c0000201 * 2 ^ 80) 0xc0000201 := ⟨by decide, 0, by decide, by decide⟩

/- 2001:0:4136:e378:8000:63bf:3fff:fdd2: server 65.54.227.120, client 192.0.2.45. -/
example : (StdObj.address 0x200100004136e378800063bf3ffffdd2).teredo = .ok (some (0x4136e378, 0xc000022d)) := by decide +kernel

end IP

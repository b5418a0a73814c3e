import Verif.Cisco.Route6
import Verif.Nxos.RouteProps

/-! # Static IPv6 routes of NXOS (C270) -/

namespace Nxos.Lines

open Py Conf Query Re Cisco Cisco.Spec IP

/-- models_nxos.py:2196-2204 `network_object` of an IPv6 route: None after any exception. -/
def routeNetworkObject6 (t : Str) : Except Err (Option IP.V6) := do
  match routeMasklen6 t with
  | .error _ => .ok none
  | .ok m =>
    match IP.V6.ofStr ((← routeNetwork t) ++ '/' :: intStr m) with
    | .ok o => .ok (some o)
    | .error _ => .ok none

theorem route6_compile : (compileL reIpv6Route { verbose := true }).toOption = some ⟨seqs (.bol :: route6LT), 44, route6Names.take 44⟩ := by
  decide +kernel

/-- C270: the attributes of a static IPv6 route of NXOS are what the command says, for every
combination of the optional parameters.  (What stands behind the tag is not read.) -/
theorem C270_route {R : Route6} (h : R.Ok) :
    routeMasklen6 R.line = .ok (R.len : Int) ∧
    routeNextHopInterface R.line = .ok (R.intf.getD []) ∧
    routeNextHopAddr R.line = .ok (R.addr.getD []) ∧
    routeAdminDistance R.line = .ok (natStr (R.distance.getD 1)) ∧
    routeTag R.line = .ok ((R.tag.map natStr).getD []) ∧
    routeName R.line = .error .notImplemented := by
  obtain ⟨c, hh, c1, c2, c14, c27, c15, c40, c41, c43, c44, -⟩ := route6_tag_hit R.line.length h
  have v6 : isV6 R.line = true := is_v6
  have hcomp : compileL reIpv6Route { verbose := true } = .ok ⟨seqs (.bol :: route6LT), 44, route6Names.take 44⟩ := by
    have := route6_compile
    cases h : compileL reIpv6Route { verbose := true } with
    | error e => rw [h] at this; cases this
    | ok p => rw [h] at this; cases this; rfl
  have hi : routeInfo R.line = .ok ((route6Names.take 44).map (fun q => (q.1, c.lookup q.2))) := by
    rw [routeInfo, v6, if_pos rfl, hcomp]
    simp only [search_hit hh]
    rfl
  have g : ∀ (key : String) (k : Nat), ((route6Names.take 44).map (fun q => (q.1, c.lookup q.2))).lookup key.toList =
      some (c.lookup k) → routeGet R.line key = .ok (c.lookup k) := by
    intro key k hk
    rw [routeGet, hi]
    show (match ((route6Names.take 44).map (fun q => (q.1, c.lookup q.2))).lookup key.toList with
      | some v => .ok v
      | none => .error .keyError : Except Err (Option Str)) = _
    rw [hk]
  have str : ∀ {key : String} {o : Option Str}, routeGet R.line key = .ok o → routeStr R.line key = .ok (o.getD []) := by
    intro key o h; rw [routeStr, h]; rfl
  have nn : ∀ m, (natStr m).isEmpty = false := by
    intro m
    have := natStr_ne_nil m
    cases hd : natStr m with
    | nil => exact absurd hd this
    | cons x w => rfl
  refine ⟨?_, str ((g "nh_intf" 27 rfl).trans (by rw [c27])), ?_, ?_, str ((g "tag" 44 rfl).trans (by rw [c44])), ?_⟩
  · rw [routeMasklen6, str ((g "masklength" 14 rfl).trans (by rw [c14]))]
    show pyInt (if (natStr R.len).isEmpty = true then "128".toList else natStr R.len) = _
    rw [nn, if_neg (by simp), pyInt_natStr]
  · rw [routeNextHopAddr, v6, if_pos rfl, str (g "nh_addr1" 15 rfl), str (g "nh_addr2" 28 rfl)]
    show (if ((c.lookup 15).getD []).isEmpty = true then Except.ok ((c.lookup 28).getD []) else Except.ok ((c.lookup 15).getD [])) = _
    rcases c15 with ⟨h1, h2⟩ | ⟨h1, h2⟩
    · rw [h1, h2]
      cases ha : R.addr with
      | none => rfl
      | some a =>
        obtain ⟨v, hv⟩ := h.addr a ha
        have := hv.ne_nil
        cases a with
        | nil => exact absurd rfl this
        | cons x w => rfl
    · rw [h1, h2]; rfl
  · rw [routeAdminDistance, (g "ad" 41 rfl).trans (by rw [c41])]
    cases R.distance with
    | none => show Except.ok "1".toList = _; decide +kernel
    | some d => rfl
  · rw [routeName, v6, if_pos rfl]

/-- C270: `network`, `network_object` and `nexthop_str` of a route without VRF. -/
theorem C270_network_partial {R : Route6} (h : R.Ok) (hv : R.vrf = none) :
    routeNetwork R.line = .ok R.pfx ∧
    (∀ n, Text6 R.pfx n → R.len ≤ 128 → ∃ o, routeNetworkObject6 R.line = .ok (some o) ∧ o.ip = n ∧ o.plen = R.len ∧
      o.net = n / 2 ^ (128 - R.len) * 2 ^ (128 - R.len)) ∧
    (128 < R.len → routeNetworkObject6 R.line = .ok none) ∧
    routeNexthopStr R.line = .ok ((R.intf.or R.addr).getD []) := by
  obtain ⟨h1, h2, h3, h4⟩ := C269_network_partial h hv
  have v6 : isV6 R.line = true := is_v6
  have e1 : routeNetwork R.line = Cisco.routeNetwork R.line := by
    simp only [routeNetwork, Cisco.routeNetwork, v6, if_true]
  have e2 : routeNexthopStr R.line = Cisco.routeNexthopStr R.line := by
    simp only [routeNexthopStr, Cisco.routeNexthopStr, v6, if_true]
  have e3 : routeNetworkObject6 R.line = Cisco.routeNetworkObject6 R.line := by
    rw [routeNetworkObject6, Cisco.routeNetworkObject6, (C270_route h).1, (C269_route h).2.1, e1]; rfl
  rw [e1, e2, e3]
  exact ⟨h1, h2, h3, h4⟩

/-! ## Not vacuous -/

example : routeNextHopAddr exRoute6.line = .ok "fe80::1".toList ∧ routeNetwork exRoute6.line = .ok "2001:db8::".toList :=
  ⟨(C270_route exRoute6_ok).2.2.1, (C270_network_partial exRoute6_ok rfl).1⟩

/-! ## Where it fails -/

/-- C270: of a route in a VRF, `network` is empty and `nexthop_str` is the prefix. -/
theorem C270_vrf_fails :
    ∃ R : Route6, R.Ok ∧ R.vrf = some "RED".toList ∧ routeNetwork R.line = .ok [] ∧ routeNetworkObject6 R.line = .ok none ∧
      routeNexthopStr R.line = .ok "2001:db8::/32".toList := by
  refine ⟨{ exRoute6 with vrf := some "RED".toList }, { exRoute6_ok with vrf := by intro v hv; cases hv; decide }, rfl, ?_, ?_, ?_⟩
  all_goals decide +kernel

/-- C156: a length that is none makes `netmask` raise AttributeError. -/
theorem C156_netmask_fails : routeNetworkObject "ip route 10.0.0.0/33 10.1.1.1".toList = .ok none ∧
    routeNetmask "ip route 10.0.0.0/33 10.1.1.1".toList = .error .attributeError := by decide +kernel

end Nxos.Lines

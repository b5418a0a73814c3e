import Verif.Cisco.Local
import Verif.Asa.Intf

/-! # The attributes of an ASA interface depend on its block only (C219) -/

namespace Asa

open Py Conf Query Re Cisco

/-- C219: settings of an ASA interface. -/
theorem C219_asa_settings :
    Cisco.Spec.Local description ∧
    Cisco.Spec.Local manualDelay ∧
    Cisco.Spec.Local hasManualSpeed ∧
    Cisco.Spec.Local hasManualDuplex ∧
    Cisco.Spec.Local hasAutonegotiation ∧
    Cisco.Spec.Local isShutdown ∧
    Cisco.Spec.Local isSwitchport ∧
    Cisco.Spec.Local hasManualSwitchAccess ∧
    Cisco.Spec.Local hasManualSwitchTrunkEncap ∧
    Cisco.Spec.Local hasManualSwitchTrunk ∧
    Cisco.Spec.Local accessVlan ∧
    Cisco.Spec.Local ipv4Addr ∧
    Cisco.Spec.Local ipv4Netmask ∧
    Cisco.Spec.Local ipv4StandbyAddr ∧
    Cisco.Spec.Local ipv4AddrObject ∧
    Cisco.Spec.Local ipv4StandbyAddrObject ∧
    Cisco.Spec.Local hasNoIpv4 ∧
    Cisco.Spec.Local ipNetworkObject ∧
    Cisco.Spec.Local ipv4Masklength ∧
    Cisco.Spec.Local hasIpPimSparseMode ∧
    Cisco.Spec.Local ipv6AddrObject ∧
    Cisco.Spec.Local ipv6Addr ∧
    Cisco.Spec.Local ipv6Masklength := by
  refine ⟨?_, ?_, ?_, ?_, ?_, ?_, ?_, ?_, ?_, ?_, ?_, ?_, ?_, ?_, ?_, ?_, ?_, ?_, ?_, ?_, ?_, ?_, ?_⟩ <;>
  by_texts [description, manualDelay, hasManualSpeed, hasManualDuplex, hasAutonegotiation, isShutdown, isSwitchport, hasManualSwitchAccess, hasManualSwitchTrunkEncap, hasManualSwitchTrunk, accessVlan, ipv4Addr, ipv4Netmask, ipv4StandbyAddr, ipv4AddrObject, ipv4StandbyAddrObject, hasNoIpv4, ipNetworkObject, ipv4Masklength, hasIpPimSparseMode, ipv6AddrObject, ipv6Addr, ipv6Masklength, ipv6StandbyAddr]

/-- C219: the standby IPv6 address. -/
theorem C219_asa_standby6 : Cisco.Spec.Local ipv6StandbyAddr :=
  local_of (fun P Q i j _ _ h3 _ => by rw [ipv6StandbyAddr, ipv6StandbyAddr]; exact congrArg standby6Loop h3)

theorem subnets_congr {P Q : Parsed} {i j : Nat} (h : ipv4AddrObject P i = ipv4AddrObject Q j)
    (h' : ∀ net, inIpv4Subnet P i net = inIpv4Subnet Q j net) (ss : List (Option IP.V4)) :
    ∀ tmp, inSubnetsLoop P i tmp ss = inSubnetsLoop Q j tmp ss := by
  induction ss with
  | nil => intro tmp; cases tmp <;> simp only [inSubnetsLoop]
  | cons s ss ih =>
    intro tmp
    cases s <;> simp only [inSubnetsLoop, ih, h', h]

/-- C219: being in a subnet, for all subnets. -/
theorem C219_asa_subnets : (∀ net, Cisco.Spec.Local (fun P i => inIpv4Subnet P i net)) ∧
    ∀ nets, Cisco.Spec.Local (fun P i => inIpv4Subnets P i nets) := by
  have h : ∀ P Q i j, Cisco.texts P i = Cisco.texts Q j → Cisco.kidTexts P i = Cisco.kidTexts Q j → (P.h i).text = (Q.h j).text →
      ipv4AddrObject P i = ipv4AddrObject Q j ∧ ∀ net, inIpv4Subnet P i net = inIpv4Subnet Q j net := fun P Q i j h1 h2 h4 => by
    refine ⟨?_, fun net => ?_⟩ <;> simp only [inIpv4Subnet, ipv4AddrObject, ipNetworkObject, ipv4Addr, ipv4Netmask, iterTyped, h1, h2, h4]
  refine ⟨fun net => local_of (fun P Q i j h1 h2 _ h4 => (h P Q i j h1 h2 h4).2 net), fun nets => local_of (fun P Q i j h1 h2 _ h4 => ?_)⟩
  cases nets with
  | none => rfl
  | some ss => exact subnets_congr (h P Q i j h1 h2 h4).1 (h P Q i j h1 h2 h4).2 ss none

/-- The hypotheses hold of the sample block between two others, and at the end of a configuration. -/
example : ∃ P Q, parse {} (["hostname a".toList] ++ localBlock ++ localPost) = .ok P ∧
    parse {} (["hostname b".toList] ++ localBlock ++ []) = .ok Q ∧ Query.Spec.Block {} localBlock ∧
    Query.Spec.Closed {} localPost ∧ Query.Spec.Closed {} [] ∧ (ipv4Addr P 1 = .ok "1.1.1.1".toList ∧ ipv4Addr Q 1 = .ok "1.1.1.1".toList) :=
  ⟨_, _, rfl, rfl, localBlock_ok, localPost_ok, localNil_ok, by decide +kernel⟩

end Asa

import Verif.Cisco.Local
import Verif.Xr.Intf

/-! # The attributes of an IOS-XR interface depend on its block only (C219) -/

namespace Xr

open Py Conf Query Re Cisco

/-- C219: settings of an IOS-XR interface. -/
theorem C219_xr_settings :
    Cisco.Spec.Local description ∧
    Cisco.Spec.Local manualBandwidth ∧
    Cisco.Spec.Local manualDelay ∧
    Cisco.Spec.Local manualHoldqueueOut ∧
    Cisco.Spec.Local manualHoldqueueIn ∧
    Cisco.Spec.Local manualEncapsulation ∧
    Cisco.Spec.Local hasMpls ∧
    Cisco.Spec.Local hasManualSpeed ∧
    Cisco.Spec.Local hasManualDuplex ∧
    Cisco.Spec.Local hasAutonegotiation ∧
    Cisco.Spec.Local intfInPortchannel ∧
    Cisco.Spec.Local portchannelNumber ∧
    Cisco.Spec.Local manualCarrierdelayMs ∧
    Cisco.Spec.Local hasManualCarrierdelay ∧
    Cisco.Spec.Local manualClockRate ∧
    Cisco.Spec.Local manualMtu ∧
    Cisco.Spec.Local manualMplsMtu ∧
    Cisco.Spec.Local manualIpMtu ∧
    Cisco.Spec.Local manualSpeed ∧
    Cisco.Spec.Local manualDuplex ∧
    Cisco.Spec.Local isShutdown ∧
    Cisco.Spec.Local vrf ∧
    Cisco.Spec.Local hasVrf ∧
    Cisco.Spec.Local hasManualDisableCdp ∧
    Cisco.Spec.Local xconnectVc ∧
    Cisco.Spec.Local hasXconnect ∧
    Cisco.Spec.Local ipv4Addr ∧
    Cisco.Spec.Local ipv4Netmask ∧
    Cisco.Spec.Local ipv4AddrObject := by
  refine ⟨?_, ?_, ?_, ?_, ?_, ?_, ?_, ?_, ?_, ?_, ?_, ?_, ?_, ?_, ?_, ?_, ?_, ?_, ?_, ?_, ?_, ?_, ?_, ?_, ?_, ?_, ?_, ?_, ?_⟩ <;>
  by_texts [description, manualBandwidth, manualDelay, manualHoldqueueOut, manualHoldqueueIn, manualEncapsulation, hasMpls, hasManualSpeed, hasManualDuplex, hasAutonegotiation, intfInPortchannel, portchannelNumber, manualCarrierdelayMs, hasManualCarrierdelay, manualClockRate, manualMtu, manualMplsMtu, manualIpMtu, manualSpeed, manualDuplex, isShutdown, vrf, hasVrf, hasManualDisableCdp, xconnectVc, hasXconnect, ipv4Addr, ipv4Netmask, ipv4AddrObject, ipNetworkObject, hasNoIpv4, ipv4Masklength, hasNoIcmpUnreachables, hasNoIcmpRedirects, hasNoIpProxyarp, hasIpPimDenseMode, hasIpPimSparseMode, hasIpPimSparsedenseMode, manualArpTimeout, isSwitchport, hasManualSwitchAccess, manualSwitchTrunkEncap, hasManualSwitchTrunkEncap, hasManualSwitchTrunk, hasSwitchPortsecurity, hasSwitchStormcontrol, hasDtp, accessVlan, nativeVlan, trunkVlansAllowed, hsrpIpAddr, hasIpHsrp, hsrpIpMask, hsrpGroup, hsrpPriority, hsrpHelloTimer, hsrpHoldTimer, hasHsrpUsebia, hasHsrpPreempt, hsrpAuthenticationMd5Keychain, hasHsrpAuthenticationMd5, macAccessgroupIn, macAccessgroupOut, hasMacAccessgroupIn, hasMacAccessgroupOut, ipv4AccessgroupIn, ipv4AccessgroupOut, hasIpAccessgroupIn, hasIpAccessgroupOut, withAddr]

/-- C219: further settings of an IOS-XR interface. -/
theorem C219_xr_others :
    Cisco.Spec.Local ipNetworkObject ∧
    Cisco.Spec.Local hasNoIpv4 ∧
    Cisco.Spec.Local ipv4Masklength ∧
    Cisco.Spec.Local hasNoIcmpUnreachables ∧
    Cisco.Spec.Local hasNoIcmpRedirects ∧
    Cisco.Spec.Local hasNoIpProxyarp ∧
    Cisco.Spec.Local hasIpPimDenseMode ∧
    Cisco.Spec.Local hasIpPimSparseMode ∧
    Cisco.Spec.Local hasIpPimSparsedenseMode ∧
    Cisco.Spec.Local manualArpTimeout ∧
    Cisco.Spec.Local isSwitchport ∧
    Cisco.Spec.Local hasManualSwitchAccess ∧
    Cisco.Spec.Local manualSwitchTrunkEncap ∧
    Cisco.Spec.Local hasManualSwitchTrunkEncap ∧
    Cisco.Spec.Local hasManualSwitchTrunk ∧
    Cisco.Spec.Local hasSwitchPortsecurity ∧
    Cisco.Spec.Local hasSwitchStormcontrol ∧
    Cisco.Spec.Local hasDtp ∧
    Cisco.Spec.Local accessVlan ∧
    Cisco.Spec.Local nativeVlan ∧
    Cisco.Spec.Local trunkVlansAllowed ∧
    Cisco.Spec.Local macAccessgroupIn ∧
    Cisco.Spec.Local macAccessgroupOut ∧
    Cisco.Spec.Local hasMacAccessgroupIn ∧
    Cisco.Spec.Local hasMacAccessgroupOut ∧
    Cisco.Spec.Local ipv4AccessgroupIn ∧
    Cisco.Spec.Local ipv4AccessgroupOut ∧
    Cisco.Spec.Local hasIpAccessgroupIn ∧
    Cisco.Spec.Local hasIpAccessgroupOut := by
  refine ⟨?_, ?_, ?_, ?_, ?_, ?_, ?_, ?_, ?_, ?_, ?_, ?_, ?_, ?_, ?_, ?_, ?_, ?_, ?_, ?_, ?_, ?_, ?_, ?_, ?_, ?_, ?_, ?_, ?_⟩ <;>
  by_texts [description, manualBandwidth, manualDelay, manualHoldqueueOut, manualHoldqueueIn, manualEncapsulation, hasMpls, hasManualSpeed, hasManualDuplex, hasAutonegotiation, intfInPortchannel, portchannelNumber, manualCarrierdelayMs, hasManualCarrierdelay, manualClockRate, manualMtu, manualMplsMtu, manualIpMtu, manualSpeed, manualDuplex, isShutdown, vrf, hasVrf, hasManualDisableCdp, xconnectVc, hasXconnect, ipv4Addr, ipv4Netmask, ipv4AddrObject, ipNetworkObject, hasNoIpv4, ipv4Masklength, hasNoIcmpUnreachables, hasNoIcmpRedirects, hasNoIpProxyarp, hasIpPimDenseMode, hasIpPimSparseMode, hasIpPimSparsedenseMode, manualArpTimeout, isSwitchport, hasManualSwitchAccess, manualSwitchTrunkEncap, hasManualSwitchTrunkEncap, hasManualSwitchTrunk, hasSwitchPortsecurity, hasSwitchStormcontrol, hasDtp, accessVlan, nativeVlan, trunkVlansAllowed, hsrpIpAddr, hasIpHsrp, hsrpIpMask, hsrpGroup, hsrpPriority, hsrpHelloTimer, hsrpHoldTimer, hasHsrpUsebia, hasHsrpPreempt, hsrpAuthenticationMd5Keychain, hasHsrpAuthenticationMd5, macAccessgroupIn, macAccessgroupOut, hasMacAccessgroupIn, hasMacAccessgroupOut, ipv4AccessgroupIn, ipv4AccessgroupOut, hasIpAccessgroupIn, hasIpAccessgroupOut, withAddr]

/-- C219: the `standby` settings of an IOS-XR interface. -/
theorem C219_xr_hsrp :
    Cisco.Spec.Local hsrpIpAddr ∧
    Cisco.Spec.Local hasIpHsrp ∧
    Cisco.Spec.Local hsrpIpMask ∧
    Cisco.Spec.Local hsrpGroup ∧
    Cisco.Spec.Local hsrpPriority ∧
    Cisco.Spec.Local hsrpHelloTimer ∧
    Cisco.Spec.Local hsrpHoldTimer ∧
    Cisco.Spec.Local hasHsrpUsebia ∧
    Cisco.Spec.Local hasHsrpPreempt ∧
    Cisco.Spec.Local hsrpAuthenticationMd5Keychain ∧
    Cisco.Spec.Local hasHsrpAuthenticationMd5 := by
  refine ⟨?_, ?_, ?_, ?_, ?_, ?_, ?_, ?_, ?_, ?_, ?_⟩ <;>
  by_texts [description, manualBandwidth, manualDelay, manualHoldqueueOut, manualHoldqueueIn, manualEncapsulation, hasMpls, hasManualSpeed, hasManualDuplex, hasAutonegotiation, intfInPortchannel, portchannelNumber, manualCarrierdelayMs, hasManualCarrierdelay, manualClockRate, manualMtu, manualMplsMtu, manualIpMtu, manualSpeed, manualDuplex, isShutdown, vrf, hasVrf, hasManualDisableCdp, xconnectVc, hasXconnect, ipv4Addr, ipv4Netmask, ipv4AddrObject, ipNetworkObject, hasNoIpv4, ipv4Masklength, hasNoIcmpUnreachables, hasNoIcmpRedirects, hasNoIpProxyarp, hasIpPimDenseMode, hasIpPimSparseMode, hasIpPimSparsedenseMode, manualArpTimeout, isSwitchport, hasManualSwitchAccess, manualSwitchTrunkEncap, hasManualSwitchTrunkEncap, hasManualSwitchTrunk, hasSwitchPortsecurity, hasSwitchStormcontrol, hasDtp, accessVlan, nativeVlan, trunkVlansAllowed, hsrpIpAddr, hasIpHsrp, hsrpIpMask, hsrpGroup, hsrpPriority, hsrpHelloTimer, hsrpHoldTimer, hasHsrpUsebia, hasHsrpPreempt, hsrpAuthenticationMd5Keychain, hasHsrpAuthenticationMd5, macAccessgroupIn, macAccessgroupOut, hasMacAccessgroupIn, hasMacAccessgroupOut, ipv4AccessgroupIn, ipv4AccessgroupOut, hasIpAccessgroupIn, hasIpAccessgroupOut, withAddr]

theorem subnets_congr {P Q : Parsed} {i j : Nat} (h : ipv4AddrObject P i = ipv4AddrObject Q j)
    (h' : ∀ net, inIpv4Subnet P i net = inIpv4Subnet Q j net) (ss : List IP.V4) :
    ∀ tmp, inSubnetsLoop P i tmp ss = inSubnetsLoop Q j tmp ss := by
  induction ss with
  | nil => intro tmp; cases tmp <;> simp only [inSubnetsLoop]
  | cons s ss ih =>
    intro tmp
    simp only [inSubnetsLoop, ih, h', h]

/-- C219: being in a subnet, for all subnets. -/
theorem C219_xr_subnets : (∀ net, Cisco.Spec.Local (fun P i => inIpv4Subnet P i net)) ∧
    ∀ nets, Cisco.Spec.Local (fun P i => inIpv4Subnets P i nets) := by
  have h : ∀ P Q i j, Cisco.texts P i = Cisco.texts Q j → Cisco.kidTexts P i = Cisco.kidTexts Q j → (P.h i).text = (Q.h j).text →
      ipv4AddrObject P i = ipv4AddrObject Q j ∧ ∀ net, inIpv4Subnet P i net = inIpv4Subnet Q j net := fun P Q i j h1 h2 h4 => by
    refine ⟨?_, fun net => ?_⟩ <;> simp only [inIpv4Subnet, ipv4AddrObject, ipNetworkObject, ipv4Addr, ipv4Netmask, iterTyped, h1, h2, h4]
  refine ⟨fun net => local_of (fun P Q i j h1 h2 _ h4 => (h P Q i j h1 h2 h4).2 net), fun nets => local_of (fun P Q i j h1 h2 _ h4 => ?_)⟩
  cases nets with
  | none => rfl
  | some ss => exact subnets_congr (h P Q i j h1 h2 h4).1 (h P Q i j h1 h2 h4).2 ss none

/-- The hypotheses hold of the sample block between two others, and at the end of a configuration. -/
example : ∃ P Q, parse {} (["hostname a".toList] ++ localBlock ++ localPost) = .ok P ∧
    parse {} (["hostname b".toList] ++ localBlock ++ []) = .ok Q ∧ Query.Spec.Block {} localBlock ∧
    Query.Spec.Closed {} localPost ∧ Query.Spec.Closed {} [] ∧ (manualMtu P 1 = .ok 1400 ∧ manualMtu Q 1 = .ok 1400) :=
  ⟨_, _, rfl, rfl, localBlock_ok, localPost_ok, localNil_ok, by decide +kernel⟩

end Xr

import Verif.Cisco.Local
import Verif.Nxos.Names
import Verif.Nxos.Domain
import Verif.Nxos.Lines

/-! # The attributes of an NX-OS interface and of a vPC domain depend on their block only (C219) -/

namespace Nxos

open Py Conf Query Re Cisco

/-- C219: settings of an NX-OS interface. -/
theorem C219_nxos_settings :
    Cisco.Spec.Local description ∧
    Cisco.Spec.Local manualSpeed ∧
    Cisco.Spec.Local manualBandwidth ∧
    Cisco.Spec.Local manualDelay ∧
    Cisco.Spec.Local manualMtu ∧
    Cisco.Spec.Local manualBeacon ∧
    Cisco.Spec.Local manualHoldqueueOut ∧
    Cisco.Spec.Local manualHoldqueueIn ∧
    Cisco.Spec.Local hasMpls ∧
    Cisco.Spec.Local vrf ∧
    Cisco.Spec.Local hasVrf ∧
    Cisco.Spec.Local manualStpLinkType ∧
    Cisco.Spec.Local manualStpPortType ∧
    Cisco.Spec.Local vpc ∧
    Cisco.Spec.Local fexAssociateChassisId ∧
    Cisco.Spec.Local isVpcPeerlink ∧
    Cisco.Spec.Local hasManualDisableCdp ∧
    Cisco.Spec.Local isSwitchport ∧
    Cisco.Spec.Local hasManualSwitchAccess ∧
    Cisco.Spec.Local manualSwitchTrunkEncap ∧
    Cisco.Spec.Local hasManualSwitchTrunkEncap ∧
    Cisco.Spec.Local hasManualSwitchFexFabric ∧
    Cisco.Spec.Local hasManualSwitchTrunk ∧
    Cisco.Spec.Local hasSwitchPortsecurity ∧
    Cisco.Spec.Local hasSwitchStormcontrol ∧
    Cisco.Spec.Local hasDtp ∧
    Cisco.Spec.Local accessVlan ∧
    Cisco.Spec.Local nativeVlan := by
  refine ⟨?_, ?_, ?_, ?_, ?_, ?_, ?_, ?_, ?_, ?_, ?_, ?_, ?_, ?_, ?_, ?_, ?_, ?_, ?_, ?_, ?_, ?_, ?_, ?_, ?_, ?_, ?_, ?_⟩ <;>
  by_texts [description, manualSpeed, manualBandwidth, manualDelay, manualMtu, manualBeacon, manualHoldqueueOut, manualHoldqueueIn, hasMpls, vrf, hasVrf, manualStpLinkType, manualStpPortType, vpc, fexAssociateChassisId, isVpcPeerlink, hasManualDisableCdp, isSwitchport, hasManualSwitchAccess, manualSwitchTrunkEncap, hasManualSwitchTrunkEncap, hasManualSwitchFexFabric, hasManualSwitchTrunk, hasSwitchPortsecurity, hasSwitchStormcontrol, hasDtp, accessVlan, nativeVlan, macAccessgroupIn, macAccessgroupOut, hasMacAccessgroupIn, hasMacAccessgroupOut, trunkVlansAllowed, ipv4Addr, ipv4Masklength, ipv4AddrObject, ipv4Netmask, ipNetworkObject, hasNoIpv4, hasNoIcmpUnreachables, hasNoIcmpRedirects, hasNoIpProxyarp, hasIpPimDenseMode, hasIpPimSparseMode, hasIpPimSparsedenseMode, manualArpTimeout, ipHelperAddresses, hasIpHelperAddresses, hsrpIpAddr, hasIpHsrp, hsrpIpMask, hsrpGroup, hsrpPriority, hsrpHelloTimerMs, hsrpHoldTimerMs, hsrpTrack, hasHsrpTrack, hasHsrpUsebia, hasHsrpPreempt, intfInPortchannel, portchannelNumber, hasManualSpeed, hasManualDuplex, hasAutonegotiation, withAddr]

/-- C219: further settings of an NX-OS interface. -/
theorem C219_nxos_others :
    Cisco.Spec.Local macAccessgroupIn ∧
    Cisco.Spec.Local macAccessgroupOut ∧
    Cisco.Spec.Local hasMacAccessgroupIn ∧
    Cisco.Spec.Local hasMacAccessgroupOut ∧
    Cisco.Spec.Local trunkVlansAllowed ∧
    Cisco.Spec.Local ipv4Addr ∧
    Cisco.Spec.Local ipv4Masklength ∧
    Cisco.Spec.Local ipv4AddrObject ∧
    Cisco.Spec.Local ipv4Netmask ∧
    Cisco.Spec.Local ipNetworkObject ∧
    Cisco.Spec.Local hasNoIpv4 ∧
    Cisco.Spec.Local hasNoIcmpUnreachables ∧
    Cisco.Spec.Local hasNoIcmpRedirects ∧
    Cisco.Spec.Local hasNoIpProxyarp ∧
    Cisco.Spec.Local hasIpPimDenseMode ∧
    Cisco.Spec.Local hasIpPimSparseMode ∧
    Cisco.Spec.Local hasIpPimSparsedenseMode ∧
    Cisco.Spec.Local manualArpTimeout ∧
    Cisco.Spec.Local ipHelperAddresses ∧
    Cisco.Spec.Local hasIpHelperAddresses ∧
    Cisco.Spec.Local hsrpIpMask ∧
    Cisco.Spec.Local hsrpGroup ∧
    Cisco.Spec.Local hasHsrpUsebia ∧
    Cisco.Spec.Local intfInPortchannel ∧
    Cisco.Spec.Local portchannelNumber ∧
    Cisco.Spec.Local hasManualSpeed ∧
    Cisco.Spec.Local hasManualDuplex ∧
    Cisco.Spec.Local hasAutonegotiation := by
  refine ⟨?_, ?_, ?_, ?_, ?_, ?_, ?_, ?_, ?_, ?_, ?_, ?_, ?_, ?_, ?_, ?_, ?_, ?_, ?_, ?_, ?_, ?_, ?_, ?_, ?_, ?_, ?_, ?_⟩ <;>
  by_texts [description, manualSpeed, manualBandwidth, manualDelay, manualMtu, manualBeacon, manualHoldqueueOut, manualHoldqueueIn, hasMpls, vrf, hasVrf, manualStpLinkType, manualStpPortType, vpc, fexAssociateChassisId, isVpcPeerlink, hasManualDisableCdp, isSwitchport, hasManualSwitchAccess, manualSwitchTrunkEncap, hasManualSwitchTrunkEncap, hasManualSwitchFexFabric, hasManualSwitchTrunk, hasSwitchPortsecurity, hasSwitchStormcontrol, hasDtp, accessVlan, nativeVlan, macAccessgroupIn, macAccessgroupOut, hasMacAccessgroupIn, hasMacAccessgroupOut, trunkVlansAllowed, ipv4Addr, ipv4Masklength, ipv4AddrObject, ipv4Netmask, ipNetworkObject, hasNoIpv4, hasNoIcmpUnreachables, hasNoIcmpRedirects, hasNoIpProxyarp, hasIpPimDenseMode, hasIpPimSparseMode, hasIpPimSparsedenseMode, manualArpTimeout, ipHelperAddresses, hasIpHelperAddresses, hsrpIpAddr, hasIpHsrp, hsrpIpMask, hsrpGroup, hsrpPriority, hsrpHelloTimerMs, hsrpHoldTimerMs, hsrpTrack, hasHsrpTrack, hasHsrpUsebia, hasHsrpPreempt, intfInPortchannel, portchannelNumber, hasManualSpeed, hasManualDuplex, hasAutonegotiation, withAddr]

/-- C219: settings of a vPC domain, and the timeout of an access line. -/
theorem C219_nxos_domain :
    Cisco.Spec.Local Domain.vpcRolePriority ∧
    Cisco.Spec.Local Domain.vpcSystemPriority ∧
    Cisco.Spec.Local Domain.vpcSystemMac ∧
    Cisco.Spec.Local Domain.hasPeerConfigCheckBypass ∧
    Cisco.Spec.Local Domain.hasPeerSwitch ∧
    Cisco.Spec.Local Domain.hasLayer3PeerRouter ∧
    Cisco.Spec.Local Domain.hasPeerGateway ∧
    Cisco.Spec.Local Domain.hasAutoRecovery ∧
    Cisco.Spec.Local Domain.vpcAutoRecoveryReloadDelay ∧
    Cisco.Spec.Local Domain.hasIpArpSynchronize ∧
    Cisco.Spec.Local Domain.vpcPeerKeepalive ∧
    Cisco.Spec.Local Lines.parseExectimeout := by
  refine ⟨?_, ?_, ?_, ?_, ?_, ?_, ?_, ?_, ?_, ?_, ?_, ?_⟩ <;>
  by_texts [Domain.vpcRolePriority, Domain.vpcSystemPriority, Domain.vpcSystemMac, Domain.hasPeerConfigCheckBypass, Domain.hasPeerSwitch, Domain.hasLayer3PeerRouter, Domain.hasPeerGateway, Domain.hasAutoRecovery, Domain.vpcAutoRecoveryReloadDelay, Domain.hasIpArpSynchronize, Domain.vpcPeerKeepalive, Lines.parseExectimeout]

theorem subnets_congr {P Q : Parsed} {i j : Nat} (h : ipv4AddrObject P i = ipv4AddrObject Q j)
    (h' : ∀ net, inIpv4Subnet P i net = inIpv4Subnet Q j net) (ss : List IP.V4) :
    ∀ tmp, inSubnetsLoop P i tmp ss = inSubnetsLoop Q j tmp ss := by
  induction ss with
  | nil => intro tmp; cases tmp <;> simp only [inSubnetsLoop]
  | cons s ss ih =>
    intro tmp
    simp only [inSubnetsLoop, ih, h', h]

/-- C219: being in a subnet, for all subnets. -/
theorem C219_nxos_subnets : (∀ net, Cisco.Spec.Local (fun P i => inIpv4Subnet P i net)) ∧
    ∀ nets, Cisco.Spec.Local (fun P i => inIpv4Subnets P i nets) := by
  have h : ∀ P Q i j, Cisco.texts P i = Cisco.texts Q j → Cisco.kidTexts P i = Cisco.kidTexts Q j → (P.h i).text = (Q.h j).text →
      ipv4AddrObject P i = ipv4AddrObject Q j ∧ ∀ net, inIpv4Subnet P i net = inIpv4Subnet Q j net := fun P Q i j h1 h2 h4 => by
    refine ⟨?_, fun net => ?_⟩ <;> simp only [inIpv4Subnet, ipv4AddrObject, ipNetworkObject, ipv4Addr, ipv4Masklength, ipv4Netmask, iterTyped, h1, h2, h4]
  refine ⟨fun net => local_of (fun P Q i j h1 h2 _ h4 => (h P Q i j h1 h2 h4).2 net), fun nets => local_of (fun P Q i j h1 h2 _ h4 => ?_)⟩
  cases nets with
  | none => rfl
  | some ss => exact subnets_congr (h P Q i j h1 h2 h4).1 (h P Q i j h1 h2 h4).2 ss none

/-- What the loops over the HSRP groups see of a child. -/
def view (P : Parsed) (j : Nat) : Str × List Str × List Str × List Str := ((P.h j).text, childTexts P j, Cisco.texts P j, kidTexts P j)

theorem view_local : Cisco.Spec.Local view := by by_texts [view]

theorem loops_congr {P Q : Parsed} {l l' : List Nat} (h : l.map (view P) = l'.map (view Q)) :
    hsrpAddrLoop P l = hsrpAddrLoop Q l' ∧ hsrpPriorityLoop P l = hsrpPriorityLoop Q l' ∧
    (∀ sec msec, timerLoop P sec msec l = timerLoop Q sec msec l') ∧
    ∀ {α : Type} (rx : String) (conv : Option Str → Except Err α) (d r : α),
      lastGroup P (fun j => iterTyped P j rx 1 conv d) r l = lastGroup Q (fun j => iterTyped Q j rx 1 conv d) r l' := by
  induction l generalizing l' with
  | nil =>
    cases l' with
    | nil => exact ⟨rfl, rfl, fun _ _ => rfl, fun _ _ _ _ => rfl⟩
    | cons => cases h
  | cons x l ih =>
    cases l' with
    | nil => cases h
    | cons y l' =>
      obtain ⟨hv, h⟩ := List.cons.inj h
      obtain ⟨i1, i2, i3, i4⟩ := ih h
      obtain ⟨e1, e2⟩ := Prod.mk.inj hv
      obtain ⟨e2, e3⟩ := Prod.mk.inj e2
      obtain ⟨e3, e4⟩ := Prod.mk.inj e3
      refine ⟨?_, ?_, fun sec msec => ?_, fun {α} rx conv d r => ?_⟩
      · simp only [hsrpAddrLoop, e1, e2, i1]
      · simp only [hsrpPriorityLoop, iterTyped, e1, e3, e4, i2]
      · simp only [timerLoop, iterTyped, e1, e3, e4, i3]
      · simp only [lastGroup, e1, i4]
        simp only [iterTyped, e3, e4]

/-- C219: the HSRP groups of an NX-OS interface. -/
theorem C219_nxos_hsrp : Cisco.Spec.Local hsrpIpAddr ∧ Cisco.Spec.Local hasIpHsrp ∧ Cisco.Spec.Local hsrpPriority ∧
    Cisco.Spec.Local hsrpHelloTimerMs ∧ Cisco.Spec.Local hsrpHoldTimerMs ∧ Cisco.Spec.Local hsrpTrack ∧
    Cisco.Spec.Local hasHsrpTrack ∧ Cisco.Spec.Local hasHsrpPreempt := by
  have kids : Cisco.Spec.Local (fun P i => (P.h i).children.map (view P)) := local_children view_local (fun _ _ _ _ h => h)
  have addr : Cisco.Spec.Local ipv4Addr := by by_texts [ipv4Addr, hasNoIpv4, ipv4AddrObject, ipv4Masklength]
  have two := local_pair kids addr
  have l1 : ∀ P Q i j, ((P.h i).children.map (view P), ipv4Addr P i) = ((Q.h j).children.map (view Q), ipv4Addr Q j) →
      hsrpIpAddr P i = hsrpIpAddr Q j := by
    intro P Q i j h
    obtain ⟨e1, e2⟩ := Prod.mk.inj h
    simp only [hsrpIpAddr, withAddr, e2, (loops_congr e1).1]
  have done : ∀ {α : Type} {f : Parsed → Nat → α}, (∀ P Q i j, ((P.h i).children.map (view P), ipv4Addr P i) =
      ((Q.h j).children.map (view Q), ipv4Addr Q j) → f P i = f Q j) → Cisco.Spec.Local f := by
    intro α f h o pre pre' b post post' P Q hP hQ hb hp hp' k hk
    exact h P Q _ _ (two o pre pre' b post post' P Q hP hQ hb hp hp' k hk)
  refine ⟨done l1, done (fun P Q i j h => ?_), done (fun P Q i j h => ?_), done (fun P Q i j h => ?_), done (fun P Q i j h => ?_),
    done (fun P Q i j h => ?_), done (fun P Q i j h => ?_), done (fun P Q i j h => ?_)⟩
  · simp only [hasIpHsrp, l1 P Q i j h]
  · simp only [hsrpPriority, hasIpHsrp, l1 P Q i j h, (loops_congr (Prod.mk.inj h).1).2.1]
  · simp only [hsrpHelloTimerMs, (loops_congr (Prod.mk.inj h).1).2.2.1]
  · simp only [hsrpHoldTimerMs, (loops_congr (Prod.mk.inj h).1).2.2.1]
  · exact (loops_congr (Prod.mk.inj h).1).2.2.2 _ _ _ _
  · simp only [hasHsrpTrack]
    rw [show hsrpTrack P i = hsrpTrack Q j from (loops_congr (Prod.mk.inj h).1).2.2.2 _ _ _ _]
  · exact (loops_congr (Prod.mk.inj h).1).2.2.2 _ _ _ _

/-- The hypotheses hold of the sample block between two others, and at the end of a configuration. -/
example : ∃ P Q, parse {} (["hostname a".toList] ++ localBlock ++ localPost) = .ok P ∧
    parse {} (["hostname b".toList] ++ localBlock ++ []) = .ok Q ∧ Query.Spec.Block {} localBlock ∧
    Query.Spec.Closed {} localPost ∧ Query.Spec.Closed {} [] ∧ (manualMtu P 1 = .ok 1400 ∧ manualMtu Q 1 = .ok 1400) :=
  ⟨_, _, rfl, rfl, localBlock_ok, localPost_ok, localNil_ok, by decide +kernel⟩

end Nxos

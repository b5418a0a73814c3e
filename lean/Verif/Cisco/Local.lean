import Verif.Query.Local
import Verif.Cisco.Subnet
import Verif.Cisco.Addr6
import Verif.Cisco.HsrpGroup
import Verif.Cisco.Access

/-! # The attributes of an IOS interface depend on its block only (C218) -/

namespace Cisco.Spec

open Py Conf

/-- An attribute of the lines of a block: it does not depend on what stands before the block and behind it. -/
def Local {α : Type} (f : Parsed → Nat → α) : Prop :=
  ∀ (o : Opts) (pre pre' b post post' : List Str) (P Q : Parsed), parse o (pre ++ b ++ post) = .ok P →
    parse o (pre' ++ b ++ post') = .ok Q → Query.Spec.Block o b → Query.Spec.Closed o post → Query.Spec.Closed o post' →
    ∀ k < b.length, f P ((Conf.Spec.input o pre).length + k) = f Q ((Conf.Spec.input o pre').length + k)

end Cisco.Spec

namespace Cisco

open Py Conf Query Re

/-- It is enough that the attribute is a function of the texts. -/
theorem local_of {α : Type} {f : Parsed → Nat → α}
    (h : ∀ P Q i j, texts P i = texts Q j → kidTexts P i = kidTexts Q j → childTexts P i = childTexts Q j →
      (P.h i).text = (Q.h j).text → f P i = f Q j) : Spec.Local f := by
  intro o pre pre' b post post' P Q hP hQ hb hp hp' k hk
  have ha := C217_block hP hQ hb hp hp'
  obtain ⟨ht, ⟨C, hC, c1, c2⟩, A, hA, a1, a2⟩ := ha k hk
  have hc : childTexts P ((Conf.Spec.input o pre).length + k) = childTexts Q ((Conf.Spec.input o pre').length + k) := by
    rw [childTexts, childTexts, c1, c2, List.map_map, List.map_map]
    exact List.map_congr_left (fun x hx => (ha x (hC x hx)).1)
  refine h _ _ _ _ ?_ ?_ hc ht
  · rw [texts, texts, a1, a2, List.map_map, List.map_map, ht]
    congr 1
    exact List.map_congr_left (fun x hx => (ha x (hA x hx)).1)
  · rw [kidTexts, kidTexts, ht]
    exact congrArg _ hc

/-- The same for an attribute that looks at the children one by one. -/
theorem local_children {α β : Type} {g : Parsed → Nat → α} {f : Parsed → Nat → β} (hg : Spec.Local g)
    (h : ∀ P Q i j, (P.h i).children.map (g P) = (Q.h j).children.map (g Q) → f P i = f Q j) : Spec.Local f := by
  intro o pre pre' b post post' P Q hP hQ hb hp hp' k hk
  obtain ⟨_, ⟨C, hC, c1, c2⟩, _⟩ := C217_block hP hQ hb hp hp' k hk
  refine h _ _ _ _ ?_
  rw [c1, c2, List.map_map, List.map_map]
  exact List.map_congr_left (fun x hx => hg o pre pre' b post post' P Q hP hQ hb hp hp' x (hC x hx))

theorem local_pair {α β : Type} {f : Parsed → Nat → α} {g : Parsed → Nat → β} (hf : Spec.Local f) (hg : Spec.Local g) :
    Spec.Local (fun P i => (f P i, g P i)) := by
  intro o pre pre' b post post' P Q hP hQ hb hp hp' k hk
  show (_, _) = (_, _)
  rw [hf o pre pre' b post post' P Q hP hQ hb hp hp' k hk, hg o pre pre' b post post' P Q hP hQ hb hp hp' k hk]

/-- An attribute that is computed from local ones. -/
theorem local_comp {α β : Type} {f : Parsed → Nat → α} (hf : Spec.Local f) (g : α → β) : Spec.Local (fun P i => g (f P i)) := by
  intro o pre pre' b post post' P Q hP hQ hb hp hp' k hk
  show g _ = g _
  rw [hf o pre pre' b post post' P Q hP hQ hb hp hp' k hk]

syntax "by_texts " "[" ident,* "]" : tactic
macro_rules
  | `(tactic| by_texts [$ids,*]) => do
    let l : Array (Lean.TSyntax `Lean.Parser.Tactic.simpLemma) ← ids.getElems.mapM (fun i => `(Lean.Parser.Tactic.simpLemma| $i:ident))
    `(tactic| (refine local_of (fun P Q i j h1 h2 h3 h4 => ?_); simp only [$[$l],*, iterTyped, iterDict, h1, h2, h3, h4]))

/-- C218: numbers and words. -/
theorem C218_settings :
    Spec.Local description ∧ Spec.Local manualBandwidth ∧ Spec.Local manualDelay ∧ Spec.Local manualHoldqueueOut ∧
    Spec.Local manualHoldqueueIn ∧ Spec.Local manualEncapsulation ∧ Spec.Local hasMpls ∧ Spec.Local hasManualSpeed ∧
    Spec.Local hasManualDuplex ∧ Spec.Local manualCarrierdelayMs ∧ Spec.Local hasManualCarrierdelay ∧ Spec.Local manualClockRate ∧
    Spec.Local hasManualClockRate ∧ Spec.Local manualMtu ∧ Spec.Local manualMplsMtu ∧ Spec.Local manualIpMtu ∧
    Spec.Local manualSpeed ∧ Spec.Local manualDuplex ∧ Spec.Local hasManualMtu ∧ Spec.Local hasManualMplsMtu ∧
    Spec.Local hasManualIpMtu ∧ Spec.Local isShutdown ∧ Spec.Local vrf ∧ Spec.Local hasVrf ∧ Spec.Local intfInPortchannel ∧
    Spec.Local portchannelNumber ∧ Spec.Local hasAutonegotiation ∧ Spec.Local manualArpTimeout ∧ Spec.Local hasManualDisableCdp ∧
    Spec.Local xconnectVc ∧ Spec.Local hasXconnect ∧ Spec.Local manualExectimeoutMinutes ∧ Spec.Local manualExectimeoutSeconds := by
  refine ⟨?_, ?_, ?_, ?_, ?_, ?_, ?_, ?_, ?_, ?_, ?_, ?_, ?_, ?_, ?_, ?_, ?_, ?_, ?_, ?_, ?_, ?_, ?_, ?_, ?_, ?_, ?_, ?_, ?_, ?_, ?_, ?_, ?_⟩ <;>
  by_texts [description, manualBandwidth, manualDelay, manualHoldqueueOut, manualHoldqueueIn, manualEncapsulation, hasMpls,
    hasManualSpeed, hasManualDuplex, manualCarrierdelayMs, hasManualCarrierdelay, manualClockRate, hasManualClockRate, manualMtu,
    manualMplsMtu, manualIpMtu, manualSpeed, manualDuplex, hasManualMtu, hasManualMplsMtu, hasManualIpMtu, isShutdown, vrf, hasVrf,
    intfInPortchannel, portchannelNumber, hasAutonegotiation, manualArpTimeout, hasManualDisableCdp, xconnectVc, hasXconnect,
    manualExectimeoutMinutes, manualExectimeoutSeconds, withAddr, ipv4Addr]

/-- C218: addresses and access lists. -/
theorem C218_addresses :
    Spec.Local ipv4AddrObject ∧
    Spec.Local hasIpSecondary ∧
    Spec.Local hasNoIpv4 ∧
    Spec.Local ipv4Addr ∧
    Spec.Local ipv4Netmask ∧
    Spec.Local ipv4Masklength ∧
    Spec.Local ipNetworkObject ∧
    Spec.Local ipv6AddrObject ∧
    Spec.Local ipv6Addr ∧
    Spec.Local ipv6Masklength ∧
    Spec.Local hasNoIcmpUnreachables ∧
    Spec.Local hasNoIcmpRedirects ∧
    Spec.Local hasNoIpProxyarp ∧
    Spec.Local hasIpPimDenseMode ∧
    Spec.Local hasIpPimSparseMode ∧
    Spec.Local hasIpPimSparsedenseMode ∧
    Spec.Local ipHelperAddresses ∧
    Spec.Local hasIpHelperAddresses ∧
    Spec.Local macAccessgroupIn ∧
    Spec.Local macAccessgroupOut ∧
    Spec.Local hasMacAccessgroupIn ∧
    Spec.Local hasMacAccessgroupOut ∧
    Spec.Local ipv4AccessgroupIn ∧
    Spec.Local ipv4AccessgroupOut ∧
    Spec.Local hasIpAccessgroupIn ∧
    Spec.Local hasIpAccessgroupOut := by
  refine ⟨?_, ?_, ?_, ?_, ?_, ?_, ?_, ?_, ?_, ?_, ?_, ?_, ?_, ?_, ?_, ?_, ?_, ?_, ?_, ?_, ?_, ?_, ?_, ?_, ?_, ?_⟩ <;>
  by_texts [ipv4AddrObject, hasIpSecondary, hasNoIpv4, ipv4Addr, ipv4Netmask, ipv4Masklength, ipNetworkObject, ipv6AddrObject, ipv6Addr, ipv6Masklength, hasNoIcmpUnreachables, hasNoIcmpRedirects, hasNoIpProxyarp, hasIpPimDenseMode, hasIpPimSparseMode, hasIpPimSparsedenseMode, ipHelperAddresses, hasIpHelperAddresses, macAccessgroupIn, macAccessgroupOut, hasMacAccessgroupIn, hasMacAccessgroupOut, ipv4AccessgroupIn, ipv4AccessgroupOut, hasIpAccessgroupIn, hasIpAccessgroupOut, withAddr, isSwitchport]

theorem subnets_congr {P Q : Parsed} {i j : Nat} (h : ipv4AddrObject P i = ipv4AddrObject Q j) (ss : List (Option IP.V4)) :
    ∀ tmp, inSubnetsLoop P i tmp ss = inSubnetsLoop Q j tmp ss := by
  induction ss with
  | nil => intro tmp; simp only [inSubnetsLoop]
  | cons s ss ih =>
    intro tmp
    cases s with
    | none => simp only [inSubnetsLoop, ih]
    | some s => simp only [inSubnetsLoop, ih, inIpv4Subnet, h]

/-- C218: being in a subnet, for all subnets. -/
theorem C218_subnets : (∀ net, Spec.Local (fun P i => inIpv4Subnet P i net)) ∧ ∀ nets, Spec.Local (fun P i => inIpv4Subnets P i nets) := by
  have h : ∀ P Q i j, texts P i = texts Q j → ipv4AddrObject P i = ipv4AddrObject Q j := fun P Q i j h => by
    simp only [ipv4AddrObject, iterDict, h]
  refine ⟨fun net => local_of (fun P Q i j h1 _ _ _ => ?_), fun nets => local_of (fun P Q i j h1 _ _ _ => ?_)⟩
  · simp only [inIpv4Subnet, h P Q i j h1]
  · cases nets with
    | none => rfl
    | some ss => exact subnets_congr (h P Q i j h1) ss none

/-- C218: the switchport settings. -/
theorem C218_switch :
    Spec.Local isSwitchport ∧
    Spec.Local hasManualSwitchAccess ∧
    Spec.Local manualSwitchTrunkEncap ∧
    Spec.Local hasManualSwitchTrunkEncap ∧
    Spec.Local hasManualSwitchTrunk ∧
    Spec.Local hasSwitchPortsecurity ∧
    Spec.Local hasSwitchStormcontrol ∧
    Spec.Local hasDtp ∧
    Spec.Local accessVlan ∧
    Spec.Local nativeVlan := by
  refine ⟨?_, ?_, ?_, ?_, ?_, ?_, ?_, ?_, ?_, ?_⟩ <;>
  by_texts [isSwitchport, hasManualSwitchAccess, manualSwitchTrunkEncap, hasManualSwitchTrunkEncap, hasManualSwitchTrunk, hasSwitchPortsecurity, hasSwitchStormcontrol, hasDtp, accessVlan, nativeVlan]

/-- C218: the `standby` settings of the interface. -/
theorem C218_hsrp :
    Spec.Local hsrpIpAddr ∧
    Spec.Local hasIpHsrp ∧
    Spec.Local hsrpIpMask ∧
    Spec.Local hsrpGroup ∧
    Spec.Local hsrpPriority ∧
    Spec.Local hsrpHelloTimer ∧
    Spec.Local hsrpHoldTimer ∧
    Spec.Local hsrpTrack ∧
    Spec.Local hasHsrpTrack ∧
    Spec.Local hasHsrpUsebia ∧
    Spec.Local hasHsrpPreempt ∧
    Spec.Local hsrpAuthenticationMd5Keychain ∧
    Spec.Local hasHsrpAuthenticationMd5 := by
  refine ⟨?_, ?_, ?_, ?_, ?_, ?_, ?_, ?_, ?_, ?_, ?_, ?_, ?_⟩ <;>
  by_texts [hsrpIpAddr, hasIpHsrp, hsrpIpMask, hsrpGroup, hsrpPriority, hsrpHelloTimer, hsrpHoldTimer, hsrpTrack, hasHsrpTrack, hasHsrpUsebia, hasHsrpPreempt, hsrpAuthenticationMd5Keychain, hasHsrpAuthenticationMd5, withAddr, ipv4Addr]

/-- C218: the HSRP groups of the interface, for all group numbers. -/
theorem C218_groups : Spec.Local hsrpInterfaces ∧ Spec.Local groupVersion ∧ Spec.Local groupInterfaceName ∧ Spec.Local groupUseBia ∧
    ∀ g : Int, (∀ fuel, Spec.Local (fun P i => groupIpv4 P i g fuel)) ∧ Spec.Local (fun P i => groupIpv6 P i g) ∧
      Spec.Local (fun P i => groupHasIpv6 P i g) ∧ Spec.Local (fun P i => groupPreemptDelay P i g) ∧
      Spec.Local (fun P i => groupHello P i g) ∧ Spec.Local (fun P i => groupHold P i g) ∧
      Spec.Local (fun P i => groupPriority P i g) ∧ Spec.Local (fun P i => groupPreempt P i g) ∧
      Spec.Local (fun P i => tracking P i g) ∧ Spec.Local (fun P i => groupHasTrack P i g) := by
  have hf : ∀ P Q i j, childTexts P i = childTexts Q j → ∀ f, firstParts P i f = firstParts Q j f := by
    intro P Q i j h f
    have e : ∀ (P : Parsed) i, firstParts P i f = ((childTexts P i).map lowParts).find? f := fun P i => by
      rw [firstParts, childTexts, List.map_map]; rfl
    rw [e, e, h]
  have ht : ∀ g : Int, Spec.Local (fun P i => tracking P i g) := by
    intro g
    have hc : Spec.Local (fun P c => ((P.h c).text, trackOf P g c)) :=
      local_pair (local_of (fun _ _ _ _ _ _ _ h => h)) (by by_texts [trackOf])
    refine local_children hc (fun P Q i j h => ?_)
    have e : ∀ (P : Parsed) (l : List Nat),
        (l.filter (fun c => partsBegin (standby g ["track"]) (splitWs (strip (P.h c).text)))).mapM (trackOf P g) =
        ((l.map (fun c => ((P.h c).text, trackOf P g c))).filter
          (fun q => partsBegin (standby g ["track"]) (splitWs (strip q.1)))).mapM (fun q => q.2) := by
      intro P l
      rw [List.filter_map, List.mapM_map]; rfl
    show tracking P i g = tracking Q j g
    rw [tracking, tracking, e, e, h]
  refine ⟨?_, ?_, ?_, ?_, fun g => ⟨?_, ?_, ?_, ?_, ?_, ?_, ?_, ?_, ht g, ?_⟩⟩
  · refine local_of (fun P Q i j _ _ h3 _ => ?_)
    rw [hsrpInterfaces, hsrpInterfaces, show (P.h i).children.map (fun c => (P.h c).text) = _ from h3]; rfl
  · exact local_of (fun P Q i j _ _ h3 _ => by simp only [groupVersion, hf P Q i j h3])
  · by_texts [groupInterfaceName]
  · refine local_of (fun P Q i j _ _ h3 _ => ?_)
    have e : ∀ (P : Parsed) i, groupUseBia P i = (childTexts P i).any (fun t => isInfix "use-bia".toList t) := fun P i => by
      rw [groupUseBia, childTexts, List.any_map]; rfl
    rw [e, e, h3]
  · intro fuel
    refine local_of (fun P Q i j _ _ h3 _ => ?_)
    induction fuel with
    | zero => rfl
    | succ n ih =>
      have ih : groupIpv4 P i g n = groupIpv4 Q j g n := ih
      simp only [groupIpv4, groupVersion, hf P Q i j h3, ih]
  · exact local_of (fun P Q i j _ _ h3 _ => by simp only [groupIpv6, hf P Q i j h3])
  · exact local_of (fun P Q i j _ _ h3 _ => by simp only [groupHasIpv6, groupIpv6, hf P Q i j h3])
  · exact local_of (fun P Q i j _ _ h3 _ => by simp only [groupPreemptDelay, hf P Q i j h3])
  · exact local_of (fun P Q i j _ _ h3 _ => by simp only [groupHello, hf P Q i j h3])
  · exact local_of (fun P Q i j _ _ h3 _ => by simp only [groupHold, hf P Q i j h3])
  · exact local_of (fun P Q i j _ _ h3 _ => by simp only [groupPriority, hf P Q i j h3])
  · exact local_of (fun P Q i j _ _ h3 _ => by simp only [groupPreempt, hf P Q i j h3])
  · exact local_comp (ht g) (fun r => do .ok (!(← r).isEmpty))

/-- The hypotheses of C218 hold of the sample block between two others, and of the block below a banner that never ends; the
values are those of the block. -/
example : ∃ P Q, parse {} (["hostname a".toList] ++ localBlock ++ localPost) = .ok P ∧
    parse {} (["banner motd ^".toList] ++ localBlock ++ []) = .ok Q ∧ Query.Spec.Block {} localBlock ∧
    Query.Spec.Closed {} localPost ∧ Query.Spec.Closed {} [] ∧
    (manualMtu P 1 = .ok 1400 ∧ ipv4Addr P 1 = .ok "1.1.1.1".toList ∧ manualMtu Q 1 = .ok 1400) :=
  ⟨_, _, rfl, rfl, localBlock_ok, localPost_ok, localNil_ok, by decide +kernel⟩

end Cisco

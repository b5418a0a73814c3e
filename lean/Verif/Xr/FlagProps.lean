import Verif.Xr.AddrProps
import Verif.Asa.FlagProps
import Verif.Nxos.MiscProps
import Verif.Nxos.TrunkProps
import Verif.Cisco.KindProps
import Verif.Cisco.HsrpProps
import Verif.Cisco.SecondaryProps

/-! # Properties of IOS-XR interfaces: numbers, flags, virtual routing and HSRP -/

namespace Xr

open Py Conf Query Re Cisco
open Cisco.Spec (First family wd Number Exactly Rest DuplexLine Next Standby Word Leads Digits kids)
open Nxos.Spec (Begins)

variable {o : Opts} {lines : List Str} {P : Parsed}

/-! ## C192: numbers and flags -/

/-- The numbers with their keywords before and after. -/
def numbers : List ((Parsed → Nat → Except Err Int) × List String × List String) :=
  [(manualBandwidth, ["bandwidth"], []), (manualDelay, ["delay"], []), (manualHoldqueueOut, ["hold-queue"], ["out"]),
    (manualHoldqueueIn, ["hold-queue"], ["in"]), (manualClockRate, ["clock", "rate"], []), (manualMtu, ["mtu"], []),
    (manualMplsMtu, ["mpls", "mtu"], []), (manualIpMtu, ["ip", "mtu"], []), (manualSpeed, ["speed"], [])]

/-- C192: each of these attributes is the number of the first line of the interface that consists
of the keywords and a number, and 0 without one. -/
theorem C192_numbers (h : parse o lines = .ok P) (hn : ∀ l ∈ lines, '\n' ∉ l) (i : Nat) :
    ∀ a ∈ numbers, ∃ v, First (Number a.2.1 a.2.2) (family P i) v ∧ a.1 P i = .ok (v.getD 0) := by
  intro a ha
  simp only [numbers, List.mem_cons, List.not_mem_nil, or_false] at ha
  rcases ha with rfl | rfl | rfl | rfl | rfl | rfl | rfl | rfl | rfl
  · exact num_attr (rx := "^\\s*bandwidth\\s+(\\d+)$") (pre := ["bandwidth"]) (post := []) (sp := false) h hn i (by decide +kernel) 0
  · exact num_attr (rx := "^\\s*delay\\s+(\\d+)$") (pre := ["delay"]) (post := []) (sp := false) h hn i (by decide +kernel) 0
  · exact num_attr (rx := "^\\s*hold-queue\\s+(\\d+)\\s+out$") (pre := ["hold-queue"]) (post := ["out"]) (sp := false) h hn i (by decide +kernel) 0
  · exact num_attr (rx := "^\\s*hold-queue\\s+(\\d+)\\s+in$") (pre := ["hold-queue"]) (post := ["in"]) (sp := false) h hn i (by decide +kernel) 0
  · exact num_attr (rx := "^\\s*clock\\s+rate\\s+(\\d+)$") (pre := ["clock", "rate"]) (post := []) (sp := false) h hn i (by decide +kernel) 0
  · exact num_attr (rx := "^\\s*mtu\\s+(\\d+)$") (pre := ["mtu"]) (post := []) (sp := false) h hn i (by decide +kernel) 0
  · exact num_attr (rx := "^\\s*mpls\\s+mtu\\s+(\\d+)$") (pre := ["mpls", "mtu"]) (post := []) (sp := false) h hn i (by decide +kernel) 0
  · exact num_attr (rx := "^\\s*ip\\s+mtu\\s+(\\d+)$") (pre := ["ip", "mtu"]) (post := []) (sp := false) h hn i (by decide +kernel) 0
  · exact num_attr (rx := "^\\s*speed\\s+(\\d+)$") (pre := ["speed"]) (post := []) (sp := false) h hn i (by decide +kernel) 0

/-- C192: the carrier delay, in milliseconds, is that of the first line `carrier-delay N` in
seconds if it is positive, else that of the first line `carrier-delay msec N`. -/
theorem C192_carrierdelay (h : parse o lines = .ok P) (hn : ∀ l ∈ lines, '\n' ∉ l) (i : Nat) :
    ∃ s m, First (Number ["carrier-delay"] []) (family P i) s ∧ First (Number ["carrier-delay", "msec"] []) (family P i) m ∧
      manualCarrierdelayMs P i = .ok (if 0 < s.getD 0 then 1000 * s.getD 0 else m.getD 0) ∧
      hasManualCarrierdelay P i = .ok (decide (0 < s.getD 0 ∨ 0 < m.getD 0)) := C71_carrierdelay h hn i

/-- C192: the circuit number is that of the first line `xconnect PEER N WORD`, the bundle that of
the first line `channel-group N`, and the encapsulation the word behind the keyword. -/
theorem C192_words (h : parse o lines = .ok P) (hn : ∀ l ∈ lines, '\n' ∉ l) (i : Nat) :
    (∃ v, First (fun t (v : Int) => ∃ x n w more, splitWs t = "xconnect".toList :: x :: n :: w :: more ∧ Digits n ∧ v = natVal n)
        (family P i) v ∧ xconnectVc P i = .ok (v.getD 0) ∧ hasXconnect P i = .ok (decide (v.getD 0 ≠ 0))) ∧
    (∃ v, First (fun t (v : Int) => ∃ w a, Next ["channel-group"] t w ∧ Leads w a ∧ v = natVal a) (family P i) v ∧
      portchannelNumber P i = .ok (v.getD (-1)) ∧ intfInPortchannel P i = .ok v.isSome) ∧
    ∃ v, First (Next ["encapsulation"]) (family P i) v ∧ manualEncapsulation P i = .ok (v.getD []) :=
  ⟨C71_xconnect h hn i, C84_channel_group h hn i, C72_encapsulation i⟩

/-- C192: each flag is true exactly if the interface has the line. -/
theorem C192_flags (h : parse o lines = .ok P) (hn : ∀ l ∈ lines, '\n' ∉ l) (i : Nat) :
    (∃ b, isShutdown P i = .ok b ∧ (b = true ↔ ∃ t ∈ family P i, ∃ w, splitWs t = [w] ∧ "shut".toList <+: w)) ∧
    (∃ b, hasMpls P i = .ok b ∧ (b = true ↔ ∃ t ∈ family P i, Exactly ["mpls", "ip"] t)) ∧
    (∃ b, hasManualSpeed P i = .ok b ∧ (b = true ↔ ∃ t ∈ family P i, ∃ n, Number ["speed"] [] t n)) ∧
    (∃ b, hasManualDisableCdp P i = .ok b ∧
      (b = true ↔ ∃ t ∈ family P i, ∃ v more, splitWs t = wd ["no", "cdp"] ++ v :: more ∧ "enable".toList <+: v)) ∧
    (∃ b, isSwitchport P i = .ok b ∧ (b = true ↔ ∃ t ∈ family P i, Begins "switchport" t)) ∧
    ∃ b, hasManualSwitchTrunk P i = .ok b ∧ (b = true ↔ ∃ t ∈ family P i, Exactly ["switchport", "mode", "trunk"] t) :=
  ⟨C73_shutdown h hn i, C73_mpls h hn i, C73_speed h hn i, Nxos.C136_cdp h hn i, Nxos.C136_switchport h hn i,
    Nxos.C136_flags h hn i (Nxos.hasManualSwitchTrunk, ["switchport", "mode", "trunk"]) (by simp)⟩

/-- C192: the access and native VLANs of a switch port are those of the first line that sets one,
1 without one; an interface that is no switch port has VLAN 0. -/
theorem C192_vlans (h : parse o lines = .ok P) (hn : ∀ l ∈ lines, '\n' ∉ l) (i : Nat) :
    ∀ a ∈ [(accessVlan, ["switchport", "access", "vlan"]), (nativeVlan, ["switchport", "trunk", "native", "vlan"])],
      ∃ v, First (Number a.2 []) (family P i) v ∧ ((∃ t ∈ family P i, Begins "switchport" t) → a.1 P i = .ok (v.getD 1)) ∧
        ((∀ t ∈ family P i, ¬ Begins "switchport" t) → a.1 P i = .ok 0) := by
  intro a ha
  simp only [List.mem_cons, List.not_mem_nil, or_false] at ha
  rcases ha with rfl | rfl
  · exact Nxos.C134_vlans h hn i (Nxos.accessVlan, ["switchport", "access", "vlan"]) (by simp)
  · exact Nxos.C134_vlans h hn i (Nxos.nativeVlan, ["switchport", "trunk", "native", "vlan"]) (by simp)

def flagLines : List Str :=
  ["interface GigabitEthernet0/0/0/1", " description x", " bandwidth 100", " mtu 9000", " carrier-delay msec 40", " speed 1000", " duplex full",
    " vrf red", " hold-queue 5 in", " encapsulation dot1q 7", " shutdown", " mpls ip", " no cdp enable",
    "interface GigabitEthernet0/0/0/2", " switchport", " switchport mode trunk", " switchport  access vlan 7", " switchport trunk encapsulation dot1q",
    " storm-control broadcast level 5", " xconnect 10.0.0.1 77 mpls", " channel-group 12 mode active",
    "interface Loopback0", " description lo", " vrf  blue"].map String.toList

example : ∃ P, parse { factory := true, syn := .iosxr } flagLines = .ok P ∧
    (manualBandwidth P 0 == .ok 100 && manualMtu P 0 == .ok 9000 && manualCarrierdelayMs P 0 == .ok 40 && manualSpeed P 0 == .ok 1000 &&
      manualHoldqueueIn P 0 == .ok 5 && manualEncapsulation P 0 == .ok "dot1q".toList && isShutdown P 0 == .ok true && hasMpls P 0 == .ok true &&
      hasManualDisableCdp P 0 == .ok true && manualMtu P 13 == .ok 0 && hasManualSwitchTrunk P 13 == .ok true && accessVlan P 13 == .ok 7 &&
      nativeVlan P 13 == .ok 1 && accessVlan P 0 == .ok 0 && xconnectVc P 13 == .ok 77 && portchannelNumber P 13 == .ok 12) = true :=
  shown (by decide +kernel)

/-! ## C193: descriptions, negotiation and switch ports -/

/-- C193: `description` is the text behind the keyword of the first line that has one of at least
two characters; without such a line it is empty. -/
theorem C193_description_partial (h : parse o lines = .ok P) (hn : ∀ l ∈ lines, '\n' ∉ l) (i : Nat) :
    ∃ v, First (fun t r => Rest "description" t r ∧ 2 ≤ r.length) (family P i) v ∧ description P i = .ok (v.getD []) :=
  Asa.C180_description_partial h hn i

/-- C193: `manual_duplex` is the value of the first line `duplex` that has one of at least two
letters, `has_manual_duplex` says that there is one, and `has_autonegotiation` is true exactly if
the interface is an Ethernet one without such a line and without a line `speed` with a number. -/
theorem C193_auto_partial (h : parse o lines = .ok P) (hn : ∀ l ∈ lines, '\n' ∉ l) (i : Nat) (ht : ¬ Cisco.Spec.Indented (P.h i).text) :
    (∃ v, First (fun t r => Rest "duplex" t r ∧ 2 ≤ r.length) (family P i) v ∧ manualDuplex P i = .ok (v.getD [])) ∧
    (∃ b, hasManualDuplex P i = .ok b ∧ (b = true ↔ ∃ t ∈ family P i, DuplexLine t)) ∧
    ∃ b, hasAutonegotiation P i = .ok b ∧ (b = true ↔
      (∃ more, splitWs (P.h i).text = "interface".toList :: more ∧ ∃ w ∈ more, ∃ a x s, w = a ++ x :: "thernet".toList ++ s) ∧
      (¬ ∃ t ∈ family P i, ∃ n, Number ["speed"] [] t n) ∧ ¬ ∃ t ∈ family P i, DuplexLine t) :=
  ⟨C72_duplex h hn i, duplex_flag h hn i, C172_auto_partial h hn i ht⟩

/-- C193: for lines without two blanks next to each other, the mode `access` and port security are
set exactly if the interface has the line, and the MAC access lists are those of the first line
that names one. -/
theorem C193_switch_partial (h : parse o lines = .ok P) (hn : ∀ l ∈ lines, '\n' ∉ l) (i : Nat) (ht : ∀ t ∈ family P i, Cisco.Spec.Tidy t) :
    (∃ b, hasManualSwitchAccess P i = .ok b ∧ (b = true ↔ ∃ t ∈ family P i, Exactly ["switchport", "mode", "access"] t)) ∧
    (∃ b, hasSwitchPortsecurity P i = .ok b ∧ (b = true ↔ ∃ t ∈ family P i, Exactly ["switchport", "port-security"] t)) ∧
    ∀ a ∈ [(macAccessgroupIn, hasMacAccessgroupIn, "in"), (macAccessgroupOut, hasMacAccessgroupOut, "out")],
      ∃ v, First (Word ["mac", "access-group"] [a.2.2]) (family P i) v ∧ a.1 P i = .ok (v.getD []) ∧
        ∃ b, a.2.1 P i = .ok b ∧ (b = true ↔ v.isSome = true ∧ ∃ t ∈ family P i, Begins "switchport" t) := by
  refine ⟨Nxos.C137_modes_partial h hn i ht (Nxos.hasManualSwitchAccess, ["switchport", "mode", "access"]) (by simp),
    Nxos.C137_portsecurity_partial h hn i ht, ?_⟩
  intro a ha
  simp only [List.mem_cons, List.not_mem_nil, or_false] at ha
  rcases ha with rfl | rfl
  · exact Nxos.C137_mac_partial h hn i ht (Nxos.macAccessgroupIn, Nxos.hasMacAccessgroupIn, "in") (by simp)
  · exact Nxos.C137_mac_partial h hn i ht (Nxos.macAccessgroupOut, Nxos.hasMacAccessgroupOut, "out") (by simp)

/-- C193 fails: storm control is missed whatever the lines about it say, and DTP is off on every
interface with lines. -/
theorem C193_switch_fails (h : parse o lines = .ok P) (hn : ∀ l ∈ lines, '\n' ∉ l) (i : Nat) :
    ((∀ t ∈ family P i, ∀ more, splitWs t = "storm-control".toList :: more → more ≠ []) → hasSwitchStormcontrol P i = .ok false) ∧
    ((P.h i).children ≠ [] → hasDtp P i = .ok false) :=
  ⟨Nxos.C147_storm_fails h hn i, Nxos.C147_dtp_fails h hn i⟩

/-- C193 fails: a description of one letter is lost, `duplex auto` switches negotiation off, the
trunk encapsulation is missed unless the keyword is cut to `encap`, and is then the whole line. -/
theorem C193_fails : ∃ P, parse { factory := true, syn := .iosxr } (flagLines ++ ["interface GigabitEthernet0/0/0/3".toList,
      " switchport trunk encap dot1q".toList, " duplex auto".toList]) = .ok P ∧
    ((P.h 1).text == " description x".toList && description P 0 == .ok [] && hasAutonegotiation P 24 == .ok false &&
      (P.h 17).text == " switchport trunk encapsulation dot1q".toList && hasManualSwitchTrunkEncap P 13 == .ok false &&
      manualSwitchTrunkEncap P 24 == .ok "switchport trunk encap dot1q".toList) = true :=
  shown (by decide +kernel)

/-! ## C194: virtual routing -/

theorem iter_outside {rx : String} {p : Pat} (hc : compile rx = .ok p) (hp : p.groups = 1) (i : Nat) {b : Bool}
    (hb : iterTyped P i rx 1 (fun _ => .ok true) false = .ok b) :
    iterTyped P i rx 2 toStr [] = if b then .error .indexError else .ok [] := by
  rw [iterTyped, hc] at hb
  rw [iterTyped, hc]
  simp only [if_true] at hb ⊢
  revert hb
  cases firstMatch p (texts P i) with
  | none => intro hb; cases hb; rfl
  | some m =>
    intro hb
    simp only [Found.group, hp] at hb ⊢
    cases hb
    rfl

theorem vrf_eq (h : parse o lines = .ok P) (hn : ∀ l ∈ lines, '\n' ∉ l) (i : Nat) (ht : ∀ t ∈ family P i, Cisco.Spec.Tidy t) :
    ∃ b : Bool, (b = true ↔ ∃ t ∈ family P i, ∃ w, Word ["vrf"] [] t w) ∧ vrf P i = if b then .error .indexError else .ok [] := by
  obtain ⟨v, h1, h2⟩ := tail_attr h hn i (ind := false) (pre := gaps false ["vrf"]) (n := 1) (names := [])
    (rx := "^\\s*vrf\\s(\\S+)$") (tail_value 1 (k := .nonspace) trivial false (post := []) (by simp)) (by decide +kernel)
    (fun t hh => .inr (ht t hh)) (fun _ => .ok true) false (fun _ v _ => ⟨true, rfl⟩)
  refine ⟨v.getD false, ?_, iter_outside (p := _) rfl rfl i h2⟩
  have h1 := first_congr (S' := fun t a => a = true ∧ ∃ w, Word ["vrf"] [] t w) (fun t _ a => by
    constructor
    · rintro ⟨-, more, w, a2, ⟨rfl, -⟩, a3⟩
      cases a3
      rw [fst_gaps] at a2
      exact ⟨rfl, w, a2⟩
    · rintro ⟨rfl, w, a2⟩
      refine ⟨(fun hh => by cases hh), [w], w, (by rw [fst_gaps]; exact a2), ⟨rfl, ?_⟩, rfl⟩
      have := (splitWs_words t w (by rw [show splitWs t = _ from a2]; simp)).2
      rw [List.all_eq_true]
      intro c hc
      simp [K.has, this c hc]) h1
  obtain ⟨k1, k2⟩ := first_exists h1
  cases v with
  | none =>
    constructor
    · intro hh; cases hh
    · rintro ⟨t, ht, w, hw⟩; exact absurd ⟨rfl, w, hw⟩ (k1.mp rfl t ht true)
  | some b =>
    obtain ⟨t, ht, rfl, w, hw⟩ := k2 b rfl
    exact ⟨fun _ => ⟨t, ht, w, hw⟩, fun _ => rfl⟩

/-- C194: without a line `vrf NAME`, `vrf` is empty and `has_vrf` false.  Missing: interfaces that
have one, and lines with two blanks next to each other. -/
theorem C194_vrf_partial (h : parse o lines = .ok P) (hn : ∀ l ∈ lines, '\n' ∉ l) (i : Nat) (ht : ∀ t ∈ family P i, Cisco.Spec.Tidy t)
    (hv : ∀ t ∈ family P i, ∀ w, ¬ Word ["vrf"] [] t w) : vrf P i = .ok [] ∧ hasVrf P i = .ok false := by
  obtain ⟨b, h1, h2⟩ := vrf_eq h hn i ht
  have : b = false := by
    cases b with
    | false => rfl
    | true => obtain ⟨t, ht, w, hw⟩ := h1.mp rfl; exact absurd hw (hv t ht w)
  subst this
  have h2 : vrf P i = .ok [] := h2
  exact ⟨h2, by rw [hasVrf, h2]; rfl⟩

/-- C194 fails for every interface that has a line `vrf NAME`: both attributes raise IndexError. -/
theorem C194_vrf_fails (h : parse o lines = .ok P) (hn : ∀ l ∈ lines, '\n' ∉ l) (i : Nat) (ht : ∀ t ∈ family P i, Cisco.Spec.Tidy t)
    (hv : ∃ t ∈ family P i, ∃ w, Word ["vrf"] [] t w) : vrf P i = .error .indexError ∧ hasVrf P i = .error .indexError := by
  obtain ⟨b, h1, h2⟩ := vrf_eq h hn i ht
  rw [h1.mpr hv] at h2
  have h2 : vrf P i = .error .indexError := h2
  exact ⟨h2, by rw [hasVrf, h2]; rfl⟩

example : ∃ P, parse { factory := true, syn := .iosxr } flagLines = .ok P ∧
    (vrf P 0 == .error .indexError && vrf P 13 == .ok [] && vrf P 21 == .ok [] && (P.h 23).text == " vrf  blue".toList) = true :=
  shown (by decide +kernel)

/-! ## C195: HSRP -/

theorem withAddr_eq {α : Type} {a : Str} {i : Nat} (h : ipv4Addr P i = .ok a) (x : α) (f : Except Err α) :
    withAddr P i x f = if a = [] then .ok x else f := by
  rw [withAddr, h]; rfl

/-- The address of an interface without DHCP is empty exactly if it has no address line. -/
theorem addr_iff (h : parse o lines = .ok P) (hn : ∀ l ∈ lines, '\n' ∉ l) (i : Nat) (hd : ¬ ∃ t ∈ family P i, Spec.Dhcp t) :
    ∃ a, ipv4Addr P i = .ok a ∧ (a ≠ [] ↔ ∃ t ∈ family P i, ∃ q, Spec.AddrLine t q) := by
  obtain ⟨v, h1, -, h2, -⟩ := C186_addr h hn i
  refine ⟨_, h2 hd, ?_⟩
  obtain ⟨k1, k2⟩ := first_exists h1
  cases v with
  | none =>
    constructor
    · intro hh; exact absurd rfl hh
    · rintro ⟨t, ht, q, hq⟩; exact absurd hq (k1.mp rfl t ht q)
  | some q =>
    obtain ⟨t, ht, hq⟩ := k2 q rfl
    refine ⟨fun _ => ⟨t, ht, q, hq⟩, fun _ => ?_⟩
    exact (splitWs_words t q.1 (by rw [hq.2.1]; simp)).1

/-- C195: on an interface with an address line, `hsrp_ip_addr` is the word behind
`standby [group] ip` in the first such line, `hsrp_ip_mask` the word behind the address in the
first line that has one, and `hsrp_priority` the number of the first line `standby [group]
priority`, or 100; on an interface without an address line they are empty and 0. -/
theorem C195_address (h : parse o lines = .ok P) (hn : ∀ l ∈ lines, '\n' ∉ l) (i : Nat) (hd : ¬ ∃ t ∈ family P i, Spec.Dhcp t) :
    ∃ v m p, First (fun t v => ∃ more, Standby ["ip"] t (v :: more)) (family P i) v ∧
      First (fun t m => ∃ x, Standby ["ip"] t [x, m]) (family P i) m ∧
      First (fun t (n : Int) => ∃ w a more, Standby ["priority"] t (w :: more) ∧ Leads w a ∧ n = natVal a) (family P i) p ∧
      ((∃ t ∈ family P i, ∃ q, Spec.AddrLine t q) →
        hsrpIpAddr P i = .ok (v.getD []) ∧ hasIpHsrp P i = .ok v.isSome ∧ hsrpIpMask P i = .ok (m.getD []) ∧
        hsrpPriority P i = .ok (if v = none then 0 else p.getD 100)) ∧
      ((¬ ∃ t ∈ family P i, ∃ q, Spec.AddrLine t q) →
        hsrpIpAddr P i = .ok [] ∧ hasIpHsrp P i = .ok false ∧ hsrpIpMask P i = .ok [] ∧ hsrpPriority P i = .ok 0) := by
  obtain ⟨a, ha, hne⟩ := addr_iff h hn i hd
  obtain ⟨v, h1, h2⟩ := standby_attr h hn i (l := ["ip"]) (n := 2) (names := []) (tail_next 2)
    (after_word _ rfl (by decide)) (rx := "^\\s*standby\\s+(\\d+\\s+)*ip\\s+(\\S+)") (by decide +kernel)
    toStr [] (fun _ v _ => ⟨v, rfl⟩)
  obtain ⟨m, h3, h4⟩ := standby_attr h hn i (l := ["ip"]) (n := 2) (names := [])
    (tail_skip (tail_value 2 (k := .nonspace) trivial true (post := []) (by simp)))
    (after_word _ rfl (by decide)) (rx := "^\\s*standby\\s+(\\d+\\s+)*ip\\s+\\S+\\s+(\\S+)\\s*$") (by decide +kernel)
    toStr [] (fun _ v _ => ⟨v, rfl⟩)
  obtain ⟨p, h5, h6⟩ := standby_attr h hn i (l := ["priority"]) (n := 2) (names := []) (tail_lead 2)
    (after_word _ rfl (by decide)) (rx := "^\\s*standby\\s+(\\d+\\s+)*priority\\s+(\\d+)") (by decide +kernel)
    toInt 100 (by
      rintro _ v ⟨_, _, _, _, _, b, _⟩
      exact ⟨_, toInt_digits b⟩)
  have e1 := first_congr (S' := fun t v => ∃ more, Standby ["ip"] t (v :: more)) (fun t _ v => by
    constructor
    · rintro ⟨ns, more, v', b1, b2, ⟨more', rfl⟩, b3⟩
      cases b3
      exact ⟨more', ns, b1, b2⟩
    · rintro ⟨more, ns, b1, b2⟩
      exact ⟨ns, _, v, b1, b2, ⟨more, rfl⟩, rfl⟩) h1
  have e2 := first_congr (S' := fun t m => ∃ x, Standby ["ip"] t [x, m]) (fun t _ v => by
    constructor
    · rintro ⟨ns, more, v', b1, b2, ⟨x, more', rfl, rfl, -⟩, b3⟩
      cases b3
      exact ⟨x, ns, b1, b2⟩
    · rintro ⟨x, ns, b1, b2⟩
      refine ⟨ns, _, v, b1, b2, ⟨x, _, rfl, rfl, ?_⟩, rfl⟩
      have := (splitWs_words t v (by rw [b2]; simp)).2
      rw [List.all_eq_true]
      intro c hc
      simp [K.has, this c hc]) h3
  refine ⟨v, m, p, e1, e2, ?_, ?_, ?_⟩
  · refine first_congr (fun t _ n => ?_) h5
    constructor
    · rintro ⟨ns, more, v', b1, b2, ⟨w, more', rfl, b3⟩, b4⟩
      have hd : Digits v' := by obtain ⟨_, _, d, _⟩ := b3; exact d
      rw [toInt_digits hd] at b4
      exact ⟨w, v', more', ⟨ns, b1, b2⟩, b3, (Except.ok.inj b4).symm⟩
    · rintro ⟨w, a, more, ⟨ns, b1, b2⟩, b3, rfl⟩
      have hd : Digits a := by obtain ⟨_, _, d, _⟩ := b3; exact d
      exact ⟨ns, _, a, b1, b2, ⟨w, more, rfl, b3⟩, toInt_digits hd⟩
  · intro hq
    have hz := hne.mpr hq
    have k1 : hsrpIpAddr P i = .ok (v.getD []) := by rw [hsrpIpAddr, withAddr_eq ha, if_neg hz, h2]
    have k2 : hasIpHsrp P i = .ok v.isSome := by
      rw [hasIpHsrp, k1]
      cases v with
      | none => rfl
      | some x =>
        obtain ⟨t, _, more, ns, _, b⟩ := (first_exists e1).2 _ rfl
        have := (splitWs_words t x (by rw [b]; simp)).1
        obtain ⟨y, ys, rfl⟩ := List.exists_cons_of_ne_nil this
        rfl
    refine ⟨k1, k2, by rw [hsrpIpMask, withAddr_eq ha, if_neg hz, h4], ?_⟩
    rw [hsrpPriority, k2]
    cases v with
    | none => rfl
    | some x => exact h6
  · intro hq
    have hz : a = [] := by
      cases a with
      | nil => rfl
      | cons x a => exact absurd (hne.mp (by simp)) hq
    have k1 : hsrpIpAddr P i = .ok [] := by rw [hsrpIpAddr, withAddr_eq ha, if_pos hz]
    have k2 : hasIpHsrp P i = .ok false := by rw [hasIpHsrp, k1]; rfl
    exact ⟨k1, k2, by rw [hsrpIpMask, withAddr_eq ha, if_pos hz], by rw [hsrpPriority, k2]; rfl⟩

/-- C195: `hsrp_group` is the group of the first line `standby GROUP ip ADDRESS`, or -1; the
timers, the key chain and the burned-in address are those of the first line that sets them. -/
theorem C195_lines (h : parse o lines = .ok P) (hn : ∀ l ∈ lines, '\n' ∉ l) (i : Nat) :
    (∃ v, First (fun t (v : Int) => ∃ n w more, splitWs t = "standby".toList :: n :: "ip".toList :: w :: more ∧ Digits n ∧ v = natVal n)
      (family P i) v ∧ hsrpGroup P i = .ok (v.getD (-1))) ∧
    (∃ v, First (fun t (v : Int × Int) => ∃ a w b more, Standby ["timers"] t (a :: w :: more) ∧ Digits a ∧ Leads w b ∧
        v = ((natVal a : Int), (natVal b : Int))) (family P i) v ∧
      hsrpHelloTimer P i = .ok ((v.map Prod.fst).getD 0) ∧ hsrpHoldTimer P i = .ok ((v.map Prod.snd).getD 0)) ∧
    (∃ v, First (fun t v => ∃ more, Standby ["authentication", "md5", "key-chain"] t (v :: more)) (family P i) v ∧
      hsrpAuthenticationMd5Keychain P i = .ok (v.getD []) ∧ hasHsrpAuthenticationMd5 P i = .ok v.isSome) ∧
    ∃ b, hasHsrpUsebia P i = .ok b ∧ (b = true ↔ ∃ t ∈ family P i, ∃ w more, Standby [] t (w :: more) ∧ "use-bia".toList <+: w) := by
  refine ⟨?_, C76_timers h hn i, C76_keychain h hn i, C76_usebia h hn i⟩
  obtain ⟨v, h1, h2⟩ := tail_attr h hn i (ind := false) (pre := gaps true ["standby"]) (n := 1) (names := [])
    (rx := "^\\s*standby\\s+(\\d+)\\s+ip\\s+\\S+") (tail_cap_num 1 (ends_cons (ends_word 1) (isWord_iff.mp (by decide : isWord "ip".toList = true))))
    (by decide +kernel) (fun t _ => .inl (by simp [gaps])) toInt (-1) (fun _ v hv => ⟨_, toInt_digits hv.1⟩)
  refine ⟨v, first_congr (fun t _ a => ?_) h1, h2⟩
  constructor
  · rintro ⟨-, more, n, a2, ⟨a3, more', rfl, more'', rfl, w, more3, rfl⟩, a5⟩
    rw [fst_gaps] at a2
    rw [toInt_digits a3] at a5
    exact ⟨n, w, more3, a2, a3, (Except.ok.inj a5).symm⟩
  · rintro ⟨n, w, more, a2, a3, rfl⟩
    exact ⟨(fun hh => by cases hh), _, n, (by rw [fst_gaps]; exact a2), ⟨a3, _, rfl, _, rfl, w, more, rfl⟩, toInt_digits a3⟩

/-! ## C196: preemption -/

/-- C196: `has_hsrp_preempt` answers the question of `has_hsrp_usebia`: for every interface
without a line `standby [group] use-bia` it is false, whatever `standby [group] preempt` says. -/
theorem C196_preempt_fails (h : parse o lines = .ok P) (hn : ∀ l ∈ lines, '\n' ∉ l) (i : Nat)
    (hb : ¬ ∃ t ∈ family P i, ∃ w more, Standby [] t (w :: more) ∧ "use-bia".toList <+: w) : hasHsrpPreempt P i = .ok false := by
  obtain ⟨b, h1, h2⟩ := C76_usebia h hn i
  have hh : b = false := by
    cases b with
    | false => rfl
    | true => exact absurd (h2.mp rfl) hb
  subst hh
  exact h1

def hsrpLines : List Str :=
  ["interface Bundle-Ether1", " ipv4 address 10.0.0.2 255.255.255.0", " standby 7 ip 10.0.0.1 255.255.255.0", " standby 7 priority 110",
    " standby 7 preempt", " standby 7 timers 3 10", " standby 7 authentication md5 key-chain KEY", " ip access-group IN in",
    " arp timeout 30", " no ip redirects", "interface Bundle-Ether2", " standby ip 10.0.0.1", " standby use-bia", " ip  pim sparse-mode",
    "interface Bundle-Ether3", " ipv4 address dhcp", " standby 1 ip 10.0.0.1", " no ip redirects", " ipv4 access-group A ingress"].map String.toList

example : ∃ P, parse { factory := true, syn := .iosxr } hsrpLines = .ok P ∧
    (hsrpIpAddr P 0 == .ok "10.0.0.1".toList && hasIpHsrp P 0 == .ok true && hsrpIpMask P 0 == .ok "255.255.255.0".toList &&
      hsrpGroup P 0 == .ok 7 && hsrpPriority P 0 == .ok 110 && hsrpHelloTimer P 0 == .ok 3 && hsrpHoldTimer P 0 == .ok 10 &&
      hsrpAuthenticationMd5Keychain P 0 == .ok "KEY".toList && hasHsrpPreempt P 0 == .ok false && hasHsrpPreempt P 10 == .ok true &&
      hsrpIpAddr P 10 == .ok [] && hsrpGroup P 10 == .ok (-1) && hsrpPriority P 10 == .ok 0 && hsrpIpAddr P 14 == .error .dynamicAddress) = true :=
  shown (by decide +kernel)

/-! ## C197: flags that need an address, and access lists -/

/-- The flags that need an address, with their lines. -/
def ipFlags : List ((Parsed → Nat → Except Err Bool) × List String) :=
  [(hasNoIcmpUnreachables, ["no", "ip", "unreachables"]), (hasNoIcmpRedirects, ["no", "ip", "redirects"]),
    (hasNoIpProxyarp, ["no", "ip", "proxy-arp"]), (hasIpPimDenseMode, ["ip", "pim", "dense-mode"]),
    (hasIpPimSparseMode, ["ip", "pim", "sparse-mode"]), (hasIpPimSparsedenseMode, ["ip", "pim", "sparse-dense-mode"])]

/-- C197: on an interface that does not ask DHCP, each flag is true exactly if the interface has an
address line and the line of the flag.  Missing: lines with two blanks next to each other, and
interfaces that get their address from DHCP. -/
theorem C197_flags_partial (h : parse o lines = .ok P) (hn : ∀ l ∈ lines, '\n' ∉ l) (i : Nat) (ht : ∀ t ∈ family P i, Cisco.Spec.Tidy t)
    (hd : ¬ ∃ t ∈ family P i, Spec.Dhcp t) :
    ∀ f ∈ ipFlags, ∃ b, f.1 P i = .ok b ∧ (b = true ↔ (∃ t ∈ family P i, ∃ q, Spec.AddrLine t q) ∧ ∃ t ∈ family P i, Exactly f.2 t) := by
  obtain ⟨a, ha, hne⟩ := addr_iff h hn i hd
  have key : ∀ (f : Except Err Bool) (ws : List String),
      (∃ b, f = .ok b ∧ (b = true ↔ ∃ t ∈ family P i, Exactly ws t)) →
      ∃ b, withAddr P i false f = .ok b ∧ (b = true ↔ (∃ t ∈ family P i, ∃ q, Spec.AddrLine t q) ∧ ∃ t ∈ family P i, Exactly ws t) := by
    rintro f ws ⟨b, h1, h2⟩
    rw [← hne, ← h2, withAddr_eq ha, h1]
    by_cases hz : a = []
    · exact ⟨false, by rw [if_pos hz], by simp [hz]⟩
    · exact ⟨b, by rw [if_neg hz], by simp [hz]⟩
  intro f hf
  simp only [ipFlags, List.mem_cons, List.not_mem_nil, or_false] at hf
  rcases hf with rfl | rfl | rfl | rfl | rfl | rfl
  · exact key _ _ (flag_attr (pre := gaps false ["no", "ip"]) (l := []) (w := "unreachables".toList) (sp := true)
      h hn i (by decide +kernel) (fun t hh => .inr (ht t hh)))
  · exact key _ _ (flag_attr (pre := gaps false ["no", "ip"]) (l := []) (w := "redirects".toList) (sp := true)
      h hn i (by decide +kernel) (fun t hh => .inr (ht t hh)))
  · exact key _ _ (flag_attr (pre := gaps false ["no", "ip"]) (l := []) (w := "proxy-arp".toList) (sp := true)
      h hn i (by decide +kernel) (fun t hh => .inr (ht t hh)))
  · exact key _ _ (flag_attr (pre := []) (l := gaps false ["ip", "pim"]) (w := "dense-mode".toList) (sp := true)
      h hn i (by decide +kernel) (fun t hh => .inr (ht t hh)))
  · exact key _ _ (flag_attr (pre := []) (l := gaps false ["ip", "pim"]) (w := "sparse-mode".toList) (sp := true)
      h hn i (by decide +kernel) (fun t hh => .inr (ht t hh)))
  · exact key _ _ (flag_attr (pre := []) (l := gaps false ["ip", "pim"]) (w := "sparse-dense-mode".toList) (sp := true)
      h hn i (by decide +kernel) (fun t hh => .inr (ht t hh)))

/-- C197: `manual_arp_timeout` is -1 without an address line; with one, it is the number of the
first line `arp timeout`, or 0. -/
theorem C197_arp_partial (h : parse o lines = .ok P) (hn : ∀ l ∈ lines, '\n' ∉ l) (i : Nat) (hd : ¬ ∃ t ∈ family P i, Spec.Dhcp t) :
    ∃ v, First (Number ["arp", "timeout"] []) (family P i) v ∧
      ((∃ t ∈ family P i, ∃ q, Spec.AddrLine t q) → manualArpTimeout P i = .ok (v.getD 0)) ∧
      ((¬ ∃ t ∈ family P i, ∃ q, Spec.AddrLine t q) → manualArpTimeout P i = .ok (-1)) := by
  obtain ⟨a, ha, hne⟩ := addr_iff h hn i hd
  obtain ⟨v, h1, h2⟩ := num_attr (rx := "^\\s*arp\\s+timeout\\s+(\\d+)\\s*$") (pre := ["arp", "timeout"]) (post := [])
    (sp := true) h hn i (by decide +kernel) 0
  refine ⟨v, h1, ?_, ?_⟩
  · intro e; rw [manualArpTimeout, withAddr_eq ha, if_neg (hne.mpr e), h2]
  · intro e
    rw [manualArpTimeout, withAddr_eq ha, if_pos]
    cases a with
    | nil => rfl
    | cons x a => exact absurd (hne.mp (by simp)) e

/-- C197 fails for every interface that asks DHCP: each of these attributes raises an exception. -/
theorem C197_dhcp_fails (h : parse o lines = .ok P) (hn : ∀ l ∈ lines, '\n' ∉ l) (i : Nat) (hd : ∃ t ∈ family P i, Spec.Dhcp t) :
    (∀ f ∈ ipFlags, ∃ e, f.1 P i = .error e) ∧ (∃ e, manualArpTimeout P i = .error e) ∧ (∃ e, hsrpIpAddr P i = .error e) ∧
      ∃ e, hsrpPriority P i = .error e := by
  obtain ⟨v, -, -, -, h2⟩ := C186_addr h hn i
  obtain ⟨⟨e, he⟩, -⟩ := h2 hd
  have k : ∀ {α : Type} (x : α) (f : Except Err α), withAddr P i x f = .error e := by
    intro α x f
    rw [withAddr, he]; rfl
  refine ⟨?_, ⟨e, k _ _⟩, ⟨e, k _ _⟩, ⟨e, ?_⟩⟩
  · intro f hf
    simp only [ipFlags, List.mem_cons, List.not_mem_nil, or_false] at hf
    rcases hf with rfl | rfl | rfl | rfl | rfl | rfl <;> exact ⟨e, k _ _⟩
  · have : hsrpIpAddr P i = .error e := k _ _
    rw [hsrpPriority, hasIpHsrp, this]; rfl

/-- C197: the access lists are those of the first lines `ip access-group NAME in` and `out`, for
lines without two blanks next to each other. -/
theorem C197_access_partial (h : parse o lines = .ok P) (hn : ∀ l ∈ lines, '\n' ∉ l) (i : Nat) (ht : ∀ t ∈ family P i, Cisco.Spec.Tidy t) :
    ∀ a ∈ [(ipv4AccessgroupIn, hasIpAccessgroupIn, "in"), (ipv4AccessgroupOut, hasIpAccessgroupOut, "out")],
      (∃ v, First (Word ["ip", "access-group"] [a.2.2]) (family P i) v ∧ a.1 P i = .ok (v.getD [])) ∧
      ∃ b, a.2.1 P i = .ok b ∧ (b = true ↔ ∃ t ∈ family P i, ∃ v, Word ["ip", "access-group"] [a.2.2] t v) := by
  intro a ha
  simp only [List.mem_cons, List.not_mem_nil, or_false] at ha
  rcases ha with rfl | rfl
  · exact ⟨C72_accessgroup_partial h hn i ht (Cisco.ipv4AccessgroupIn, "in") (by simp),
      C72_has_accessgroup_partial h hn i ht (Cisco.hasIpAccessgroupIn, "in") (by simp)⟩
  · exact ⟨C72_accessgroup_partial h hn i ht (Cisco.ipv4AccessgroupOut, "out") (by simp),
      C72_has_accessgroup_partial h hn i ht (Cisco.hasIpAccessgroupOut, "out") (by simp)⟩

/-- C197 fails: two blanks hide a line, and the access list of `ipv4 access-group A ingress`, the
line of this system, is missed. -/
theorem C197_lines_fails : ∃ P, parse { factory := true, syn := .iosxr } (hsrpLines ++ [" ipv4 address 10.0.0.2 255.0.0.0".toList,
      "interface Bundle-Ether4".toList, " ipv4 address 10.0.0.2 255.0.0.0".toList, " no ip  redirects".toList]) = .ok P ∧
    (hasNoIcmpRedirects P 0 == .ok true && hasNoIcmpRedirects P 20 == .ok false && manualArpTimeout P 0 == .ok 30 &&
      ipv4AccessgroupIn P 0 == .ok "IN".toList && hasIpAccessgroupIn P 14 == .ok false && ipv4AccessgroupIn P 14 == .ok [] &&
      hasNoIcmpRedirects P 14 == .error .dynamicAddress) = true :=
  shown (by decide +kernel)

/-! ## C198: VLANs of a trunk -/

/-- C198: the VLANs of a trunk after lines that set or change the whole list. -/
theorem C198_trunk_partial (h : parse o lines = .ok P) (hn : ∀ l ∈ lines, '\n' ∉ l) (i : Nat) (hs : isSwitchport P i = .ok true)
    (ha : hasManualSwitchAccess P i = .ok false) {S : Int → Prop} (hS : Nxos.Spec.Steps (kids P i) Nxos.Spec.Vlans S) :
    ∃ r, trunkVlansAllowed P i = .ok (some r) ∧ ∀ x, x ∈ r.lst ↔ S x :=
  Nxos.C143_trunk_partial h hn i hs ha hS

/-- C198: an interface that is no switch port, or an access port, has the integer 0. -/
theorem C198_none {i : Nat} {s a : Bool} (hs : isSwitchport P i = .ok s) (ha : hasManualSwitchAccess P i = .ok a)
    (hno : s = false ∨ a = true) : trunkVlansAllowed P i = .ok none :=
  Nxos.C143_none hs ha hno

/-- C198 fails: `add` to a non-empty list raises MismatchedType. -/
theorem C198_add_fails (h : parse o lines = .ok P) (hn : ∀ l ∈ lines, '\n' ∉ l) (i : Nat) (hs : isSwitchport P i = .ok true)
    (ha : hasManualSwitchAccess P i = .ok false) {ts us : List Str} {t v : Str} {S : Int → Prop} (hk : kids P i = ts ++ t :: us)
    (hS : Nxos.Spec.Steps ts Nxos.Spec.Vlans S) (hx : ∃ x, S x) (ht : Nxos.Spec.Change "add" t v) :
    trunkVlansAllowed P i = .error .mismatchedType :=
  Nxos.C143_add_fails h hn i hs ha hk hS hx ht

/-- C198 fails: `except` and `remove` with a list or a range raise ValueError. -/
theorem C198_list_fails (h : parse o lines = .ok P) (hn : ∀ l ∈ lines, '\n' ∉ l) (i : Nat) (hs : isSwitchport P i = .ok true)
    (ha : hasManualSwitchAccess P i = .ok false) {ts us : List Str} {t v : Str} {S : Int → Prop} (hk : kids P i = ts ++ t :: us)
    (hS : Nxos.Spec.Steps ts Nxos.Spec.Vlans S) (hx : ∃ x, S x) (ht : Nxos.Spec.Change "except" t v ∨ Nxos.Spec.Change "remove" t v)
    (hv : ',' ∈ v ∨ '-' ∈ v) : trunkVlansAllowed P i = .error .valueError :=
  Nxos.C143_list_fails h hn i hs ha hk hS hx ht hv

example : ∃ P, parse { factory := true, syn := .iosxr } Nxos.trunkLines = .ok P ∧
    (isSwitchport P 0 == .ok true && hasManualSwitchAccess P 0 == .ok false && decide (kids P 0 = (Nxos.trunkLines.drop 1).take 4) &&
      hasManualSwitchAccess P 8 == .ok true) = true :=
  shown (by decide +kernel)

end Xr

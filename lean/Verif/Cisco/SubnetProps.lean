import Verif.Cisco.Subnet
import Verif.Cisco.AddrProps
import Verif.Nxos.AddrProps

/-! # Properties of IOS interfaces: subnets and networks -/

namespace Cisco

open Py Conf Query Re

variable {o : Opts} {lines : List Str} {P : Parsed}

/-! ## C169: `in_ipv4_subnet` and `in_ipv4_subnets` -/

theorem ofStr_mask {a m : Str} {n p : Nat} (h : IP.Quad a n) (hm : IP.Mask4 m p) :
    IP.V4.ofStr (a ++ '/' :: m) = .ok (IP.obj4 n p) :=
  (IP.getIpv4_text ⟨a, h, .inr ⟨m, hm, by simp⟩⟩).2.2.2

/-- C169: for an interface with an address, that is the first line `ip address A M ..` has a valid
address and mask, `in_ipv4_subnet(net)` is true exactly if every address of the
network of the interface is one of `net`; it is False for None and for the empty `IPv4Obj`, and
None for an argument of another type.  Without an address, and with a dynamic one, it is False. -/
theorem C169_subnet (i : Nat) :
    ∃ v, Spec.First Spec.AddrStart (Spec.family P i) v ∧
      (∀ a m n p, v = some (a, m) → a ≠ "dhcp".toList → a ≠ "negotiated".toList → IP.Quad a n → IP.Mask4 m p →
        (∀ net : IP.V4, net.Reachable → ∃ b, inIpv4Subnet P i (.obj (some net)) = .ok (some b) ∧
          (b = true ↔ ∀ x, IP.InNet 32 n p x → IP.InNet 32 net.net net.plen x)) ∧
        inIpv4Subnet P i .none = .ok (some false) ∧ inIpv4Subnet P i (.obj none) = .ok (some false) ∧
        inIpv4Subnet P i .other = .ok none) ∧
      ((v = none ∨ (∃ m, v = some ("dhcp".toList, m)) ∨ ∃ m, v = some ("negotiated".toList, m)) →
        ∀ net, inIpv4Subnet P i net = .ok (some false)) := by
  obtain ⟨v, h1, h2⟩ := obj_first (P := P) i
  refine ⟨v, h1, ?_, ?_⟩
  · rintro a m n p rfl h3 h4 h5 h6
    dsimp only at h2
    rw [if_neg h3, if_neg h4, ofStr_mask h5 h6] at h2
    have hlt := (IP.Quad.dotted.mp h5).1
    refine ⟨fun net hr => ⟨IP.V4.contains (some net) (some (IP.obj4 n p)), ?_, Nxos.contains_obj hr hlt h6.le⟩, ?_, ?_, ?_⟩ <;>
      rw [inIpv4Subnet, h2] <;> rfl
  · intro hv net
    have : ipv4AddrObject P i = .ok none := by
      rw [h2]
      rcases hv with rfl | ⟨m, rfl⟩ | ⟨m, rfl⟩
      · rfl
      · rfl
      · show (if "negotiated".toList = "dhcp".toList then _ else if "negotiated".toList = "negotiated".toList then _ else _) = _
        rw [if_neg (by decide), if_pos rfl]
    rw [inIpv4Subnet, this]
    rfl

/-- C169: with at least one subnet that is not the empty object, `in_ipv4_subnets` is true exactly
if every address of the network of the interface is in one of them; False without an address. -/
theorem C169_subnets_partial (i : Nat) :
    ∃ v, Spec.First Spec.AddrStart (Spec.family P i) v ∧
      (∀ a m n p, v = some (a, m) → a ≠ "dhcp".toList → a ≠ "negotiated".toList → IP.Quad a n → IP.Mask4 m p →
        ∀ ss : List (Option IP.V4), (∃ s, some s ∈ ss) → (∀ s, some s ∈ ss → s.Reachable) →
          ∃ b, inIpv4Subnets P i (some ss) = .ok (some b) ∧
            (b = true ↔ ∃ s, some s ∈ ss ∧ ∀ x, IP.InNet 32 n p x → IP.InNet 32 s.net s.plen x)) ∧
      (v = none → ∀ ss, (∃ s, some s ∈ ss) → inIpv4Subnets P i (some ss) = .ok (some false)) ∧
      inIpv4Subnets P i none = .error .valueError := by
  obtain ⟨v, h1, h2⟩ := obj_first (P := P) i
  refine ⟨v, h1, ?_, ?_, rfl⟩
  · rintro a m n p rfl h3 h4 h5 h6
    dsimp only at h2
    rw [if_neg h3, if_neg h4, ofStr_mask h5 h6] at h2
    have hlt := (IP.Quad.dotted.mp h5).1
    have hs : ∀ s, inIpv4Subnet P i (.obj (some s)) = .ok (some (IP.V4.contains (some s) (some (IP.obj4 n p)))) := by
      intro s; rw [inIpv4Subnet, h2]; rfl
    have loop : ∀ (ss : List (Option IP.V4)) (tmp : Option (Option Bool)), ((∃ s, some s ∈ ss) ∨ tmp = some (some false)) →
        (∀ s, some s ∈ ss → s.Reachable) → ∃ b, inSubnetsLoop P i tmp ss = .ok (some b) ∧
          (b = true ↔ ∃ s, some s ∈ ss ∧ ∀ x, IP.InNet 32 n p x → IP.InNet 32 s.net s.plen x) := by
      intro ss
      induction ss with
      | nil =>
        rintro tmp (⟨s, hh⟩ | rfl) _
        · simp at hh
        · exact ⟨false, rfl, by simp⟩
      | cons s ss ih =>
        intro tmp ht hr
        cases s with
        | none =>
          obtain ⟨b, b1, b2⟩ := ih tmp (ht.imp (by rintro ⟨s, hs⟩; exact ⟨s, by simpa using hs⟩) id) (fun s hs => hr s (by simp [hs]))
          exact ⟨b, b1, b2.trans (by simp)⟩
        | some s =>
          have hc := Nxos.contains_obj (hr s (by simp)) hlt h6.le
          rw [inSubnetsLoop, hs s, h2]
          show ∃ b, (if IP.V4.contains (some s) (some (IP.obj4 n p)) = true then _ else _) = _ ∧ _
          by_cases hin : IP.V4.contains (some s) (some (IP.obj4 n p)) = true
          · rw [if_pos hin, hin]
            exact ⟨true, rfl, by simp only [true_iff]; exact ⟨s, by simp, hc.mp hin⟩⟩
          · rw [if_neg hin, Bool.eq_false_iff.mpr hin]
            obtain ⟨b, b1, b2⟩ := ih (some (some false)) (.inr rfl) (fun s hs => hr s (by simp [hs]))
            refine ⟨b, b1, b2.trans ?_⟩
            constructor
            · rintro ⟨x, hx, h⟩; exact ⟨x, by simp [hx], h⟩
            · rintro ⟨x, hx, h⟩
              rcases List.mem_cons.mp hx with e | hx
              · cases e; exact absurd (hc.mpr h) hin
              · exact ⟨x, hx, h⟩
    exact fun ss hne hr => loop ss none (.inl hne) hr
  · rintro rfl
    have h2 : ipv4AddrObject P i = .ok none := h2
    have hs : ∀ s, inIpv4Subnet P i (.obj (some s)) = .ok (some false) := by
      intro s; rw [inIpv4Subnet, h2]; rfl
    have loop : ∀ (ss : List (Option IP.V4)) (tmp : Option (Option Bool)), ((∃ s, some s ∈ ss) ∨ tmp = some (some false)) →
        inSubnetsLoop P i tmp ss = .ok (some false) := by
      intro ss
      induction ss with
      | nil =>
        rintro tmp (⟨s, hh⟩ | rfl)
        · simp at hh
        · rfl
      | cons s ss ih =>
        intro tmp ht
        cases s with
        | none => exact ih tmp (ht.imp (by rintro ⟨s, hs⟩; exact ⟨s, by simpa using hs⟩) id)
        | some s =>
          rw [inSubnetsLoop, hs s, h2]
          exact ih _ (.inr rfl)
    exact fun ss hne => loop ss none (.inl hne)

/-- C169 fails for a list of subnets that is empty or has empty objects only: `in_ipv4_subnets`
raises UnboundLocalError for every interface, where the answer is False. -/
theorem C169_empty_fails (P : Parsed) (i : Nat) (ss : List (Option IP.V4)) (h : ∀ s ∈ ss, s = none) :
    inIpv4Subnets P i (some ss) = .error .unbound := by
  show inSubnetsLoop P i none ss = _
  induction ss with
  | nil => rfl
  | cons s ss ih =>
    rw [h s (by simp)]
    exact ih (fun s hs => h s (by simp [hs]))

/-- Two interfaces, one without an address. -/
def subLines : List Str :=
  ["interface FastEthernet0/1", " ip address 10.1.2.3 255.255.255.0", " ip address 10.9.8.7 255.255.0.0 secondary",
    " ip address 10.9.8.8 255.255.0.0 secondary", "interface FastEthernet0/2", " duplex full"].map String.toList

example : ∃ P, parse { factory := true } subLines = .ok P ∧
    (inIpv4Subnet P 0 (.obj (some ⟨0x0a010000, 16, 0x0a010000⟩)) == .ok (some true) &&
      inIpv4Subnet P 0 (.obj (some ⟨0x0a010203, 32, 0x0a010203⟩)) == .ok (some false) &&
      inIpv4Subnets P 0 (some [none, some ⟨0x0b000000, 8, 0x0b000000⟩, some ⟨0x0a000000, 8, 0x0a000000⟩]) == .ok (some true) &&
      inIpv4Subnet P 4 (.obj (some ⟨0x0a010000, 16, 0x0a010000⟩)) == .ok (some false)) = true :=
  of_shows (by decide +kernel)

/-! ## C170: `ip_network_object` -/

/-- C170 fails for every interface: `ip_network_object` (and `ipv4_network_object`) is the empty
object, whatever the address. -/
theorem C170_network_fails (h : parse o lines = .ok P) (hn : ∀ l ∈ lines, '\n' ∉ l) (i : Nat) :
    ipNetworkObject P i = .ok none := by
  obtain ⟨a, ha⟩ := ipv4Addr_ok h hn i
  rw [ipNetworkObject, ha]
  rfl

example : ∃ P, parse { factory := true } subLines = .ok P ∧
    (ipv4Addr P 0 == .ok "10.1.2.3".toList && ipNetworkObject P 0 == .ok none) = true :=
  of_shows (by decide +kernel)

end Cisco

import Verif.Asa.Intf
import Verif.Asa.ClassProps
import Verif.Cisco.Addr6Props
import Verif.Cisco.SecondaryProps
import Verif.Nxos.HsrpProps

/-! # Properties of ASA interfaces: addresses -/

namespace Asa

open Py Conf Query Re Cisco
open Cisco.Spec (First family wd DottedQuad)

variable {o : Opts} {lines : List Str} {P : Parsed}

/-! ## Dotted quads at the beginning of a word -/

/-- The word starts with the dotted quad `a`, which does not go on with a digit. -/
def Spec.LeadQuad (w a : Str) : Prop := ∃ u, w = a ++ u ∧ DottedQuad a ∧ ∀ c, u.head? = some c → isDigit c = false

/-- `(quad)`, open at the end. -/
theorem tail_lead_quad (g : Nat) :
    Tail (.grp g (quad .done) .done) g (fun ws a => ∃ w more, ws = w :: more ∧ Spec.LeadQuad w a) := by
  have hd : ∀ r c q, (Prog.grp g (quad .done) .done).det r c = some q ↔
      ∃ a s, r = a ++ s ∧ DottedQuad a ∧ (∀ x, s.head? = some x → isDigit x = false) ∧ q = (s, (g, a) :: c) := by
    intro r c q
    rw [det_grp g _ _ rfl]
    constructor
    · rintro ⟨x, s, h1, h2, h3⟩
      rw [Prog.det] at h3
      cases h3
      obtain ⟨a, s', e1, e2, e3, e4⟩ := (quad_open _ _ _ _).mp h2
      rw [Prog.det] at e4
      cases e4
      have : x = a := List.append_cancel_right (h1.symm.trans e1)
      subst this
      exact ⟨x, s, h1, e2, e3, rfl⟩
    · rintro ⟨a, s, h1, h2, h3, rfl⟩
      exact ⟨a, s, h1, (quad_open _ _ _ _).mpr ⟨a, s, h1, h2, h3, rfl⟩, rfl⟩
  refine ⟨fun _ => rfl, ?_, ?_⟩
  · intro r c q h0 _ h
    obtain ⟨a, s, h1, h2, h3, rfl⟩ := (hd _ _ _).mp h
    have hne : r ≠ [] := by rintro rfl; exact (quad_word h2).1 (List.append_eq_nil_iff.mp h1.symm).1
    obtain ⟨v, rest, e1, e2, e3, e4⟩ := split_cons h0 hne
    obtain ⟨u, hu⟩ := (prefix_first (quad_word h2) e2 e3).mp (by rw [← e1, h1]; exact List.prefix_append _ _)
    refine ⟨a, ⟨v, _, e4, u, hu.symm, h2, ?_⟩, by simp⟩
    intro x hx
    apply h3
    have : s = u ++ rest := by
      refine List.append_cancel_left (as := a) ?_
      rw [← h1, e1, ← hu]; simp
    rw [this, List.head?_append, hx]; rfl
  · rintro r c a h0 _ ⟨w, more, h1, u, h2, h3, h4⟩
    have hne : r ≠ [] := by rintro rfl; cases h1
    obtain ⟨v, rest, e1, e2, e3, e4⟩ := split_cons h0 hne
    rw [e4] at h1
    obtain ⟨rfl, -⟩ := List.cons.inj h1
    refine ⟨_, (hd _ _ _).mpr ⟨a, u ++ rest, by rw [e1, h2]; simp, h3, ?_, rfl⟩⟩
    intro x hx
    cases u with
    | nil => exact space_not_digit (e3 x (by simpa using hx))
    | cons y u => exact h4 x (by simpa using hx)

/-! ## C175: addresses -/

/-- What a configuration shows when it is parsed. -/
theorem shown {lines : List Str} {Q : Parsed → Bool}
    (h : (match parse { factory := true, syn := .asa } lines with
      | .ok P => Q P
      | .error _ => false) = true) :
    ∃ P, parse { factory := true, syn := .asa } lines = .ok P ∧ Q P = true := by
  split at h
  · exact ⟨_, by assumption, h⟩
  · cases h

/-- An indented line ` ip address A ..`. -/
def Spec.Addr (t a : Str) : Prop :=
  Cisco.Spec.Indented t ∧ ∃ w more, splitWs t = wd ["ip", "address"] ++ w :: more ∧ Spec.LeadQuad w a

/-- An indented line ` ip address A M ..`. -/
def Spec.Mask (t m : Str) : Prop :=
  Cisco.Spec.Indented t ∧ ∃ v w more, splitWs t = wd ["ip", "address"] ++ v :: w :: more ∧ DottedQuad v ∧ Spec.LeadQuad w m

/-- An indented line ` ip address A M ..`, with both. -/
def Spec.Both (t : Str) (a : Str × Str) : Prop :=
  Cisco.Spec.Indented t ∧ ∃ w more, splitWs t = wd ["ip", "address"] ++ a.1 :: w :: more ∧ DottedQuad a.1 ∧ Spec.LeadQuad w a.2

theorem addr_attr (h : parse o lines = .ok P) (hn : ∀ l ∈ lines, '\n' ∉ l) (i : Nat) :
    ∃ v, First Spec.Addr (family P i) v ∧ ipv4Addr P i = .ok (v.getD []) := by
  obtain ⟨v, h1, h2⟩ := tail_attr h hn i (ind := true) (pre := gaps true ["ip", "address"]) (n := 1) (names := [])
    (rx := "^\\s+ip\\s+address\\s+(\\d+\\.\\d+\\.\\d+\\.\\d+)") (tail_lead_quad 1) (by decide +kernel)
    (fun t _ => ipFits t) toStr [] (fun _ v _ => ⟨v, rfl⟩)
  refine ⟨v, first_congr (fun t _ a => ?_) h1, h2⟩
  constructor
  · rintro ⟨a1, more, v, a2, ⟨w, more', rfl, a3⟩, a5⟩
    cases a5
    rw [fst_gaps] at a2
    exact ⟨a1 rfl, w, more', a2, a3⟩
  · rintro ⟨a1, w, more', a2, a3⟩
    refine ⟨fun _ => a1, _, a, ?_, ⟨w, more', rfl, a3⟩, rfl⟩
    rw [fst_gaps]; exact a2

theorem mask_attr (h : parse o lines = .ok P) (hn : ∀ l ∈ lines, '\n' ∉ l) (i : Nat) :
    ∃ v, First Spec.Mask (family P i) v ∧ ipv4Netmask P i = .ok (v.getD []) := by
  obtain ⟨v, h1, h2⟩ := tail_attr h hn i (ind := true) (pre := gaps true ["ip", "address"]) (n := 1) (names := [])
    (rx := "^\\s+ip\\s+address\\s+\\d+\\.\\d+\\.\\d+\\.\\d+\\s+(\\d+\\.\\d+\\.\\d+\\.\\d+)") (tail_quad (tail_lead_quad 1)) (by decide +kernel)
    (fun t _ => ipFits t) toStr [] (fun _ v _ => ⟨v, rfl⟩)
  refine ⟨v, first_congr (fun t _ a => ?_) h1, h2⟩
  constructor
  · rintro ⟨a1, more, v, a2, ⟨u, more', rfl, a3, w, more'', rfl, a4⟩, a5⟩
    cases a5
    rw [fst_gaps] at a2
    exact ⟨a1 rfl, u, w, more'', a2, a3, a4⟩
  · rintro ⟨a1, u, w, more', a2, a3, a4⟩
    refine ⟨fun _ => a1, _, a, ?_, ⟨u, _, rfl, a3, w, more', rfl, a4⟩, rfl⟩
    rw [fst_gaps]; exact a2

theorem leadQuad_unique {w a b : Str} (h1 : Spec.LeadQuad w a) (h2 : Spec.LeadQuad w b) : a = b := by
  obtain ⟨u, e1, a1, a2⟩ := h1
  obtain ⟨u', e2, b1, b2⟩ := h2
  have k1 : (quad .done).det w [] = some (u, []) := (quad_open _ _ _ _).mpr ⟨a, u, e1, a1, a2, rfl⟩
  have k2 : (quad .done).det w [] = some (u', []) := (quad_open _ _ _ _).mpr ⟨b, u', e2, b1, b2, rfl⟩
  rw [k1] at k2
  cases k2
  exact List.append_cancel_right (e1.symm.trans e2)

theorem both_unique (t : Str) (a b : Str × Str) (h1 : Spec.Both t a) (h2 : Spec.Both t b) : a = b := by
  obtain ⟨-, w, m, e1, -, a1⟩ := h1
  obtain ⟨-, w', m', e2, -, b1⟩ := h2
  have := List.append_cancel_left (e1.symm.trans e2)
  simp only [List.cons.injEq] at this
  obtain ⟨k1, rfl, -⟩ := this
  exact Prod.ext k1 (leadQuad_unique a1 b1)

theorem slash_invalid : IP.V4.ofStr "/".toList = .error .addressValue := by decide +kernel

/-- The attributes, one by one. -/
theorem attrs (h : parse o lines = .ok P) (hn : ∀ l ∈ lines, '\n' ∉ l) (i : Nat) :
    ∃ va vm, First Spec.Addr (family P i) va ∧ First Spec.Mask (family P i) vm ∧
      ipv4Addr P i = .ok (va.getD []) ∧ ipv4Netmask P i = .ok (vm.getD []) ∧
      (∀ r, IP.V4.ofStr (va.getD [] ++ '/' :: vm.getD []) = r →
        ipv4AddrObject P i = (match r with | .ok o => some o | .error _ => none) ∧
        ipNetworkObject P i = (match r with
          | .ok o => .ok o.network
          | .error .attributeError => .error .attributeError
          | .error _ => .error .valueError)) := by
  obtain ⟨va, a1, a2⟩ := addr_attr h hn i
  obtain ⟨vm, m1, m2⟩ := mask_attr h hn i
  refine ⟨va, vm, a1, m1, a2, m2, ?_⟩
  rintro r rfl
  rw [ipv4AddrObject, ipNetworkObject, a2, m2]
  exact ⟨rfl, rfl⟩

/-- C175: `ipv4_addr` is the dotted quad behind `ip address` on the first line that has one, and
`ipv4_netmask` the second one on the first line that has two. -/
theorem C175_text (h : parse o lines = .ok P) (hn : ∀ l ∈ lines, '\n' ∉ l) (i : Nat) :
    (∃ v, First Spec.Addr (family P i) v ∧ ipv4Addr P i = .ok (v.getD [])) ∧
    (∃ v, First Spec.Mask (family P i) v ∧ ipv4Netmask P i = .ok (v.getD [])) :=
  ⟨addr_attr h hn i, mask_attr h hn i⟩

theorem first_both (h : parse o lines = .ok P) (hn : ∀ l ∈ lines, '\n' ∉ l) (i : Nat)
    (hb : ∀ t ∈ family P i, ∀ a, Spec.Addr t a → ∃ m, Spec.Both t (a, m)) :
    ∃ v, First Spec.Both (family P i) v ∧ ipv4Addr P i = .ok ((v.map Prod.fst).getD []) ∧
      ipv4Netmask P i = .ok ((v.map Prod.snd).getD []) ∧
      (∀ r, IP.V4.ofStr ((v.map Prod.fst).getD [] ++ '/' :: (v.map Prod.snd).getD []) = r →
        ipv4AddrObject P i = (match r with | .ok o => some o | .error _ => none) ∧
        ipNetworkObject P i = (match r with
          | .ok o => .ok o.network
          | .error .attributeError => .error .attributeError
          | .error _ => .error .valueError)) := by
  obtain ⟨va, vm, a1, m1, a2, m2, h3⟩ := attrs h hn i
  have e1 := first_congr (S' := fun t a => ∃ m, Spec.Both t (a, m)) (fun t ht a => by
    constructor
    · exact hb t ht a
    · rintro ⟨m, b1, w, more, b2, b3, b4⟩
      exact ⟨b1, a, w :: more, b2, [], by simp, b3, by simp⟩) a1
  have e2 := first_congr (S' := fun t m => ∃ a, Spec.Both t (a, m)) (fun t ht m => by
    constructor
    · rintro ⟨b1, v, w, more, b2, b3, b4⟩
      exact ⟨v, b1, w, more, b2, b3, b4⟩
    · rintro ⟨a, b1, w, more, b2, b3, b4⟩
      exact ⟨b1, a, w, more, b2, b3, b4⟩) m1
  obtain ⟨v, b1, rfl, rfl⟩ := first_pair both_unique e1 e2
  exact ⟨v, b1, a2, m2, h3⟩

/-- C175: if each address of the interface comes with a mask and the first line ` ip address A M
..` has a valid address and mask, `ipv4_addr_object` is that address with the length of that mask,
`ipv4_masklength` is the length and `has_no_ipv4` is False.  An interface without an address has
the empty object, the length 0, and `has_no_ipv4` is True. -/
theorem C175_object (h : parse o lines = .ok P) (hn : ∀ l ∈ lines, '\n' ∉ l) (i : Nat)
    (hb : ∀ t ∈ family P i, ∀ a, Spec.Addr t a → ∃ m, Spec.Both t (a, m)) :
    ∃ v, First Spec.Both (family P i) v ∧ ipv4Addr P i = .ok ((v.map Prod.fst).getD []) ∧
      ipv4Netmask P i = .ok ((v.map Prod.snd).getD []) ∧
      (∀ a m n p, v = some (a, m) → IP.Quad a n → IP.Mask4 m p →
        ipv4AddrObject P i = some (IP.obj4 n p) ∧ ipv4Masklength P i = p ∧ hasNoIpv4 P i = false) ∧
      (v = none → ipv4AddrObject P i = none ∧ ipv4Masklength P i = 0 ∧ hasNoIpv4 P i = true) := by
  obtain ⟨v, b1, b2, b3, b4⟩ := first_both h hn i hb
  refine ⟨v, b1, b2, b3, ?_, ?_⟩
  · rintro a m n p rfl h5 h6
    have ho := (b4 _ (ofStr_mask h5 h6)).1
    have ho : ipv4AddrObject P i = some (IP.obj4 n p) := ho
    exact ⟨ho, by rw [ipv4Masklength, ho]; rfl, by rw [hasNoIpv4, ho]; rfl⟩
  · rintro rfl
    have ho : ipv4AddrObject P i = none := (b4 _ slash_invalid).1
    exact ⟨ho, by rw [ipv4Masklength, ho], by rw [hasNoIpv4, ho]; rfl⟩

/-- An ASA interface with a standby address, and one that has its address from a server. -/
def asaLines : List Str :=
  ["interface GigabitEthernet0/1.10", " nameif inside", " ip address 10.1.2.3 255.255.255.0 standby 10.1.2.4",
    " ipv6 address 2001:0db8::1/64 standby 2001:db8::2",
    "interface GigabitEthernet0/2", " ip address dhcp setroute", " speed 100", " description x",
    "interface GigabitEthernet0/3", " ip address 10.1.3.3 255.255.255.0  standby 10.1.3.4"].map String.toList

example : ∃ P, parse { factory := true, syn := .asa } asaLines = .ok P ∧
    (ipv4Addr P 0 == .ok "10.1.2.3".toList && ipv4Netmask P 0 == .ok "255.255.255.0".toList &&
      ipv4AddrObject P 0 == some (IP.obj4 0x0a010203 24) && ipv4Masklength P 0 == 24 && hasNoIpv4 P 0 == false &&
      ipv4AddrObject P 4 == none && hasNoIpv4 P 4 == true) = true :=
  shown (by decide +kernel)

/-! ## C176: subnets and networks -/

theorem contains_regular {n p : Nat} (hn : n < 2 ^ 32) (hp : p ≤ 32) {net : IP.V4} (hr : net.Reachable) :
    IP.V4.contains (some net) (some (IP.obj4 n p)) = true ↔ ∀ x, IP.InNet 32 n p x → IP.InNet 32 net.net net.plen x :=
  Nxos.contains_obj hr hn hp

/-- C176: for an interface with a valid address and mask, `in_ipv4_subnet(net)` is True exactly if
every address of the network of the interface is one of `net`, False for the empty object, and an
exception for something else.  `in_ipv4_subnets` of a list that is not empty is True exactly if
this holds for one of its elements.  `ip_network_object` is the network: its lowest address and
its length. -/
theorem C176_subnet (h : parse o lines = .ok P) (hn : ∀ l ∈ lines, '\n' ∉ l) (i : Nat)
    (hb : ∀ t ∈ family P i, ∀ a, Spec.Addr t a → ∃ m, Spec.Both t (a, m)) :
    ∃ v, First Spec.Both (family P i) v ∧
      ∀ a m n p, v = some (a, m) → IP.Quad a n → IP.Mask4 m p →
        (∀ net : IP.V4, net.Reachable → ∃ b, inIpv4Subnet P i (some (some net)) = .ok (some b) ∧
          (b = true ↔ ∀ x, IP.InNet 32 n p x → IP.InNet 32 net.net net.plen x)) ∧
        inIpv4Subnet P i (some none) = .ok (some false) ∧ inIpv4Subnet P i none = .error .valueError ∧
        (∀ ss : List (Option IP.V4), ss ≠ [] → (∀ s, some s ∈ ss → s.Reachable) →
          ∃ b, inIpv4Subnets P i (some ss) = .ok (some b) ∧
            (b = true ↔ ∃ s, some s ∈ ss ∧ ∀ x, IP.InNet 32 n p x → IP.InNet 32 s.net s.plen x)) ∧
        ∃ net, ipNetworkObject P i = .ok (net, p) ∧ IP.InNet 32 n p net ∧ ∀ x, IP.InNet 32 n p x → net ≤ x := by
  obtain ⟨v, b1, -, -, b4⟩ := first_both h hn i hb
  refine ⟨v, b1, ?_⟩
  rintro a m n p rfl h5 h6
  have ho : ipv4AddrObject P i = some (IP.obj4 n p) := (b4 _ (ofStr_mask h5 h6)).1
  have hnet : ipNetworkObject P i = .ok (IP.obj4 n p).network := (b4 _ (ofStr_mask h5 h6)).2
  have hlt := (IP.Quad.dotted.mp h5).1
  have hs : ∀ s, inIpv4Subnet P i (some s) = .ok (some (IP.V4.contains s (some (IP.obj4 n p)))) := by
    intro s; simp only [inIpv4Subnet, ho]
  refine ⟨fun net hr => ⟨_, hs _, contains_regular hlt h6.le hr⟩, hs none, by simp only [inIpv4Subnet, ho], ?_, ?_⟩
  · have loop : ∀ (ss : List (Option IP.V4)) (tmp : Option (Option Bool)), (ss ≠ [] ∨ tmp = some (some false)) →
        (∀ s, some s ∈ ss → s.Reachable) → ∃ b, inSubnetsLoop P i tmp ss = .ok (some b) ∧
          (b = true ↔ ∃ s, some s ∈ ss ∧ ∀ x, IP.InNet 32 n p x → IP.InNet 32 s.net s.plen x) := by
      intro ss
      induction ss with
      | nil =>
        rintro tmp (hh | rfl) _
        · exact absurd rfl hh
        · exact ⟨false, rfl, by simp⟩
      | cons s ss ih =>
        intro tmp ht hr
        have e : inSubnetsLoop P i tmp (s :: ss) = if IP.V4.contains s (some (IP.obj4 n p)) = true
            then .ok (some (IP.V4.contains s (some (IP.obj4 n p))))
            else inSubnetsLoop P i (some (some (IP.V4.contains s (some (IP.obj4 n p))))) ss := by
          cases tmp <;> (rw [inSubnetsLoop, hs s, ho]; rfl)
        rw [e]
        by_cases hin : IP.V4.contains s (some (IP.obj4 n p)) = true
        · rw [if_pos hin, hin]
          cases s with
          | none => cases hin
          | some s => exact ⟨true, rfl, by simp only [true_iff]; exact ⟨s, by simp, (contains_regular hlt h6.le (hr s (by simp))).mp hin⟩⟩
        · rw [if_neg hin, Bool.eq_false_iff.mpr hin]
          obtain ⟨b, b1, b2⟩ := ih (some (some false)) (.inr rfl) (fun s hs => hr s (by simp [hs]))
          refine ⟨b, b1, b2.trans ?_⟩
          constructor
          · rintro ⟨x, hx, h⟩; exact ⟨x, by simp [hx], h⟩
          · rintro ⟨x, hx, h⟩
            rcases List.mem_cons.mp hx with e | hx
            · subst e
              exact absurd ((contains_regular hlt h6.le (hr x (by simp))).mpr h) hin
            · exact ⟨x, hx, h⟩
    exact fun ss hne hr => loop ss none (.inl hne) hr
  · have hpos : 0 < 2 ^ (32 - p) := Nat.two_pow_pos _
    have hle : n / 2 ^ (32 - p) * 2 ^ (32 - p) ≤ n := Nat.div_mul_le_self _ _
    have e : (IP.obj4 n p).network = (n / 2 ^ (32 - p) * 2 ^ (32 - p), p) := by
      rw [IP.V4.network, IP.obj4]
      dsimp only
      rw [IP.networkOf_eq 32 _ _ h6.le (by omega), Nat.mul_div_cancel _ hpos]
    refine ⟨_, by rw [hnet, e], ⟨by omega, Nat.mul_div_cancel _ hpos⟩, ?_⟩
    rintro x ⟨-, hx⟩
    rw [← hx]
    exact Nat.div_mul_le_self _ _

/-- C176: `in_ipv4_subnets` of something that is not a list raises ValueError, with an address or without one. -/
theorem C176_no_list (P : Parsed) (i : Nat) : inIpv4Subnets P i none = .error .valueError := rfl

/-- C176: without an address, `in_ipv4_subnet` and `in_ipv4_subnets` are None, and
`ip_network_object` raises ValueError. -/
theorem C176_none (h : parse o lines = .ok P) (hn : ∀ l ∈ lines, '\n' ∉ l) (i : Nat)
    (hb : ∀ t ∈ family P i, ∀ a, ¬ Spec.Addr t a) :
    (∀ net, inIpv4Subnet P i net = .ok none) ∧ (∀ ss, ss ≠ [] → inIpv4Subnets P i (some ss) = .ok none) ∧
      ipNetworkObject P i = .error .valueError := by
  obtain ⟨v, b1, -, -, b4⟩ := first_both h hn i (fun t ht a ha => absurd ha (hb t ht a))
  have hv : v = none := by
    cases v with
    | none => rfl
    | some a =>
      obtain ⟨t, ht, c1, w, more, c2, c3, c4⟩ := (first_exists b1).2 _ rfl
      exact absurd ⟨c1, a.1, w :: more, c2, [], by simp, c3, by simp⟩ (hb t ht a.1)
  subst hv
  have ho : ipv4AddrObject P i = none := (b4 _ slash_invalid).1
  have hnet : ipNetworkObject P i = .error .valueError := (b4 _ slash_invalid).2
  have hs : ∀ s, inIpv4Subnet P i s = .ok none := by
    intro s; simp only [inIpv4Subnet, ho]
  refine ⟨hs, ?_, hnet⟩
  have loop : ∀ (ss : List (Option IP.V4)) (tmp : Option (Option Bool)), (ss ≠ [] ∨ tmp = some none) →
      inSubnetsLoop P i tmp ss = .ok none := by
    intro ss
    induction ss with
    | nil =>
      rintro tmp (hh | rfl)
      · exact absurd rfl hh
      · rfl
    | cons s ss ih =>
      intro tmp ht
      have e : inSubnetsLoop P i tmp (s :: ss) = if IP.V4.contains s none = true then .ok none
          else inSubnetsLoop P i (some none) ss := by
        cases tmp <;> (rw [inSubnetsLoop, hs, ho]; rfl)
      rw [e]
      split
      · rfl
      · exact ih _ (.inr rfl)
  exact fun ss hne => loop ss none (.inl hne)

example : ∃ P, parse { factory := true, syn := .asa } asaLines = .ok P ∧
    (inIpv4Subnet P 0 (some (some (IP.obj4 0x0a010000 16))) == .ok (some true) &&
      inIpv4Subnet P 0 (some (some (IP.obj4 0x0a010203 32))) == .ok (some false) &&
      inIpv4Subnets P 0 (some [none, some (IP.obj4 0x0b000000 8), some (IP.obj4 0x0a000000 8)]) == .ok (some true) &&
      ipNetworkObject P 0 == .ok (0x0a010200, 24) && inIpv4Subnet P 4 (some (some (IP.obj4 0 0))) == .ok none &&
      ipNetworkObject P 4 == .error .valueError) = true :=
  shown (by decide +kernel)

/-! ## C177: standby addresses -/

def standbyTail (m : Bool) : Prog :=
  quad (.plus .space (quad (gap m (str "standby".toList (.plus .space (.grp 1 (.plus .nonspace .done) (ends true [])))))))

theorem standby_eq {r : Str} (hr : NoDouble r) (c : Caps) : (standbyTail false).det r c = (standbyTail true).det r c := by
  have hsp : ∀ (p q : Prog), (∀ s, s <:+ r → ∀ c, p.det s c = q.det s c) → ∀ s, s <:+ r → ∀ c,
      (Prog.plus .space p).det s c = (Prog.plus .space q).det s c := by
    intro p q h s hs c
    cases s with
    | nil => rfl
    | cons x s =>
      rw [plus_cons, plus_cons]
      split
      · exact h _ ((List.dropWhile_suffix _).trans ((List.suffix_cons _ _).trans hs)) _
      · rfl
  have hq : ∀ (p q : Prog), (∀ s, s <:+ r → ∀ c, p.det s c = q.det s c) → ∀ s, s <:+ r → ∀ c,
      (quad p).det s c = (quad q).det s c := by
    intro p q h s hs c
    refine Option.ext (fun x => ?_)
    rw [quad_open, quad_open]
    constructor
    · rintro ⟨v, u, rfl, h1, h2, h3⟩
      exact ⟨v, u, rfl, h1, h2, by rw [← h u ((List.suffix_append _ _).trans hs)]; exact h3⟩
    · rintro ⟨v, u, rfl, h1, h2, h3⟩
      exact ⟨v, u, rfl, h1, h2, by rw [h u ((List.suffix_append _ _).trans hs)]; exact h3⟩
  refine hq _ _ (hsp _ _ (hq _ _ ?_)) r (List.suffix_refl r) c
  intro s hs c
  rw [gap_eq (hr.suffix hs), gap_eq (hr.suffix hs)]

theorem standby_tail :
    Tail (standbyTail true) 1 (fun ws a => ∃ v more, ws = v :: more ∧ DottedQuad v ∧
      ∃ v' more', more = v' :: more' ∧ DottedQuad v' ∧ ∃ more'', more' = "standby".toList :: more'' ∧
        (more'' = [a] ∧ a.all K.nonspace.has = true)) :=
  tail_quad (tail_quad (Nxos.tail_word (tail_value 1 (k := .nonspace) trivial true (post := []) (by simp)) (by decide)))

/-- An indented line ` ip address A M standby S`. -/
def Spec.Standby (t a : Str) : Prop :=
  Cisco.Spec.Indented t ∧ ∃ v m, splitWs t = wd ["ip", "address"] ++ [v, m, "standby".toList, a] ∧ DottedQuad v ∧ DottedQuad m

/-- C177: `ipv4_standby_addr` is the last word of the first line ` ip address A M standby S`, and
`ipv4_standby_addr_object` is this address with the mask of the interface; for lines without two
blanks next to each other. -/
theorem C177_standby_partial (h : parse o lines = .ok P) (hn : ∀ l ∈ lines, '\n' ∉ l) (i : Nat)
    (ht : ∀ t ∈ family P i, Cisco.Spec.Tidy t) :
    ∃ v vm, First Spec.Standby (family P i) v ∧ First Spec.Mask (family P i) vm ∧ ipv4StandbyAddr P i = .ok (v.getD []) ∧
      (∀ a m n p, v = some a → vm = some m → IP.Quad a n → IP.Mask4 m p → ipv4StandbyAddrObject P i = some (IP.obj4 n p)) := by
  obtain ⟨vm, m1, m2⟩ := mask_attr h hn i
  have hi : Is "^\\s+ip\\s+address\\s+\\d+\\.\\d+\\.\\d+\\.\\d+\\s+\\d+\\.\\d+\\.\\d+\\.\\d+\\sstandby\\s+(\\S+)\\s*$"
      (lead true (wordsG (gaps true ["ip", "address"]) (standbyTail false))) 1 [] := by decide +kernel
  have hde : ∀ t, Cisco.Spec.Tidy t → ∀ q, (lead true (wordsG (gaps true ["ip", "address"]) (standbyTail false))).det t [] = some q ↔
      (lead true (wordsG (gaps true ["ip", "address"]) (standbyTail true))).det t [] = some q := by
    intro t ht q
    rw [det_chain true (words_of ipGaps) _ (fun _ => rfl) (ipFits t), det_chain true (words_of ipGaps) _ (fun _ => rfl) (ipFits t),
      standby_eq (NoDouble.suffix (skip_suffix _ _) ht)]
  have hsp : ∀ t a, Spec.Standby t a ↔ (true = true → Re.Indented t) ∧ ∃ more, splitWs t = (gaps true ["ip", "address"]).map Prod.fst ++ more ∧
      ∃ v more', more = v :: more' ∧ DottedQuad v ∧
      ∃ v' more₂, more' = v' :: more₂ ∧ DottedQuad v' ∧ ∃ more₃, more₂ = "standby".toList :: more₃ ∧
        (more₃ = [a] ∧ a.all K.nonspace.has = true) := by
    intro t a
    rw [fst_gaps]
    constructor
    · rintro ⟨a1, v, m, a2, a3, a4⟩
      refine ⟨fun _ => a1, _, a2, v, _, rfl, a3, m, _, rfl, a4, _, rfl, rfl, ?_⟩
      rw [List.all_eq_true]
      intro c hc
      have := (splitWs_words t a (by rw [a2]; simp)).2 c hc
      simp [K.has, this]
    · rintro ⟨a1, _, a2, v, _, rfl, a3, m, _, rfl, a4, _, rfl, rfl, -⟩
      exact ⟨a1 rfl, v, m, a2, a3, a4⟩
  obtain ⟨v, h1, h2⟩ := iter_first (Says := Spec.Standby) hi (g := 1) (by decide) (by decide) toStr [] P i
    (by
      intro t hm q hq
      obtain ⟨more, a, b1, b2, b3, b4⟩ := (chain_tail true ipGaps standby_tail (line_family h hn i t hm) (ipFits t) []).1 q
        ((hde t (ht t hm) q).mp hq)
      exact ⟨a, (hsp t a).mpr ⟨b1, more, b2, b3⟩, by rw [b4]; rfl⟩)
    (by
      intro t hm a ha
      obtain ⟨b1, more, b2, b3⟩ := (hsp t a).mp ha
      obtain ⟨q, hq⟩ := (chain_tail true ipGaps standby_tail (line_family h hn i t hm) (ipFits t) []).2 more a b1 b2 b3
      exact ⟨q, (hde t (ht t hm) q).mpr hq⟩)
  refine ⟨v, vm, h1, m1, h2, ?_⟩
  rintro a m n p rfl rfl h5 h6
  rw [ipv4StandbyAddrObject]
  rw [show ipv4StandbyAddr P i = .ok a from h2, m2]
  show (match IP.V4.ofStr (a ++ '/' :: m) with | .ok o => some o | .error _ => none) = _
  rw [ofStr_mask h5 h6]

example : ∃ P, parse { factory := true, syn := .asa } asaLines = .ok P ∧
    (ipv4StandbyAddr P 0 == .ok "10.1.2.4".toList && ipv4StandbyAddrObject P 0 == some (IP.obj4 0x0a010204 24)) = true :=
  shown (by decide +kernel)

/-- C177 fails with two blanks before `standby`: the address is found and the standby address is
not. -/
theorem C177_blanks_fails : ∃ P, parse { factory := true, syn := .asa } asaLines = .ok P ∧
    (ipv4Addr P 8 == .ok "10.1.3.3".toList && ipv4StandbyAddr P 8 == .ok [] && ipv4StandbyAddrObject P 8 == none) = true :=
  shown (by decide +kernel)

/-! ## C178: IPv6 addresses -/

/-- C178: `ipv6_addr_object`, `ipv6_addr` and `ipv6_masklength` are those of the first line ` ipv6
address A/L ..` with a valid address and prefix length; without such a line they are the empty
object, the empty string and 0. -/
theorem C178_object (P : Parsed) (i : Nat) :
    ∃ v, First Cisco.Spec.Addr6 (family P i) v ∧
      (∀ a m n, v = some (a, m) → IP.Text6 a n → m.length ≤ 3 → natVal m ≤ 128 →
        ipv6AddrObject P i = .ok (some (IP.obj6 n (natVal m))) ∧ ipv6Masklength P i = .ok (natVal m) ∧
        ipv6Addr P i = .ok (IP.str6 n)) ∧
      (v = none → ipv6AddrObject P i = .ok none ∧ ipv6Masklength P i = .ok 0 ∧ ipv6Addr P i = .ok []) := by
  obtain ⟨v, h1, h2, h3, -⟩ := C173_object P i
  have e : ipv6AddrObject P i = Cisco.ipv6AddrObject P i := rfl
  refine ⟨v, h1, ?_, ?_⟩
  · intro a m n hv ha hl hp
    have := (h2 a m n hv ha hl hp).1
    rw [← e] at this
    exact ⟨this, by rw [ipv6Masklength, this]; rfl, by rw [ipv6Addr, this]; rfl⟩
  · intro hv
    have := (h3 hv).1
    rw [← e] at this
    exact ⟨this, by rw [ipv6Masklength, this]; rfl, by rw [ipv6Addr, this]; rfl⟩

/-- A line `ipv6 address A standby S`. -/
def Spec.Standby6 (t a : Str) : Prop := ∃ v, splitWs t = wd ["ipv6", "address"] ++ [v, "standby".toList, a]

/-- C178: `ipv6_standby_addr` is the last word of the first child line that consists of `ipv6
address A standby S`. -/
theorem C178_standby (P : Parsed) (i : Nat) :
    ∃ v, First Spec.Standby6 (Cisco.Spec.kids P i) v ∧ ipv6StandbyAddr P i = v.getD [] := by
  rw [ipv6StandbyAddr]
  change ∃ v, First Spec.Standby6 (Cisco.Spec.kids P i) v ∧ standby6Loop (Cisco.Spec.kids P i) = v.getD []
  induction Cisco.Spec.kids P i with
  | nil => exact ⟨none, rfl, rfl⟩
  | cons t ts ih =>
    obtain ⟨v, h1, h2⟩ := ih
    by_cases hs : ∃ a, Spec.Standby6 t a
    · obtain ⟨a, w, e⟩ := hs
      refine ⟨some a, .inl ⟨a, ⟨w, e⟩, rfl⟩, ?_⟩
      rw [standby6Loop, e]
      rfl
    · refine ⟨v, .inr ⟨fun a ha => hs ⟨a, ha⟩, h1⟩, ?_⟩
      rw [standby6Loop]
      split
      · rename_i hlen
        rw [if_neg, h2]
        rintro ⟨e1, e2⟩
        obtain ⟨w0, w1, w2, w3, w4, e⟩ : ∃ w0 w1 w2 w3 w4, splitWs t = [w0, w1, w2, w3, w4] := by
          match hm : splitWs t, hlen with
          | [w0, w1, w2, w3, w4], _ => exact ⟨w0, w1, w2, w3, w4, rfl⟩
        rw [e] at e1 e2
        simp only [List.take_succ_cons, List.take_zero, List.cons.injEq, and_true] at e1
        simp at e2
        refine hs ⟨w4, w2, ?_⟩
        rw [e, e1.1, e1.2, e2]
        rfl
      · exact h2

example : ∃ P, parse { factory := true, syn := .asa } asaLines = .ok P ∧
    (ipv6Addr P 0 == .ok "2001:db8::1".toList && ipv6Masklength P 0 == .ok 64 &&
      ipv6StandbyAddr P 0 == "2001:db8::2".toList && ipv6Addr P 4 == .ok [] && ipv6StandbyAddr P 4 == []) = true :=
  shown (by decide +kernel)

end Asa

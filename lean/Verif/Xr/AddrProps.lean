import Verif.Xr.Intf
import Verif.Asa.IntfProps
import Verif.Nxos.AddrProps

/-! # Properties of IOS-XR interfaces: IPv4 addresses -/

namespace Xr

open Py Conf Query Re Cisco
open Cisco.Spec (First family wd DottedQuad)

variable {o : Opts} {lines : List Str} {P : Parsed}

/-! ## Specification -/

/-- An indented line `ipv4 address A M` with two dotted quads and nothing else. -/
def Spec.AddrLine (t : Str) (a : Str × Str) : Prop :=
  Cisco.Spec.Indented t ∧ splitWs t = wd ["ipv4", "address"] ++ [a.1, a.2] ∧ DottedQuad a.1 ∧ DottedQuad a.2

/-- An indented line `ipv4 address dhcp`. -/
def Spec.Dhcp (t : Str) : Prop := Cisco.Spec.Indented t ∧ Cisco.Spec.Exactly ["ipv4", "address", "dhcp"] t

/-- The first address line has a valid address and mask: the number `n` and the length `p`. -/
def Spec.Valid (v : Option (Str × Str)) (n p : Nat) : Prop := ∃ a m, v = some (a, m) ∧ IP.Quad a n ∧ IP.Mask4 m p

/-! ## Lemmas -/

theorem ip4Fits (t : Str) : Fits (gaps true ["ipv4", "address"]) (lstrip t) := .inl (by simp [gaps])

theorem addrLine_unique (t : Str) (a b : Str × Str) (h1 : Spec.AddrLine t a) (h2 : Spec.AddrLine t b) : a = b := by
  have := h1.2.1.symm.trans h2.2.1
  have := List.append_cancel_left this
  simp only [List.cons.injEq, and_true] at this
  exact Prod.ext this.1 this.2

theorem addr_first (h : parse o lines = .ok P) (hn : ∀ l ∈ lines, '\n' ∉ l) (i : Nat) :
    ∃ v, First Spec.AddrLine (family P i) v ∧
      iterTyped P i "^\\s+ipv4\\s+address\\s+(\\d+\\.\\d+\\.\\d+\\.\\d+)\\s+\\d+\\.\\d+\\.\\d+\\.\\d+\\s*$" 1 toStr [] =
        .ok ((v.map Prod.fst).getD []) ∧ ipv4Netmask P i = .ok ((v.map Prod.snd).getD []) := by
  obtain ⟨v₁, h1, h2⟩ := tail_attr h hn i (ind := true) (pre := gaps true ["ipv4", "address"]) (n := 1) (names := [])
    (rx := "^\\s+ipv4\\s+address\\s+(\\d+\\.\\d+\\.\\d+\\.\\d+)\\s+\\d+\\.\\d+\\.\\d+\\.\\d+\\s*$")
    (tail_cap_quad 1 (ends_quad 1 true)) (by decide +kernel) (fun t _ => ip4Fits t) toStr [] (fun _ v _ => ⟨v, rfl⟩)
  obtain ⟨v₂, h3, h4⟩ := tail_attr h hn i (ind := true) (pre := gaps true ["ipv4", "address"]) (n := 1) (names := [])
    (rx := "^\\s+ipv4\\s+address\\s+\\d+\\.\\d+\\.\\d+\\.\\d+\\s+(\\d+\\.\\d+\\.\\d+\\.\\d+)\\s*$")
    (tail_quad (tail_quad_end 1 true)) (by decide +kernel) (fun t _ => ip4Fits t) toStr [] (fun _ v _ => ⟨v, rfl⟩)
  have e1 := first_congr (S' := fun t a => ∃ m, Spec.AddrLine t (a, m)) (fun t _ a => by
    constructor
    · rintro ⟨a1, more, v, a2, ⟨a3, more', rfl, m, rfl, a4⟩, a5⟩
      cases a5
      rw [fst_gaps] at a2
      exact ⟨m, a1 rfl, a2, a3, a4⟩
    · rintro ⟨m, a1, a2, a3, a4⟩
      refine ⟨fun _ => a1, [a, m], a, ?_, ⟨a3, [m], rfl, m, rfl, a4⟩, rfl⟩
      rw [fst_gaps]; exact a2) h1
  have e2 := first_congr (S' := fun t m => ∃ a, Spec.AddrLine t (a, m)) (fun t _ m => by
    constructor
    · rintro ⟨a1, more, v, a2, ⟨a, more', rfl, a3, rfl, a4⟩, a5⟩
      cases a5
      rw [fst_gaps] at a2
      exact ⟨a, a1 rfl, a2, a3, a4⟩
    · rintro ⟨a, a1, a2, a3, a4⟩
      refine ⟨fun _ => a1, [a, m], m, ?_, ⟨a, [m], rfl, a3, rfl, a4⟩, rfl⟩
      rw [fst_gaps]; exact a2) h3
  obtain ⟨v, b1, b2, b3⟩ := first_pair addrLine_unique e1 e2
  exact ⟨v, b1, by rw [h2, b2], by rw [ipv4Netmask, h4, b3]⟩

theorem dhcp_first (h : parse o lines = .ok P) (hn : ∀ l ∈ lines, '\n' ∉ l) (i : Nat) :
    ∃ v, iterTyped P i "^\\s+ipv4\\s+address\\s+(dhcp)\\s*$" 1 toStr [] = .ok v ∧ (v = "dhcp".toList ∨ v = []) ∧
      (v = "dhcp".toList ↔ ∃ t ∈ family P i, Spec.Dhcp t) := by
  have hw : IsWord "dhcp".toList := isWord_iff.mp (by decide)
  obtain ⟨v, h1, h2⟩ := tail_attr h hn i (ind := true) (pre := gaps true ["ipv4", "address"]) (n := 1) (names := [])
    (rx := "^\\s+ipv4\\s+address\\s+(dhcp)\\s*$") (tail_exact 1 hw true) (by decide +kernel) (fun t _ => ip4Fits t) toStr []
    (fun _ v _ => ⟨v, rfl⟩)
  have e1 := first_congr (S' := fun t a => a = "dhcp".toList ∧ Spec.Dhcp t) (fun t _ a => by
    constructor
    · rintro ⟨a1, more, v, a2, ⟨rfl, rfl⟩, a5⟩
      cases a5
      rw [fst_gaps] at a2
      exact ⟨rfl, a1 rfl, a2⟩
    · rintro ⟨rfl, a1, a2⟩
      refine ⟨fun _ => a1, ["dhcp".toList], "dhcp".toList, ?_, ⟨rfl, rfl⟩, rfl⟩
      rw [fst_gaps]; exact a2) h1
  obtain ⟨i1, i2⟩ := first_exists e1
  refine ⟨_, h2, ?_, ?_⟩
  · cases v with
    | none => exact .inr rfl
    | some a =>
      obtain ⟨t, _, h, _⟩ := i2 a rfl
      exact .inl h
  · cases v with
    | none =>
      constructor
      · intro h; exact absurd h.symm hw.1
      · rintro ⟨t, ht, h⟩
        exact absurd ⟨rfl, h⟩ (i1.mp rfl t ht "dhcp".toList)
    | some a =>
      obtain ⟨t, ht, h, h'⟩ := i2 a rfl
      exact ⟨fun _ => ⟨t, ht, h'⟩, fun _ => h⟩

/-! ## C186: addresses -/

/-- C186: `ipv4_addr` and `ipv4_netmask` are the two quads of the first line `ipv4 address A M`;
lines with anything behind them, such as `secondary`, do not count.  Without one they are empty.
With a line `ipv4 address dhcp`, `ipv4_addr` raises: the exception about dynamic addresses, if
the interface has a name. -/
theorem C186_addr (h : parse o lines = .ok P) (hn : ∀ l ∈ lines, '\n' ∉ l) (i : Nat) :
    ∃ v, First Spec.AddrLine (family P i) v ∧
      ipv4Netmask P i = .ok ((v.map Prod.snd).getD []) ∧
      ((¬ ∃ t ∈ family P i, Spec.Dhcp t) → ipv4Addr P i = .ok ((v.map Prod.fst).getD [])) ∧
      ((∃ t ∈ family P i, Spec.Dhcp t) → (∃ e, ipv4Addr P i = .error e) ∧
        ∀ s, name (P.h i).text = .ok s → ipv4Addr P i = .error .dynamicAddress) := by
  obtain ⟨v, h1, h2, h3⟩ := addr_first h hn i
  obtain ⟨d, d1, d3, d2⟩ := dhcp_first h hn i
  have hd : d.map lowerChar = "dhcp".toList ↔ d = "dhcp".toList := by
    rcases d3 with rfl | rfl
    · exact ⟨fun _ => rfl, fun _ => by decide⟩
    · decide
  have e : ipv4Addr P i = if d = "dhcp".toList then (match name (P.h i).text with
        | .error e => .error e
        | .ok _ => .error .dynamicAddress) else .ok ((v.map Prod.fst).getD []) := by
    rw [ipv4Addr, h2, d1]
    by_cases hh : d = "dhcp".toList
    · rw [if_pos hh]
      show (if d.map lowerChar = "dhcp".toList then _ else _) = _
      rw [if_pos (hd.mpr hh)]
      rfl
    · rw [if_neg hh]
      show (if d.map lowerChar = "dhcp".toList then _ else _) = _
      rw [if_neg (fun h => hh (hd.mp h))]
  refine ⟨v, h1, h3, ?_, ?_⟩
  · intro hno
    rw [e, if_neg (fun hh => hno (d2.mp hh))]
  · intro hyes
    rw [e, if_pos (d2.mpr hyes)]
    refine ⟨?_, ?_⟩
    · cases name (P.h i).text with
      | error e => exact ⟨e, rfl⟩
      | ok s => exact ⟨_, rfl⟩
    · intro s hs
      rw [hs]

/-! ## C187: address objects -/

theorem orDefault_eq (x : Except Err IP.V4) : orDefault x = Nxos.orDefault x := by
  cases x with
  | ok o => rfl
  | error e => cases e <;> rfl

/-- The text `a/m`, of two quads. -/
theorem ofStr_quads {a m : Str} (ha : DottedQuad a) (hm : DottedQuad m) (o : IP.V4) :
    IP.V4.ofStr (a ++ '/' :: m) = .ok o ↔ ∃ n p, IP.Quad a n ∧ IP.Mask4 m p ∧ o = IP.obj4 n p := by
  have haw := quad_word ha
  have hmw := quad_word hm
  have hsp : ∀ c ∈ a ++ '/' :: m, isSpace c = false := by
    intro c hc
    rcases List.mem_append.mp hc with hc | hc
    · exact haw.2 c hc
    · rcases List.mem_cons.mp hc with rfl | hc
      · decide
      · exact hmw.2 c hc
  constructor
  · rw [IP.C93_exact, strip_of_noSpace hsp]
    rintro ⟨n, p, h | ⟨b, w, k, h1, h2, h3, h4, h5, h6⟩, rfl⟩
    · obtain ⟨b, h1, h2 | ⟨k, h2, h3⟩⟩ := h
      · exact absurd (by rw [← h2.1]; simp) h1.no_slash
      · have e : b ++ "/".toList ++ k = b ++ '/' :: k := by simp
        rw [e] at h3
        obtain ⟨rfl, rfl⟩ := Nxos.cut_slash (Nxos.no_slash ha) h1.no_slash h3
        exact ⟨n, p, h1, h2, rfl⟩
    · obtain ⟨x, w, rfl⟩ := List.exists_cons_of_ne_nil h2
      have := hsp x (by rw [h6]; simp)
      rw [h3 x (by simp)] at this; cases this
  · rintro ⟨n, p, h1, h2, rfl⟩
    exact ofStr_mask h1 h2

/-- The address object by the address line. -/
theorem object_of {v : Option (Str × Str)} (hv : ∀ a, v = some a → DottedQuad a.1 ∧ DottedQuad a.2)
    (h1 : ipv4Addr P i = .ok ((v.map Prod.fst).getD [])) (h2 : ipv4Netmask P i = .ok ((v.map Prod.snd).getD [])) :
    (∀ n p, Spec.Valid v n p → ipv4AddrObject P i = .ok (IP.obj4 n p)) ∧
    ((∀ n p, ¬ Spec.Valid v n p) → ipv4AddrObject P i = .ok (IP.obj4 1 32)) := by
  rw [ipv4AddrObject, h1, h2, ← Nxos.noAddr_eq, orDefault_eq]
  cases v with
  | none =>
    refine ⟨fun n p h => ?_, fun _ => ?_⟩
    · obtain ⟨a, m, e, _⟩ := h; cases e
    · exact Nxos.orDefault_none (s := "/".toList) (fun o ho => by rw [Asa.slash_invalid] at ho; cases ho)
  | some a =>
    obtain ⟨a, m⟩ := a
    obtain ⟨ha, hm⟩ := hv _ rfl
    have key := ofStr_quads ha hm
    refine ⟨fun n p h => ?_, fun h => ?_⟩
    · obtain ⟨a', m', e, q, hp⟩ := h
      cases e
      show Nxos.orDefault (IP.V4.ofStr (a ++ '/' :: m)) = _
      rw [(key _).mpr ⟨n, p, q, hp, rfl⟩]
      rfl
    · refine Nxos.orDefault_none (s := a ++ '/' :: m) ?_
      intro o ho
      obtain ⟨n, p, q, hp, _⟩ := (key o).mp ho
      exact h n p ⟨a, m, rfl, q, hp⟩

/-- C187: if the first line `ipv4 address A M` has a valid address and mask, the address object and
the network object are the address A with the mask length of M, and `ipv4_masklength` is that
length; `has_no_ipv4` is false.  The address 0.0.0.1/32, which stands for a missing one, is the
exception for the latter two.  Without a valid address line the objects are 0.0.0.1/32, the
length is 0 and `has_no_ipv4` is true. -/
theorem C187_objects (h : parse o lines = .ok P) (hn : ∀ l ∈ lines, '\n' ∉ l) (i : Nat)
    (hno : ¬ ∃ t ∈ family P i, Spec.Dhcp t) :
    ∃ v, First Spec.AddrLine (family P i) v ∧
      (∀ n p, Spec.Valid v n p →
        ipv4AddrObject P i = .ok (IP.obj4 n p) ∧ ipNetworkObject P i = .ok (IP.obj4 n p) ∧
        hasNoIpv4 P i = .ok (decide (n = 1 ∧ p = 32)) ∧
        ipv4Masklength P i = .ok (if n = 1 ∧ p = 32 then 0 else p)) ∧
      ((∀ n p, ¬ Spec.Valid v n p) →
        ipv4AddrObject P i = .ok (IP.obj4 1 32) ∧ ipNetworkObject P i = .ok (IP.obj4 1 32) ∧
        hasNoIpv4 P i = .ok true ∧ ipv4Masklength P i = .ok 0) := by
  obtain ⟨v, h1, h2, h3, _⟩ := C186_addr h hn i
  have h3 := h3 hno
  have hv : ∀ a, v = some a → DottedQuad a.1 ∧ DottedQuad a.2 := by
    rintro a rfl
    obtain ⟨t, _, hs⟩ := Nxos.first_mem h1
    exact hs.2.2
  obtain ⟨o1, o2⟩ := object_of hv h3 h2
  have rest : ∀ n p, n < 2 ^ 32 → p ≤ 32 → ipv4AddrObject P i = .ok (IP.obj4 n p) →
      ipv4AddrObject P i = .ok (IP.obj4 n p) ∧ ipNetworkObject P i = .ok (IP.obj4 n p) ∧
      hasNoIpv4 P i = .ok (decide (n = 1 ∧ p = 32)) ∧ ipv4Masklength P i = .ok (if n = 1 ∧ p = 32 then 0 else p) := by
    intro n p hlt hp ho
    have hnet : ipNetworkObject P i = .ok (IP.obj4 n p) := ho
    have he : IP.V4.eq (some (IP.obj4 n p)) (some noAddr) = decide (n = 1 ∧ p = 32) := by
      rw [Bool.eq_iff_iff, decide_eq_true_eq]
      exact Nxos.eq_noAddr hlt hp
    refine ⟨ho, hnet, ?_, ?_⟩
    · rw [hasNoIpv4, hnet]
      exact congrArg Except.ok he
    · rw [ipv4Masklength, ho]
      show (if (!IP.V4.eq (some (IP.obj4 n p)) (some noAddr)) = true then (.ok p : Except Err Nat) else .ok 0) = _
      rw [he]
      by_cases hone : n = 1 ∧ p = 32
      · simp [hone]
      · simp [hone]
  refine ⟨v, h1, ?_, ?_⟩
  · intro n p hval
    have ho := o1 n p hval
    obtain ⟨a, m, rfl, hq, hm⟩ := hval
    exact rest n p (IP.Quad.dotted.mp hq).1 hm.le ho
  · intro hh
    simpa using rest 1 32 (by decide) (by decide) (o2 hh)

/-- C187: with a line `ipv4 address dhcp` in an interface with a name, every one of these
properties raises the exception about dynamic addresses, and so do those that need an address. -/
theorem C187_dhcp (h : parse o lines = .ok P) (hn : ∀ l ∈ lines, '\n' ∉ l) (i : Nat)
    (hyes : ∃ t ∈ family P i, Spec.Dhcp t) {s : Str} (hs : name (P.h i).text = .ok s) (net : IP.V4) :
    ipv4AddrObject P i = .error .dynamicAddress ∧ ipNetworkObject P i = .error .dynamicAddress ∧
    ipv4Masklength P i = .error .dynamicAddress ∧ hasNoIpv4 P i = .error .dynamicAddress ∧
    inIpv4Subnet P i net = .error .dynamicAddress ∧
    ∀ f ∈ [hasNoIcmpUnreachables, hasNoIcmpRedirects, hasNoIpProxyarp, hasIpPimDenseMode, hasIpPimSparseMode,
      hasIpPimSparsedenseMode], f P i = .error .dynamicAddress := by
  obtain ⟨v, _, _, _, h4⟩ := C186_addr h hn i
  have ha := (h4 hyes).2 s hs
  have h1 : ipv4AddrObject P i = .error .dynamicAddress := by rw [ipv4AddrObject, ha]; rfl
  have h2 : ipNetworkObject P i = .error .dynamicAddress := by rw [ipNetworkObject, ha]; rfl
  refine ⟨h1, h2, by rw [ipv4Masklength, h1]; rfl, by rw [hasNoIpv4, h2]; rfl, by rw [inIpv4Subnet, h1]; rfl, ?_⟩
  intro f hf
  simp only [List.mem_cons, List.not_mem_nil, or_false] at hf
  rcases hf with rfl | rfl | rfl | rfl | rfl | rfl
  · rw [hasNoIcmpUnreachables, withAddr, ha]; rfl
  · rw [hasNoIcmpRedirects, withAddr, ha]; rfl
  · rw [hasNoIpProxyarp, withAddr, ha]; rfl
  · rw [hasIpPimDenseMode, withAddr, ha]; rfl
  · rw [hasIpPimSparseMode, withAddr, ha]; rfl
  · rw [hasIpPimSparsedenseMode, withAddr, ha]; rfl

/-! ## C188: subnets -/

/-- `in_ipv4_subnet` by the address line. -/
theorem subnet_of (h : parse o lines = .ok P) (hn : ∀ l ∈ lines, '\n' ∉ l) (i : Nat)
    (hno : ¬ ∃ t ∈ family P i, Spec.Dhcp t) :
    ∃ v, First Spec.AddrLine (family P i) v ∧
      (∀ n p, Spec.Valid v n p → n ≠ 1 → ipv4AddrObject P i = .ok (IP.obj4 n p) ∧
        ∀ net, inIpv4Subnet P i net = .ok (some (IP.V4.contains (some net) (some (IP.obj4 n p))))) ∧
      ((∀ n p, Spec.Valid v n p → n = 1) → (∃ a, ipv4AddrObject P i = .ok a) ∧ ∀ net, inIpv4Subnet P i net = .ok none) := by
  obtain ⟨v, h1, h2, h3⟩ := C187_objects h hn i hno
  refine ⟨v, h1, ?_, ?_⟩
  · intro n p hval hne
    obtain ⟨k1, k2, _⟩ := h2 n p hval
    obtain ⟨a, m, rfl, hq, _⟩ := hval
    refine ⟨k1, fun net => ?_⟩
    rw [inIpv4Subnet, k1, k2]
    show (if IP.dotted n ≠ "0.0.0.1".toList then _ else _) = _
    rw [if_pos (fun e => hne ((Nxos.dotted_one (IP.Quad.dotted.mp hq).1).mp e))]
  · intro hall
    have key : ∃ p, ipv4AddrObject P i = .ok (IP.obj4 1 p) := by
      by_cases hex : ∃ n p, Spec.Valid v n p
      · obtain ⟨n, p, hval⟩ := hex
        cases hall n p hval
        exact ⟨p, (h2 1 p hval).1⟩
      · exact ⟨32, (h3 (fun n p hh => hex ⟨n, p, hh⟩)).1⟩
    obtain ⟨p, hp⟩ := key
    refine ⟨⟨_, hp⟩, fun net => ?_⟩
    rw [inIpv4Subnet, hp]
    exact if_neg (c := IP.dotted 1 ≠ "0.0.0.1".toList) (by decide)

/-- C188: `in_ipv4_subnet` with a valid address is true exactly if every address of the network
of the interface is in the subnet; `in_ipv4_subnets` with at least one subnet is true exactly if
that holds for some of them.  Without a valid address, and for the address 0.0.0.1, both are
None. -/
theorem C188_subnets_partial (h : parse o lines = .ok P) (hn : ∀ l ∈ lines, '\n' ∉ l) (i : Nat)
    (hno : ¬ ∃ t ∈ family P i, Spec.Dhcp t) :
    ∃ v, First Spec.AddrLine (family P i) v ∧
      (∀ n p, Spec.Valid v n p → n ≠ 1 →
        (∀ net : IP.V4, net.Reachable → ∃ b, inIpv4Subnet P i net = .ok (some b) ∧
          (b = true ↔ ∀ x, IP.InNet 32 n p x → IP.InNet 32 net.net net.plen x)) ∧
        (∀ ss : List IP.V4, ss ≠ [] → (∀ s ∈ ss, s.Reachable) → ∃ b, inIpv4Subnets P i (some ss) = .ok (some b) ∧
          (b = true ↔ ∃ s ∈ ss, ∀ x, IP.InNet 32 n p x → IP.InNet 32 s.net s.plen x))) ∧
      ((∀ n p, Spec.Valid v n p → n = 1) →
        (∀ net, inIpv4Subnet P i net = .ok none) ∧ ∀ ss, ss ≠ [] → inIpv4Subnets P i (some ss) = .ok none) ∧
      inIpv4Subnets P i none = .error .valueError := by
  obtain ⟨v, h1, h2, h3⟩ := subnet_of h hn i hno
  refine ⟨v, h1, ?_, ?_, rfl⟩
  · intro n p hval hne
    obtain ⟨k1, k2⟩ := h2 n p hval hne
    obtain ⟨a, m, rfl, hq, hm⟩ := hval
    have hlt := (IP.Quad.dotted.mp hq).1
    have hp := hm.le
    refine ⟨fun net hr => ⟨_, k2 net, Nxos.contains_obj hr hlt hp⟩, ?_⟩
    have loop : ∀ (ss : List IP.V4) (tmp : Option (Option Bool)), (ss ≠ [] ∨ tmp = some (some false)) → (∀ s ∈ ss, s.Reachable) →
        ∃ b, inSubnetsLoop P i tmp ss = .ok (some b) ∧
          (b = true ↔ ∃ s ∈ ss, ∀ x, IP.InNet 32 n p x → IP.InNet 32 s.net s.plen x) := by
      intro ss
      induction ss with
      | nil =>
        rintro tmp (hh | rfl) _
        · exact absurd rfl hh
        · exact ⟨false, rfl, by simp⟩
      | cons s ss ih =>
        intro tmp _ hr
        have hc := Nxos.contains_obj (hr s (by simp)) hlt hp
        rw [inSubnetsLoop, k2 s, k1]
        show ∃ b, (if IP.V4.contains (some s) (some (IP.obj4 n p)) = true then _ else _) = _ ∧ _
        by_cases hin : IP.V4.contains (some s) (some (IP.obj4 n p)) = true
        · rw [if_pos hin, hin]
          exact ⟨true, rfl, by simp only [true_iff]; exact ⟨s, by simp, hc.mp hin⟩⟩
        · rw [if_neg hin, Bool.eq_false_iff.mpr hin]
          obtain ⟨b, b1, b2⟩ := ih (some (some false)) (.inr rfl) (fun s hs => hr s (by simp [hs]))
          refine ⟨b, b1, b2.trans ?_⟩
          simp only [List.mem_cons, exists_eq_or_imp, or_iff_right (fun h => hin (hc.mpr h))]
    exact fun ss hne hr => loop ss none (.inl hne) hr
  · intro hall
    obtain ⟨⟨a, k1⟩, k2⟩ := h3 hall
    refine ⟨k2, ?_⟩
    have loop : ∀ (ss : List IP.V4) (tmp : Option (Option Bool)), (ss ≠ [] ∨ tmp = some none) →
        inSubnetsLoop P i tmp ss = .ok none := by
      intro ss
      induction ss with
      | nil =>
        rintro tmp (hh | rfl)
        · exact absurd rfl hh
        · rfl
      | cons s ss ih =>
        intro tmp _
        rw [inSubnetsLoop, k2 s, k1]
        show (if IP.V4.contains (some s) (some a) = true then _ else _) = _
        by_cases hin : IP.V4.contains (some s) (some a) = true
        · rw [if_pos hin]
        · rw [if_neg hin]; exact ih _ (.inr rfl)
    exact fun ss hne => loop ss none (.inl hne)

/-- C188 fails for an empty list of subnets: `in_ipv4_subnets` raises an exception for every
interface, where the answer is that it is in none of them. -/
theorem C188_empty_fails (P : Parsed) (i : Nat) : inIpv4Subnets P i (some []) = .error .unbound := rfl

/-- What a configuration shows when it is parsed. -/
theorem shown {lines : List Str} {Q : Parsed → Bool}
    (h : (match parse { factory := true, syn := .iosxr } lines with
      | .ok P => Q P
      | .error _ => false) = true) :
    ∃ P, parse { factory := true, syn := .iosxr } lines = .ok P ∧ Q P = true := by
  split at h
  · exact ⟨_, by assumption, h⟩
  · cases h

def addrLines : List Str :=
  ["interface GigabitEthernet0/0/0/0", " ipv4 address 10.1.2.3 255.255.255.0 secondary", " ipv4 address 10.9.8.7 255.255.0.0",
    " ipv4 address 10.9.8.8 255.255.0.0", " no ip redirects", "interface MgmtEth0/RP0/CPU0/0", " ipv4 address dhcp",
    "interface Bundle-Ether1", " ipv4 address 0.0.0.1 255.255.255.0", "interface Loopback0", " ipv4 address 10.0.0.1 255.0.255.0"].map String.toList

/-- C188 fails for the address 0.0.0.1/24: it is valid, and `in_ipv4_subnet` answers None. -/
theorem C188_one_fails : ∃ P, parse { factory := true, syn := .iosxr } addrLines = .ok P ∧
    (ipv4AddrObject P 7 == .ok (IP.obj4 1 24) && inIpv4Subnet P 7 (IP.obj4 0 8) == .ok none) = true :=
  shown (by decide +kernel)

example : ∃ P, parse { factory := true, syn := .iosxr } addrLines = .ok P ∧
    (ipv4Addr P 0 == .ok "10.9.8.7".toList && ipv4Netmask P 0 == .ok "255.255.0.0".toList &&
      ipv4AddrObject P 0 == .ok (IP.obj4 0x0a090807 16) && ipv4Masklength P 0 == .ok 16 && hasNoIpv4 P 0 == .ok false &&
      inIpv4Subnet P 0 (IP.obj4 0x0a000000 8) == .ok (some true) && inIpv4Subnet P 0 (IP.obj4 0x0a090800 24) == .ok (some false) &&
      inIpv4Subnets P 0 (some [IP.obj4 0 32, IP.obj4 0x0a090000 16]) == .ok (some true) &&
      hasNoIcmpRedirects P 0 == .ok true &&
      ipv4Addr P 5 == .error .dynamicAddress && name (P.h 5).text == .ok "MgmtEth0/RP0/CPU0/0".toList &&
      ipv4Addr P 9 == .ok "10.0.0.1".toList && hasNoIpv4 P 9 == .ok true && ipv4Masklength P 9 == .ok 0) = true :=
  shown (by decide +kernel)

end Xr

import Verif.IP.ViewsLemmas

/-! # Properties of the views of addresses and of `ip_factory` (C90-C93) -/

namespace IP

open Py

/-! ## C90: masks, ranges, numbers and classes of a network -/

/-- `netmask` has ones in the first `prefixlen` places only, `hostmask` and `inverse_netmask` in the
others only. -/
theorem C90_masks4 {o : V4} (h : o.Reachable) :
    o.netmask = 2 ^ 32 - 2 ^ (32 - o.masklen) ∧ o.hostmask = 2 ^ (32 - o.masklen) - 1 ∧ o.inverseNetmask = o.hostmask ∧
      o.masklen = o.plen := by
  have w := h.wf
  exact ⟨maskOf_eq 32 _ w.plen_le, hostmaskOf_eq 32 _ w.plen_le, rfl, rfl⟩

theorem C90_masks6 {o : V6} (h : o.Regular) :
    o.netmask = 2 ^ 128 - 2 ^ (128 - o.plen) ∧ o.hostmask = 2 ^ (128 - o.plen) - 1 ∧ o.inverseNetmask = o.hostmask := by
  have w := h.wf
  exact ⟨maskOf_eq 128 _ w.plen_le, hostmaskOf_eq 128 _ w.plen_le, rfl⟩

/-- `network` is the network of the object and `broadcast` its last address; `for x in obj` visits
the addresses of that network, each once, in ascending order. -/
theorem C90_range4 {o : V4} (h : o.Reachable) :
    o.network = (o.net, o.plen) ∧
    InNet 32 o.net o.plen o.broadcast ∧ (∀ x, InNet 32 o.net o.plen x → x ≤ o.broadcast) ∧ o.broadcast = o.asDecimalBroadcast ∧
    (∀ x, x ∈ o.iter ↔ InNet 32 o.net o.plen x) ∧ o.iter.Pairwise (· < ·) ∧ o.iter.length = 2 ^ (32 - o.plen) := by
  have w := h.wf
  have hpos := two_pow_pos (32 - o.plen)
  have hr := fun x => inNet_range (x := x) w.plen_le w.aligned w.net_lt
  have hl := lastOf_eq 32 o.net o.plen w.plen_le w.aligned
  refine ⟨?_, ?_, fun x hx => ((hr x).mp hx).2, ?_, fun x => mem_addrsOf w.plen_le w.aligned w.net_lt, addrsOf_sorted _ _ _, ?_⟩
  · rw [V4.network, networkOf_eq 32 _ _ w.plen_le w.net_lt, w.aligned]
  · exact (hr _).mpr ⟨by rw [V4.broadcast, hl]; omega, Nat.le_refl _⟩
  · rw [V4.broadcast, hl, V4.asDecimalBroadcast, V4.asDecimalNetwork_eq w]
  · rw [V4.iter, addrsOf, List.length_map, List.length_range, hl]; omega

theorem C90_range6 {o : V6} (h : o.Regular) :
    o.network = (o.net, o.plen) ∧
    (∀ x, x ∈ o.iter ↔ InNet 128 o.net o.plen x) ∧ o.iter.Pairwise (· < ·) ∧ o.iter.length = 2 ^ (128 - o.plen) := by
  have w := h.wf
  have hpos := two_pow_pos (128 - o.plen)
  have hl := lastOf_eq 128 o.net o.plen w.plen_le w.aligned
  refine ⟨?_, fun x => mem_addrsOf w.plen_le w.aligned w.net_lt, addrsOf_sorted _ _ _, ?_⟩
  · rw [V6.network, networkOf_eq 128 _ _ w.plen_le w.net_lt, w.aligned]
  · rw [V6.iter, addrsOf, List.length_map, List.length_range, hl]; omega

theorem pyHex_hexOf (n : Nat) : HexOf n (pyHex n) := by
  obtain ⟨h1, h2, h3, h4⟩ := hexAux_spec (n + 1) n (by omega)
  refine ⟨hexAux (n + 1) n, rfl, h1, h2, ?_, h4⟩
  intro c hc
  obtain ⟨d, hd, rfl⟩ := h3 c hc
  have : ∀ d : Fin 16, baseDigit d.val ∈ "0123456789abcdef".toList := by decide
  exact this ⟨d, hd⟩

/-- `int(obj)`, `as_int` and `as_hex` are the address; `as_zeropadded_network` is the network, three
digits for each octet, then the prefix length. -/
theorem C90_numbers4 {o : V4} (h : o.Reachable) :
    o.index = o.ip ∧ o.asInt = o.ip ∧ HexOf o.ip o.asHex ∧
    ∃ f : List Str, o.asZeropaddedNetwork = join ['.'] f ++ "/".toList ++ natStr o.plen ∧ f.length = 4 ∧
      (∀ s ∈ f, s.length = 3 ∧ ∀ c ∈ s, isDigit c = true) ∧ addrOfOctets 10 f = o.net := by
  have w := h.wf
  have hd := V4.asDecimal_eq w
  refine ⟨hd, hd, ?_, (octets o.net).map (padBase 10 3), ?_, by simp [octets], ?_, ?_⟩
  · have := pyHex_hexOf o.asDecimal
    rw [hd] at this
    rw [V4.asHex, V4.index, hd]
    exact this
  · have hsl : splitOn '/' o.asCidrNet = [dotted o.net, natStr o.plen] := by
      have := splitOn_join '/' [dotted o.net, natStr o.plen] (by simp) (by
        intro p hp hc
        simp only [List.mem_cons, List.not_mem_nil, or_false] at hp
        rcases hp with rfl | rfl
        · rcases dotted_chars _ _ hc with h | h <;> exact absurd h (by decide)
        · exact absurd (natStr_digits _ _ hc) (by decide))
      simpa [V4.asCidrNet, join] using this
    rw [V4.asZeropaddedNetwork, hsl]
    simp only [List.headD_cons]
    rw [map_octets_read]
    simp
  · intro s hs
    obtain ⟨n, hn, rfl⟩ := List.mem_map.mp hs
    exact ⟨length_padBase _ _ _, padBase10_digits _ _⟩
  · have hl := octets_lt o.net
    have hv : ∀ n ∈ octets o.net, valBase 10 (padBase 10 3 n) = n := fun n hn => by
      rw [valBase_padBase 10 (by decide) (by decide), Nat.mod_eq_of_lt (by have := hl n hn; omega)]
    simp only [octets, List.mem_cons, List.not_mem_nil, or_false, forall_eq_or_imp, forall_eq] at hv
    simp only [addrOfOctets, octets, List.map_cons, List.map_nil, List.foldl_cons, List.foldl_nil, hv.1, hv.2.1, hv.2.2.1, hv.2.2.2]
    have := w.net_lt
    omega

theorem C90_numbers6 {o : V6} (h : o.Regular) : o.index = o.ip ∧ o.asInt = o.ip ∧ HexOf o.ip o.asHex := by
  have hd := V6.asDecimal_eq h.wf
  refine ⟨hd, hd, ?_⟩
  have := pyHex_hexOf o.asDecimal
  rw [hd] at this
  rw [V6.asHex, V6.index, hd]
  exact this

/-- A network is multicast (reserved) exactly when all its addresses are: 224.0.0.0 to
239.255.255.255 (240.0.0.0 to 255.255.255.255). -/
theorem C90_classes4 {o : V4} (h : o.Reachable) :
    (o.isMulticast = true ↔ ∀ x, InNet 32 o.net o.plen x → 224 ≤ x / 2 ^ 24 ∧ x / 2 ^ 24 ≤ 239) ∧
    (o.isReserved = true ↔ ∀ x, InNet 32 o.net o.plen x → 240 ≤ x / 2 ^ 24) := by
  have w := h.wf
  constructor
  · rw [V4.isMulticast, bothIn_iff (by decide) (by decide) w.plen_le w.aligned w.net_lt]
    refine forall_congr' fun x => imp_congr_right fun hx => ?_
    have := hx.1
    rw [InNet]
    omega
  · rw [V4.isReserved, bothIn_iff (by decide) (by decide) w.plen_le w.aligned w.net_lt]
    refine forall_congr' fun x => imp_congr_right fun hx => ?_
    have := hx.1
    rw [InNet]
    omega

/-- The same for ff00::/8, fe80::/10, fec0::/10 and `::`. -/
theorem C90_classes6 {o : V6} (h : o.Regular) :
    (o.isMulticast = true ↔ ∀ x, InNet 128 o.net o.plen x → x / 2 ^ 120 = 0xff) ∧
    (o.isLinkLocal = true ↔ ∀ x, InNet 128 o.net o.plen x → 0xfe80 ≤ x / 2 ^ 112 ∧ x / 2 ^ 112 ≤ 0xfebf) ∧
    (o.isSiteLocal = true ↔ ∀ x, InNet 128 o.net o.plen x → 0xfec0 ≤ x / 2 ^ 112 ∧ x / 2 ^ 112 ≤ 0xfeff) ∧
    (o.isUnspecified = true ↔ ∀ x, InNet 128 o.net o.plen x → x = 0) := by
  have w := h.wf
  refine ⟨?_, ?_, ?_, ?_⟩
  · rw [V6.isMulticast, bothIn_iff (by decide) (by decide) w.plen_le w.aligned w.net_lt]
    refine forall_congr' fun x => imp_congr_right fun hx => ?_
    have := hx.1
    rw [InNet]
    omega
  · rw [V6.isLinkLocal, bothIn_iff (by decide) (by decide) w.plen_le w.aligned w.net_lt]
    refine forall_congr' fun x => imp_congr_right fun hx => ?_
    have := hx.1
    rw [InNet]
    omega
  · rw [V6.isSiteLocal, bothIn_iff (by decide) (by decide) w.plen_le w.aligned w.net_lt]
    refine forall_congr' fun x => imp_congr_right fun hx => ?_
    have := hx.1
    rw [InNet]
    omega
  · rw [V6.isUnspecified, bothIn_iff (by decide) (by decide) w.plen_le w.aligned w.net_lt]
    refine forall_congr' fun x => imp_congr_right fun hx => ?_
    have := hx.1
    rw [InNet]
    omega

example : ∃ o : V4, o.Reachable ∧ o.netmask = 0xfffffe00 ∧ o.hostmask = 0x1ff ∧ o.broadcast = 0xe00203ff ∧ o.isMulticast = true ∧
    o.asHex = "0xe0020304".toList ∧ o.asZeropaddedNetwork = "224.002.002.000/23".toList ∧ o.iter.length = 512 :=
  ⟨V4.make 0xe0020304 23, .ofStr (s := "224.2.3.4/23".toList) (by decide +kernel), by decide +kernel, by decide +kernel, by decide +kernel,
    by decide +kernel, by decide +kernel, by decide +kernel, by decide +kernel⟩

/-! ## C91: ip_factory on IPv4 texts -/

theorem make4_obj {n p : Nat} (hn : n < 2 ^ 32) (hp : p ≤ 32) : V4.make n p = obj4 n p := by
  rw [V4.make, obj4, networkOf_eq 32 n p hp hn]

theorem Quad.no_slash {s : Str} {n : Nat} (h : Quad s n) : '/' ∉ s := by
  intro hc
  rcases h.chars _ hc with h | h <;> exact absurd h (by decide)

theorem Mask4.le {m : Str} {p : Nat} (h : Mask4 m p) : p ≤ 32 := by
  cases h <;> omega

theorem Mask4.no_slash {m : Str} {p : Nat} (h : Mask4 m p) : '/' ∉ m := by
  intro hc
  rcases h.text.2.2 _ hc with h | h <;> exact absurd h (by decide)

theorem splitMask_ok {longest s a m : Str} (h : splitMask longest s = .ok (a, m)) : (s = a ∧ m = longest) ∨ s = a ++ '/' :: m := by
  have hj := join_splitOn '/' s
  rw [splitMask] at h
  split at h
  · rename_i e
    rw [e] at hj
    cases h
    exact .inl ⟨hj.symm, rfl⟩
  · rename_i e
    rw [e] at hj
    cases h
    right
    rw [← hj]; simp [join]
  · cases h

theorem splitMask_none {longest s : Str} (h : '/' ∉ s) : splitMask longest s = .ok (s, longest) := by
  have := splitOn_join '/' [s] (by simp) (by intro p hp; rw [List.mem_singleton.mp hp]; exact h)
  rw [show join ['/'] [s] = s from rfl] at this
  rw [splitMask, this]

theorem splitMask_some {longest a m : Str} (h : '/' ∉ a) (h' : '/' ∉ m) : splitMask longest (a ++ '/' :: m) = .ok (a, m) := by
  have := splitOn_join '/' [a, m] (by simp) (by
    intro p hp
    simp only [List.mem_cons, List.not_mem_nil, or_false] at hp
    rcases hp with rfl | rfl <;> assumption)
  rw [show join ['/'] [a, m] = a ++ '/' :: m by simp [join]] at this
  rw [splitMask, this]

theorem bind_ok {α β : Type} {x : Except Err α} {f : α → Except Err β} {b : β} (h : (x >>= f) = .ok b) : ∃ a, x = .ok a ∧ f a = .ok b := by
  cases x with
  | error e => cases h
  | ok a => exact ⟨a, rfl, h⟩

theorem stdNet4_ok {s : Str} {q : Nat × Nat} (h : stdNet4 s = .ok q) :
    ∃ a, Quad a q.1 ∧ ((s = a ∧ q.2 = 32) ∨ ∃ m, Mask4 m q.2 ∧ s = a ++ '/' :: m) := by
  rw [stdNet4] at h
  obtain ⟨⟨a, m⟩, h1, h⟩ := bind_ok h
  obtain ⟨ip, h2, h⟩ := bind_ok h
  obtain ⟨p, h3, h⟩ := bind_ok h
  cases h
  refine ⟨a, parseAddr_quad h2, ?_⟩
  rcases splitMask_ok h1 with ⟨e1, e2⟩ | e
  · left
    simp only at h3
    subst e2
    have : makeNetmask "32".toList = .ok 32 := by decide
    rw [this] at h3
    cases h3
    exact ⟨e1, rfl⟩
  · exact .inr ⟨m, makeNetmask_iff.mp h3, e⟩

theorem stdNet4_alone {a : Str} {n : Nat} (h : Quad a n) : stdNet4 a = .ok (n, 32) := by
  rw [stdNet4, splitMask_none h.no_slash]
  show (parseAddr a >>= _) = _
  rw [h.parse]
  rfl

theorem stdNet4_slash {a m : Str} {n p : Nat} (h : Quad a n) (hm : Mask4 m p) : stdNet4 (a ++ '/' :: m) = .ok (n, p) := by
  rw [stdNet4, splitMask_some h.no_slash hm.no_slash]
  show (parseAddr a >>= fun ip => makeNetmask m >>= fun p => Except.ok (ip, p)) = _
  rw [h.parse, makeNetmask_iff.mpr hm]
  rfl

theorem getIpv4_some {s : Str} {o : V4} {q : Nat × Nat} (h : stdNet4 s = .ok q) (h' : V4.ofStr s = .ok o) (b : Bool) :
    getIpv4 s b = (if b then (if o.plen = 32 then .ok (.addr4 o.ip) else .ok (.net4 o.network.1 o.network.2)) else .ok (.v4 o)) := by
  rw [getIpv4, h]
  show (match V4.ofStr s with | .error _ => _ | .ok o => _) = _
  rw [h']

theorem slash_eq (a m : Str) : a ++ "/".toList ++ m = a ++ '/' :: m := by simp

theorem getIpv4_text {s : Str} {n p : Nat} (h : Text4 s n p) : n < 2 ^ 32 ∧ p ≤ 32 ∧ stdNet4 s = .ok (n, p) ∧ V4.ofStr s = .ok (obj4 n p) := by
  obtain ⟨a, ha, h⟩ := h
  have hn := (Quad.dotted.mp ha).1
  rcases h with ⟨rfl, rfl⟩ | ⟨m, hm, rfl⟩
  · refine ⟨hn, by omega, stdNet4_alone ha, ?_⟩
    rw [(Quad.dotted.mp ha).2, ofStr_alone hn, make4_obj hn (by omega)]
  · rw [slash_eq]
    refine ⟨hn, hm.le, stdNet4_slash ha hm, ?_⟩
    rw [(Quad.dotted.mp ha).2, ofStr_slash hn hm, make4_obj hn hm.le]

theorem getIpv4_inv {s : Str} {b : Bool} {v : IPVal} (h : getIpv4 s b = .ok v) : ∃ n p, Text4 s n p := by
  rw [getIpv4] at h
  split at h
  · cases h
  · rename_i o e
    obtain ⟨q, hq, _⟩ := bind_ok e
    obtain ⟨a, ha, hs⟩ := stdNet4_ok hq
    refine ⟨q.1, q.2, a, ha, ?_⟩
    rcases hs with ⟨e1, e2⟩ | ⟨m, hm, e⟩
    · exact .inl ⟨e1, e2⟩
    · exact .inr ⟨m, hm, by rw [e, slash_eq]⟩

/-- In the mode `ipv4` exactly the dotted quads are accepted, alone or with a slash and a mask
(digits, netmask or hostmask); the object has that address and that prefix length. -/
theorem C91_accepts {s : Str} {v : IPVal} :
    ipFactory s false "ipv4".toList = .ok v ↔ ∃ n p, Text4 s n p ∧ v = .v4 (obj4 n p) := by
  show getIpv4 s false = .ok v ↔ _
  constructor
  · intro h
    obtain ⟨n, p, ht⟩ := getIpv4_inv h
    obtain ⟨_, _, h1, h2⟩ := getIpv4_text ht
    rw [getIpv4_some h1 h2] at h
    cases h
    exact ⟨n, p, ht, rfl⟩
  · rintro ⟨n, p, ht, rfl⟩
    obtain ⟨_, _, h1, h2⟩ := getIpv4_text ht
    rw [getIpv4_some h1 h2]; rfl

/-- With `stdlib=True` the same texts are accepted; the result is the address if the prefix length
is 32, and else the network, of that object. -/
theorem C91_stdlib {s : Str} {v : IPVal} :
    ipFactory s true "ipv4".toList = .ok v ↔
      ∃ n p, Text4 s n p ∧ v = if p = 32 then .addr4 n else .net4 (n / 2 ^ (32 - p) * 2 ^ (32 - p)) p := by
  show getIpv4 s true = .ok v ↔ _
  have key : ∀ {n p}, Text4 s n p → getIpv4 s true = .ok (if p = 32 then .addr4 n else .net4 (n / 2 ^ (32 - p) * 2 ^ (32 - p)) p) := by
    intro n p ht
    obtain ⟨hn, hp, h1, h2⟩ := getIpv4_text ht
    rw [getIpv4_some h1 h2]
    simp only [if_true]
    have hlt : n / 2 ^ (32 - p) * 2 ^ (32 - p) < 2 ^ 32 := Nat.lt_of_le_of_lt (Nat.div_mul_le_self _ _) hn
    have hnet : (obj4 n p).network = (n / 2 ^ (32 - p) * 2 ^ (32 - p), p) := by
      rw [V4.network]
      simp only [obj4]
      rw [networkOf_eq 32 _ _ hp hlt, Nat.mul_div_cancel _ (two_pow_pos _)]
    rw [hnet]
    simp only [obj4]
    by_cases h : p = 32 <;> simp [h]
  constructor
  · intro h
    obtain ⟨n, p, ht⟩ := getIpv4_inv h
    rw [key ht] at h
    cases h
    exact ⟨n, p, ht, rfl⟩
  · rintro ⟨n, p, ht, rfl⟩
    exact key ht

/-- The default mode chooses by the colon; another mode is refused, and in the three modes every
failure is an `AddressValueError`. -/
theorem C91_modes (s : Str) (b : Bool) :
    (':' ∈ s → ipFactory s b "auto_detect".toList = ipFactory s b "ipv6".toList) ∧
    (':' ∉ s → ipFactory s b "auto_detect".toList = ipFactory s b "ipv4".toList) ∧
    (∀ mode, mode ≠ "auto_detect".toList → mode ≠ "ipv4".toList → mode ≠ "ipv6".toList → ipFactory s b mode = .error .requirement) ∧
    (∀ mode e, mode = "auto_detect".toList ∨ mode = "ipv4".toList ∨ mode = "ipv6".toList → ipFactory s b mode = .error e → e = .addressValue) := by
  have h6 : ipFactory s b "ipv6".toList = getIpv6 s b := rfl
  have h4 : ipFactory s b "ipv4".toList = getIpv4 s b := rfl
  have ha : ipFactory s b "auto_detect".toList = if ':' ∈ s then getIpv6 s b else getIpv4 s b := rfl
  have e4 : ∀ e, getIpv4 s b = .error e → e = .addressValue := by
    intro e h
    rw [getIpv4] at h
    split at h
    · cases h; rfl
    · split at h
      · split at h <;> cases h
      · cases h
  have e6 : ∀ e, getIpv6 s b = .error e → e = .addressValue := by
    intro e h
    rw [getIpv6] at h
    split at h
    · cases h; rfl
    · split at h
      · split at h <;> cases h
      · cases h
  refine ⟨fun h => by rw [ha, h6, if_pos h], fun h => by rw [ha, h4, if_neg h], ?_, ?_⟩
  · intro mode h1 h2 h3
    rw [ipFactory, if_neg h1, if_neg h2, if_neg h3]
  · rintro mode e (rfl | rfl | rfl) h
    · rw [ha] at h
      split at h
      · exact e6 e h
      · exact e4 e h
    · exact e4 e h
    · exact e6 e h

example : Text4 "10.1.2.3/0.0.0.255".toList 167838211 24 ∧ Text4 "10.1.2.3/255.255.255.0".toList 167838211 24 ∧
    Text4 "10.1.2.3/024".toList 167838211 24 ∧ Text4 "10.1.2.3".toList 167838211 32 ∧
    ipFactory "10.1.2.3/24".toList false "auto_detect".toList = .ok (.v4 ⟨167838211, 24, 167838208⟩) := by
  have hq : Quad "10.1.2.3".toList 167838211 := ⟨10, 1, 2, 3, by decide, by decide, by decide, by decide, by decide +kernel, by decide⟩
  exact ⟨⟨_, hq, .inr ⟨"0.0.0.255".toList, .host (by decide) (by decide) ⟨0, 0, 0, 255, by decide, by decide, by decide, by decide, by decide +kernel, by decide⟩, by decide +kernel⟩⟩,
    ⟨_, hq, .inr ⟨"255.255.255.0".toList, .net (by decide) ⟨255, 255, 255, 0, by decide, by decide, by decide, by decide, by decide +kernel, by decide⟩, by decide +kernel⟩⟩,
    ⟨_, hq, .inr ⟨"024".toList, .digits (m := "024".toList) (by decide) (by decide) (by decide), by decide +kernel⟩⟩,
    ⟨_, hq, .inl ⟨rfl, rfl⟩⟩, by decide +kernel⟩

/-! ## C92: ip_factory on IPv6 texts -/

theorem make6_obj {n p : Nat} (hn : n < 2 ^ 128) (hp : p ≤ 128) : V6.make n p = obj6 n p := by
  rw [V6.make, obj6, networkOf_eq 128 n p hp hn]

theorem makeNetmask6_iff {m : Str} {p : Nat} : makeNetmask6 m = .ok p ↔ (m ≠ [] ∧ (∀ c ∈ m, isDigit c = true)) ∧ natVal m ≤ 128 ∧ p = natVal m := by
  have hd : allDigits m = true ↔ (m ≠ [] ∧ (∀ c ∈ m, isDigit c = true)) := by
    rw [allDigits, Bool.and_eq_true, List.all_eq_true]
    cases m <;> simp
  rw [makeNetmask6, ← hd]
  split
  · rename_i h
    constructor
    · intro e; cases e; exact ⟨h.1, h.2, rfl⟩
    · rintro ⟨_, _, rfl⟩; rfl
  · rename_i h
    constructor
    · intro e; cases e
    · rintro ⟨h1, h2, _⟩; exact absurd ⟨h1, h2⟩ h

theorem splitScope_none {s : Str} (h : '%' ∉ s) : splitScope s = .ok s := by
  have := splitOn_join '%' [s] (by simp) (by intro p hp; rw [List.mem_singleton.mp hp]; exact h)
  rw [show join ['%'] [s] = s from rfl] at this
  rw [splitScope, this]

theorem mem_join {sep : Str} {c : Char} : ∀ {l : List Str}, c ∈ join sep l → c ∈ sep ∨ ∃ p ∈ l, c ∈ p
  | [], h => by cases h
  | [a], h => .inr ⟨a, by simp, h⟩
  | a :: b :: l, h => by
    have e : join sep (a :: b :: l) = a ++ sep ++ join sep (b :: l) := rfl
    rw [e] at h
    rcases List.mem_append.mp h with h | h
    · rcases List.mem_append.mp h with h | h
      · exact .inr ⟨a, by simp, h⟩
      · exact .inl h
    · rcases mem_join h with h | ⟨p, hp, h⟩
      · exact .inl h
      · exact .inr ⟨p, by simp [hp], h⟩

theorem colons_no_slash {gs : List Group} (hg : ∀ g ∈ gs, g.Valid) : '/' ∉ colons gs := by
  intro h
  rcases mem_join h with h | ⟨p, hp, h⟩
  · exact absurd h (by decide)
  · obtain ⟨g, hgm, rfl⟩ := List.mem_map.mp hp
    obtain ⟨d, hd, e⟩ := List.mem_map.mp h
    have hall : ∀ d ∈ hexDigits, d.1 ≠ '/' := by decide
    exact hall d ((hg g hgm).2.2 d hd) e

theorem colonsQuad_no_slash {gs : List Group} {l : Str} {q : Nat} (hg : ∀ g ∈ gs, g.Valid) (hq : Quad l q) : '/' ∉ colonsQuad gs l := by
  intro h
  rcases mem_join h with h | ⟨p, hp, h⟩
  · exact absurd h (by decide)
  · rcases List.mem_append.mp hp with hp | hp
    · obtain ⟨g, hgm, rfl⟩ := List.mem_map.mp hp
      obtain ⟨d, hd, e⟩ := List.mem_map.mp h
      have hall : ∀ d ∈ hexDigits, d.1 ≠ '/' := by decide
      exact hall d ((hg g hgm).2.2 d hd) e
    · rw [List.mem_singleton.mp hp] at h
      exact hq.no_slash h

theorem text6_facts {s : Str} {n : Nat} (h : Text6 s n ∨ Quad6 s n) :
    s ≠ [] ∧ '/' ∉ s ∧ (∀ c ∈ s, isSpace c = false) ∧ n < 2 ^ 128 ∧ parse6 s = .ok n ∧
    find6 s = .ok (s, none) ∧ ∀ p : Str, p ≠ [] → (∀ x ∈ p, isDigit x = true) → find6 (s ++ '/' :: p) = .ok (s, some p) := by
  have h2 : '/' ∉ "::".toList := by decide +kernel
  rcases h with h | h
  · refine ⟨h.ne_nil, ?_, fun c hc => (h.chars c hc).2, h.lt, h.parse, h.find⟩
    cases h with
    | full hl hg => exact colons_no_slash hg
    | short hl hh hlo =>
      intro hc
      rcases List.mem_append.mp hc with hc | hc
      · rcases List.mem_append.mp hc with hc | hc
        · exact colons_no_slash hh hc
        · exact h2 hc
      · exact colons_no_slash hlo hc
  · refine ⟨h.ne_nil, ?_, h.chars, h.lt, h.parse, h.find⟩
    cases h with
    | full hl hg hq => exact colonsQuad_no_slash hg hq
    | short hl hh hlo hq =>
      intro hc
      rcases List.mem_append.mp hc with hc | hc
      · rcases List.mem_append.mp hc with hc | hc
        · exact colons_no_slash hh hc
        · exact h2 hc
      · exact colonsQuad_no_slash hlo hq hc

theorem stdNet6_eq {s a m : Str} (h : splitMask "128".toList s = .ok (a, m)) (ha : '%' ∉ a) :
    stdNet6 s = (parse6 a >>= fun ip => makeNetmask6 m >>= fun p => .ok (ip, p)) := by
  rw [stdNet6, h]
  show (splitScope a >>= _) = _
  rw [splitScope_none ha]
  rfl

theorem stdNet6_ok {s : Str} {q : Nat × Nat} (hz : '%' ∉ s) (h : stdNet6 s = .ok q) : TextNet6 s q.1 q.2 := by
  have h' := h
  rw [stdNet6] at h'
  obtain ⟨⟨a, m⟩, h1, _⟩ := bind_ok h'
  have ha : '%' ∉ a := by
    intro hc
    rcases splitMask_ok h1 with ⟨e, _⟩ | e
    · rw [e] at hz; exact hz hc
    · rw [e] at hz; exact hz (List.mem_append.mpr (.inl hc))
  rw [stdNet6_eq h1 ha] at h
  obtain ⟨ip, h2, h⟩ := bind_ok h
  obtain ⟨p, h3, h⟩ := bind_ok h
  cases h
  refine ⟨a, parse6_text h2, ?_⟩
  obtain ⟨hm, hp, e⟩ := makeNetmask6_iff.mp h3
  rcases splitMask_ok h1 with ⟨e1, e2⟩ | e1
  · left
    refine ⟨e1, ?_⟩
    simp only
    rw [e, e2]; decide
  · exact .inr ⟨m, hm.1, hm.2, e.symm, by simp only; omega, by rw [e1, slash_eq]⟩

theorem textNet6_std {s : Str} {n p : Nat} (h : TextNet6 s n p) (hz : '%' ∉ s) : n < 2 ^ 128 ∧ p ≤ 128 ∧ stdNet6 s = .ok (n, p) := by
  obtain ⟨a, ha, h⟩ := h
  obtain ⟨_, hs, _, hlt, hp, _⟩ := text6_facts ha
  have e128 : makeNetmask6 "128".toList = .ok 128 := by decide +kernel
  rcases h with ⟨rfl, rfl⟩ | ⟨m, hm, hd, e, hp', rfl⟩
  · refine ⟨hlt, by omega, ?_⟩
    rw [stdNet6_eq (splitMask_none hs) hz, hp]
    show (makeNetmask6 "128".toList >>= fun p => Except.ok (n, p)) = _
    rw [e128]; rfl
  · refine ⟨hlt, hp', ?_⟩
    have hm' : '/' ∉ m := fun hc => absurd (hd _ hc) (by decide)
    have hza : '%' ∉ a := fun hc => hz (by simp [hc])
    rw [slash_eq, stdNet6_eq (splitMask_some hs hm') hza, hp]
    show (makeNetmask6 m >>= fun p => Except.ok (n, p)) = _
    rw [makeNetmask6_iff.mpr ⟨⟨hm, hd⟩, by omega, e.symm⟩]; rfl

theorem textNet6_obj {s : Str} {n p : Nat} (h : TextNet6 s n p) (hl : s.length ≤ 43) : V6.ofStr s = .ok (V6.make n p) := by
  obtain ⟨a, ha, h⟩ := h
  obtain ⟨hne, hs, hsp, hlt, hp, hf1, hf2⟩ := text6_facts ha
  have e128 : makeNetmask6 "128".toList = .ok 128 := by decide +kernel
  rcases h with ⟨rfl, rfl⟩ | ⟨m, hm, hd, e, hp', rfl⟩
  · refine ofStr_ok.mpr ⟨hl, s, ?_, ofText_ok.mpr ⟨s, none, n, 128, hf1, hp, e128, rfl⟩⟩
    rw [splitWs_word ⟨hne, hsp⟩]; rfl
  · rw [slash_eq] at hl ⊢
    refine ofStr_ok.mpr ⟨hl, _, ?_, ofText_ok.mpr ⟨a, some m, n, p, hf2 m hm hd, hp, ?_, rfl⟩⟩
    · rw [splitWs_word ⟨by simp, ?_⟩]; rfl
      intro c hc
      rcases List.mem_append.mp hc with hc | hc
      · exact hsp c hc
      · rcases List.mem_cons.mp hc with rfl | hc
        · decide
        · exact isDigit_not_space (hd c hc)
    · exact makeNetmask6_iff.mpr ⟨⟨hm, hd⟩, by rw [Option.getD_some]; omega, e.symm⟩

theorem getIpv6_some {s : Str} {o : V6} {q : Nat × Nat} (h : stdNet6 s = .ok q) (h' : V6.ofStr s = .ok o) (b : Bool) :
    getIpv6 s b = (if b then (if o.plen = 128 then .ok (.addr6 o.ip) else .ok (.net6 o.network.1 o.network.2)) else .ok (.v6 o)) := by
  rw [getIpv6, h]
  show (match V6.ofStr s with | .error _ => _ | .ok o => _) = _
  rw [h']

theorem getIpv6_inv {s : Str} {b : Bool} {v : IPVal} (hz : '%' ∉ s) (h : getIpv6 s b = .ok v) : s.length ≤ 43 ∧ ∃ n p, TextNet6 s n p := by
  rw [getIpv6] at h
  split at h
  · cases h
  · rename_i o e
    obtain ⟨q, hq, h2⟩ := bind_ok e
    exact ⟨(ofStr_ok.mp h2).1, q.1, q.2, stdNet6_ok hz hq⟩

/-- Of the texts without a zone, exactly those of an IPv6 address alone or with a mask length are
accepted if they have at most 43 characters, and the result has that address and that length.  Not
proved, since it is false: longer texts, and texts with a zone. -/
theorem C92_accepts_partial {s : Str} (hz : '%' ∉ s) {v : IPVal} :
    (ipFactory s false "ipv6".toList = .ok v ↔ s.length ≤ 43 ∧ ∃ n p, TextNet6 s n p ∧ v = .v6 (obj6 n p)) ∧
    (ipFactory s true "ipv6".toList = .ok v ↔ s.length ≤ 43 ∧
      ∃ n p, TextNet6 s n p ∧ v = if p = 128 then .addr6 n else .net6 (n / 2 ^ (128 - p) * 2 ^ (128 - p)) p) := by
  show (getIpv6 s false = .ok v ↔ _) ∧ (getIpv6 s true = .ok v ↔ _)
  have key : ∀ {n p}, TextNet6 s n p → s.length ≤ 43 → getIpv6 s false = .ok (.v6 (obj6 n p)) ∧
      getIpv6 s true = .ok (if p = 128 then .addr6 n else .net6 (n / 2 ^ (128 - p) * 2 ^ (128 - p)) p) := by
    intro n p ht hl
    obtain ⟨hn, hp, h1⟩ := textNet6_std ht hz
    have h2 := textNet6_obj ht hl
    rw [make6_obj hn hp] at h2
    rw [getIpv6_some h1 h2, getIpv6_some h1 h2]
    refine ⟨rfl, ?_⟩
    simp only [if_true]
    have hlt : n / 2 ^ (128 - p) * 2 ^ (128 - p) < 2 ^ 128 := Nat.lt_of_le_of_lt (Nat.div_mul_le_self _ _) hn
    have hnet : (obj6 n p).network = (n / 2 ^ (128 - p) * 2 ^ (128 - p), p) := by
      rw [V6.network]
      simp only [obj6]
      rw [networkOf_eq 128 _ _ hp hlt, Nat.mul_div_cancel _ (two_pow_pos _)]
    rw [hnet]
    simp only [obj6]
    by_cases h : p = 128 <;> simp [h]
  constructor
  · constructor
    · intro h
      obtain ⟨hl, n, p, ht⟩ := getIpv6_inv hz h
      rw [(key ht hl).1] at h
      cases h
      exact ⟨hl, n, p, ht, rfl⟩
    · rintro ⟨hl, n, p, ht, rfl⟩
      exact (key ht hl).1
  · constructor
    · intro h
      obtain ⟨hl, n, p, ht⟩ := getIpv6_inv hz h
      rw [(key ht hl).2] at h
      cases h
      exact ⟨hl, n, p, ht, rfl⟩
    · rintro ⟨hl, n, p, ht, rfl⟩
      exact (key ht hl).2

/-- A valid text of 45 characters is refused. -/
theorem C92_long_fails : ∃ s n, Quad6 s n ∧ s.length = 45 ∧ ipFactory s false "auto_detect".toList = .error .addressValue := by
  let g : Group := [('f', 15), ('f', 15), ('f', 15), ('f', 15)]
  have hq : Quad "255.255.255.255".toList (2 ^ 32 - 1) :=
    ⟨255, 255, 255, 255, by decide, by decide, by decide, by decide, by decide +kernel, by decide⟩
  refine ⟨_, _, Quad6.full (gs := List.replicate 6 g) rfl ?_ hq, by decide +kernel, by decide +kernel⟩
  intro x hx
  rw [(List.mem_replicate.mp hx).2]
  exact ⟨by decide, by decide, by decide⟩

/-- With a zone the mask length is lost without an error: `fe80::1%eth0/64` becomes the object with
the length 128. -/
theorem C92_zone_fails : ipFactory "fe80::1%eth0/64".toList false "auto_detect".toList = .ok (.v6 (obj6 0xfe800000000000000000000000000001 128)) := by
  decide +kernel

example : '%' ∉ "2001:db8::1/64".toList ∧
    ipFactory "2001:db8::1/64".toList true "auto_detect".toList = .ok (.net6 0x20010db8000000000000000000000000 64) := by
  decide +kernel

/-! ## C93: the texts that IPv4Obj reads -/

theorem takeDigits_eq {s d r : Str} (h : takeDigits s = (d, r)) : s = d ++ r := by
  rw [takeDigits] at h
  cases h
  exact (List.takeWhile_append_dropWhile).symm

theorem scanOctetDot_eq {s d r : Str} (h : scanOctetDot s = some (d, r)) : s = d ++ '.' :: r := by
  rw [scanOctetDot] at h
  split at h
  · cases h
  · rename_i e
    cases h
    exact takeDigits_eq e
  · cases h

theorem scanQuad_eq {s a r : Str} (h : scanQuad s = some (a, r)) : s = a ++ r ∧ '.' ∈ a := by
  rw [scanQuad] at h
  obtain ⟨⟨d1, r1⟩, h1, h⟩ := Option.bind_eq_some_iff.mp h
  obtain ⟨⟨d2, r2⟩, h2, h⟩ := Option.bind_eq_some_iff.mp h
  obtain ⟨⟨d3, r3⟩, h3, h⟩ := Option.bind_eq_some_iff.mp h
  simp only at h2 h3 h
  split at h
  · cases h
  · rename_i e
    cases h
    rw [scanOctetDot_eq h1, scanOctetDot_eq h2, scanOctetDot_eq h3, takeDigits_eq e]
    simp

theorem scanSep_eq {s r : Str} (h : scanSep s = some r) : s = '/' :: r ∨ ∃ w, w ≠ [] ∧ (∀ c ∈ w, isSpace c = true) ∧ s = w ++ r := by
  rw [scanSep.eq_def] at h
  split at h
  · cases h; exact .inl rfl
  · rename_i c r' _
    split at h
    · rename_i hc
      cases h
      right
      refine ⟨c :: r'.takeWhile isSpace, by simp, ?_, ?_⟩
      · intro x hx
        rcases List.mem_cons.mp hx with rfl | hx
        · exact hc
        · exact of_mem_takeWhile hx
      · rw [List.cons_append, List.takeWhile_append_dropWhile]
    · cases h
  · cases h

theorem matchV4_inv {t a m : Str} (h : matchV4 t = some (a, m)) :
    (t = a ∧ m = "32".toList) ∨ t = a ++ '/' :: m ∨ ∃ w, w ≠ [] ∧ (∀ c ∈ w, isSpace c = true) ∧ '.' ∈ m ∧ t = a ++ w ++ m := by
  rw [matchV4] at h
  split at h
  · cases h
  · rename_i addr e
    cases h
    left
    have := (scanQuad_eq e).1
    exact ⟨by simpa using this, rfl⟩
  · rename_i addr r _ e
    have ht := (scanQuad_eq e).1
    split at h
    · cases h
    · rename_i r' hsep
      split at h
      · rename_i mask hq
        cases h
        obtain ⟨e1, e2⟩ := scanQuad_eq hq
        rw [List.append_nil] at e1
        subst e1
        rcases scanSep_eq hsep with e' | ⟨w, hw, hsp, e'⟩
        · right; left; rw [ht, e']
        · right; right; exact ⟨w, hw, hsp, e2, by rw [ht, e', List.append_assoc]⟩
      · split at h
        · split at h
          · cases h; exact .inr (.inl ht)
          · cases h
        · cases h

theorem matchV4_blank (n k : Nat) {w : Str} (hne : w ≠ []) (hw : ∀ c ∈ w, isSpace c = true) :
    matchV4 (dotted n ++ w ++ dotted k) = some (dotted n, dotted k) := by
  cases w with
  | nil => exact absurd rfl hne
  | cons c w =>
    have hc := hw c (by simp)
    have hd : isDigit c = false := by
      cases hx : isDigit c with
      | false => rfl
      | true => rw [isDigit_not_space hx] at hc; cases hc
    have hq := scanQuad_dotted k [] (by simp)
    rw [List.append_nil] at hq
    unfold matchV4
    rw [List.append_assoc, scanQuad_dotted n ((c :: w) ++ dotted k) (by intro x hx; simp at hx; subst hx; exact hd)]
    have hs : scanSep (c :: w ++ dotted k) = some (dotted k) := by
      have hne : c ≠ '/' := by rintro rfl; exact absurd hc (by decide)
      have hdw : (w ++ dotted k).dropWhile isSpace = dotted k := by
        rw [List.dropWhile_append_of_pos (fun x hx => hw x (by simp [hx]))]
        exact dropWhile_of_head (fun x hx => dotted_noSpace _ x (List.mem_of_head? hx))
      rw [List.cons_append]
      unfold scanSep
      split
      · rename_i e; injection e with e _; exact absurd e hne
      · rename_i e; injection e with e1 e2; rw [← e1, ← e2, if_pos hc, hdw]
      · rename_i e; cases e
    rw [List.cons_append] at hs ⊢
    simp only [hs, hq]

/-- `IPv4Obj(s)` reads exactly these texts, blanks at the ends aside: a dotted quad alone, with a
slash and a mask, or with blanks and a dotted mask. -/
theorem C93_exact {s : Str} {o : V4} : V4.ofStr s = .ok o ↔ ∃ n p, Text4Obj (strip s) n p ∧ o = obj4 n p := by
  have hof : ∀ t, V4.ofStr t = V4.ofStr (strip t) := by
    intro t; rw [V4.ofStr, V4.ofStr, strip_strip]
  rw [hof]
  constructor
  · intro h
    rw [V4.ofStr, strip_strip] at h
    split at h
    · cases h
    · rename_i a m e
      obtain ⟨n, h1, h⟩ := bind_ok h
      obtain ⟨p, h2, h⟩ := bind_ok h
      cases h
      have hq := parseAddr_quad h1
      have hlt := (Quad.dotted.mp hq).1
      have hm := makeNetmask_iff.mp h2
      refine ⟨n, p, ?_, make4_obj hlt hm.le⟩
      rcases matchV4_inv e with ⟨e1, e2⟩ | e1 | ⟨w, hw, hsp, hd, e1⟩
      · refine .inl ⟨a, hq, .inl ⟨e1, ?_⟩⟩
        rw [e2] at h2
        have : makeNetmask "32".toList = .ok 32 := by decide
        rw [this] at h2
        cases h2; rfl
      · exact .inl ⟨a, hq, .inr ⟨m, hm, by rw [e1, slash_eq]⟩⟩
      · exact .inr ⟨a, w, m, hq, hw, hsp, hd, hm, e1⟩
  · rintro ⟨n, p, h, rfl⟩
    rcases h with h | ⟨a, w, m, hq, hw, hsp, hd, hm, e⟩
    · exact (getIpv4_text h).2.2.2
    · have hlt := (Quad.dotted.mp hq).1
      rw [V4.ofStr, strip_strip, e, (Quad.dotted.mp hq).2]
      have hmd : ∃ k, m = dotted k := by
        rcases hm.text.1 with h | h
        · exact absurd (allDigits_mem h _ hd) (by decide)
        · exact h
      obtain ⟨k, rfl⟩ := hmd
      rw [matchV4_blank n k hw hsp]
      simp only [parseAddr_dotted hlt, makeNetmask_iff.mpr hm]
      show Except.ok (V4.make n p) = _
      rw [make4_obj hlt hm.le]

example : Text4Obj "10.1.2.3 \t 255.255.255.0".toList 167838211 24 ∧
    V4.ofStr "  10.1.2.3 \t 255.255.255.0 ".toList = .ok (obj4 167838211 24) ∧ V4.ofStr "10.1.2.3 24".toList = .error .addressValue :=
  ⟨.inr ⟨"10.1.2.3".toList, " \t ".toList, "255.255.255.0".toList,
    ⟨10, 1, 2, 3, by decide, by decide, by decide, by decide, by decide +kernel, by decide⟩, by decide, by decide, by decide,
    .net (by decide) ⟨255, 255, 255, 0, by decide, by decide, by decide, by decide, by decide +kernel, by decide⟩, by decide +kernel⟩,
    by decide +kernel, by decide +kernel⟩

end IP

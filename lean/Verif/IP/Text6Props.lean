import Verif.IP.Text6Quad

/-! # Properties of the texts of IPv6 addresses (C87-C89) -/

namespace IP

open Py Re

/-! ## C87: IPv6 addresses survive being written and read -/

theorem colons_len {gs : List Group} (h : ∀ g ∈ gs, g.Valid) : (colons gs).length + 1 ≤ 5 * gs.length + (if gs = [] then 1 else 0) := by
  induction gs with
  | nil => simp [colons, join]
  | cons g gs ih =>
    have ih' := ih (fun g hg => h g (by simp [hg]))
    have hg : g.text.length ≤ 4 := (h g (by simp)).grp.2.1
    cases gs with
    | nil =>
      have : colons [g] = g.text := rfl
      rw [this]; simp; omega
    | cons g' gs =>
      have e : colons (g :: g' :: gs) = g.text ++ [':'] ++ colons (g' :: gs) := rfl
      rw [e]
      simp only [List.length_append, List.length_cons, List.length_nil, reduceCtorEq, if_false] at ih' ⊢
      omega

theorem Text6.len {s : Str} {n : Nat} (h : Text6 s n) : s.length ≤ 39 := by
  cases h with
  | @full gs hl hg =>
    have := colons_len hg
    rw [if_neg (by rintro rfl; cases hl)] at this
    omega
  | @short hi lo hl hh hlo =>
    have h1 := colons_len hh
    have h2 := colons_len hlo
    rw [List.length_append, List.length_append, show "::".toList.length = 2 by decide +kernel]
    split at h1 <;> split at h2 <;> omega

theorem natStr_len128 : ∀ p : Fin 129, (natStr p.val).length ≤ 3 := by decide +kernel

theorem Text6.word {s : Str} {n : Nat} (h : Text6 s n) (hne : s ≠ []) : IsWord s := ⟨hne, fun c hc => (h.chars c hc).2⟩

theorem Text6.ne_nil {s : Str} {n : Nat} (h : Text6 s n) : s ≠ [] := by
  cases h with
  | @full gs hl hg =>
    obtain ⟨g, t, hm, e⟩ := colons_cons (gs := gs) (by rintro rfl; cases hl)
    rw [e]
    intro e
    exact (hg g hm).grp.1 (List.append_eq_nil_iff.mp e).1
  | short hl hh hlo =>
    intro e
    rw [show "::".toList = [':', ':'] by decide +kernel] at e
    simp at e

theorem Text6.lt {s : Str} {n : Nat} (h : Text6 s n) : n < 2 ^ 128 := parse6_lt h.parse

theorem digits_word {p : Str} (hp : p ≠ []) (hd : ∀ x ∈ p, isDigit x = true) : IsWord p :=
  ⟨hp, fun c hc => isDigit_not_space (hd c hc)⟩

theorem ofText_ok {t : Str} {o : V6} : V6.ofText t = .ok o ↔
    ∃ addr mask ip p, find6 t = .ok (addr, mask) ∧ parse6 addr = .ok ip ∧ makeNetmask6 (mask.getD "128".toList) = .ok p ∧ o = V6.make ip p := by
  rw [V6.ofText]
  generalize find6 t = f
  cases f with
  | error e =>
    constructor
    · intro h; cases h
    · rintro ⟨_, _, _, _, h, _⟩; cases h
  | ok q =>
    obtain ⟨addr, mask⟩ := q
    show (parse6 addr >>= fun ip => makeNetmask6 (mask.getD "128".toList) >>= fun p => Except.ok (V6.make ip p)) = .ok o ↔ _
    generalize hm : makeNetmask6 (mask.getD "128".toList) = m
    generalize ha : parse6 addr = a
    constructor
    · intro h
      cases a with
      | error e => cases h
      | ok ip =>
        cases m with
        | error e => cases h
        | ok p =>
          have h : Except.ok (V6.make ip p) = Except.ok o := h
          cases h
          exact ⟨addr, mask, ip, p, rfl, ha, hm, rfl⟩
    · rintro ⟨_, _, ip, p, h1, h2, h3, rfl⟩
      cases h1
      rw [ha] at h2
      rw [hm] at h3
      rw [h2, h3]; rfl

theorem ofStr_ok {t : Str} {o : V6} : V6.ofStr t = .ok o ↔
    t.length ≤ 43 ∧ ∃ u, joinMask (splitWs t) = .ok u ∧ V6.ofText u = .ok o := by
  rw [V6.ofStr]
  generalize V6.ofText = F
  split
  · constructor
    · intro h; cases h
    · rintro ⟨h, _⟩; omega
  · cases joinMask (splitWs t) with
    | error e =>
      constructor
      · intro h; cases h
      · rintro ⟨_, _, h, _⟩; cases h
    | ok u =>
      constructor
      · intro h; exact ⟨by omega, u, rfl, h⟩
      · rintro ⟨_, _, h, h'⟩; cases h; exact h'

/-- What is read from an address and a mask length, in whichever way the two are written. -/
theorem ofStr_found {t s : Str} {n : Nat} {p : Nat}
    (hf : find6 s = .ok (s, none) ∧ ∀ p : Str, p ≠ [] → (∀ x ∈ p, isDigit x = true) → find6 (s ++ '/' :: p) = .ok (s, some p))
    (hn : parse6 s = .ok n) (ht : t.length ≤ 43) (hp : p ≤ 128)
    (hw : splitWs t = [s] ∧ p = 128 ∨ splitWs t = [s ++ '/' :: natStr p] ∨ splitWs t = [s, natStr p]) :
    V6.ofStr t = .ok (V6.make n p) := by
  have e128 : makeNetmask6 "128".toList = .ok 128 := by decide +kernel
  have ep : makeNetmask6 (natStr p) = .ok p := by
    rw [makeNetmask6, if_pos ⟨allDigits_natStr p, by rw [natVal_natStr]; exact hp⟩, natVal_natStr]
  have hfp := hf.2 (natStr p) (natStr_ne_nil p) (natStr_digits p)
  refine ofStr_ok.mpr ⟨ht, ?_⟩
  rcases hw with ⟨hw, rfl⟩ | hw | hw
  · exact ⟨s, by rw [hw]; rfl, ofText_ok.mpr ⟨s, none, n, 128, hf.1, hn, e128, rfl⟩⟩
  · refine ⟨s ++ '/' :: natStr p, by rw [hw, joinMask], ofText_ok.mpr ?_⟩
    exact ⟨s, some (natStr p), n, p, hfp, hn, ep, rfl⟩
  · refine ⟨s ++ '/' :: natStr p, by rw [hw, joinMask], ofText_ok.mpr ?_⟩
    exact ⟨s, some (natStr p), n, p, hfp, hn, ep, rfl⟩

theorem ofStr_of {t s : Str} {n : Nat} {p : Nat} (h : Text6 s n) (ht : t.length ≤ 43) (hp : p ≤ 128)
    (hw : splitWs t = [s] ∧ p = 128 ∨ splitWs t = [s ++ '/' :: natStr p] ∨ splitWs t = [s, natStr p]) :
    V6.ofStr t = .ok (V6.make n p) := ofStr_found h.find h.parse ht hp hw

/-- Every text of an address (RFC 4291: eight groups of one to four digits of either case, or fewer
around one `::`) is read as that address; alone, with `/length`, or with a blank and the length. -/
theorem C87_reads {s : Str} {n : Nat} (h : Text6 s n) {p : Nat} (hp : p ≤ 128) :
    (∃ o, V6.ofStr s = .ok o ∧ o.ip = n ∧ o.plen = 128 ∧ o.net = n) ∧
    (∃ o, V6.ofStr (s ++ "/".toList ++ natStr p) = .ok o ∧ o.ip = n ∧ o.plen = p ∧ o.net = n / 2 ^ (128 - p) * 2 ^ (128 - p)) ∧
    (∀ t, t.length ≤ 43 → splitWs t = [s, natStr p] →
      ∃ o, V6.ofStr t = .ok o ∧ o.ip = n ∧ o.plen = p ∧ o.net = n / 2 ^ (128 - p) * 2 ^ (128 - p)) := by
  have hl := h.len
  have hpl := natStr_len128 ⟨p, by omega⟩
  simp only at hpl
  have hblock := make6_block h.lt hp
  have hslash : s ++ "/".toList ++ natStr p = s ++ '/' :: natStr p := by simp
  refine ⟨⟨V6.make n 128, ofStr_of h (by omega) (by omega) (.inl ⟨splitWs_word (h.word h.ne_nil), rfl⟩), rfl, rfl, ?_⟩,
    ⟨V6.make n p, ?_, rfl, rfl, hblock⟩, ?_⟩
  · rw [make6_block h.lt (by omega)]; simp
  · rw [hslash]
    refine ofStr_of h (by rw [List.length_append, List.length_cons]; omega) hp (.inr (.inl (splitWs_word ⟨by simp, ?_⟩)))
    intro c hc
    rcases List.mem_append.mp hc with hc | hc
    · exact (h.chars c hc).2
    · rcases List.mem_cons.mp hc with rfl | hc
      · decide
      · exact isDigit_not_space (natStr_digits p c hc)
  · intro t ht hw
    exact ⟨V6.make n p, ofStr_of h ht hp (.inr (.inr hw)), rfl, rfl, hblock⟩

/-- Whatever text an object is made from, it is one of those that C07 and C08 speak about. -/
theorem C87_regular {t : Str} {o : V6} (h : V6.ofStr t = .ok o) : o.Regular := by
  obtain ⟨_, u, _, hu⟩ := ofStr_ok.mp h
  obtain ⟨addr, mask, ip, p, _, h2, h3, rfl⟩ := ofText_ok.mp hu
  refine V6.Regular.make (parse6_lt h2) ?_
  rw [makeNetmask6] at h3
  split at h3
  · rename_i hh; cases h3; exact hh.2
  · cases h3

/-- `as_cidr_addr` and `as_cidr_net` write the address and the network as RFC 5952 recommends,
then `/` and the prefix length. -/
theorem C87_writes {o : V6} (_h : o.Regular) :
    (∃ s, Canon6 o.ip s ∧ o.asCidrAddr = s ++ "/".toList ++ natStr o.plen) ∧
    (∃ s, Canon6 o.net s ∧ o.asCidrNet = s ++ "/".toList ++ natStr o.plen ∧ o.compressed = s ++ "/".toList ++ natStr o.plen) := by
  have e : ∀ s t : Str, s ++ "/".toList ++ t = s ++ '/' :: t := by intro s t; simp
  refine ⟨⟨str6 o.ip, str6_canon _, ?_⟩, ⟨str6 o.net, str6_canon _, ?_, ?_⟩⟩
  · rw [e]; rfl
  · rw [e]; rfl
  · rw [e]; rfl

/-- `exploded`, `as_hex_tuple` and `as_binary_tuple` write the eight groups of the address with a
fixed number of digits. -/
theorem C87_exploded {o : V6} (_h : o.Regular) :
    (∃ gs : List Group, gs.length = 8 ∧ (∀ g ∈ gs, g.Valid ∧ g.length = 4 ∧ ∀ d ∈ g, d.1.toNat < 65 ∨ 70 < d.1.toNat) ∧
      gs.map Group.val = groupsOf o.ip 0 8 ∧ o.exploded = colons gs ∧ o.asHexTuple = gs.map Group.text) ∧
    (o.asBinaryTuple.length = 8 ∧ (∀ w ∈ o.asBinaryTuple, w.length = 16 ∧ ∀ c ∈ w, c = '0' ∨ c = '1') ∧
      o.asBinaryTuple.map (valBase 2) = groupsOf o.ip 0 8) := by
  have hlt : ∀ x ∈ groupsOf o.ip 0 8, x < 65536 := by
    intro x hx
    obtain ⟨j, _, rfl⟩ := List.mem_map.mp hx
    exact groupOf_lt o.ip _
  have hlen : (groupsOf o.ip 0 8).length = 8 := by simp [groupsOf]
  have hex : o.exploded = colons ((groupsOf o.ip 0 8).map (fun x => pairs (digits4 x))) := by
    rw [V6.exploded, exploded6, hextets_eq, colons, List.map_map]; rfl
  have hval : ∀ x ∈ groupsOf o.ip 0 8, (pairs (digits4 x)).Valid := fun x _ => pairs_valid (digits4_lt x) (by simp [digits4]) (by simp [digits4])
  have htup : o.asHexTuple = (groupsOf o.ip 0 8).map (padBase 16 4) := by
    rw [V6.asHexTuple, hex, colons, List.map_map]
    refine splitOn_join ':' _ (by rw [← List.length_pos_iff]; simp [hlen]) ?_
    intro p hp hc
    obtain ⟨x, hx, rfl⟩ := List.mem_map.mp hp
    exact ((hval x hx).chars _ hc).1 rfl
  have hbin : o.asBinaryTuple = (groupsOf o.ip 0 8).map (padBase 2 16) := by
    rw [V6.asBinaryTuple, htup, List.map_map]
    refine List.map_congr_left ?_
    intro x hx
    show padBase 2 16 ((hexNat (padBase 16 4 x) 0).getD 0) = padBase 2 16 x
    rw [padBase4, hexNat_group _ 0 (hval x hx).2.2]
    exact congrArg _ (digits4_val x (hlt x hx))
  refine ⟨⟨_, by rw [List.length_map, hlen], ?_, ?_, hex, ?_⟩, ?_, ?_, ?_⟩
  · intro g hg
    obtain ⟨x, hx, rfl⟩ := List.mem_map.mp hg
    exact ⟨hval x hx, rfl, fun d hd => (pairs_mem (digits4_lt x) d hd).2⟩
  · rw [List.map_map]
    conv => rhs; rw [← List.map_id (groupsOf o.ip 0 8)]
    exact List.map_congr_left (fun x hx => digits4_val x (hlt x hx))
  · rw [htup, List.map_map]; rfl
  · rw [hbin, List.length_map, hlen]
  · rw [hbin]
    intro w hw
    obtain ⟨x, _, rfl⟩ := List.mem_map.mp hw
    refine ⟨length_padBase 2 16 x, ?_⟩
    have key : ∀ k n, ∀ c ∈ padBase 2 k n, c = '0' ∨ c = '1' := by
      intro k
      induction k with
      | zero => intro n c hc; cases hc
      | succ k ih =>
        intro n c hc
        rw [padBase] at hc
        rcases List.mem_append.mp hc with hc | hc
        · exact ih _ c hc
        · rw [List.mem_singleton.mp hc]
          rcases Nat.mod_two_eq_zero_or_one n with h | h <;> rw [h]
          · exact .inl (by decide)
          · exact .inr (by decide)
    exact key 16 x
  · rw [hbin, List.map_map]
    conv => rhs; rw [← List.map_id (groupsOf o.ip 0 8)]
    refine List.map_congr_left ?_
    intro x hx
    simp only [Function.comp_apply, id_eq]
    rw [valBase_padBase 2 (by decide) (by decide)]
    exact Nat.mod_eq_of_lt (hlt x hx)

theorem str6_text {n : Nat} (h : n < 2 ^ 128) : Text6 (str6 n) n := (str6_canon n).text h

/-- Reading what an object writes gives the object back. -/
theorem C87_roundtrip {o : V6} (h : o.Regular) :
    V6.ofStr o.asCidrAddr = .ok o ∧
    (∃ o', V6.ofStr o.asCidrNet = .ok o' ∧ o'.ip = o.net ∧ o'.plen = o.plen ∧ o'.net = o.net) ∧
    (∃ o', V6.ofStr o.exploded = .ok o' ∧ o'.ip = o.ip ∧ o'.plen = 128) := by
  have hw := h.wf
  have hb := h.block
  have e : ∀ s t : Str, s ++ "/".toList ++ t = s ++ '/' :: t := by intro s t; simp
  refine ⟨?_, ?_, ?_⟩
  · obtain ⟨o', h1, h2, h3, h4⟩ := (C87_reads (str6_text hw.ip_lt) hw.plen_le).2.1
    rw [e] at h1
    rw [V6.asCidrAddr, h1]
    congr 1
    rw [← hb] at h4
    cases o; cases o'; simp_all
  · obtain ⟨o', h1, h2, h3, h4⟩ := (C87_reads (str6_text hw.net_lt) hw.plen_le).2.1
    rw [e] at h1
    refine ⟨o', h1, h2, h3, ?_⟩
    rw [h4, hw.aligned]
  · obtain ⟨gs, hl, hg, hv, he, _⟩ := (C87_exploded h).1
    have ht := Text6.full hl (fun g h => (hg g h).1)
    have : valOf gs = o.ip := by
      rw [valOf_eq gs _ hv, foldl_groups _ 8 (by omega), Nat.sub_self, Nat.pow_zero, Nat.div_one]
      exact Nat.mod_eq_of_lt (by rw [show (65536 : Nat) ^ 8 = 2 ^ 128 by decide]; exact hw.ip_lt)
    rw [this] at ht
    obtain ⟨o', h1, h2, h3, _⟩ := (C87_reads ht (p := 128) (by omega)).1
    rw [he]
    exact ⟨o', h1, h2, h3⟩

/-- Equal objects have the same hash, and objects with the same texts to be hashed are equal. -/
theorem C87_hash {a b : V6} (ha : a.Regular) (hb : b.Regular) : a.eq b = true ↔ a.hashKey = b.hashKey := by
  have ea := V6.asDecimal_eq ha.wf
  have eb := V6.asDecimal_eq hb.wf
  rw [V6.eq, ea, eb, Bool.and_eq_true, beq_iff_eq, beq_iff_eq, V6.hashKey, V6.hashKey, Prod.mk.injEq]
  constructor
  · rintro ⟨h1, h2⟩; rw [h1, h2]; exact ⟨rfl, rfl⟩
  · rintro ⟨h1, h2⟩
    have p1 := (str6_text ha.wf.ip_lt).parse
    rw [h1, (str6_text hb.wf.ip_lt).parse] at p1
    exact ⟨(Except.ok.inj p1).symm, natStr_inj h2⟩

/-! ### Examples -/

/-- A non-trivial text: upper case, leading zeros, `::` in the middle. -/
example : Text6 "2001:0DB8::a:1".toList 42540766411282592856903984951654481921 := by
  have h := Text6.short (hi := [[('2', 2), ('0', 0), ('0', 0), ('1', 1)], [('0', 0), ('D', 13), ('B', 11), ('8', 8)]])
    (lo := [[('a', 10)], [('1', 1)]]) (by decide) (by decide) (by decide)
  have e1 : colons [[('2', 2), ('0', 0), ('0', 0), ('1', 1)], [('0', 0), ('D', 13), ('B', 11), ('8', 8)]] ++ "::".toList ++ colons [[('a', 10)], [('1', 1)]] =
      "2001:0DB8::a:1".toList := by decide +kernel
  rw [e1] at h
  exact h

/-- The longest run, the first of two. -/
example : (V6.make 0x20010db8000000000001000000000001 64).Regular ∧
    str6 0x20010db8000000000001000000000001 = "2001:db8::1:0:0:1".toList := by
  refine ⟨?_, by decide +kernel⟩
  exact V6.Regular.make (by decide) (by decide)

/-! ## C88: only texts of addresses are taken for addresses -/

/-- The full statement: a text that is accepted is the text of the address, with or without a mask
length.  Proved: some part of the text is a text of the address.  Missing: that it is all of the
text (false, see below). -/
theorem C88_sound_partial {t : Str} {o : V6} (h : V6.ofStr t = .ok o) :
    ∃ pre s post, join "/".toList (splitWs t) = pre ++ s ++ post ∧ (Text6 s o.ip ∨ Quad6 s o.ip) := by
  obtain ⟨_, u, hj, hu⟩ := ofStr_ok.mp h
  obtain ⟨addr, mask, ip, p, h1, h2, _, rfl⟩ := ofText_ok.mp hu
  have hm : u = join "/".toList (splitWs t) := by
    rw [show "/".toList = ['/'] by decide +kernel]
    generalize splitWs t = ws at *
    match ws, hj with
    | [], hu => cases hu; rfl
    | [a], hu => cases hu; rfl
    | [a, b], hu => cases hu; simp [join]
    | _ :: _ :: _ :: _, hu => cases hu
  obtain ⟨pre, post, e5, _⟩ := find6_sound h1
  exact ⟨pre, addr, post, by rw [← hm, e5], parse6_text h2⟩

/-- The statement is false: a group of five digits, nine groups, and two `::` are accepted, and
other addresses come out. -/
theorem C88_sound_fails :
    (∃ o, V6.ofStr "12345::1".toList = .ok o ∧ o.ip = 0x23450000000000000000000000000001) ∧ (∀ n, ¬ Text6 "12345::1".toList n) ∧
    (∃ o, V6.ofStr "1:2:3:4:5:6:7:8:9".toList = .ok o ∧ o.ip = 0x00010002000300040005000600070008) ∧
    (∀ n, ¬ Text6 "1:2:3:4:5:6:7:8:9".toList n) ∧
    (∃ o, V6.ofStr "1::2::3".toList = .ok o ∧ o.ip = 0x00010000000000000000000000000002) ∧ (∀ n, ¬ Text6 "1::2::3".toList n) := by
  have key : ∀ (t : Str) (e : Err), parse6 t = .error e → ∀ n, ¬ Text6 t n := by
    intro t e h n ht
    rw [ht.parse] at h; cases h
  refine ⟨⟨V6.make 0x23450000000000000000000000000001 128, by decide +kernel, rfl⟩, key _ .addressValue (by decide +kernel),
    ⟨V6.make 0x00010002000300040005000600070008 128, by decide +kernel, rfl⟩, key _ .addressValue (by decide +kernel),
    ⟨V6.make 0x00010000000000000000000000000002 128, by decide +kernel, rfl⟩, key _ .addressValue (by decide +kernel)⟩

/-- The same for the mask length: of two, the last one counts. -/
theorem C88_mask_fails : V6.ofStr "fe80::1/64/65".toList = V6.ofStr "fe80::1/65".toList ∧
    ∃ o, V6.ofStr "fe80::1/65".toList = .ok o := by
  refine ⟨by decide +kernel, V6.make 0xfe800000000000000000000000000001 65, by decide +kernel⟩

/-- A case of the partial theorem. -/
example : V6.ofStr "fe80::1 64".toList = .ok (V6.make 0xfe800000000000000000000000000001 64) := by
  decide +kernel

/-! ## C89: IPv6 addresses that end with a dotted IPv4 address -/

/-- The full statement: every text whose last two groups are written as a dotted IPv4 address is read
as that address, alone, with `/length`, or with a blank and the length.  Proved: for the texts of up
to 43 characters.  Missing: longer texts (they are rejected, see below). -/
theorem C89_quad_partial {s : Str} {n : Nat} (h : Quad6 s n) {p : Nat} (hp : p ≤ 128) :
    (s.length ≤ 43 → ∃ o, V6.ofStr s = .ok o ∧ o.ip = n ∧ o.plen = 128 ∧ o.net = n) ∧
    (∀ t, t.length ≤ 43 → splitWs t = [s ++ "/".toList ++ natStr p] ∨ splitWs t = [s, natStr p] →
      ∃ o, V6.ofStr t = .ok o ∧ o.ip = n ∧ o.plen = p ∧ o.net = n / 2 ^ (128 - p) * 2 ^ (128 - p)) := by
  have hblock := make6_block h.lt hp
  have hslash : s ++ "/".toList ++ natStr p = s ++ '/' :: natStr p := by simp
  refine ⟨?_, ?_⟩
  · intro hl
    refine ⟨V6.make n 128, ofStr_found h.find h.parse hl (by omega) (.inl ⟨splitWs_word ⟨h.ne_nil, h.chars⟩, rfl⟩), rfl, rfl, ?_⟩
    rw [make6_block h.lt (by omega)]; simp
  · intro t ht hw
    rw [hslash] at hw
    exact ⟨V6.make n p, ofStr_found h.find h.parse ht hp (.inr hw), rfl, rfl, hblock⟩

theorem quad_example : Quad6 "64:ff9b::192.0.2.33".toList 0x0064ff9b0000000000000000c0000221 := by
  have h := Quad6.short (hi := [[('6', 6), ('4', 4)], [('f', 15), ('f', 15), ('9', 9), ('b', 11)]]) (lo := []) (q := 0xc0000221)
    (s := "192.0.2.33".toList) (by decide) (by decide) (by decide) ⟨192, 0, 2, 33, by decide, by decide, by decide, by decide, by decide +kernel, by decide⟩
  rw [show colons [[('6', 6), ('4', 4)], [('f', 15), ('f', 15), ('9', 9), ('b', 11)]] ++ "::".toList ++ colonsQuad [] "192.0.2.33".toList =
    "64:ff9b::192.0.2.33".toList by decide +kernel] at h
  exact h

/-- The translation prefix of RFC 6052. -/
example : ∃ s n, Quad6 s n ∧ s.length ≤ 39 ∧ s = "64:ff9b::192.0.2.33".toList := ⟨_, _, quad_example, by decide +kernel, rfl⟩

/-- A text of 45 characters is rejected. -/
theorem C89_quad_fails : ∃ s n, Quad6 s n ∧ ∀ o, V6.ofStr s ≠ .ok o := by
  let g : Group := [('f', 15), ('f', 15), ('f', 15), ('f', 15)]
  have hq : Quad "255.255.255.255".toList (2 ^ 32 - 1) :=
    ⟨255, 255, 255, 255, by decide, by decide, by decide, by decide, by decide +kernel, by decide⟩
  refine ⟨_, _, Quad6.full (gs := List.replicate 6 g) rfl ?_ hq, ?_⟩
  · intro x hx
    rw [(List.mem_replicate.mp hx).2]
    exact ⟨by decide, by decide, by decide⟩
  · intro o h
    have := (ofStr_ok.mp h).1
    exact absurd this (by decide +kernel)

end IP

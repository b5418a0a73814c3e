import Verif.IP.ViewsProps

/-! # C261: the repr of an address object tells which object it is -/

namespace IP

open Py

theorem dotted_length (n : Nat) : (dotted n).length ≤ 15 := by
  have key : ∀ x, (natStr (x % 256)).length ≤ 3 := fun x => natStr_len128' ⟨x % 256, Nat.mod_lt _ (by decide)⟩
  have h1 := key (n / 2 ^ 24)
  have h2 := key (n / 2 ^ 16)
  have h3 := key (n / 2 ^ 8)
  have h4 := key n
  rw [dotted_eq]
  simp only [List.length_append, List.length_cons]
  omega
where
  natStr_len128' : ∀ p : Fin 256, (natStr p.val).length ≤ 3 := by decide +kernel

theorem gt_list : ">".toList = ['>'] := by decide +kernel

theorem slash_list : "/".toList = ['/'] := by decide +kernel

theorem repr4 (o : V4) : V4.repr (some o) = "<IPv4Obj ".toList ++ dotted o.ip ++ '/' :: natStr o.plen ++ ['>'] := rfl

theorem repr6 (o : V6) : V6.repr o = "<IPv6Obj ".toList ++ (if o.isIpv4Mapped then "::ffff:".toList ++ dotted (o.ip % 2 ^ 32) else str6 o.ip) ++
    '/' :: natStr o.plen ++ ['>'] := rfl

theorem cidr4 (o : V4) : o.asCidrAddr = dotted o.ip ++ '/' :: natStr o.plen := rfl

theorem cidr6 (o : V6) : o.asCidrAddr = str6 o.ip ++ '/' :: natStr o.plen := rfl

/-- C261: what stands between the brackets is a text from which the constructor makes the object again. -/
theorem C261_v4 {o : V4} (h : o.Regular) :
    ∃ t, V4.repr (some o) = "<IPv4Obj ".toList ++ t ++ ">".toList ∧ V4.ofStr t = .ok o :=
  ⟨o.asCidrAddr, by rw [repr4, cidr4, gt_list, List.append_assoc _ (dotted o.ip)], C06_cidr_roundtrip o h⟩

/-- The text of an IPv4-mapped address. -/
theorem mapped_text {n : Nat} (h : networkOf 128 n 96 = 281470681743360) (hn : n < 2 ^ 128) :
    Quad6 ("::ffff:".toList ++ dotted (n % 2 ^ 32)) n := by
  have hq : Quad (dotted (n % 2 ^ 32)) (n % 2 ^ 32) := Quad.dotted.mpr ⟨Nat.mod_lt _ (by decide), rfl⟩
  have h6 := Quad6.short (hi := []) (lo := [[('f', 15), ('f', 15), ('f', 15), ('f', 15)]]) (by decide) (by decide) (by decide) hq
  rw [networkOf_eq 128 n 96 (by omega) hn] at h
  have e : valOf [] * 65536 ^ (8 - ([] : List Group).length) +
      (valOf [[('f', 15), ('f', 15), ('f', 15), ('f', 15)]] * 2 ^ 32 + n % 2 ^ 32) = n := by
    have e1 : valOf [] = 0 := rfl
    have e2 : valOf [[('f', 15), ('f', 15), ('f', 15), ('f', 15)]] = 65535 := by decide +kernel
    rw [e1, e2, Nat.zero_mul]
    generalize 65536 ^ (8 - ([] : List Group).length) = z
    have e3 : n / 2 ^ 32 * 2 ^ 32 = 281470681743360 := h
    omega
  rw [e] at h6
  have e2 : colons [] ++ "::".toList ++ colonsQuad [[('f', 15), ('f', 15), ('f', 15), ('f', 15)]] (dotted (n % 2 ^ 32)) =
      "::ffff:".toList ++ dotted (n % 2 ^ 32) := by
    generalize dotted (n % 2 ^ 32) = d
    rw [show "::ffff:".toList = [':', ':', 'f', 'f', 'f', 'f', ':'] by decide +kernel, show "::".toList = [':', ':'] by decide +kernel]
    simp [colons, colonsQuad, join, Group.text]
  rw [e2] at h6
  exact h6

/-- The same for IPv6, also for the IPv4-mapped addresses, whose text ends with an IPv4 address. -/
theorem C261_v6 {o : V6} (h : o.Regular) :
    ∃ t, V6.repr o = "<IPv6Obj ".toList ++ t ++ ">".toList ∧ V6.ofStr t = .ok o ∧
      (('.' ∈ t) ↔ o.ip / 2 ^ 32 = 0xffff) := by
  have hw := h.wf
  have hb := h.block
  have hm : o.isIpv4Mapped = true ↔ o.ip / 2 ^ 32 = 0xffff := by
    have := hw.ip_lt
    rw [V6.isIpv4Mapped, beq_iff_eq, networkOf_eq 128 _ 96 (by omega) hw.ip_lt]
    omega
  by_cases hc : o.isIpv4Mapped = true
  · have hq := mapped_text (by simpa [V6.isIpv4Mapped] using hc) hw.ip_lt
    have hp : (natStr o.plen).length ≤ 3 := natStr_len128 ⟨o.plen, Nat.lt_succ_of_le hw.plen_le⟩
    refine ⟨"::ffff:".toList ++ dotted (o.ip % 2 ^ 32) ++ "/".toList ++ natStr o.plen, ?_, ?_, ?_⟩
    · rw [repr6, if_pos hc, gt_list, slash_list]
      generalize dotted (o.ip % 2 ^ 32) = d
      generalize "<IPv6Obj ".toList = p
      generalize "::ffff:".toList = q
      simp
    · obtain ⟨o', h1, h2, h3, h4⟩ := (C89_quad_partial hq hw.plen_le).2
        ("::ffff:".toList ++ dotted (o.ip % 2 ^ 32) ++ "/".toList ++ natStr o.plen)
        (by have := dotted_length (o.ip % 2 ^ 32)
            simp only [List.length_append]
            have e1 : "::ffff:".toList.length = 7 := by decide
            have e2 : "/".toList.length = 1 := by decide
            omega)
        (.inl (splitWs_word ⟨by simp, fun c hc => by
          simp only [List.mem_append] at hc
          rcases hc with (hc | hc) | hc
          · exact hq.chars c (List.mem_append.mpr hc)
          · have : c = '/' := by simpa using hc
            subst this; decide
          · exact isDigit_not_space (natStr_digits _ c hc)⟩))
      rw [h1]
      rw [← hb] at h4
      cases o; cases o'; simp_all
    · refine iff_of_true ?_ (hm.mp hc)
      have := (Quad.dotted.mpr ⟨Nat.mod_lt o.ip (by decide : 2 ^ 32 > 0), rfl⟩ : Quad (dotted (o.ip % 2 ^ 32)) _).dot
      exact List.mem_append_left _ (List.mem_append_left _ (List.mem_append_right _ this))
  · refine ⟨o.asCidrAddr, ?_, (C87_roundtrip h).1, ?_⟩
    · rw [repr6, if_neg hc, cidr6, gt_list, List.append_assoc _ (str6 o.ip)]
    · refine iff_of_false ?_ (fun hh => hc (hm.mpr hh))
      rw [cidr6, List.mem_append, List.mem_cons]
      rintro (h1 | h1 | h1)
      · exact ((str6_text hw.ip_lt).chars _ h1).1 rfl
      · exact absurd h1 (by decide)
      · exact absurd (natStr_digits _ _ h1) (by decide)

/-- Objects with the same repr are the same. -/
theorem C261_inj4 {a b : Option V4} (ha : ∀ o ∈ a, o.Regular) (hb : ∀ o ∈ b, o.Regular) (h : V4.repr a = V4.repr b) : a = b := by
  have ne : ∀ o : V4, V4.repr (some o) ≠ V4.repr none := fun o hh => by
    obtain ⟨c, r, hd, hcd⟩ := dotted_head o.ip
    rw [repr4, show V4.repr none = "<IPv4Obj None empty=True>".toList from rfl, hd] at hh
    have h9 := congrArg (fun l => (List.drop 9 l).head?) hh
    have e9 : "<IPv4Obj ".toList = ['<', 'I', 'P', 'v', '4', 'O', 'b', 'j', ' '] := by decide +kernel
    have e10 : (List.drop 9 "<IPv4Obj None empty=True>".toList).head? = some 'N' := by decide +kernel
    simp only [e9, e10, List.cons_append, List.nil_append, List.drop_succ_cons, List.drop_zero, List.head?_cons] at h9
    have hc : c = 'N' := Option.some.inj h9
    rw [hc] at hcd
    exact absurd hcd (by decide)
  match a, b, h with
  | none, none, _ => rfl
  | some x, none, h => exact absurd h (ne x)
  | none, some y, h => exact absurd h.symm (ne y)
  | some x, some y, h =>
    obtain ⟨t, e1, e2⟩ := C261_v4 (ha x rfl)
    obtain ⟨u, e3, e4⟩ := C261_v4 (hb y rfl)
    rw [e1, e3] at h
    rw [List.append_cancel_left (List.append_cancel_right h), e4] at e2
    rw [Except.ok.inj e2]

/-- The same for IPv6. -/
theorem C261_inj6 {a b : V6} (ha : a.Regular) (hb : b.Regular) (h : V6.repr a = V6.repr b) : a = b := by
  obtain ⟨t, e1, e2, _⟩ := C261_v6 ha
  obtain ⟨u, e3, e4, _⟩ := C261_v6 hb
  rw [e1, e3] at h
  rw [List.append_cancel_left (List.append_cancel_right h), e4] at e2
  exact (Except.ok.inj e2).symm

/-- An IPv4-mapped address. -/
example : (V6.make 0xffffc0000201 96).Regular ∧ V6.repr (V6.make 0xffffc0000201 96) = "<IPv6Obj ::ffff:192.0.2.1/96>".toList ∧
    V6.repr (V6.make 0xfe800000000000000000000000000001 64) = "<IPv6Obj fe80::1/64>".toList ∧
    V4.repr (some (V4.make 0xc0000201 24)) = "<IPv4Obj 192.0.2.1/24>".toList :=
  ⟨V6.Regular.make (by decide) (by decide), by decide +kernel, by decide +kernel, by decide +kernel⟩

end IP

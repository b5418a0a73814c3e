import Verif.Cisco.AddrProps

/-! # Properties of interface attributes: switch ports

These properties read the direct children, word by word. -/

namespace Cisco

open Py Conf Query Re

variable {o : Opts} {lines : List Str} {P : Parsed}

/-! ## Specification -/

/-- The line starts with these words. -/
def Spec.Starts (l : List String) (t : Str) : Prop := Spec.wd l <+: splitWs t

/-- The line starts with these words and then says how many. -/
def Spec.Says (l : List String) (t : Str) (n : Int) : Prop :=
  ∃ v more, splitWs t = Spec.wd l ++ v :: more ∧ Spec.Digits v ∧ n = natVal v

/-! ## Lemmas -/

theorem parts_line {t : Str} (h : Line t) : parts t = splitWs t := by
  have h1 : strip t = lstrip t := by
    rw [strip]
    first
      | exact (line_suffix (lstrip_suffix t) h).2
      | rw [h.2]
  rw [parts, h1, splitWs_lstrip]

theorem kids_line (h : parse o lines = .ok P) (hn : ∀ l ∈ lines, '\n' ∉ l) (i : Nat) : ∀ t ∈ Spec.kids P i, Line t := by
  intro t ht
  obtain ⟨j, _, rfl⟩ := List.mem_map.mp ht
  exact line_of_parse h hn j

theorem childTexts_kids (P : Parsed) (i : Nat) : childTexts P i = Spec.kids P i := rfl

/-- The children of an interface line are not blank. -/
theorem kids_words (h : parse o lines = .ok P) {i : Nat} (hi : i ∈ P.list) (hst : Spec.Starts ["interface"] (P.h i).text) :
    ∀ t ∈ Spec.kids P i, splitWs t ≠ [] := by
  have htext : ∀ j ∈ P.list, (P.h j).text = rstrip (lineAt (Spec.input o lines) j) := by
    intro j hj
    have h' := h
    rw [parse, input_eq] at h'
    exact (attrs h' ((mem_list h').mp hj).1).1
  obtain ⟨A, B, C, he, ⟨_, hA⟩, ⟨_, hB⟩, ⟨_, hC⟩⟩ := C22_children h hi
  intro t ht
  obtain ⟨c, hc, rfl⟩ := List.mem_map.mp ht
  have hcl := (C22_children_after h hi hc).2
  rw [htext c hcl]
  have hw : (lstrip (rstrip (lineAt (Spec.input o lines) i))).head? = some 'i' := by
    rw [htext i hi, Spec.Starts, ← splitWs_lstrip] at hst
    generalize hu : lstrip (rstrip (lineAt (Spec.input o lines) i)) = u at *
    have hlu : lstrip u = u := by rw [← hu]; exact lstrip_lstrip _
    cases u with
    | nil =>
      obtain ⟨m, hm⟩ := hst
      cases hm
    | cons x u =>
      rw [splitWs_cons hlu (by simp)] at hst
      obtain ⟨m, hm⟩ := hst
      injection hm with h1 _
      rw [List.takeWhile_cons] at h1
      split at h1
      · injection h1 with h1 _
        rw [← h1]; rfl
      · cases h1
  have hsp : isSpace 'i' = false := by decide
  rw [he] at hc
  simp only [List.mem_append] at hc
  rcases hc with (hc | hc) | hc
  · obtain ⟨_, hne, hp⟩ := (hA c).mp hc
    rcases hp with ⟨_, hp⟩ | ⟨_, hp⟩
    · have := hp.2.2.1
      rw [Ne, splitWs_eq_nil]
      intro hall
      have hz : rstrip (lineAt (Spec.input o lines) c) = [] := by
        rw [← rstrip_rstrip]
        have := rstrip_append_spaces [] _ (List.all_eq_true.mp hall)
        simpa [rstrip] using this
      rw [Spec.indent, Spec.indent, hz] at this
      simp at this
    · exact absurd hp.symm hne
  · obtain ⟨_, _, _, d, ⟨hh, _⟩, _⟩ := (hB c).mp hc
    obtain ⟨sets, x, word, ws, rest, ht, hs, _⟩ := hh
    rw [ht] at hw
    cases hs with
    | nil => revert hw; simp [lstrip, isSpace]
    | cons => revert hw; simp [lstrip, isSpace]
  · obtain ⟨_, _, _, ⟨rest, hh⟩, _⟩ := (hC c).mp hc
    obtain ⟨ws, hws, _⟩ := rstrip_eq_append (lineAt (Spec.input o lines) i)
    cases hr : rstrip (lineAt (Spec.input o lines) i) with
    | nil => rw [hr] at hw; cases hw
    | cons x r =>
      rw [hr] at hw hws
      rw [← hh] at hws
      have h1 : some 'm' = some x := congrArg List.head? hws
      cases h1
      revert hw; simp [lstrip, isSpace]

theorem take_eq {l : List String} {ws : List Str} (n : Nat) (hn : l.length = n) :
    ws.take n = Cisco.ws l ↔ Spec.wd l <+: ws := by
  have e : Cisco.ws l = Spec.wd l := rfl
  have hl : (Spec.wd l).length = n := by simp [Spec.wd, hn]
  rw [e, List.prefix_iff_eq_take, hl]
  exact eq_comm

theorem isSwitchportT_spec {ts : List Str} (hl : ∀ t ∈ ts, Line t) (hb : ∀ t ∈ ts, splitWs t ≠ []) :
    ∃ b, isSwitchportT ts = .ok b ∧ (b = true ↔ ∃ t ∈ ts, Spec.Starts ["switchport"] t) := by
  induction ts with
  | nil => exact ⟨false, rfl, by simp⟩
  | cons t ts ih =>
    obtain ⟨b, h1, h2⟩ := ih (fun t ht => hl t (by simp [ht])) (fun t ht => hb t (by simp [ht]))
    rw [isSwitchportT, parts_line (hl t (by simp))]
    cases hs : splitWs t with
    | nil => exact absurd hs (hb t (by simp))
    | cons w ws =>
      simp only [List.head?_cons]
      have hst : Spec.Starts ["switchport"] t ↔ w = "switchport".toList := by
        rw [Spec.Starts, hs]
        simp only [Spec.wd, List.map_cons, List.map_nil, List.cons_prefix_cons, List.nil_prefix, and_true]
        exact eq_comm
      by_cases hw : w = "switchport".toList
      · rw [if_pos hw]
        exact ⟨true, rfl, by simp only [true_iff]; exact ⟨t, by simp, hst.mpr hw⟩⟩
      · rw [if_neg hw]
        refine ⟨b, h1, h2.trans ⟨fun ⟨u, hu, h⟩ => ⟨u, by simp [hu], h⟩, ?_⟩⟩
        rintro ⟨u, hu, h⟩
        rcases List.mem_cons.mp hu with rfl | hu
        · exact absurd (hst.mp h) hw
        · exact ⟨u, hu, h⟩

/-! ## C75 -/

/-- C75: `is_switchport` of an interface line is true exactly if a child starts with the word
`switchport`, and raises no error. -/
theorem C75_switchport (h : parse o lines = .ok P) (hn : ∀ l ∈ lines, '\n' ∉ l) {i : Nat} (hi : i ∈ P.list)
    (hst : Spec.Starts ["interface"] (P.h i).text) :
    ∃ b, isSwitchport P i = .ok b ∧ (b = true ↔ ∃ t ∈ Spec.kids P i, Spec.Starts ["switchport"] t) :=
  isSwitchportT_spec (kids_line h hn i) (kids_words h hi hst)

/-- C75: the modes and CDP, by the words of the children. -/
theorem C75_modes (h : parse o lines = .ok P) (hn : ∀ l ∈ lines, '\n' ∉ l) (i : Nat) :
    (hasManualSwitchAccess P i = true ↔ ∃ t ∈ Spec.kids P i, Spec.Starts ["switchport", "mode", "access"] t) ∧
    (hasManualSwitchTrunk P i = true ↔ ∃ t ∈ Spec.kids P i, Spec.Starts ["switchport", "mode", "trunk"] t) ∧
    (hasManualDisableCdp P i = true ↔ ∃ t ∈ Spec.kids P i, Spec.Exactly ["no", "cdp", "enable"] t) := by
  have hl := kids_line h hn i
  refine ⟨?_, ?_, ?_⟩
  · rw [hasManualSwitchAccess, childTexts_kids, List.any_eq_true]
    refine ⟨fun ⟨t, ht, h⟩ => ⟨t, ht, ?_⟩, fun ⟨t, ht, h⟩ => ⟨t, ht, ?_⟩⟩
    · rw [parts_line (hl t ht), beq_iff_eq] at h
      exact (take_eq 3 rfl).mp h
    · rw [parts_line (hl t ht), beq_iff_eq]
      exact (take_eq 3 rfl).mpr h
  · rw [hasManualSwitchTrunk, childTexts_kids, List.any_eq_true]
    refine ⟨fun ⟨t, ht, h⟩ => ⟨t, ht, ?_⟩, fun ⟨t, ht, h⟩ => ⟨t, ht, ?_⟩⟩
    · rw [parts_line (hl t ht), beq_iff_eq] at h
      exact (take_eq 3 rfl).mp h
    · rw [parts_line (hl t ht), beq_iff_eq]
      exact (take_eq 3 rfl).mpr h
  · rw [hasManualDisableCdp, childTexts_kids, List.any_eq_true]
    refine ⟨fun ⟨t, ht, h⟩ => ⟨t, ht, ?_⟩, fun ⟨t, ht, h⟩ => ⟨t, ht, ?_⟩⟩
    · rw [parts_line (hl t ht), Bool.and_eq_true, beq_iff_eq, beq_iff_eq] at h
      obtain ⟨h1, h2⟩ := h
      rw [List.take_of_length_le (by omega)] at h2
      exact h2
    · rw [parts_line (hl t ht), show splitWs t = Cisco.ws ["no", "cdp", "enable"] from h]
      rfl

theorem drop_wd {l : List String} {t v : Str} {more : List Str} (n : Nat) (hn : l.length = n)
    (h : splitWs t = Spec.wd l ++ v :: more) : (splitWs t)[n]? = some v := by
  rw [h, List.getElem?_append_right (by simp [Spec.wd, hn])]
  simp [Spec.wd, hn]

theorem allDigits_of {v : Str} (h : Spec.Digits v) : allDigits v = true := by
  rw [allDigits, Bool.and_eq_true]
  refine ⟨?_, List.all_eq_true.mpr h.2⟩
  cases v with
  | nil => exact absurd rfl h.1
  | cons => rfl

theorem accessVlanT_spec {ts : List Str} (hl : ∀ t ∈ ts, Line t) (d : Int)
    (hnum : ∀ t ∈ ts, Spec.Starts ["switchport", "access", "vlan"] t → ∃ n, Spec.Says ["switchport", "access", "vlan"] t n) :
    ∃ v, Spec.First (Spec.Says ["switchport", "access", "vlan"]) ts v ∧ accessVlanT d ts = .ok (v.getD d) := by
  induction ts with
  | nil => exact ⟨none, rfl, rfl⟩
  | cons t ts ih =>
    obtain ⟨v, h1, h2⟩ := ih (fun t ht => hl t (by simp [ht])) (fun t ht => hnum t (by simp [ht]))
    rw [accessVlanT, parts_line (hl t (by simp))]
    by_cases hs : Spec.Starts ["switchport", "access", "vlan"] t
    · obtain ⟨n, w, more, e1, e2, e3⟩ := hnum t (by simp) hs
      rw [if_pos ((take_eq 3 rfl).mpr hs), drop_wd 3 rfl e1]
      refine ⟨some n, .inl ⟨n, ⟨w, more, e1, e2, e3⟩, rfl⟩, ?_⟩
      dsimp only
      rw [pyInt_digits (allDigits_of e2), e3]; rfl
    · rw [if_neg (fun e => hs ((take_eq 3 rfl).mp e))]
      refine ⟨v, .inr ⟨?_, h1⟩, h2⟩
      rintro n ⟨w, more, e1, _⟩
      exact hs ⟨_, e1.symm⟩

/-- C75: `access_vlan` is the number of the first child `switchport access vlan N`; without
such a child it is 1 on a switch port and 0 elsewhere.  For access VLANs that are numbers. -/
theorem C75_access_vlan_partial (h : parse o lines = .ok P) (hn : ∀ l ∈ lines, '\n' ∉ l) {i : Nat}
    (hi : i ∈ P.list) (hst : Spec.Starts ["interface"] (P.h i).text)
    (hnum : ∀ t ∈ Spec.kids P i, Spec.Starts ["switchport", "access", "vlan"] t →
      ∃ n, Spec.Says ["switchport", "access", "vlan"] t n) :
    ∃ b v, isSwitchport P i = .ok b ∧ Spec.First (Spec.Says ["switchport", "access", "vlan"]) (Spec.kids P i) v ∧
      accessVlan P i = .ok (v.getD (if b then 1 else 0)) := by
  obtain ⟨b, hb1, _⟩ := C75_switchport h hn hi hst
  obtain ⟨v, h1, h2⟩ := accessVlanT_spec (kids_line h hn i) (if b then 1 else 0) hnum
  refine ⟨b, v, hb1, h1, ?_⟩
  rw [accessVlan, hb1]
  exact h2

theorem nativeVlanT_spec {ts : List Str} (hl : ∀ t ∈ ts, Line t) (d : Int)
    (hnum : ∀ t ∈ ts, ∀ v, Spec.Word ["switchport", "trunk", "native", "vlan"] [] t v → Spec.Digits v) :
    ∃ v, Spec.First (Spec.Number ["switchport", "trunk", "native", "vlan"] []) ts v ∧ nativeVlanT d ts = .ok (v.getD d) := by
  induction ts with
  | nil => exact ⟨none, rfl, rfl⟩
  | cons t ts ih =>
    obtain ⟨v, h1, h2⟩ := ih (fun t ht => hl t (by simp [ht])) (fun t ht => hnum t (by simp [ht]))
    rw [nativeVlanT, parts_line (hl t (by simp))]
    by_cases hs : ∃ v, Spec.Word ["switchport", "trunk", "native", "vlan"] [] t v
    · obtain ⟨w, hw⟩ := hs
      have hd := hnum t (by simp) w hw
      rw [if_pos ⟨by rw [hw]; rfl, (take_eq 4 rfl).mpr ⟨_, hw.symm⟩⟩]
      refine ⟨some (natVal w), .inl ⟨_, ⟨w, hd, hw, rfl⟩, rfl⟩, ?_⟩
      rw [List.getD_eq_getElem?_getD, drop_wd 4 rfl hw, Option.getD_some, pyInt_digits (allDigits_of hd)]; rfl
    · rw [if_neg]
      · refine ⟨v, .inr ⟨?_, h1⟩, h2⟩
        rintro n ⟨w, _, e1, _⟩
        exact hs ⟨w, e1⟩
      · rintro ⟨e1, e2⟩
        rw [take_eq 4 rfl] at e2
        obtain ⟨more, hm⟩ := e2
        rw [← hm, List.length_append] at e1
        have : more.length = 1 := by simp [Spec.wd] at e1; omega
        obtain ⟨w, rfl⟩ := List.length_eq_one_iff.mp this
        exact hs ⟨w, hm.symm⟩

/-- C75: `native_vlan`, likewise, for lines `switchport trunk native vlan N`. -/
theorem C75_native_vlan_partial (h : parse o lines = .ok P) (hn : ∀ l ∈ lines, '\n' ∉ l) {i : Nat}
    (hi : i ∈ P.list) (hst : Spec.Starts ["interface"] (P.h i).text)
    (hnum : ∀ t ∈ Spec.kids P i, ∀ v, Spec.Word ["switchport", "trunk", "native", "vlan"] [] t v → Spec.Digits v) :
    ∃ b v, isSwitchport P i = .ok b ∧
      Spec.First (Spec.Number ["switchport", "trunk", "native", "vlan"] []) (Spec.kids P i) v ∧
      nativeVlan P i = .ok (v.getD (if b then 1 else 0)) := by
  obtain ⟨b, hb1, _⟩ := C75_switchport h hn hi hst
  obtain ⟨v, h1, h2⟩ := nativeVlanT_spec (kids_line h hn i) (if b then 1 else 0) hnum
  refine ⟨b, v, hb1, h1, ?_⟩
  rw [nativeVlan, hb1]
  exact h2

/-- C75: port security. -/
theorem C75_portsecurity (h : parse o lines = .ok P) (hn : ∀ l ∈ lines, '\n' ∉ l) {i : Nat}
    (hi : i ∈ P.list) (hst : Spec.Starts ["interface"] (P.h i).text) :
    ∃ b, hasSwitchPortsecurity P i = .ok b ∧
      (b = true ↔ ∃ t ∈ Spec.kids P i, Spec.Starts ["switchport", "port-security"] t) := by
  have hl := kids_line h hn i
  obtain ⟨b, hb1, hb2⟩ := C75_switchport h hn hi hst
  have hany : ((Spec.kids P i).any fun t => (parts t).take 2 == ws ["switchport", "port-security"]) = true ↔
      ∃ t ∈ Spec.kids P i, Spec.Starts ["switchport", "port-security"] t := by
    rw [List.any_eq_true]
    refine ⟨fun ⟨t, ht, h⟩ => ⟨t, ht, ?_⟩, fun ⟨t, ht, h⟩ => ⟨t, ht, ?_⟩⟩
    · rw [parts_line (hl t ht), beq_iff_eq] at h
      exact (take_eq 2 rfl).mp h
    · rw [parts_line (hl t ht), beq_iff_eq]
      exact (take_eq 2 rfl).mpr h
  cases b with
  | true =>
    refine ⟨_, ?_, hany⟩
    rw [hasSwitchPortsecurity, hb1]; rfl
  | false =>
    refine ⟨false, by rw [hasSwitchPortsecurity, hb1]; rfl, ?_⟩
    simp only [Bool.false_eq_true, false_iff]
    rintro ⟨t, ht, ⟨more, hm⟩⟩
    refine absurd (hb2.mpr ⟨t, ht, ?_⟩) (by simp)
    exact ⟨"port-security".toList :: more, hm⟩

def exSwitch : List Str :=
  ["interface Gi0/1", " switchport", " switchport access vlan 911", " switchport trunk native vlan 7",
    " switchport mode access", " switchport trunk encapsulation dot1q", " switchport port-security",
    " no cdp enable", "interface Gi0/2"].map String.toList

example : ∃ P, parse { factory := true } exSwitch = .ok P ∧
    (accessVlan P 0 == .ok 911 && nativeVlan P 0 == .ok 7 && isSwitchport P 0 == .ok true &&
      hasManualSwitchAccess P 0 && !hasManualSwitchTrunk P 0 && hasManualDisableCdp P 0 &&
      hasSwitchPortsecurity P 0 == .ok true && accessVlan P 8 == .ok 0) = true :=
  of_shows (by decide +kernel)

/-- C75 does not hold as stated: a VLAN that is not a number raises ValueError. -/
theorem C75_errors_fails :
    ∃ P, parse { factory := true } ["interface Gi0/1".toList, " switchport access vlan dynamic".toList] = .ok P ∧
      (accessVlan P 0 == .error .valueError) = true :=
  of_shows (by decide +kernel)

/-- C75 does not hold as stated: `manual_switch_trunk_encap` compares the keyword with
`encap`, so that the line as routers print it is missed. -/
theorem C75_encap_fails : ∃ P, parse { factory := true } exSwitch = .ok P ∧
    (manualSwitchTrunkEncap P 0 == [] && !hasManualSwitchTrunkEncap P 0) = true :=
  of_shows (by decide +kernel)

theorem noneg_some (t : Str) : ∃ v, matchGroup t "^\\s*(switchport\\snoneg\\S*)\\s*$" 1 [] = .ok (some v) := by
  have h : Is "^\\s*(switchport\\snoneg\\S*)\\s*$" (lead false (.grp 1 (wordsG [("switchport".toList, false)]
      (str "noneg".toList (.star .nonspace .done))) (ends true []))) 1 [] := by decide +kernel
  rw [matchGroup, reSearch, h.1]
  dsimp only [bind, Except.bind]
  rw [search_bol _ h.2]
  cases hd : (lead false (.grp 1 (wordsG [("switchport".toList, false)]
      (str "noneg".toList (.star .nonspace .done))) (ends true []))).det t [] with
  | none => exact ⟨[], rfl⟩
  | some q =>
    rw [det_lead', det_grp _ _ _ (by decide)] at hd
    obtain ⟨_, x, r, _, _, h3⟩ := hd
    have h3 : Prog.spEol.det r [(1, x)] = some q := h3
    rw [det_spEol] at h3
    split at h3
    · cases h3
      exact ⟨x, rfl⟩
    · cases h3

/-- C75 does not hold as stated: `has_dtp` is false on every interface, with
`switchport nonegotiate` or without it. -/
theorem C75_dtp_fails (P : Parsed) (i : Nat) (b : Bool) (h : hasDtp P i = .ok b) : b = false := by
  rw [hasDtp] at h
  cases hs : isSwitchport P i with
  | error e => rw [hs] at h; cases h
  | ok s =>
    rw [hs] at h
    dsimp only [bind, Except.bind] at h
    cases s with
    | false => cases h; rfl
    | true =>
      rw [isSwitchport] at hs
      cases hk : childTexts P i with
      | nil => rw [hk] at hs; cases hs
      | cons t ts =>
        rw [hk] at h
        obtain ⟨v, hv⟩ := noneg_some t
        simp only [Bool.not_true, Bool.false_eq_true, if_false, hasDtpT, hv, bind, Except.bind] at h
        cases h; rfl

end Cisco

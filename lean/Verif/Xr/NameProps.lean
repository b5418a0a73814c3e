import Verif.Xr.AddrProps
import Verif.Asa.FlagProps
import Verif.Intf.XRProps
import Verif.Cisco.HsrpGroupProps

/-! # Properties of IOS-XR interfaces: names and numbers of interfaces -/

namespace Xr

open Py Conf Query Re Cisco
open Cisco.Spec (Named Digits)
open Intf.XR.Spec (Alnum four two one three)

/-! ## Lemmas -/

theorem prefix_of {t ty num : Str} {more : List Str} (h : Named t ty num more) : Intf.XR.Spec.Prefix ty := by
  have hs : ∀ c ∈ ty, isSpace c = false := by
    intro c hc
    rcases h.type.2 c hc with h | h
    · exact isLetter_not_space h
    · rw [h]; decide
  exact ⟨fun c hc => (h.type.2 c hc).imp id .inl, fun c hc => hs c (List.mem_of_head? hc), fun c hc => hs c (List.mem_of_getLast? hc)⟩

theorem object_eq {t ty num : Str} {more : List Str} (h : Named t ty num more) :
    interfaceObject t = Intf.XR.parse (ty ++ num ++ more.flatten) := by
  rw [interfaceObject, isIntf, named_intf h]
  show Intf.XR.parse ((splitWs t).drop 1).flatten = _
  rcases (named_split h).2 with hs | hs <;> rw [hs] <;> simp

theorem white_nil : Intf.Spec.White [] := by intro x hx; cases hx

/-! ## C189: names -/

/-- C189: the name of an interface `slot/card/processor/port`, `slot/port` or `port` (with or
without a subinterface) is its type and its number as in the line, without the blanks between
them, and `port` is its last number. -/
theorem C189_name {t ty : Str} :
    (∀ s c q n, Alnum c → Alnum q → Named t ty (four s c q n) [] → name t = .ok (ty ++ four s c q n) ∧ port t = .ok n) ∧
    (∀ s n, Named t ty (two s n) [] → name t = .ok (ty ++ two s n) ∧ port t = .ok n) ∧
    (∀ n sub, Named t ty (one n sub none none) [] → name t = .ok (ty ++ one n sub none none) ∧ port t = .ok n) := by
  refine ⟨?_, ?_, ?_⟩
  · intro s c q n hc hq h
    have := Intf.XR.C106_four (prefix_of h) s n hc hq white_nil white_nil white_nil
    have e : interfaceObject t = .ok (Intf.XR.Spec.intf4 ty s c q n) := by
      rw [object_eq h, ← this.1]; simp
    exact ⟨by rw [name, e]; exact this.2, by rw [port, e]; rfl⟩
  · intro s n h
    have := Intf.XR.C106_two (prefix_of h) s n white_nil white_nil white_nil
    have e : interfaceObject t = .ok (Intf.XR.Spec.intf2 ty s n) := by
      rw [object_eq h, ← this.1]; simp
    exact ⟨by rw [name, e]; exact this.2, by rw [port, e]; rfl⟩
  · intro n sub h
    have := Intf.XR.C106_one (prefix_of h) n sub none (cls := none) (by intro w hw; cases hw) white_nil white_nil white_nil
    have e : interfaceObject t = .ok (Intf.XR.Spec.intf1 ty n sub none none) := by
      rw [object_eq h, ← this.1]; simp
    exact ⟨by rw [name, e]; exact this.2, by rw [port, e]; rfl⟩

/-- C189: `port_type` is the type, `subinterface_number` the number, `interface_number` the number
without a subinterface, and `is_abbreviated_as` accepts the number behind a non-empty beginning of
the type, in any case, with a blank between them or without. -/
theorem C189_parts {t ty core sub : Str} {more : List Str} (h : Named t ty (core ++ sub) more) (hcore : core ≠ [])
    (hdot : '.' ∉ core) (hsub : sub = [] ∨ ∃ ds, sub = '.' :: ds ∧ Digits ds) :
    portType t = .ok ty ∧ interfaceNumber t = .ok core ∧ subinterfaceNumber t = .ok (core ++ sub) ∧
    ∀ v, ∃ b, isAbbreviatedAs t v = .ok b ∧ (b = true ↔ ∃ a sep, a ≠ [] ∧ a <+: ty.map lowerChar ∧ (sep = [] ∨ sep = [' ']) ∧
      v.map lowerChar = a ++ sep ++ (core ++ sub)) :=
  ⟨C85_type h, C85_interface_number h hcore hdot hsub, C85_subinterface_number h, C85_abbreviated h⟩

/-- C189: `is_portchannel_intf` says whether `channel` is in the name, in any case. -/
theorem C189_portchannel {t ty : Str} :
    (∀ s c q n, Alnum c → Alnum q → Named t ty (four s c q n) [] →
      ∃ b, isPortchannelIntf t = .ok b ∧ (b = true ↔ "channel".toList <:+: (ty ++ four s c q n).map lowerChar)) ∧
    (∀ s n, Named t ty (two s n) [] →
      ∃ b, isPortchannelIntf t = .ok b ∧ (b = true ↔ "channel".toList <:+: (ty ++ two s n).map lowerChar)) ∧
    ∀ n sub, Named t ty (one n sub none none) [] →
      ∃ b, isPortchannelIntf t = .ok b ∧ (b = true ↔ "channel".toList <:+: (ty ++ one n sub none none).map lowerChar) := by
  have h : ∀ x, name t = .ok x → ∃ b, isPortchannelIntf t = .ok b ∧ (b = true ↔ "channel".toList <:+: x.map lowerChar) := fun x hx =>
    ⟨_, by rw [isPortchannelIntf, hx]; rfl, isInfix_iff _ _⟩
  exact ⟨fun s c q n hc hq hn => h _ (C189_name.1 s c q n hc hq hn).1, fun s n hn => h _ (C189_name.2.1 s n hn).1,
    fun n sub hn => h _ (C189_name.2.2 n sub hn).1⟩

example : isPortchannelIntf "interface Port-Channel 7".toList = .ok true ∧ isPortchannelIntf "interface PORT-CHANNEL7.2".toList = .ok true ∧
    isPortchannelIntf "interface Bundle-Ether 7".toList = .ok false := by decide +kernel

/-- C189: a line that is not an interface line has no interface object and no name. -/
theorem C189_none {t : Str} (ht : Line t) (h : ¬∃ c s, t = "interface ".toList ++ c :: s ∧ c ≠ ' ') :
    name t = .error .invalidInterface ∧ port t = .error .invalidInterface ∧ interfaceNumber t = .ok [] ∧
      subinterfaceNumber t = .ok [] ∧ ordinalList t = .ok [] := by
  have hi : isIntf t = .ok false := by
    obtain ⟨b, h1, h2⟩ := C84_is_intf ht
    cases b with
    | false => exact h1
    | true => exact absurd (h2.mp rfl) h
  have ho : interfaceObject t = .error .invalidInterface := by rw [interfaceObject, hi]; rfl
  exact ⟨by rw [name, ho]; rfl, by rw [port, ho]; rfl, by rw [interfaceNumber, hi]; rfl, by rw [subinterfaceNumber, hi]; rfl,
    by rw [ordinalList, hi]; rfl⟩

/-! ## C190: names of subinterfaces -/

/-- C190: the name of `port.subinterface` (a bundle, for example) has its number.  Missing:
`slot/card/processor/port.subinterface` and `slot/card/port`. -/
theorem C190_bundle_partial {t ty : Str} (n sub : Nat) (h : Named t ty (natStr n ++ '.' :: natStr sub) []) :
    name t = .ok (ty ++ natStr n ++ '.' :: natStr sub) := by
  have e : natStr n ++ '.' :: natStr sub = one n (some sub) none none := by
    simp [one, Intf.Spec.signed, Intf.Spec.word]
  rw [e] at h
  rw [(C189_name.2.2 n (some sub) h).1, List.append_assoc, e]

/-- C190 fails for every subinterface of `slot/card/processor/port`: its name is the one of the
main interface. -/
theorem C190_sub_fails {t ty c q ds : Str} {more : List Str} (s n : Nat) (hc : Alnum c) (hq : Alnum q)
    (h : Named t ty (four s c q n ++ '.' :: ds) more) (hno : ',' ∉ t) : name t = .ok (ty ++ four s c q n) := by
  have hr : ',' ∉ '.' :: (ds ++ more.flatten) := by
    intro hm
    have hne : ',' ∉ (splitWs t).flatten := by
      rw [splitWs_flatten]
      intro hh
      exact hno (List.mem_filter.mp hh).1
    apply hne
    rcases (named_split h).2 with hs | hs <;> rw [hs] <;>
    · rcases List.mem_cons.mp hm with e | hm
      · exact absurd e (by decide)
      · rcases List.mem_append.mp hm with hm | hm
        · simp [hm]
        · simp only [List.flatten_cons, List.mem_append]; simp [hm]
  obtain ⟨i, h1, _, _, _, h2⟩ := Intf.XR.C107_dropped_fails (prefix_of h) s n hc hq (r := '.' :: (ds ++ more.flatten))
    (by intro x hx; cases hx; decide) hr
  have e : interfaceObject t = .ok i := by rw [object_eq h, ← h1]; simp
  rw [name, e]; exact h2

/-- C190 fails for every interface `slot/card/port`: reading the name raises ValueError, and
`port` is the card. -/
theorem C190_three_fails {t ty : Str} (s c n : Nat) (h : Named t ty (three s c n) []) :
    name t = .error .valueError ∧ port t = .ok c := by
  obtain ⟨i, h1, _, h2, _, h3⟩ := Intf.XR.C107_three_fails (prefix_of h) s c n
  have e : interfaceObject t = .ok i := by rw [object_eq h, ← h1]; simp
  exact ⟨by rw [name, e]; exact h3, by rw [port, e, ← h2]; rfl⟩

/-! ## C191: ordinals -/

/-- C191: `ordinal_list` are the numbers between the slashes, in order, without a subinterface
number.  Missing: interfaces whose card or processor has a letter. -/
theorem C191_ordinals_partial {t ty sub : Str} {ns : List Nat} {more : List Str} (hn : '\n' ∉ t) (hns : ns ≠ [])
    (h : Named t ty (join ['/'] (ns.map natStr) ++ sub) more) (hsub : sub = [] ∨ ∃ ds, sub = '.' :: ds ∧ Digits ds) :
    ordinalList t = .ok (ns.map Int.ofNat) := by
  have h1 := (Asa.C181_ordinals hn hns h hsub).2.1
  obtain ⟨b, hb, hb'⟩ := Asa.intf_iff t
  rw [hb'.mpr (Asa.named_line h hn)] at hb
  have hi : Asa.isIntf t = .ok true := hb
  rw [Asa.ordinalList, hi] at h1
  rw [ordinalList, interfaceNumber, isIntf, named_intf h]
  revert h1
  generalize matchGroup t "^interface\\s+[A-Za-z\\-]+\\s*(\\d+.*?)(\\.\\d+)*(\\s\\S+)*\\s*$" 1 [] = z
  intro h1
  cases z with
  | error x => cases h1
  | ok v => exact h1

theorem letter_not_int {w : Str} (hw : Alnum w) {c : Char} (hc : c ∈ w) (hl : isLetter c = true) : pyInt w = .error .valueError := by
  have hsp : ∀ x ∈ w, isSpace x = false := by
    intro x hx
    rcases hw.2 x hx with h | h
    · exact isLetter_not_space h
    · exact Py.isDigit_not_space h
  have hch : ∀ x ∈ w, x ≠ '-' ∧ x ≠ '+' ∧ x ≠ '_' := by
    intro x hx
    refine ⟨?_, ?_, ?_⟩ <;>
    · rintro rfl
      rcases hw.2 _ hx with h | h <;> exact absurd h (by decide)
  have hu : unsignedLit w = none := by
    rw [unsignedLit, splitOn_no '_' w (fun h => (hch _ h).2.2 rfl), if_neg]
    intro hh
    simp only [List.all_cons, List.all_nil, Bool.and_true, allDigits, Bool.and_eq_true, List.all_eq_true] at hh
    have := hh.2 c hc
    rw [isLetter_not_digit hl] at this; cases this
  rw [pyInt, strip_of_noSpace hsp]
  obtain ⟨x, w, rfl⟩ := List.exists_cons_of_ne_nil hw.1
  dsimp only
  rw [if_neg (hch x (by simp)).1, if_neg (hch x (by simp)).2.1, hu]

theorem mapM_error : ∀ (ws : List Str), (∃ w ∈ ws, pyInt w = .error .valueError) → ws.mapM pyInt = .error .valueError := by
  intro ws
  induction ws with
  | nil => rintro ⟨w, hw, _⟩; cases hw
  | cons w ws ih =>
    rintro ⟨w', hw', he⟩
    rw [List.mapM_cons]
    cases hp : pyInt w with
    | error e => rw [Hsrp.pyInt_error hp]; rfl
    | ok n =>
      rcases List.mem_cons.mp hw' with rfl | hw'
      · rw [he] at hp; cases hp
      · rw [ih ⟨w', hw', he⟩]; rfl

/-- C191 fails for management interfaces, as `MgmtEth0/RP0/CPU0/0`: with a letter in the card or
the processor, `ordinal_list` raises ValueError. -/
theorem C191_management_fails {t ty c q : Str} {more : List Str} (s n : Nat) (hc : Alnum c) (hq : Alnum q)
    (h : Named t ty (four s c q n) more) (hl : ∃ x, (x ∈ c ∨ x ∈ q) ∧ isLetter x = true) :
    ordinalList t = .error .valueError := by
  have hal : ∀ w ∈ [natStr s, c, q, natStr n], Alnum w := by
    intro w hw
    simp only [List.mem_cons, List.not_mem_nil, or_false] at hw
    rcases hw with rfl | rfl | rfl | rfl
    · exact ⟨natStr_ne_nil _, fun x hx => .inr (natStr_digits _ x hx)⟩
    · exact hc
    · exact hq
    · exact ⟨natStr_ne_nil _, fun x hx => .inr (natStr_digits _ x hx)⟩
  have hno : ∀ (d : Char), isLetter d = false → isDigit d = false → ∀ w ∈ [natStr s, c, q, natStr n], d ∉ w := by
    intro d h1 h2 w hw hd
    rcases (hal w hw).2 d hd with h | h
    · rw [h1] at h; cases h
    · rw [h2] at h; cases h
  have hdot : '.' ∉ four s c q n := by
    have k := hno '.' (by decide) (by decide)
    simp only [four, join, List.mem_append, not_or, List.mem_singleton]
    refine ⟨⟨k _ (by simp), by decide⟩, ⟨k _ (by simp), by decide⟩, ⟨k _ (by simp), by decide⟩, k _ (by simp)⟩
  have hne : four s c q n ≠ [] := by
    obtain ⟨d, hd, _⟩ := h.number.1
    intro e; rw [e] at hd; cases hd
  have hnum := (C189_parts (sub := []) (by rw [List.append_nil]; exact h) hne hdot (.inl rfl)).2.1
  rw [ordinalList, isIntf, named_intf h, hnum]
  show (if four s c q n = [] then _ else _) = _
  rw [if_neg hne, four, splitOn_join '/' _ (by simp) (hno '/' (by decide) (by decide))]
  apply mapM_error
  obtain ⟨x, hx | hx, hx'⟩ := hl
  · exact ⟨c, by simp, letter_not_int hc hx hx'⟩
  · exact ⟨q, by simp, letter_not_int hq hx hx'⟩

/-! ## Concrete lines -/

theorem mgmt_named : Named "interface MgmtEth 0/RP0/CPU0/0".toList "MgmtEth".toList (four 0 "RP0".toList "CPU0".toList 0) [] :=
  ⟨⟨" ".toList, by decide, by decide +kernel⟩, ⟨by decide, by decide +kernel⟩, ⟨⟨'0', by decide +kernel, by decide⟩, by decide +kernel⟩, by simp⟩

example : name "interface MgmtEth 0/RP0/CPU0/0".toList = .ok "MgmtEth0/RP0/CPU0/0".toList :=
  (C189_name.1 0 _ _ 0 (by unfold Alnum; decide) (by unfold Alnum; decide) mgmt_named).1.trans (by decide +kernel)

example : ordinalList "interface MgmtEth 0/RP0/CPU0/0".toList = .error .valueError :=
  C191_management_fails 0 0 (by unfold Alnum; decide) (by unfold Alnum; decide) mgmt_named ⟨'R', by decide, by decide⟩

example : name "interface TenGigE0/1/2/3.100".toList = .ok "TenGigE0/1/2/3".toList :=
  (C190_sub_fails (ty := "TenGigE".toList) (c := "1".toList) (q := "2".toList) (ds := "100".toList) (more := []) 0 3 (by unfold Alnum; decide) (by unfold Alnum; decide)
    ⟨⟨[], by simp, by decide +kernel⟩, ⟨by decide, by decide +kernel⟩, ⟨⟨'0', by decide +kernel, by decide⟩, by decide +kernel⟩, by simp⟩ (by decide)).trans
    (by decide +kernel)

example : name "interface POS0/1/2".toList = .error .valueError :=
  (C190_three_fails (ty := "POS".toList) 0 1 2 ⟨⟨[], by simp, by decide +kernel⟩, ⟨by decide, by decide +kernel⟩,
    ⟨⟨'0', by decide +kernel, by decide⟩, by decide +kernel⟩, by simp⟩).1

example : name "interface Bundle-Ether10.25".toList = .ok "Bundle-Ether10.25".toList ∧
    ordinalList "interface TenGigE0/1/2/3.100".toList = .ok [0, 1, 2, 3] ∧ name "hostname x".toList = .error .invalidInterface ∧
    isAbbreviatedAs "interface TenGigE0/1/2/3".toList "te 0/1/2/3".toList = .ok true := by
  refine ⟨?_, by decide +kernel, by decide +kernel, by decide +kernel⟩
  exact (C190_bundle_partial (ty := "Bundle-Ether".toList) 10 25 ⟨⟨[], by simp, by decide +kernel⟩, ⟨by decide, by decide +kernel⟩,
    ⟨⟨'1', by decide +kernel, by decide⟩, by decide +kernel⟩, by simp⟩).trans (by decide +kernel)

end Xr

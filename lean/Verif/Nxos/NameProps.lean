import Verif.Nxos.Names
import Verif.Nxos.Props
import Verif.Nxos.TrunkProps
import Verif.Xr.NameProps
import Verif.Cisco.SecondaryProps

/-! # Properties of the names and kinds of NX-OS interfaces -/

namespace Nxos

open Py Conf Query Re Cisco
open Cisco.Spec (Named Digits Next family First Number DuplexLine Leads wd)

/-! ## C203: names -/

/-- C203: `name` is the type and the number without the blanks between them, `port` the port, for
every interface `[slot/[card/]]port[.sub][:channel]`. -/
theorem C203_name {i : Intf.Intf} (h : Intf.Spec.Valid i) (hc : i.cls = none) {gap : Str} (hg : ∀ c ∈ gap, isSpace c = true)
    (hp : i.pfx ≠ [] ∧ ∀ c ∈ i.pfx, isSpace c = false) {t : Str}
    (ht : t = "interface ".toList ++ (i.pfx ++ (gap ++ Intf.Spec.body i))) :
    name t = .ok (i.pfx ++ Intf.Spec.body i) ∧ port t = .ok i.port := by
  have ho := (C85_object h hc hg hp ht).1
  exact ⟨by rw [name, ho]; exact Intf.C14_name h, by rw [port, ho]; rfl⟩

/-- C203: `port_type` is the type, `subinterface_number` the number, `interface_number` the number
without a subinterface, and `is_abbreviated_as` accepts the number behind a non-empty beginning of
the type, in any case, with a blank between them or without. -/
theorem C203_parts {t ty core sub : Str} {more : List Str} (h : Named t ty (core ++ sub) more) (hcore : core ≠ [])
    (hdot : '.' ∉ core) (hsub : sub = [] ∨ ∃ ds, sub = '.' :: ds ∧ Digits ds) :
    portType t = .ok ty ∧ interfaceNumber t = .ok core ∧ subinterfaceNumber t = .ok (core ++ sub) ∧
    ∀ v, ∃ b, isAbbreviatedAs t v = .ok b ∧ (b = true ↔ ∃ a sep, a ≠ [] ∧ a <+: ty.map lowerChar ∧ (sep = [] ∨ sep = [' ']) ∧
      v.map lowerChar = a ++ sep ++ (core ++ sub)) :=
  ⟨C85_type h, C85_interface_number h hcore hdot hsub, C85_subinterface_number h, C85_abbreviated h⟩

/-- C203: `ordinal_list` are the numbers between the slashes, in order, without a subinterface
number. -/
theorem C203_ordinals {t ty sub : Str} {ns : List Nat} {more : List Str} (hn : '\n' ∉ t) (hns : ns ≠ [])
    (h : Named t ty (join ['/'] (ns.map natStr) ++ sub) more) (hsub : sub = [] ∨ ∃ ds, sub = '.' :: ds ∧ Digits ds) :
    ordinalList t = .ok (ns.map Int.ofNat) :=
  Xr.C191_ordinals_partial hn hns h hsub

/-- C203: a line that is not an interface line has no interface object, no name and no numbers. -/
theorem C203_none {t : Str} (ht : Line t) (h : ¬∃ c s, t = "interface ".toList ++ c :: s ∧ c ≠ ' ') :
    name t = .error .invalidInterface ∧ port t = .error .invalidInterface ∧ isPortchannelIntf t = .error .invalidInterface ∧
      interfaceNumber t = .ok [] ∧ subinterfaceNumber t = .ok [] ∧ ordinalList t = .ok [] := by
  have hi : isIntf t = .ok false := by
    obtain ⟨b, h1, h2⟩ := C84_is_intf ht
    cases b with
    | false => exact h1
    | true => exact absurd (h2.mp rfl) h
  have ho := (C85_no_object ht h).1
  have hname : name t = .error .invalidInterface := by rw [name, ho]; rfl
  exact ⟨hname, by rw [port, ho]; rfl, by rw [isPortchannelIntf, hname]; rfl, by rw [interfaceNumber, hi]; rfl,
    by rw [subinterfaceNumber, hi]; rfl, by rw [ordinalList, hi]; rfl⟩

/-! ## C204: kinds -/

/-- The kinds of virtual interfaces. -/
def Spec.virtualKinds : List Str := wd ["loopback", "vlan", "tunnel", "port-channel"]

/-- An Ethernet or management interface: a word behind `interface` has `thernet` in it, behind
some letter, or the next word begins with `mgmt`. -/
def Spec.EthernetLine (t : Str) : Prop :=
  (∃ more, splitWs t = "interface".toList :: more ∧ ∃ w ∈ more, ∃ a x s, w = a ++ x :: "thernet".toList ++ s) ∨
  ∃ s, Next ["interface"] t ("mgmt".toList ++ s)

/-- C204: `is_ethernet_intf`. -/
theorem C204_ethernet {t : Str} (hl : Line t) (ht : ¬ Cisco.Spec.Indented t) :
    ∃ b, isEthernetIntf t = .ok b ∧ (b = true ↔ Spec.EthernetLine t) := by
  have ht : lstrip t = t := by
    cases t with
    | nil => rfl
    | cons x s =>
      rw [lstrip, List.dropWhile_cons_of_neg]
      intro hx
      exact ht ⟨x, rfl, hx⟩
  have hc : compile "^interface\\s+(.*?\\Sthernet|mgmt)" = .ok ⟨seqs (.bol :: ((str "interface".toList (.plus .space .done)).toL ++
      [.grp 1 (.alt (seqs (.star false (.cls K.any.cls) :: .cls K.nonspace.cls :: (str "thernet".toList .done).toL))
        (seqs (str "mgmt".toList .done).toL))])), 1, []⟩ := by decide +kernel
  obtain ⟨b, h1, h2⟩ := reTrue_bol hc t
  refine ⟨b, h1, h2.trans ?_⟩
  rw [Spec.EthernetLine, ← ethernet_lang hl ht t.length]
  have e : ∀ v, Lang t.length (seqs ((str "interface".toList (.plus .space .done)).toL ++
      [.grp 1 (.alt (seqs (.star false (.cls K.any.cls) :: .cls K.nonspace.cls :: (str "thernet".toList .done).toL))
        (seqs (str "mgmt".toList .done).toL))])) t v ↔
      Lang t.length (seqs ((str "interface".toList (.plus .space .done)).toL ++
        [.grp 1 (seqs (.star false (.cls K.any.cls) :: .cls K.nonspace.cls :: (str "thernet".toList .done).toL))])) t v ∨
      Lang t.length (seqs ((str "interface".toList (.plus .space .done)).toL ++ [.grp 1 (seqs (str "mgmt".toList .done).toL)])) t v := by
    intro v
    have alt : ∀ (a b : Rgx) (u v : Str), Lang t.length (seqs [.grp 1 (.alt a b)]) u v ↔
        Lang t.length (seqs [.grp 1 a]) u v ∨ Lang t.length (seqs [.grp 1 b]) u v := by
      intro a b u v
      simp only [lang_cons, lang_nil, Lang]
      constructor
      · rintro ⟨u', h | h, rfl⟩
        · exact .inl ⟨_, h, rfl⟩
        · exact .inr ⟨_, h, rfl⟩
      · rintro (⟨u', h, rfl⟩ | ⟨u', h, rfl⟩)
        · exact ⟨_, .inl h, rfl⟩
        · exact ⟨_, .inr h, rfl⟩
    rw [lang_append, lang_append, lang_append]
    simp only [alt]
    constructor
    · rintro ⟨u, h, k | k⟩
      · exact .inl ⟨u, h, k⟩
      · exact .inr ⟨u, h, k⟩
    · rintro (⟨u, h, k⟩ | ⟨u, h, k⟩)
      · exact ⟨u, h, .inl k⟩
      · exact ⟨u, h, .inr k⟩
  have hn1 : ∀ v, ¬ Lang t.length (seqs (str "mgmt".toList .done).toL) [] v := by
    intro v h
    obtain ⟨r, h, _⟩ := (lang_str ..).mp h
    cases h
  have hn2 : ∀ x s v, isSpace x = true → ¬ Lang t.length (seqs (str "mgmt".toList .done).toL) (x :: s) v := by
    intro x s v hx h
    obtain ⟨r, h, _⟩ := (lang_str ..).mp h
    rw [show "mgmt".toList = 'm' :: "gmt".toList from rfl, List.cons_append, List.cons.injEq] at h
    rw [h.1] at hx; cases hx
  have e2 : (∃ v, Lang t.length (seqs ((str "interface".toList (.plus .space .done)).toL ++ [.grp 1 (seqs (str "mgmt".toList .done).toL)])) t v) ↔
      ∃ s, Next ["interface"] t ("mgmt".toList ++ s) := by
    simp only [lead_grp (by decide : IsWord "interface".toList) hn1 hn2 ht]
    constructor
    · rintro ⟨v, hi, h⟩
      obtain ⟨r, h5, h6⟩ := (lang_str ..).mp h
      rcases second_word ht hi with ⟨hk, _⟩ | ⟨w, rest, hk, hw, hrest, hs⟩
      · rw [hk] at h5; cases h5
      · rw [hk] at h5
        obtain ⟨s, hs'⟩ := piece_in_word (u := "mgmt".toList) hrest (by decide) h5
        exact ⟨s, splitWs rest, by rw [hs, ← hs']; rfl⟩
    · rintro ⟨s, more, hs⟩
      have hi : (splitWs t).head? = some "interface".toList := by rw [hs]; rfl
      rcases second_word ht hi with ⟨hk, hk'⟩ | ⟨w, rest, hk, hw, hrest, hs'⟩
      · rw [hk'] at hs; exact absurd (congrArg List.length hs) (by simp [wd])
      · rw [hs] at hs'
        have e : "mgmt".toList ++ s = w := by
          have := congrArg (fun l => l[1]?) hs'
          simpa [wd] using this
        subst e
        exact ⟨s ++ rest, hi, (lang_str ..).mpr ⟨s ++ rest, by rw [hk, List.append_assoc], rfl⟩⟩
  rw [← e2]
  simp only [e]
  exact exists_or

/-- C204: `is_loopback_intf`, `is_subintf` and `is_virtual_intf` follow the word behind `interface`. -/
theorem C204_kinds {t : Str} (ht : ¬ Cisco.Spec.Indented t) :
    (∃ b, isLoopbackIntf t = .ok b ∧ (b = true ↔ ∃ x s, Next ["interface"] t (x :: "oopback".toList ++ s))) ∧
    (∃ b, isSubintf t = .ok b ∧ (b = true ↔ ∃ a d s, a ≠ [] ∧ isDigit d = true ∧ Next ["interface"] t (a ++ '.' :: d :: s))) ∧
    ∃ b, isVirtualIntf t = .ok b ∧ (b = true ↔ ∃ k ∈ Spec.virtualKinds, ∃ s, Next ["interface"] (t.map lowerChar) (k ++ s)) := by
  have ht : lstrip t = t := by
    cases t with
    | nil => rfl
    | cons x s =>
      rw [lstrip, List.dropWhile_cons_of_neg]
      intro hx
      exact ht ⟨x, rfl, hx⟩
  exact ⟨C84_loopback ht, C84_subintf ht, kinds_re (rx := "^interface\\s+(Loopback|Vlan|Tunnel|Port-Channel)")
    (names := wd ["Loopback", "Vlan", "Tunnel", "Port-Channel"]) (kinds := Spec.virtualKinds) (by decide +kernel) (by decide)
    (by decide +kernel) (by decide +kernel) ht⟩

/-- The numbers of an interface have no letter `l`. -/
theorem body_no_l {i : Intf.Intf} (hc : i.cls = none) : 'l' ∉ (Intf.Spec.body i).map lowerChar := by
  have hd : ∀ n, 'l' ∉ (natStr n).map lowerChar := by
    intro n hm
    rw [lower_digits ⟨natStr_ne_nil n, natStr_digits n⟩] at hm
    exact absurd (natStr_digits n _ hm) (by decide)
  have hj : ∀ l : List Nat, 'l' ∉ (join ['/'] (l.map natStr)).map lowerChar := by
    intro l
    induction l with
    | nil => simp [join]
    | cons n l ih =>
      cases l with
      | nil => exact hd n
      | cons m l =>
        rw [List.map_cons, List.map_cons, join, List.map_append, List.map_append, List.mem_append, List.mem_append]
        rintro ((h | h) | h)
        · exact hd n h
        · exact absurd h (by decide)
        · exact ih h
  have hs : ∀ (x : Char) (o : Option Nat), lowerChar x ≠ 'l' → 'l' ∉ (Intf.Spec.signed x o).map lowerChar := by
    intro x o hx
    cases o with
    | none => simp [Intf.Spec.signed]
    | some n =>
      rw [Intf.Spec.signed, List.map_cons, List.mem_cons]
      rintro (h | h)
      · exact hx h.symm
      · exact hd n h
  rw [Intf.Spec.body, hc, Intf.Spec.word, List.append_nil, List.map_append, List.map_append, List.mem_append, List.mem_append]
  rintro ((h | h) | h)
  · exact hj _ h
  · exact hs '.' _ (by decide) h
  · exact hs ':' _ (by decide) h

/-- C204: `is_portchannel_intf`: the type of the interface has `channel` in it, in any case. -/
theorem C204_portchannel {i : Intf.Intf} (h : Intf.Spec.Valid i) (hc : i.cls = none) {gap : Str} (hg : ∀ c ∈ gap, isSpace c = true)
    (hp : i.pfx ≠ [] ∧ ∀ c ∈ i.pfx, isSpace c = false) {t : Str}
    (ht : t = "interface ".toList ++ (i.pfx ++ (gap ++ Intf.Spec.body i))) :
    ∃ b, isPortchannelIntf t = .ok b ∧ (b = true ↔ ∃ a s, i.pfx.map lowerChar = a ++ "channel".toList ++ s) := by
  refine ⟨_, by rw [isPortchannelIntf, (C203_name h hc hg hp ht).1]; rfl, ?_⟩
  rw [isInfix_iff]
  have hl := body_no_l hc
  rw [List.map_append]
  generalize i.pfx.map lowerChar = p
  generalize (Intf.Spec.body i).map lowerChar = b at hl
  constructor
  · rintro ⟨a, s, e⟩
    have e' : (a ++ "channe".toList) ++ 'l' :: s = p ++ b := by rw [← e]; simp
    rcases List.append_eq_append_iff.mp e' with ⟨r, h1, h2⟩ | ⟨r, h1, h2⟩
    · cases r with
      | nil => rw [List.nil_append] at h2; exact absurd (by rw [← h2]; simp) hl
      | cons x r =>
        rw [List.cons_append, List.cons.injEq] at h2
        exact ⟨a, r, by rw [h1, ← h2.1]; simp⟩
    · exact absurd (by rw [h2]; simp) hl
  · rintro ⟨a, s, rfl⟩
    exact ⟨a, s ++ b, by simp⟩

variable {o : Opts} {lines : List Str} {P : Parsed}

/-- C204: `portchannel_number` is the number of the first `channel-group` line, and -1 without
one; `intf_in_portchannel` says that there is one. -/
theorem C204_channel_group (h : parse o lines = .ok P) (hn : ∀ l ∈ lines, '\n' ∉ l) (i : Nat) :
    ∃ v, First (fun t (v : Int) => ∃ w a, Next ["channel-group"] t w ∧ Leads w a ∧ v = natVal a) (family P i) v ∧
      portchannelNumber P i = .ok (v.getD (-1)) ∧ intfInPortchannel P i = .ok v.isSome :=
  C84_channel_group h hn i

/-! ## C205: negotiation -/

/-- C205: `has_autonegotiation` is true exactly if the interface is an Ethernet or management one
without a line `speed` with a number and without a line `duplex` with a value of at least two
letters.  Missing: `duplex auto` asks for negotiation. -/
theorem C205_auto_partial (h : parse o lines = .ok P) (hn : ∀ l ∈ lines, '\n' ∉ l) (i : Nat) (ht : ¬ Cisco.Spec.Indented (P.h i).text) :
    ∃ b, hasAutonegotiation P i = .ok b ∧ (b = true ↔ Spec.EthernetLine (P.h i).text ∧
      (¬ ∃ t ∈ family P i, ∃ n, Number ["speed"] [] t n) ∧ ¬ ∃ t ∈ family P i, DuplexLine t) := by
  obtain ⟨b1, h1, h2⟩ := C204_ethernet (line_family h hn i (P.h i).text (List.mem_cons_self ..)) ht
  obtain ⟨b2, h3, h4⟩ := C73_speed h hn i
  obtain ⟨b3, h5, h6⟩ := duplex_flag h hn i
  have h3 : hasManualSpeed P i = .ok b2 := h3
  have h5 : hasManualDuplex P i = .ok b3 := h5
  rw [hasAutonegotiation, h1, h3, h5, ← h2, ← h4, ← h6]
  cases b1 <;> cases b2 <;> cases b3 <;> exact ⟨_, rfl, by simp⟩

def negLines : List Str := ["interface mgmt0".toList, "interface Ethernet1/2.30".toList, " speed 1000".toList,
  "interface port-channel 12".toList, "interface Ethernet1/3".toList, " channel-group 12 mode active".toList, " duplex auto".toList]

/-- C205 fails for `duplex auto`. -/
theorem C205_duplex_auto_fails : ∃ P, parse { factory := true, syn := .nxos } negLines = .ok P ∧
    ((P.h 4).text == "interface Ethernet1/3".toList && (P.h 6).text == " duplex auto".toList && (P.h 6).parent == 4 &&
      hasAutonegotiation P 4 == .ok false && hasAutonegotiation P 0 == .ok true && hasAutonegotiation P 1 == .ok false) = true :=
  of_shows (by decide +kernel)

/-! ## Concrete lines -/

def nameIntf : Intf.Intf := { pfx := "Ethernet".toList, sep := some '/', slot := some 1, card := some 20, port := 3, sub := some 45, chan := none, cls := none }

theorem nameValid : Intf.Spec.Valid nameIntf := by
  constructor
  · intro c hc
    exact .inl ((show ∀ c ∈ nameIntf.pfx, isLetter c = true by decide) c hc)
  · intro c hc; cases hc; decide
  · intro c hc; cases hc; decide
  · rfl
  · intro h; rfl
  · intro w h; cases h

example : name "interface Ethernet 1/20/3.45".toList = .ok "Ethernet1/20/3.45".toList ∧ port "interface Ethernet 1/20/3.45".toList = .ok 3 :=
  C203_name (i := nameIntf) nameValid rfl (gap := " ".toList) (by decide)
    (by decide +kernel) rfl

theorem nameNamed : Named "interface Ethernet 1/20/3.45".toList "Ethernet".toList ("1/20/3".toList ++ ".45".toList) [] :=
  ⟨⟨" ".toList, by decide, rfl⟩, ⟨by decide, by decide⟩, ⟨⟨'1', rfl, rfl⟩, by decide⟩, by decide⟩

example : interfaceNumber "interface Ethernet 1/20/3.45".toList = .ok "1/20/3".toList :=
  (C203_parts nameNamed (by decide) (by decide) (.inr ⟨"45".toList, rfl, by decide, by decide⟩)).2.1

example : ordinalList "interface Ethernet 1/20/3.45".toList = .ok ([1, 20, 3].map Int.ofNat) :=
  C203_ordinals (ns := [1, 20, 3]) (ty := "Ethernet".toList) (by decide) (by simp) (show Named _ _ _ [] from nameNamed) (.inr ⟨"45".toList, rfl, by decide, by decide⟩)

example : name "vlan 3".toList = .error .invalidInterface :=
  (C203_none ⟨by decide, by decide⟩ (by rintro ⟨c, s, h, _⟩; cases h)).1

example : isEthernetIntf "interface mgmt0".toList = .ok true := by
  obtain ⟨b, h1, h2⟩ := C204_ethernet (t := "interface mgmt0".toList) ⟨by decide, by decide⟩ (by rintro ⟨c, hc, hs⟩; cases hc; exact absurd hs (by decide))
  rw [h1, h2.mpr (.inr ⟨"0".toList, [], rfl⟩)]

example : isVirtualIntf "interface port-channel12".toList = .ok true ∧ isEthernetIntf "interface port-channel12".toList = .ok false ∧
    isPortchannelIntf "interface port-channel12".toList = .ok true ∧ isPortchannelIntf "interface Ethernet1/2".toList = .ok false := by decide +kernel

example : ∃ P, parse { factory := true, syn := .nxos } negLines = .ok P ∧
    (portchannelNumber P 4 == .ok 12 && intfInPortchannel P 1 == .ok false) = true :=
  of_shows (by decide +kernel)

end Nxos

import Verif.Asa.IntfProps
import Verif.Nxos.Props
import Verif.Cisco.NameProps

/-! # Properties of ASA interfaces: numbers, flags and names -/

namespace Asa

open Py Conf Query Re Cisco
open Cisco.Spec (First family wd Number Exactly Rest DuplexLine Next Named Digits)

variable {o : Opts} {lines : List Str} {P : Parsed}

/-! ## C179: numbers and flags -/

/-- C179: `manual_delay` and `access_vlan` are the number of the first line of the interface that
consists of the keywords and a number, and 0 without one. -/
theorem C179_numbers (h : parse o lines = .ok P) (hn : ∀ l ∈ lines, '\n' ∉ l) (i : Nat) :
    ∀ a ∈ [(manualDelay, ["delay"]), (accessVlan, ["switchport", "access", "vlan"])],
      ∃ v, First (Number a.2 []) (family P i) v ∧ a.1 P i = .ok (v.getD 0) := by
  intro a ha
  simp only [List.mem_cons, List.not_mem_nil, or_false] at ha
  rcases ha with rfl | rfl
  · exact num_attr (rx := "^\\s*delay\\s+(\\d+)$") (pre := ["delay"]) (post := []) (sp := false) h hn i (by decide +kernel) 0
  · exact num_attr (rx := "^\\s*switchport\\s+access\\s+vlan\\s+(\\d+)$") (pre := ["switchport", "access", "vlan"]) (post := [])
      (sp := false) h hn i (by decide +kernel) 0

/-- C179: `has_manual_speed` is true exactly if the interface has a line `speed` and a number,
`is_shutdown` exactly if it has a line of one word that begins with `shut`,
`has_manual_switch_trunk` exactly if it has the line `switchport mode trunk`, and `is_switchport`
exactly if the first word of one of its lines begins with `switchport`. -/
theorem C179_flags (h : parse o lines = .ok P) (hn : ∀ l ∈ lines, '\n' ∉ l) (i : Nat) :
    (∃ b, hasManualSpeed P i = .ok b ∧ (b = true ↔ ∃ t ∈ family P i, ∃ n, Number ["speed"] [] t n)) ∧
    (∃ b, isShutdown P i = .ok b ∧ (b = true ↔ ∃ t ∈ family P i, ∃ w, splitWs t = [w] ∧ "shut".toList <+: w)) ∧
    (∃ b, hasManualSwitchTrunk P i = .ok b ∧ (b = true ↔ ∃ t ∈ family P i, Exactly ["switchport", "mode", "trunk"] t)) ∧
    ∃ b, isSwitchport P i = .ok b ∧ (b = true ↔ ∃ t ∈ family P i, ∃ w more, splitWs t = w :: more ∧ "switchport".toList <+: w) :=
  ⟨C73_speed h hn i, begin_attr (sp := true) h hn i (by decide +kernel),
    Nxos.C136_flags h hn i (Nxos.hasManualSwitchTrunk, ["switchport", "mode", "trunk"]) (by simp), Nxos.C136_switchport h hn i⟩

def flagLines : List Str := ["interface Ethernet0/1".toList, " description WAN".toList, " delay 20".toList, " speed 100".toList,
  " switchport access vlan 7".toList, " switchport mode trunk".toList, " shutdown".toList,
  "interface Ethernet0/2".toList, " description x".toList, " duplex auto".toList, " switchport  mode access".toList,
  "interface Management".toList, " no shutdown".toList, " ip address 10.0.0.1 255.0.0.0".toList]

example : ∃ P, parse { factory := true, syn := .asa } flagLines = .ok P ∧
    (manualDelay P 0 == .ok 20 && accessVlan P 0 == .ok 7 && hasManualSpeed P 0 == .ok true && isShutdown P 0 == .ok true &&
      hasManualSwitchTrunk P 0 == .ok true && isSwitchport P 0 == .ok true && isSwitchport P 11 == .ok false &&
      manualDelay P 7 == .ok 0 && isShutdown P 11 == .ok false) = true :=
  shown (by decide +kernel)

/-! ## C180: descriptions, negotiation and access ports -/

/-- C180: `description` is the text behind the keyword of the first line that has one of at least
two characters; without such a line it is empty. -/
theorem C180_description_partial (h : parse o lines = .ok P) (hn : ∀ l ∈ lines, '\n' ∉ l) (i : Nat) :
    ∃ v, First (fun t r => Rest "description" t r ∧ 2 ≤ r.length) (family P i) v ∧ description P i = .ok (v.getD []) := by
  obtain ⟨v, h1, h2⟩ := rest_attr (two := true) (w := "description") (rx := "^\\s*description\\s+(\\S.+)$") h hn i (by decide +kernel)
  exact ⟨v, first_congr (fun t _ a => by simp) h1, h2⟩

/-- C180: `has_autonegotiation` is true exactly if the interface is an Ethernet one, and it has
neither a line `speed` with a number nor a line `duplex` with a value of at least two letters;
`has_manual_duplex` says that there is a line `duplex`. -/
theorem C180_auto_partial (h : parse o lines = .ok P) (hn : ∀ l ∈ lines, '\n' ∉ l) (i : Nat)
    (ht : ¬ Cisco.Spec.Indented (P.h i).text) :
    (∃ b, hasManualDuplex P i = .ok b ∧ (b = true ↔ ∃ t ∈ family P i, DuplexLine t)) ∧
    ∃ b, hasAutonegotiation P i = .ok b ∧ (b = true ↔
      (∃ more, splitWs (P.h i).text = "interface".toList :: more ∧ ∃ w ∈ more, ∃ a x s, w = a ++ x :: "thernet".toList ++ s) ∧
      (¬ ∃ t ∈ family P i, ∃ n, Number ["speed"] [] t n) ∧ ¬ ∃ t ∈ family P i, DuplexLine t) :=
  ⟨duplex_flag h hn i, C172_auto_partial h hn i ht⟩

/-- C180: `has_manual_switch_access` is true exactly if the interface has the line
`switchport mode access`, for lines without two blanks next to each other. -/
theorem C180_access_partial (h : parse o lines = .ok P) (hn : ∀ l ∈ lines, '\n' ∉ l) (i : Nat)
    (ht : ∀ t ∈ family P i, Cisco.Spec.Tidy t) :
    ∃ b, hasManualSwitchAccess P i = .ok b ∧ (b = true ↔ ∃ t ∈ family P i, Exactly ["switchport", "mode", "access"] t) :=
  Nxos.C137_modes_partial h hn i ht (Nxos.hasManualSwitchAccess, ["switchport", "mode", "access"]) (by simp)

/-- C180 fails: a description of one letter is lost, `duplex auto` switches negotiation off, and
two blanks hide the mode of an access port. -/
theorem C180_fails : ∃ P, parse { factory := true, syn := .asa } flagLines = .ok P ∧
    ((P.h 8).text == " description x".toList && description P 7 == .ok [] && hasAutonegotiation P 7 == .ok false &&
      hasManualSwitchAccess P 7 == .ok false) = true :=
  shown (by decide +kernel)

example : ∃ P, parse { factory := true, syn := .asa } (flagLines ++ ["interface Ethernet0/3".toList, " switchport mode access".toList]) = .ok P ∧
    (description P 0 == .ok "WAN".toList && hasAutonegotiation P 0 == .ok false && hasManualDuplex P 7 == .ok true &&
      hasAutonegotiation P 14 == .ok true && hasManualSwitchAccess P 14 == .ok true) = true :=
  shown (by decide +kernel)

/-! ## C181: names and kinds -/

/-- C181: `name` is what stands behind `interface`, with one blank between the words, for a line
`interface` with a name of at least two characters; every other line has an empty name and no
ordinals. -/
theorem C181_name (t : Str) :
    (Spec.IntfLine t → intfName t = .ok (join [' '] ((splitWs t).drop 1))) ∧
    (¬ Spec.IntfLine t → intfName t = .ok [] ∧ ordinalList t = .ok [] ∧ port t = .error .indexError) := by
  obtain ⟨b, h1, h2⟩ := intf_iff t
  have hi : isIntf t = .ok b := h1
  constructor
  · intro hh
    rw [intfName, hi, h2.mpr hh]; rfl
  · intro hh
    have : b = false := by cases b with
      | false => rfl
      | true => exact absurd (h2.mp rfl) hh
    subst this
    have ho : ordinalList t = .ok [] := by rw [ordinalList, hi]; rfl
    exact ⟨by rw [intfName, hi]; rfl, ho, by rw [port, ho]; rfl⟩

/-- A named interface line is one. -/
theorem named_line {t ty num : Str} {more : List Str} (h : Named t ty num more) (hn : '\n' ∉ t) : Spec.IntfLine t := by
  obtain ⟨gap, hg, rfl⟩ := h.text
  obtain ⟨hne, hty⟩ := h.type
  obtain ⟨⟨d, hd, hdd⟩, hnum⟩ := h.number
  obtain ⟨x, ty', rfl⟩ := List.exists_cons_of_ne_nil hne
  have hx : isSpace x = false := by
    refine Re.letter_not_space ?_
    rcases hty x (by simp) with h | h
    · rw [h]; rfl
    · rw [h]; decide
  have hnn : num ≠ [] := by rintro rfl; cases hd
  obtain ⟨y, rest, hy⟩ := List.exists_cons_of_ne_nil (show ty' ++ (gap ++ (num ++ Cisco.Spec.tailText more)) ≠ [] by simp [hnn])
  refine ⟨[' '], x, y, rest, ?_, by simp, by decide, hx, ?_⟩
  · rw [← hy]; rfl
  · rintro rfl
    apply hn
    rw [List.cons_append, hy]
    simp

/-- C181: for a line `interface`, a kind, an optional blank and a number: `port_type` is the kind,
`ordinal_list` are the numbers between the slashes, in order, without a subinterface number, and
`port` is the last of them. -/
theorem C181_ordinals {t ty sub : Str} {ns : List Nat} {more : List Str} (hn : '\n' ∉ t) (hns : ns ≠ [])
    (h : Named t ty (join ['/'] (ns.map natStr) ++ sub) more) (hsub : sub = [] ∨ ∃ ds, sub = '.' :: ds ∧ Digits ds) :
    portType t = .ok ty ∧ ordinalList t = .ok (ns.map Int.ofNat) ∧ ∃ n, ns.getLast? = some n ∧ port t = .ok n := by
  have hdig : ∀ p ∈ ns.map natStr, ∀ c ∈ p, isDigit c = true := by
    intro p hp c hc
    obtain ⟨n, _, rfl⟩ := List.mem_map.mp hp
    exact natStr_digits n c hc
  have hmem : ∀ (ps : List Str) c, c ∈ join ['/'] ps → c = '/' ∨ ∃ p ∈ ps, c ∈ p := by
    intro ps
    induction ps with
    | nil => intro c hc; cases hc
    | cons p ps ih =>
      intro c hc
      cases ps with
      | nil => exact .inr ⟨p, by simp, by simpa [join] using hc⟩
      | cons p' ps =>
        rw [join] at hc
        simp only [List.mem_append, List.mem_singleton] at hc
        rcases hc with (hc | hc) | hc
        · exact .inr ⟨p, by simp, hc⟩
        · exact .inl hc
        · rcases ih c hc with h | ⟨q, h1, h2⟩
          · exact .inl h
          · exact .inr ⟨q, List.mem_cons_of_mem _ h1, h2⟩
  have hcore : join ['/'] (ns.map natStr) ≠ [] := by
    intro he
    have := splitOn_join '/' (ns.map natStr) (by simpa using hns) (fun p hp hc => by
      have := hdig p hp _ hc; revert this; decide)
    rw [he] at this
    obtain ⟨n, ns', rfl⟩ := List.exists_cons_of_ne_nil hns
    have e := congrArg List.head? this
    simp only [List.map_cons, List.head?_cons] at e
    exact natStr_ne_nil n (by have : splitOn '/' [] = [[]] := rfl
                              rw [this] at e; exact (Option.some.inj e).symm)
  have hdot : '.' ∉ join ['/'] (ns.map natStr) := by
    intro hc
    rcases hmem _ _ hc with hc | ⟨p, hp, hc⟩
    · exact absurd hc (by decide)
    · exact absurd (hdig p hp _ hc) (by decide)
  have e := C85_interface_number h hcore hdot hsub
  rw [interfaceNumber, named_intf h] at e
  obtain ⟨b, h1, h2⟩ := intf_iff t
  rw [h2.mpr (named_line h hn)] at h1
  have hi : isIntf t = .ok true := h1
  have ho : ordinalList t = .ok (ns.map Int.ofNat) := by
    rw [ordinalList, hi]
    revert e
    generalize matchGroup t "^interface\\s+[A-Za-z\\-]+\\s*(\\d+.*?)(\\.\\d+)*(\\s\\S+)*\\s*$" 1 [] = z
    intro e
    cases z with
    | error x => cases e
    | ok v =>
      have e' : v.getD [] = join ['/'] (ns.map natStr) := Except.ok.inj e
      show (if v.getD [] = [] then _ else _) = _
      rw [e', if_neg hcore, splitOn_join '/' _ (by simpa using hns) (fun p hp hc => by
        have := hdig p hp _ hc; revert this; decide)]
      clear e e' h hns hdig hcore hdot
      induction ns with
      | nil => rfl
      | cons n ns ih =>
        rw [List.map_cons, List.mapM_cons, pyInt_natStr, ih]; rfl
  refine ⟨C85_type h, ho, ?_⟩
  obtain ⟨n, hl⟩ : ∃ n, ns.getLast? = some n := by
    cases hg : ns.getLast? with
    | none => exact absurd (List.getLast?_eq_none_iff.mp hg) hns
    | some n => exact ⟨n, rfl⟩
  refine ⟨n, hl, ?_⟩
  rw [port, ho]
  show (match (ns.map Int.ofNat).getLast? with | some n => Except.ok n | none => _) = _
  rw [List.getLast?_map, hl]; rfl

/-- C181: `is_subintf`, `is_loopback_intf` and `is_ethernet_intf` look at the words behind
`interface`: a dot and a digit in the name, `oopback` behind one letter, `thernet` behind one
letter. -/
theorem C181_kinds {t : Str} (hl : Line t) (ht : lstrip t = t) :
    (∃ b, isSubintf t = .ok b ∧ (b = true ↔ ∃ a d s, a ≠ [] ∧ isDigit d = true ∧ Next ["interface"] t (a ++ '.' :: d :: s))) ∧
    (∃ b, isLoopbackIntf t = .ok b ∧ (b = true ↔ ∃ x s, Next ["interface"] t (x :: "oopback".toList ++ s))) ∧
    ∃ b, isEthernetIntf t = .ok b ∧
      (b = true ↔ ∃ more, splitWs t = "interface".toList :: more ∧ ∃ w ∈ more, ∃ a x s, w = a ++ x :: "thernet".toList ++ s) :=
  ⟨C84_subintf ht, C84_loopback ht, C84_ethernet hl ht⟩

/-- The words of an alternation. -/
def alts : List Str → Rgx
  | [] => .eps
  | [w] => seqs (str w .done).toL
  | w :: w' :: ws => .alt (seqs (str w .done).toL) (alts (w' :: ws))

theorem lang_alts (n : Nat) (ws : List Str) (hne : ws ≠ []) (u v : Str) :
    Lang n (alts ws) u v ↔ ∃ w ∈ ws, u = w ++ v := by
  have one : ∀ w : Str, Lang n (seqs (str w .done).toL) u v ↔ u = w ++ v := by
    intro w
    rw [lang_str]
    constructor
    · rintro ⟨r, h1, h2⟩
      rw [show v = r from ((lang_nil ..).mp h2).symm, h1]
    · rintro h
      exact ⟨v, h, rfl⟩
  induction ws with
  | nil => exact absurd rfl hne
  | cons w ws ih =>
    cases ws with
    | nil => rw [alts, one]; simp
    | cons w' ws =>
      have h2 := ih (by simp)
      exact (or_congr (one w) h2).trans (by simp)

/-- The kinds of virtual interfaces. -/
def Spec.virtualKinds : List Str := wd ["Loopback", "Tunnel", "Virtual-Template", "Port-Channel"]

/-- C181: `is_virtual_intf`: the second word begins with one of the virtual kinds, with just these
capital letters. -/
theorem C181_virtual {t : Str} (ht : lstrip t = t) :
    ∃ b, isVirtualIntf t = .ok b ∧ (b = true ↔ ∃ k ∈ Spec.virtualKinds, ∃ s, Next ["interface"] t (k ++ s)) := by
  have hc : compile "^interface\\s+(Loopback|Tunnel|Virtual-Template|Port-Channel)" =
      .ok ⟨seqs (.bol :: ((str "interface".toList (.plus .space .done)).toL ++ [.grp 1 (seqs [alts Spec.virtualKinds])])), 1, []⟩ := by
    decide +kernel
  have hw : ∀ k ∈ Spec.virtualKinds, IsWord k := by decide +kernel
  have hl : ∀ u v, Lang t.length (seqs [alts Spec.virtualKinds]) u v ↔ ∃ w ∈ Spec.virtualKinds, u = w ++ v := by
    intro u v
    rw [lang_cons]
    simp only [lang_nil]
    constructor
    · rintro ⟨w, h, rfl⟩; exact (lang_alts _ _ (by decide) _ _).mp h
    · intro h; exact ⟨v, (lang_alts _ _ (by decide) _ _).mpr h, rfl⟩
  obtain ⟨b, h1, h2⟩ := reTrue_bol hc t
  refine ⟨b, h1, h2.trans ?_⟩
  have h0 : ∀ v, ¬ Lang t.length (seqs [alts Spec.virtualKinds]) [] v := by
    intro v h
    obtain ⟨w, hm, he⟩ := (hl _ _).mp h
    exact (hw w hm).1 (List.append_eq_nil_iff.mp he.symm).1
  have hs : ∀ x s v, isSpace x = true → ¬ Lang t.length (seqs [alts Spec.virtualKinds]) (x :: s) v := by
    intro x s v hx h
    obtain ⟨w, hm, he⟩ := (hl _ _).mp h
    obtain ⟨y, w', rfl⟩ := List.exists_cons_of_ne_nil (hw w hm).1
    rw [List.cons_append, List.cons.injEq] at he
    have := (hw _ hm).2 y (by simp)
    rw [← he.1, hx] at this; cases this
  simp only [lead_grp (by decide : IsWord "interface".toList) h0 hs ht, hl]
  constructor
  · rintro ⟨v, hi, k, hk, he⟩
    rcases second_word ht hi with ⟨hk', _⟩ | ⟨w, rest, hk', hw', hrest, hsp⟩
    · rw [hk'] at he; exact absurd (List.append_eq_nil_iff.mp he.symm).1 (hw k hk).1
    · rw [hk'] at he
      obtain ⟨s, hs'⟩ := piece_in_word hrest (hw k hk).2 he
      exact ⟨k, hk, s, splitWs rest, by rw [hsp, ← hs']; rfl⟩
  · rintro ⟨k, hk, s, more, hs'⟩
    have hi : (splitWs t).head? = some "interface".toList := by rw [hs']; rfl
    rcases second_word ht hi with ⟨_, hk'⟩ | ⟨w, rest, hk', hw', hrest, hsp⟩
    · rw [hk'] at hs'; exact absurd (congrArg List.length hs') (by simp [wd])
    · rw [hs'] at hsp
      have e : k ++ s = w := by
        have := congrArg (fun l => l[1]?) hsp
        simpa [wd] using this
      exact ⟨s ++ rest, hi, k, hk, by rw [hk', ← e, List.append_assoc]⟩

def exPort : Str := "interface GigabitEthernet 0/1/3.20".toList

theorem exPort_named : Named exPort "GigabitEthernet".toList (join ['/'] ([0, 1, 3].map natStr) ++ ".20".toList) [] :=
  ⟨⟨" ".toList, by decide, by decide +kernel⟩, ⟨by decide, by decide +kernel⟩, ⟨⟨'0', by decide +kernel, by decide⟩, by decide +kernel⟩, by simp⟩

example : portType exPort = .ok "GigabitEthernet".toList ∧ ordinalList exPort = .ok [0, 1, 3] ∧ ∃ n : Nat, [0, 1, 3].getLast? = some n ∧ port exPort = .ok n :=
  C181_ordinals (by decide +kernel) (by simp) exPort_named (.inr ⟨"20".toList, rfl, by decide, by decide⟩)

example : isVirtualIntf "interface Tunnel1".toList = .ok true ∧ isVirtualIntf "interface Port-channel1".toList = .ok false ∧
    isSubintf exPort = .ok false ∧ isSubintf "interface Ethernet0/1.20".toList = .ok true ∧ isLoopbackIntf "interface Loopback0".toList = .ok true ∧ isEthernetIntf exPort = .ok true := by
  decide +kernel

/-! ## C182: attributes without an answer -/

/-- C182 fails: `has_manual_switch_trunk_encap` always raises, and so does `in_ipv4_subnets` for
no networks. -/
theorem C182_raises_fails (P : Parsed) (i : Nat) :
    hasManualSwitchTrunkEncap P i = .error .attributeError ∧ inIpv4Subnets P i (some []) = .error .unbound := ⟨rfl, rfl⟩

/-- C182 fails: `has_ip_pim_sparse_mode` raises `re.error` for every interface with an address. -/
theorem C182_pim_fails (h : parse o lines = .ok P) (hn : ∀ l ∈ lines, '\n' ∉ l) (i : Nat) (ha : ∃ t ∈ family P i, ∃ a, Spec.Addr t a) :
    hasIpPimSparseMode P i = .error .reError := by
  obtain ⟨v, h1, h2⟩ := addr_attr h hn i
  have key : ∀ (ts : List Str) (v : Option Str), First Spec.Addr ts v → (∃ t ∈ ts, ∃ a, Spec.Addr t a) → v.getD [] ≠ [] := by
    intro ts
    induction ts with
    | nil => rintro v - ⟨t, ht, -⟩; cases ht
    | cons t ts ih =>
      rintro v (⟨a, ha, rfl⟩ | ⟨hno, hf⟩) ⟨t', ht', a', ha'⟩
      · obtain ⟨-, w, more, -, u, -, hq, -⟩ := ha
        exact (quad_word hq).1
      · rcases List.mem_cons.mp ht' with rfl | ht'
        · exact absurd ha' (hno a')
        · exact ih v hf ⟨t', ht', a', ha'⟩
  have hc : ∃ e, compile "^\\s*ip\\spim\\ssparse-mode\\s*$)\\s*$" = .error e := ⟨_, rfl⟩
  obtain ⟨e, hc⟩ := hc
  rw [hasIpPimSparseMode, h2]
  show (if v.getD [] = [] then _ else _) = _
  rw [if_neg (key _ v h1 ha), iterTyped, hc]

/-- C182 fails: `port` raises `IndexError` for every interface without a digit in its line. -/
theorem C182_port_fails {t : Str} (hd : ∀ c ∈ t, isDigit c = false) : ordinalList t = .ok [] ∧ port t = .error .indexError := by
  have hc : compile "^interface\\s+[A-Za-z\\-]+\\s*(\\d+.*?)(\\.\\d+)*(\\s\\S+)*\\s*$" = .ok ⟨seqs (.bol :: (headL ++
      (.grp 1 (seqs [.seq (.cls K.digit.cls) (.star true (.cls K.digit.cls)), .star false (.cls K.any.cls)]) ::
      (.star true (.grp 2 (seqs [.cls (K.chr '.').cls, .seq (.cls K.digit.cls) (.star true (.cls K.digit.cls))])) :: restL 3)))), 3, []⟩ := by
    decide +kernel
  have hno : ∀ v, ¬ Lang t.length (seqs (headL ++
      (.grp 1 (seqs [.seq (.cls K.digit.cls) (.star true (.cls K.digit.cls)), .star false (.cls K.any.cls)]) ::
      (.star true (.grp 2 (seqs [.cls (K.chr '.').cls, .seq (.cls K.digit.cls) (.star true (.cls K.digit.cls))])) :: restL 3)))) t v := by
    intro v h
    obtain ⟨u, h1, h2⟩ := (lang_append ..).mp h
    obtain ⟨w, h3, _⟩ := (lang_cons ..).mp h2
    rw [Lang] at h3
    obtain ⟨w', h4, _⟩ := (lang_cons ..).mp h3
    rw [Lang] at h4
    obtain ⟨w'', h5, _⟩ := h4
    obtain ⟨d, rfl, h6⟩ := (lang_cls ..).mp h5
    obtain ⟨p, hp⟩ := lang_suffix _ _ _ _ h1
    have := hd d (by rw [hp]; simp)
    have h7 : isDigit d = true := h6
    rw [this] at h7; cases h7
  have hs : ∀ g, ∀ names, search ⟨seqs (.bol :: (headL ++
      (.grp 1 (seqs [.seq (.cls K.digit.cls) (.star true (.cls K.digit.cls)), .star false (.cls K.any.cls)]) ::
      (.star true (.grp 2 (seqs [.cls (K.chr '.').cls, .seq (.cls K.digit.cls) (.star true (.cls K.digit.cls))])) :: restL 3)))), g, names⟩ t = none := by
    intro g names
    have := search_lang (headL ++
      (.grp 1 (seqs [.seq (.cls K.digit.cls) (.star true (.cls K.digit.cls)), .star false (.cls K.any.cls)]) ::
      (.star true (.grp 2 (seqs [.cls (K.chr '.').cls, .seq (.cls K.digit.cls) (.star true (.cls K.digit.cls))])) :: restL 3))) g names t
    cases hh : search ⟨seqs (.bol :: (headL ++
      (.grp 1 (seqs [.seq (.cls K.digit.cls) (.star true (.cls K.digit.cls)), .star false (.cls K.any.cls)]) ::
      (.star true (.grp 2 (seqs [.cls (K.chr '.').cls, .seq (.cls K.digit.cls) (.star true (.cls K.digit.cls))])) :: restL 3)))), g, names⟩ t with
    | none => rfl
    | some q =>
      rw [hh] at this
      obtain ⟨v, hv⟩ := this.mp rfl
      exact absurd hv (hno v)
  have ho : ordinalList t = .ok [] := by
    obtain ⟨b, h1, _⟩ := intf_iff t
    have hi : isIntf t = .ok b := h1
    rw [ordinalList, hi]
    cases b with
    | false => rfl
    | true =>
      have hm : matchGroup t "^interface\\s+[A-Za-z\\-]+\\s*(\\d+.*?)(\\.\\d+)*(\\s\\S+)*\\s*$" 1 [] = .ok (some []) := by
        rw [matchGroup, Cisco.reSearch, hc]
        simp only [hs]
        rfl
      rw [hm]; rfl
  exact ⟨ho, by rw [port, ho]; rfl⟩

example : ∃ P, parse { factory := true, syn := .asa } flagLines = .ok P ∧
    (hasIpPimSparseMode P 11 == .error .reError && hasIpPimSparseMode P 0 == .ok false && port (P.h 11).text == .error .indexError) = true :=
  shown (by decide +kernel)

end Asa

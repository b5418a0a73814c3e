import Verif.Nxos.Tails
import Verif.Nxos.Model

/-! # Properties of NXOS interface lines: numbers, texts and flags -/

namespace Nxos

open Py Conf Query Re Cisco

variable {o : Opts} {lines : List Str} {P : Parsed}

/-! ## A configuration for the examples -/

/-- What an NXOS configuration shows when it is parsed. -/
def shows (lines : List Str) (Q : Parsed → Bool) : Bool :=
  match parse { factory := true, syn := .nxos } lines with
  | .ok P => Q P
  | .error _ => false

theorem of_shows {lines : List Str} {Q : Parsed → Bool} (h : shows lines Q = true) :
    ∃ P, parse { factory := true, syn := .nxos } lines = .ok P ∧ Q P = true := by
  rw [shows] at h
  split at h
  · exact ⟨_, by assumption, h⟩
  · cases h

def exLines : List Str :=
  ["interface Ethernet1/1", "  description to  core", "  switchport mode trunk", "  switchport access vlan 7", "  speed 1000",
    "  mtu  9216", "  vpc 12", "  vrf member RED", "  spanning-tree port type edge trunk", "  no cdp enable", "  beacon",
    "interface Ethernet1/2", "  no switchport", "  description x", "  mpls ip forwarding", "  fex associate 101",
    "interface Ethernet1/3", "  switchport", "  switchport  mode fex-fabric", "  vrf member  BLUE"].map String.toList

/-! ## C134: numbers -/

/-- The numeric attributes and the words before the number. -/
def numbers : List ((Parsed → Nat → Except Err Int) × List String) :=
  [(manualSpeed, ["speed"]), (manualBandwidth, ["bandwidth"]), (manualDelay, ["delay"]), (manualMtu, ["mtu"]),
    (vpc, ["vpc"]), (fexAssociateChassisId, ["fex", "associate"])]

/-- C134: a numeric attribute of an NXOS interface is the number in the first line of the
interface that consists of the keywords and a number, and 0 without such a line. -/
theorem C134_numbers (h : parse o lines = .ok P) (hn : ∀ l ∈ lines, '\n' ∉ l) (i : Nat) :
    ∀ a ∈ numbers, ∃ v, Spec.First (Spec.Number a.2 []) (Spec.family P i) v ∧ a.1 P i = .ok (v.getD 0) := by
  intro a ha
  simp only [numbers, List.mem_cons, List.not_mem_nil, or_false] at ha
  rcases ha with rfl | rfl | rfl | rfl | rfl | rfl <;> dsimp only <;>
    refine num_attr (sp := false) h hn i ?_ 0 <;> decide +kernel

/-- The first word of the line begins with these letters. -/
def Spec.Begins (w : String) (t : Str) : Prop := ∃ v more, splitWs t = v :: more ∧ w.toList <+: v

/-- C136: `is_switchport` is true exactly if the first word of some line of the interface
begins with `switchport`. -/
theorem C136_switchport (h : parse o lines = .ok P) (hn : ∀ l ∈ lines, '\n' ∉ l) (i : Nat) :
    ∃ b, isSwitchport P i = .ok b ∧ (b = true ↔ ∃ t ∈ Spec.family P i, Spec.Begins "switchport" t) := by
  have hw : IsWord "switchport".toList := isWord_iff.mp (by decide)
  obtain ⟨b, h1, h2⟩ := tail_flag h hn i (ind := false) (pre := []) (n := 1) (names := [])
    (rx := "^\\s*(switchport)\\s*") (tail_then_sp (tail_begin 1 hw)) (by decide +kernel) (fun t _ => .inl (by simp))
    (fun t more v _ hT => by rw [hT.1]; exact hw.1)
  refine ⟨b, h1, h2.trans ?_⟩
  constructor
  · rintro ⟨t, ht, -, more, v, e1, rfl, w, more', e2, e3⟩
    exact ⟨t, ht, w, more', by rw [e1, ← e2]; rfl, e3⟩
  · rintro ⟨t, ht, w, more, e1, e2⟩
    exact ⟨t, ht, fun h => (by cases h), w :: more, _, e1, rfl, w, more, rfl, e2⟩

/-- C134: `access_vlan` and `native_vlan` are the number in the first line that gives one; a
switch port without such a line has VLAN 1, another interface has 0. -/
theorem C134_vlans (h : parse o lines = .ok P) (hn : ∀ l ∈ lines, '\n' ∉ l) (i : Nat) :
    ∀ a ∈ [(accessVlan, ["switchport", "access", "vlan"]), (nativeVlan, ["switchport", "trunk", "native", "vlan"])],
      ∃ v, Spec.First (Spec.Number a.2 []) (Spec.family P i) v ∧
        ((∃ t ∈ Spec.family P i, Spec.Begins "switchport" t) → a.1 P i = .ok (v.getD 1)) ∧
        ((∀ t ∈ Spec.family P i, ¬ Spec.Begins "switchport" t) → a.1 P i = .ok 0) := by
  obtain ⟨b, h1, h2⟩ := C136_switchport h hn i
  have key : ∀ (f : Parsed → Nat → Except Err Int) (rx : String) (pre : List String),
      (∀ d, ∃ v, Spec.First (Spec.Number ("switchport" :: pre) []) (Spec.family P i) v ∧ iterTyped P i rx 1 toInt d = .ok (v.getD d)) →
      f P i = (do iterTyped P i rx 1 toInt (if ← isSwitchport P i then 1 else 0)) →
      ∃ v, Spec.First (Spec.Number ("switchport" :: pre) []) (Spec.family P i) v ∧
        ((∃ t ∈ Spec.family P i, Spec.Begins "switchport" t) → f P i = .ok (v.getD 1)) ∧
        ((∀ t ∈ Spec.family P i, ¬ Spec.Begins "switchport" t) → f P i = .ok 0) := by
    intro f rx pre H hf
    rw [h1] at hf
    cases b with
    | true =>
      obtain ⟨v, h3, h4⟩ := H 1
      refine ⟨v, h3, fun _ => by rw [hf]; exact h4, fun hno => ?_⟩
      obtain ⟨t, ht, hb⟩ := h2.mp rfl
      exact absurd hb (hno t ht)
    | false =>
      obtain ⟨v, h3, h4⟩ := H 0
      refine ⟨v, h3, fun hyes => ?_, fun hno => ?_⟩
      · have := h2.mpr hyes; cases this
      · have hv : v = none := (first_exists h3).1.mpr (fun t ht a ⟨x, _, hx, _⟩ => hno t ht ⟨_, _, hx, List.prefix_refl _⟩)
        rw [hv] at h4
        rw [hf]; exact h4
  intro a ha
  simp only [List.mem_cons, List.not_mem_nil, or_false] at ha
  rcases ha with rfl | rfl
  · exact key accessVlan "^\\s*switchport\\s+access\\s+vlan\\s+(\\d+)$" ["access", "vlan"]
      (num_attr (sp := false) h hn i (by decide +kernel)) rfl
  · exact key nativeVlan "^\\s*switchport\\s+trunk\\s+native\\s+vlan\\s+(\\d+)$" ["trunk", "native", "vlan"]
      (num_attr (sp := false) h hn i (by decide +kernel)) rfl

example : ∃ P, parse { factory := true, syn := .nxos } exLines = .ok P ∧
    (manualSpeed P 0 == .ok 1000 && manualMtu P 0 == .ok 9216 && vpc P 0 == .ok 12 && fexAssociateChassisId P 11 == .ok 101 &&
      vpc P 11 == .ok 0 && accessVlan P 0 == .ok 7 && nativeVlan P 0 == .ok 1 && accessVlan P 11 == .ok 0) = true :=
  of_shows (by decide +kernel)

/-! ## C135: texts -/

/-- The text attributes that take the rest of a line, and the words before it. -/
def texts : List ((Parsed → Nat → Except Err Str) × List String) :=
  [(description, ["description"]), (manualStpLinkType, ["spanning-tree", "link-type"]),
    (manualStpPortType, ["spanning-tree", "port", "type"])]

/-- C135: `description`, `manual_stp_link_type` and `manual_stp_port_type` are the rest of the
first line with the keywords and at least two characters behind them; empty without one.
Missing: a text of one character. -/
theorem C135_texts_partial (h : parse o lines = .ok P) (hn : ∀ l ∈ lines, '\n' ∉ l) (i : Nat) :
    ∀ a ∈ texts, ∃ v, Spec.First (fun t r => Spec.Rest a.2 t r ∧ 2 ≤ r.length) (Spec.family P i) v ∧
      a.1 P i = .ok (v.getD []) := by
  have hline : ∀ t ∈ Spec.family P i, '\n' ∉ t := fun t ht => (line_family h hn i t ht).1
  have key : ∀ (f : Except Err Str) (pre : List String), pre ≠ [] → (gaps true pre).all (fun w => isWord w.1) = true →
      f = (match firstDet (lead false (wordsG (gaps true pre) (restP .nonspace true))) (Spec.family P i) with
        | some c => toStr (c.lookup 1)
        | none => .ok []) →
      ∃ v, Spec.First (fun t r => Spec.Rest pre t r ∧ 2 ≤ r.length) (Spec.family P i) v ∧ f = .ok (v.getD []) := by
    intro f pre hp hl hf
    rw [hf]
    refine first_det (g := 1) (conv := toStr) [] _ ?_ ?_
    · intro t ht q hq
      obtain ⟨-, r, h1, ⟨x, u, rfl, _, h2⟩, rfl⟩ := (rest_det hp hl (hline t ht) q).mp hq
      refine ⟨x :: u, ⟨h1, ?_⟩, rfl⟩
      have := List.length_pos_iff.mpr (h2 rfl)
      simp only [List.length_cons]; omega
    · rintro t ht r ⟨h1, h2⟩
      have h1' := h1
      obtain ⟨_, _, _, _, _, _, c, h3, h4⟩ := h1'
      refine ⟨_, (rest_det hp hl (hline t ht) _).mpr ⟨fun h => (by cases h), r, h1, ?_, rfl⟩⟩
      cases r with
      | nil => cases h3
      | cons x u =>
        cases h3
        refine ⟨_, u, rfl, by simp [K.has, h4], fun _ hu => ?_⟩
        rw [hu] at h2
        simp at h2
  intro a ha
  simp only [texts, List.mem_cons, List.not_mem_nil, or_false] at ha
  rcases ha with rfl | rfl | rfl
  · refine key (description P i) ["description"] (by simp) (by decide) ?_
    exact iter_det (rx := "^\\s*description\\s+(\\S.+)$") (g := 1)
      (p := lead false (wordsG (gaps true ["description"]) (restP .nonspace true)))
      (n := 1) (names := []) (by decide +kernel) (by decide) (by decide) toStr [] P i
  · refine key (manualStpLinkType P i) ["spanning-tree", "link-type"] (by simp) (by decide) ?_
    exact iter_lazy (rx := "^\\s*spanning-tree\\s+link-type\\s+(\\S.+?)$") (ind := false)
      (pre := gaps true ["spanning-tree", "link-type"]) (k := .nonspace) (two := true) (by decide +kernel) toStr [] P i hline
  · refine key (manualStpPortType P i) ["spanning-tree", "port", "type"] (by simp) (by decide) ?_
    exact iter_lazy (rx := "^\\s*spanning-tree\\s+port\\s+type\\s+(\\S.+?)$") (ind := false)
      (pre := gaps true ["spanning-tree", "port", "type"]) (k := .nonspace) (two := true) (by decide +kernel) toStr [] P i hline

/-- C135: a text of one character is lost, whatever the configuration: the attribute is
empty. -/
theorem C135_short_fails (h : parse o lines = .ok P) (hn : ∀ l ∈ lines, '\n' ∉ l) (i : Nat) :
    ∀ a ∈ texts, (∀ t ∈ Spec.family P i, ∀ r, Spec.Rest a.2 t r → r.length = 1) → a.1 P i = .ok [] := by
  intro a ha hall
  obtain ⟨v, h1, h2⟩ := C135_texts_partial h hn i a ha
  have : v = none := (first_exists h1).1.mpr (fun t ht r hr => by
    have := hall t ht r hr.1
    have := hr.2
    omega)
  rw [h2, this]; rfl

/-- C135: `vrf` is the word in the first line `vrf member W`, if no line has two blanks in a
row.  Missing: two blanks before the name. -/
theorem C135_vrf_partial (h : parse o lines = .ok P) (hn : ∀ l ∈ lines, '\n' ∉ l) (i : Nat)
    (ht : ∀ t ∈ Spec.family P i, Spec.Tidy t) :
    ∃ v, Spec.First (Spec.Word ["vrf", "member"] []) (Spec.family P i) v ∧ vrf P i = .ok (v.getD []) ∧
      hasVrf P i = .ok v.isSome := by
  obtain ⟨v, h1, h2⟩ := word_attr (sp := true) (l := gaps true ["vrf"] ++ gaps false ["member"]) (post := []) h hn i
    (rx := "^\\s*vrf\\s+member\\s(\\S+)\\s*$") (by decide +kernel) (fun t hh => .inr (ht t hh))
  refine ⟨v, h1, h2, ?_⟩
  have h2' : vrf P i = .ok (v.getD []) := h2
  rw [hasVrf, h2']
  cases v with
  | none => rfl
  | some w =>
    obtain ⟨t, _, he⟩ := (first_exists h1).2 w rfl
    have hw : IsWord w := splitWs_words t w (by rw [he]; simp)
    cases w with
    | nil => exact absurd rfl hw.1
    | cons x u => rfl

/-- C135: with two blanks before the name, `vrf` is empty. -/
theorem C135_vrf_fails : ∃ P, parse { factory := true, syn := .nxos } exLines = .ok P ∧
    ((P.h 19).text == "  vrf member  BLUE".toList && vrf P 16 == .ok [] && hasVrf P 16 == .ok false) = true :=
  of_shows (by decide +kernel)

example : ∃ P, parse { factory := true, syn := .nxos } exLines = .ok P ∧
    (description P 0 == .ok "to  core".toList && manualStpPortType P 0 == .ok "edge trunk".toList && vrf P 0 == .ok "RED".toList &&
      hasVrf P 0 == .ok true && description P 11 == .ok []) = true :=
  of_shows (by decide +kernel)

/-! ## C136, C137: flags -/

/-- C136: `manual_beacon`, `has_mpls` and `has_manual_switch_trunk` are true exactly if some
line of the interface consists of the keywords. -/
theorem C136_flags (h : parse o lines = .ok P) (hn : ∀ l ∈ lines, '\n' ∉ l) (i : Nat) :
    ∀ a ∈ [(manualBeacon, ["beacon"]), (hasMpls, ["mpls", "ip", "forwarding"]),
        (hasManualSwitchTrunk, ["switchport", "mode", "trunk"])],
      ∃ b, a.1 P i = .ok b ∧ (b = true ↔ ∃ t ∈ Spec.family P i, Spec.Exactly a.2 t) := by
  intro a ha
  simp only [List.mem_cons, List.not_mem_nil, or_false] at ha
  rcases ha with rfl | rfl | rfl
  · exact flag_attr (pre := []) (l := []) (w := "beacon".toList) (sp := true) h hn i
      (rx := "^\\s*(beacon)\\s*$") (by decide +kernel) (fun t _ => .inl (by simp))
  · exact flag_attr (pre := []) (l := gaps true ["mpls", "ip"]) (w := "forwarding".toList) (sp := false) h hn i
      (rx := "^\\s*(mpls\\s+ip\\s+forwarding)$") (by decide +kernel) (fun t _ => .inl (by simp [gaps]))
  · exact flag_attr (pre := []) (l := gaps true ["switchport", "mode"]) (w := "trunk".toList) (sp := true) h hn i
      (rx := "^\\s*(switchport\\s+mode\\s+trunk)\\s*$") (by decide +kernel) (fun t _ => .inl (by simp [gaps]))

/-- C136: `has_manual_disable_cdp` is true exactly if some line of the interface starts with
the words `no cdp` and a word that begins with `enable`. -/
theorem C136_cdp (h : parse o lines = .ok P) (hn : ∀ l ∈ lines, '\n' ∉ l) (i : Nat) :
    ∃ b, hasManualDisableCdp P i = .ok b ∧
      (b = true ↔ ∃ t ∈ Spec.family P i, ∃ v more, splitWs t = Spec.wd ["no", "cdp"] ++ v :: more ∧ "enable".toList <+: v) := by
  obtain ⟨b, h1, h2⟩ := tail_flag h hn i (ind := false) (pre := []) (n := 1) (names := [])
    (rx := "^\\s*(no\\s+cdp\\s+enable\\s*)")
    (tail_open 1 (l := ["no", "cdp"]) (w := "enable".toList) (by decide) (isWord_iff.mp (by decide)))
    (by decide +kernel) (fun t _ => .inl (by simp)) (fun t more v _ hT => hT.1)
  refine ⟨b, h1, h2.trans ?_⟩
  constructor
  · rintro ⟨t, ht, -, more, v, e1, -, w, more', e2, e3⟩
    exact ⟨t, ht, w, more', by rw [e1, ← e2]; rfl, e3⟩
  · rintro ⟨t, ht, w, more, e1, e2⟩
    exact ⟨t, ht, fun h => (by cases h), _, "x".toList, e1, by decide, w, more, rfl, e2⟩

/-- C137: `has_manual_switch_access` and `has_manual_switch_fex_fabric` are true exactly if some
line consists of the keywords, if no line has two blanks in a row.  Missing: two blanks behind
`switchport`. -/
theorem C137_modes_partial (h : parse o lines = .ok P) (hn : ∀ l ∈ lines, '\n' ∉ l) (i : Nat)
    (ht : ∀ t ∈ Spec.family P i, Spec.Tidy t) :
    ∀ a ∈ [(hasManualSwitchAccess, ["switchport", "mode", "access"]),
        (hasManualSwitchFexFabric, ["switchport", "mode", "fex-fabric"])],
      ∃ b, a.1 P i = .ok b ∧ (b = true ↔ ∃ t ∈ Spec.family P i, Spec.Exactly a.2 t) := by
  intro a ha
  simp only [List.mem_cons, List.not_mem_nil, or_false] at ha
  rcases ha with rfl | rfl
  · exact flag_attr (pre := []) (l := gaps false ["switchport"] ++ gaps true ["mode"]) (w := "access".toList) (sp := true) h hn i
      (rx := "^\\s*(switchport\\smode\\s+access)\\s*$") (by decide +kernel) (fun t hh => .inr (ht t hh))
  · exact flag_attr (pre := []) (l := gaps false ["switchport"] ++ gaps true ["mode"]) (w := "fex-fabric".toList) (sp := true) h hn i
      (rx := "^\\s*(switchport\\smode\\s+fex-fabric)\\s*$") (by decide +kernel) (fun t hh => .inr (ht t hh))

/-- C137: the flags of a switch port: `has_switch_portsecurity` is true exactly if some line is
`switchport port-security`; it needs no further condition, since that line makes the
interface a switch port.  Missing: two blanks in a row. -/
theorem C137_portsecurity_partial (h : parse o lines = .ok P) (hn : ∀ l ∈ lines, '\n' ∉ l) (i : Nat)
    (ht : ∀ t ∈ Spec.family P i, Spec.Tidy t) :
    ∃ b, hasSwitchPortsecurity P i = .ok b ∧
      (b = true ↔ ∃ t ∈ Spec.family P i, Spec.Exactly ["switchport", "port-security"] t) := by
  obtain ⟨s, h1, h2⟩ := C136_switchport h hn i
  rw [hasSwitchPortsecurity, h1]
  cases s with
  | true =>
    exact flag_attr (pre := []) (l := gaps false ["switchport"]) (w := "port-security".toList) (sp := true) h hn i
      (rx := "^\\s*(switchport\\sport-security)\\s*$") (by decide +kernel) (fun t hh => .inr (ht t hh))
  | false =>
    refine ⟨false, rfl, ?_⟩
    constructor
    · intro hh; cases hh
    · rintro ⟨t, hm, he⟩
      exact h2.mpr ⟨t, hm, _, _, he, List.prefix_refl _⟩

/-- C137: `mac_accessgroup_in` and `mac_accessgroup_out` are the word in the first line
`mac access-group W in` (or `out`); `has_..` says whether there is one, on a switch port.
Missing: two blanks in a row. -/
theorem C137_mac_partial (h : parse o lines = .ok P) (hn : ∀ l ∈ lines, '\n' ∉ l) (i : Nat)
    (ht : ∀ t ∈ Spec.family P i, Spec.Tidy t) :
    ∀ a ∈ [(macAccessgroupIn, hasMacAccessgroupIn, "in"), (macAccessgroupOut, hasMacAccessgroupOut, "out")],
      ∃ v, Spec.First (Spec.Word ["mac", "access-group"] [a.2.2]) (Spec.family P i) v ∧ a.1 P i = .ok (v.getD []) ∧
        ∃ b, a.2.1 P i = .ok b ∧
          (b = true ↔ v.isSome = true ∧ ∃ t ∈ Spec.family P i, Spec.Begins "switchport" t) := by
  obtain ⟨s, h1, h2⟩ := C136_switchport h hn i
  have key : ∀ (f : Except Err Str) (v : Option Str) (post : String),
      Spec.First (Spec.Word ["mac", "access-group"] [post]) (Spec.family P i) v → f = .ok (v.getD []) →
      ∃ b, (do if !(← isSwitchport P i) then Except.ok false else .ok (!(← f).isEmpty)) = .ok b ∧
          (b = true ↔ v.isSome = true ∧ ∃ t ∈ Spec.family P i, Spec.Begins "switchport" t) := by
    intro f v post hf he
    rw [h1, ← h2, he]
    cases s with
    | false => exact ⟨false, rfl, by simp⟩
    | true =>
      refine ⟨v.isSome, ?_, by simp⟩
      cases v with
      | none => rfl
      | some w =>
        obtain ⟨t, _, e⟩ := (first_exists hf).2 w rfl
        have hw : IsWord w := splitWs_words t w (by rw [e]; simp)
        cases w with
        | nil => exact absurd rfl hw.1
        | cons x u => rfl
  intro a ha
  simp only [List.mem_cons, List.not_mem_nil, or_false] at ha
  rcases ha with rfl | rfl
  · obtain ⟨v, e1, e2⟩ := word_attr (sp := true) (l := gaps false ["mac"] ++ gaps true ["access-group"]) (post := ["in"]) h hn i
      (rx := "^\\s*mac\\saccess-group\\s+(\\S+)\\s+in\\s*$") (by decide +kernel) (fun t hh => .inr (ht t hh))
    exact ⟨v, e1, e2, key _ v "in" e1 e2⟩
  · obtain ⟨v, e1, e2⟩ := word_attr (sp := true) (l := gaps false ["mac"] ++ gaps true ["access-group"]) (post := ["out"]) h hn i
      (rx := "^\\s*mac\\saccess-group\\s+(\\S+)\\s+out\\s*$") (by decide +kernel) (fun t hh => .inr (ht t hh))
    exact ⟨v, e1, e2, key _ v "out" e1 e2⟩

/-- C137: with two blanks behind `switchport` the mode is not seen. -/
theorem C137_modes_fails : ∃ P, parse { factory := true, syn := .nxos } exLines = .ok P ∧
    ((P.h 18).text == "  switchport  mode fex-fabric".toList && hasManualSwitchFexFabric P 16 == .ok false) = true :=
  of_shows (by decide +kernel)

example : ∃ P, parse { factory := true, syn := .nxos } exLines = .ok P ∧
    (manualBeacon P 0 == .ok true && hasMpls P 0 == .ok false && hasMpls P 11 == .ok true && hasManualSwitchTrunk P 0 == .ok true &&
      hasManualDisableCdp P 0 == .ok true && isSwitchport P 0 == .ok true && isSwitchport P 11 == .ok false &&
      hasManualSwitchAccess P 0 == .ok false) = true :=
  of_shows (by decide +kernel)

/-- Three interfaces whose lines are tidy. -/
def tidyLines : List Str :=
  ["interface Ethernet1/1", " switchport mode access", " switchport port-security", " mac access-group ACL in", " vrf member X",
    "interface Ethernet1/2", " switchport mode fex-fabric", "interface Ethernet1/3", " mac access-group ACL out"].map String.toList

/-- No two blanks in a row behind the indentation, as a test. -/
def tidy : Str → Bool
  | x :: y :: s => !(isSpace x && isSpace y) && tidy (y :: s)
  | _ => true

theorem tidy_iff : ∀ {t : Str}, tidy t = true → ∀ pre x y post, t = pre ++ x :: y :: post → ¬ (isSpace x = true ∧ isSpace y = true)
  | [], _, pre, x, y, post, e => by simp at e
  | [a], _, pre, x, y, post, e => by
    have := congrArg List.length e
    simp at this
    omega
  | a :: b :: s, h, pre, x, y, post, e => by
    simp only [tidy, Bool.and_eq_true] at h
    cases pre with
    | nil =>
      cases e
      rintro ⟨h1, h2⟩
      have := h.1
      simp [h1, h2] at this
    | cons p pre =>
      obtain ⟨_, e⟩ := List.cons.inj e
      exact tidy_iff h.2 pre x y post e

example : ∃ P, parse { factory := true, syn := .nxos } tidyLines = .ok P ∧ ∀ t ∈ Spec.family P 0, Spec.Tidy t := by
  obtain ⟨P, h1, h2⟩ := of_shows (lines := tidyLines) (Q := fun P => (Spec.family P 0).all (fun t => tidy (lstrip t)))
    (by decide +kernel)
  exact ⟨P, h1, fun t ht => tidy_iff (List.all_eq_true.mp h2 t ht)⟩

example : ∃ P, parse { factory := true, syn := .nxos } tidyLines = .ok P ∧
    ((Spec.family P 0).all (fun t => tidy (lstrip t)) && hasManualSwitchAccess P 0 == .ok true &&
      hasSwitchPortsecurity P 0 == .ok true && macAccessgroupIn P 0 == .ok "ACL".toList && hasMacAccessgroupIn P 0 == .ok true &&
      hasManualSwitchFexFabric P 5 == .ok true && macAccessgroupOut P 7 == .ok "ACL".toList &&
      hasMacAccessgroupOut P 7 == .ok false && vrf P 0 == .ok "X".toList) = true :=
  of_shows (by decide +kernel)

end Nxos

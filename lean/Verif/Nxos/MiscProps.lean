import Verif.Nxos.Props
import Verif.Cisco.SwitchProps

/-! # Properties of NXOS interface lines: peer links, storm control, DTP and encapsulation -/

namespace Nxos

open Py Conf Query Re Cisco

variable {o : Opts} {lines : List Str} {P : Parsed}

/-! ## Specification -/

/-- A line `vpc peer-link`; anything may follow behind `peer-link`. -/
def Spec.Peerlink (t : Str) : Prop := ∃ v more, splitWs t = "vpc".toList :: v :: more ∧ "peer-link".toList <+: v

/-! ## C146: `is_vpc_peerlink` -/

theorem peer_is : Is "^\\s*vpc\\s+peer-link" (lead false (wordsG (gaps true ["vpc"]) (str "peer-link".toList .done))) 0 [] := by
  decide +kernel

/-- `is_vpc_peerlink` in terms of the runs of the expression. -/
theorem peer_det (P : Parsed) (i : Nat) : isVpcPeerlink P i =
    match firstDet (lead false (wordsG (gaps true ["vpc"]) (str "peer-link".toList .done))) (Spec.family P i) with
    | some _ => .error .indexError
    | none => .ok [] := by
  have h := peer_is
  have := firstMatch_det _ h.2 0 [] (Cisco.texts P i)
  rw [← texts_family, ← this, isVpcPeerlink, iterTyped, h.1]
  simp only [if_true]
  cases firstMatch ⟨seqs (.bol :: (lead false (wordsG (gaps true ["vpc"]) (str "peer-link".toList .done))).toL), 0, []⟩ (Cisco.texts P i) with
  | none => rfl
  | some m => rfl

/-- A word, open at the end. -/
theorem ends_begin (g : Nat) {w : Str} (hw : IsWord w) : Ends g (str w .done) (fun ws => ∃ v more, ws = v :: more ∧ w <+: v) := by
  have hd : ∀ r c q, (str w .done).det r c = some q ↔ w <+: r ∧ q = (r.drop w.length, c) := by
    intro r c q
    rw [det_str]
    by_cases h : w <+: r
    · rw [if_pos h]
      simp [h, Prog.det, eq_comm]
    · rw [if_neg h]
      simp [h]
  refine ⟨?_, ?_, ?_⟩
  · intro c
    cases h : (str w .done).det [] c with
    | none => rfl
    | some q => exact absurd (List.prefix_nil.mp ((hd _ _ _).mp h).1) hw.1
  · intro r c q h0 _ h
    obtain ⟨h1, rfl⟩ := (hd _ _ _).mp h
    have hne : r ≠ [] := by rintro rfl; exact hw.1 (List.prefix_nil.mp h1)
    obtain ⟨v, rest, e1, e2, e3, e4⟩ := split_cons h0 hne
    rw [e1, prefix_first hw e2 e3] at h1
    exact ⟨⟨v, _, e4, h1⟩, rfl⟩
  · rintro r c h0 _ ⟨v, more, h1, h2⟩
    have hne : r ≠ [] := by rintro rfl; cases h1
    obtain ⟨v', rest, e1, e2, e3, e4⟩ := split_cons h0 hne
    rw [e4] at h1
    obtain ⟨rfl, -⟩ := List.cons.inj h1
    exact ⟨_, (hd _ _ _).mpr ⟨by rw [e1, prefix_first hw e2 e3]; exact h2, rfl⟩⟩

theorem chain_ends (ind : Bool) {pre : List (Str × Bool)} (hpre : pre.all (fun w => isWord w.1) = true)
    {p : Prog} {g : Nat} {M : List Str → Prop} (hT : Ends g p M) {t : Str} (ht : Line t)
    (hf : Fits pre (lstrip t)) (c : Caps) :
    (∃ q, (lead ind (wordsG pre p)).det t c = some q) ↔
      ∃ more, (ind = true → Indented t) ∧ splitWs t = pre.map Prod.fst ++ more ∧ M more := by
  have hl : Line (skip pre.length (lstrip t)) := line_suffix ((skip_suffix _ _).trans (lstrip_suffix t)) ht
  have h0 := lstrip_skip pre.length (lstrip_lstrip t)
  have hsk : splitWs (skip pre.length (lstrip t)) = (splitWs t).drop pre.length := by
    rw [splitWs_skip _ (lstrip_lstrip t), splitWs_lstrip]
  constructor
  · rintro ⟨q, hq⟩
    rw [det_chain ind (words_of hpre) p hT.nil hf] at hq
    obtain ⟨h1, h2, h3⟩ := hq
    obtain ⟨h4, -⟩ := hT.fwd _ _ _ h0 hl h3
    rw [hsk] at h4
    refine ⟨_, h1, ?_, h4⟩
    conv => lhs; rw [prefix_append_drop h2]
    rw [List.length_map]
  · rintro ⟨more, h1, h2, h3⟩
    obtain ⟨q, hq⟩ := hT.ex _ c h0 hl (by
      rw [hsk, h2, ← List.length_map (f := Prod.fst), List.drop_left]; exact h3)
    exact ⟨q, (det_chain ind (words_of hpre) p hT.nil hf c q).mpr ⟨h1, by rw [h2]; exact List.prefix_append _ _, hq⟩⟩

theorem firstDet_none {p : Prog} {ts : List Str} : firstDet p ts = none ↔ ∀ t ∈ ts, ¬ ∃ q, p.det t [] = some q := by
  induction ts with
  | nil => simp [firstDet]
  | cons t ts ih =>
    rw [firstDet]
    cases h : p.det t [] with
    | none => simp [ih, h]
    | some q =>
      constructor
      · intro hh; cases hh
      · intro hh; exact absurd ⟨q, h⟩ (hh t (by simp))

theorem peer_line {t : Str} (ht : Line t) :
    (∃ q, (lead false (wordsG (gaps true ["vpc"]) (str "peer-link".toList .done))).det t [] = some q) ↔ Spec.Peerlink t := by
  rw [chain_ends false (by decide) (ends_begin 1 (isWord_iff.mp (by decide))) ht (.inl (by simp [gaps]))]
  constructor
  · rintro ⟨_, -, h1, v, more, rfl, h2⟩
    exact ⟨v, more, h1, h2⟩
  · rintro ⟨v, more, h1, h2⟩
    exact ⟨_, (fun h => by cases h), h1, v, more, rfl, h2⟩

/-- C146: without a line `vpc peer-link`, `is_vpc_peerlink` is empty. Missing: the interfaces that
have one. -/
theorem C146_peerlink_partial (h : parse o lines = .ok P) (hn : ∀ l ∈ lines, '\n' ∉ l) (i : Nat)
    (hno : ∀ t ∈ Spec.family P i, ¬ Spec.Peerlink t) : isVpcPeerlink P i = .ok [] := by
  rw [peer_det, firstDet_none.mpr (fun t ht => by rw [peer_line (line_family h hn i t ht)]; exact hno t ht)]

/-- C146 fails for every peer link: `is_vpc_peerlink` raises IndexError. -/
theorem C146_peerlink_fails (h : parse o lines = .ok P) (hn : ∀ l ∈ lines, '\n' ∉ l) (i : Nat)
    (hp : ∃ t ∈ Spec.family P i, Spec.Peerlink t) : isVpcPeerlink P i = .error .indexError := by
  rw [peer_det]
  cases hd : firstDet (lead false (wordsG (gaps true ["vpc"]) (str "peer-link".toList .done))) (Spec.family P i) with
  | some c => rfl
  | none =>
    obtain ⟨t, ht, hp⟩ := hp
    exact absurd ((peer_line (line_family h hn i t ht)).mpr hp) (firstDet_none.mp hd t ht)

/-! ## C147: storm control, DTP and encapsulation -/

/-- C147: `has_switch_stormcontrol` of a switch port is true exactly if a line is `storm-control`
and nothing else; on other interfaces it is false. Missing: the statements that do configure storm control. -/
theorem C147_storm_partial (h : parse o lines = .ok P) (hn : ∀ l ∈ lines, '\n' ∉ l) (i : Nat) :
    ∃ b, hasSwitchStormcontrol P i = .ok b ∧
      (b = true ↔ (∃ t ∈ Spec.family P i, Spec.Begins "switchport" t) ∧ ∃ t ∈ Spec.family P i, Spec.Exactly ["storm-control"] t) := by
  obtain ⟨s, h1, h2⟩ := C136_switchport h hn i
  rw [hasSwitchStormcontrol, h1, ← h2]
  cases s with
  | true =>
    obtain ⟨b, e1, e2⟩ := flag_attr (pre := []) (l := []) (w := "storm-control".toList) (sp := true) h hn i
      (rx := "^\\s*(storm-control)\\s*$") (by decide +kernel) (fun t _ => .inl (by simp))
    exact ⟨b, e1, by rw [eq_self, true_and]; exact e2⟩
  | false => exact ⟨false, rfl, by simp⟩

/-- C147 fails for storm control: `storm-control broadcast level 10` and every other statement with
arguments leaves `has_switch_stormcontrol` False. -/
theorem C147_storm_fails (h : parse o lines = .ok P) (hn : ∀ l ∈ lines, '\n' ∉ l) (i : Nat)
    (hs : ∀ t ∈ Spec.family P i, ∀ more, splitWs t = "storm-control".toList :: more → more ≠ []) :
    hasSwitchStormcontrol P i = .ok false := by
  obtain ⟨b, h1, h2⟩ := C147_storm_partial h hn i
  rw [h1]
  cases b with
  | false => rfl
  | true =>
    obtain ⟨-, t, ht, he⟩ := h2.mp rfl
    exact absurd rfl (hs t ht [] he)

/-- C147: `has_dtp` of an interface that is no switch port is false. Missing: switch ports. -/
theorem C147_dtp_partial (h : parse o lines = .ok P) (hn : ∀ l ∈ lines, '\n' ∉ l) (i : Nat)
    (hs : ∀ t ∈ Spec.family P i, ¬ Spec.Begins "switchport" t) : hasDtp P i = .ok false := by
  obtain ⟨s, h1, h2⟩ := C136_switchport h hn i
  rw [hasDtp, h1]
  cases s with
  | false => rfl
  | true =>
    obtain ⟨t, ht, hb⟩ := h2.mp rfl
    exact absurd hb (hs t ht)

/-- C147 fails for DTP: `has_dtp` is False on every interface with children, with `switchport nonegotiate` or
without it. -/
theorem C147_dtp_fails (h : parse o lines = .ok P) (hn : ∀ l ∈ lines, '\n' ∉ l) (i : Nat) (hk : (P.h i).children ≠ []) :
    hasDtp P i = .ok false := by
  obtain ⟨s, h1, -⟩ := C136_switchport h hn i
  rw [hasDtp, h1]
  cases s with
  | false => rfl
  | true =>
    cases hc : childTexts P i with
    | nil =>
      rw [childTexts] at hc
      exact absurd (List.map_eq_nil_iff.mp hc) hk
    | cons t ts =>
      obtain ⟨v, hv⟩ := noneg_some t
      show hasDtpT (t :: ts) = _
      simp only [hasDtpT, hv, bind, Except.bind]

/-- C147 fails for the encapsulation: `manual_switch_trunk_encap` is the whole statement, not the
encapsulation. -/
theorem C147_encap_fails : ∃ P, parse { factory := true, syn := .nxos } (["interface Ethernet1/1", " switchport",
      " switchport trunk encapsulation dot1q"].map String.toList) = .ok P ∧
    (manualSwitchTrunkEncap P 0 == .ok "switchport trunk encapsulation dot1q".toList) = true :=
  of_shows (by decide +kernel)

/-- A peer link, storm control, and a port that does not negotiate. -/
def miscLines : List Str :=
  ["interface port-channel1", "  switchport", "  vpc peer-link", "interface Ethernet1/1", "  switchport", "  storm-control broadcast level 10",
    "interface Ethernet1/2", "  switchport", "  storm-control", "interface Ethernet1/3", "  no switchport"].map String.toList

example : shows miscLines (fun P => isVpcPeerlink P 0 == .error .indexError && isVpcPeerlink P 3 == .ok [] &&
    hasSwitchStormcontrol P 3 == .ok false && hasSwitchStormcontrol P 6 == .ok true && hasDtp P 3 == .ok false &&
    hasDtp P 9 == .ok false && (P.h 3).children == [4, 5] &&
    decide ("storm-control".toList ∈ (Spec.family P 3).flatMap splitWs)) = true := by
  decide +kernel

example : Spec.Peerlink "  vpc peer-link".toList := ⟨_, _, rfl, by decide⟩

end Nxos

import Verif.Cisco.Tails
import Verif.Cisco.Props

/-! # Properties of interface attributes: words and flags -/

namespace Cisco

open Py Conf Query Re

variable {o : Opts} {lines : List Str} {P : Parsed}

/-! ## C72: words -/

/-- C72: `description` is the text behind the keyword of the first line of the interface
that has one, unchanged, and empty without such a line. -/
theorem C72_description (h : parse o lines = .ok P) (hn : ∀ l ∈ lines, '\n' ∉ l) (i : Nat) :
    ∃ v, Spec.First (Spec.Rest "description") (Spec.family P i) v ∧ description P i = .ok (v.getD []) := by
  obtain ⟨v, h1, h2⟩ := rest_attr (two := false) (w := "description") (rx := "^\\s*description\\s+(\\S.*)$") h hn i (by decide +kernel)
  exact ⟨v, first_congr (fun t _ a => by simp) h1, h2⟩

/-- C72: `manual_encapsulation` is the word behind the keyword. -/
theorem C72_encapsulation (i : Nat) :
    ∃ v, Spec.First (Spec.Next ["encapsulation"]) (Spec.family P i) v ∧ manualEncapsulation P i = .ok (v.getD []) := by
  obtain ⟨v, h1, h2⟩ := next_attr (P := P) i (rx := "^\\s*encapsulation\\s+(\\S+)") (l := gaps true ["encapsulation"])
    (by decide +kernel) (fun t _ => .inl (by simp [gaps]))
  exact ⟨v, first_congr (fun t _ a => by rw [fst_gaps]; rfl) h1, h2⟩

/-- C72: `manual_duplex` is the text behind the keyword, of two characters or more. -/
theorem C72_duplex (h : parse o lines = .ok P) (hn : ∀ l ∈ lines, '\n' ∉ l) (i : Nat) :
    ∃ v, Spec.First (fun t r => Spec.Rest "duplex" t r ∧ 2 ≤ r.length) (Spec.family P i) v ∧
      manualDuplex P i = .ok (v.getD []) := by
  obtain ⟨v, h1, h2⟩ := rest_attr (two := true) (w := "duplex") (rx := "^\\s*duplex\\s+(\\S.+)$") h hn i (by decide +kernel)
  exact ⟨v, first_congr (fun t _ a => by simp) h1, h2⟩

/-- C72: the access lists, for lines without double blanks: the word between `ip
access-group` and the direction. -/
theorem C72_accessgroup_partial (h : parse o lines = .ok P) (hn : ∀ l ∈ lines, '\n' ∉ l) (i : Nat)
    (ht : ∀ t ∈ Spec.family P i, Spec.Tidy t) :
    ∀ a ∈ [(ipv4AccessgroupIn, "in"), (ipv4AccessgroupOut, "out")],
      ∃ v, Spec.First (Spec.Word ["ip", "access-group"] [a.2]) (Spec.family P i) v ∧ a.1 P i = .ok (v.getD []) := by
  intro a ha
  simp only [List.mem_cons, List.not_mem_nil, or_false] at ha
  rcases ha with rfl | rfl
  · exact word_attr (sp := true) (l := [("ip".toList, false), ("access-group".toList, true)]) (post := ["in"])
      (rx := "^\\s*ip\\saccess-group\\s+(\\S+)\\s+in\\s*$") h hn i (by decide +kernel) (fun t hh => .inr (ht t hh))
  · exact word_attr (sp := true) (l := [("ip".toList, false), ("access-group".toList, true)]) (post := ["out"])
      (rx := "^\\s*ip\\saccess-group\\s+(\\S+)\\s+out\\s*$") h hn i (by decide +kernel) (fun t hh => .inr (ht t hh))

/-- C72: `vrf`, for lines without double blanks: the last of the words `vrf forwarding NAME`
or `ip vrf forwarding NAME`. -/
theorem C72_vrf_partial (h : parse o lines = .ok P) (hn : ∀ l ∈ lines, '\n' ∉ l) (i : Nat)
    (ht : ∀ t ∈ Spec.family P i, Spec.Tidy t) :
    ∃ v, Spec.First (fun t v => ∃ k, splitWs t = List.replicate k "ip".toList ++ Spec.wd ["vrf", "forwarding"] ++ [v])
        (Spec.family P i) v ∧ vrf P i = .ok (v.getD []) ∧ hasVrf P i = .ok v.isSome := by
  obtain ⟨v, h1, h2⟩ := vrf_attr h hn i ht
  refine ⟨v, h1, h2, ?_⟩
  rw [hasVrf, vrf, h2]
  have hv : ∀ (ts : List Str) (v : Option Str), Spec.First (fun t v =>
      ∃ k, splitWs t = List.replicate k "ip".toList ++ Spec.wd ["vrf", "forwarding"] ++ [v]) ts v → v ≠ some [] := by
    intro ts
    induction ts with
    | nil => intro v hv; rw [show v = none from hv]; simp
    | cons t ts ih =>
      rintro v (⟨a, ⟨k, hk⟩, rfl⟩ | ⟨_, h2⟩)
      · have := (splitWs_words t a (by rw [hk]; simp)).1
        simpa using this
      · exact ih v h2
  have := hv _ _ h1
  cases v with
  | none => rfl
  | some w =>
    cases w with
    | nil => exact absurd rfl this
    | cons a w => rfl

example : ∃ P, parse { factory := true } exLines = .ok P ∧
    (description P 0 == .ok "to  core".toList && manualEncapsulation P 0 == .ok "dot1Q".toList &&
      manualDuplex P 0 == .ok "full".toList && ipv4AccessgroupIn P 0 == .ok "ACL".toList &&
      vrf P 0 == .ok "RED".toList && description P 16 == .ok []) = true :=
  of_shows (by decide +kernel)

/-- C72 does not hold as stated: with two blanks the access list and the VRF are missed. -/
theorem C72_blanks_fails : ∃ P, parse { factory := true }
      ["interface Gi0/1".toList, " ip  access-group A in".toList, " vrf  forwarding RED".toList] = .ok P ∧
    (ipv4AccessgroupIn P 0 == .ok [] && vrf P 0 == .ok [] && hasVrf P 0 == .ok false) = true :=
  of_shows (by decide +kernel)

/-! ## C73: flags -/

/-- C73: `is_shutdown` is true exactly if a line of the interface consists of one word that
starts with `shut`; `no shutdown` does not count. -/
theorem C73_shutdown (h : parse o lines = .ok P) (hn : ∀ l ∈ lines, '\n' ∉ l) (i : Nat) :
    ∃ b, isShutdown P i = .ok b ∧
      (b = true ↔ ∃ t ∈ Spec.family P i, ∃ w, splitWs t = [w] ∧ "shut".toList <+: w) :=
  begin_attr (sp := true) h hn i (by decide +kernel)

/-- C73: `has_mpls` is true exactly if the interface has the line `mpls ip`. -/
theorem C73_mpls (h : parse o lines = .ok P) (hn : ∀ l ∈ lines, '\n' ∉ l) (i : Nat) :
    ∃ b, hasMpls P i = .ok b ∧ (b = true ↔ ∃ t ∈ Spec.family P i, Spec.Exactly ["mpls", "ip"] t) :=
  flag_attr (pre := []) (l := gaps true ["mpls"]) (w := "ip".toList) (sp := false) h hn i (by decide +kernel)
    (fun t _ => .inl (by simp [gaps]))

/-- C73: `has_manual_speed` is true exactly if the interface has a line `speed` and a
number. -/
theorem C73_speed (h : parse o lines = .ok P) (hn : ∀ l ∈ lines, '\n' ∉ l) (i : Nat) :
    ∃ b, hasManualSpeed P i = .ok b ∧ (b = true ↔ ∃ t ∈ Spec.family P i, ∃ n, Spec.Number ["speed"] [] t n) := by
  obtain ⟨b, h1, h2⟩ := tail_flag h hn i (rx := "^\\s*speed\\s+(\\d+)$") (ind := false) (pre := gaps true ["speed"])
    (n := 1) (names := []) (tail_value 1 (k := .digit) trivial false (post := []) (by simp))
    (by decide +kernel) (fun t _ => .inl (by simp [gaps])) (by
      rintro t more v h1 ⟨rfl, _⟩
      exact (splitWs_words t v (by rw [h1]; simp)).1)
  refine ⟨b, h1, h2.trans ?_⟩
  constructor
  · rintro ⟨t, ht, -, more, v, a, rfl, b⟩
    exact ⟨t, ht, _, v, all_digits b (splitWs_words t v (by rw [a]; simp)).1, a, rfl⟩
  · rintro ⟨t, ht, _, v, a, b, -⟩
    exact ⟨t, ht, by simp, [v], v, b, rfl, List.all_eq_true.mpr a.2⟩

example : ∃ P, parse { factory := true } exLines = .ok P ∧
    (isShutdown P 0 == .ok true && isShutdown P 16 == .ok false && hasMpls P 0 == .ok true &&
      hasMpls P 16 == .ok false && hasManualSpeed P 0 == .ok false) = true :=
  of_shows (by decide +kernel)

end Cisco

import Verif.Asa.AclIcmp

/-! # ASA access list lines: the properties -/

namespace Asa

open Py Re Cisco
open Asa.Spec
open Cisco.Spec (wd)

/-! ## C118 -/

/-- **C118** What the attributes of a line say is what the words of the line say. -/
theorem C118_reads {t : Str} {r : AclResult} (h : resultDict t = .ok r) : Reads t r := by
  rw [resultDict] at h
  cases ha : aclLine t with
  | error e => rw [ha] at h; cases h
  | ok d =>
    obtain ⟨v, c, h1, rfl⟩ := aclLine_sem ha
    obtain ⟨r', h2, h3⟩ := acl_eval h1
    rw [ha] at h
    have : r = r' := by
      have h' : aclResult (dictOf c) = .ok r := h
      rw [h2] at h'
      cases h'
      rfl
    rw [this]
    exact h3

/-- **C118** No attribute of a line that was accepted raises. -/
theorem C118_total {t : Str} {d : List (Str × Option Str)} (h : aclLine t = .ok d) : ∃ r, resultDict t = .ok r := by
  obtain ⟨v, c, h1, rfl⟩ := aclLine_sem h
  obtain ⟨r, h2, _⟩ := acl_eval h1
  refine ⟨r, ?_⟩
  rw [resultDict, h]
  exact h2

/-- **C118** The list is the second word of the line. -/
theorem C118_name {t : Str} {r : AclResult} (h : resultDict t = .ok r) : ∃ x y more, splitWs t = x :: y :: more ∧ r.aclName = some y := by
  rcases C118_reads h with h | h | h | h
  · obtain ⟨pre, x, y, text, nl, name, h1, _, _, hx, ⟨p, b, h2, hb⟩, h3, rfl⟩ := h
    refine ⟨"access-list".toList, name, "remark".toList :: splitWs (x :: y :: text ++ nl), ?_, rfl⟩
    rw [h1, List.append_assoc, h2, List.append_assoc, List.singleton_append, splitWs_mid hb, ← h2, h3]
    rfl
  · obtain ⟨name, _, _, _, _, _, _, _, _, _, _, _, _, h1, _, _, _, _, _, _, _, _, _, _, _, _, h2, _⟩ := h
    exact ⟨_, name, _, h1, h2⟩
  · obtain ⟨name, _, _, h1, _, _, rfl⟩ := h
    exact ⟨_, name, _, h1, rfl⟩
  · obtain ⟨name, _, _, _, _, _, h1, _, _, _, _, _, _, _, h2, _⟩ := h
    exact ⟨_, name, _, h1, h2⟩

/-- A rule with a level and an interval. -/
example : resultDict (chars! "access-list OUT extended deny tcp object-group A range 1 9 host h eq 80 log errors interval 60 disable") =
    .ok ⟨6, some [], some (chars! "OUT"), some (chars! "deny"), none, chars! "object-group", chars! "network", true, none, true, 60,
      chars! "errors"⟩ := by
  rw [resultDict, aclLine_eq]
  decide +kernel

/-- A remark; a group of services; a standard list; a rule for ICMP. -/
example : (resultDict (chars! "access-list OUT remark do not log")).map (·.remark) = .ok (some (chars! "do not log")) ∧
    (resultDict (chars! "access-list OUT extended permit object-group G any4 any time-range T")).map
      (fun r => (r.ipProtocol, r.ipProtocolObject, r.timeRange)) = .ok (65535, some (chars! "G"), some (chars! "T")) ∧
    (resultDict (chars! "access-list OUT standard permit 10.0.0.0 255.0.0.0")).map (fun r => (r.ipProtocol, r.log)) = .ok (0, false) ∧
    (resultDict (chars! "access-list OUT extended permit icmp any any echo log")).map (fun r => (r.ipProtocol, r.log, r.logInterval)) =
      .ok (1, true, 300) := by
  simp only [resultDict, aclLine_eq]
  decide +kernel

/-! ## C119 -/

/-- **C119** A line that does not begin with a blank is accepted if and only if its words are those
of a remark, of an extended or a standard list, or of a list for ICMP. -/
theorem C119_accepts {t : Str} (ht : ∃ x, t.head? = some x ∧ isSpace x = false) :
    (∃ d, aclLine t = .ok d) ↔ ∃ r, Reads t r := by
  constructor
  · rintro ⟨d, h⟩
    obtain ⟨r, hr⟩ := C118_total h
    exact ⟨r, C118_reads hr⟩
  · rintro ⟨r, h⟩
    obtain ⟨v, c, h1⟩ := reads_sem ht h
    exact sem_aclLine h1

/-- **C119** Every other line is refused with `ValueError`. -/
theorem C119_refuses {t : Str} (h : (∀ r, ¬ Reads t r) ∨ ∀ x, t.head? = some x → isSpace x = true) : aclLine t = .error .valueError := by
  rw [aclLine_eq]
  cases hr : run t.length aclRgx t [] with
  | nil => rfl
  | cons q l =>
    exfalso
    have hs : Sem t.length aclRgx t q.1 q.2 := by rw [Sem, hr]; simp
    rcases h with h | h
    · obtain ⟨r, _, h1⟩ := acl_eval hs
      exact h r h1
    · obtain ⟨x, h1, h2⟩ := reads_beg hs
      rw [h x h1] at h2
      cases h2

/-- **C119** A line of a configuration of ASA that is not one of these is refused, whatever the configuration. -/
theorem C119_names {t name : Str} {more : List Str} (h : splitWs t = "access-list".toList :: name :: more)
    (hm : more.head? ∉ [some "remark".toList, some "extended".toList, some "standard".toList]) : aclLine t = .error .valueError := by
  refine C119_refuses (.inl ?_)
  rintro r (h' | h' | h' | h')
  · obtain ⟨pre, x, y, text, nl, name', h1, _, _, hx, ⟨p, b, h2, hb⟩, h3, rfl⟩ := h'
    rw [h1, List.append_assoc, h2, List.append_assoc, List.singleton_append, splitWs_mid hb, ← h2, h3] at h
    cases h
    exact hm (by simp [wd])
  · obtain ⟨name, _, _, _, _, _, _, _, _, _, _, _, _, h1, _⟩ := h'
    rw [h1] at h
    cases h
    exact hm (by simp)
  · obtain ⟨name, _, _, h1, _, _, rfl⟩ := h'
    rw [h1] at h
    cases h
    exact hm (by simp)
  · obtain ⟨name, _, _, _, _, _, h1, _⟩ := h'
    rw [h1] at h
    cases h
    exact hm (by simp [wd])

/-- Accepted; refused because of a word; refused because of a blank. -/
example : (∃ d, aclLine (chars! "access-list A extended permit 47 any host h inactive") = .ok d) ∧
    aclLine (chars! "access-list A line 1 extended permit ip any any") = .error .valueError ∧
    aclLine (chars! "access-list A extended permit tcp any any eq") = .error .valueError ∧
    aclLine (chars! " access-list A extended permit ip any any") = .error .valueError := by
  simp only [aclLine_eq]
  refine ⟨⟨_, rfl⟩, ?_, ?_, ?_⟩ <;> decide +kernel

/-- The hypotheses of `C119_names`. -/
example : splitWs (chars! "access-list A line 1 extended permit ip any any") =
      "access-list".toList :: chars! "A" :: wd ["line", "1", "extended", "permit", "ip", "any", "any"] ∧
    (wd ["line", "1", "extended", "permit", "ip", "any", "any"]).head? ∉
      [some "remark".toList, some "extended".toList, some "standard".toList] := by
  decide +kernel

/-! ## C120 -/

theorem plain_target {m : String} {dw : List Str} (h : Plain m dw) (R : List Str) : IcmpTarget m (dw ++ R) := by
  cases h with
  | group => exact .group
  | object => exact .object
  | any => exact .other (.any (u := []))
  | any4 => exact .other (.any (u := "4".toList))
  | host => exact .other .host
  | @net x m hm =>
    have := Target.net (x := x) (u := []) (more := R) hm
    rw [List.append_nil] at this
    exact .other this

/-- **C120** The attributes of a line for ICMP are what its words say, if the destination is not `any4`. -/
theorem C120_icmp_partial {t : Str} (ht : ∃ x, t.head? = some x ∧ isSpace x = false) {dw : List Str} {r : AclResult}
    (h : IcmpRule (splitWs t) dw r) (h4 : dw ≠ wd ["any4"]) : resultDict t = .ok r := by
  obtain ⟨name, act, src, sw, dst, ty, lw, xw, tw, hs, ha, hp, hd, hty, hl, hx, hw, r1, r2, r3, r4, r5, r6, r7⟩ := h
  have hn : IsWord name := splitWs_words t name (by rw [hs]; simp [firstWords])
  obtain ⟨w, v, es, et, b1, s1, g1, g2, s2, e2⟩ := icmp_first (name := name) (R := dw ++ (ty ++ (lw ++ (xw ++ tw)))) ht
    (by rw [hs]; simp only [List.append_assoc]) ha hp (plain_target hd _)
  rw [first_go g2]
  have hb : Beg (lstrip w) := beg_of (by
    rw [s1]
    cases hd <;> simp)
  obtain ⟨w1, ed, g3, b3, s3, s4, e4⟩ := go_dst (n := t.length) (b := 70) (R := ty ++ (lw ++ (xw ++ tw))) hb
    (by rw [splitWs_lstrip]; exact s1) hd h4
  obtain ⟨w2, et', g5, s6, l1, l2, l3, l4⟩ := go_tail (n := t.length) b3 s3 hty hl hx hw
  have g0 : Go t.length spR w (lstrip w) [] := by
    cases hq : splitWs w with
    | nil => rw [s1] at hq; cases hd <;> cases hq
    | cons x R' =>
      obtain ⟨w', g, _, _, e⟩ := go_sp (n := t.length) b1 hq
      rw [e]
      exact g
  have g6 : Go t.length (seqs (seqs [spR, addr2 70] :: icmpTail)) w w2 (et' ++ ed) := go_cons (go_two g0 g3) g5
  have he : et = et' ++ ed := by
    have g1' := g1
    rw [Go, Hit] at g1' g6
    rw [g1'] at g6
    cases g6
    rfl
  rw [he, icmp_result hn.1 ha s2 e2 s4 e4 s6 l2, l1, l3, l4, ← r3, ← r4, ← r5, ← r6]
  obtain ⟨_, _, _, _, _, _, _, _, _, _, _, _⟩ := r
  simp only at r1 r2 r7 ⊢
  rw [r1, r2, r7]

/-- **C120** The hypotheses hold of a rule with everything. -/
example : IcmpRule (splitWs (chars! "access-list A extended permit icmp any host h echo log 5 interval 60 disable time-range T")) (wd ["host", "h"])
    ⟨1, some [], some (chars! "A"), some (chars! "permit"), none, chars! "network", chars! "network", true, some (chars! "T"), true, 60,
      chars! "5"⟩ := by
  refine ⟨chars! "A", chars! "permit", "network", wd ["any"], "network", wd ["echo"], wd ["log", "5", "interval", "60"], wd ["disable"],
    wd ["time-range", "T"], by decide +kernel, by rw [Action]; decide, .any, .host, .name (by decide),
    Logs.both (l := chars! "5") (i := chars! "60") (by rw [Level]; decide) ⟨by decide, by decide⟩, .yes, .range, ?_⟩
  decide +kernel

/-- **C120** If the destination is `any4`, the words that follow it are lost: the rule is said to be
enabled at all times, with no messages, whatever the line says. -/
theorem C120_any4_fails {t : Str} (ht : ∃ x, t.head? = some x ∧ isSpace x = false) {r : AclResult}
    (h : IcmpRule (splitWs t) (wd ["any4"]) r) :
    resultDict t = .ok { r with log := false, logInterval := -1, logLevel := [], disable := false, timeRange := none } := by
  obtain ⟨name, act, src, sw, dst, ty, lw, xw, tw, hs, ha, hp, hd, hty, hl, hx, hw, r1, r2, r3, r4, r5, r6, r7⟩ := h
  have hn : IsWord name := splitWs_words t name (by rw [hs]; simp [firstWords])
  obtain ⟨w, v, es, et, b1, s1, g1, g2, s2, e2⟩ := icmp_first (name := name) (R := wd ["any4"] ++ (ty ++ (lw ++ (xw ++ tw)))) ht
    (by rw [hs]; simp only [List.append_assoc]) ha hp (plain_target hd _)
  rw [first_go g2]
  obtain ⟨w', g3, _, _, _⟩ := go_sp (n := t.length) b1 s1
  have g4 : Go t.length (addr2 70) ("any4".toList ++ w') ('4' :: w') [(70, "any".toList)] :=
    go_left (go_grp (x := "any".toList) (go_left (go_lit "any".toList ('4' :: w'))))
  have skip : ∀ {l : List Rgx}, ∀ v e, ¬ Sem t.length (seqs (spR :: l)) ('4' :: w') v e := by
    intro l v e h
    obtain ⟨_, _, _, h1, _⟩ := sem_cons.mp h
    obtain ⟨⟨g, h2, hg, hg'⟩, _⟩ := sem_sp.mp h1
    obtain ⟨x, g', rfl⟩ := List.exists_cons_of_ne_nil hg
    cases h2
    exact absurd (hg' '4' (by simp)) (by decide)
  have g5 : Go t.length (seqs icmpTail) ('4' :: w') ('4' :: w') [] := by
    refine go_append (l := [_]) (skip_opt skip) (go_append (l := [_]) (skip_opt skip) (go_append (l := [_]) (skip_opt skip) (l' := [_])
      (skip_opt ?_)))
    intro v e h
    rw [whenR, sem_alt] at h
    rcases h with h | h
    · exact skip v e h
    · exact skip v e h
  have g6 : Go t.length (seqs (seqs [spR, addr2 70] :: icmpTail)) w ('4' :: w') ([] ++ [(70, "any".toList)]) := go_cons (go_two g3 g4) g5
  have he : et = [] ++ [(70, "any".toList)] := by
    have g1' := g1
    rw [Go, Hit] at g1' g6
    rw [g1'] at g6
    cases g6
    rfl
  have hdst : dst = "network" := by
    generalize hq : wd ["any4"] = q at hd
    cases hd with
    | any4 => rfl
    | any => rfl
    | host => rfl
    | net => rfl
    | group => exact absurd hq (by simp [wd])
    | object => exact absurd hq (by simp [wd])
  subst hdst
  have s4 : Span 70 75 [(70, "any".toList)] := span_one (by omega) (by omega) (by simp)
  rw [he, icmp_result (dst := "network") (i := -1) (l := []) hn.1 ha s2 e2 s4 (.inr (.inr ⟨rfl, rfl, rfl, rfl⟩)) (span_nil 76 82) rfl,
    ← r3, ← r4, ← r5, ← r6]
  obtain ⟨_, _, _, _, _, _, _, _, _, _, _, _⟩ := r
  simp only at r1 r2 r7 ⊢
  rw [r1, r2, r7]
  rfl

/-- Such a line. -/
example : (resultDict (chars! "access-list A extended deny icmp any any4 log disable")).map (fun r => (r.log, r.disable)) =
    .ok (false, false) ∧
    (resultDict (chars! "access-list A extended deny icmp any any log disable")).map (fun r => (r.log, r.disable)) = .ok (true, true) := by
  simp only [resultDict, aclLine_eq]
  decide +kernel

end Asa

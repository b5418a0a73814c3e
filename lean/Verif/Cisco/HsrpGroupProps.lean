import Verif.Cisco.HsrpGroup
import Verif.Cisco.AccessLemmas
import Verif.Cisco.FactoryLemmas
import Verif.Query.Lemmas
import Verif.Cisco.Props

/-! # C123-C125: the HSRP groups of an interface -/

namespace Hsrp

open Py Conf Query Re Cisco

/-! ## Specification -/

namespace Spec

/-- `standby`, blanks, a number, blanks, `ip`. -/
def Mention (u : Str) : Prop :=
  ∃ s1 g s2 : Str, u = "standby".toList ++ (s1 ++ (g ++ (s2 ++ "ip".toList))) ∧
    s1 ≠ [] ∧ (∀ c ∈ s1, isSpace c = true) ∧ g ≠ [] ∧ (∀ c ∈ g, isDigit c = true) ∧
    s2 ≠ [] ∧ (∀ c ∈ s2, isSpace c = true)

/-- The line has such a piece in it. -/
def Mentions (t : Str) : Prop := ∃ u, Mention u ∧ u <:+: t

/-- The words of a line in small letters. -/
def low (t : Str) : List Str := splitWs (t.map lowerChar)

/-- The words behind `ws` in the first of the lines whose words begin with `ws`. -/
inductive First (ws : List Str) : List Str → Option (List Str) → Prop
  | none : First ws [] none
  | here {t ts l} : low t = ws ++ l → First ws (t :: ts) (some l)
  | later {t ts v} : (¬ ∃ l, low t = ws ++ l) → First ws ts v → First ws (t :: ts) v

/-- `standby`, the number of the group, and more words. -/
def group (g : Int) (l : List String) : List Str := "standby".toList :: intStr g :: l.map String.toList

/-- The lines of an interface. -/
def kids (P : Parsed) (i : Nat) : List Str := (P.h i).children.map (fun c => (P.h c).text)

end Spec

/-! ## C123 -/

theorem infix_lstrip {c : Char} {p : Str} (hc : isSpace c = false) (t : Str) : c :: p <:+: t ↔ c :: p <:+: lstrip t := by
  induction t with
  | nil => rfl
  | cons x t ih =>
    by_cases hx : isSpace x = true
    · rw [lstrip, List.dropWhile_cons_of_pos hx, ← lstrip, ← ih, List.infix_cons_iff]
      refine ⟨fun h => ?_, .inr⟩
      rcases h with ⟨r, h⟩ | h
      · rw [List.cons_append] at h
        rw [(List.cons.inj h).1, hx] at hc; cases hc
      · exact h
    · rw [lstrip, List.dropWhile_cons_of_neg hx]

theorem infix_rstrip {c : Char} {p : Str} (hc : isSpace c = false) (t : Str) : p ++ [c] <:+: t ↔ p ++ [c] <:+: rstrip t := by
  rw [← List.reverse_infix, ← List.reverse_infix (l₂ := rstrip t), rstrip, List.reverse_reverse, List.reverse_append]
  exact infix_lstrip hc _

theorem mentions_strip (t : Str) : Spec.Mentions (strip t) ↔ Spec.Mentions t := by
  refine exists_congr (fun u => and_congr_right ?_)
  rintro ⟨s1, g, s2, rfl, _⟩
  rw [strip]
  refine (infix_lstrip (c := 's') (p := "tandby".toList ++ (s1 ++ (g ++ (s2 ++ "ip".toList)))) (by decide) _).symm.trans ?_
  have e : 's' :: ("tandby".toList ++ (s1 ++ (g ++ (s2 ++ "ip".toList)))) =
      ("standby".toList ++ (s1 ++ (g ++ (s2 ++ ['i'])))) ++ ['p'] := by simp
  rw [e, ← infix_rstrip (by decide)]
  have e2 : "standby".toList ++ (s1 ++ (g ++ (s2 ++ "ip".toList))) =
      ("standby".toList ++ (s1 ++ (g ++ (s2 ++ ['i'])))) ++ ['p'] := by simp
  rw [e2]

theorem mention_re (t : Str) : ∃ b, reTrue "standby\\s+(?P<group>\\d+)\\s+ip" t = .ok b ∧ (b = true ↔ Spec.Mentions t) := by
  have hc : compile "standby\\s+(?P<group>\\d+)\\s+ip" = .ok ⟨seqs ((str "standby".toList (.plus .space
      (.grp 1 (.plus .digit .done) (.plus .space (str "ip".toList .done))))).toL), 1, [("group".toList, 1)]⟩ := by decide +kernel
  obtain ⟨b, h1, h2⟩ := reTrue_lang hc t
  refine ⟨b, h1, h2.trans ?_⟩
  constructor
  · rintro ⟨a, u, v, rfl, h⟩
    obtain ⟨r, rfl, h⟩ := (lang_str ..).mp h
    rw [Prog.toL, lang_cons] at h
    obtain ⟨w1, h3, h4⟩ := h
    obtain ⟨s1, rfl, n1, a1⟩ := (lang_plus ..).mp h3
    rw [Prog.toL, lang_cons] at h4
    obtain ⟨w2, h5, h6⟩ := h4
    rw [Lang, Prog.toL, lang_cons] at h5
    obtain ⟨w3, h7, h8⟩ := h5
    obtain ⟨g, rfl, n2, a2⟩ := (lang_plus ..).mp h7
    obtain rfl := (lang_nil ..).mp h8
    rw [Prog.toL, lang_cons] at h6
    obtain ⟨w4, h9, h10⟩ := h6
    obtain ⟨s2, rfl, n3, a3⟩ := (lang_plus ..).mp h9
    obtain ⟨r, rfl, h11⟩ := (lang_str ..).mp h10
    exact ⟨_, ⟨s1, g, s2, rfl, n1, a1, n2, a2, n3, a3⟩, a, r, by simp⟩
  · rintro ⟨u, ⟨s1, g, s2, rfl, k1, k2, k3, k4, k5, k6⟩, a, v, rfl⟩
    refine ⟨a, _, v, by rw [List.append_assoc], ?_⟩
    rw [List.append_assoc, lang_str]
    refine ⟨_, rfl, ?_⟩
    rw [Prog.toL, lang_cons]
    refine ⟨g ++ (s2 ++ "ip".toList) ++ v, (lang_plus ..).mpr ⟨s1, by simp, k1, k2⟩, ?_⟩
    rw [Prog.toL, lang_cons]
    refine ⟨s2 ++ "ip".toList ++ v, ?_, ?_⟩
    · rw [Lang, Prog.toL, lang_cons]
      exact ⟨_, (lang_plus ..).mpr ⟨g, by simp, k3, k4⟩, rfl⟩
    · rw [Prog.toL, lang_cons]
      refine ⟨"ip".toList ++ v, (lang_plus ..).mpr ⟨s2, by simp, k5, k6⟩, ?_⟩
      rw [lang_str]
      exact ⟨v, rfl, rfl⟩

theorem numbers_cons (t : Str) (ts : List Str) :
    (¬ Spec.Mentions t → hsrpNumbers (t :: ts) = hsrpNumbers ts) ∧
    (Spec.Mentions t → ∀ w, (splitWs t)[1]? = some w →
      hsrpNumbers (t :: ts) = (do let g ← pyInt w; .ok (g :: (← hsrpNumbers ts)))) := by
  obtain ⟨b, h1, h2⟩ := mention_re (strip t)
  rw [mentions_strip] at h2
  constructor
  · intro h
    rw [hsrpNumbers, h1]
    cases b with
    | true => exact absurd (h2.mp rfl) h
    | false => rfl
  · intro h w hw
    obtain rfl := h2.mpr h
    rw [hsrpNumbers, h1]
    simp only [hw]
    rfl

theorem numbers_ok {ts : List Str} (h : ∀ t ∈ ts, Spec.Mentions t → ∃ n, (splitWs t)[1]? = some n ∧ allDigits n = true) :
    ∃ gs, hsrpNumbers ts = .ok gs ∧ ∀ g : Int, g ∈ gs ↔ ∃ t ∈ ts, Spec.Mentions t ∧ ∃ n, (splitWs t)[1]? = some n ∧ g = natVal n := by
  induction ts with
  | nil => exact ⟨[], rfl, by simp⟩
  | cons t ts ih =>
    obtain ⟨gs, h1, h2⟩ := ih (fun t ht => h t (by simp [ht]))
    by_cases hm : Spec.Mentions t
    · obtain ⟨n, hn, hd⟩ := h t (by simp) hm
      refine ⟨natVal n :: gs, ?_, ?_⟩
      · rw [(numbers_cons t ts).2 hm n hn, pyInt_digits hd, h1]; rfl
      · intro g
        rw [List.mem_cons, h2]
        constructor
        · rintro (rfl | ⟨t', h3, h4⟩)
          · exact ⟨t, by simp, hm, n, hn, rfl⟩
          · exact ⟨t', by simp [h3], h4⟩
        · rintro ⟨t', h3, h4, m, h5, rfl⟩
          rcases List.mem_cons.mp h3 with rfl | h3
          · rw [hn] at h5; cases h5; exact .inl rfl
          · exact .inr ⟨t', h3, h4, m, h5, rfl⟩
    · refine ⟨gs, by rw [(numbers_cons t ts).1 hm, h1], ?_⟩
      intro g
      rw [h2]
      constructor
      · rintro ⟨t', h3, h4⟩; exact ⟨t', by simp [h3], h4⟩
      · rintro ⟨t', h3, h4⟩
        rcases List.mem_cons.mp h3 with rfl | h3
        · exact absurd h4.1 hm
        · exact ⟨t', h3, h4⟩

/-- C123: `hsrp_interfaces` gives every group once, in increasing order: the numbers that are the
second word of a line with `standby <number> ip` in it, if all these second words are numbers. -/
theorem C123_groups_partial {P : Parsed} {i : Nat}
    (h : ∀ t ∈ Spec.kids P i, Spec.Mentions t → ∃ n, (splitWs t)[1]? = some n ∧ allDigits n = true) :
    ∃ gs, hsrpInterfaces P i = .ok gs ∧ gs.Pairwise (· < ·) ∧
      ∀ g : Int, g ∈ gs ↔ ∃ t ∈ Spec.kids P i, Spec.Mentions t ∧ ∃ n, (splitWs t)[1]? = some n ∧ g = natVal n := by
  obtain ⟨gs, h1, h2⟩ := numbers_ok h
  have he : ∀ a b : Int, (a == b) = true ↔ a = b := fun a b => beq_iff_eq
  refine ⟨_, by rw [hsrpInterfaces]; erw [h1]; rfl, ?_, ?_⟩
  · have hs := sortBy_sorted (le := fun a b : Int => decide (a ≤ b)) (fun a b => by simp only [decide_eq_true_eq]; omega)
      (fun a b c => by simp only [decide_eq_true_eq]; omega) (dedupBy (fun a b => a == b) gs)
    have hn : (sortBy (fun a b : Int => decide (a ≤ b)) (dedupBy (fun a b => a == b) gs)).Nodup :=
      (sortBy_perm _ _).nodup_iff.mpr (nodup_dedupBy_of_eq he)
    refine List.Pairwise.imp ?_ (List.pairwise_and_iff.mpr ⟨hs, hn⟩)
    rintro a b ⟨h3, h4⟩
    rw [decide_eq_true_eq] at h3
    have : a ≠ b := h4
    omega
  · intro g
    rw [mem_sortBy, mem_dedupBy_of_eq he]
    exact h2 g

theorem pyInt_error {w : Str} {e : Err} (h : pyInt w = .error e) : e = .valueError := by
  unfold pyInt at h
  split at h
  · cases h; rfl
  · split at h
    · split at h <;> cases h; rfl
    · split at h
      · split at h <;> cases h; rfl
      · split at h <;> cases h; rfl

theorem splitWs_mid {b : Char} (hb : isSpace b = true) (p s : Str) : splitWs (p ++ b :: s) = splitWs (p ++ [b]) ++ splitWs s := by
  have key : ∀ (p acc : Str), splitWsAux (p ++ b :: s) acc = splitWsAux (p ++ [b]) acc ++ splitWs s := by
    intro p
    induction p with
    | nil =>
      intro acc
      simp only [List.nil_append, splitWsAux, hb, if_true]
      cases acc <;> rfl
    | cons a p ih =>
      intro acc
      simp only [List.cons_append, splitWsAux]
      split
      · split
        · exact ih []
        · rw [ih [], List.cons_append]
      · exact ih _
  exact key p []

theorem nonblank {c : Char} {t : Str} (hc : c ∈ t) (hs : isSpace c = false) : splitWs t ≠ [] := by
  rw [Ne, splitWs_eq_nil, List.all_eq_true]
  intro h
  rw [h c hc] at hs; cases hs

theorem mentions_second {t : Str} (h : Spec.Mentions t) : ∃ w, (splitWs t)[1]? = some w := by
  obtain ⟨u, ⟨s1, g, s2, rfl, h1, h2, h3, h4, _⟩, a, v, rfl⟩ := h
  obtain ⟨x, s1, rfl⟩ := List.exists_cons_of_ne_nil h1
  obtain ⟨y, g, rfl⟩ := List.exists_cons_of_ne_nil h3
  have e : a ++ ("standby".toList ++ (x :: s1 ++ (y :: g ++ (s2 ++ "ip".toList)))) ++ v =
      (a ++ "standby".toList) ++ x :: (s1 ++ (y :: g ++ (s2 ++ "ip".toList)) ++ v) := by simp
  rw [e, splitWs_mid (h2 x (by simp))]
  obtain ⟨p, ps, hp⟩ := List.exists_cons_of_ne_nil
    (nonblank (c := 's') (t := (a ++ "standby".toList) ++ [x]) (by simp) (by decide))
  obtain ⟨q, qs, hq⟩ := List.exists_cons_of_ne_nil
    (nonblank (c := y) (t := s1 ++ (y :: g ++ (s2 ++ "ip".toList)) ++ v) (by simp) (digit_not_space (h4 y (by simp))))
  rw [hp, hq]
  cases ps <;> exact ⟨_, rfl⟩

theorem not_int {c : Char} {r : Str} (hw : IsWord (c :: r)) (hd : isDigit c = false) (hp : c ≠ '+') (hm : c ≠ '-') :
    pyInt (c :: r) = .error .valueError := by
  have hs : strip (c :: r) = c :: r := strip_of_noSpace hw.2
  have hu : unsignedLit (c :: r) = none := by
    rw [unsignedLit, splitOn]
    split
    · rfl
    · split <;> simp [allDigits, hd]
  unfold pyInt
  rw [hs]
  simp only [if_neg hp, if_neg hm, hu]

theorem numbers_error {ts : List Str} {t c : Str} (ht : t ∈ ts) (hm : Spec.Mentions t) (hw : (splitWs t)[1]? = some c)
    (he : pyInt c = .error .valueError) : hsrpNumbers ts = .error .valueError := by
  induction ts with
  | nil => cases ht
  | cons x ts ih =>
    by_cases hx : Spec.Mentions x
    · obtain ⟨w, h1⟩ := mentions_second hx
      rw [(numbers_cons x ts).2 hx w h1]
      cases hi : pyInt w with
      | error e => rw [pyInt_error hi]; rfl
      | ok n =>
        rcases List.mem_cons.mp ht with rfl | ht
        · rw [hw] at h1; cases h1; rw [hi] at he; cases he
        · rw [ih ht]; rfl
    · rw [(numbers_cons x ts).1 hx]
      rcases List.mem_cons.mp ht with rfl | ht
      · exact absurd hm hx
      · exact ih ht

/-- C123 does not hold for every interface: one line with `standby <number> ip` further behind, such as a
`description` or `no standby 1 ip`, is enough to raise a `ValueError`. -/
theorem C123_raises_fails {P : Parsed} {i : Nat} {t r : Str} {c : Char} (ht : t ∈ Spec.kids P i) (hm : Spec.Mentions t)
    (hw : (splitWs t)[1]? = some (c :: r)) (hc : isDigit c = false ∧ c ≠ '+' ∧ c ≠ '-') :
    hsrpInterfaces P i = .error .valueError := by
  have he := numbers_error ht hm hw (not_int (splitWs_words t _ (List.mem_of_getElem? hw)) hc.1 hc.2.1 hc.2.2)
  rw [hsrpInterfaces]
  erw [he]
  rfl

/-! ## C124 -/

theorem lowParts_eq (t : Str) : lowParts t = Spec.low t := by
  rw [lowParts, Spec.low, strip, splitWs_lstrip, splitWs_rstrip]

theorem begin_iff (ws p : List Str) : partsBegin ws p = true ↔ ∃ l, p = ws ++ l := by
  rw [partsBegin, beq_iff_eq]
  constructor
  · intro h; exact ⟨p.drop ws.length, by conv => lhs; rw [← List.take_append_drop ws.length p, h]⟩
  · rintro ⟨l, rfl⟩; rw [List.take_left']; rfl

theorem first_find {ws : List Str} {ts : List Str} {v : Option (List Str)} (h : Spec.First ws ts v) (f : List Str → Bool)
    (hf : ∀ t ∈ ts, f (Spec.low t) = partsBegin ws (Spec.low t)) :
    (ts.map lowParts).find? f = v.map (fun l => ws ++ l) := by
  induction h with
  | none => rfl
  | @here t ts l h =>
    rw [List.map_cons, List.find?_cons_of_pos]
    · rw [lowParts_eq, h]; rfl
    · rw [lowParts_eq, hf t (by simp)]
      exact (begin_iff _ _).mpr ⟨l, h⟩
  | @later t ts v h _ ih =>
    rw [List.map_cons, List.find?_cons_of_neg]
    · exact ih (fun t ht => hf t (by simp [ht]))
    · rw [lowParts_eq, hf t (by simp), begin_iff]
      exact h

theorem firstParts_eq (P : Parsed) (i : Nat) (f : List Str → Bool) :
    firstParts P i f = ((Spec.kids P i).map lowParts).find? f := by
  rw [firstParts, Spec.kids, List.map_map]; rfl

theorem first_parts {ws : List Str} {P : Parsed} {i : Nat} {v : Option (List Str)} (h : Spec.First ws (Spec.kids P i) v) :
    firstParts P i (partsBegin ws) = v.map (fun l => ws ++ l) := by
  rw [firstParts_eq]
  exact first_find h _ (fun _ _ => rfl)

theorem first_total (ws ts : List Str) : ∃ v, Spec.First ws ts v := by
  induction ts with
  | nil => exact ⟨_, .none⟩
  | cons t ts ih =>
    obtain ⟨v, hv⟩ := ih
    by_cases h : ∃ l, Spec.low t = ws ++ l
    · obtain ⟨l, h⟩ := h; exact ⟨_, .here h⟩
    · exact ⟨_, .later h hv⟩

theorem back_last (ws l : List Str) (a : Str) : partBack (ws ++ (l ++ [a])) 1 = .ok a := by
  rw [partBack, ← List.append_assoc, List.reverse_append]; rfl

theorem first_iff {ws ts : List Str} {v : Option (List Str)} (h : Spec.First ws ts v) :
    v.isSome = true ↔ ∃ t ∈ ts, ∃ l, Spec.low t = ws ++ l := by
  induction h with
  | none => simp
  | @here t ts l h => exact ⟨fun _ => ⟨t, by simp, l, h⟩, fun _ => rfl⟩
  | @later t ts v h _ ih =>
    rw [ih]
    constructor
    · rintro ⟨t', h1, h2⟩; exact ⟨t', by simp [h1], h2⟩
    · rintro ⟨t', h1, h2⟩
      rcases List.mem_cons.mp h1 with rfl | h1
      · exact absurd h2 h
      · exact ⟨t', h1, h2⟩

theorem first_mem {ws ts l : List Str} (h : Spec.First ws ts (some l)) : ∃ t ∈ ts, Spec.low t = ws ++ l := by
  generalize hv : some l = v at h
  induction h with
  | none => cases hv
  | @here t ts l' h => cases hv; exact ⟨t, by simp, h⟩
  | @later t ts v h _ ih =>
    obtain ⟨t', h1, h2⟩ := ih hv
    exact ⟨t', by simp [h1], h2⟩

/-- C124: the priority is the number in the first `standby <group> priority` line, 100 without one. -/
theorem C124_priority (P : Parsed) (i : Nat) (g : Int) :
    (Spec.First (Spec.group g ["priority"]) (Spec.kids P i) none → groupPriority P i g = .ok 100) ∧
    (∀ n l, Spec.First (Spec.group g ["priority"]) (Spec.kids P i) (some (n :: l)) → allDigits n = true →
      groupPriority P i g = .ok (natVal n)) := by
  refine ⟨fun h => ?_, fun n l h hn => ?_⟩
  · have := first_parts h
    rw [groupPriority]; erw [this]; rfl
  · have := first_parts h
    rw [groupPriority]; erw [this]
    show pyInt n = _
    exact pyInt_digits hn

/-- C124: the version is the last word of the first `standby version` line, 1 without one. -/
theorem C124_version (P : Parsed) (i : Nat) :
    (Spec.First ["standby".toList, "version".toList] (Spec.kids P i) none → groupVersion P i = .ok 1) ∧
    (∀ n l, Spec.First ["standby".toList, "version".toList] (Spec.kids P i) (some (l ++ [n])) → allDigits n = true →
      groupVersion P i = .ok (natVal n)) := by
  refine ⟨fun h => ?_, fun n l h hn => ?_⟩
  · rw [groupVersion, first_parts h]; rfl
  · rw [groupVersion, first_parts h]
    simp only [Option.map_some]
    rw [back_last]
    exact pyInt_digits hn

/-- C124: the group preempts exactly if there is a `standby <group> preempt` line. -/
theorem C124_preempt (P : Parsed) (i : Nat) (g : Int) :
    groupPreempt P i g = true ↔ ∃ t ∈ Spec.kids P i, ∃ l, Spec.low t = Spec.group g ["preempt"] ++ l := by
  obtain ⟨v, hv⟩ := first_total (Spec.group g ["preempt"]) (Spec.kids P i)
  rw [← first_iff hv, groupPreempt]
  erw [first_parts hv]
  cases v <;> simp

/-- C124: the IPv4 address is the last word of the first `standby <group> ip` line. -/
theorem C124_ipv4 (P : Parsed) (i : Nat) (g : Int) {l : List Str} {a : Str} (fuel : Nat)
    (h : Spec.First (Spec.group g ["ip"]) (Spec.kids P i) (some (l ++ [a]))) :
    groupIpv4 P i g (fuel + 1) = .ok a := by
  rw [groupIpv4]
  erw [first_parts h]
  exact back_last _ _ _

/-- C124: the IPv6 address is the last word of the first `standby <group> ipv6` line, the empty string
without one; `has_ipv6` tells whether there is one. -/
theorem C124_ipv6 (P : Parsed) (i : Nat) (g : Int) :
    (Spec.First (Spec.group g ["ipv6"]) (Spec.kids P i) none → groupIpv6 P i g = .ok []) ∧
    (∀ a l, Spec.First (Spec.group g ["ipv6"]) (Spec.kids P i) (some (l ++ [a])) → groupIpv6 P i g = .ok a) ∧
    ∃ b, groupHasIpv6 P i g = .ok b ∧
      (b = true ↔ ∃ t ∈ Spec.kids P i, ∃ l, Spec.low t = Spec.group g ["ipv6"] ++ l) := by
  have h1 : Spec.First (Spec.group g ["ipv6"]) (Spec.kids P i) none → groupIpv6 P i g = .ok [] := fun h => by
    rw [groupIpv6]; erw [first_parts h]; rfl
  have h2 : ∀ a l, Spec.First (Spec.group g ["ipv6"]) (Spec.kids P i) (some (l ++ [a])) → groupIpv6 P i g = .ok a := fun a l h => by
    rw [groupIpv6]; erw [first_parts h]; exact back_last _ _ _
  refine ⟨h1, h2, ?_⟩
  obtain ⟨v, hv⟩ := first_total (Spec.group g ["ipv6"]) (Spec.kids P i)
  rw [← first_iff hv, groupHasIpv6]
  cases v with
  | none => rw [h1 hv]; exact ⟨_, rfl, by simp⟩
  | some l =>
    rcases List.eq_nil_or_concat l with rfl | ⟨l, a, rfl⟩
    · have : groupIpv6 P i g = .ok "ipv6".toList := by rw [groupIpv6]; erw [first_parts hv]; rfl
      rw [this]; exact ⟨_, rfl, by decide⟩
    · rw [List.concat_eq_append] at hv
      rw [h2 a l hv]
      refine ⟨_, rfl, ?_⟩
      have hne : a ≠ [] := by
        obtain ⟨t, _, ht⟩ := first_mem hv
        exact (splitWs_words (t.map lowerChar) a (by rw [← Spec.low, ht]; simp)).1
      cases a with
      | nil => exact absurd rfl hne
      | cons x a => simp

/-- C124: the name of the interface is its words behind the first one. -/
theorem C124_name (P : Parsed) (i : Nat) {w : Str} {ws : List Str} (h : splitWs (P.h i).text = w :: ws) :
    groupInterfaceName P i = join [' '] ws := by
  rw [groupInterfaceName, strip, splitWs_lstrip, splitWs_rstrip, h]; rfl

/-- C124: the hello timer is the word behind `msec` in the first `standby <group> timers` line, else the
first of its two numbers; 3 seconds without one. -/
theorem C124_hello (P : Parsed) (i : Nat) (g : Int) :
    (Spec.First (Spec.group g ["timers"]) (Spec.kids P i) none → groupHello P i g = .ok (.sec 3)) ∧
    (∀ n l, Spec.First (Spec.group g ["timers"]) (Spec.kids P i) (some ("msec".toList :: n :: l)) → allDigits n = true →
      groupHello P i g = .ok (.msec (natVal n))) ∧
    (∀ n m, Spec.First (Spec.group g ["timers"]) (Spec.kids P i) (some [n, m]) → allDigits n = true →
      groupHello P i g = .ok (.sec (natVal n))) := by
  have hf : ∀ {v}, Spec.First (Spec.group g ["timers"]) (Spec.kids P i) v →
      firstParts P i (fun p => partsBegin (standby g ["timers", "msec"]) p || partsBegin (standby g ["timers"]) p) =
        v.map (fun l => Spec.group g ["timers"] ++ l) := by
    intro v h
    rw [firstParts_eq]
    refine first_find h _ (fun t _ => ?_)
    rw [Bool.eq_iff_iff, Bool.or_eq_true]
    constructor
    · rintro (h | h)
      · obtain ⟨l, hl⟩ := (begin_iff _ _).mp h
        exact (begin_iff _ _).mpr ⟨"msec".toList :: l, hl⟩
      · exact h
    · exact .inr
  refine ⟨fun h => ?_, fun n l h hn => ?_, fun n m h hn => ?_⟩
  · rw [groupHello, hf h]; rfl
  · rw [groupHello, hf h]
    simp only [Option.map_some]
    have hp : partsBegin (standby g ["timers", "msec"]) (Spec.group g ["timers"] ++ "msec".toList :: n :: l) = true :=
      (begin_iff _ _).mpr ⟨n :: l, rfl⟩
    rw [if_pos hp]
    show (do .ok (.msec (← pyInt n)) : Except Err Timer) = _
    rw [pyInt_digits hn]; rfl
  · rw [groupHello, hf h]
    simp only [Option.map_some]
    rw [if_neg]
    · show (do .ok (.sec (← pyInt n)) : Except Err Timer) = _
      rw [pyInt_digits hn]; rfl
    · rw [begin_iff]
      rintro ⟨l, hl⟩
      have : n = "msec".toList := (List.cons.inj (List.cons.inj (List.cons.inj (List.cons.inj hl).2).2).2).1
      rw [this] at hn
      exact absurd hn (by decide)

/-- C124: the hold timer is the last number of the first `standby <group> timers` line, in milliseconds
behind `msec`; 10 seconds without one.  Other lines of the group do not have `msec` as their last word
but one. -/
theorem C124_hold (P : Parsed) (i : Nat) (g : Int)
    (hk : ∀ t ∈ Spec.kids P i, ∀ l b, Spec.low t = Spec.group g [] ++ l → (∃ a, Spec.low t = a ++ ["msec".toList, b]) →
      l.head? = some "timers".toList) :
    (Spec.First (Spec.group g ["timers"]) (Spec.kids P i) none → groupHold P i g = .ok (.sec 10)) ∧
    (∀ n l, Spec.First (Spec.group g ["timers"]) (Spec.kids P i) (some (l ++ ["msec".toList, n])) → allDigits n = true →
      groupHold P i g = .ok (.msec (natVal n))) ∧
    (∀ n l, Spec.First (Spec.group g ["timers"]) (Spec.kids P i) (some (l ++ [n])) → l.getLast? ≠ some "msec".toList →
      allDigits n = true → groupHold P i g = .ok (.sec (natVal n))) := by
  have hb : ∀ p : List Str, p.reverse[1]? = some "msec".toList ↔ ∃ a b, p = a ++ ["msec".toList, b] := by
    intro p
    constructor
    · intro h
      cases hr : p.reverse with
      | nil => rw [hr] at h; cases h
      | cons b r =>
        cases r with
        | nil => rw [hr] at h; cases h
        | cons m r =>
          rw [hr] at h
          have hm : m = "msec".toList := by simpa using h
          refine ⟨r.reverse, b, ?_⟩
          rw [← List.reverse_reverse p, hr, hm]; simp
    · rintro ⟨a, b, rfl⟩; simp
  have hf : ∀ {v}, Spec.First (Spec.group g ["timers"]) (Spec.kids P i) v →
      firstParts P i (fun p => holdMsec g p || partsBegin (standby g ["timers"]) p) =
        v.map (fun l => Spec.group g ["timers"] ++ l) := by
    intro v h
    rw [firstParts_eq]
    refine first_find h _ (fun t ht => ?_)
    rw [Bool.eq_iff_iff, Bool.or_eq_true]
    constructor
    · rintro (h | h)
      · rw [holdMsec, Bool.and_eq_true, begin_iff, beq_iff_eq, hb] at h
        obtain ⟨⟨l, hl⟩, a, b, hab⟩ := h
        have := hk t ht l b hl ⟨a, hab⟩
        cases l with
        | nil => cases this
        | cons x l =>
          cases this
          exact (begin_iff _ _).mpr ⟨l, hl⟩
      · exact h
    · exact .inr
  refine ⟨fun h => ?_, fun n l h hn => ?_, fun n l h hl hn => ?_⟩
  · rw [groupHold, hf h]; rfl
  · rw [groupHold, hf h]
    simp only [Option.map_some]
    rw [if_pos]
    · have := back_last (Spec.group g ["timers"]) (l ++ ["msec".toList]) n
      rw [List.append_assoc] at this
      erw [this]
      show (do .ok (.msec (← pyInt n)) : Except Err Timer) = _
      rw [pyInt_digits hn]; rfl
    · rw [holdMsec, Bool.and_eq_true, begin_iff, beq_iff_eq, hb]
      exact ⟨⟨"timers".toList :: (l ++ ["msec".toList, n]), rfl⟩, Spec.group g ["timers"] ++ l, n, by rw [List.append_assoc]⟩
  · rw [groupHold, hf h]
    simp only [Option.map_some]
    rw [if_neg]
    · rw [back_last]
      show (do .ok (.sec (← pyInt n)) : Except Err Timer) = _
      rw [pyInt_digits hn]; rfl
    · rw [holdMsec, Bool.and_eq_true, begin_iff, beq_iff_eq, hb]
      rintro ⟨_, a, b, hab⟩
      have e : (Spec.group g ["timers"] ++ l) ++ [n] = (a ++ ["msec".toList]) ++ [b] := by simpa using hab
      have e' := (List.append_inj' e rfl).1
      rcases List.eq_nil_or_concat l with rfl | ⟨l, x, rfl⟩
      · have := congrArg List.getLast? e'
        rw [List.getLast?_append] at this
        simp [Spec.group] at this
      · rw [List.concat_eq_append, List.getLast?_append] at hl
        rw [List.concat_eq_append, ← List.append_assoc] at e'
        have := (List.append_inj' e' rfl).2
        cases this
        simp at hl

/-- C124: the group uses the burned-in address exactly if some line has `use-bia` in it. -/
theorem C124_use_bia (P : Parsed) (i : Nat) :
    groupUseBia P i = true ↔ ∃ t ∈ Spec.kids P i, "use-bia".toList <:+: t := by
  rw [groupUseBia, List.any_eq_true, Spec.kids]
  constructor
  · rintro ⟨c, hc, h⟩; exact ⟨_, List.mem_map_of_mem hc, (isInfix_iff _ _).mp h⟩
  · rintro ⟨t, ht, h⟩
    obtain ⟨c, hc, rfl⟩ := List.mem_map.mp ht
    exact ⟨c, hc, (isInfix_iff _ _).mpr h⟩

/-! ## C125 -/

/-- C125 fails: the preempt delay is always 0. -/
theorem C125_delay_fails (P : Parsed) (i : Nat) (g : Int) : groupPreemptDelay P i g = .ok 0 := by
  have : firstParts P i (fun p => p.take 4 == standby g ["preempt", "delay", "minimum"]) = none := by
    rw [firstParts, List.find?_eq_none]
    intro p _
    rw [beq_iff_eq]
    intro h
    have := congrArg List.length h
    rw [List.length_take] at this
    have e : (standby g ["preempt", "delay", "minimum"]).length = 5 := rfl
    omega
  rw [groupPreemptDelay, this]

/-- C125 fails: without a `standby <group> ip` line, `ipv4` does not raise the `ValueError`, whatever the
depth of the recursion is limited to. -/
theorem C125_ipv4_fails (P : Parsed) (i : Nat) (g : Int) (h : Spec.First (Spec.group g ["ip"]) (Spec.kids P i) none)
    (hv : Spec.First ["standby".toList, "version".toList] (Spec.kids P i) none ∨
      ∃ l n, Spec.First ["standby".toList, "version".toList] (Spec.kids P i) (some (l ++ [n])) ∧ allDigits n = true) (fuel : Nat) : groupIpv4 P i g fuel = .error .recursionError := by
  obtain ⟨n, hv⟩ : ∃ n, groupVersion P i = .ok n := by
    rcases hv with hv | ⟨l, n, hv, hn⟩
    · exact ⟨_, (C124_version P i).1 hv⟩
    · exact ⟨_, (C124_version P i).2 n l hv hn⟩
  induction fuel with
  | zero => rfl
  | succ fuel ih =>
    rw [groupIpv4]
    erw [first_parts h]
    simp only [Option.map_none]
    rw [hv, ih]; rfl

/-- C125 fails: for a line `standby <group> ip <address> secondary`, `ipv4` is not the address. -/
theorem C125_secondary_fails (P : Parsed) (i : Nat) (g : Int) {a : Str} (fuel : Nat)
    (h : Spec.First (Spec.group g ["ip"]) (Spec.kids P i) (some [a, "secondary".toList])) :
    groupIpv4 P i g (fuel + 1) = .ok "secondary".toList :=
  C124_ipv4 P i g (l := [a]) fuel h

/-- C125 fails: no group has an authentication key. -/
theorem C125_md5_fails : groupKeychain = .ok [] ∧ groupHasMd5 = .ok false := by
  have : groupKeychain = .ok [] := by decide +kernel
  refine ⟨this, ?_⟩
  rw [groupHasMd5, this]; rfl

/-! ## A sample -/

theorem first_of {ws ts : List Str} {v : Option (List Str)}
    (h : (ts.map lowParts).find? (partsBegin ws) = v.map (fun l => ws ++ l)) : Spec.First ws ts v := by
  obtain ⟨v', hv⟩ := first_total ws ts
  rw [first_find hv _ (fun _ _ => rfl)] at h
  cases v <;> cases v'
  · exact hv
  · cases h
  · cases h
  · have := Option.some.inj h
    rw [List.append_cancel_left_eq] at this
    rw [← this]; exact hv

def sample : List Str :=
  ["interface Gi0/1", " standby version 2", " standby 2 ip 10.0.0.2 secondary", " standby 1 ip 10.0.0.1", " standby 1 priority 110",
   " standby 1 PREEMPT delay minimum 60", " standby 1 timers msec 200 msec 750", " standby 2 timers 4 12", " standby 1 ipv6 FE80::1",
   " standby 1 use-bia"].map String.toList

instance (p t : Str) : Decidable (p <:+: t) := decidable_of_iff _ (isInfix_iff p t)

theorem sample_kids : ∃ P, parse { factory := true } sample = .ok P ∧
    (Spec.kids P 0 == sample.drop 1 && splitWs (P.h 0).text == ["interface".toList, "Gi0/1".toList]) = true :=
  of_shows (by decide +kernel)

/-- The hypotheses of C123 to C125 hold for the sample. -/
example : ∃ P, parse { factory := true } sample = .ok P ∧
    Spec.Mentions " standby 1 ip 10.0.0.1".toList ∧ " standby 1 ip 10.0.0.1".toList ∈ Spec.kids P 0 ∧
    (∀ t ∈ Spec.kids P 0, Spec.Mentions t → ∃ n, (splitWs t)[1]? = some n ∧ allDigits n = true) ∧
    Spec.First (Spec.group 1 ["priority"]) (Spec.kids P 0) (some ["110".toList]) ∧
    Spec.First (Spec.group 2 ["priority"]) (Spec.kids P 0) none ∧
    Spec.First ["standby".toList, "version".toList] (Spec.kids P 0) (some ["2".toList]) ∧
    Spec.First (Spec.group 1 ["preempt"]) (Spec.kids P 0) (some ["delay".toList, "minimum".toList, "60".toList]) ∧
    Spec.First (Spec.group 1 ["ip"]) (Spec.kids P 0) (some ["10.0.0.1".toList]) ∧
    Spec.First (Spec.group 2 ["ip"]) (Spec.kids P 0) (some ["10.0.0.2".toList, "secondary".toList]) ∧
    Spec.First (Spec.group 3 ["ip"]) (Spec.kids P 0) none ∧
    Spec.First (Spec.group 1 ["ipv6"]) (Spec.kids P 0) (some ["fe80::1".toList]) ∧
    Spec.First (Spec.group 1 ["timers"]) (Spec.kids P 0) (some ["msec".toList, "200".toList, "msec".toList, "750".toList]) ∧
    Spec.First (Spec.group 2 ["timers"]) (Spec.kids P 0) (some ["4".toList, "12".toList]) ∧
    splitWs (P.h 0).text = ["interface".toList, "Gi0/1".toList] := by
  obtain ⟨P, h1, h2⟩ := sample_kids
  rw [Bool.and_eq_true, beq_iff_eq, beq_iff_eq] at h2
  obtain ⟨h2, h3⟩ := h2
  refine ⟨P, h1, ?_⟩
  rw [h2]
  refine ⟨⟨"standby 1 ip".toList, ⟨" ".toList, "1".toList, " ".toList, by decide +kernel⟩, by decide +kernel⟩,
    by decide +kernel, ?_, first_of (by decide +kernel), first_of (by decide +kernel), first_of (by decide +kernel),
    first_of (by decide +kernel), first_of (by decide +kernel), first_of (by decide +kernel), first_of (by decide +kernel),
    first_of (by decide +kernel), first_of (by decide +kernel), first_of (by decide +kernel), h3⟩
  · intro t ht hm
    obtain ⟨b, h4, h5⟩ := mention_re t
    obtain rfl := h5.mpr hm
    have key : ∀ t ∈ sample.drop 1, reTrue "standby\\s+(?P<group>\\d+)\\s+ip" t = .ok true →
        ((splitWs t)[1]?.any allDigits) = true := by decide +kernel
    have := key t ht h4
    cases hw : (splitWs t)[1]? with
    | none => rw [hw] at this; cases this
    | some n => rw [hw] at this; exact ⟨n, rfl, this⟩

/-- The hypotheses of `C123_raises_fails`. -/
example : ∃ P, parse { factory := true } ["interface Gi0/1".toList, " no standby 1 ip".toList] = .ok P ∧
    " no standby 1 ip".toList ∈ Spec.kids P 0 ∧ Spec.Mentions " no standby 1 ip".toList ∧
    (splitWs " no standby 1 ip".toList)[1]? = some ('s' :: "tandby".toList) ∧ isDigit 's' = false := by
  obtain ⟨P, h1, h2⟩ := of_shows (lines := ["interface Gi0/1".toList, " no standby 1 ip".toList])
    (Q := fun P => Spec.kids P 0 == [" no standby 1 ip".toList]) (by decide +kernel)
  rw [beq_iff_eq] at h2
  exact ⟨P, h1, by rw [h2]; decide, ⟨"standby 1 ip".toList, ⟨" ".toList, "1".toList, " ".toList, by decide +kernel⟩, by decide +kernel⟩,
    by decide +kernel, by decide⟩

end Hsrp

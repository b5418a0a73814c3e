import Verif.Nxos.Route6
import Verif.Conf.Final

/-! # C269, C270: the network of a static IPv6 route in a VRF

The expression of `network` skips the word `vrf`, but not the name behind it, so that the network of
a route in a VRF is never found. -/

namespace Cisco

open Py Re IP Spec

/-- What is behind a blank begins with a word. -/
theorem blank_cut {w r sp t : Str} (hw : IsWord w) (h : ' ' :: (w ++ r) = sp ++ t) (h0 : sp ≠ [])
    (hs : ∀ c ∈ sp, K.space.has c = true) : t = w ++ r := by
  obtain ⟨x, w', rfl, hx⟩ := word_cons hw
  cases sp with
  | nil => exact absurd rfl h0
  | cons a sp =>
    cases sp with
    | nil => simp only [List.cons_append, List.nil_append, List.cons.injEq] at h; rw [← h.2]; rfl
    | cons b sp =>
      simp only [List.cons_append, List.cons.injEq] at h
      have := hs b (by simp)
      rw [← h.2.1, K.has, hx] at this
      cases this

/-- The first word of a text. -/
theorem first_word {v w r t : Str} (hv : IsWord v) (hw : IsWord w) (hr : Stop r) (e : v ++ r = w ++ t)
    (ht : ∀ c, t.head? = some c → isSpace c = true) : v = w := by
  have h1 := (Re.prefix_word (t := v ++ r) hv (List.prefix_append _ _) (by
    rw [List.drop_left]
    rcases hr with rfl | ⟨r', rfl⟩
    · simp
    · intro c hc; cases hc; decide)).1
  have h2 := (Re.prefix_word (t := w ++ t) hw (List.prefix_append _ _) (by rw [List.drop_left]; exact ht)).1
  rw [← h1, e, h2]

/-- A word without slash is not read as a prefix. -/
theorem no_slash {v r x y : Str} (hv : '/' ∉ v) (hr : Stop r) (hx : ∀ c ∈ x, K.nonspace.has c = true) :
    v ++ r ≠ x ++ '/' :: y := by
  induction v generalizing x with
  | nil =>
    intro e
    rcases hr with rfl | ⟨r', rfl⟩
    · cases x <;> cases e
    · cases x with
      | nil => cases e
      | cons a x =>
        simp only [List.nil_append, List.cons_append, List.cons.injEq] at e
        have := hx a (by simp)
        rw [← e.1] at this
        exact absurd this (by decide)
  | cons a v ih =>
    intro e
    cases x with
    | nil =>
      simp only [List.nil_append, List.cons_append, List.cons.injEq] at e
      exact hv (by rw [e.1]; simp)
    | cons b x =>
      simp only [List.cons_append, List.cons.injEq] at e
      exact ih (fun h => hv (by simp [h])) (fun c hc => hx c (by simp [hc])) e.2

theorem lang_word_blank (n : Nat) (w : Str) (p : Prog) (u v : Str) (h : Lang n (seqs (str w (.plus .space p)).toL) u v) :
    ∃ sp r, u = w ++ (sp ++ r) ∧ sp ≠ [] ∧ (∀ c ∈ sp, K.space.has c = true) ∧ Lang n (seqs p.toL) r v := by
  obtain ⟨r, hr, h'⟩ := (lang_str ..).mp h
  rw [show (Prog.plus .space p).toL = .seq (.cls K.space.cls) (.star true (.cls K.space.cls)) :: p.toL from rfl, lang_cons] at h'
  obtain ⟨t, h1, h2⟩ := h'
  obtain ⟨sp, rfl, h3, h4⟩ := (lang_plus ..).mp h1
  exact ⟨sp, t, hr, h3, h4, h2⟩

/-- `vrf\s+` on the first word of a text. -/
theorem vrf_step {n : Nat} {v r u : Str} (hv : IsWord v) (hr : Stop r)
    (h : Lang n (.grp 1 (seqs (str "vrf".toList (.plus .space .done)).toL)) (v ++ r) u) :
    v = "vrf".toList ∧ ∀ w r', IsWord w → r = ' ' :: (w ++ r') → u = w ++ r' := by
  rw [Lang] at h
  obtain ⟨sp, t, e, h0, hs, h1⟩ := lang_word_blank _ _ _ _ _ h
  have h1 : t = u := h1
  subst h1
  have hw : v = "vrf".toList := by
    refine first_word hv (by decide) hr e ?_
    intro c hc
    cases sp with
    | nil => exact absurd rfl h0
    | cons a sp => cases hc; exact hs _ (by simp)
  refine ⟨hw, ?_⟩
  rintro w r' hww rfl
  subst hw
  exact blank_cut hww (List.append_cancel_left e) h0 hs

/-- The line of a route in a VRF. -/
theorem route6_vrf_line {R : Route6} {v : Str} (hv : R.vrf = some v) :
    R.line = "ipv6".toList ++ tl ("route".toList :: "vrf".toList :: v :: (R.pfx ++ '/' :: natStr R.len) ::
      (param [] R.intf ++ (param [] R.addr ++ R.tail))) := by
  rw [Route6.line, Route6.words, hv]
  exact join_tl _ _

theorem typed_miss {t : Str} {rx : String} {l : List Rgx} {g : Nat} (hc : compile rx = .ok ⟨seqs (.bol :: l), 2, []⟩)
    (h : Miss t.length (seqs l) t []) : matchTyped t rx g toStr [] = .ok [] := by
  have hr : reSearch rx t = .ok none := by
    rw [reSearch, hc]
    simp only [search_bol_run, Miss] at h ⊢
    rw [h]
    rfl
  simp only [matchTyped, hr, bind, Except.bind]

/-- The prefix is not found behind the name of a VRF. -/
theorem net6_miss (n : Nat) {v : Str} (hv : IsWord v) (hn : v ≠ "vrf".toList) (hs : '/' ∉ v) (ws : List Str) (b : Rgx) :
    Miss n (seqs (lead6L ++ [.grp 2 (.seq (.cls K.nonspace.cls) (.star false (.cls K.nonspace.cls))), .cls (K.chr '/').cls, b]))
      ("ipv6".toList ++ tl ("route".toList :: "vrf".toList :: v :: ws)) [] := by
  refine (miss_iff _ _ _ _).mpr ?_
  intro z h
  rw [lead6L, List.append_assoc, lang_append] at h
  obtain ⟨u, h1, h2⟩ := h
  have hu : u = "vrf".toList ++ tl (v :: ws) := by
    obtain ⟨sp, t, e, h0, hsp, h1⟩ := lang_word_blank _ _ _ _ _ h1
    have e := blank_cut (by decide) (List.append_cancel_left e) h0 hsp
    subst e
    obtain ⟨sp, t, e, h0, hsp, h1⟩ := lang_word_blank _ _ _ _ _ h1
    have h1 : t = u := h1
    subst h1
    exact blank_cut (by decide) (List.append_cancel_left e) h0 hsp
  subst hu
  rw [List.singleton_append, lang_cons] at h2
  obtain ⟨u, h3, h4⟩ := h2
  have hu : ∃ w r, u = w ++ r ∧ '/' ∉ w ∧ Stop r := by
    rw [Lang] at h3
    cases h3 with
    | nil => exact ⟨_, _, rfl, by decide, tl_stop _⟩
    | cons h5 _ h6 =>
      have := (vrf_step (by decide) (tl_stop _) h5).2 v (tl ws) hv rfl
      subst this
      cases h6 with
      | nil => exact ⟨_, _, rfl, hs, tl_stop _⟩
      | cons h7 _ _ => exact absurd (vrf_step hv (tl_stop _) h7).1 hn
  obtain ⟨w, r, rfl, hw, hr⟩ := hu
  rw [lang_cons] at h4
  obtain ⟨u, h5, h6⟩ := h4
  rw [Lang] at h5
  obtain ⟨x, e, _, hx⟩ := (lang_plus ..).mp h5
  rw [lang_cons] at h6
  obtain ⟨u', h7, _⟩ := h6
  obtain ⟨c, rfl, hc⟩ := (lang_cls ..).mp h7
  obtain rfl : c = '/' := by simpa [K.has] using hc
  exact no_slash hw hr hx e

/-- C269: of every route in a VRF whose name has no slash and is not `vrf`, `network` is empty,
`network_object` is None and `nexthop_str` is the prefix with its length. -/
theorem C269_vrf_every_fails {R : Route6} (h : R.Ok) {v : Str} (hv : R.vrf = some v) (hn : v ≠ "vrf".toList) (hs : '/' ∉ v) :
    routeNetwork R.line = .ok [] ∧ routeNetworkObject6 R.line = .ok none ∧
    routeNexthopStr R.line = .ok (R.pfx ++ '/' :: natStr R.len) := by
  obtain ⟨pv, hp⟩ := h.pfx
  have hvw := h.vrf v hv
  have hnv := pfx_word hp R.len
  have hnet : routeNetwork R.line = .ok [] := by
    rw [routeNetwork, is_v6, if_pos rfl]
    refine typed_miss net6_compile ?_
    rw [route6_vrf_line hv]
    exact net6_miss _ hvw hn hs _ _
  refine ⟨hnet, ?_, ?_⟩
  · have hm := (C269_route h).2.1
    have hob : routeNetworkObject6 R.line = (match IP.V6.ofStr ('/' :: natStr R.len) with
        | .ok o => .ok (some o)
        | .error _ => .ok none) := by
      rw [routeNetworkObject6, hm, hnet]
      rfl
    rw [hob]
    cases ho : IP.V6.ofStr ('/' :: natStr R.len) with
    | error e => rfl
    | ok o =>
      exfalso
      have hd := digits_nat R.len
      obtain ⟨_, u, h1, h2⟩ := ofStr_ok.mp ho
      rw [splitWs_word ⟨by simp, by
        intro c hc
        rcases List.mem_cons.mp hc with rfl | hc
        · decide
        · exact digit_not_space (hd.2 c hc)⟩, joinMask] at h1
      cases h1
      obtain ⟨a, m, ip, p, h3, h4, _⟩ := ofText_ok.mp h2
      obtain ⟨pre, post, e, _⟩ := find6_sound h3
      have hc := (parse6_ok h4).1
      rw [Conf.splitOn_length] at hc
      have : ':' ∈ '/' :: natStr R.len := by
        rw [e, List.mem_append, List.mem_append]
        exact .inl (.inr (List.count_pos_iff.mp (by omega)))
      rcases List.mem_cons.mp this with h | h
      · cases h
      · exact absurd (hd.2 _ h) (by decide)
  · rw [routeNexthopStr, is_v6, if_pos rfl]
    refine typed_hit hop6_compile (q := (tl (param [] R.intf ++ (param [] R.addr ++ R.tail)), [(2, R.pfx ++ '/' :: natStr R.len), (1, "vrf ".toList)])) ?_ rfl rfl
    rw [route6_vrf_line hv, lead6L, List.append_assoc]
    generalize param [] R.intf ++ (param [] R.addr ++ R.tail) = ws
    refine hit_append (q := ("vrf".toList ++ tl (v :: (R.pfx ++ '/' :: natStr R.len) :: ws), [])) (hit_prog _ (by decide) ?_) ?_
    · rw [det_str, if_pos (List.prefix_append _ _), List.drop_left, tl_cons, blank_word _ (by decide), det_str,
        if_pos (List.prefix_append _ _), List.drop_left, tl_cons, blank_word _ (by decide)]
      rfl
    refine hit_cons (q := (v ++ tl ((R.pfx ++ '/' :: natStr R.len) :: ws), [(1, "vrf ".toList)])) ?_ ?_
    · refine hit_star_step (p := (v ++ tl ((R.pfx ++ '/' :: natStr R.len) :: ws), [(1, "vrf ".toList)])) ?_ ?_ (hit_star_stop ?_)
      · generalize R.pfx ++ '/' :: natStr R.len = x
        have e : "vrf".toList ++ tl (v :: x :: ws) = "vrf ".toList ++ (v ++ tl (x :: ws)) := rfl
        have := fun n => hit_grp (k := 1) (hit_prog n (p := str "vrf".toList (.plus .space .done)) (by decide)
          (s := "vrf".toList ++ tl (v :: x :: ws)) (c := []) (q := (v ++ tl (x :: ws), [])) (by
            rw [det_str, if_pos (List.prefix_append _ _), List.drop_left, tl_cons, blank_word _ hvw]; rfl))
        dsimp only at this
        rw [show ("vrf".toList ++ tl (v :: x :: ws)).take (("vrf".toList ++ tl (v :: x :: ws)).length - (v ++ tl (x :: ws)).length) = "vrf ".toList by
          rw [e, List.length_append, Nat.add_sub_cancel, List.take_left]] at this
        exact this _
      · simp only [tl_cons, List.length_append, List.length_cons]; omega
      · refine (miss_iff _ _ _ _).mpr ?_
        intro z hz
        exact hn (vrf_step hvw (tl_stop _) hz).1
    · refine hit_cons (ns_hit _ hvw (tl_stop _) _) ?_
      rw [tl_cons]
      exact hit_cons (sp_hit _ hnv.1 _ _) (hit_cons (hit_grp_app (ns_hit _ hnv.1 (tl_stop _) _)) (hit_nil _ _ _))

/-! ## Not vacuous -/

example : routeNetwork (Route6.line { exRoute6 with vrf := some "vrf-7".toList }) = .ok [] :=
  (C269_vrf_every_fails (R := { exRoute6 with vrf := some "vrf-7".toList })
    { exRoute6_ok with vrf := by intro v hv; cases hv; decide } rfl (by decide) (by decide)).1

/-- The name `vrf` is skipped with the keyword. -/
example : routeNetwork (Route6.line { exRoute6 with vrf := some "vrf".toList }) = .ok "2001:db8::".toList := by decide +kernel

end Cisco

namespace Nxos.Lines

open Py Re Cisco.Spec Cisco IP

/-- C270: of every route of NXOS in a VRF whose name has no slash and is not `vrf`, `network` is
empty, `network_object` is None and `nexthop_str` is the prefix with its length. -/
theorem C270_vrf_every_fails {R : Route6} (h : R.Ok) {v : Str} (hv : R.vrf = some v) (hn : v ≠ "vrf".toList) (hs : '/' ∉ v) :
    routeNetwork R.line = .ok [] ∧ routeNetworkObject6 R.line = .ok none ∧
    routeNexthopStr R.line = .ok (R.pfx ++ '/' :: natStr R.len) := by
  obtain ⟨h1, h2, h3⟩ := C269_vrf_every_fails h hv hn hs
  have v6 : isV6 R.line = true := is_v6
  have e1 : routeNetwork R.line = Cisco.routeNetwork R.line := by
    simp only [routeNetwork, Cisco.routeNetwork, v6, if_true]
  have e2 : routeNexthopStr R.line = Cisco.routeNexthopStr R.line := by
    simp only [routeNexthopStr, Cisco.routeNexthopStr, v6, if_true]
  have e3 : routeNetworkObject6 R.line = Cisco.routeNetworkObject6 R.line := by
    rw [routeNetworkObject6, Cisco.routeNetworkObject6, (C270_route h).1, (C269_route h).2.1, e1]; rfl
  rw [e1, e2, e3]
  exact ⟨h1, h2, h3⟩

example : routeNexthopStr (Route6.line { exRoute6 with vrf := some "vrf-7".toList }) = .ok "2001:db8::/32".toList :=
  (C270_vrf_every_fails (R := { exRoute6 with vrf := some "vrf-7".toList })
    { exRoute6_ok with vrf := by intro v hv; cases hv; decide } rfl (by decide) (by decide)).2.2

end Nxos.Lines

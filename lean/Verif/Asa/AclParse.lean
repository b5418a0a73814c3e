import Verif.Asa.AclEval
import Verif.Asa.ClassProps

/-! # ASA access list lines: reading them -/

namespace Asa

open Py Re Cisco
open Asa.Spec
open Cisco.Spec (wd)

theorem full_append {a b : Caps} (h1 : Full a) (h2 : Full b) : Full (a ++ b) := by
  intro q hq
  rcases List.mem_append.mp hq with hq | hq
  · exact h1 q hq
  · exact h2 q hq

/-! ## The extended lists -/

theorem alt1_eval {ws : List Str} {c : Caps} (h : PAlt1 ws c) : ∃ r, aclResult (dictOf c) = .ok r ∧ Extended ws r := by
  obtain ⟨_, _, eh, _, h1, ⟨_, _, ep, _, h2, ⟨_, _, es, _, h3, ⟨_, _, ed, et, h4, h5, rfl, rfl⟩, rfl, rfl⟩, rfl, rfl⟩, rfl, rfl⟩ := h
  obtain ⟨s1, name, act, ha, rfl, k1, k2⟩ := head_eval rfl h1
  obtain ⟨s2, n, obj, hp, k3⟩ := proto_eval rfl h2
  obtain ⟨s3, m, hm, k4⟩ := addr1_eval h3
  obtain ⟨s4, m', hm', k5⟩ := addr1_eval h4
  obtain ⟨s5, lw, xw, tw, i, l, rfl, hl, k6, hx, ht⟩ := tail_eval h5
  have hf : Full (et ++ ed ++ es ++ ep ++ eh) :=
    full_append (full_append (full_append (full_append s5.full s4.full) s3.full) s2.full) s1.full
  have look : ∀ k, (et ++ ed ++ es ++ ep ++ eh).lookup k =
      ((((et.lookup k).or (ed.lookup k)).or (es.lookup k)).or (ep.lookup k)).or (eh.lookup k) := by
    intro k
    simp only [List.lookup_append]
  have z1 : ∀ {k}, k < 5 ∨ 6 < k → eh.lookup k = none := s1.none
  have z2 : ∀ {k}, k < 7 ∨ 8 < k → ep.lookup k = none := s2.none
  have z3 : ∀ {k}, k < 9 ∨ 12 < k → es.lookup k = none := s3.none
  have z4 : ∀ {k}, k < 13 ∨ 16 < k → ed.lookup k = none := s4.none
  have z5 : ∀ {k}, k < 17 ∨ 22 < k → et.lookup k = none := s5.none
  have hr := aclResult_dict hf
  simp (discharger := omega) only [first, look, z1, z2, z3, z4, z5, Option.or_none, Option.none_or] at hr
  simp only [k1, k2, k3, k4.method, k5.method, k6, bind, Except.bind] at hr
  refine ⟨_, hr, name, act, _, m, _, [], m', _, [], lw, xw, tw, obj, ?_, ha, hp, hm, .all, hm', .all, hl, hx, ht, rfl, rfl, rfl, rfl, rfl,
    rfl⟩
  simp only [List.append_assoc, List.append_nil]

theorem alt2_eval {ws : List Str} {c : Caps} (h : PAlt2 ws c) : ∃ r, aclResult (dictOf c) = .ok r ∧ Extended ws r := by
  obtain ⟨_, _, eh, _, h1, ⟨_, _, ep, _, h2, ⟨_, _, es, _, h3, ⟨_, _, eq1, _, h6, ⟨_, _, ed, _, h4, ⟨_, _, eq2, et, h7, h5, rfl, rfl⟩, rfl,
    rfl⟩, rfl, rfl⟩, rfl, rfl⟩, rfl, rfl⟩, rfl, rfl⟩ := h
  obtain ⟨s1, name, act, ha, rfl, k1, k2⟩ := head_eval rfl h1
  obtain ⟨s2, n, obj, hp, k3⟩ := proto_eval rfl h2
  obtain ⟨s3, m, hm, k4⟩ := addr2_eval h3
  obtain ⟨s6, hp1⟩ := port_eval h6
  obtain ⟨s4, m', hm', k5⟩ := addr2_eval h4
  obtain ⟨s7, hp2⟩ := port_eval h7
  obtain ⟨s5, lw, xw, tw, i, l, rfl, hl, k6, hx, ht⟩ := tail_eval h5
  have hf : Full (et ++ eq2 ++ ed ++ eq1 ++ es ++ ep ++ eh) :=
    full_append (full_append (full_append (full_append (full_append (full_append s5.full s7.full) s4.full) s6.full) s3.full) s2.full)
      s1.full
  have look : ∀ k, (et ++ eq2 ++ ed ++ eq1 ++ es ++ ep ++ eh).lookup k =
      ((((((et.lookup k).or (eq2.lookup k)).or (ed.lookup k)).or (eq1.lookup k)).or (es.lookup k)).or (ep.lookup k)).or (eh.lookup k) := by
    intro k
    simp only [List.lookup_append]
  have z1 : ∀ {k}, k < 23 ∨ 24 < k → eh.lookup k = none := s1.none
  have z2 : ∀ {k}, k < 25 ∨ 26 < k → ep.lookup k = none := s2.none
  have z3 : ∀ {k}, k < 27 ∨ 32 < k → es.lookup k = none := s3.none
  have z6 : ∀ {k}, k < 33 ∨ 37 < k → eq1.lookup k = none := s6.none
  have z4 : ∀ {k}, k < 38 ∨ 43 < k → ed.lookup k = none := s4.none
  have z7 : ∀ {k}, k < 44 ∨ 48 < k → eq2.lookup k = none := s7.none
  have z5 : ∀ {k}, k < 49 ∨ 54 < k → et.lookup k = none := s5.none
  have hr := aclResult_dict hf
  simp (discharger := omega) only [first, look, z1, z2, z3, z4, z5, z6, z7, Option.or_none, Option.none_or] at hr
  simp only [k1, k2, k3, k4.method, k5.method, k6, bind, Except.bind] at hr
  refine ⟨_, hr, name, act, _, m, _, _, m', _, _, lw, xw, tw, obj, ?_, ha, hp, hm, hp1, hm', hp2, hl, hx, ht, rfl, rfl, rfl, rfl, rfl,
    rfl⟩
  simp only [List.append_assoc]

/-! ## Addresses that are not read to the end -/

theorem cut_word {z v : Str} (hz : IsWord z) : ∃ u more, splitWs (z ++ v) = (z ++ u) :: more := by
  refine ⟨v.takeWhile nsp, splitWs (v.dropWhile nsp), ?_⟩
  have hw : IsWord (z ++ v.takeWhile nsp) := by
    refine ⟨by simp [hz.1], ?_⟩
    intro c hc
    rcases List.mem_append.mp hc with hc | hc
    · exact hz.2 c hc
    · have := List.all_eq_true.mp (List.all_takeWhile (p := nsp) (l := v)) c hc
      simpa [nsp] using this
  have hb : Brk (v.dropWhile nsp) := by
    intro x hx
    have := List.head?_dropWhile_not nsp v
    rw [hx] at this
    simpa [nsp] using this
  have e : z ++ v = (z ++ v.takeWhile nsp) ++ v.dropWhile nsp := by
    rw [List.append_assoc, List.takeWhile_append_dropWhile]
  conv => lhs; rw [e]
  exact splitWs_word_rest hw hb

theorem sem_wd {n : Nat} {r : Rgx} {Q : Str → Prop} (h : Wd n r Q) {u v : Str} {e : Caps} : Sem n r u v e ↔ (∃ x, u = x ++ v ∧ Q x) ∧ e = [] := by
  rw [sem_plain h.1, h.2.1]

theorem sem_wd_grp {n k : Nat} {r : Rgx} {Q : Str → Prop} (h : Wd n r Q) {u v : Str} {e : Caps} :
    Sem n (.grp k r) u v e ↔ ∃ x, u = x ++ v ∧ Q x ∧ e = [(k, x)] := by
  rw [sem_grp]
  constructor
  · rintro ⟨y, e', h1, h2, rfl⟩
    obtain ⟨⟨x, rfl, hx⟩, rfl⟩ := (sem_wd h).mp h1
    have := List.append_cancel_right h2
    subst this
    exact ⟨x, rfl, hx, rfl⟩
  · rintro ⟨x, rfl, hx, rfl⟩
    exact ⟨x, [], (sem_wd h).mpr ⟨⟨x, rfl, hx⟩, rfl⟩, rfl, rfl⟩

theorem sem_sp {n : Nat} {u v : Str} {e : Caps} : Sem n spR u v e ↔ (∃ b, u = b ++ v ∧ b ≠ [] ∧ ∀ c ∈ b, isSpace c = true) ∧ e = [] := by
  rw [sem_plain rfl, spR, lang_plus]
  rfl

theorem gap_brk {b v : Str} (hb : b ≠ []) (h : ∀ c ∈ b, isSpace c = true) : Brk (b ++ v) := by
  obtain ⟨x, b', rfl⟩ := List.exists_cons_of_ne_nil hb
  intro y hy
  cases hy
  exact h _ (by simp)

/-- A word, blanks, and what begins with something else. -/
theorem cut_pair {n k : Nat} {w : String} (h : (w.toList != [] && w.toList.all (fun c => !isSpace c)) = true) {u v : Str} {e : Caps}
    (hs : Sem n (seqs (pairL w k)) u v e) : ∃ x y more, IsWord x ∧ splitWs u = w.toList :: y :: more ∧ e = [(k, x)] := by
  rw [pairL, sem_append] at hs
  obtain ⟨a, e1, e2, h1, h2, rfl⟩ := hs
  obtain ⟨b, e3, e4, h3, h4, rfl⟩ := sem_cons.mp h2
  obtain ⟨⟨_, rfl, rfl⟩, rfl⟩ := (sem_wd (wd_lit n (word_of h))).mp h1
  obtain ⟨⟨g, rfl, hg, hg'⟩, rfl⟩ := sem_sp.mp h3
  obtain ⟨x, rfl, hx, rfl⟩ := (sem_wd_grp (wd_word n)).mp h4
  obtain ⟨u', more, h5⟩ := cut_word (v := v) hx
  exact ⟨x, _, more, hx, by rw [splitWs_word_rest (word_of h) (gap_brk hg hg'), splitWs_spaces _ _ hg', h5], rfl⟩

theorem cut_net {n a b : Nat} {u v : Str} {e : Caps} (hs : Sem n (seqs (netL a b)) u v e) :
    ∃ x m u' more, IsWord x ∧ Cisco.Spec.DottedQuad m ∧ splitWs u = x :: (m ++ u') :: more ∧ e = [(b, m), (a, x)] := by
  rw [netL, sem_append] at hs
  obtain ⟨w, e1, e2, h1, h2, rfl⟩ := hs
  obtain ⟨w', e3, e4, h3, h4, rfl⟩ := sem_cons.mp h2
  obtain ⟨x, rfl, hx, rfl⟩ := (sem_wd_grp (wd_word n)).mp h1
  obtain ⟨⟨g, rfl, hg, hg'⟩, rfl⟩ := sem_sp.mp h3
  obtain ⟨m, rfl, hm, rfl⟩ := (sem_wd_grp (wd_quad n)).mp h4
  obtain ⟨u', more, h5⟩ := cut_word (v := v) (quad_is_word hm)
  exact ⟨x, m, u', more, hx, hm, by rw [splitWs_word_rest hx (gap_brk hg hg'), splitWs_spaces _ _ hg', h5], rfl⟩

theorem cut_any {n k : Nat} {u v : Str} {e : Caps} (hs : Sem n (.grp k (altsOf ["any", "any4"])) u v e) :
    ∃ x u' more, x ≠ [] ∧ splitWs u = ("any".toList ++ u') :: more ∧ e = [(k, x)] := by
  obtain ⟨x, rfl, hx, rfl⟩ := (sem_wd_grp (wd_altsOf n (by simp) (by decide))).mp hs
  have hw : IsWord "any".toList := word_of (by decide)
  simp only [wd, List.map_cons, List.map_nil, List.mem_cons, List.not_mem_nil, or_false] at hx
  rcases hx with rfl | rfl
  · obtain ⟨u', more, h5⟩ := cut_word (v := v) hw
    exact ⟨_, u', more, by simp, h5, rfl⟩
  · obtain ⟨u', more, h5⟩ := cut_word (v := '4' :: v) hw
    exact ⟨_, u', more, by simp, h5, rfl⟩

theorem any_cut {n k : Nat} {u u' : Str} {more : List Str} (hu : Beg u) (h : splitWs u = ("any".toList ++ u') :: more) :
    ∃ v, Sem n (.grp k (altsOf ["any", "any4"])) u v [(k, "any".toList)] := by
  obtain ⟨v, rfl, _⟩ := split_beg hu h
  exact ⟨u' ++ v, (sem_wd_grp (wd_altsOf n (by simp) (by decide))).mpr ⟨_, by rw [List.append_assoc], by decide, rfl⟩⟩

theorem net_cut {n a b : Nat} {u x m u' : Str} {more : List Str} (hu : Beg u) (hm : Cisco.Spec.DottedQuad m)
    (h : splitWs u = x :: (m ++ u') :: more) : ∃ v, Sem n (seqs (netL a b)) u v [(b, m), (a, x)] := by
  have hx : IsWord x := splitWs_words u x (by rw [h]; simp)
  obtain ⟨v, rfl, hv, h2⟩ := split_beg hu h
  have hne : splitWs v ≠ [] := by rw [h2]; simp
  have hb := beg_of hne
  obtain ⟨w, h3, _⟩ := split_beg hb (by rw [splitWs_lstrip]; exact h2)
  refine ⟨u' ++ w, ?_⟩
  rw [netL]
  refine sem_append.mpr ⟨v, [(a, x)], [(b, m)], (sem_wd_grp (wd_word n)).mpr ⟨x, rfl, hx, rfl⟩,
    sem_cons.mpr ⟨lstrip v, [], [(b, m)], sem_sp.mpr ⟨⟨v.takeWhile isSpace, List.takeWhile_append_dropWhile.symm, ?_, ?_⟩, rfl⟩,
      (sem_wd_grp (wd_quad n)).mpr ⟨m, by rw [h3, List.append_assoc], hm, rfl⟩, rfl⟩, rfl⟩
  · intro h0
    cases v with
    | nil => exact hne rfl
    | cons y s =>
      rw [List.takeWhile_cons, if_pos (hv y rfl)] at h0
      cases h0
  · intro c hc
    exact List.all_eq_true.mp (List.all_takeWhile (p := isSpace) (l := v)) c hc

/-! ## The standard lists -/

/-- The words before an expression that begins with blanks. -/
theorem sem_then_sp {n : Nat} {l : List Rgx} {r : Rgx} {P : List Str → Caps → Prop} (hP : Tw n (seqs l) P) {u v : Str} {e : Caps}
    (h : Sem n (seqs (l ++ [spR, r])) u v e) : ∃ ws w e1 e2, P ws e1 ∧ Sem n r w v e2 ∧ splitWs u = ws ++ splitWs w ∧ e = e2 ++ e1 := by
  obtain ⟨a, e1, e2, h1, h2, rfl⟩ := sem_append.mp h
  obtain ⟨b, e3, e4, h3, h4, rfl⟩ := sem_cons.mp h2
  obtain ⟨⟨g, rfl, hg, hg'⟩, rfl⟩ := sem_sp.mp h3
  obtain ⟨_, ws, h5, h6⟩ := hP.sound h1 (gap_brk hg hg')
  exact ⟨ws, b, e1, e4, h6, h4, by rw [h5, splitWs_spaces _ _ hg'], by simp⟩

theorem then_sp_sem {n : Nat} {l : List Rgx} {r : Rgx} {P : List Str → Caps → Prop} (hP : Tw n (seqs l) P) {u : Str} {ws more : List Str}
    {e1 : Caps} (hu : Beg u) (hs : splitWs u = ws ++ more) (hne : more ≠ []) (h1 : P ws e1)
    (h2 : ∀ w, Beg w → splitWs w = more → ∃ v e2, Sem n r w v e2) : ∃ v e, Sem n (seqs (l ++ [spR, r])) u v e := by
  obtain ⟨a, h3, hb, h4⟩ := hP.compl hu hs h1
  have hne' : splitWs a ≠ [] := by rw [h4]; exact hne
  obtain ⟨v, e2, h5⟩ := h2 (lstrip a) (beg_of hne') (by rw [splitWs_lstrip]; exact h4)
  refine ⟨v, e2 ++ [] ++ e1, sem_append.mpr ⟨a, e1, _, h3, sem_cons.mpr ⟨lstrip a, [], e2,
    sem_sp.mpr ⟨⟨a.takeWhile isSpace, List.takeWhile_append_dropWhile.symm, ?_, ?_⟩, rfl⟩, h5, rfl⟩, rfl⟩⟩
  · intro h0
    cases a with
    | nil => exact hne' rfl
    | cons y s =>
      rw [List.takeWhile_cons, if_pos (hb y rfl)] at h0
      cases h0
  · intro c hc
    exact List.all_eq_true.mp (List.all_takeWhile (p := isSpace) (l := a)) c hc

theorem alt3_eval {n : Nat} {t v : Str} {c : Caps} (h : Sem n (seqs alt3L) t v c) :
    ∃ r, aclResult (dictOf c) = .ok r ∧ Standard (splitWs t) r := by
  obtain ⟨ws, w, e1, e2, h1, h2, h3, rfl⟩ := sem_then_sp (tw_head n 55 56 (by decide)) h
  obtain ⟨s1, name, act, ha, rfl, k1, k2⟩ := head_eval rfl h1
  have key : Span 57 60 e2 ∧ Target (splitWs w) ∧ ((e2.lookup 57).or ((e2.lookup 58).or (e2.lookup 59))).isSome = true := by
    rw [alt3R, sem_alt, sem_alt] at h2
    rcases h2 with h2 | h2 | h2
    · obtain ⟨x, u', more, hx, h4, rfl⟩ := cut_any h2
      exact ⟨span_one (by omega) (by omega) hx, h4 ▸ .any, rfl⟩
    · obtain ⟨x, y, more, hx, h4, rfl⟩ := cut_pair (by decide) h2
      exact ⟨span_one (by omega) (by omega) hx.1, h4 ▸ .host, rfl⟩
    · obtain ⟨x, m, u', more, hx, hm, h4, rfl⟩ := cut_net h2
      exact ⟨span_two (by omega) (by omega) (quad_is_word hm).1 (by omega) (by omega) hx.1, h4 ▸ .net hm, rfl⟩
  obtain ⟨s2, ht, k3⟩ := key
  have hf : Full (e2 ++ e1) := full_append s2.full s1.full
  have z1 : ∀ {k}, k < 55 ∨ 56 < k → e1.lookup k = none := s1.none
  have z2 : ∀ {k}, k < 57 ∨ 60 < k → e2.lookup k = none := s2.none
  have hr := aclResult_dict hf
  simp (discharger := omega) only [first, List.lookup_append, z1, z2, Option.or_none, Option.none_or] at hr
  simp only [k1, k2, k3, protoC, methodC, logC, bind, Except.bind, Option.isSome_none, Option.isSome_some, Bool.false_eq_true, if_false,
    if_true, Bool.false_and] at hr
  exact ⟨_, hr, name, act, _, h3, ha, ht, rfl⟩

theorem alt3_compl {n : Nat} {t : Str} (ht : Beg t) {r : AclResult} (h : Standard (splitWs t) r) : ∃ v c, Sem n (seqs alt3L) t v c := by
  obtain ⟨name, act, more, h1, ha, h2, _⟩ := h
  have hn : IsWord name := splitWs_words t name (by rw [h1]; simp [firstWords])
  refine then_sp_sem (tw_head n 55 56 (by decide)) ht h1 ?_ ⟨name, act, hn, ha, rfl, rfl⟩ ?_
  · rintro rfl; cases h2
  · intro w hw hs
    rw [alt3R]
    simp only [sem_alt]
    cases h2 with
    | any =>
      obtain ⟨v, hv⟩ := any_cut (n := n) (k := 57) hw hs
      exact ⟨v, _, .inl hv⟩
    | @host x more =>
      have hx : IsWord x := splitWs_words w x (by rw [hs]; simp)
      obtain ⟨v, hv, _⟩ := (tw_pair n (w := "host") (by decide) 58).compl hw (ws := ["host".toList, x]) (rest := more) hs ⟨x, hx, rfl, rfl⟩
      exact ⟨v, _, .inr (.inl hv)⟩
    | net hm =>
      obtain ⟨v, hv⟩ := net_cut (n := n) (a := 59) (b := 60) hw hm hs
      exact ⟨v, _, .inr (.inr hv)⟩

/-! ## ICMP -/

theorem cut_addr2 {n b : Nat} {u v : Str} {e : Caps} (h : Sem n (addr2 b) u v e) : Span b (b + 5) e ∧
    ∃ m, IcmpTarget m (splitWs u) ∧
      Ev m (e.lookup (b + 3)) (e.lookup (b + 2)) ((e.lookup b).or ((e.lookup (b + 1)).or (e.lookup (b + 4)))) := by
  rw [addr2, sem_alt, sem_alt, sem_alt, sem_alt] at h
  rcases h with h | h | h | h | h
  · obtain ⟨x, u', more, hx, h4, rfl⟩ := cut_any h
    exact ⟨span_one (by omega) (by omega) hx, _, h4 ▸ .other .any,
      .inr (.inr ⟨rfl, by rw [look_miss (by omega)]; rfl, by rw [look_miss (by omega)]; rfl, by rw [look_hit]; rfl⟩)⟩
  · obtain ⟨x, y, more, hx, h4, rfl⟩ := cut_pair (by decide) h
    exact ⟨span_one (by omega) (by omega) hx.1, _, h4 ▸ .other .host,
      .inr (.inr ⟨rfl, by rw [look_miss (by omega)]; rfl, by rw [look_miss (by omega)]; rfl,
        by rw [look_miss (by omega), look_hit]; rfl⟩)⟩
  · obtain ⟨x, y, more, hx, h4, rfl⟩ := cut_pair (by decide) h
    exact ⟨span_one (by omega) (by omega) hx.1, _, h4 ▸ .object,
      .inr (.inl ⟨rfl, by rw [look_miss (by omega)]; rfl, by rw [look_hit]; rfl⟩)⟩
  · obtain ⟨x, y, more, hx, h4, rfl⟩ := cut_pair (by decide) h
    exact ⟨span_one (by omega) (by omega) hx.1, _, h4 ▸ .group, .inl ⟨rfl, by rw [look_hit]; rfl⟩⟩
  · obtain ⟨x, m, u', more, hx, hm, h4, rfl⟩ := cut_net h
    exact ⟨span_two (by omega) (by omega) (quad_is_word hm).1 (by omega) (by omega) hx.1, _, h4 ▸ .other (.net hm),
      .inr (.inr ⟨rfl, by rw [look_miss (by omega), look_miss (by omega)]; rfl, by rw [look_miss (by omega), look_miss (by omega)]; rfl,
        by rw [look_miss (by omega), look_miss (by omega), look_miss (by omega), look_miss (by omega), look_miss (by omega), look_hit]; rfl⟩)⟩

theorem addr2_cut {n b : Nat} {w : Str} {m : String} (hw : Beg w) (h : IcmpTarget m (splitWs w)) : ∃ v e, Sem n (addr2 b) w v e := by
  rw [addr2]
  simp only [sem_alt]
  generalize hs : splitWs w = ws at h
  cases h with
  | @group x more =>
    have hx : IsWord x := splitWs_words w x (by rw [hs]; simp)
    obtain ⟨v, hv, _⟩ := (tw_pair n (w := "object-group") (by decide) (b + 3)).compl hw (ws := ["object-group".toList, x]) (rest := more) hs
      ⟨x, hx, rfl, rfl⟩
    exact ⟨v, _, .inr (.inr (.inr (.inl hv)))⟩
  | @object x more =>
    have hx : IsWord x := splitWs_words w x (by rw [hs]; simp)
    obtain ⟨v, hv, _⟩ := (tw_pair n (w := "object") (by decide) (b + 2)).compl hw (ws := ["object".toList, x]) (rest := more) hs
      ⟨x, hx, rfl, rfl⟩
    exact ⟨v, _, .inr (.inr (.inl hv))⟩
  | other h =>
    cases h with
    | any =>
      obtain ⟨v, hv⟩ := any_cut (n := n) (k := b) hw hs
      exact ⟨v, _, .inl hv⟩
    | @host x more =>
      have hx : IsWord x := splitWs_words w x (by rw [hs]; simp)
      obtain ⟨v, hv, _⟩ := (tw_pair n (w := "host") (by decide) (b + 1)).compl hw (ws := ["host".toList, x]) (rest := more) hs
        ⟨x, hx, rfl, rfl⟩
      exact ⟨v, _, .inr (.inl hv)⟩
    | net hm =>
      obtain ⟨v, hv⟩ := net_cut (n := n) (a := b + 4) (b := b + 5) hw hm hs
      exact ⟨v, _, .inr (.inr (.inr (.inr hv)))⟩

theorem icmp_bodies : (seqs icmpTail).bodies = [(76, alts (icmpNames.map (fun w => litR w.toList) ++ [digR])), (77, litR "log".toList),
    (78, levelR), (79, digR), (80, litR "disable".toList), (81, litR "inactive".toList), (82, wordR)] := by decide +kernel

/-- The groups of what follows the addresses of a line for ICMP. -/
theorem icmp_span {n : Nat} {u v : Str} {e : Caps} (h : Sem n (seqs icmpTail) u v e) : Span 76 82 e ∧
    (∀ l, e.lookup 78 = some l → Level l) ∧ (∀ i, e.lookup 79 = some i → Digs i) := by
  obtain ⟨e', he, _, hf, _⟩ := run_obeys n _ u [] v e h
  rw [List.append_nil] at he
  subst he
  have rd : ∀ {b : Rgx} {Q : Str → Prop} {w : Str}, Wd n b Q → Read n b w → Q w := by
    rintro b Q w hb ⟨v', hv'⟩
    obtain ⟨x, h1, h2⟩ := (hb.2.1 _ _).mp hv'
    have := List.append_cancel_right h1
    subst this
    exact h2
  have w76 : Wd n (alts (icmpNames.map (fun w => litR w.toList) ++ [digR])) _ := wd_altsOf' n (wd_dig n) (by decide)
  refine ⟨?_, ?_, ?_⟩
  · intro q hq
    obtain ⟨b, hb, hr⟩ := hf q hq
    rw [icmp_bodies] at hb
    simp only [List.mem_cons, Prod.mk.injEq, List.not_mem_nil, or_false] at hb
    rcases hb with ⟨h1, rfl⟩ | ⟨h1, rfl⟩ | ⟨h1, rfl⟩ | ⟨h1, rfl⟩ | ⟨h1, rfl⟩ | ⟨h1, rfl⟩ | ⟨h1, rfl⟩
    · exact ⟨by omega, by omega, (w76.2.2 _ (rd w76 hr)).1⟩
    · exact ⟨by omega, by omega, by rw [rd (wd_lit n (word_of (by decide))) hr]; simp⟩
    · exact ⟨by omega, by omega, level_ne (rd (wd_level n) hr)⟩
    · exact ⟨by omega, by omega, (rd (wd_dig n) hr).1⟩
    · exact ⟨by omega, by omega, by rw [rd (wd_lit n (word_of (by decide))) hr]; simp⟩
    · exact ⟨by omega, by omega, by rw [rd (wd_lit n (word_of (by decide))) hr]; simp⟩
    · exact ⟨by omega, by omega, (rd (wd_word n) hr).1⟩
  · intro l hl
    obtain ⟨b, hb, hr⟩ := hf _ (mem_of_lookup hl)
    rw [icmp_bodies] at hb
    simp only [List.mem_cons, Prod.mk.injEq, List.not_mem_nil, or_false] at hb
    have : b = levelR := by simpa using hb
    subst this
    exact rd (wd_level n) hr
  · intro i hi
    obtain ⟨b, hb, hr⟩ := hf _ (mem_of_lookup hi)
    rw [icmp_bodies] at hb
    simp only [List.mem_cons, Prod.mk.injEq, List.not_mem_nil, or_false] at hb
    have : b = digR := by simpa using hb
    subst this
    exact rd (wd_dig n) hr

def PAlt4 : List Str → Caps → Prop := Then (PHead 61 62 "extended") (Then (One (some 63) (· = "icmp".toList)) (PAddr2 64))

theorem tw_alt4 (n : Nat) : Tw n (seqs alt4L) PAlt4 :=
  (tw_head n 61 62 (by decide)).append ((Tw.sp (l := [.grp 63 (litR "icmp".toList)]) (wd_lit n (word_of (by decide))).grp
    (fun _ _ h => one_ne h)).append (l' := [_]) (tk_addr2 n 64))

theorem alt4_eval {n : Nat} {t v : Str} {c : Caps} (h : Sem n (seqs (alt4L ++ (seqs [spR, addr2 70] :: icmpTail))) t v c) :
    ∃ r, aclResult (dictOf c) = .ok r ∧ Icmp (splitWs t) r := by
  obtain ⟨w, e1, _, h1, h2, rfl⟩ := sem_append.mp h
  obtain ⟨x, e2, e3, h3, h4, rfl⟩ := sem_cons.mp h2
  obtain ⟨ws, w', e1', e2', h5, h6, h7, h8⟩ := sem_then_sp (r := addr2 70) (tw_alt4 n) (v := x) (e := e2 ++ e1)
    (sem_append.mpr ⟨w, e1, e2, h1, h3, rfl⟩)
  obtain ⟨s3, hl, hi⟩ := icmp_span h4
  obtain ⟨_, _, eh, _, g1, ⟨_, _, ei, es, ⟨_, rfl, rfl, rfl⟩, g3, rfl, rfl⟩, rfl, rfl⟩ := h5
  obtain ⟨s1, name, act, ha, rfl, k1, k2⟩ := head_eval rfl g1
  obtain ⟨s2, m, hm, k3⟩ := addr2_eval g3
  obtain ⟨s4, m', hm', k4⟩ := cut_addr2 h6
  rw [List.append_assoc, h8]
  have hi' : Span 63 63 [(63, "icmp".toList)] := span_one (by omega) (by omega) (by simp)
  have hf : Full (e3 ++ (e2' ++ (es ++ [(63, "icmp".toList)] ++ eh))) :=
    full_append s3.full (full_append s4.full (full_append (full_append s2.full hi'.full) s1.full))
  have z1 : ∀ {k}, k < 61 ∨ 62 < k → eh.lookup k = none := s1.none
  have z0 : ∀ {k}, k < 63 ∨ 63 < k → List.lookup k [(63, "icmp".toList)] = none := hi'.none
  have z2 : ∀ {k}, k < 64 ∨ 69 < k → es.lookup k = none := s2.none
  have z4 : ∀ {k}, k < 70 ∨ 75 < k → e2'.lookup k = none := s4.none
  have z3 : ∀ {k}, k < 76 ∨ 82 < k → e3.lookup k = none := s3.none
  have zi : List.lookup 63 [(63, "icmp".toList)] = some "icmp".toList := rfl
  have hp : protoC none (some "icmp".toList) none none = .ok (1, some []) := by decide +kernel
  have hr := aclResult_dict hf
  simp (discharger := omega) only [first, List.lookup_append, z1, z2, z3, z4, z0, zi, Option.or_none, Option.none_or] at hr
  have hlog : ∃ i l, logC (e3.lookup 77) (e3.lookup 78) (e3.lookup 79) = .ok (i, l) ∧
      ((e3.lookup 77).isSome = false ∧ i = -1 ∧ l = [] ∨ (e3.lookup 77).isSome = true ∧ 0 ≤ i ∧ Level l) := by
    cases h77 : e3.lookup 77 with
    | none => exact ⟨_, _, rfl, .inl ⟨rfl, rfl, rfl⟩⟩
    | some x =>
      have hlv : Level ((e3.lookup 78).getD "informational".toList) := by
        cases h78 : e3.lookup 78 with
        | none => rw [Level]; decide
        | some y => exact hl y h78
      cases h79 : e3.lookup 79 with
      | none => exact ⟨_, _, rfl, .inr ⟨rfl, by decide, hlv⟩⟩
      | some y =>
        refine ⟨natVal y, (e3.lookup 78).getD "informational".toList, ?_, .inr ⟨rfl, by omega, hlv⟩⟩
        simp only [logC, Option.isSome_some, Bool.true_eq_false, if_false, digs_num (hi y h79)]
        rfl
  obtain ⟨i, l, k5, k6⟩ := hlog
  simp only [k1, k2, hp, k3.method, k4.method, k5, bind, Except.bind] at hr
  refine ⟨_, hr, name, act, m, _, m', splitWs w', ?_, ha, hm, hm', rfl, rfl, rfl, rfl, rfl, rfl, rfl, k6⟩
  rw [h7]
  simp only [wd, List.map_cons, List.map_nil, List.append_assoc]

theorem addr2_of {m : String} {ws : List Str} (h : Address m ws) (hw : ∀ w ∈ ws, IsWord w) (b : Nat) : ∃ e, PAddr2 b ws e := by
  cases h with
  | group => exact ⟨_, .inr (.inr (.inr (.inl ⟨_, hw _ (by simp), rfl, rfl⟩)))⟩
  | object => exact ⟨_, .inr (.inr (.inl ⟨_, hw _ (by simp), rfl, rfl⟩))⟩
  | any => exact ⟨_, .inl ⟨_, by decide, rfl, rfl⟩⟩
  | any4 => exact ⟨_, .inl ⟨_, by decide, rfl, rfl⟩⟩
  | host => exact ⟨_, .inr (.inl ⟨_, hw _ (by simp), rfl, rfl⟩)⟩
  | net hm => exact ⟨_, .inr (.inr (.inr (.inr ⟨_, _, hw _ (by simp), hm, rfl, rfl⟩)))⟩

theorem icmp_none (n : Nat) (u : Str) : Sem n (seqs icmpTail) u u [] := by
  have o : ∀ a, Sem n (.opt true a) u u [] := fun a => sem_opt.mpr (.inr ⟨rfl, rfl⟩)
  rw [icmpTail, tailL]
  exact sem_cons.mpr ⟨u, [], [], o _, sem_cons.mpr ⟨u, [], [], o _, sem_cons.mpr ⟨u, [], [], o _, o _, rfl⟩, rfl⟩, rfl⟩

theorem alt4_compl {n : Nat} {t : Str} (ht : Beg t) {r : AclResult} (h : Icmp (splitWs t) r) :
    ∃ v c, Sem n (seqs (alt4L ++ (seqs [spR, addr2 70] :: icmpTail))) t v c := by
  obtain ⟨name, act, src, sw, dst, dw, h1, ha, hs, hd, _⟩ := h
  have hw : ∀ w ∈ splitWs t, IsWord w := splitWs_words t
  rw [h1] at hw
  have hn : IsWord name := hw name (by simp [firstWords])
  obtain ⟨e, he⟩ := addr2_of hs (fun w hw' => hw w (by simp [hw'])) 64
  have hP : PAlt4 (firstWords name "extended" act ++ (wd ["icmp"] ++ sw)) _ :=
    ⟨_, _, _, _, ⟨name, act, hn, ha, rfl, rfl⟩, ⟨_, _, _, _, ⟨_, rfl, rfl, rfl⟩, he, rfl, rfl⟩, rfl, rfl⟩
  obtain ⟨v, c, hc⟩ := then_sp_sem (r := addr2 70) (more := dw) (tw_alt4 n) ht (by rw [h1]; simp [wd]) (by
    rintro rfl
    cases hd with
    | other h => cases h) hP (fun w hw hs => by
      rw [← hs] at hd
      exact addr2_cut hw hd)
  obtain ⟨w, e1, e2, g1, g2, g3⟩ := sem_append.mp hc
  exact ⟨v, [] ++ e2 ++ e1, sem_append.mpr ⟨w, e1, [] ++ e2, g1, sem_cons.mpr ⟨v, e2, [], g2, icmp_none n v, rfl⟩, by simp⟩⟩

/-! ## Remarks -/

/-- Blanks, at least one. -/
def Gap (g : Str) : Prop := g ≠ [] ∧ ∀ c ∈ g, isSpace c = true

theorem sem_text {n : Nat} {u v : Str} {e : Caps} :
    Sem n (.grp 4 (.seq (.cls K.nonspace.cls) (.seq (.cls K.any.cls) (.star false (.cls K.any.cls))))) u v e ↔
      ∃ x y text, u = x :: y :: text ++ v ∧ isSpace x = false ∧ '\n' ∉ y :: text ∧ e = [(4, x :: y :: text)] := by
  have key : ∀ u v, Lang n (.seq (.cls K.nonspace.cls) (.seq (.cls K.any.cls) (.star false (.cls K.any.cls)))) u v ↔
      ∃ x y text, u = x :: y :: text ++ v ∧ isSpace x = false ∧ '\n' ∉ y :: text := by
    intro u v
    rw [Lang]
    constructor
    · rintro ⟨w, h1, h2⟩
      obtain ⟨x, rfl, hx⟩ := (lang_cls n .nonspace u w).mp h1
      obtain ⟨y, text, rfl, hy, ht⟩ := (lang_dot n false w v).mp h2
      refine ⟨x, y, text, rfl, by simpa [K.has] using hx, ?_⟩
      intro hm
      rcases List.mem_cons.mp hm with h | h
      · exact hy h.symm
      · exact ht _ h rfl
    · rintro ⟨x, y, text, rfl, hx, ht⟩
      refine ⟨y :: (text ++ v), (lang_cls n .nonspace _ _).mpr ⟨x, rfl, by simpa [K.has] using hx⟩,
        (lang_dot n false _ v).mpr ⟨y, text, rfl, ?_, ?_⟩⟩
      · rintro rfl; exact ht (by simp)
      · rintro c hc rfl; exact ht (by simp [hc])
  rw [sem_grp]
  constructor
  · rintro ⟨z, e', h1, h2, rfl⟩
    obtain ⟨h3, rfl⟩ := (sem_plain rfl).mp h1
    obtain ⟨x, y, text, h4, hx, ht⟩ := (key _ _).mp h3
    have : z = x :: y :: text := List.append_cancel_right (h2.symm.trans h4)
    exact ⟨x, y, text, h4, hx, ht, by rw [this]⟩
  · rintro ⟨x, y, text, rfl, hx, ht, rfl⟩
    exact ⟨x :: y :: text, [], (sem_plain rfl).mpr ⟨(key _ _).mpr ⟨x, y, text, rfl, hx, ht⟩, rfl⟩, rfl, rfl⟩

theorem sem_eol {n : Nat} {u v : Str} {e : Caps} : Sem n .eol u v e ↔ (u = [] ∨ u = ['\n']) ∧ v = u ∧ e = [] := by
  rw [sem_plain rfl, Lang]
  constructor
  · rintro ⟨⟨rfl, h⟩, rfl⟩; exact ⟨h, rfl, rfl⟩
  · rintro ⟨h, rfl, rfl⟩; exact ⟨⟨rfl, h⟩, rfl⟩

theorem sem_single {n : Nat} {a : Rgx} {u v : Str} {e : Caps} : Sem n (seqs [a]) u v e ↔ Sem n a u v e := Iff.rfl

theorem alt0_str {t v : Str} {c : Caps} : Sem t.length alt0 t v c ↔
    ∃ g1 name g2 g3 x y text z, t = "access-list".toList ++ (g1 ++ (name ++ (g2 ++ ("remark".toList ++ (g3 ++ (x :: y :: text ++ v)))))) ∧
      Gap g1 ∧ IsWord name ∧ Gap g2 ∧ Gap g3 ∧ isSpace x = false ∧ '\n' ∉ y :: text ∧ (v = [] ∨ v = ['\n']) ∧ t = z ++ v ∧
      c = [(1, z), (4, x :: y :: text), (3, "remark".toList), (2, name)] := by
  have hr : Wd t.length (litR "remark".toList) _ := wd_lit t.length (word_of (by decide))
  have ha : Wd t.length (litR "access-list".toList) _ := wd_lit t.length (word_of (by decide))
  rw [alt0, sem_grp]
  simp only [sem_bol]
  constructor
  · rintro ⟨z, e, h, hz, rfl⟩
    obtain ⟨u1, e1, _, h0, ha', rfl⟩ := sem_append.mp h
    obtain ⟨⟨_, h1, rfl⟩, rfl⟩ := (sem_wd ha).mp h0
    obtain ⟨u2, e2, _, h2, hb', rfl⟩ := sem_append.mp ha'
    obtain ⟨u3, e3, _, h3, h4, rfl⟩ := sem_cons.mp h2
    obtain ⟨⟨g1, rfl, hg1⟩, rfl⟩ := sem_sp.mp h3
    obtain ⟨name, rfl, hn, rfl⟩ := (sem_wd_grp (wd_word _)).mp h4
    obtain ⟨u4, e4, _, h5, hc', rfl⟩ := sem_append.mp hb'
    obtain ⟨u5, e5, _, h6, h7, rfl⟩ := sem_cons.mp h5
    obtain ⟨⟨g2, rfl, hg2⟩, rfl⟩ := sem_sp.mp h6
    obtain ⟨_, rfl, rfl, rfl⟩ := (sem_wd_grp hr).mp h7
    obtain ⟨u6, e6, _, h8, hd', rfl⟩ := sem_cons.mp hc'
    obtain ⟨⟨g3, rfl, hg3⟩, rfl⟩ := sem_sp.mp h8
    obtain ⟨u7, e7, _, h9, he', rfl⟩ := sem_cons.mp hd'
    obtain ⟨x, y, text, rfl, hx, ht, rfl⟩ := sem_text.mp h9
    obtain ⟨h10, rfl, rfl⟩ := sem_eol.mp he'
    exact ⟨g1, name, g2, g3, x, y, text, z, h1, hg1, hn, hg2, hg3, hx, ht, h10, hz, rfl⟩
  · rintro ⟨g1, name, g2, g3, x, y, text, z, h1, hg1, hn, hg2, hg3, hx, ht, h10, hz, rfl⟩
    refine ⟨z, _, sem_append.mpr ⟨_, _, _, (sem_wd ha).mpr ⟨⟨_, h1, rfl⟩, rfl⟩, sem_append.mpr ⟨_, _, _,
      sem_cons.mpr ⟨_, _, _, sem_sp.mpr ⟨⟨g1, rfl, hg1⟩, rfl⟩, (sem_wd_grp (wd_word _)).mpr ⟨name, rfl, hn, rfl⟩, rfl⟩,
      sem_append.mpr ⟨_, _, _, sem_cons.mpr ⟨_, _, _, sem_sp.mpr ⟨⟨g2, rfl, hg2⟩, rfl⟩, (sem_wd_grp hr).mpr ⟨_, rfl, rfl, rfl⟩, rfl⟩,
      sem_cons.mpr ⟨_, _, _, sem_sp.mpr ⟨⟨g3, rfl, hg3⟩, rfl⟩, sem_cons.mpr ⟨_, _, _, sem_text.mpr ⟨x, y, text, rfl, hx, ht, rfl⟩,
        sem_eol.mpr ⟨h10, rfl, rfl⟩, rfl⟩, rfl⟩, rfl⟩, rfl⟩, rfl⟩, hz, rfl⟩

theorem alt0_eval {t v : Str} {c : Caps} (h : Sem t.length alt0 t v c) : ∃ r, aclResult (dictOf c) = .ok r ∧ Remark t r := by
  obtain ⟨g1, name, g2, g3, x, y, text, z, h1, hg1, hn, hg2, hg3, hx, ht, hv, hz, rfl⟩ := alt0_str.mp h
  have hz' : z ≠ [] := by
    rintro rfl
    rcases hv with rfl | rfl <;> · rw [h1] at hz; have := congrArg List.length hz; simp at this <;> omega
  have hf : Full [(1, z), (4, x :: y :: text), (3, "remark".toList), (2, name)] := by
    intro q hq
    simp only [List.mem_cons, List.not_mem_nil, or_false] at hq
    rcases hq with rfl | rfl | rfl | rfl
    · exact hz'
    · simp
    · simp
    · exact hn.1
  have hr := aclResult_dict hf
  have z1 : ∀ {k}, 4 < k → List.lookup k [(1, z), (4, x :: y :: text), (3, "remark".toList), (2, name)] = none := by
    intro k hk
    simp only [List.lookup_cons, List.lookup_nil]
    rw [beq_false_of_ne (by omega), beq_false_of_ne (by omega), beq_false_of_ne (by omega), beq_false_of_ne (by omega)]
  have l2 : List.lookup 2 [(1, z), (4, x :: y :: text), (3, "remark".toList), (2, name)] = some name := rfl
  have l3 : List.lookup 3 [(1, z), (4, x :: y :: text), (3, "remark".toList), (2, name)] = some "remark".toList := rfl
  have l4 : List.lookup 4 [(1, z), (4, x :: y :: text), (3, "remark".toList), (2, name)] = some (x :: y :: text) := rfl
  simp (discharger := omega) only [first, z1, l2, l3, l4, Option.or_none] at hr
  have hp : ∀ o s g, protoC (some (x :: y :: text)) o s g = .ok (-1, some []) := fun _ _ _ => rfl
  have hm : ∀ a b c d, methodC (some "remark".toList) a b c d = .ok [] := fun _ _ _ _ => rfl
  have hl : logC none none none = .ok (-1, []) := rfl
  simp only [hp, hm, hl, bind, Except.bind] at hr
  refine ⟨_, hr, "access-list".toList ++ (g1 ++ (name ++ (g2 ++ ("remark".toList ++ g3)))), x, y, text, v, name, ?_, hv, ht, hx, ?_, ?_, rfl⟩
  · rw [h1]; simp only [List.append_assoc]
  · obtain ⟨p, b, hb⟩ := List.eq_nil_or_concat g3 |>.resolve_left hg3.1
    refine ⟨"access-list".toList ++ (g1 ++ (name ++ (g2 ++ ("remark".toList ++ p)))), b, ?_, hg3.2 b (by rw [hb]; simp)⟩
    rw [hb]
    simp only [List.append_assoc, List.concat_eq_append]
  · rw [splitWs_word_rest (word_of (by decide)) (gap_brk hg1.1 hg1.2), splitWs_spaces _ _ hg1.2,
      splitWs_word_rest hn (gap_brk hg2.1 hg2.2), splitWs_spaces _ _ hg2.2]
    have := splitWs_word_rest (w := "remark".toList) (word_of (by decide)) (gap_brk (v := []) hg3.1 hg3.2)
    rw [List.append_nil] at this
    rw [this]
    have h0 := splitWs_spaces g3 [] hg3.2
    rw [List.append_nil] at h0
    rw [h0]
    rfl

/-- The next word, behind blanks. -/
theorem next_gap {v x : Str} {rest : List Str} (hv : Brk v) (h : splitWs v = x :: rest) :
    ∃ g w, v = g ++ (x ++ w) ∧ Gap g ∧ Brk w ∧ splitWs w = rest := by
  have hb : Beg (lstrip v) := beg_of (by rw [h]; simp)
  obtain ⟨w, h1, h2, h3⟩ := split_beg hb (by rw [splitWs_lstrip]; exact h)
  refine ⟨v.takeWhile isSpace, w, ?_, ⟨?_, fun c hc => List.all_eq_true.mp List.all_takeWhile c hc⟩, h2, h3⟩
  · rw [← h1]; exact List.takeWhile_append_dropWhile.symm
  · intro h0
    cases v with
    | nil => cases h
    | cons a s =>
      rw [List.takeWhile_cons, hv a rfl, if_pos rfl] at h0
      cases h0

theorem alt0_compl {t : Str} (ht : Beg t) {r : AclResult} (h : Remark t r) : ∃ v c, Sem t.length alt0 t v c := by
  obtain ⟨pre, x, y, text, nl, name, h1, hn, hm, hx, ⟨p, b, h2, hb⟩, h3, -⟩ := h
  have hpre : Beg pre := by
    obtain ⟨a, h4, h5⟩ := ht
    refine ⟨a, ?_, h5⟩
    rw [h1] at h4
    cases pre with
    | nil => simp at h2
    | cons q l => exact h4
  obtain ⟨w1, e1, k1, s1⟩ := split_beg hpre h3
  obtain ⟨g1, w2, e2, hg1, k2, s2⟩ := next_gap k1 s1
  obtain ⟨g2, w3, e3, hg2, k3, s3⟩ := next_gap k2 s2
  have hw : IsWord name := splitWs_words pre name (by rw [h3]; simp [wd])
  have hg3 : Gap w3 := by
    refine ⟨?_, fun c hc => List.all_eq_true.mp (splitWs_eq_nil.mp s3) c hc⟩
    rintro rfl
    rw [h2, e2, e3] at e1
    have e4 : p ++ [b] = ("access-list".toList ++ (g1 ++ (name ++ (g2 ++ "remar".toList)))) ++ ['k'] := by
      rw [e1]
      simp only [List.append_assoc, List.append_nil]
      rfl
    have := (List.append_inj' e4 rfl).2
    cases this
    exact absurd hb (by decide)
  refine ⟨nl, _, alt0_str.mpr ⟨g1, name, g2, w3, x, y, text, pre ++ x :: y :: text, ?_, hg1, hw, hg2, hg3, hx, hm, hn, h1, rfl⟩⟩
  rw [h1, e1, e2, e3]
  simp only [List.append_assoc]

/-! ## The words of the extended lists are read -/

theorem proto_of {ws : List Str} {n : Int} {o : Str} (h : Protocol ws n o) (hw : ∀ w ∈ ws, IsWord w) (a b : Nat) :
    ∃ e, PProto a b ws e := by
  cases h with
  | group => exact ⟨_, .inl ⟨_, hw _ (by simp), rfl, rfl⟩⟩
  | @name p n h =>
    refine ⟨_, .inr ⟨p.toList, .inl ?_, rfl, rfl⟩⟩
    have : p ∈ protoNames := by
      simp only [List.mem_cons, Prod.mk.injEq, List.not_mem_nil, or_false] at h
      rcases h with h | h | h | h | h | h | h | h | h | h | h | h | h | h | h | h <;> · rw [h.1]; decide
    exact List.mem_map.mpr ⟨p, this, rfl⟩
  | number h => exact ⟨_, .inr ⟨_, .inr h, rfl, rfl⟩⟩

theorem port_of {ws : List Str} (h : Ports ws) (hw : ∀ w ∈ ws, IsWord w) (b : Nat) : ∃ e, Or2 (PPort b) Void ws e := by
  cases h with
  | all => exact ⟨_, .inr ⟨rfl, rfl⟩⟩
  | cmp h => exact ⟨_, .inl (.inl ⟨_, _, h, hw _ (by simp), rfl, rfl⟩)⟩
  | range => exact ⟨_, .inl (.inr (.inl ⟨_, _, hw _ (by simp), hw _ (by simp), rfl, rfl⟩))⟩
  | group => exact ⟨_, .inl (.inr (.inr ⟨_, hw _ (by simp), rfl, rfl⟩))⟩

theorem log_of {ws : List Str} {l : Bool} {i : Int} {v : Str} (h : Logs ws l i v) (b : Nat) : ∃ e, Or2 (PLog b) Void ws e := by
  cases h with
  | off => exact ⟨_, .inr ⟨rfl, rfl⟩⟩
  | plain => exact ⟨_, .inl ⟨_, _, _, _, .inr ⟨rfl, rfl⟩, .inr ⟨rfl, rfl⟩, rfl, rfl⟩⟩
  | level h => exact ⟨_, .inl ⟨_, _, _, _, .inl ⟨_, h, rfl, rfl⟩, .inr ⟨rfl, rfl⟩, rfl, rfl⟩⟩
  | interval h =>
    exact ⟨_, .inl ⟨_, _, _, _, .inr ⟨rfl, rfl⟩, .inl ⟨⟨_, Digs.word h, rfl, rfl⟩, _, rfl, h⟩, rfl, rfl⟩⟩
  | both h h' =>
    exact ⟨_, .inl ⟨_, _, _, _, .inl ⟨_, h, rfl, rfl⟩, .inl ⟨⟨_, Digs.word h', rfl, rfl⟩, _, rfl, h'⟩, rfl, rfl⟩⟩

theorem dis_of {ws : List Str} {l : Bool} (h : Disabled ws l) (b : Nat) : ∃ e, PDis b ws e := by
  cases h with
  | no => exact ⟨_, .inr ⟨rfl, rfl⟩⟩
  | yes => exact ⟨_, .inl ⟨_, rfl, rfl, rfl⟩⟩

theorem when_of {ws : List Str} {l : Option Str} (h : When ws l) (hw : ∀ w ∈ ws, IsWord w) (b : Nat) : ∃ e, PWhen b ws e := by
  cases h with
  | always => exact ⟨_, .inr (.inr ⟨rfl, rfl⟩)⟩
  | never => exact ⟨_, .inl ⟨_, rfl, rfl, rfl⟩⟩
  | range => exact ⟨_, .inr (.inl ⟨_, hw _ (by simp), rfl, rfl⟩)⟩

theorem alt2_compl {n : Nat} {t : Str} (ht : Beg t) {r : AclResult} (h : Extended (splitWs t) r) :
    ∃ v c, Sem n (seqs (alt2L ++ endL)) t v c := by
  obtain ⟨name, act, pw, src, sw, pw1, dst, dw, pw2, lw, xw, tw, obj, h1, ha, h2, h3, h4, h5, h6, h7, h8, h9, _⟩ := h
  have hw : ∀ w ∈ splitWs t, IsWord w := splitWs_words t
  rw [h1] at hw
  obtain ⟨e2, k2⟩ := proto_of h2 (fun w hw' => hw w (by simp [hw'])) 25 26
  obtain ⟨e3, k3⟩ := addr2_of h3 (fun w hw' => hw w (by simp [hw'])) 27
  obtain ⟨e4, k4⟩ := port_of h4 (fun w hw' => hw w (by simp [hw'])) 33
  obtain ⟨e5, k5⟩ := addr2_of h5 (fun w hw' => hw w (by simp [hw'])) 38
  obtain ⟨e6, k6⟩ := port_of h6 (fun w hw' => hw w (by simp [hw'])) 44
  obtain ⟨e7, k7⟩ := log_of h7 49
  obtain ⟨e8, k8⟩ := dis_of h8 52
  obtain ⟨e9, k9⟩ := when_of h9 (fun w hw' => hw w (by simp [hw'])) 53
  have hP : PAlt2 (firstWords name "extended" act ++ (pw ++ (sw ++ (pw1 ++ (dw ++ (pw2 ++ (lw ++ (xw ++ tw)))))))) _ :=
    ⟨_, _, _, _, ⟨name, act, hw name (by simp [firstWords]), ha, rfl, rfl⟩, ⟨_, _, _, _, k2, ⟨_, _, _, _, k3, ⟨_, _, _, _, k4,
      ⟨_, _, _, _, k5, ⟨_, _, _, _, k6, ⟨_, _, _, _, k7, ⟨_, _, _, _, k8, k9, rfl, rfl⟩, rfl, rfl⟩, rfl, rfl⟩, rfl, rfl⟩, rfl, rfl⟩,
        rfl, rfl⟩, rfl, rfl⟩, rfl, rfl⟩
  obtain ⟨v, k10, _, k11⟩ := (tw_alt2 n).compl (rest := []) ht (by rw [h1]; simp only [List.append_assoc, List.append_nil]) hP
  exact ⟨_, _, sem_append.mpr ⟨v, _, [], k10, end_sem k11, rfl⟩⟩

/-! ## The lines -/

theorem acl_eval {t v : Str} {c : Caps} (h : Sem t.length aclRgx t v c) : ∃ r, aclResult (dictOf c) = .ok r ∧ Reads t r := by
  rcases sem_acl.mp h with h | h | h | h | h
  · obtain ⟨r, h1, h2⟩ := alt0_eval h
    exact ⟨r, h1, .inl h2⟩
  · obtain ⟨w, e1, e2, h1, h2, rfl⟩ := sem_append.mp h
    obtain ⟨hb, hs, rfl⟩ := sem_end h2
    obtain ⟨_, ws, h3, h4⟩ := (tw_alt1 _).sound h1 hb
    obtain ⟨r, h5, h6⟩ := alt1_eval h4
    rw [hs, List.append_nil] at h3
    exact ⟨r, h5, .inr (.inl (h3 ▸ h6))⟩
  · obtain ⟨w, e1, e2, h1, h2, rfl⟩ := sem_append.mp h
    obtain ⟨hb, hs, rfl⟩ := sem_end h2
    obtain ⟨_, ws, h3, h4⟩ := (tw_alt2 _).sound h1 hb
    obtain ⟨r, h5, h6⟩ := alt2_eval h4
    rw [hs, List.append_nil] at h3
    exact ⟨r, h5, .inr (.inl (h3 ▸ h6))⟩
  · obtain ⟨r, h1, h2⟩ := alt3_eval h
    exact ⟨r, h1, .inr (.inr (.inl h2))⟩
  · obtain ⟨r, h1, h2⟩ := alt4_eval h
    exact ⟨r, h1, .inr (.inr (.inr h2))⟩

theorem reads_beg {t v : Str} {c : Caps} (h : Sem t.length aclRgx t v c) : Beg t := by
  rcases sem_acl.mp h with h | h | h | h | h
  · obtain ⟨_, _, _, _, _, _, _, _, h1, _⟩ := alt0_str.mp h
    rw [h1]
    exact beg_word (word_of (by decide))
  · obtain ⟨w, e1, e2, h1, h2, _⟩ := sem_append.mp h
    exact ((tw_alt1 _).sound h1 (sem_end h2).1).1
  · obtain ⟨w, e1, e2, h1, h2, _⟩ := sem_append.mp h
    exact ((tw_alt2 _).sound h1 (sem_end h2).1).1
  · obtain ⟨w, e1, e2, h1, h2, _⟩ := sem_append.mp h
    obtain ⟨_, _, _, h3, _⟩ := sem_cons.mp h2
    obtain ⟨⟨g, rfl, hg, hg'⟩, _⟩ := sem_sp.mp h3
    exact ((tw_head _ 55 56 (by decide)).sound h1 (gap_brk hg hg')).1
  · obtain ⟨w, e1, e2, h1, h2, _⟩ := sem_append.mp h
    obtain ⟨_, _, _, h3, _⟩ := sem_cons.mp h2
    obtain ⟨_, _, _, h4, _⟩ := sem_cons.mp h3
    obtain ⟨⟨g, rfl, hg, hg'⟩, _⟩ := sem_sp.mp h4
    exact ((tw_alt4 _).sound h1 (gap_brk hg hg')).1

theorem reads_sem {t : Str} (ht : Beg t) {r : AclResult} (h : Reads t r) : ∃ v c, Sem t.length aclRgx t v c := by
  rcases h with h | h | h | h
  · obtain ⟨v, c, h⟩ := alt0_compl ht h
    exact ⟨v, c, sem_acl.mpr (.inl h)⟩
  · obtain ⟨v, c, h⟩ := alt2_compl ht h
    exact ⟨v, c, sem_acl.mpr (.inr (.inr (.inl h)))⟩
  · obtain ⟨v, c, h⟩ := alt3_compl ht h
    exact ⟨v, c, sem_acl.mpr (.inr (.inr (.inr (.inl h))))⟩
  · obtain ⟨v, c, h⟩ := alt4_compl ht h
    exact ⟨v, c, sem_acl.mpr (.inr (.inr (.inr (.inr h))))⟩

end Asa

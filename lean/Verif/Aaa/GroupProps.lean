import Verif.Aaa.AcctProps
import Verif.Nxos.HsrpProps
import Verif.Nxos.TrunkProps

/-! # Properties of the AAA server groups -/

namespace Aaa

open Py Conf Query Re Cisco

/-! ## C150: the group, its VRF and its source interface -/

theorem group_det {ws : List Str} (hw : ∀ w ∈ ws, IsWord w) (hne : ws ≠ []) :
    Cisco.reSearch "^aaa\\sgroup\\sserver\\s(?P<protocol>\\S+)\\s(?P<group>\\S+)\\s*$" (Spec.line ws) =
      .ok (((reads [(.lit "aaa".toList, false), (.lit "group".toList, false), (.lit "server".toList, false), (.fld .nonspace 1, false)] ws []).bind
        (fun q => lastOne 2 q.1 q.2)).map
          (fun q => (⟨seqs (.bol :: (toksP [(.lit "aaa".toList, false), (.lit "group".toList, false), (.lit "server".toList, false), (.fld .nonspace 1, false)]
            (.grp 2 (.plus .nonspace .done) .spEol)).toL), 2, [("protocol".toList, 1), ("group".toList, 2)]⟩,
            ⟨(Spec.line ws).take ((Spec.line ws).length - q.1.length), 0, q.2⟩))) := by
  rw [reSearch_det (p := toksP [(.lit "aaa".toList, false), (.lit "group".toList, false), (.lit "server".toList, false), (.fld .nonspace 1, false)]
    (.grp 2 (.plus .nonspace .done) .spEol)) (n := 2) (names := [("protocol".toList, 1), ("group".toList, 2)]) (by decide +kernel),
    line_det (by decide) 2 (.inr rfl) hw hne]

/-- C150: the line `aaa group server PROTOCOL GROUP` has this protocol and this group. -/
theorem C150_group : ∀ p g, IsWord p → IsWord g →
    groupServer (Spec.line (Spec.wd ["aaa", "group", "server"] ++ [p, g])) = .ok (p, g) := by
  intro p g hp hg
  have hw : ∀ w ∈ Spec.wd ["aaa", "group", "server"] ++ [p, g], IsWord w := by
    intro w hw
    simp only [Spec.wd, List.map_cons, List.map_nil, List.cons_append, List.nil_append, List.mem_cons, List.not_mem_nil, or_false] at hw
    rcases hw with rfl | rfl | rfl | rfl | rfl
    all_goals first | assumption | exact isWord_iff.mp (by decide)
  have hp' : p.all K.nonspace.has = true := List.all_eq_true.mpr (word_nsp hp)
  have hr : (reads [(.lit "aaa".toList, false), (.lit "group".toList, false), (.lit "server".toList, false), (.fld .nonspace 1, false)]
      (Spec.wd ["aaa", "group", "server"] ++ [p, g]) []).bind (fun q => lastOne 2 q.1 q.2) = some ([], [(2, g), (1, p)]) := by
    simp [Spec.wd, reads, Tok.read, hp', lastOne]
  rw [groupServer, group_det hw (by simp [Spec.wd]), hr]
  rfl

/-- C150: any other line raises ValueError. -/
theorem C150_group_other : ∀ ws, ws ≠ [] → (∀ w ∈ ws, IsWord w) → (∀ p g, ws ≠ Spec.wd ["aaa", "group", "server"] ++ [p, g]) →
    groupServer (Spec.line ws) = .error .valueError := by
  intro ws hne hw hn
  have hr : (reads [(.lit "aaa".toList, false), (.lit "group".toList, false), (.lit "server".toList, false), (.fld .nonspace 1, false)]
      ws []).bind (fun q => lastOne 2 q.1 q.2) = none := by
    rw [Option.eq_none_iff_forall_ne_some]
    intro q h
    rcases ws with _ | ⟨w1, _ | ⟨w2, _ | ⟨w3, _ | ⟨w4, _ | ⟨w5, ws⟩⟩⟩⟩⟩ <;>
      simp only [reads, Tok.read, Option.bind_eq_some_iff, Option.ite_none_right_eq_some, Option.some.injEq, reduceCtorEq,
        false_and, and_false, exists_false] at h
    obtain ⟨_, ⟨_, ⟨h1, rfl⟩, _, ⟨h2, rfl⟩, _, ⟨h3, rfl⟩, _, ⟨h4, rfl⟩, rfl⟩, h8⟩ := h
    cases ws with
    | cons _ _ => cases h8
    | nil => exact hn w4 w5 (by rw [h1, h2, h3]; rfl)
  rw [groupServer, group_det hw hne, hr]
  rfl

/-- C150: `vrf` of an NXOS server group is the word behind `use-vrf`. -/
theorem C150_vrf_nxos : ∀ (o : Opts) (lines : List Str) (P : Parsed), parse o lines = .ok P → (∀ l ∈ lines, '\n' ∉ l) → ∀ i,
    ∃ v, Spec.First (fun t v => Spec.Indented t ∧ Spec.Next ["use-vrf"] t v) (Spec.family P i) v ∧ vrf .nxos P i = .ok (v.getD []) := by
  intro o lines P h hn i
  obtain ⟨v, h1, h2⟩ := tail_attr h hn i (rx := "^\\s+use-vrf\\s+(\\S+)") (ind := true) (pre := gaps true ["use-vrf"]) (n := 1) (g := 1)
    (names := []) (tail_next 1) (by decide +kernel) (fun t _ => .inl (by simp [gaps])) toStr []
    (fun ws v _ => ⟨v, rfl⟩)
  refine ⟨v, first_congr (fun t _ a => ?_) h1, h2⟩
  constructor
  · rintro ⟨h1, more, v, h2, ⟨more', rfl⟩, h4⟩
    cases h4
    exact ⟨h1 rfl, more', h2⟩
  · rintro ⟨h1, more, h2⟩
    exact ⟨fun _ => h1, _, a, h2, ⟨more, rfl⟩, rfl⟩

/-- At least one blank is any number of blanks on an indented line. -/
theorem plus_star (p : Prog) (t : Str) (c : Caps) (q : Str × Caps) :
    (Prog.plus .space p).det t c = some q ↔ Spec.Indented t ∧ (Prog.star .space p).det t c = some q := by
  cases t with
  | nil => simp [Prog.det, Spec.Indented]
  | cons x t =>
    rw [Prog.det, Prog.det]
    by_cases hx : isSpace x = true
    · simp [Spec.Indented, K.has, hx]
    · simp [Spec.Indented, K.has, hx]

/-- C150: `vrf` of an IOS server group is the word behind `vrf forwarding` or `ip vrf forwarding`. -/
theorem C150_vrf_ios : ∀ (o : Opts) (lines : List Str) (P : Parsed), parse o lines = .ok P → (∀ l ∈ lines, '\n' ∉ l) → ∀ i,
    ∃ v, Spec.First (fun t v => Spec.Indented t ∧ ∃ k more,
      splitWs t = List.replicate k "ip".toList ++ Spec.wd ["vrf", "forwarding"] ++ v :: more) (Spec.family P i) v ∧ vrf .ios P i = .ok (v.getD []) := by
  intro o lines P h hn i
  have hitem : Item1 (str "ip".toList (.plus .space .done)) (fun v => v = "ip".toList) :=
    item_word (isWord_iff.mp (by decide))
  have hpre : (([] : List (Str × Bool)) ++ gaps true ["vrf", "forwarding"]).all (fun w => isWord w.1) = true := by decide
  have ha : After (wordsG (gaps true ["vrf", "forwarding"]) (.grp 2 (.plus .nonspace .done) .done)) (fun v => v = "ip".toList) :=
    after_str_word (w := "vrf".toList) _ (x := 'v') (y := 'i') (w' := "rf".toList) (u' := "p".toList) rfl rfl (by decide)
  have hloop := fun t ht => loop_tail (pre := []) 1 hitem (l := gaps true ["vrf", "forwarding"]) (tail_next 2) hpre ha
    (t := t) (line_family h hn i t ht) (.inl (by simp [gaps])) []
  refine iter_first (p := .plus .space (.loop 1 (str "ip".toList (.plus .space .done))
    (wordsG (gaps true ["vrf", "forwarding"]) (.grp 2 (.plus .nonspace .done) .done)))) (n := 2) (names := [])
    (rx := "^\\s+(ip\\s+)*vrf\\s+forwarding\\s+(\\S+)") (by decide +kernel) (by decide) (by decide) toStr [] P i ?_ ?_
  · intro t ht q hq
    obtain ⟨h0, hq⟩ := (plus_star _ _ _ _).mp hq
    obtain ⟨ns, x, more, a, h1, h2, ⟨more', rfl⟩, -, -, h6, -⟩ := (hloop t ht).1 q hq
    refine ⟨a, ⟨h0, ns.length, more', ?_⟩, by rw [h6]; rfl⟩
    have e : ns = List.replicate ns.length "ip".toList := List.eq_replicate_iff.mpr ⟨rfl, h1⟩
    rw [← e]
    simpa [gaps, Spec.wd] using h2
  · rintro t ht a ⟨h0, k, more, h1⟩
    obtain ⟨q, hq⟩ := (hloop t ht).2 (List.replicate k "ip".toList) (a :: more) a (fun n hn => (List.mem_replicate.mp hn).2)
      (by simpa [gaps, Spec.wd] using h1) ⟨more, rfl⟩
    exact ⟨q, (plus_star _ _ _ _).mpr ⟨h0, hq⟩⟩

/-! ### `(\S.+?\S)\s*$` -/

/-- Up to the last character there is one way. -/
theorem star_last (n : Nat) (b : Bool) {κ : Str × Caps → List (Str × Caps)} (c : Caps) (h0 : κ ([], c) = [])
    (hκ : ∀ x y s, '\n' ∉ (x :: y :: s : Str) → (∀ z, (y :: s).getLast? = some z → isSpace z = false) → κ (x :: y :: s, c) = []) :
    ∀ (m : Nat) {s : Str}, '\n' ∉ s → (∀ z, s.getLast? = some z → isSpace z = false) → s.length ≤ m →
      (runStar b (run n (.cls K.any.cls)) m s c).flatMap κ = s.getLast?.elim [] (fun z => κ ([z], c))
  | 0, s, _, _, h => by
    have : s = [] := List.length_eq_zero_iff.mp (by omega)
    subst this
    simp [runStar, h0]
  | m + 1, [], _, _, _ => by
    cases b <;> simp [runStar, run, h0]
  | m + 1, x :: s, hs, hz, h => by
    have hx : K.any.cls.has x = true := by
      rw [K.cls_has]; exact any_of_line hs x (by simp)
    have hs' : '\n' ∉ s := fun hh => hs (by simp [hh])
    have hlt : s.length < (x :: s).length := by simp
    have ih := star_last n b c h0 hκ m (s := s) hs' (fun z h => hz z (by
      cases s with
      | nil => cases h
      | cons y s => rw [List.getLast?_cons_cons]; exact h)) (by simpa using h)
    have key : (κ (x :: s, c) = [] ∧ s.getLast? = (x :: s).getLast?) ∨ (s = []) := by
      cases s with
      | nil => exact .inr rfl
      | cons y s => exact .inl ⟨hκ x y s hs (fun z h => hz z (by rw [List.getLast?_cons_cons]; exact h)), List.getLast?_cons_cons.symm⟩
    rw [runStar]
    cases b with
    | true =>
      rw [if_pos rfl, run, if_pos hx]
      simp only [List.flatMap_cons, List.flatMap_nil, List.append_nil, if_pos hlt, List.flatMap_append, ih]
      rcases key with ⟨k1, k2⟩ | rfl
      · rw [k1, k2, List.append_nil]
      · simp
    | false =>
      rw [if_neg (by decide), run, if_pos hx]
      simp only [List.flatMap_cons, List.flatMap_nil, List.append_nil, if_pos hlt, ih]
      rcases key with ⟨k1, k2⟩ | rfl
      · rw [k1, k2, List.nil_append]
      · simp

def threeL : List Rgx :=
  [.grp 1 (.seq (.cls K.nonspace.cls) (.seq (.seq (.cls K.any.cls) (.star false (.cls K.any.cls))) (.cls K.nonspace.cls))),
    .star true (.cls K.space.cls), .eol]

def threeP : Prog := .grp 1 (.one .nonspace (.one .any (.plus .any .done))) (.eol .done)

theorem run_end (n : Nat) (c : Caps) : run n (seqs [.star true (.cls K.space.cls), .eol]) [] c = [([], c)] := by
  rw [run_seqs_cons', run]
  simp only [List.length_nil, runStar, List.flatMap_cons, List.flatMap_nil, List.append_nil]
  exact Nxos.run_eol_nil n c

theorem run_end_miss (n : Nat) {s : Str} (hne : s ≠ []) (hz : ∀ z, s.getLast? = some z → isSpace z = false) (c : Caps) :
    run n (seqs [.star true (.cls K.space.cls), .eol]) s c = [] := by
  refine miss_prog n (p := .spEol) (by decide) ?_
  rw [Prog.det, if_neg]
  intro h
  obtain ⟨u, z, rfl⟩ : ∃ u z, s = u ++ [z] := ⟨_, _, (List.dropLast_concat_getLast hne).symm⟩
  have := hz z (by simp)
  rw [List.all_append] at h
  simp [this] at h

theorem run_threeL (n : Nat) {s : Str} (hs : '\n' ∉ s) (hz : ∀ z, s.getLast? = some z → isSpace z = false) (c : Caps) :
    run n (seqs threeL) s c = run n (seqs threeP.toL) s c := by
  rw [threeL, run_seqs_cons', run, List.flatMap_map, run, threeP, Prog.toL, run_seqs_cons', run, List.flatMap_map, Prog.toL, run_seqs_cons']
  cases s with
  | nil => rfl
  | cons x s =>
    have hs' : '\n' ∉ s := fun h => hs (by simp [h])
    rw [run, K.cls_has]
    by_cases hx : K.nonspace.has x = true
    · rw [if_pos hx]
      simp only [List.flatMap_cons, List.flatMap_nil, List.append_nil]
      rw [Prog.toL, run_seqs_cons', run, run]
      cases s with
      | nil => rfl
      | cons y s =>
        have hs2 : '\n' ∉ s := fun h => hs' (by simp [h])
        rw [run, K.cls_has, if_pos (any_of_line hs' y (by simp))]
        simp only [List.flatMap_cons, List.flatMap_nil, List.append_nil]
        rw [Prog.toL, Prog.toL, run_seqs_cons', run, run, List.flatMap_assoc, List.flatMap_assoc]
        cases s with
        | nil => rfl
        | cons w s =>
          have hz' : ∀ z, (w :: s).getLast? = some z → isSpace z = false := fun z h => hz z (by
            rw [List.getLast?_cons_cons, List.getLast?_cons_cons]; exact h)
          rw [star_last n false c ?_ ?_ _ hs2 hz' (Nat.le_refl _)]
          · cases hl : (w :: s).getLast? with
            | none => simp at hl
            | some z =>
              have hzz : K.nonspace.has z = true := by simp [K.has, hz' z hl]
              rw [Option.elim_some, run, K.cls_has, if_pos hzz]
              simp only [List.flatMap_cons, List.flatMap_nil, List.append_nil]
              rw [run_end, run, K.cls_has, if_pos (any_of_line hs2 w (by simp))]
              have e : ∀ s c, run n (seqs []) s c = [(s, c)] := fun _ _ => rfl
              simp only [List.flatMap_cons, List.flatMap_nil, List.append_nil, e]
              have := Nxos.star_any n true
                (κ := fun a => run n (seqs [.eol]) a.1 ((1, List.take ((x :: y :: w :: s).length - List.length a.1) (x :: y :: w :: s)) :: a.2))
                (fun y u c hu => Nxos.run_eol_cons n y u _ hu) c s.length (s := s) (fun h => hs2 (by simp [h])) (Nat.le_refl _)
              rw [run]
              refine Eq.trans ?_ this.symm
              rw [Nxos.run_eol_nil]
          · rfl
          · intro a b u hn hl
            simp only [run]
            rw [K.cls_has]
            by_cases ha : K.nonspace.has a = true
            · rw [if_pos ha]
              simp only [List.flatMap_cons, List.flatMap_nil, List.append_nil]
              exact run_end_miss n (by simp) hl _
            · rw [if_neg ha]
              rfl
    · rw [if_neg hx]
      rfl

/-- The expression is `pre` and `(\S.+?\S)\s*$`. -/
def IsThree (rx : String) (pre : List (Str × Bool)) : Prop :=
  compile rx = .ok ⟨seqs (.bol :: ((lead true (wordsG pre .done)).toL ++ threeL)), 1, []⟩ ∧
    (lead true (wordsG pre threeP)).toL = (lead true (wordsG pre .done)).toL ++ threeP.toL ∧
    (lead true (wordsG pre threeP)).wf (fun _ => false) true = true

instance (rx : String) (pre : List (Str × Bool)) : Decidable (IsThree rx pre) := inferInstanceAs (Decidable (_ ∧ _ ∧ _))

theorem three_search {pre : List (Str × Bool)} {rx : String} (h : IsThree rx pre) {t : Str} (ht : Line t) :
    search ⟨seqs (.bol :: ((lead true (wordsG pre .done)).toL ++ threeL)), 1, []⟩ t =
      ((lead true (wordsG pre threeP)).det t []).map (fun q => ⟨t.take (t.length - q.1.length), 0, q.2⟩) := by
  rw [← search_bol _ h.2.2 1 [] t, h.2.1]
  refine Nxos.search_ends (fun s c hs => ?_) 1 []
  exact run_threeL _ (fun hh => ht.1 (hs.subset hh)) (fun z hz => getLast?_rstrip s z (by rw [(line_suffix hs ht).2]; exact hz)) c

theorem iter_three {α : Type} {pre : List (Str × Bool)} {rx : String} (h : IsThree rx pre) (conv : Option Str → Except Err α) (dflt : α)
    (P : Parsed) (i : Nat) (ht : ∀ t ∈ Spec.family P i, Line t) :
    iterTyped P i rx 1 conv dflt =
      match firstDet (lead true (wordsG pre threeP)) (Spec.family P i) with
      | some c => conv (c.lookup 1)
      | none => .ok dflt := by
  have key : ∀ ts : List Str, (∀ t ∈ ts, Line t) →
      (firstMatch ⟨seqs (.bol :: ((lead true (wordsG pre .done)).toL ++ threeL)), 1, []⟩ ts).map Found.caps =
        firstDet (lead true (wordsG pre threeP)) ts := by
    intro ts
    induction ts with
    | nil => intro _; rfl
    | cons t ts ih =>
      intro hts
      rw [firstMatch, firstDet, three_search h (hts t (by simp))]
      cases hd : (lead true (wordsG pre threeP)).det t [] with
      | none => simpa using ih (fun u hu => hts u (by simp [hu]))
      | some q => rfl
  have := key _ ht
  rw [← texts_family] at this
  rw [← texts_family, ← this, iterTyped, h.1]
  simp only [if_true]
  cases firstMatch _ (texts P i) with
  | none => rfl
  | some m =>
    simp only [Found.group, if_neg (by decide : (1 : Nat) ≠ 0), if_pos (by decide : 1 ≤ 1), Option.map_some]
    rfl

theorem three_det {pre : List String} (hp : pre ≠ []) (hl : (gaps true pre).all (fun w => isWord w.1) = true) {t : Str} (ht : '\n' ∉ t)
    (q : Str × Caps) :
    (lead true (wordsG (gaps true pre) threeP)).det t [] = some q ↔
      Spec.Indented t ∧ ∃ r, Nxos.Spec.Rest pre t r ∧ 3 ≤ r.length ∧ q = ([], [(1, r)]) := by
  rw [det_chain true (words_of hl) threeP (fun _ => rfl) (.inl (by simp [gaps])), fst_gaps]
  have hlen : (gaps true pre).length = pre.length := by simp [gaps]
  rw [hlen]
  simp only [Nxos.rest_iff hp]
  have h0 := lstrip_skip pre.length (lstrip_lstrip t)
  have hnl : '\n' ∉ skip pre.length (lstrip t) := fun hh =>
    ht (((skip_suffix _ _).trans (lstrip_suffix t)).subset hh)
  have hd : ∀ r : Str, '\n' ∉ r → lstrip r = r → (threeP.det r [] = some q ↔ 3 ≤ r.length ∧ q = ([], [(1, r)])) := by
    intro r hr h0
    rcases r with _ | ⟨x, _ | ⟨y, _ | ⟨z, r⟩⟩⟩
    · simp [threeP, Prog.det]
    · simp [threeP, Prog.det, K.has]
    · simp [threeP, Prog.det, K.has]
    · have hx : isSpace x = false := by
        obtain ⟨c, hc, h⟩ := head_of_lstrip h0 (by simp)
        cases hc
        exact h
      have hy : (y != '\n') = true := any_of_line hr y (by simp)
      have hz : (z != '\n') = true := any_of_line hr z (by simp)
      have hd : r.dropWhile (fun c => c != '\n') = [] := by
        have hall : ∀ c ∈ r, (c != '\n') = true := fun c hc => any_of_line hr c (by simp [hc])
        have := List.dropWhile_append_of_pos (p := fun c => c != '\n') (l₂ := []) hall
        simpa using this
      have hk : K.any.has = fun c => c != '\n' := by funext c; rfl
      simp only [threeP, Prog.det, hk, hd, hy, hz, K.has, hx]
      simp [eq_comm]
  constructor
  · rintro ⟨h1, h2, h3⟩
    obtain ⟨h4, h5⟩ := (hd _ hnl h0).mp h3
    refine ⟨h1 trivial, _, ⟨h2, rfl, ?_⟩, h4, h5⟩
    intro e
    rw [e] at h4
    simp at h4
  · rintro ⟨h1, r, ⟨h2, rfl, h3⟩, h4, h5⟩
    exact ⟨fun _ => h1, h2, (hd _ hnl h0).mpr ⟨h4, h5⟩⟩

/-- C150: `source_interface` is the text behind `source-interface` (NXOS) or
`ip tacacs source-interface` (IOS), if it has three characters or more. -/
theorem C150_source : ∀ (o : Opts) (lines : List Str) (P : Parsed), parse o lines = .ok P → (∀ l ∈ lines, '\n' ∉ l) → ∀ i,
    (∃ v, Spec.First (fun t v => Spec.Indented t ∧ Nxos.Spec.Rest ["ip", "tacacs", "source-interface"] t v ∧ 3 ≤ v.length)
      (Spec.family P i) v ∧ sourceInterface .ios P i = .ok (v.getD [])) ∧
    (∃ v, Spec.First (fun t v => Spec.Indented t ∧ Nxos.Spec.Rest ["source-interface"] t v ∧ 3 ≤ v.length)
      (Spec.family P i) v ∧ sourceInterface .nxos P i = .ok (v.getD [])) := by
  intro o lines P h hn i
  have key : ∀ {rx : String} {pre : List String}, IsThree rx (gaps true pre) → pre ≠ [] → (gaps true pre).all (fun w => isWord w.1) = true →
      ∃ v, Spec.First (fun t v => Spec.Indented t ∧ Nxos.Spec.Rest pre t v ∧ 3 ≤ v.length) (Spec.family P i) v ∧
        iterTyped P i rx 1 toStr [] = .ok (v.getD []) := by
    intro rx pre hi hp hl
    rw [iter_three hi toStr [] P i (line_family h hn i)]
    refine first_det [] _ ?_ ?_
    · intro t ht q hq
      obtain ⟨h1, r, h2, h3, rfl⟩ := (three_det hp hl (line_family h hn i t ht).1 q).mp hq
      exact ⟨r, ⟨h1, h2, h3⟩, rfl⟩
    · rintro t ht a ⟨h1, h2, h3⟩
      exact ⟨_, (three_det hp hl (line_family h hn i t ht).1 _).mpr ⟨h1, a, h2, h3, rfl⟩⟩
  exact ⟨key (rx := "^\\s+ip\\s+tacacs\\s+source-interface\\s+(\\S.+?\\S)\\s*$") (by decide +kernel) (by simp) (by decide),
    key (rx := "^\\s+source-interface\\s+(\\S.+?\\S)\\s*$") (by decide +kernel) (by simp) (by decide)⟩

/-! ## C151: the private servers -/

/-- A word with another one behind it. -/
theorem tail_more (g : Nat) : Tail (.grp g (.plus .nonspace .done) (.one .space .done)) g (fun ws a => ∃ b more, ws = a :: b :: more) := by
  have hd : ∀ r c q, lstrip r = r → Line r → ((Prog.grp g (.plus .nonspace .done) (.one .space .done)).det r c = some q ↔
      ∃ a b more, splitWs r = a :: b :: more ∧ q = ((r.dropWhile nsp).drop 1, (g, a) :: c)) := by
    intro r c q h0 hl
    rw [det_word h0]
    by_cases hne : r = []
    · subst hne
      constructor
      · rintro ⟨v, vs, h, _⟩; cases h
      · rintro ⟨v, b, vs, h, _⟩; cases h
    obtain ⟨v, rest, e1, e2, e3, e4⟩ := split_cons h0 hne
    have hdw : r.dropWhile nsp = rest := by
      have := (prefix_word e2 (List.prefix_append v rest) (by rw [List.drop_left]; exact e3)).2
      rw [List.drop_left, ← e1] at this
      exact this
    rw [e4, hdw]
    have hlr : Line rest := line_suffix ⟨v, e1.symm⟩ hl
    cases rest with
    | nil =>
      constructor
      · rintro ⟨w, vs, _, h⟩; cases h
      · rintro ⟨w, b, vs, h, _⟩
        have := (List.cons.inj h).2
        cases this
    | cons x s =>
      have hx : isSpace x = true := e3 x rfl
      constructor
      · rintro ⟨w, vs, h, hq⟩
        obtain ⟨rfl, h⟩ := List.cons.inj h
        cases hs : splitWs (x :: s) with
        | nil =>
          have hall := splitWs_eq_nil.mp hs
          have hl := List.getLast?_eq_some_getLast (l := x :: s) (by simp)
          have h1 := getLast?_rstrip (x :: s) _ (by rw [hlr.2]; exact hl)
          have h2 := List.all_eq_true.mp hall _ (List.mem_of_getLast? hl)
          rw [h1] at h2
          cases h2
        | cons b more =>
          refine ⟨v, b, more, rfl, ?_⟩
          simp only [Prog.det, K.has, hx, if_true, Option.some.injEq] at hq
          simp [← hq]
      · rintro ⟨w, b, more, h, rfl⟩
        obtain ⟨rfl, h⟩ := List.cons.inj h
        exact ⟨v, _, rfl, by simp [Prog.det, K.has, hx]⟩
  refine ⟨grp_plus_nil _ _ _, ?_, ?_⟩
  · intro r c q h0 hl hq
    obtain ⟨a, b, more, h1, rfl⟩ := (hd r c q h0 hl).mp hq
    exact ⟨a, ⟨b, more, h1⟩, by simp⟩
  · rintro r c a h0 hl ⟨b, more, h1⟩
    exact ⟨_, (hd r c _ h0 hl).mpr ⟨a, b, more, h1, rfl⟩⟩

theorem servers_spec : ∀ ts : List Str, (∀ t ∈ ts, Line t) → ∃ r, serversT ts = .ok r ∧
    ∀ a, a ∈ r ↔ ∃ t ∈ ts, Spec.Indented t ∧ ∃ b more, splitWs t = "server-private".toList :: a :: b :: more
  | [], _ => ⟨[], rfl, by simp⟩
  | t :: ts, h => by
    obtain ⟨r, h1, h2⟩ := servers_spec ts (fun u hu => h u (by simp [hu]))
    obtain ⟨k1, k2⟩ := chain_tail true (pre := gaps true ["server-private"]) (by decide) (tail_more 1) (h t (by simp)) (.inl (by simp [gaps])) []
    rw [serversT, reSearch_det (p := lead true (wordsG (gaps true ["server-private"]) (.grp 1 (.plus .nonspace .done) (.one .space .done))))
      (n := 1) (names := []) (by decide +kernel)]
    cases hd : (lead true (wordsG (gaps true ["server-private"]) (.grp 1 (.plus .nonspace .done) (.one .space .done)))).det t [] with
    | none =>
      refine ⟨r, h1, fun a => ?_⟩
      rw [h2]
      constructor
      · rintro ⟨u, hu, h3⟩; exact ⟨u, by simp [hu], h3⟩
      · rintro ⟨u, hu, h3, b, more, h4⟩
        rcases List.mem_cons.mp hu with rfl | hu
        · obtain ⟨q, hq⟩ := k2 _ a (fun _ => h3) h4 ⟨b, more, rfl⟩
          rw [hq] at hd; cases hd
        · exact ⟨u, hu, h3, b, more, h4⟩
    | some q =>
      obtain ⟨_, v, h3, h4, ⟨b, more, rfl⟩, h5⟩ := k1 q hd
      refine ⟨v :: r, ?_, fun a => ?_⟩
      · simp [bind, Except.bind, Found.group, h5, h1, toStr]
      · rw [List.mem_cons, h2]
        constructor
        · rintro (rfl | ⟨u, hu, h6⟩)
          · exact ⟨t, by simp, h3 rfl, b, more, h4⟩
          · exact ⟨u, by simp [hu], h6⟩
        · rintro ⟨u, hu, h6, b', more', h7⟩
          rcases List.mem_cons.mp hu with rfl | hu
          · have h8 : splitWs u = "server-private".toList :: v :: b :: more := h4
            rw [h7] at h8
            simp only [List.cons.injEq, true_and] at h8
            exact .inl h8.1
          · exact .inr ⟨u, hu, h6, b', more', h7⟩

/-- C151: `server_private` has the servers of the children `server-private A …` that have
something behind the server. Missing: lines with nothing behind the server. -/
theorem C151_private_partial : ∀ (o : Opts) (lines : List Str) (P : Parsed), parse o lines = .ok P → (∀ l ∈ lines, '\n' ∉ l) → ∀ i,
    ∃ r, serverPrivate P i = .ok r ∧
      ∀ a, a ∈ r ↔ ∃ t ∈ Spec.kids P i, Spec.Indented t ∧ ∃ b more, splitWs t = "server-private".toList :: a :: b :: more := by
  intro o lines P h hn i
  rw [serverPrivate, childTexts_kids]
  exact servers_spec _ (kids_line h hn i)

/-- C151 fails: when no line has anything behind the server, there are no servers. -/
theorem C151_private_fails : ∀ (o : Opts) (lines : List Str) (P : Parsed), parse o lines = .ok P → (∀ l ∈ lines, '\n' ∉ l) → ∀ i,
    (∀ t ∈ Spec.kids P i, ∀ a more, splitWs t = "server-private".toList :: a :: more → more = []) → serverPrivate P i = .ok [] := by
  intro o lines P h hn i hk
  obtain ⟨r, h1, h2⟩ := C151_private_partial o lines P h hn i
  have : r = [] := by
    cases r with
    | nil => rfl
    | cons a r =>
      obtain ⟨t, ht, _, b, more, h3⟩ := (h2 a).mp (by simp)
      cases hk t ht a (b :: more) h3
  rw [h1, this]

/-! ## A configuration -/

def cfg : List Str := [
  "aaa group server tacacs+ TAC", " server-private 10.0.0.1 key 7 0123", " server-private 10.0.0.2", " ip vrf forwarding MGMT",
  " ip tacacs source-interface Loopback 0", "aaa group server radius RAD", "  use-vrf management", "  source-interface mgmt0"].map String.toList

/-- A server without a key is missing. -/
example : Nxos.shows cfg (fun P => groupServer (P.h 0).text == .ok ("tacacs+".toList, "TAC".toList) &&
    serverPrivate P 0 == .ok ["10.0.0.1".toList] && vrf .ios P 0 == .ok "MGMT".toList &&
    sourceInterface .ios P 0 == .ok "Loopback 0".toList && vrf .nxos P 5 == .ok "management".toList &&
    sourceInterface .nxos P 5 == .ok "mgmt0".toList && groupServer (P.h 6).text == .error .valueError) = true := by
  decide +kernel

end Aaa

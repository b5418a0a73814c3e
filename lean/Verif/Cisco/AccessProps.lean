import Verif.Cisco.AccessLemmas
import Verif.Cisco.FactoryProps

/-! # Host names and access lines (C82) -/

namespace Cisco

open Py Conf Query Re Spec

/-- C82: the host name is the second word of the line. -/
theorem C82_hostname {t : Str} (h : Kind t .hostname) :
    (∀ v, Next ["hostname"] t v → hostname t = .ok v) ∧ ((∀ v, ¬ Next ["hostname"] t v) → hostname t = .ok []) :=
  match_next (l := ["hostname"]) (by decide +kernel) (by decide) (lstrip_prefix (by decide) h)

/-- A digit anywhere in the text. -/
theorem has_digit (v : Str) : ∃ b, reTrue "\\d+" v = .ok b ∧ (b = true ↔ ∃ x ∈ v, isDigit x = true) := by
  have hc : compile "\\d+" = .ok ⟨.seq (.cls K.digit.cls) (.star true (.cls K.digit.cls)), 0, []⟩ := by decide +kernel
  obtain ⟨b, h1, h2⟩ := reTrue_lang hc v
  refine ⟨b, h1, h2.trans ?_⟩
  simp only [lang_plus]
  constructor
  · rintro ⟨a, u, v', rfl, w, rfl, hne, hw⟩
    obtain ⟨x, w', rfl⟩ := List.exists_cons_of_ne_nil hne
    exact ⟨x, by simp, hw x (by simp)⟩
  · rintro ⟨x, hx, hd⟩
    obtain ⟨a, u, rfl⟩ := List.append_of_mem hx
    exact ⟨a, x :: u, u, rfl, [x], rfl, by simp, by
      intro c hc
      rw [List.mem_singleton.mp hc]; exact hd⟩

theorem is_access {t : Str} (h : Kind t .access) : ∃ b, isAccessline t = .ok b ∧ (b = true ↔ ∃ v, Next ["line"] t v) := by
  have ht := lstrip_prefix (by decide) h
  have hi : Is "^(line\\s+\\S+)" (.grp 1 (words (wd ["line"]) (.plus .nonspace .done)) .done) 1 [] := by decide +kernel
  have hd := fun q => det_words (ws := wd ["line"]) (by decide) (.plus .nonspace .done) (fun _ => rfl) ht [] q
  have hs : splitWs (skip 1 t) = (splitWs t).drop 1 := splitWs_skip 1 ht
  rw [isAccessline, match_det hi (by decide) (by decide), Prog.det]
  cases hq : (words (wd ["line"]) (.plus .nonspace .done)).det t [] with
  | none =>
    refine ⟨false, rfl, by simp, ?_⟩
    rintro ⟨v, more, hm⟩
    exfalso
    have hr : splitWs (skip 1 t) = v :: more := by rw [hs, hm]; rfl
    have hne : skip 1 t ≠ [] := by intro e; rw [e] at hr; cases hr
    obtain ⟨w, rest, he, hw', hr', hsp⟩ := split_cons (lstrip_skip 1 ht) hne
    obtain ⟨x, w', rfl⟩ := List.exists_cons_of_ne_nil hw'.1
    have hx : K.nonspace.has x = true := by simp [K.has, hw'.2 x (by simp)]
    have := (hd _).mpr ⟨by rw [hm]; exact List.prefix_append _ _, by
      show (Prog.plus .nonspace .done).det (skip 1 t) [] = _
      rw [he, List.cons_append, plus_cons, if_pos hx, Prog.det]⟩
    rw [hq] at this; cases this
  | some q =>
    refine ⟨true, ?_, ?_, by simp⟩
    · have hlt : q.1.length < t.length := by
        obtain ⟨hp, h2⟩ := (hd q).mp hq
        have hsuf := (skip_suffix 1 t).length_le
        cases hk : skip 1 t with
        | nil =>
          have h2' : (Prog.plus .nonspace .done).det (skip 1 t) [] = some q := h2
          rw [hk] at h2'; cases h2'
        | cons x s =>
          have h2' : (Prog.plus .nonspace .done).det (skip 1 t) [] = some q := h2
          rw [hk, plus_cons] at h2'
          by_cases hx : K.nonspace.has x = true
          · rw [if_pos hx, Prog.det] at h2'
            cases h2'
            have := (List.dropWhile_suffix (l := s) K.nonspace.has).length_le
            rw [hk, List.length_cons] at hsuf
            show (s.dropWhile K.nonspace.has).length < t.length
            omega
          · rw [if_neg hx] at h2'; cases h2'
      have hne : (t.take (t.length - q.1.length)).isEmpty = false := by
        rw [List.isEmpty_eq_false_iff]
        intro e
        have := congrArg List.length e
        rw [List.length_take, List.length_nil] at this
        omega
      show (do .ok (!(← toStr (some (t.take (t.length - q.1.length)))).isEmpty) : Except Err Bool) = _
      show Except.ok (!(t.take (t.length - q.1.length)).isEmpty) = _
      rw [hne]; rfl
    · intro _
      obtain ⟨⟨more, hm⟩, h2⟩ := (hd q).mp hq
      have h2' : (Prog.plus .nonspace .done).det (skip 1 t) [] = some q := h2
      have hne : skip 1 t ≠ [] := by intro e; rw [e] at h2'; cases h2'
      obtain ⟨w, rest, he, hw', hr', hsp⟩ := split_cons (lstrip_skip 1 ht) hne
      refine ⟨w, splitWs rest, ?_⟩
      rw [← hsp, hs, ← hm]; rfl

/-- C82: the name of an access line is its second word, unless that is a number; a line that
only begins with these letters is no access line. -/
theorem C82_name {t : Str} (h : Kind t .access) :
    (∀ v, Next ["line"] t v → isAccessline t = .ok true ∧
      ((∃ x ∈ v, isDigit x = true) → accessName t = .ok []) ∧ ((∀ x ∈ v, isDigit x = false) → accessName t = .ok v)) ∧
    ((∀ v, ¬ Next ["line"] t v) → isAccessline t = .ok false ∧ accessName t = .ok []) := by
  have hi : Is "^line\\s+(\\S+)" (words (wd ["line"]) (.grp 1 (.plus .nonspace .done) .done)) 1 [] := by decide +kernel
  obtain ⟨m1, m2⟩ := match_next (l := ["line"]) hi (by decide) (lstrip_prefix (by decide) h)
  obtain ⟨b, hb, hb'⟩ := is_access h
  constructor
  · intro v hv
    obtain ⟨d, hd, hd'⟩ := has_digit v
    have e : accessName t = (do if ← reTrue "\\d+" v then .ok [] else .ok v) := by rw [accessName, m1 v hv]; rfl
    refine ⟨by rw [hb, hb'.mpr ⟨v, hv⟩], ?_, ?_⟩
    · intro hx
      rw [e, hd, hd'.mpr hx]; rfl
    · intro hx
      have : d = false := by
        cases d with
        | false => rfl
        | true =>
          obtain ⟨x, h1, h2⟩ := hd'.mp rfl
          rw [hx x h1] at h2; cases h2
      rw [e, hd, this]; rfl
  · intro hn
    have hb0 : b = false := by
      cases b with
      | false => rfl
      | true =>
        obtain ⟨v, hv⟩ := hb'.mp rfl
        exact absurd hv (hn v)
    refine ⟨by rw [hb, hb0], ?_⟩
    have e : accessName t = (do if ← reTrue "\\d+" [] then .ok [] else .ok []) := by rw [accessName, m2 hn]; rfl
    obtain ⟨d, hd, _⟩ := has_digit []
    rw [e, hd]
    cases d <;> rfl

/-- `[a-zA-Z]`. -/
def alpha : Cls := ⟨[.range 'a' 'z', .range 'A' 'Z'], false, false⟩

theorem alpha_has (c : Char) : alpha.has c = isLetter c := by
  simp only [alpha, Cls.has, List.any_cons, List.any_nil, Item.has, isLetter]
  simp [Bool.or_comm]

/-- The numbers as Python reads them. -/
theorem ints {ns : List Str} (hd : ∀ v ∈ ns, Digits v) : ns.mapM pyInt = .ok (ns.map (fun v => (natVal v : Int))) := by
  induction ns with
  | nil => rfl
  | cons v ns ih =>
    rw [List.mapM_cons, ih (fun u hu => hd u (by simp [hu])), pyInt_digits]
    · rfl
    · obtain ⟨h1, h2⟩ := hd v (by simp)
      rw [allDigits, Bool.and_eq_true]
      exact ⟨by simpa using h1, List.all_eq_true.mpr h2⟩

/-- `([a-zA-Z]+\s+)*` reads words of letters. -/
theorem letters_hit (n : Nat) (ks : List Str) {r : Str} (h0 : lstrip r = r) {ns : List Str} (hs : splitWs r = ks ++ ns) (hne : ns ≠ [])
    (hk : ∀ v ∈ ks, ∀ x ∈ v, isLetter x = true) (hd : ∀ v ∈ ns, Digits v) (c : Caps) :
    ∃ c', Hit n (.star true (.grp 1 (.seq (.seq (.cls alpha) (.star true (.cls alpha)))
      (.seq (.cls K.space.cls) (.star true (.cls K.space.cls)))))) r c (skip ks.length r, c') ∧
      (∀ g, g ≠ 1 → c'.lookup g = c.lookup g) := by
  induction ks generalizing r c with
  | nil =>
    refine ⟨c, hit_star_stop ?_, fun _ _ => rfl⟩
    have hr : r ≠ [] := by
      intro e; rw [e] at hs
      exact hne hs.symm
    obtain ⟨v, rest, he, hw, _, hsp⟩ := split_cons h0 hr
    rw [hs] at hsp
    have hv := hd v (by rw [show ns = v :: splitWs rest from hsp]; simp)
    obtain ⟨x, v', rfl⟩ := List.exists_cons_of_ne_nil hv.1
    rw [Miss, run, run, run, he, List.cons_append, run, if_neg]
    · rfl
    · rw [alpha_has]
      intro hl
      have := isLetter_not_digit hl
      rw [hv.2 x (by simp)] at this; cases this
  | cons k ks ih =>
    have hr : r ≠ [] := by
      intro e; rw [e] at hs
      simp [splitWs, splitWsAux] at hs
    obtain ⟨v, rest, he, hw, hrest, hsp⟩ := split_cons h0 hr
    rw [hs, List.cons_append, List.cons.injEq] at hsp
    obtain ⟨rfl, hsp⟩ := hsp
    have hrne : rest ≠ [] := by
      intro e
      rw [e] at hsp
      simp [splitWs, splitWsAux] at hsp
      exact hne hsp.2
    obtain ⟨y, rest', rfl⟩ := List.exists_cons_of_ne_nil hrne
    have hy := hrest y rfl
    obtain ⟨x, k', rfl⟩ := List.exists_cons_of_ne_nil hw.1
    have e2 : K.space.cls.has = isSpace := by funext x; rw [K.cls_has]; rfl
    have e1 : alpha.has = isLetter := by funext x; exact alpha_has x
    have hskip : skip (ks.length + 1) r = skip ks.length (lstrip rest') := by
      rw [skip, he]
      congr 1
      have : (x :: k' ++ y :: rest').dropWhile nsp = y :: rest' := by
        rw [List.dropWhile_append_of_pos (fun c hc => by simp [nsp, hw.2 c hc]), List.dropWhile_cons_of_neg (by simp [nsp, hy])]
      rw [this, lstrip, List.dropWhile_cons_of_pos hy]; rfl
    obtain ⟨c', h1, h2⟩ := ih (r := lstrip rest') (lstrip_lstrip _) (by
        rw [splitWs_lstrip, hsp]
        exact (splitWs_spaces [y] rest' (by simp [hy])).symm)
      (fun v hv => hk v (by simp [hv])) ((1, r.take (r.length - (lstrip rest').length)) :: c)
    refine ⟨c', ?_, ?_⟩
    · rw [List.length_cons, hskip]
      refine hit_star_step (p := (lstrip rest', (1, r.take (r.length - (lstrip rest').length)) :: c)) ?_ ?_ h1
      · refine hit_grp (q := (lstrip rest', c)) ?_
        rw [Hit, run]
        refine head_flatMap (a := (y :: rest', c)) ?_ ?_
        · have := hit_plus_cls n alpha (k' ++ y :: rest') c (x := x) (by rw [alpha_has]; exact hk (x :: k') (List.mem_cons_self ..) x (by simp))
          rw [e1, List.dropWhile_append_of_pos (fun c hc => hk (x :: k') (List.mem_cons_self ..) c (by simp [hc])), List.dropWhile_cons_of_neg] at this
          · rw [he]; exact this
          · intro hl
            have := isLetter_not_space hl
            rw [hy] at this; cases this
        · have := hit_plus_cls n K.space.cls rest' c (x := y) (by rw [e2]; exact hy)
          rw [e2] at this
          exact this
      · have := (lstrip_suffix rest').length_le
        rw [he]
        simp only [List.length_append, List.length_cons]
        omega
    · intro g hg
      rw [h2 g hg, List.lookup_cons, show (g == 1) = false from beq_false_of_ne hg]

theorem hit_eol (n : Nat) (c : Caps) : Hit n .eol [] c ([], c) := rfl

/-- C82: `line_range` of a line like `line vty 0 4`: the numbers behind the words. -/
theorem C82_range {t : Str} (h : Kind t .access) (hr : rstrip t = t) {ks ns : List Str}
    (hs : splitWs t = ks ++ ns) (hk : ∀ v ∈ ks, ∀ x ∈ v, isLetter x = true) (hd : ∀ v ∈ ns, Digits v)
    (hn : ns.length = 1 ∨ ns.length = 2) :
    accessRange t = .ok (ns.map (fun v => (natVal v : Int))) := by
  have ht := lstrip_prefix (by decide) h
  have hne : ns ≠ [] := by rintro rfl; rcases hn with hn | hn <;> cases hn
  have hc : compile "([a-zA-Z]+\\s+)*(\\d+\\s*\\d*)$" = .ok ⟨seqs [.star true (.grp 1 (.seq (.seq (.cls alpha) (.star true (.cls alpha)))
      (.seq (.cls K.space.cls) (.star true (.cls K.space.cls))))),
      .grp 2 (seqs [.seq (.cls K.digit.cls) (.star true (.cls K.digit.cls)), .star true (.cls K.space.cls),
      .star true (.cls K.digit.cls)]), .eol], 2, []⟩ := by decide +kernel
  obtain ⟨c', h1, h2⟩ := letters_hit t.length ks ht hs hne hk hd []
  have hsk : splitWs (skip ks.length t) = ns := by rw [splitWs_skip _ ht, hs, List.drop_left]
  have hrs : rstrip (skip ks.length t) = skip ks.length t := by
    refine rstrip_of_last fun a ha => ?_
    obtain ⟨u, hu⟩ := skip_suffix ks.length t
    refine getLast?_rstrip t a ?_
    rw [hr, ← hu, List.getLast?_append, ha]; rfl
  have hh : Hit t.length _ t [] ([], (2, skip ks.length t) :: c') := hit_cons h1 (hit_cons (q := ([], (2, skip ks.length t) :: c')) (by
      have := hit_grp (k := 2) (numbers_hit t.length (lstrip_skip _ ht) hrs hsk hn hd c')
      simpa using this)
    (hit_cons (hit_eol _ _) (hit_nil _ _ _)))
  have e : matchTyped t "([a-zA-Z]+\\s+)*(\\d+\\s*\\d*)$" 2 toStr [] = .ok (skip ks.length t) := by
    rw [matchTyped, reSearch, hc]
    simp only [search_here hh]
    rfl
  rw [accessRange, e]
  show (splitWs (strip (skip ks.length t))).mapM pyInt = _
  rw [strip, splitWs_lstrip, splitWs_rstrip, hsk]
  exact ints hd

/-- C82: and `range_str` shows them. -/
theorem C82_range_str {t : Str} (h : Kind t .access) (hr : rstrip t = t) {ks : List Str} {ns : List Nat}
    (hs : splitWs t = ks ++ ns.map natStr) (hk : ∀ v ∈ ks, ∀ x ∈ v, isLetter x = true)
    (hn : ns.length = 1 ∨ ns.length = 2) :
    accessRangeStr t = .ok (join [' '] (ns.map natStr)) := by
  have hdg : ∀ v ∈ ns.map natStr, Digits v := by
    intro v hv
    obtain ⟨m, _, rfl⟩ := List.mem_map.mp hv
    exact ⟨natStr_ne_nil m, natStr_digits m⟩
  rw [accessRangeStr, C82_range h hr hs hk hdg (by simpa using hn)]
  show Except.ok (join [' '] (((ns.map natStr).map (fun v => (natVal v : Int))).map intStr)) = _
  congr 2
  rw [List.map_map, List.map_map]
  apply List.map_congr_left
  intro m _
  show intStr ((natVal (natStr m) : Nat) : Int) = natStr m
  rw [natVal_natStr]; rfl

/-! ## `exec-timeout` -/

/-- A typed search with an expression that starts with `^`, by its first match. -/
theorem iter_hit {α : Type} {Says : Str → α → Prop} {rx : String} {l : List Rgx} {n : Nat} {names : List (Str × Nat)}
    (h : compile rx = .ok ⟨seqs (.bol :: l), n, names⟩) {g : Nat} (h0 : g ≠ 0) (hg : g ≤ n) (conv : Option Str → Except Err α)
    (dflt : α) (P : Parsed) (i : Nat)
    (H : ∀ t ∈ family P i, (∃ v, Lang t.length (seqs l) t v) →
      ∃ q a, Hit t.length (seqs l) t [] q ∧ conv (q.2.lookup g) = .ok a ∧ Says t a)
    (H' : ∀ t ∈ family P i, ∀ a, Says t a → ∃ v, Lang t.length (seqs l) t v) :
    ∃ o, First Says (family P i) o ∧ iterTyped P i rx g conv dflt = .ok (o.getD dflt) := by
  rw [iterTyped, h]
  simp only [if_true, texts_family]
  generalize family P i = ts at H H'
  induction ts with
  | nil => exact ⟨none, rfl, rfl⟩
  | cons t ts ih =>
    rw [firstMatch]
    by_cases ha : ∃ v, Lang t.length (seqs l) t v
    · obtain ⟨q, a, hq, hc, ha⟩ := H t (by simp) ha
      refine ⟨some a, .inl ⟨a, ha, rfl⟩, ?_⟩
      rw [search_hit hq]
      simp only [Found.group, if_neg h0, if_pos hg]
      exact hc
    · obtain ⟨o, h1, h2⟩ := ih (fun t ht => H t (by simp [ht])) (fun t ht => H' t (by simp [ht]))
      refine ⟨o, .inr ⟨fun a h => ha (H' t (by simp) a h), h1⟩, ?_⟩
      have hn : search ⟨seqs (.bol :: l), n, names⟩ t = none := by
        rw [← Option.not_isSome_iff_eq_none, search_lang]
        exact ha
      rw [hn]
      exact h2

/-- The line sets the time-out: one or two numbers. -/
def Spec.Timeout (t : Str) (ns : List Str) : Prop :=
  splitWs t = "exec-timeout".toList :: ns ∧ (ns.length = 1 ∨ ns.length = 2) ∧ ∀ v ∈ ns, Digits v

theorem timeout_lang {t : Str} {n : Nat} {v : Str} (h : Lang n (seqs ((lead false (str "exec-timeout".toList (.plus .space .done))).toL ++
      [.grp 1 (seqs [.seq (.cls K.digit.cls) (.star true (.cls K.digit.cls)), .star true (.cls K.space.cls),
      .star true (.cls K.digit.cls)]), .star true (.cls K.space.cls), .eol])) t v) : ∃ ns, Timeout t ns := by
  obtain ⟨w, h1, h2⟩ := (lang_append ..).mp h
  obtain ⟨u1, h3, h4⟩ := (lang_cons ..).mp h1
  obtain ⟨a, rfl, ha⟩ := (lang_star' ..).mp h3
  obtain ⟨r, rfl, h5⟩ := (lang_str ..).mp h4
  obtain ⟨u2, h6, h7⟩ := (lang_cons ..).mp h5
  obtain ⟨b, rfl, hbne, hb⟩ := (lang_plus ..).mp h6
  obtain rfl := (lang_nil ..).mp h7
  obtain ⟨u3, h8, h9⟩ := (lang_cons ..).mp h2
  rw [Lang] at h8
  obtain ⟨u4, k1, k2⟩ := (lang_cons ..).mp h8
  obtain ⟨d, rfl, hdne, hd⟩ := (lang_plus ..).mp k1
  obtain ⟨u5, k3, k4⟩ := (lang_cons ..).mp k2
  obtain ⟨e, rfl, he⟩ := (lang_star' ..).mp k3
  obtain ⟨u6, k5, k6⟩ := (lang_cons ..).mp k4
  obtain ⟨f, rfl, hf⟩ := (lang_star' ..).mp k5
  obtain rfl := (lang_nil ..).mp k6
  obtain ⟨u7, k7, k8⟩ := (lang_cons ..).mp h9
  obtain ⟨g, rfl, hg⟩ := (lang_star' ..).mp k7
  have hz : ∀ c ∈ g ++ u7, isSpace c = true := by
    obtain ⟨u8, m1, _⟩ := (lang_cons ..).mp k8
    rw [Lang] at m1
    intro c hc
    rcases List.mem_append.mp hc with hc | hc
    · exact hg c hc
    · rcases m1.2 with rfl | rfl
      · exact absurd hc (by simp)
      · rw [List.mem_singleton.mp hc]; decide
  have hds : ∀ x, isDigit x = true → isSpace x = false := fun x hx => by
    cases hs : isSpace x with
    | false => rfl
    | true => exact absurd hx (by rw [space_not_digit hs]; decide)
  obtain ⟨y, b', rfl⟩ := List.exists_cons_of_ne_nil hbne
  have s1 : splitWs (a ++ ("exec-timeout".toList ++ (y :: b' ++ (d ++ (e ++ (f ++ (g ++ u7))))))) =
      "exec-timeout".toList :: splitWs (d ++ (e ++ (f ++ (g ++ u7)))) := by
    rw [splitWs_spaces _ _ ha, List.cons_append, splitWs_word_space (by decide) (hb y (by simp)),
      splitWs_spaces _ _ (fun c hc => hb c (by simp [hc]))]
  have hhead : ∀ c, (g ++ u7).head? = some c → isSpace c = true := by
    intro c hc
    exact hz c (List.mem_of_mem_head? (Option.mem_def.mpr hc))
  simp only [Timeout, s1]
  by_cases hef : e = [] ∨ f = []
  · have hw : ∀ c ∈ d ++ f, isDigit c = true := by
      intro c hc
      rcases List.mem_append.mp hc with hc | hc
      · exact hd c hc
      · exact hf c hc
    have hne : d ++ f ≠ [] := by simp [hdne]
    refine ⟨[d ++ f], ?_, .inl rfl, ?_⟩
    · congr 1
      rcases hef with rfl | rfl
      · rw [List.nil_append, ← List.append_assoc, splitWs_word_rest ⟨hne, fun c hc => hds c (hw c hc)⟩ hhead, splitWs_blank hz]
      · rw [List.nil_append, List.append_nil, splitWs_word_rest ⟨hdne, fun c hc => hds c (hd c hc)⟩, splitWs_blank]
        · intro c hc
          rcases List.mem_append.mp hc with hc | hc
          · exact he c hc
          · exact hz c hc
        · intro c hc
          rcases List.mem_append.mp (List.mem_of_mem_head? (Option.mem_def.mpr hc)) with hc | hc
          · exact he c hc
          · exact hz c hc
    · intro v hv
      rw [List.mem_singleton.mp hv]
      exact ⟨hne, hw⟩
  · have hene : e ≠ [] := fun h => hef (.inl h)
    have hfne : f ≠ [] := fun h => hef (.inr h)
    obtain ⟨z, e', rfl⟩ := List.exists_cons_of_ne_nil hene
    refine ⟨[d, f], ?_, .inr rfl, ?_⟩
    · rw [List.cons_append, splitWs_word_space ⟨hdne, fun c hc => hds c (hd c hc)⟩ (he z (by simp)),
        splitWs_spaces _ _ (fun c hc => he c (by simp [hc])), splitWs_word_rest ⟨hfne, fun c hc => hds c (hf c hc)⟩ hhead, splitWs_blank hz]
    · intro v hv
      rcases List.mem_cons.mp hv with rfl | hv
      · exact ⟨hdne, hd⟩
      · rw [List.mem_singleton.mp hv]
        exact ⟨hfne, hf⟩

theorem timeout_hit {t : Str} (hr : rstrip t = t) {ns : List Str} (h : Timeout t ns) (n : Nat) :
    ∃ r, Hit n (seqs ((lead false (str "exec-timeout".toList (.plus .space .done))).toL ++
      [.grp 1 (seqs [.seq (.cls K.digit.cls) (.star true (.cls K.digit.cls)), .star true (.cls K.space.cls),
      .star true (.cls K.digit.cls)]), .star true (.cls K.space.cls), .eol])) t [] ([], [(1, r)]) ∧ splitWs r = ns := by
  obtain ⟨hs, hn, hd⟩ := h
  have hne : lstrip t ≠ [] := by
    intro e
    rw [← splitWs_lstrip, e] at hs
    cases hs
  obtain ⟨w, rest, he, hw, hrest, hsp⟩ := split_cons (lstrip_lstrip t) hne
  rw [splitWs_lstrip, hs, List.cons.injEq] at hsp
  obtain ⟨rfl, hsp⟩ := hsp
  have hrne : rest ≠ [] := by
    rintro rfl
    rw [hsp] at hn
    rcases hn with hn | hn <;> cases hn
  have hsuf : lstrip rest <:+ t := (lstrip_suffix _).trans ((List.suffix_append _ rest).trans (he ▸ lstrip_suffix t))
  have hrs : rstrip (lstrip rest) = lstrip rest := by
    refine rstrip_of_last fun a ha => ?_
    obtain ⟨u, hu⟩ := hsuf
    refine getLast?_rstrip t a ?_
    rw [hr, ← hu, List.getLast?_append, ha]; rfl
  refine ⟨lstrip rest, ?_, by rw [splitWs_lstrip]; exact hsp.symm⟩
  refine hit_append (q := (lstrip rest, [])) (hit_prog n (by decide) ?_) ?_
  · rw [det_lead']
    refine ⟨by simp, ?_⟩
    rw [he, det_str, if_pos (List.prefix_append _ _), List.drop_left, det_sp _ hrest, if_neg hrne, Prog.det]
  · have h1 := hit_grp (k := 1) (numbers_hit n (lstrip_lstrip rest) hrs (by rw [splitWs_lstrip]; exact hsp.symm) hn hd [])
    rw [show (lstrip rest).take ((lstrip rest).length - ([] : Str).length) = lstrip rest by simp] at h1
    exact hit_cons h1 (hit_cons (hit_star_cls n K.space.cls [] _) (hit_cons (hit_eol n _) (hit_nil n _ _)))

/-- C82: `parse_exectimeout` gives the numbers of the first `exec-timeout` line, in order. -/
theorem C82_exectimeout {o : Opts} {lines : List Str} {P : Parsed} (h : parse o lines = .ok P)
    (hn : ∀ l ∈ lines, '\n' ∉ l) (i : Nat) :
    ∃ ns, First Timeout (family P i) ns ∧
      parseExectimeout P i = .ok ((ns.getD []).map (fun v => (natVal v : Int))) := by
  have hc : compile "^\\s*exec-timeout\\s+(\\d+\\s*\\d*)\\s*$" = .ok ⟨seqs (.bol :: ((lead false (str "exec-timeout".toList (.plus .space .done))).toL ++
      [.grp 1 (seqs [.seq (.cls K.digit.cls) (.star true (.cls K.digit.cls)), .star true (.cls K.space.cls),
      .star true (.cls K.digit.cls)]), .star true (.cls K.space.cls), .eol])), 1, []⟩ := by decide +kernel
  have key : ∃ r, First (fun t r => Timeout t (splitWs r) ) (family P i) r ∧
      iterTyped P i "^\\s*exec-timeout\\s+(\\d+\\s*\\d*)\\s*$" 1 toStr [] = .ok (r.getD []) := by
    refine iter_hit hc (by decide) (by decide) toStr [] P i ?_ ?_
    · rintro t ht ⟨v, hv⟩
      obtain ⟨ns, hns⟩ := timeout_lang hv
      obtain ⟨r, h1, h2⟩ := timeout_hit (line_family h hn i t ht).2 hns t.length
      exact ⟨_, r, h1, rfl, by rw [h2]; exact hns⟩
    · intro t ht r hr
      obtain ⟨r', h1, _⟩ := timeout_hit (line_family h hn i t ht).2 hr t.length
      refine (run_ne_nil _ _ _ []).mp ?_
      intro e
      rw [Hit, e] at h1; cases h1
  obtain ⟨r, h1, h2⟩ := key
  refine ⟨r.map splitWs, ?_, ?_⟩
  · generalize family P i = ts at h1
    clear h2
    induction ts with
    | nil => rw [First] at h1; rw [h1]; rfl
    | cons t ts ih =>
      rcases h1 with ⟨a, h3, rfl⟩ | ⟨h3, h4⟩
      · exact .inl ⟨_, h3, rfl⟩
      · refine .inr ⟨?_, ih h4⟩
        intro ns hns
        refine h3 (join [' '] ns) ?_
        show Timeout t (splitWs (join [' '] ns))
        rw [splitWs_join]
        · exact hns
        · intro w hw
          refine splitWs_words t w ?_
          rw [hns.1]; simp [hw]
  · have hd : ∀ v ∈ (r.map splitWs).getD [], Digits v := by
      generalize family P i = ts at h1
      clear h2
      induction ts with
      | nil => rw [First] at h1; rw [h1]; simp
      | cons t ts ih =>
        rcases h1 with ⟨a, h3, rfl⟩ | ⟨h3, h4⟩
        · exact h3.2.2
        · exact ih h4
    rw [parseExectimeout, h2]
    show (splitWs (strip (r.getD []))).mapM pyInt = _
    rw [strip, splitWs_lstrip, splitWs_rstrip, ← ints hd]
    cases r <;> rfl

/-! ## Cases that meet the hypotheses -/

example : Kind "hostname r1".toList .hostname ∧ hostname "hostname r1".toList = .ok "r1".toList := by
  have h : Kind "hostname r1".toList .hostname := by show (_ : Str) <+: _; decide
  exact ⟨h, (C82_hostname h).1 _ ⟨[], by decide +kernel⟩⟩

example : Kind "line vty 0 4".toList .access ∧ accessRange "line vty 0 4".toList = .ok [0, 4] ∧
    accessName "line vty 0 4".toList = .ok "vty".toList := by
  have h : Kind "line vty 0 4".toList .access := by show (_ : Str) <+: _; decide
  refine ⟨h, C82_range h (by decide) (ks := ["line".toList, "vty".toList]) (ns := ["0".toList, "4".toList]) (by decide +kernel)
    (by decide) ?_ (by decide), ((C82_name h).1 "vty".toList ⟨["0".toList, "4".toList], by decide +kernel⟩).2.2 (by decide)⟩
  intro v hv
  rcases List.mem_cons.mp hv with rfl | hv
  · exact ⟨by decide, by decide⟩
  · rw [List.mem_singleton.mp hv]; exact ⟨by decide, by decide⟩

example : Timeout " exec-timeout 10 30".toList ["10".toList, "30".toList] :=
  ⟨by decide +kernel, by decide, by
    intro v hv
    rcases List.mem_cons.mp hv with rfl | hv
    · exact ⟨by decide, by decide⟩
    · rw [List.mem_singleton.mp hv]; exact ⟨by decide, by decide⟩⟩

/-! ## What fails -/

/-- C83: reading the minutes or the seconds of the time-out raises, whatever the configuration. -/
theorem C83_minutes_fails (P : Parsed) (i : Nat) :
    (∃ e, manualExectimeoutMinutes P i = .error e) ∧ ∃ e, manualExectimeoutSeconds P i = .error e := by
  constructor
  · rw [manualExectimeoutMinutes]
    cases iterTyped P i "^\\s*exec-timeout\\s+(\\d+\\s*\\d*)\\s*$" 1 toStr [] with
    | error e => exact ⟨e, rfl⟩
    | ok r => exact ⟨_, rfl⟩
  · rw [manualExectimeoutSeconds]
    cases iterTyped P i "^\\s*exec-timeout\\s+(\\d+\\s*\\d*)\\s*$" 1 toStr [] with
    | error e => exact ⟨e, rfl⟩
    | ok r => exact ⟨_, rfl⟩

/-- C83: with numbers of the form slot/subslot/port the range is lost. -/
theorem C83_range_fails :
    accessRange "line 0/1/0 0/1/4".toList = .ok [4] ∧ accessRange "line 1/0/0".toList = .ok [0] := by
  decide +kernel

end Cisco

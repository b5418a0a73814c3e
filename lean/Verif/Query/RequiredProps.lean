import Verif.Query.RequiredLemmas
import Verif.Query.More

/-! # C99 – C103: required lines, `child_indent`, searches at the top -/

namespace Query

open Py Conf

section
variable {o : Opts} {lines : List Str} {P : Parsed}

/-! ## C99 -/

theorem letter_not_space {c : Char} (h : isLetter c = true) : isSpace c = false := by
  have := wordChar_not_space (c := c) (by rw [isWordChar, h]; rfl)
  exact this

theorem strip_letter {t r : Str} (h : strip t = strip r) (hr : ∃ c ∈ r, isLetter c = true) : ∃ c ∈ t, isLetter c = true := by
  obtain ⟨c, hc, hl⟩ := hr
  refine ⟨c, ?_, hl⟩
  rw [← mem_strip_iff (letter_not_space hl), h, mem_strip_iff (letter_not_space hl)]
  exact hc

/-- C99: `req_cfgspec_all_diff` returns, in their order, the required lines that are not a line
of the configuration; blanks at the ends do not count.  (The required lines have a letter; the
others are always returned.) -/
theorem C99_missing_partial (P : Parsed) (cfg : List Str) :
    ∃ g : Str → Bool, reqAllDiff P cfg false = .ok (cfg.filter g) ∧
      ∀ r ∈ cfg, ((∃ c ∈ r, isLetter c = true) → (g r = false ↔ ∃ i ∈ P.list, strip (P.h i).text = strip r)) ∧
        ((∀ c ∈ r, isLetter c = false) → g r = true) := by
  obtain ⟨g, h1, h2⟩ := reqAllDiff_spec (P := P) (cfg := cfg) (ws := false) (f := fun t r => strip t == strip r)
    (fun _ _ _ _ => rfl)
  refine ⟨g, h1, fun r hr => ⟨fun hl => ?_, fun hl => ?_⟩⟩
  · rw [h2 r hr]
    constructor
    · rintro ⟨i, hi, _, he⟩; exact ⟨i, hi, beq_iff_eq.mp he⟩
    · rintro ⟨i, hi, he⟩; exact ⟨i, hi, strip_letter he hl, beq_iff_eq.mpr he⟩
  · cases hg : g r with
    | true => rfl
    | false =>
      obtain ⟨i, _, hc, he⟩ := (h2 r hr).mp hg
      obtain ⟨c, hcr, hcl⟩ := strip_letter (beq_iff_eq.mp he).symm hc
      rw [hl c hcr] at hcl
      cases hcl

example : ∃ P, parse {} [s "hostname a", s "interface b", s " shutdown"] = .ok P ∧
    reqAllDiff P [s "hostname a", s "shutdown", s "no ip http", s "interface  b"] false =
      .ok [s "no ip http", s "interface  b"] := ⟨_, rfl, by decide +kernel⟩

/-- C99 does not hold as stated: a required line without letters is returned although the
configuration has it. -/
theorem C99_letters_fails :
    ∃ P, parse {} [s "hostname a", s "!"] = .ok P ∧ reqAllDiff P [s "!"] false = .ok [s "!"] := ⟨_, rfl, by decide +kernel⟩

/-! ## C100 -/

theorem plainBlanks_lits {x : Str} : Spec.Pattern.PlainBlanks ⟨false, lits x, false⟩ := by
  intro q hq
  obtain ⟨c, _, rfl⟩ := List.mem_map.mp hq
  exact ⟨fun _ _ _ => rfl, fun c e => by cases e⟩

theorem isRequired_words {t r : Str} (ht : rstrip t = t) (hl : Spec.Literal r) (hs : strip r = r) :
    isRequired true t r = .ok (splitWs t == splitWs r) := by
  have h2 : rstrip r = r := by rw [← hs]; exact rstrip_strip r
  have h1 : lstrip r = r := by rw [strip, h2] at hs; exact hs
  have h4 : strip t = lstrip t := by rw [strip, ht]
  have h5 : lstrip (strip t) = strip t := by rw [h4, lstrip_lstrip]
  obtain ⟨rx, hr, _, hm, _⟩ := rx_anchored (0 + 1) (0 + 1) (tolP_ok (lits_ok hl) true)
  have e := exact_text ⟨false, tolP true (lits r), false⟩
  rw [show bn false = 0 from rfl] at e
  rw [← e, ← tolerant_text (p := ⟨false, lits r, false⟩) plainBlanks_lits, literal_text] at hr
  rw [isRequired, if_pos rfl, hr]
  show Except.ok _ = _
  congr 1
  rw [Bool.eq_iff_iff, search_iff, beq_iff_eq,
    whole_iff (reads_tol _ _ (Nat.le_refl _)) hm (rstrip_strip t), readsWs_words r.length r (Nat.le_refl _) h1 h2]
  have h3 : splitWs (strip t) = splitWs t := by rw [h4, splitWs_lstrip]
  rw [h3]
  exact ⟨fun q => q.2.2, fun q => ⟨h5, rstrip_strip t, q⟩⟩

theorem splitWs_flatten (t : Str) : (splitWs t).flatten = t.filter (fun c => !isSpace c) := by
  have key : ∀ (t acc : Str), (splitWsAux t acc).flatten = acc.reverse ++ t.filter (fun c => !isSpace c) := by
    intro t
    induction t with
    | nil => intro acc; cases acc <;> simp [splitWsAux]
    | cons x t ih =>
      intro acc
      rw [splitWsAux]
      by_cases hx : isSpace x = true
      · rw [if_pos hx]
        cases acc with
        | nil => simp [ih, hx]
        | cons a acc => simp [ih, hx]
      · rw [if_neg hx, ih]
        simp [hx]
  exact key t []

theorem words_letter {t r : Str} (h : splitWs t = splitWs r) (hr : ∃ c ∈ r, isLetter c = true) : ∃ c ∈ t, isLetter c = true := by
  obtain ⟨c, hc, hl⟩ := hr
  have h1 : c ∈ r.filter (fun c => !isSpace c) := List.mem_filter.mpr ⟨hc, by rw [letter_not_space hl]; rfl⟩
  rw [← splitWs_flatten, ← h, splitWs_flatten] at h1
  exact ⟨c, (List.mem_filter.mp h1).1, hl⟩

/-- C100: with `ignore_ws` a required line is a line of the configuration if both have the same
words.  (The required lines are plain texts without blanks at the ends, and have a letter.) -/
theorem C100_words_partial (h : parse o lines = .ok P) {cfg : List Str}
    (hc : ∀ r ∈ cfg, Spec.Literal r ∧ strip r = r ∧ ∃ c ∈ r, isLetter c = true) :
    ∃ g : Str → Bool, reqAllDiff P cfg true = .ok (cfg.filter g) ∧
      ∀ r ∈ cfg, (g r = false ↔ ∃ i ∈ P.list, splitWs (P.h i).text = splitWs r) := by
  obtain ⟨g, h1, h2⟩ := reqAllDiff_spec (P := P) (cfg := cfg) (ws := true) (f := fun t r => splitWs t == splitWs r)
    (fun i hi r hr => isRequired_words (text_rstrip h hi) (hc r hr).1 (hc r hr).2.1)
  refine ⟨g, h1, fun r hr => ?_⟩
  rw [h2 r hr]
  constructor
  · rintro ⟨i, hi, _, he⟩; exact ⟨i, hi, beq_iff_eq.mp he⟩
  · rintro ⟨i, hi, he⟩
    exact ⟨i, hi, words_letter he (hc r hr).2.2, beq_iff_eq.mpr he⟩

example : ∃ P, parse {} [s "hostname  a", s "interface b", s "  ip  mtu x"] = .ok P ∧
    reqAllDiff P [s "hostname a", s "ip mtu  x", s "ipmtu x"] true = .ok [s "ipmtu x"] ∧
    reqAllDiff P [s "hostname a", s "ip mtu  x", s "ipmtu x"] false = .ok [s "hostname a", s "ip mtu  x", s "ipmtu x"] :=
  ⟨_, rfl, by decide +kernel, by decide +kernel⟩

/-- C100 does not hold as stated: a required line that is indented is never found with
`ignore_ws`, although it is found without. -/
theorem C100_indent_fails :
    ∃ P, parse {} [s "interface b", s " shutdown"] = .ok P ∧ reqAllDiff P [s " shutdown"] false = .ok [] ∧
      reqAllDiff P [s " shutdown"] true = .ok [s " shutdown"] := ⟨_, rfl, by decide +kernel, by decide +kernel⟩

/-- C100 does not hold as stated: special characters are not escaped.  A dot accepts another
character, and a parenthesis raises an error. -/
theorem C100_special_fails :
    ∃ P, parse {} [s "ip 1x1"] = .ok P ∧ reqAllDiff P [s "ip 1.1"] true = .ok [] ∧
      reqAllDiff P [s "remark ("] true = .error .bad := ⟨_, rfl, by decide +kernel, by decide +kernel⟩

/-! ## C101 -/

/-- The line matches, and is none of the allowed lines. -/
def Spec.Violator (P : Parsed) (line : Rx) (cfg : List Str) (i : Nat) : Prop :=
  i ∈ P.list ∧ Spec.Match line (P.h i).text ∧ ∀ r ∈ cfg, strip (P.h i).text ≠ strip r

theorem violations_spec {unc : Rx} {cfg : List Str} {u : Nat → Str} : ∀ (l : List Nat),
    (∀ i ∈ l, (∀ r ∈ cfg, strip (P.h i).text ≠ strip r) → ∃ g, unc.find (P.h i).text = some g ∧ addUncfgtext P i g = .ok (u i)) →
    violations P unc cfg l = .ok ((l.filter (fun i => !cfg.any (fun r => strip (P.h i).text == strip r))).map (fun i => (i, u i))) := by
  intro l
  induction l with
  | nil => intro _; rfl
  | cons i l ih =>
    intro h
    have ih' := ih (fun j hj => h j (by simp [hj]))
    rw [violations, List.filter_cons]
    by_cases ha : cfg.any (fun r => strip (P.h i).text == strip r) = true
    · rw [if_pos ha, ha]
      exact ih'
    · rw [if_neg ha]
      have hn : ∀ r ∈ cfg, strip (P.h i).text ≠ strip r := fun r hr e =>
        ha (List.any_eq_true.mpr ⟨r, hr, beq_iff_eq.mpr e⟩)
      obtain ⟨g, h1, h2⟩ := h i (by simp) hn
      rw [Bool.not_eq_true] at ha
      rw [h1, ha]
      show (addUncfgtext P i g >>= fun u => _) = _
      rw [h2]
      show (violations P unc cfg l >>= fun rest => _) = _
      rw [ih']
      rfl

theorem uncfgTexts_spec {vs : List (Nat × Str)} {f : Nat → Str} : ∀ (l : List Nat),
    (∀ i ∈ l, (if vs.any (fun v => objEq (P.h v.1) (P.h i)) then uncfgOf P vs i else .ok (P.h i).text) = .ok (f i)) →
    uncfgTexts P vs l = .ok (l.map f) := by
  intro l
  induction l with
  | nil => intro _; rfl
  | cons i l ih =>
    intro h
    rw [uncfgTexts, h i (by simp)]
    show (uncfgTexts P vs l >>= fun rest => _) = _
    rw [ih (fun j hj => h j (by simp [hj]))]
    rfl

theorem lookup_pair {u : Nat → Str} {i : Nat} : ∀ {l : List Nat}, i ∈ l → (l.map (fun i => (i, u i))).lookup i = some (u i) := by
  intro l
  induction l with
  | nil => intro h; cases h
  | cons j l ih =>
    intro h
    rw [List.map_cons, List.lookup_cons]
    by_cases e : i = j
    · subst e; simp
    · rw [show (i == j) = false from beq_eq_false_iff_ne.mpr e]
      exact ih ((List.mem_cons.mp h).resolve_left e)

/-- C101: `req_cfgspec_excl_diff` returns, first, in line order, the violators (the lines that
match and are none of the required lines) and their ancestors: an ancestor as it is, a violator
as `no` with what the second expression finds in it, indented as the violator.  Then follow, in
their order, the required lines that no matching line is equal to.
(The violators are children, their siblings have the same indentation, and what the second
expression finds does not begin with `no`.) -/
theorem C101_exclusive_partial (h : parse o lines = .ok P) (hp : Spec.Plain lines) (hn : Spec.NoDigits P) (line unc : Rx)
    (cfg : List Str)
    (hu : ∀ i, Spec.Violator P line cfg i → ∃ g, unc.find (P.h i).text = some g ∧ (splitWs g).head? ≠ some (s "no"))
    (hi : ∀ i, Spec.Violator P line cfg i → (P.h i).parent ≠ i ∧
      ∀ k ∈ (P.h (P.h i).parent).children, (P.h k).indent = (P.h i).indent) :
    ∃ (l : List Nat) (f : Nat → Str) (g : Str → Bool),
      reqExclDiff P line unc cfg = .ok (l.map f ++ cfg.filter g) ∧ Spec.Ordered P l ∧
      (∀ i, i ∈ l ↔ Spec.Violator P line cfg i ∨ ∃ v, Spec.Violator P line cfg v ∧ Spec.Anc P v i) ∧
      (∀ i ∈ l, ¬ Spec.Violator P line cfg i → f i = (P.h i).text) ∧
      (∀ i, Spec.Violator P line cfg i → ∀ x, unc.find (P.h i).text = some x →
        f i = spaces (P.h i).indent ++ s "no " ++ x) ∧
      (∀ r ∈ cfg, g r = false ↔ ∃ i ∈ P.list, Spec.Match line (P.h i).text ∧ strip (P.h i).text = strip r) := by
  have ht := tree_of_parse h
  have hd := distinct_of_parse h hn
  obtain ⟨n, hI⟩ := indents_parse h hp
  -- the violators
  have hv : ∀ i, i ∈ (findObjects P line).filter (fun i => !cfg.any (fun r => strip (P.h i).text == strip r)) ↔
      Spec.Violator P line cfg i := by
    intro i
    rw [List.mem_filter, mem_findObjects, Bool.not_eq_true', Spec.Violator, and_assoc]
    refine and_congr_right fun _ => and_congr_right fun _ => ?_
    rw [← Bool.not_eq_true, List.any_eq_true]
    constructor
    · intro q r hr e; exact q ⟨r, hr, beq_iff_eq.mpr e⟩
    · rintro q ⟨r, hr, e⟩; exact q r hr (beq_iff_eq.mp e)
  have hind : ∀ i, Spec.Violator P line cfg i → (P.h (P.h i).parent).childIndent = (P.h i).indent := by
    intro i hvi
    obtain ⟨h1, h2⟩ := hi i hvi
    have hm := parent_lists h hp.2.2 hvi.1 h1
    rw [(hI (P.h i).parent).2]
    cases hl : (P.h (P.h i).parent).children.getLast? with
    | none => rw [List.getLast?_eq_none_iff.mp hl] at hm; cases hm
    | some k => exact h2 k (List.mem_of_getLast? hl)
  let u : Nat → Str := fun i => spaces (P.h i).indent ++ s "no " ++ (unc.find (P.h i).text).getD []
  have hue : ∀ i x, unc.find (P.h i).text = some x → u i = spaces (P.h i).indent ++ s "no " ++ x := by
    intro i x hx
    show _ ++ (unc.find (P.h i).text).getD [] = _
    rw [hx]
    rfl
  have hviol := violations_spec (P := P) (unc := unc) (cfg := cfg) (u := u) (findObjects P line) (by
    intro i hio hni
    have hvi : Spec.Violator P line cfg i := ⟨(mem_findObjects.mp hio).1, (mem_findObjects.mp hio).2, hni⟩
    obtain ⟨g, h1, h2⟩ := hu i hvi
    refine ⟨g, h1, ?_⟩
    rw [addUncfgtext, dropNo_other (fun w hw e => h2 (by rw [hw, e])), hind i hvi]
    show Except.ok _ = Except.ok _
    rw [hue i g h1])
  generalize hV : (findObjects P line).filter (fun i => !cfg.any (fun r => strip (P.h i).text == strip r)) = V at hv hviol
  have hVl : ∀ i ∈ V, i ∈ P.list := fun i hiV => ((hv i).mp hiV).1
  have hul : ∀ x ∈ (V.map (fun i => (i, u i))).flatMap (fun v => allParents P v.1 ++ [v.1]), x ∈ P.list := by
    intro x hx
    obtain ⟨v, hv1, hv2⟩ := List.mem_flatMap.mp hx
    obtain ⟨i, hiV, rfl⟩ := List.mem_map.mp hv1
    rcases List.mem_append.mp hv2 with q | q
    · exact (anc_lt ht (hVl i hiV) (mem_allParents_sound q)).1
    · rw [List.mem_singleton.mp q]; exact hVl i hiV
  have hmem : ∀ i, i ∈ sortObjs P.h (setObjs P.h ((V.map (fun i => (i, u i))).flatMap (fun v => allParents P v.1 ++ [v.1]))) ↔
      Spec.Violator P line cfg i ∨ ∃ v, Spec.Violator P line cfg v ∧ Spec.Anc P v i := by
    intro i
    rw [mem_sortObjs, mem_set hd hul, List.mem_flatMap]
    constructor
    · rintro ⟨v, hv1, hv2⟩
      obtain ⟨j, hj, rfl⟩ := List.mem_map.mp hv1
      rcases List.mem_append.mp hv2 with q | q
      · exact .inr ⟨j, (hv j).mp hj, mem_allParents_sound q⟩
      · rw [List.mem_singleton.mp q]; exact .inl ((hv j).mp hj)
    · rintro (q | ⟨v, q, ha⟩)
      · exact ⟨(i, u i), List.mem_map.mpr ⟨i, (hv i).mpr q, rfl⟩, by simp⟩
      · refine ⟨(v, u v), List.mem_map.mpr ⟨v, (hv v).mpr q, rfl⟩, ?_⟩
        exact List.mem_append.mpr (.inl ((mem_allParents ht hd q.1).mpr ha))
  let f : Nat → Str := fun i => if i ∈ V then u i else (P.h i).text
  have htexts := uncfgTexts_spec (P := P) (vs := V.map (fun i => (i, u i))) (f := f)
    (sortObjs P.h (setObjs P.h ((V.map (fun i => (i, u i))).flatMap (fun v => allParents P v.1 ++ [v.1])))) (by
    intro i hil
    have hilist : i ∈ P.list := hul i (mem_of_mem_set (mem_sortObjs.mp hil))
    by_cases hiV : i ∈ V
    · rw [if_pos (List.any_eq_true.mpr ⟨(i, u i), List.mem_map.mpr ⟨i, hiV, rfl⟩, objEq_refl P.h i⟩), uncfgOf, lookup_pair hiV]
      show Except.ok _ = Except.ok (if i ∈ V then u i else _)
      rw [if_pos hiV]
    · rw [if_neg]
      · show Except.ok _ = Except.ok (if i ∈ V then u i else _)
        rw [if_neg hiV]
      · intro q
        obtain ⟨v, hv1, hv2⟩ := List.any_eq_true.mp q
        obtain ⟨j, hj, rfl⟩ := List.mem_map.mp hv1
        have := hd j (hVl j hj) i hilist hv2
        exact hiV (this ▸ hj))
  refine ⟨_, f, fun r => !(findObjects P line).any (fun i => strip (P.h i).text == strip r), ?_, sortSet_ordered ht hul, hmem, ?_, ?_, ?_⟩
  · rw [reqExclDiff]
    dsimp only
    rw [hviol]
    show (uncfgTexts P _ _ >>= fun texts => _) = _
    rw [htexts]
    rfl
  · intro i _ hni
    show (if i ∈ V then u i else _) = _
    rw [if_neg (fun q => hni ((hv i).mp q))]
  · intro i hvi x hx
    show (if i ∈ V then u i else _) = _
    rw [if_pos ((hv i).mpr hvi), hue i x hx]
  · intro r _
    rw [Bool.not_eq_false', List.any_eq_true]
    constructor
    · rintro ⟨i, hio, e⟩
      obtain ⟨h1, h2⟩ := mem_findObjects.mp hio
      exact ⟨i, h1, h2, beq_iff_eq.mp e⟩
    · rintro ⟨i, h1, h2, e⟩
      exact ⟨i, mem_findObjects.mpr ⟨h1, h2⟩, beq_iff_eq.mpr e⟩

/-- C101: a violator in which the second expression finds nothing is refused. -/
theorem C101_refused (P : Parsed) (line unc : Rx) (cfg : List Str) {i : Nat} (hv : Spec.Violator P line cfg i)
    (hu : ¬ Spec.Match unc (P.h i).text) : reqExclDiff P line unc cfg = .error .attributeError := by
  have hno : ∀ t, ∃ c, dropNo t = .ok c := by
    intro t
    have hc : ∃ p, liftBad (Re.compileL noRx) = .ok p := by
      cases hc : Re.compileL noRx with
      | ok p => exact ⟨p, rfl⟩
      | error e =>
        have : (match Re.compileL noRx with | .ok _ => true | .error _ => false) = true := by decide +kernel
        rw [hc] at this
        cases this
    obtain ⟨p, hc⟩ := hc
    rw [dropNo, hc]
    cases hs : Re.search p t with
    | none => exact ⟨t, by show (match Re.search p t with | some m => _ | none => _) = _; rw [hs]⟩
    | some m => exact ⟨'\x03' :: t.drop m.text.length, by show (match Re.search p t with | some m => _ | none => _) = _; rw [hs]⟩
  have key : ∀ l : List Nat, i ∈ l → violations P unc cfg l = .error .attributeError := by
    intro l
    induction l with
    | nil => intro h; cases h
    | cons j l ih =>
      intro hm
      rw [violations]
      split
      · rename_i ha
        rcases List.mem_cons.mp hm with rfl | hm
        · obtain ⟨r, hr, e⟩ := List.any_eq_true.mp ha
          exact absurd (beq_iff_eq.mp e) (hv.2.2 r hr)
        · exact ih hm
      · cases hf : unc.find (P.h j).text with
        | none => rfl
        | some g =>
          have hm' : i ∈ l := by
            rcases List.mem_cons.mp hm with rfl | hm
            · exact absurd ⟨g, hf⟩ hu
            · exact hm
          obtain ⟨c, hc⟩ := hno g
          show (addUncfgtext P j g >>= fun u => _) = _
          rw [addUncfgtext, hc]
          show (violations P unc cfg l >>= fun rest => _) = _
          rw [ih hm']
          rfl
  rw [reqExclDiff]
  dsimp only
  rw [key _ (mem_findObjects.mpr ⟨hv.1, hv.2.1⟩)]
  rfl

/-- `log` -/
def rxLog : Rx := ⟨s "log", fun t => if isInfix (s "log") t then some (s "log") else none⟩

/-- The whole line without the blanks around it. -/
def rxAll : Rx := ⟨s "\\S.*", fun t => if strip t = [] then none else some (strip t)⟩

def exclLines : List Str := [s "line con", s " log a", s " x", s "line vty", s " x", s " log b", s " log c"]

example : ∃ P, parse {} exclLines = .ok P ∧
    reqExclDiff P rxLog rxAll [s "log b", s "log d"] =
      .ok [s "line con", s " no log a", s "line vty", s " no log c", s "log d"] ∧
    reqExclDiff P rxLog ⟨s "a", fun t => if 'a' ∈ t then some (s "a") else none⟩ [s "log b", s "log d"] =
      .error .attributeError :=
  ⟨_, rfl, by decide +kernel, by decide +kernel⟩

/-- The hypotheses of `C101_exclusive_partial` can be met. -/
example : ∃ P, parse {} exclLines = .ok P ∧ Spec.NoDigits P ∧
    (∀ i, Spec.Violator P rxLog [s "log b", s "log d"] i →
      ∃ g, rxAll.find (P.h i).text = some g ∧ (splitWs g).head? ≠ some (s "no")) ∧
    (∀ i, Spec.Violator P rxLog [s "log b", s "log d"] i → (P.h i).parent ≠ i ∧
      ∀ k ∈ (P.h (P.h i).parent).children, (P.h k).indent = (P.h i).indent) := by
  obtain ⟨P, hP⟩ : ∃ P, parse {} exclLines = .ok P := ⟨_, rfl⟩
  refine ⟨P, hP, ?_⟩
  have h0 : (match parse {} exclLines with
      | .ok P => P.list.all (fun i => (P.h i).text.head?.all (fun c => !isDigit c))
      | .error _ => false) = true := by decide +kernel
  have h1 : (match parse {} exclLines with
      | .ok P => P.list.all (fun i => !isInfix (s "log") (P.h i).text || [s "log b", s "log d"].any (fun r => strip (P.h i).text == strip r) ||
          (strip (P.h i).text != [] && (splitWs (strip (P.h i).text)).head? != some (s "no") && (P.h i).parent != i &&
            (P.h (P.h i).parent).children.all (fun k => (P.h k).indent == (P.h i).indent)))
      | .error _ => false) = true := by decide +kernel
  rw [hP] at h0 h1
  have h2 : ∀ i, Spec.Violator P rxLog [s "log b", s "log d"] i → strip (P.h i).text ≠ [] ∧
      (splitWs (strip (P.h i).text)).head? ≠ some (s "no") ∧ (P.h i).parent ≠ i ∧
      ∀ k ∈ (P.h (P.h i).parent).children, (P.h k).indent = (P.h i).indent := by
    intro i hv
    have := List.all_eq_true.mp h1 i hv.1
    have hl : isInfix (s "log") (P.h i).text = true := by
      obtain ⟨g, hg⟩ := hv.2.1
      have hg' : (if isInfix (s "log") (P.h i).text then some (s "log") else none) = some g := hg
      by_cases q : isInfix (s "log") (P.h i).text = true
      · exact q
      · rw [if_neg q] at hg'; cases hg'
    have hn : [s "log b", s "log d"].any (fun r => strip (P.h i).text == strip r) = false := by
      rw [← Bool.not_eq_true, List.any_eq_true]
      rintro ⟨r, hr, e⟩
      exact hv.2.2 r hr (beq_iff_eq.mp e)
    rw [hl, hn] at this
    simpa [and_assoc] using this
  refine ⟨fun i hi c hc => ?_, fun i hv => ?_, fun i hv => (h2 i hv).2.2⟩
  · have := List.all_eq_true.mp h0 i hi
    rw [hc] at this
    simpa using this
  · exact ⟨strip (P.h i).text, if_neg (h2 i hv).1, (h2 i hv).2.1⟩

/-- C101 does not hold as stated: of a line that begins with `no`, what is to be done is not the
line without `no` but a control character. -/
theorem C101_no_fails :
    ∃ P, parse {} [s "line con", s " no log"] = .ok P ∧
      reqExclDiff P rxLog rxAll [] = .ok [s "line con", s " no \x03"] := ⟨_, rfl, by decide +kernel⟩

/-- C101 does not hold as stated: the text for a line at the top that has children is indented as
the children are. -/
theorem C101_top_fails :
    ∃ P, parse {} [s "log a", s "   x"] = .ok P ∧
      reqExclDiff P rxLog rxAll [] = .ok [s "   no log a"] := ⟨_, rfl, by decide +kernel⟩

/-! ## C102 -/

/-- C102: `child_indent` of a line is the indentation of its last child, and 0 if it has none.
(Without banners, macros and closing braces.) -/
theorem C102_child_indent_partial (h : parse o lines = .ok P) (hp : Spec.Plain lines) (i : Nat) :
    ((P.h i).children = [] → (P.h i).childIndent = 0) ∧
    (∀ k, (P.h i).children.getLast? = some k → (P.h i).childIndent = (P.h k).indent) := by
  obtain ⟨n, hI⟩ := indents_parse h hp
  obtain ⟨_, h1⟩ := hI i
  refine ⟨fun e => ?_, fun k hk => ?_⟩
  · rw [h1, e]; rfl
  · rw [h1, hk]

example : ∃ P, parse {} [s "a", s "   b", s "  c", s "    d", s "e"] = .ok P ∧
    (P.h 0).childIndent = 2 ∧ (P.h 2).childIndent = 4 ∧ (P.h 4).childIndent = 0 :=
  ⟨_, rfl, by decide, by decide, by decide⟩

/-- C102 does not hold as stated: the lines of a banner may be indented, but the `child_indent`
of the banner is 0. -/
theorem C102_banner_fails :
    ∃ P, parse {} [s "banner motd ^", s "  hello", s "  ^"] = .ok P ∧ (P.h 0).children = [1, 2, 1, 2] ∧
      (P.h 2).indent = 2 ∧ (P.h 0).childIndent = 0 := ⟨_, rfl, by decide, by decide, by decide⟩

/-! ## C103 -/

/-- C103: `re_search_children` of the configuration: the matching lines without a parent; with
`recurse` all matching lines.  In line order. -/
theorem C103_search (h : parse o lines = .ok P) (rx : Rx) :
    (∀ i, i ∈ topSearchChildren P rx false ↔ i ∈ P.list ∧ Spec.Match rx (P.h i).text ∧ (P.h i).parent = i) ∧
    (∀ i, i ∈ topSearchChildren P rx true ↔ i ∈ P.list ∧ Spec.Match rx (P.h i).text) ∧
    (∀ r, Spec.Ordered P (topSearchChildren P rx r)) := by
  have ht := tree_of_parse h
  refine ⟨fun i => ?_, fun i => ?_, fun r => ?_⟩
  · rw [topSearchChildren, if_pos rfl, List.mem_filter, mem_findObjects, beq_iff_eq, and_assoc]
  · rw [topSearchChildren, if_neg (by simp), mem_findObjects]
  · rw [topSearchChildren]
    split
    · exact filter_ordered (findObjects_ordered ht rx) _
    · exact findObjects_ordered ht rx

/-- C103: `re_match_iter_typed` of the configuration: the result for the first line without a
parent that matches; the default (converted, unless `untyped_default`) if there is none. -/
theorem C103_match {α β : Type} (P : Parsed) (group : Str → Option α) (typ : α → Except Err β) (default : α) (untyped : β)
    (ud : Bool) :
    (∀ pre i post g, P.list = pre ++ i :: post → (P.h i).parent = i → group (P.h i).text = some g →
      (∀ j ∈ pre, (P.h j).parent = j → group (P.h j).text = none) →
      topMatchIterTyped P group typ default untyped ud = typ g) ∧
    ((∀ j ∈ P.list, (P.h j).parent = j → group (P.h j).text = none) →
      topMatchIterTyped P group typ default untyped ud = if ud then .ok untyped else typ default) := by
  rw [topMatchIterTyped]
  constructor
  · intro pre i post g e hi hg hpre
    rw [e]
    clear e
    induction pre with
    | nil => rw [List.nil_append, topMatchLoop, if_pos (beq_iff_eq.mpr hi), hg]
    | cons j pre ih =>
      have ih' := ih (fun k hk => hpre k (by simp [hk]))
      rw [List.cons_append, topMatchLoop]
      split
      · rename_i hj
        rw [hpre j (by simp) (beq_iff_eq.mp hj)]
        exact ih'
      · exact ih'
  · generalize P.list = l
    intro hl
    induction l with
    | nil => rfl
    | cons j l ih =>
      have ih' := ih (fun k hk => hl k (by simp [hk]))
      rw [topMatchLoop]
      split
      · rename_i hj
        rw [hl j (by simp) (beq_iff_eq.mp hj)]
        exact ih'
      · exact ih'

example : ∃ P, parse {} [s "a", s " log a", s "log b", s "log c"] = .ok P ∧
    topSearchChildren P rxLog false = [2, 3] ∧ topSearchChildren P rxLog true = [1, 2, 3] ∧
    topMatchIterTyped P rxAll.find (fun t => .ok t) (s "x") (s "y") false = .ok (s "a") ∧
    topMatchIterTyped P rxLog.find (fun t => .ok t.length) (s "x") 7 false = .ok 3 ∧
    topMatchIterTyped P rxQ.find (fun t => .ok t.length) (s "x") 7 false = .ok 1 ∧
    topMatchIterTyped P rxQ.find (fun t => .ok t.length) (s "x") 7 true = .ok 7 :=
  ⟨_, rfl, by decide +kernel, by decide +kernel, by decide +kernel, by decide +kernel, by decide +kernel, by decide +kernel⟩

end

end Query

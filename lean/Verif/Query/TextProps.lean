import Verif.Query.TextLemmas
import Verif.Re.Words

/-! # C94 – C98: searching with texts

`Spec.Pattern` is a simple regular expression and `p.text` how a user writes it; which texts it
stands for is said in `Query/TextSpec.lean`. -/

namespace Query

open Py Conf

section
variable {o : Opts} {lines : List Str} {P : Parsed}

/-- The texts have no trailing whitespace. -/
theorem text_rstrip (h : parse o lines = .ok P) {i : Nat} (hi : i ∈ P.list) : rstrip (P.h i).text = (P.h i).text := by
  have ht := (C20_texts_partial h).1
  rw [Parsed.texts] at ht
  rw [List.map_inj_left.mp ht i hi, rstrip_rstrip]

theorem no_newline {a b : Str} {t : Str} (ht : rstrip t = t) (e : t = a ++ b ++ ['\n']) : False := by
  have := getLast?_rstrip t '\n' (by rw [ht, e]; simp)
  revert this
  decide

/-- `bool` as a number of anchors. -/
def bn (b : Bool) : Nat := if b then 1 else 0

theorem pattern_text (p : Spec.Pattern) :
    p.text = List.replicate (bn p.bol) '^' ++ (p.ps.flatMap Spec.Piece.text ++ List.replicate (bn p.eol) '$') := by
  obtain ⟨b, ps, e⟩ := p
  cases b <;> cases e <;> simp [Spec.Pattern.text, bn]

theorem exact_text (p : Spec.Pattern) :
    exactSpec true p.text =
      List.replicate (bn p.bol + 1) '^' ++ (p.ps.flatMap Spec.Piece.text ++ List.replicate (bn p.eol + 1) '$') := by
  obtain ⟨b, ps, e⟩ := p
  cases b <;> cases e <;> simp [exactSpec, Spec.Pattern.text, bn, List.replicate]

theorem match_objects (h : parse o lines = .ok P) {s : Str} {rx : Rx} (hr : textRx s = .ok rx) {Q : Str → Prop}
    (hQ : ∀ t, rstrip t = t → (Spec.Match rx t ↔ Q t)) :
    ∃ l, (textRx s >>= fun rx => (.ok (findObjects P rx) : Except Re.Bad _)) = .ok l ∧
      (∀ i, i ∈ l ↔ i ∈ P.list ∧ Q (P.h i).text) ∧ Spec.Ordered P l := by
  refine ⟨findObjects P rx, by rw [hr]; rfl, fun i => ?_, findObjects_ordered (tree_of_parse h) rx⟩
  rw [mem_findObjects]
  refine and_congr_right fun hi => hQ _ (text_rstrip h hi)

theorem in_iff {p : Spec.Pattern} {rx : Rx} {ps : List Spec.Piece} {R : Str → Prop} (hR : ∀ b, Spec.Reads ps b ↔ R b)
    (hm : ∀ t, Spec.Match rx t ↔ ∃ a b c, t = a ++ b ++ c ∧ Spec.Reads ps b ∧ (bn p.bol = 0 ∨ a = []) ∧
        (bn p.eol = 0 ∨ c = [] ∨ c = ['\n'])) {t : Str} (ht : rstrip t = t) :
    Spec.Match rx t ↔ ∃ a b c, t = a ++ b ++ c ∧ R b ∧ (p.bol = true → a = []) ∧ (p.eol = true → c = []) := by
  rw [hm]
  refine exists_congr fun a => exists_congr fun b => exists_congr fun c => and_congr_right fun e => ?_
  rw [hR]
  refine and_congr_right fun _ => and_congr ?_ ?_
  · cases p.bol <;> simp [bn]
  · cases p.eol with
    | false => simp [bn]
    | true =>
      simp only [bn, if_true]
      constructor
      · rintro (h | h | h) _
        · cases h
        · exact h
        · exact absurd (no_newline ht (h ▸ e)) id
      · intro h; exact .inr (.inl (h trivial))

theorem whole_iff {rx : Rx} {ps : List Spec.Piece} {R : Str → Prop} (hR : ∀ b, Spec.Reads ps b ↔ R b) {k m : Nat}
    (hm : ∀ t, Spec.Match rx t ↔ ∃ a b c, t = a ++ b ++ c ∧ Spec.Reads ps b ∧ (k + 1 = 0 ∨ a = []) ∧
        (m + 1 = 0 ∨ c = [] ∨ c = ['\n'])) {t : Str} (ht : rstrip t = t) :
    Spec.Match rx t ↔ R t := by
  rw [hm]
  constructor
  · rintro ⟨a, b, c, e, hb, ha, hc⟩
    have ha' : a = [] := by rcases ha with h | h; · cases h
                            · exact h
    have hc' : c = [] := by
      rcases hc with h | h | h
      · cases h
      · exact h
      · exact absurd (no_newline ht (h ▸ e)) id
    subst ha' hc'
    rw [List.nil_append, List.append_nil] at e
    rw [e]
    exact (hR b).mp hb
  · intro h
    exact ⟨[], t, [], by simp, (hR t).mpr h, .inr rfl, .inr (.inl rfl)⟩

/-! ## C94 -/

/-- C94: a search with a simple pattern returns exactly the lines with a part that the pattern
stands for (at the beginning with `^`, at the end with `$`); with `exactmatch`, the lines that it
stands for as a whole.  In line order, without repetitions. -/
theorem C94_pattern (h : parse o lines = .ok P) (p : Spec.Pattern) (hp : p.Ok) :
    (∃ l, findObjectsT P p.text false false = .ok l ∧
      (∀ i, i ∈ l ↔ i ∈ P.list ∧ p.In (P.h i).text) ∧ Spec.Ordered P l) ∧
    (∃ l, findObjectsT P p.text true false = .ok l ∧
      (∀ i, i ∈ l ↔ i ∈ P.list ∧ Spec.Reads p.ps (P.h i).text) ∧ Spec.Ordered P l) := by
  constructor
  · obtain ⟨rx, hr, _, hm, _⟩ := rx_anchored (bn p.bol) (bn p.eol) hp
    rw [← pattern_text] at hr
    exact match_objects h hr fun t ht => in_iff (fun _ => Iff.rfl) hm ht
  · obtain ⟨rx, hr, _, hm, _⟩ := rx_anchored (bn p.bol + 1) (bn p.eol + 1) hp
    rw [← exact_text] at hr
    exact match_objects h hr fun t ht => whole_iff (fun _ => Iff.rfl) hm ht

theorem literal_text (s : Str) : (Spec.Pattern.mk false (lits s) false).text = s := by
  simp [Spec.Pattern.text, lits_text]

/-- C94: a search with a plain text returns exactly the lines that contain it; with
`exactmatch`, the lines that are equal to it. -/
theorem C94_literal (h : parse o lines = .ok P) {s : Str} (hs : Spec.Literal s) :
    (∃ l, findObjectsT P s false false = .ok l ∧
      (∀ i, i ∈ l ↔ i ∈ P.list ∧ s <:+: (P.h i).text) ∧ Spec.Ordered P l) ∧
    (∃ l, findObjectsT P s true false = .ok l ∧
      (∀ i, i ∈ l ↔ i ∈ P.list ∧ (P.h i).text = s) ∧ Spec.Ordered P l) := by
  have := C94_pattern h ⟨false, lits s, false⟩ (lits_ok hs)
  rw [literal_text] at this
  obtain ⟨⟨l, h1, h2, h3⟩, l', h4, h5, h6⟩ := this
  refine ⟨⟨l, h1, fun i => ?_, h3⟩, l', h4, fun i => ?_, h6⟩
  · rw [h2]
    refine and_congr_right fun _ => ?_
    simp only [Spec.Pattern.In, reads_lits, Bool.false_eq_true, false_implies, and_true]
    constructor
    · rintro ⟨a, b, c, e, rfl⟩; exact ⟨a, c, e.symm⟩
    · rintro ⟨a, c, e⟩; exact ⟨a, s, c, e.symm, rfl⟩
  · rw [h5, reads_lits]

/-- C94: `find_lines` returns the texts of the lines that `find_objects` returns, in order,
and refuses the same specifications. -/
theorem C94_lines (P : Parsed) (s : Str) (exact ws : Bool) :
    (∀ l, findObjectsT P s exact ws = .ok l → findLinesT P s exact ws = .ok (l.map (fun i => (P.h i).text))) ∧
    (∀ e, findObjectsT P s exact ws = .error e → findLinesT P s exact ws = .error e) := by
  rw [findObjectsT, findLinesT]
  cases textRx (exactSpec exact (wsSpec ws s)) with
  | error e => exact ⟨fun l h => (nomatch h), fun e' h => congrArg Except.error (Except.error.inj h)⟩
  | ok rx =>
    refine ⟨fun l h => ?_, fun e h => (nomatch h)⟩
    obtain rfl := Except.ok.inj h
    exact congrArg Except.ok (C29_find_lines rx).1

/-- `^interface\s+\S+\d$` -/
def intfPattern : Spec.Pattern :=
  ⟨true, lits (s "interface") ++ [⟨.space, .many⟩, ⟨.nonspace, .many⟩, ⟨.digit, .one⟩], true⟩

example : intfPattern.text = s "^interface\\s+\\S+\\d$" := by decide

example : intfPattern.Ok := by
  intro q hq
  rcases List.mem_append.mp hq with h | h
  · exact lits_ok (by decide) q h
  · rcases List.mem_cons.mp h with rfl | h
    · trivial
    · rcases List.mem_cons.mp h with rfl | h
      · trivial
      · obtain rfl := List.mem_singleton.mp h
        trivial

example : ∃ P, parse {} [s "interface  Gi0/1", s " no shutdown", s "interface Gi0/x", s "int Gi0/2"] = .ok P ∧
    findObjectsT P intfPattern.text false false = .ok [0] ∧
    findObjectsT P (s "shutdown") false false = .ok [1] ∧ findObjectsT P (s "shutdown") true false = .ok [] ∧
    findObjectsT P (s " no shutdown") true false = .ok [1] :=
  ⟨_, rfl, by decide +kernel, by decide +kernel, by decide +kernel, by decide +kernel⟩

/-! ## C95 -/

theorem tolerant_text {p : Spec.Pattern} (hb : p.PlainBlanks) :
    wsSpec true p.text = (Spec.Pattern.mk p.bol (tolP true p.ps) p.eol).text := by
  obtain ⟨b, ps, e⟩ := p
  have hs : ∀ e : Bool, ∀ b, tolerantAux b (if e then ['$'] else []) = (if e then ['$'] else []) := by
    intro e b
    cases e <;> cases b <;> decide
  have hi := tolerant_pieces hb true (hs e)
  rw [wsSpec, if_pos rfl, spaceTolerant, Spec.Pattern.text, Spec.Pattern.text]
  cases b with
  | false => simpa using hi
  | true =>
    simp only [if_true, List.append_assoc] at hi ⊢
    rw [tolerant_word ['^'] ⟨by simp, by decide⟩, hi]

/-- C95: with `ignore_ws`, a search with a simple pattern finds the lines that it stands for when
each run of blanks in the pattern may be any run of whitespace in the line.  (A blank must not be
escaped, nor followed by `+`, `*` or `?`.) -/
theorem C95_pattern_partial (h : parse o lines = .ok P) (p : Spec.Pattern) (hp : p.Ok) (hb : p.PlainBlanks) :
    (∃ l, findObjectsT P p.text false true = .ok l ∧
      (∀ i, i ∈ l ↔ i ∈ P.list ∧ p.InWs (P.h i).text) ∧ Spec.Ordered P l) ∧
    (∃ l, findObjectsT P p.text true true = .ok l ∧
      (∀ i, i ∈ l ↔ i ∈ P.list ∧ Spec.ReadsWs p.ps (P.h i).text) ∧ Spec.Ordered P l) := by
  have hok := tolP_ok hp true
  have hR := reads_tol p.ps.length p.ps (Nat.le_refl _)
  rw [findObjectsT, findObjectsT, tolerant_text hb]
  constructor
  · obtain ⟨rx, hr, _, hm, _⟩ := rx_anchored (bn p.bol) (bn p.eol) hok
    rw [← pattern_text ⟨p.bol, tolP true p.ps, p.eol⟩] at hr
    exact match_objects h hr fun t ht => in_iff hR hm ht
  · obtain ⟨rx, hr, _, hm, _⟩ := rx_anchored (bn p.bol + 1) (bn p.eol + 1) hok
    rw [← exact_text ⟨p.bol, tolP true p.ps, p.eol⟩] at hr
    exact match_objects h hr fun t ht => whole_iff hR hm ht

theorem readsWs_word {w : Str} (hw : ∀ c ∈ w, isSpace c = false) (ps : List Spec.Piece) (t : Str) :
    Spec.ReadsWs (lits w ++ ps) t ↔ ∃ r, t = w ++ r ∧ Spec.ReadsWs ps r := by
  induction w generalizing t with
  | nil => simp [lits]
  | cons c w ih =>
    have hc : ¬ Spec.Piece.Blank ⟨.ch c, .one⟩ := by
      rintro ⟨d, hd, e⟩
      have hcd : c = d := by injection e with e1 _; injection e1
      rw [← hcd, hw c (by simp)] at hd
      cases hd
    have ih' := ih (fun x hx => hw x (by simp [hx]))
    rw [lits, List.map_cons, List.cons_append, ← lits]
    constructor
    · intro h
      generalize hq : (⟨.ch c, .one⟩ : Spec.Piece) :: (lits w ++ ps) = q at h
      cases h with
      | nil => cases hq
      | @piece p qs a b hp ha hb =>
        obtain ⟨rfl, rfl⟩ := List.cons.inj hq
        obtain ⟨r, rfl, hr⟩ := (ih' b).mp hb
        obtain ⟨hl, hx⟩ := ha
        obtain ⟨x, rfl⟩ := List.length_eq_one_iff.mp hl
        have hxc : x = c := hx x (by simp)
        subst hxc
        exact ⟨r, rfl, hr⟩
      | @gap g qs a b hne hg _ _ _ _ =>
        obtain ⟨p, g, rfl⟩ := List.exists_cons_of_ne_nil hne
        obtain ⟨rfl, _⟩ := List.cons.inj hq
        exact absurd (hg _ (by simp)) hc
    · rintro ⟨r, rfl, hr⟩
      exact Spec.ReadsWs.piece (a := [c]) hc ⟨rfl, by simp [Spec.Atom.Has]⟩ ((ih' _).mpr ⟨r, rfl, hr⟩)

theorem lits_append (a b : Str) : lits (a ++ b) = lits a ++ lits b := List.map_append

theorem readsWs_gap {g : Str} (hne : g ≠ []) (hg : ∀ c ∈ g, isSpace c = true) {r : Str}
    (hr : ∀ c, r.head? = some c → isSpace c = false) (t : Str) :
    Spec.ReadsWs (lits (g ++ r)) t ↔
      ∃ a b, t = a ++ b ∧ a ≠ [] ∧ (∀ c ∈ a, isSpace c = true) ∧ Spec.ReadsWs (lits r) b := by
  have hbl : ∀ x : Str, (∀ c ∈ x, isSpace c = true) → ∀ p ∈ lits x, p.Blank := by
    intro x hx p hp
    obtain ⟨c, hc, rfl⟩ := List.mem_map.mp hp
    exact ⟨c, hx c hc, rfl⟩
  have hnb : ∀ p, (lits r).head? = some p → ¬ p.Blank := by
    rintro p hp ⟨d, hd, rfl⟩
    cases r with
    | nil => cases hp
    | cons x r =>
      have hx : x = d := by
        have := Option.some.inj hp
        injection this with e1 _
        injection e1
      rw [← hx, hr x rfl] at hd
      cases hd
  rw [lits_append]
  constructor
  · intro h
    rw [← reads_tol _ _ (Nat.le_refl _)] at h
    obtain ⟨c, g, rfl⟩ := List.exists_cons_of_ne_nil hne
    have e : tolP true (lits (c :: g) ++ lits r) = ⟨.space, .many⟩ :: tolP true (lits r) := by
      rw [lits, List.map_cons, List.cons_append, ← lits, tolP,
        if_pos (show isBlankP ⟨.ch c, .one⟩ = true from hg c (by simp)), if_pos rfl,
        tolP_gap (hbl g (fun x hx => hg x (by simp [hx]))) hnb]
    rw [e] at h
    cases h with
    | cons ha hb =>
      exact ⟨_, _, rfl, List.length_pos_iff.mp ha.1, ha.2, (reads_tol _ _ (Nat.le_refl _) _).mp hb⟩
  · rintro ⟨a, b, rfl, ha, hs, hb⟩
    exact .gap (by rw [lits]; simpa using hne) (hbl g hg) hnb ha hs hb

theorem lstrip_of_head {t : Str} (h : ∀ c, t.head? = some c → isSpace c = false) : lstrip t = t := by
  cases t with
  | nil => rfl
  | cons c t => rw [lstrip, List.dropWhile_cons, h c rfl]; rfl

/-- A stripped literal text and a text: the same words. -/
theorem readsWs_words : ∀ (n : Nat) (x : Str), x.length ≤ n → lstrip x = x → rstrip x = x → ∀ t,
    Spec.ReadsWs (lits x) t ↔ lstrip t = t ∧ rstrip t = t ∧ splitWs t = splitWs x := by
  intro n
  induction n with
  | zero =>
    intro x hx _ _ t
    obtain rfl : x = [] := List.length_eq_zero_iff.mp (by omega)
    constructor
    · intro h
      rw [show lits [] = [] from rfl] at h
      generalize hq : ([] : List Spec.Piece) = q at h
      cases h with
      | nil => exact ⟨rfl, rfl, rfl⟩
      | piece => cases hq
      | @gap g ps a b hne _ _ _ _ _ => exact absurd ((List.append_eq_nil_iff.mp hq.symm).1) hne
    · rintro ⟨h1, _, h3⟩
      have : t = [] := Classical.byContradiction fun hne => by
        rw [Re.splitWs_cons h1 hne] at h3; cases h3
      rw [this]
      exact .nil
  | succ n ih =>
    intro x hx h1 h2 t
    by_cases hne : x = []
    · subst hne; exact ih [] (by simp) h1 h2 t
    obtain ⟨e, hw, hr⟩ := Re.split_word h1 hne
    have hwx : splitWs x = x.takeWhile Re.nsp :: splitWs (x.dropWhile Re.nsp) := Re.splitWs_cons h1 hne
    have hlx := congrArg List.length e
    rw [List.length_append] at hlx
    have hwl : 0 < (x.takeWhile Re.nsp).length := List.length_pos_iff.mpr hw.1
    generalize x.takeWhile Re.nsp = w at *
    generalize x.dropWhile Re.nsp = r at *
    rw [show lits x = lits w ++ lits r by rw [e, lits_append], readsWs_word hw.2]
    by_cases hrne : r = []
    · subst hrne
      rw [hwx]
      constructor
      · rintro ⟨r', rfl, hr'⟩
        obtain ⟨_, _, h5⟩ := (ih [] (by simp) rfl rfl r').mp hr'
        have hr'e : r' = [] := Classical.byContradiction fun hn => by
          rw [Re.splitWs_cons ((ih [] (by simp) rfl rfl r').mp hr').1 hn] at h5; cases h5
        subst hr'e
        rw [List.append_nil] at e ⊢
        rw [← e]
        exact ⟨h1, h2, by rw [hwx, ← e]⟩
      · rintro ⟨h3, h4, h5⟩
        have hne' : t ≠ [] := by rintro rfl; cases h5
        obtain ⟨e', hw', hr'⟩ := Re.split_word h3 hne'
        rw [Re.splitWs_cons h3 hne'] at h5
        obtain ⟨h6, h7⟩ := List.cons.inj h5
        rw [h6] at e'
        refine ⟨t.dropWhile Re.nsp, e', ?_⟩
        generalize t.dropWhile Re.nsp = q at *
        have hnil : q = [] := Classical.byContradiction fun hn => by
          have hall : q.all isSpace = true := Re.splitWs_eq_nil.mp (h7.trans rfl)
          have hl := List.getLast?_eq_some_getLast hn
          have h8 := getLast?_rstrip t (q.getLast hn) (by rw [h4, e', List.getLast?_append, hl]; rfl)
          rw [List.all_eq_true.mp hall _ (List.getLast_mem hn)] at h8
          cases h8
        rw [hnil]
        exact .nil
    · -- a gap and more words
      have hg1 := List.takeWhile_append_dropWhile (p := isSpace) (l := r)
      have hg : ∀ c ∈ r.takeWhile isSpace, isSpace c = true := fun c hc => of_mem_takeWhile hc
      have hgne : r.takeWhile isSpace ≠ [] := by
        obtain ⟨c, r', rfl⟩ := List.exists_cons_of_ne_nil hrne
        rw [List.takeWhile_cons, hr c rfl]
        simp
      have hh : ∀ c, (r.dropWhile isSpace).head? = some c → isSpace c = false := by
        intro c hc
        have := List.head?_dropWhile_not isSpace r
        rw [hc] at this
        simpa using this
      have hl2 : lstrip (r.dropWhile isSpace) = r.dropWhile isSpace := lstrip_of_head hh
      have hgl : 0 < (r.takeWhile isSpace).length := List.length_pos_iff.mpr hgne
      have hlr := congrArg List.length hg1
      rw [List.length_append] at hlr
      have hsr : splitWs r = splitWs (r.dropWhile isSpace) := (splitWs_lstrip r).symm
      have hne2 : r.dropWhile isSpace ≠ [] := by
        intro hn
        rw [hn, List.append_nil] at hg1
        have hl := List.getLast?_eq_some_getLast hrne
        have h8 := getLast?_rstrip x (r.getLast hrne) (by rw [h2, e, List.getLast?_append, hl]; rfl)
        rw [hg _ (by rw [hg1]; exact List.getLast_mem hrne)] at h8
        cases h8
      have hr2 : rstrip (r.dropWhile isSpace) = r.dropWhile isSpace := by
        refine rstrip_of_last fun a ha => getLast?_rstrip x a ?_
        rw [h2, e, ← hg1, List.getLast?_append, List.getLast?_append, ha]
        rfl
      have ih' := ih (r.dropWhile isSpace) (by omega) hl2 hr2
      rw [hwx, hsr, ← hg1]
      simp only [readsWs_gap hgne hg hh, ih']
      rw [hg1]
      generalize r.dropWhile isSpace = r2 at *
      constructor
      · rintro ⟨_, rfl, a, b, rfl, hane, ha, h3, h4, h5⟩
        have hbne : b ≠ [] := by
          rintro rfl
          rw [Re.splitWs_cons hl2 hne2] at h5
          cases h5
        obtain ⟨c0, a', rfl⟩ := List.exists_cons_of_ne_nil hane
        refine ⟨?_, ?_, ?_⟩
        · obtain ⟨c, w', rfl⟩ := List.exists_cons_of_ne_nil hw.1
          exact lstrip_of_head (fun d hd => by cases hd; exact hw.2 c (by simp))
        · refine rstrip_of_last fun d hd => getLast?_rstrip b d ?_
          have hl := List.getLast?_eq_some_getLast hbne
          rw [h4]
          rw [List.getLast?_append, List.getLast?_append, hl] at hd
          rw [hl]
          exact hd
        · rw [Re.splitWs_word_rest hw (fun c hc => by cases hc; exact ha _ (by simp)), splitWs_spaces _ _ ha, h5]
      · rintro ⟨h3, h4, h5⟩
        have hne' : t ≠ [] := by rintro rfl; cases h5
        obtain ⟨e', hw', hr'⟩ := Re.split_word h3 hne'
        rw [Re.splitWs_cons h3 hne'] at h5
        obtain ⟨h6, h7⟩ := List.cons.inj h5
        rw [h6] at e'
        generalize t.dropWhile Re.nsp = q at *
        have hqne : q ≠ [] := by
          rintro rfl
          rw [Re.splitWs_cons hl2 hne2] at h7
          cases h7
        have hq1 := List.takeWhile_append_dropWhile (p := isSpace) (l := q)
        have hq2 : ∀ c ∈ q.takeWhile isSpace, isSpace c = true := fun c hc => of_mem_takeWhile hc
        refine ⟨q, e', q.takeWhile isSpace, q.dropWhile isSpace, hq1.symm, ?_, hq2, lstrip_lstrip q, ?_, ?_⟩
        · obtain ⟨c, q', rfl⟩ := List.exists_cons_of_ne_nil hqne
          rw [List.takeWhile_cons, hr' c rfl]
          simp
        · refine rstrip_of_last fun d hd => getLast?_rstrip t d ?_
          rw [h4, e', ← hq1, List.getLast?_append, List.getLast?_append, hd]
          rfl
        · rw [← h7]; exact splitWs_lstrip q

/-- C95: with `exactmatch` and `ignore_ws`, a plain text without blanks around it finds exactly
the lines that are not indented and have the same words. -/
theorem C95_words (h : parse o lines = .ok P) {x : Str} (hx : Spec.Literal x) (hs : strip x = x) :
    ∃ l, findObjectsT P x true true = .ok l ∧
      (∀ i, i ∈ l ↔ i ∈ P.list ∧ lstrip (P.h i).text = (P.h i).text ∧ splitWs (P.h i).text = splitWs x) ∧
      Spec.Ordered P l := by
  have hb : (Spec.Pattern.mk false (lits x) false).PlainBlanks := by
    intro q hq
    obtain ⟨c, hc, rfl⟩ := List.mem_map.mp hq
    exact ⟨fun _ _ _ => rfl, fun c e => by cases e⟩
  have h2 : rstrip x = x := by rw [← hs]; exact rstrip_strip x
  have h1 : lstrip x = x := by rw [strip, h2] at hs; exact hs
  obtain ⟨l, e, hm, ho⟩ := (C95_pattern_partial h ⟨false, lits x, false⟩ (lits_ok hx) hb).2
  rw [literal_text] at e
  refine ⟨l, e, fun i => ?_, ho⟩
  rw [hm]
  refine and_congr_right fun hi => ?_
  rw [readsWs_words x.length x (Nat.le_refl _) h1 h2]
  exact and_congr_right fun _ => ⟨fun q => q.2, fun q => ⟨text_rstrip h hi, q⟩⟩

example : ∃ P, parse {} [s "interface  Gi0/1", s " interface Gi0/1", s "interface\tGi0/1", s "interface Gi0/11"] = .ok P ∧
    findObjectsT P (s "interface   Gi0/1") true true = .ok [0, 2] ∧
    findObjectsT P (s "interface   Gi0/1") false true = .ok [0, 1, 2, 3] ∧
    findObjectsT P (s "^ interface") false true = .ok [1] :=
  ⟨_, rfl, by decide +kernel, by decide +kernel, by decide +kernel⟩

/-- C95 does not hold as stated: a repeated blank (`b +c`: a `b`, blanks and a `c`) is refused. -/
theorem C95_repeat_fails :
    ∃ P, parse {} [s "a", s "b c"] = .ok P ∧
      findObjectsT P (s "b +c") false false = .ok [1] ∧ findObjectsT P (s "b +c") false true = .error .bad :=
  ⟨_, rfl, by decide +kernel, by decide +kernel⟩

/-- C95 does not hold as stated: in a set, the blank becomes the members whitespace and `+`;
`a[ ]c` also finds `a+c`. -/
theorem C95_set_fails :
    ∃ P, parse {} [s "a c", s "a+c"] = .ok P ∧
      findObjectsT P (s "a[ ]c") false false = .ok [0] ∧ findObjectsT P (s "a[ ]c") false true = .ok [0, 1] :=
  ⟨_, rfl, by decide +kernel, by decide +kernel⟩

/-! ## C96 -/

/-- C96, for a simple pattern: with `exactmatch` the pattern has to stand for the whole line. -/
theorem C96_exact_partial (h : parse o lines = .ok P) (p : Spec.Pattern) (hp : p.Ok) :
    ∃ l, findObjectsT P p.text true false = .ok l ∧
      (∀ i, i ∈ l ↔ i ∈ P.list ∧ Spec.Reads p.ps (P.h i).text) ∧ Spec.Ordered P l := (C94_pattern h p hp).2

/-- C96 does not hold as stated: with an alternative, `exactmatch` finds lines that only begin
with the first one or only end with the last one. -/
theorem C96_alternative_fails :
    ∃ P, parse {} [s "a", s "b", s "ax", s "xb", s "x"] = .ok P ∧
      findObjectsT P (s "a|b") true false = .ok [0, 1, 2, 3] :=
  ⟨_, rfl, by decide +kernel⟩

/-! ## C97 -/

/-- A specification for a line whose text contains `x`. -/
def Finds (x : Str) (rx : Rx) : Prop :=
  (∀ t, Spec.Match rx t ↔ x <:+: t) ∧ ∀ t g, rx.find t = some g → g = x

theorem finds_chars {x : Str} {ps : List Spec.Piece} (hR : ∀ t, Spec.Reads ps t ↔ t = x) {rx : Rx}
    (hm : ∀ t, Spec.Match rx t ↔ ∃ a b c, t = a ++ b ++ c ∧ Spec.Reads ps b)
    (hf : ∀ t g, rx.find t = some g → Spec.Reads ps g ∧ g <:+: t) : Finds x rx := by
  refine ⟨fun t => ?_, fun t g h => (hR g).mp (hf t g h).1⟩
  rw [hm]
  constructor
  · rintro ⟨a, b, c, e, hb⟩
    rw [hR] at hb
    subst hb
    exact ⟨a, c, e.symm⟩
  · rintro ⟨a, c, e⟩
    exact ⟨a, x, c, e.symm, (hR x).mpr rfl⟩

theorem text_finds {x : Str} {ps : List Spec.Piece} (hp : ∀ q ∈ ps, q.atom.Ok) (hR : ∀ t, Spec.Reads ps t ↔ t = x) :
    ∃ rx, textRx (ps.flatMap Spec.Piece.text) = .ok rx ∧ rx.lit = ps.flatMap Spec.Piece.text ∧ Finds x rx := by
  obtain ⟨rx, h1, h2, h3, h4⟩ := rx_anchored 0 0 hp
  simp only [List.replicate_zero, List.nil_append, List.append_nil] at h1 h2
  refine ⟨rx, h1, h2, finds_chars hR (fun t => ?_) h4⟩
  rw [h3]
  simp

theorem group_finds {x : Str} {ps : List Spec.Piece} (hp : ∀ q ∈ ps, q.atom.Ok) (hR : ∀ t, Spec.Reads ps t ↔ t = x) :
    ∃ rx, groupRx (ps.flatMap Spec.Piece.text) = .ok rx ∧ Finds x rx := by
  obtain ⟨rx, h1, _, h3, h4⟩ := rx_group hp
  exact ⟨rx, h1, finds_chars hR h3 h4⟩

theorem literal_finds {x : Str} (hx : Spec.Literal x) : ∃ rx, textRx x = .ok rx ∧ rx.lit = x ∧ Finds x rx := by
  have := text_finds (lits_ok hx) (reads_lits x)
  rwa [lits_text] at this

theorem finds_normal {x : Str} {rx : Rx} (hx : x ≠ []) (hl : rx.lit = x) (h : Finds x rx) : Spec.Normal rx := by
  refine ⟨fun t ht => (h.1 t).mpr (hl ▸ ht), fun t g hg => ?_⟩
  obtain rfl := h.2 t g hg
  exact ⟨hx, (h.1 t).mp ⟨_, hg⟩⟩

/-- C97: `find_parent_objects` (`find_objects_w_child`) with plain texts returns exactly the
lines that contain the first one and have a child (with `recurse`, a descendant) that contains
the second one. -/
theorem C97_parents (h : parse o lines = .ok P) {p c : Str} (hp : Spec.Literal p) (hc : Spec.Literal c) (hne : c ≠ []) :
    (∃ l, findParentObjectsT P p c false false false = .ok l ∧ Spec.Ordered P l ∧
      ∀ i, i ∈ l ↔ (i ∈ P.list ∧ p <:+: (P.h i).text) ∧ ∃ k ∈ (P.h i).children, c <:+: (P.h k).text) ∧
    (Spec.KidsNoDigits P → ∃ l, findParentObjectsT P p c false true false = .ok l ∧ Spec.Ordered P l ∧
      ∀ i, i ∈ l ↔ (i ∈ P.list ∧ p <:+: (P.h i).text) ∧ ∃ k, Spec.Desc P i k ∧ c <:+: (P.h k).text) := by
  obtain ⟨rp, h1, _, h2⟩ := literal_finds hp
  obtain ⟨rc, h3, h4, h5⟩ := literal_finds hc
  have hn := C30_parents_partial h rp rc (finds_normal hne h4 h5)
  have hf : ∀ r, findParentObjectsT P p c false r false = .ok (findParentObjects P rp rc r) := by
    intro r
    rw [findParentObjectsT, show pairSpec false false p = p from rfl, show pairSpec false false c = c from rfl, h1, h3]
    rfl
  refine ⟨⟨_, hf false, (C31_ordered h rp rc false).1, fun i => ?_⟩,
    fun hd => ⟨_, hf true, (C31_ordered h rp rc true).1, fun i => ?_⟩⟩
  · rw [(hn i).1]
    simp only [h2.1, h5.1]
  · rw [(hn i).2 hd]
    simp only [h2.1, h5.1]

/-- C97: `find_parent_objects_wo_child` (`find_objects_wo_child`) returns exactly the others
that contain the first text. -/
theorem C97_without (h : parse o lines = .ok P) {p c : Str} (hp : Spec.Literal p) (hc : Spec.Literal c) (hne : c ≠ []) :
    (∃ l, findParentObjectsWoChildT P p c false false false = .ok l ∧ Spec.Ordered P l ∧
      ∀ i, i ∈ l ↔ (i ∈ P.list ∧ p <:+: (P.h i).text) ∧ ¬ ∃ k ∈ (P.h i).children, c <:+: (P.h k).text) ∧
    (Spec.KidsNoDigits P → ∃ l, findParentObjectsWoChildT P p c false true false = .ok l ∧ Spec.Ordered P l ∧
      ∀ i, i ∈ l ↔ (i ∈ P.list ∧ p <:+: (P.h i).text) ∧ ¬ ∃ k, Spec.Desc P i k ∧ c <:+: (P.h k).text) := by
  obtain ⟨rp, h1, _, h2⟩ := literal_finds hp
  obtain ⟨rc, h3, h4, h5⟩ := literal_finds hc
  have hn := C30_parents_partial h rp rc (finds_normal hne h4 h5)
  have hf : ∀ r, findParentObjectsWoChildT P p c false r false = .ok (findParentObjectsWoChild P rp rc r) := by
    intro r
    rw [findParentObjectsWoChildT, show pairSpec false false p = p from rfl, show pairSpec false false c = c from rfl, h1, h3]
    rfl
  have hpart : ∀ r i, i ∈ findParentObjectsWoChild P rp rc r ↔
      (i ∈ P.list ∧ Spec.Match rp (P.h i).text) ∧ i ∉ findParentObjects P rp rc r := by
    intro r i
    obtain ⟨h6, h7⟩ := C31_partition (P := P) rp rc r i
    rw [← mem_findObjects, h6]
    constructor
    · intro hi; exact ⟨.inr hi, fun hj => h7 ⟨hj, hi⟩⟩
    · rintro ⟨hj | hi, hk⟩
      · exact absurd hj hk
      · exact hi
  refine ⟨⟨_, hf false, (C31_ordered h rp rc false).2, fun i => ?_⟩,
    fun hd => ⟨_, hf true, (C31_ordered h rp rc true).2, fun i => ?_⟩⟩
  · rw [hpart, (hn i).1]
    simp only [h2.1, h5.1]
    exact and_congr_right fun hi => ⟨fun q hk => q ⟨hi, hk⟩, fun q hk => q hk.2⟩
  · rw [hpart, (hn i).2 hd]
    simp only [h2.1, h5.1]
    exact and_congr_right fun hi => ⟨fun q hk => q ⟨hi, hk⟩, fun q hk => q hk.2⟩

theorem children_finds (h : parse o lines = .ok P) (hd : Spec.KidsNoDigits P) {p c : Str} (hne : c ≠ []) {rp rc : Rx}
    (h2 : Finds p rp) (h5 : Finds c rc) :
    (∀ x, x ∈ findChildObjects P rp rc false ↔ c <:+: (P.h x).text ∧
      ∃ i ∈ P.list, p <:+: (P.h i).text ∧ x ∈ (P.h i).children) ∧
    (∀ x, x ∈ findChildObjects P rp rc true ↔ c <:+: (P.h x).text ∧
      ∃ i ∈ P.list, p <:+: (P.h i).text ∧ Spec.Desc P i x) ∧
    (∀ r, Spec.Ordered P (findChildObjects P rp rc r)) := by
  obtain ⟨h6, h7, h8⟩ := C32_children h hd rp rc
  have key : ∀ t, (∃ g, rc.find t = some g ∧ g ≠ []) ↔ c <:+: t := by
    intro t
    rw [← h5.1 t]
    exact ⟨fun ⟨g, hg, _⟩ => ⟨g, hg⟩, fun ⟨g, hg⟩ => ⟨g, hg, by rw [h5.2 t g hg]; exact hne⟩⟩
  refine ⟨fun x => ?_, fun x => ?_, h8⟩
  · rw [h6]; simp only [key, h2.1]
  · rw [h7]; simp only [key, h2.1]

/-- C97: `find_child_objects` (`find_objects_w_parents`) returns exactly the children (with
`recurse`, the descendants) that contain the second text, of lines that contain the first one. -/
theorem C97_children (h : parse o lines = .ok P) (hd : Spec.KidsNoDigits P) {p c : Str} (hp : Spec.Literal p)
    (hc : Spec.Literal c) (hne : c ≠ []) :
    (∃ l, findChildObjectsT P p c false false false = .ok l ∧ Spec.Ordered P l ∧
      ∀ x, x ∈ l ↔ c <:+: (P.h x).text ∧ ∃ i ∈ P.list, p <:+: (P.h i).text ∧ x ∈ (P.h i).children) ∧
    (∃ l, findChildObjectsT P p c false true false = .ok l ∧ Spec.Ordered P l ∧
      ∀ x, x ∈ l ↔ c <:+: (P.h x).text ∧ ∃ i ∈ P.list, p <:+: (P.h i).text ∧ Spec.Desc P i x) := by
  obtain ⟨rp, h1, _, h2⟩ := literal_finds hp
  obtain ⟨rc, h3, h5⟩ := group_finds (lits_ok hc) (reads_lits c)
  rw [lits_text] at h3
  obtain ⟨h6, h7, h8⟩ := children_finds h hd hne h2 h5
  have hf : ∀ r, findChildObjectsT P p c false r false = .ok (findChildObjects P rp rc r) := by
    intro r
    rw [findChildObjectsT, show pairSpec false false p = p from rfl, show pairSpec false false c = c from rfl, h1, h3]
    rfl
  exact ⟨⟨_, hf false, h8 false, h6⟩, _, hf true, h8 true, h7⟩

example : ∃ P, parse {} [s "interface a", s " ip b", s "  c", s " d", s "interface b", s " c"] = .ok P ∧
    findParentObjectsT P (s "interface") (s "c") false false false = .ok [4] ∧
    findParentObjectsT P (s "interface") (s "c") false true false = .ok [0, 4] ∧
    findParentObjectsWoChildT P (s "interface") (s "c") false false false = .ok [0] ∧
    findChildObjectsT P (s "interface") (s "c") false false false = .ok [5] ∧
    findChildObjectsT P (s "interface") (s "c") false true false = .ok [2, 5] :=
  ⟨_, rfl, by decide +kernel, by decide +kernel, by decide +kernel, by decide +kernel, by decide +kernel⟩

/-! ## C98 -/

theorem escaped_infix {c t : Str} (ht : '\\' ∉ t) (h : reEscape c <:+: t) : c <:+: t := by
  have hn : ∀ x ∈ c, x ∉ reSpecial := by
    intro x hx hs
    apply ht
    refine h.subset ?_
    rw [reEscape, List.mem_flatMap]
    exact ⟨x, hx, by rw [if_pos hs]; simp⟩
  have e : reEscape c = c := by
    clear h
    induction c with
    | nil => rfl
    | cons x c ih =>
      rw [reEscape, List.flatMap_cons, if_neg (hn x (by simp)), ← reEscape, ih (fun y hy => hn y (by simp [hy]))]
      rfl
  rwa [e] at h

theorem escape_finds (x : Str) : ∃ rx, textRx (reEscape x) = .ok rx ∧ rx.lit = reEscape x ∧ Finds x rx := by
  have := text_finds (escs_ok x) (reads_escs x)
  rwa [escs_text] at this

/-- C98: with `escape_chars`, `find_parent_objects` takes its specifications as plain texts,
whatever characters they have, if no line has a backslash. -/
theorem C98_parents_partial (h : parse o lines = .ok P) (hb : ∀ i ∈ P.list, '\\' ∉ (P.h i).text) (p : Str) {c : Str}
    (hne : c ≠ []) :
    (∃ l, findParentObjectsT P p c false false true = .ok l ∧ Spec.Ordered P l ∧
      ∀ i, i ∈ l ↔ (i ∈ P.list ∧ p <:+: (P.h i).text) ∧ ∃ k ∈ (P.h i).children, c <:+: (P.h k).text) ∧
    (Spec.KidsNoDigits P → ∃ l, findParentObjectsT P p c false true true = .ok l ∧ Spec.Ordered P l ∧
      ∀ i, i ∈ l ↔ (i ∈ P.list ∧ p <:+: (P.h i).text) ∧ ∃ k, Spec.Desc P i k ∧ c <:+: (P.h k).text) := by
  obtain ⟨rp, h1, _, h2⟩ := escape_finds p
  obtain ⟨rc, h3, h4, h5⟩ := escape_finds c
  have ht := tree_of_parse h
  have hf : ∀ r, findParentObjectsT P p c false r true = .ok (findParentObjects P rp rc r) := by
    intro r
    rw [findParentObjectsT, show pairSpec false true p = reEscape p from rfl,
      show pairSpec false true c = reEscape c from rfl, h1, h3]
    rfl
  have key : ∀ k ∈ P.list, ((P.h k).text ≠ [] ∧ (rc.lit <:+: (P.h k).text ∨ Spec.Match rc (P.h k).text)) ↔ c <:+: (P.h k).text := by
    intro k hk
    rw [h4, h5.1]
    constructor
    · rintro ⟨_, q | q⟩
      · exact escaped_infix (hb k hk) q
      · exact q
    · intro q
      refine ⟨fun e => hne ?_, .inr q⟩
      rw [e] at q
      exact List.infix_nil.mp q
  refine ⟨⟨_, hf false, (C31_ordered h rp rc false).1, fun i => ?_⟩,
    fun hd => ⟨_, hf true, (C31_ordered h rp rc true).1, fun i => ?_⟩⟩
  · rw [(C30_children h rp rc).1 i, h2.1]
    refine and_congr_right fun hi => exists_congr fun k => and_congr_right fun hk => key k ?_
    exact (ht.kids i hi.1 k hk).1
  · rw [(C30_recurse h hd rp rc).1 i, h2.1]
    refine and_congr_right fun hi => exists_congr fun k => and_congr_right fun hk => key k ?_
    exact (desc_lt ht hi.1 hk).1

/-- C98: `find_child_objects` does so for all lines. -/
theorem C98_children (h : parse o lines = .ok P) (hd : Spec.KidsNoDigits P) (p : Str) {c : Str} (hne : c ≠ []) :
    (∃ l, findChildObjectsT P p c false false true = .ok l ∧ Spec.Ordered P l ∧
      ∀ x, x ∈ l ↔ c <:+: (P.h x).text ∧ ∃ i ∈ P.list, p <:+: (P.h i).text ∧ x ∈ (P.h i).children) ∧
    (∃ l, findChildObjectsT P p c false true true = .ok l ∧ Spec.Ordered P l ∧
      ∀ x, x ∈ l ↔ c <:+: (P.h x).text ∧ ∃ i ∈ P.list, p <:+: (P.h i).text ∧ Spec.Desc P i x) := by
  obtain ⟨rp, h1, _, h2⟩ := escape_finds p
  obtain ⟨rc, h3, h5⟩ := group_finds (escs_ok c) (reads_escs c)
  rw [escs_text] at h3
  obtain ⟨h6, h7, h8⟩ := children_finds h hd hne h2 h5
  have hf : ∀ r, findChildObjectsT P p c false r true = .ok (findChildObjects P rp rc r) := by
    intro r
    rw [findChildObjectsT, show pairSpec false true p = reEscape p from rfl,
      show pairSpec false true c = reEscape c from rfl, h1, h3]
    rfl
  exact ⟨⟨_, hf false, h8 false, h6⟩, _, hf true, h8 true, h7⟩

example : ∃ P, parse {} [s "a(b", s " c.d", s "a(b", s " cxd"] = .ok P ∧
    findParentObjectsT P (s "a(") (s "c.d") false false true = .ok [0] ∧
    findChildObjectsT P (s "a(") (s "c.d") false false true = .ok [1] ∧
    findParentObjectsT P (s "a(") (s "c.d") false false false = .error .bad ∧
    (∀ i ∈ P.list, '\\' ∉ (P.h i).text) :=
  ⟨_, rfl, by decide +kernel, by decide +kernel, by decide +kernel, by decide⟩

/-- C98 does not hold as stated: a child with the escaped text is found. -/
theorem C98_backslash_fails :
    ∃ P, parse {} [s "p", s " a\\.b"] = .ok P ∧ findParentObjectsT P (s "p") (s "a.b") false false true = .ok [0] ∧
      ∀ k ∈ (P.h 0).children, ¬ s "a.b" <:+: (P.h k).text :=
  ⟨_, rfl, by decide +kernel, by decide⟩

/-- C98 does not hold as stated: with `ignore_ws`, too, the `\s+` is escaped, and a specification
with a blank finds nothing. -/
theorem C98_ws_fails :
    ∃ P, parse {} [s "interface a", s " b"] = .ok P ∧
      findParentObjectsT P (s "interface a") (s "b") false false true = .ok [0] ∧
      findParentObjectsT P (s "interface a") (s "b") true false true = .ok [] ∧
      findChildObjectsT P (s "interface a") (s "b") true false true = .ok [] :=
  ⟨_, rfl, by decide +kernel, by decide +kernel, by decide +kernel⟩

end

end Query

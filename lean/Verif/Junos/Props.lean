import Verif.Junos.Tree
import Verif.Conf.Props

/-! # C45-C47: braces -/

namespace Junos

open Py Conf

/-! ## C45 -/

/-- C45: every statement of a brace document, written one item to a line with any
spacing, comes out at four blanks per level, without braces and semicolons. -/
theorem C45_convert {doc : Spec.Doc} {lines : List Str} (h : Spec.Written doc lines) (hne : lines ≠ []) :
    convert lines = .ok (doc.lines 0) := by
  rw [convert, if_neg hne]
  have := (convertGo_doc doc lines 0 h).1
  rw [← this]; rfl

/-- C45: the conversion is line by line, for any input. -/
theorem C45_length {lines out : List Str} (h : convert lines = .ok out) : out.length = lines.length := by
  have hg : ∀ (ls : List Str) (o : Int), (convertGo o ls).length = ls.length := by
    intro ls
    induction ls with
    | nil => intro o; rfl
    | cons l ls ih => intro o; rw [convertGo]; simp [ih]
  rw [convert] at h
  split at h
  · cases h
  · cases h; exact hg _ _

/-- C45: an empty configuration raises ValueError. -/
theorem C45_empty (lines : List Str) : convert lines = .error .valueError ↔ lines = [] := by
  rw [convert]
  constructor
  · intro h
    split at h
    · assumption
    · cases h
  · rintro rfl; rfl

/-- The document of the examples. -/
def sample : Spec.Doc :=
  .note (s "# note") (.block (s "system") (.leaf (s "host-name r1")
    (.block (s "a") (.leaf (s "b") .nil) (.alt (s "else") (.leaf (s "c") .nil) .done) .nil)) .done
    (.leaf (s "x y") .nil))

example : convert [s "  # note", s "system {", s "  host-name r1;", s "a {", s "b", s "} else {", s "\tc;;",
      s "};", s "}  ", s "x y ;"] = .ok (sample.lines 0) := by rfl

example : sample.lines 0 = [s "# note", s "system", s "    host-name r1", s "    a", s "        b",
    s "    else", s "        c", s "    ", s "", s "x y"] := by decide

theorem white_nil : Spec.White [] := fun _ h => by cases h

theorem text_of {t : Str} (h : t ≠ [] ∧ (∀ c ∈ t.head?, isSpace c = false ∧ c ≠ '}' ∧ c ≠ '#') ∧
    ∀ c ∈ t.getLast?, isSpace c = false ∧ c ≠ '{' ∧ c ≠ ';') : Spec.Text t := ⟨h.1, h.2.1, h.2.2⟩

theorem noEmpty_of {t : Str} (h : '{' ∉ t) : Spec.NoEmpty t := by
  rintro ⟨a, w, b, rfl, _⟩
  exact h (by simp)

/-- The hypotheses of `C45_convert` are met. -/
example : Spec.Written (.block (s "a") (.leaf (s "b c") .nil) .done .nil) [s "a {", s "  b c;", s "}"] := by
  refine .block (lb := [s "  b c;"]) (la := [s "}"]) (ls := []) ?_ (.leaf ?_ .nil) (.done ?_) .nil
  · exact ⟨text_of (by decide), [], [' '], [], by rfl, white_nil, by unfold Spec.White; decide, white_nil⟩
  · exact ⟨text_of (by decide), noEmpty_of (by decide), [' ', ' '], [], [], 1, by rfl,
      by unfold Spec.White; decide, white_nil, white_nil⟩
  · exact ⟨[], [], 0, by rfl, white_nil, white_nil⟩

/-- C45 does not hold for every way of writing the braces: a block on one line stays one
statement, with its braces. -/
theorem C45_oneline_fails : convert [s "a { b; }", s "c;"] = .ok [s "a { b; }", s "c"] := by rfl

/-- C45 does not hold for every way of writing the braces: a statement behind a closing
brace is lost. -/
theorem C45_lost_fails : convert [s "a {", s "b;", s "} c;", s "d;"] =
    .ok [s "a", s "    b", s "", s "d"] := by rfl

/-- C45 does not hold for every way of writing the braces: two closing braces on one
line count as one. -/
theorem C45_twice_fails : convert [s "a {", s "b {", s "c;", s "}}", s "d;"] =
    .ok [s "a", s "    b", s "        c", s "    ", s "    d"] := by rfl

/-! ## C46 -/

section
variable {o : Opts} {doc : Spec.Doc} {lines : List Str} {P : Parsed}

theorem lineAt_mem {ls : List Str} {i : Nat} (hi : i < ls.length) : lineAt ls i ∈ ls := by
  rw [lineAt, List.getD_eq_getElem?_getD, List.getElem?_eq_getElem hi]
  exact List.getElem_mem hi

theorem parse_bootstrap (hw : Spec.Written doc (Conf.Spec.input o lines))
    (hne : Conf.Spec.input o lines ≠ []) : parseJunos o lines = bootstrap o (doc.lines 0) := by
  rw [parseJunos, input_eq, C45_convert hw hne]
  rfl

/-- C46: a brace document parses. -/
theorem C46_parses (hs : o.syn = .junos) (hw : Spec.Written doc (Conf.Spec.input o lines))
    (hne : Conf.Spec.input o lines ≠ []) : ∃ P, parseJunos o lines = .ok P := by
  rw [parse_bootstrap hw hne]
  cases hb : bootstrap o (doc.lines 0) with
  | ok P => exact ⟨P, rfl⟩
  | error e =>
    rcases bootstrap_error hb with ⟨_, j, hj, hc, _⟩ | ⟨_, h1, _⟩
    · refine absurd hc (closes_doc doc 0 (wf_of doc _ hw) _ ?_)
      exact lineAt_mem hj
    · rw [hs] at h1; cases h1

theorem doc_part (ds : List Char) (hw : Spec.Written doc (Conf.Spec.input o lines))
    (hh : doc.headers ds) :
    Part ds (lineAt (doc.lines 0)) 0 0 (doc.lines 0).length (doc.owners none 0) := by
  refine part_doc doc 0 0 none (wf_of doc _ hw) hh ?_ rfl (by omega)
  intro j x hx
  rw [Nat.zero_add, lineAt, List.getD_eq_getElem?_getD, hx]; rfl

theorem owner_some {i : Nat} (hi : i < (doc.lines 0).length) :
    ∃ r, (doc.owners none 0)[i]? = some r ∧ Spec.owner doc i = r := by
  have hl := owners_length doc none 0
  refine ⟨(doc.owners none 0)[i], List.getElem?_eq_getElem (by omega), ?_⟩
  rw [Spec.owner, List.getElem?_eq_getElem (by omega)]
  rfl

theorem rule_of (hw : Spec.Written doc (Conf.Spec.input o lines)) {ds : List Char} (hh : doc.headers ds)
    {i : Nat} (hi : i < (doc.lines 0).length) (hb : ¬ Conf.Spec.blank (lineAt (doc.lines 0) i)) :
    Conf.Spec.ParentRule ds (lineAt (doc.lines 0)) i ((Spec.owner doc i).getD i) ∧
    ∀ q, Spec.owner doc i = some q → q < i := by
  obtain ⟨r, h1, h2⟩ := owner_some hi
  have hg := (doc_part ds hw hh).good i r h1 (by rw [Nat.zero_add]; exact hb)
  rw [Nat.zero_add] at hg
  rw [h2]
  cases r with
  | none =>
    refine ⟨Or.inr ⟨Or.inr (fun q hq => ?_), rfl⟩, fun q hq => by cases hq⟩
    have := hq.2.2.1
    rw [hg.2] at this
    omega
  | some q =>
    refine ⟨Or.inl ⟨hg.1, hg.2⟩, fun q' hq => ?_⟩
    cases hq
    exact hg.2.1

/-- C46: the parent of a statement is the header of the innermost block around it, or
the statement itself at the top level. -/
theorem C46_parent (hs : o.syn = .junos) (hw : Spec.Written doc (Conf.Spec.input o lines))
    (hne : Conf.Spec.input o lines ≠ []) (hh : doc.headers o.delims) (h : parseJunos o lines = .ok P)
    {i : Nat} (hi : i < (doc.lines 0).length) (hb : ¬ Conf.Spec.blank (lineAt (doc.lines 0) i)) :
    (P.h i).parent = (Spec.owner doc i).getD i := by
  rw [parse_bootstrap hw hne] at h
  refine parent_unique (parent_spec h hi) ?_
  refine Or.inr (Or.inr (Or.inr ⟨?_, ?_, ?_, (rule_of hw hh hi hb).1⟩))
  · rintro q ⟨h1, _⟩; rw [hs] at h1; cases h1
  · rintro q ⟨h1, _⟩; exact h1 hs
  · refine closes_doc doc 0 (wf_of doc _ hw) _ ?_
    exact lineAt_mem hi

/-- C46: the children of a line are the statements directly inside its block, in order. -/
theorem C46_children (hs : o.syn = .junos) (hw : Spec.Written doc (Conf.Spec.input o lines))
    (hne : Conf.Spec.input o lines ≠ []) (hh : doc.headers o.delims) (h : parseJunos o lines = .ok P)
    {p : Nat} (hp : p < (doc.lines 0).length) :
    Conf.Spec.Increasing (P.h p).children ∧
    ∀ c, c ∈ (P.h p).children ↔ c < (doc.lines 0).length ∧
      ¬ Conf.Spec.blank (lineAt (doc.lines 0) c) ∧ Spec.owner doc c = some p := by
  rw [parse_bootstrap hw hne] at h
  obtain ⟨A, B, C, he, ⟨hA1, hA⟩, ⟨_, hB⟩, ⟨_, hC⟩⟩ := children_spec h hp
  have hB0 : B = [] := by
    rw [List.eq_nil_iff_forall_not_mem]
    exact fun c hc => ((hB c).mp hc).2.1 hs
  have hC0 : C = [] := by
    rw [List.eq_nil_iff_forall_not_mem]
    intro c hc
    have := ((hC c).mp hc).2.1
    rw [hs] at this; cases this
  rw [hB0, hC0, List.append_nil, List.append_nil] at he
  rw [he]
  refine ⟨hA1, fun c => ?_⟩
  rw [hA]
  constructor
  · rintro ⟨h1, h2, h3⟩
    have hb : ¬ Conf.Spec.blank (lineAt (doc.lines 0) c) := by
      intro hb
      rcases h3 with ⟨_, h3⟩ | ⟨_, h3⟩
      · have := h3.2.2.1
        rw [indent_blank hb] at this
        omega
      · exact h2 h3.symm
    refine ⟨h1, hb, ?_⟩
    have hr := rule_unique (rule_of hw hh h1 hb).1 h3
    cases ho : Spec.owner doc c with
    | none => rw [ho] at hr; exact absurd hr h2
    | some q => rw [ho] at hr; exact congrArg some hr
  · rintro ⟨h1, h2, h3⟩
    have hr := rule_of hw hh h1 h2
    rw [h3] at hr
    exact ⟨h1, fun e => by have := hr.2 p rfl; omega, hr.1⟩

/-- C46: the listed lines are exactly the statements and comments of the document, in
order, when blank lines are ignored. -/
theorem C46_texts (hs : o.syn = .junos) (hi : o.ignoreBlank = true)
    (hw : Spec.Written doc (Conf.Spec.input o lines))
    (hne : Conf.Spec.input o lines ≠ []) (h : parseJunos o lines = .ok P) :
    Conf.Spec.Increasing P.list ∧
    (∀ i, i ∈ P.list ↔ i < (doc.lines 0).length ∧ ¬ Conf.Spec.blank (lineAt (doc.lines 0) i)) ∧
    ∀ i ∈ P.list, (P.h i).text = rstrip (lineAt (doc.lines 0) i) := by
  rw [parse_bootstrap hw hne] at h
  refine ⟨list_increasing h, fun i => ?_, fun i hl => (attrs h ((mem_list h).mp hl).1).1⟩
  rw [mem_list h, hi]
  constructor
  · rintro ⟨h1, h2 | h2 | ⟨q, h2, _⟩ | ⟨q, h2, _⟩⟩
    · cases h2
    · exact ⟨h1, h2⟩
    · exact absurd hs h2
    · rw [hs] at h2; cases h2
  · rintro ⟨h1, h2⟩
    exact ⟨h1, Or.inr (Or.inl h2)⟩

end

example : ∃ P, parseJunos { syn := .junos } [s "  # note", s "system {", s "  host-name r1;", s "a {", s "b",
      s "} else {", s "\tc;;", s "};", s "}  ", s "x y ;"] = .ok P ∧ P.list = [0, 1, 2, 3, 4, 5, 6, 9] ∧
      P.list.map (fun i => (P.h i).parent) = [0, 1, 1, 1, 3, 1, 5, 9] ∧
      P.list.map (fun i => (Spec.owner sample i).getD i) = [0, 1, 1, 1, 3, 1, 5, 9] ∧
      (P.h 1).children = [2, 3, 5] :=
  ⟨_, rfl, by decide⟩

/-- C46 does not hold when a block header looks like a comment to the parser. -/
theorem C46_comment_fails :
    ∃ P, parseJunos { syn := .junos, delims := ['!', '/'] } [s "/x {", s "a;", s "}"] = .ok P ∧
      (P.h 1).parent = 1 :=
  ⟨_, rfl, by decide⟩

/-- C46 does not hold for a block on one line: there is only one statement. -/
theorem C46_oneline_fails :
    ∃ P, parseJunos { syn := .junos } [s "a { b; }"] = .ok P ∧ P.texts = [s "a { b; }"] :=
  ⟨_, rfl, by decide⟩

/-! ## C47 -/

/-- C47: outside banners and macros the parent of a closing-brace line is the line that
opened the block. -/
theorem C47_parent {o : Opts} {lines : List Str} {P : Parsed} (h : parse o lines = .ok P)
    {i : Nat} (hi : i ∈ P.list) (hc : Conf.Spec.closes (lineAt (Conf.Spec.input o lines) i))
    (h1 : ∀ q, ¬ Conf.Spec.banners o.syn (lineAt (Conf.Spec.input o lines)) i q)
    (h2 : ∀ q, ¬ Conf.Spec.macros o.syn (lineAt (Conf.Spec.input o lines)) i q) (p : Nat) :
    (P.h i).parent = p ↔ Conf.Spec.Matches (lineAt (Conf.Spec.input o lines)) p i := by
  rw [C21_parent h hi]
  constructor
  · rintro (hp | ⟨_, hp⟩ | ⟨_, _, _, hp⟩ | ⟨_, _, hp, _⟩)
    · exact absurd hp.1 (h2 p)
    · exact absurd hp.1 (h1 p)
    · exact hp
    · exact absurd hc hp
  · intro hp
    exact Or.inr (Or.inr (Or.inl ⟨h2, h1, hc, hp⟩))

/-- C47: a closing-brace line without an open block raises ValueError. -/
theorem C47_unbalanced (o : Opts) (lines : List Str) {i : Nat} (hi : i < (Conf.Spec.input o lines).length)
    (hc : Conf.Spec.closes (lineAt (Conf.Spec.input o lines) i))
    (hm : ∀ p, ¬ Conf.Spec.Matches (lineAt (Conf.Spec.input o lines)) p i) :
    parse o lines = .error .valueError := by
  rw [parse, input_eq]
  have hbr := brace_heap o (Conf.Spec.input o lines)
  rw [bootstrap]
  dsimp only
  rw [indentPass_n] at hbr ⊢
  cases h1 : bracePass (List.range (Conf.Spec.input o lines).length) [] (indentPass o (Conf.Spec.input o lines)).h with
  | error e =>
    rw [(hbr.2 e h1).1]; rfl
  | ok hh =>
    obtain ⟨p, hp, _⟩ := (hbr.1 hh h1).close i hi hc
    exact absurd hp (hm p)

theorem balanced_matches {L : Nat → Str} {a b : Nat} (h : Conf.Spec.Balanced L a b) :
    ∀ i, a ≤ i → i < b → Conf.Spec.closes (L i) → ∃ p, a ≤ p ∧ Conf.Spec.Matches L p i := by
  induction h with
  | nil => intro i h1 h2; omega
  | @plain a k _ _ hnc ih =>
    intro i h1 h2 hc
    by_cases hk : i = k
    · subst hk; exact absurd hc hnc
    · exact ih i h1 (by omega) hc
  | @block a p k h1 ho h2 hc ih1 ih2 =>
    intro i i1 i2 hci
    have ha : a ≤ p := by
      clear ih1 ih2 ho h2 hc i1 i2 hci
      induction h1 with
      | nil => exact Nat.le_refl _
      | plain _ _ _ ih => omega
      | block _ _ _ _ ih1 ih2 => omega
    have hpk : p + 1 ≤ k := by
      clear ih1 ih2 ho h1 hc i1 i2 hci
      generalize hq : p + 1 = q at h2
      clear hq
      induction h2 with
      | nil => exact Nat.le_refl _
      | plain _ _ _ ih => omega
      | block _ _ _ _ ih1 ih2 => omega
    by_cases hk : i = k
    · subst hk; exact ⟨p, ha, by omega, ho, hc, h2⟩
    · by_cases hp : i < p
      · exact ih1 i i1 hp hci
      · by_cases hpe : i = p
        · subst hpe; exact absurd ho hci.2
        · obtain ⟨q, q1, q2⟩ := ih2 i (by omega) (by omega) hci
          exact ⟨q, by omega, q2⟩

/-- C47: balanced text always parses (outside ios, whose macros can raise too). -/
theorem C47_balanced (o : Opts) (lines : List Str) (ho : o.syn ≠ .ios)
    (hb : Conf.Spec.Balanced (lineAt (Conf.Spec.input o lines)) 0 (Conf.Spec.input o lines).length) :
    ∃ P, parse o lines = .ok P := by
  rw [C28_succeeds_iff_partial]
  refine ⟨fun i hi hc => ?_, fun h => absurd h ho⟩
  obtain ⟨p, _, hp⟩ := balanced_matches hb i (Nat.zero_le _) hi hc
  exact ⟨p, hp⟩

example : ∃ P, parse {} [s "a {", s " b {", s "  c", s " }", s " d {", s " }", s "}"] = .ok P ∧
    (P.h 3).parent = 1 ∧ (P.h 5).parent = 4 ∧ (P.h 6).parent = 0 :=
  ⟨_, rfl, by decide⟩

/-- C47 does not hold as stated: `} else {` opens a block without closing one, so a
closing brace too many does not raise. -/
theorem C47_else_fails :
    ∃ P, parse {} [s "a {", s "} else {", s "}", s "}"] = .ok P ∧ (P.h 3).parent = 0 :=
  ⟨_, rfl, by decide⟩

end Junos

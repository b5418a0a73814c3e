import Verif.Conf.Tree

/-! # C20 – C28, C43: what parsing a list of lines gives

`parse o lines = .ok P`: the construction succeeded; `P.list` are the objects in
`ConfigObjs`, `P.h i` the object made for line `i` of the parser's input
`Spec.input o lines`, `P.texts` is `ioscfg`. -/

namespace Conf

open Py

/-- A string as a line. -/
abbrev s (x : String) : Str := x.toList

theorem input_mem (o : Opts) (lines : List Str) (k : Nat) (hk : k < (Spec.input o lines).length) :
    lineAt (Spec.input o lines) k ∈ lines := by
  have h1 : lineAt (Spec.input o lines) k ∈ Spec.input o lines := by
    rw [lineAt, List.getD_eq_getElem?_getD, List.getElem?_eq_getElem hk]
    exact List.getElem_mem hk
  have h2 : ∀ x ∈ Spec.input o lines, x ∈ lines := by
    intro x hx
    rw [Spec.input] at hx
    split at hx
    · exact (List.mem_filter.mp hx).1
    · exact hx
  exact h2 _ h1

/-! ## C20 -/

/-- C20: the texts are the input lines without trailing whitespace, in order, minus
the blank lines when `ignore_blank_lines` is set and they are in no banner or macro.
Empty strings are taken out first, even inside a banner, with `ignore_blank_lines`
(see `C20_fails`). -/
theorem C20_texts_partial {o : Opts} {lines : List Str} {P : Parsed} (h : parse o lines = .ok P) :
    P.texts = P.list.map (fun i => rstrip (lineAt (Spec.input o lines) i)) ∧
    Spec.Increasing P.list ∧
    ∀ i, i ∈ P.list ↔ i < (Spec.input o lines).length ∧
      ¬ (o.ignoreBlank = true ∧ Spec.blank (lineAt (Spec.input o lines) i) ∧
        (∀ p, ¬ Spec.banners o.syn (lineAt (Spec.input o lines)) i p) ∧
        (∀ p, ¬ Spec.macros o.syn (lineAt (Spec.input o lines)) i p)) := by
  rw [parse, input_eq] at h
  refine ⟨texts_eq h, list_increasing h, fun i => ?_⟩
  rw [mem_list h]
  refine and_congr Iff.rfl ?_
  constructor
  · rintro h1 ⟨h2, h3, h4, h5⟩
    rcases h1 with h1 | h1 | ⟨p, h1⟩ | ⟨p, h1⟩
    · rw [h2] at h1; cases h1
    · exact h1 h3
    · exact h4 p h1
    · exact h5 p h1
  · intro hn
    by_cases h1 : o.ignoreBlank = false
    · exact Or.inl h1
    · by_cases h2 : Spec.blank (lineAt (Spec.input o lines) i)
      · by_cases h3 : ∃ p, Spec.banners o.syn (lineAt (Spec.input o lines)) i p
        · exact Or.inr (Or.inr (Or.inl h3))
        · by_cases h4 : ∃ p, Spec.macros o.syn (lineAt (Spec.input o lines)) i p
          · exact Or.inr (Or.inr (Or.inr h4))
          · exact absurd ⟨by simpa using h1, h2, fun p hp => h3 ⟨p, hp⟩, fun p hp => h4 ⟨p, hp⟩⟩ hn
      · exact Or.inr (Or.inl h2)

/-- C20: with `ignore_blank_lines=False` nothing is dropped. -/
theorem C20_keep_all {o : Opts} {lines : List Str} {P : Parsed} (h : parse o lines = .ok P)
    (ho : o.ignoreBlank = false) : P.texts = lines.map rstrip := by
  have hin : Spec.input o lines = lines := by rw [Spec.input, if_neg (by simp [ho])]
  rw [parse, input_eq, hin] at h
  rw [texts_eq h]
  obtain ⟨_, _, _, hl, _⟩ := bootstrap_ok h
  have : P.list = List.range lines.length := by
    rw [hl, List.filter_eq_self]
    intro i _
    simp [keepLine, ho]
  rw [this]
  refine List.ext_getElem (by simp) ?_
  intro i h1 h2
  simp only [List.length_map, List.length_range] at h1
  simp [lineAt, h1]

/-- C20: no configuration or comment line is lost: the non-blank texts, in order, are
the non-blank input lines without trailing whitespace. -/
theorem C20_no_loss {o : Opts} {lines : List Str} {P : Parsed} (h : parse o lines = .ok P) :
    P.texts.filter (fun t => !(strip t).isEmpty) =
      (lines.filter (fun t => !(strip t).isEmpty)).map rstrip := by
  have hin : (lines.filter (fun t => !(strip t).isEmpty)) =
      (Spec.input o lines).filter (fun t => !(strip t).isEmpty) := by
    rw [Spec.input]
    split
    · rw [List.filter_filter]
      refine List.filter_congr ?_
      intro l _
      cases l <;> simp [strip, rstrip, lstrip]
    · rfl
  rw [hin]
  rw [parse, input_eq] at h
  exact bootstrap_no_loss h

/-- C20 does not hold as stated: an empty line inside a banner is dropped. -/
theorem C20_fails :
    ∃ P, parse {} [s "banner motd ^", s "", s "hello", s "^"] = .ok P ∧
      P.texts = [s "banner motd ^", s "hello", s "^"] :=
  ⟨_, rfl, by decide⟩

/-- A line of blanks in the same place is kept. -/
example : ∃ P, parse {} [s "banner motd ^", s " ", s "hello", s "^"] = .ok P ∧
    P.texts = [s "banner motd ^", s "", s "hello", s "^"] :=
  ⟨_, rfl, by decide⟩

example : ∃ P, parse {} [s "interface a ", s "  ", s " shutdown"] = .ok P ∧
    P.texts = [s "interface a", s " shutdown"] :=
  ⟨_, rfl, by decide⟩

/-! ## C21 -/

/-- C21: the parent of every line is the one the specification names (`Spec.Parent`:
macro, banner, brace, then the indentation rule). -/
theorem C21_parent {o : Opts} {lines : List Str} {P : Parsed} (h : parse o lines = .ok P)
    {i : Nat} (hi : i ∈ P.list) (p : Nat) :
    (P.h i).parent = p ↔ Spec.Parent o (lineAt (Spec.input o lines)) i p := by
  rw [parse, input_eq] at h
  have hs := parent_spec h ((mem_list h).mp hi).1
  constructor
  · rintro rfl; exact hs
  · intro hp; exact parent_unique hs hp

/-- C21: with no banner, macro or closing-brace lines the parent is the nearest earlier
configuration line with a smaller indent, else the line itself; a comment directly
below a deeper line is unattached. -/
theorem C21_indent {o : Opts} {lines : List Str} {P : Parsed} (h : parse o lines = .ok P)
    (h1 : ∀ l ∈ lines, ∀ d, ¬ Spec.BannerHead (rstrip l) d)
    (h2 : ∀ l ∈ lines, ¬ "macro name ".toList <+: l) (h3 : ∀ l ∈ lines, ¬ Spec.closes l)
    {i : Nat} (hi : i ∈ P.list) (p : Nat) :
    (P.h i).parent = p ↔ Spec.ParentRule o.delims (lineAt (Spec.input o lines)) i p := by
  have hmem := input_mem o lines
  rw [C21_parent h hi]
  have hlen : i < (Spec.input o lines).length := by
    rw [parse, input_eq] at h; exact ((mem_list h).mp hi).1
  have n1 : ∀ q, ¬ Spec.banners o.syn (lineAt (Spec.input o lines)) i q := by
    rintro q ⟨_, hq, d, ⟨hh, _⟩, _⟩
    exact h1 _ (hmem q (by omega)) d hh
  have n2 : ∀ q, ¬ Spec.macros o.syn (lineAt (Spec.input o lines)) i q := by
    rintro q ⟨_, hq, hh, _⟩
    exact h2 _ (hmem q (by omega)) hh
  have n3 := h3 _ (hmem i hlen)
  constructor
  · rintro (hp | ⟨_, hp⟩ | ⟨_, _, hp, _⟩ | ⟨_, _, _, hp⟩)
    · exact absurd hp.1 (n2 p)
    · exact absurd hp.1 (n1 p)
    · exact absurd hp n3
    · exact hp
  · intro hp
    exact Or.inr (Or.inr (Or.inr ⟨n2, n1, n3, hp⟩))

/-- C21: an unindented line outside banners and macros that is not a closing brace is
its own parent. -/
theorem C21_root {o : Opts} {lines : List Str} {P : Parsed} (h : parse o lines = .ok P)
    {i : Nat} (hi : i ∈ P.list) (h0 : Spec.indent (lineAt (Spec.input o lines) i) = 0)
    (h1 : ∀ q, ¬ Spec.banners o.syn (lineAt (Spec.input o lines)) i q)
    (h2 : ∀ q, ¬ Spec.macros o.syn (lineAt (Spec.input o lines)) i q)
    (h3 : ¬ Spec.closes (lineAt (Spec.input o lines) i)) : (P.h i).parent = i := by
  rw [C21_parent h hi]
  refine Or.inr (Or.inr (Or.inr ⟨h2, h1, h3, Or.inr ⟨Or.inr ?_, rfl⟩⟩))
  intro q hq
  have := hq.2.2.1
  omega

example : ∃ P, parse {} [s "a", s "  b", s " c", s "   d", s " !e", s "  f", s "g"] = .ok P ∧
    (List.range 7).map (fun i => (P.h i).parent) = [0, 0, 0, 2, 4, 2, 6] :=
  ⟨_, rfl, by decide⟩

/-! ## C22 -/

/-- C22: a parent precedes its child. -/
theorem C22_parent_before {o : Opts} {lines : List Str} {P : Parsed} (h : parse o lines = .ok P)
    {i : Nat} (hi : i ∈ P.list) : (P.h i).parent ≤ i ∧ (P.h i).parent ∈ P.list := by
  rw [parse, input_eq] at h
  exact ⟨parent_le (parent_spec h ((mem_list h).mp hi).1), parent_listed h hi⟩

/-- C22: following parents ends at a line that is its own parent. -/
theorem C22_root_reached {o : Opts} {lines : List Str} {P : Parsed} (h : parse o lines = .ok P) :
    ∀ i, i ∈ P.list → ∃ k ≤ i, (P.h (Nat.repeat (fun j => (P.h j).parent) k i)).parent =
      Nat.repeat (fun j => (P.h j).parent) k i := by
  intro i
  induction i using Nat.strongRecOn with
  | ind i ih =>
    intro hi
    by_cases hp : (P.h i).parent = i
    · exact ⟨0, by omega, hp⟩
    · obtain ⟨h1, h2⟩ := C22_parent_before h hi
      obtain ⟨k, hk, hr⟩ := ih _ (by omega) h2
      have hshift : ∀ m, Nat.repeat (fun j => (P.h j).parent) (m + 1) i =
          Nat.repeat (fun j => (P.h j).parent) m (P.h i).parent := by
        intro m
        induction m with
        | zero => rfl
        | succ m ihm => rw [Nat.repeat, ihm, Nat.repeat]
      exact ⟨k + 1, by omega, by rw [hshift]; exact hr⟩

/-- C22: the children of a line come after it and are listed. -/
theorem C22_children_after {o : Opts} {lines : List Str} {P : Parsed} (h : parse o lines = .ok P)
    {i c : Nat} (hi : i ∈ P.list) (hc : c ∈ (P.h i).children) : i < c ∧ c ∈ P.list := by
  rw [parse, input_eq] at h
  have hl := ((mem_list h).mp hi).1
  exact ⟨(children_range h hl hc).1, children_listed h hl hc⟩

/-- C22, exactly what the children are: the lines whose indentation parent is this
line, then the banner body, then the macro body, each in line order. -/
theorem C22_children {o : Opts} {lines : List Str} {P : Parsed} (h : parse o lines = .ok P)
    {i : Nat} (hi : i ∈ P.list) :
    ∃ A B C, (P.h i).children = A ++ B ++ C ∧
      (Spec.Increasing A ∧ ∀ c, c ∈ A ↔ c < (Spec.input o lines).length ∧ c ≠ i ∧
        Spec.ParentRule o.delims (lineAt (Spec.input o lines)) c i) ∧
      (Spec.Increasing B ∧ ∀ c, c ∈ B ↔ c < (Spec.input o lines).length ∧
        Spec.banners o.syn (lineAt (Spec.input o lines)) c i) ∧
      (Spec.Increasing C ∧ ∀ c, c ∈ C ↔ c < (Spec.input o lines).length ∧
        Spec.macros o.syn (lineAt (Spec.input o lines)) c i) := by
  rw [parse, input_eq] at h
  exact children_spec h ((mem_list h).mp hi).1

/-- C22, without banners, macros and closing braces: the children are, in line order
and once each, the lines whose parent this is. -/
theorem C22_agree_partial {o : Opts} {lines : List Str} {P : Parsed} (h : parse o lines = .ok P)
    (h1 : ∀ l ∈ lines, ∀ d, ¬ Spec.BannerHead (rstrip l) d)
    (h2 : ∀ l ∈ lines, ¬ "macro name ".toList <+: l) (h3 : ∀ l ∈ lines, ¬ Spec.closes l)
    {p : Nat} (hp : p ∈ P.list) :
    Spec.Increasing (P.h p).children ∧
    ∀ c, c ∈ (P.h p).children ↔ c ∈ P.list ∧ (P.h c).parent = p ∧ c ≠ p := by
  have hmem := input_mem o lines
  have hpl : p < (Spec.input o lines).length := by
    rw [parse, input_eq] at h; exact ((mem_list h).mp hp).1
  obtain ⟨A, B, C, he, ⟨hA1, hA⟩, ⟨_, hB⟩, ⟨_, hC⟩⟩ := C22_children h hp
  have hB0 : B = [] := by
    rw [List.eq_nil_iff_forall_not_mem]
    intro c hc
    obtain ⟨_, _, _, d, ⟨hh, _⟩, _⟩ := (hB c).mp hc
    exact h1 _ (hmem p hpl) d hh
  have hC0 : C = [] := by
    rw [List.eq_nil_iff_forall_not_mem]
    intro c hc
    obtain ⟨_, _, _, hh, _⟩ := (hC c).mp hc
    exact h2 _ (hmem p hpl) hh
  rw [hB0, hC0, List.append_nil, List.append_nil] at he
  rw [he]
  refine ⟨hA1, fun c => ?_⟩
  constructor
  · intro hc
    have hcl := (C22_children_after h hp (by rw [he]; exact hc)).2
    obtain ⟨_, hne, hr⟩ := (hA c).mp hc
    exact ⟨hcl, (C21_indent h h1 h2 h3 hcl p).mpr hr, hne⟩
  · rintro ⟨hcl, hpar, hne⟩
    rw [hA]
    refine ⟨?_, hne, (C21_indent h h1 h2 h3 hcl p).mp hpar⟩
    rw [parse, input_eq] at h; exact ((mem_list h).mp hcl).1

/-- C22 does not hold as stated: the parent of a closing brace does not list it, and
another line does. -/
theorem C22_braces_fails :
    ∃ P, parse {} [s "a {", s " b", s "  }"] = .ok P ∧
      (P.h 2).parent = 0 ∧ 2 ∉ (P.h 0).children ∧ 2 ∈ (P.h 1).children :=
  ⟨_, rfl, by decide⟩

/-- C22 does not hold as stated: an indented banner body is listed twice. -/
theorem C22_banner_fails :
    ∃ P, parse {} [s "banner motd ^", s " hello", s "^"] = .ok P ∧
      (P.h 0).children = [1, 1, 2] :=
  ⟨_, rfl, by decide⟩

/-- C22 does not hold as stated: the line that owned a banner body line by indentation
still lists it. -/
theorem C22_stale_fails :
    ∃ P, parse {} [s "banner motd ^", s "hello", s " x", s "^"] = .ok P ∧
      (P.h 2).parent = 0 ∧ 2 ∈ (P.h 1).children :=
  ⟨_, rfl, by decide⟩

example : ∃ P, parse {} [s "interface a", s " ip address 1.1.1.1 255.0.0.0", s " shutdown", s "end"]
    = .ok P ∧ (P.h 0).children = [1, 2] ∧ (P.h 1).parent = 0 := ⟨_, rfl, by decide⟩

/-! ## C23 -/

/-- C23: line numbers are the positions in the parser's input; they are the positions in
`objs` when no blank line is dropped, that is with `ignore_blank_lines=False` or when
no line is made of blanks only. -/
theorem C23_linenum_partial {o : Opts} {lines : List Str} {P : Parsed} (h : parse o lines = .ok P) :
    (∀ i ∈ P.list, (P.h i).linenum = i) ∧
    ((o.ignoreBlank = false ∨ ∀ l ∈ Spec.input o lines, ¬ Spec.blank l) →
      P.list = List.range (Spec.input o lines).length) := by
  rw [parse, input_eq] at h
  refine ⟨fun i hi => (attrs h ((mem_list h).mp hi).1).2.2.2.1, fun hn => ?_⟩
  obtain ⟨_, _, _, hl, _⟩ := bootstrap_ok h
  rw [hl, List.filter_eq_self]
  intro i hi
  rw [List.mem_range] at hi
  rw [keepLine_iff h hi]
  rcases hn with hn | hn
  · exact Or.inl hn
  · refine Or.inr (Or.inl (hn _ ?_))
    rw [lineAt, List.getD_eq_getElem?_getD, List.getElem?_eq_getElem hi]
    exact List.getElem_mem hi

/-- C23: line numbers increase strictly through `objs`. -/
theorem C23_increasing {o : Opts} {lines : List Str} {P : Parsed} (h : parse o lines = .ok P) :
    (P.list.map (fun i => (P.h i).linenum)).Pairwise (· < ·) := by
  have h1 := (C23_linenum_partial h).1
  rw [parse, input_eq] at h
  rw [List.pairwise_map]
  refine List.Pairwise.imp_of_mem ?_ (list_increasing h)
  intro a b ha hb hab
  rw [h1 a ha, h1 b hb]
  omega

/-- C23 does not hold as stated: a dropped line of blanks leaves a gap. -/
theorem C23_fails :
    ∃ P, parse {} [s "a", s "  ", s "b"] = .ok P ∧ P.list = [0, 2] ∧ (P.h 2).linenum = 2 :=
  ⟨_, rfl, by decide⟩

/-! ## C24 -/

theorem not_config_of {ds : List Char} {t : Str} (h : Spec.comment ds t ∨ Spec.blank t) :
    ¬ Spec.config ds t := by
  rintro ⟨h1, h2⟩
  rcases h with h | h
  · exact h2 h
  · exact h1 h

/-- The first non-blank character of a text. -/
theorem comment_char {ds : List Char} {c : Char} {t ws rest : Str} (h : Spec.comment ds t)
    (ht : t = ws ++ c :: rest) (hws : ∀ x ∈ ws, isSpace x = true) (hc : isSpace c = false) : c ∈ ds := by
  obtain ⟨ws', c', rest', ht', hws', hc', hd⟩ := h
  have e1 := congrArg List.head? (lstrip_pre (p := ws) (s := c :: rest) hws
    (by intro a ha; simp at ha; rwa [← ha]))
  have e2 := congrArg List.head? (lstrip_pre (p := ws') (s := c' :: rest') hws'
    (by intro a ha; simp at ha; rwa [← ha]))
  rw [← ht] at e1
  rw [← ht'] at e2
  rw [e1] at e2
  simp only [List.head?_cons, Option.some.injEq] at e2
  rw [e2]; exact hd

theorem comment_rstrip {ds : List Char} {t : Str} (h : Spec.comment ds t) : Spec.comment ds (rstrip t) := by
  obtain ⟨ws, c, rest, ht, hws, hc, hd⟩ := h
  have hh : (lstrip (rstrip t)).head? = some c := by
    rw [head?_lstrip_rstrip, ht, lstrip_pre hws (by intro a ha; simp at ha; rwa [← ha])]
    rfl
  have hsplit := List.takeWhile_append_dropWhile (p := isSpace) (l := rstrip t)
  cases hl : lstrip (rstrip t) with
  | nil => rw [hl] at hh; cases hh
  | cons x xs =>
    rw [hl] at hh
    simp only [List.head?_cons, Option.some.injEq] at hh
    subst hh
    refine ⟨(rstrip t).takeWhile isSpace, x, xs, ?_, fun y hy => of_mem_takeWhile hy, hc, hd⟩
    rw [lstrip] at hl
    rw [← hl, hsplit]

/-- C24: a comment or blank line has no children (as long as the letters `b`, `s`, `m`
that start `banner`, `set banner` and `macro name` are not comment delimiters). -/
theorem C24_no_children {o : Opts} {lines : List Str} {P : Parsed} (h : parse o lines = .ok P)
    (hd : 'b' ∉ o.delims ∧ 's' ∉ o.delims ∧ 'm' ∉ o.delims)
    {i : Nat} (hi : i ∈ P.list)
    (hc : Spec.comment o.delims (lineAt (Spec.input o lines) i) ∨
      Spec.blank (lineAt (Spec.input o lines) i)) : (P.h i).children = [] := by
  obtain ⟨A, B, C, he, ⟨_, hA⟩, ⟨_, hB⟩, ⟨_, hC⟩⟩ := C22_children h hi
  have nA : A = [] := by
    rw [List.eq_nil_iff_forall_not_mem]
    intro c hm
    obtain ⟨_, hne, hr⟩ := (hA c).mp hm
    rcases hr with ⟨_, hr⟩ | ⟨_, hr⟩
    · exact not_config_of hc hr.2.1
    · exact hne hr.symm
  have nB : B = [] := by
    rw [List.eq_nil_iff_forall_not_mem]
    intro c hm
    obtain ⟨_, _, _, d, ⟨hh, _⟩, _⟩ := (hB c).mp hm
    rcases hc with hc | hc
    · have hc' := comment_rstrip hc
      obtain ⟨sets, c1, word, ws, rest, ht, hs, _⟩ := hh
      cases hs with
      | nil =>
        have ht' : rstrip (lineAt (Spec.input o lines) i) = [] ++ 'b' :: ("anner".toList ++
            ([c1] ++ word ++ ws ++ d :: rest)) := by rw [ht]; simp
        exact hd.1 (comment_char hc' ht' (by simp) (by decide))
      | @cons ws' rest' _ _ _ =>
        have ht' : rstrip (lineAt (Spec.input o lines) i) = [] ++ 's' :: ("et".toList ++ (ws' ++ rest' ++
            "banner".toList ++ [c1] ++ word ++ ws ++ d :: rest)) := by rw [ht]; simp
        exact hd.2.1 (comment_char hc' ht' (by simp) (by decide))
    · exact not_blank_of_bannerHead hh ((blank_rstrip_iff _).mpr hc)
  have nC : C = [] := by
    rw [List.eq_nil_iff_forall_not_mem]
    intro c hm
    obtain ⟨_, _, _, hh, _⟩ := (hC c).mp hm
    rcases hc with hc | hc
    · obtain ⟨r, hr⟩ := hh
      exact hd.2.2 (comment_char hc (ws := []) (c := 'm') (rest := "acro name ".toList ++ r)
        (by rw [← hr]; rfl) (by simp) (by decide))
    · exact not_blank_macro hh hc
  rw [he, nA, nB, nC]; rfl

/-- C24: a comment or blank line is nobody's parent but its own, as long as it does
not end with an opening brace. -/
theorem C24_never_parent_partial {o : Opts} {lines : List Str} {P : Parsed} (h : parse o lines = .ok P)
    (hd : 'b' ∉ o.delims ∧ 's' ∉ o.delims ∧ 'm' ∉ o.delims)
    {i c : Nat} (hi : i ∈ P.list) (hcl : c ∈ P.list) (hne : c ≠ i)
    (hc : Spec.comment o.delims (lineAt (Spec.input o lines) i) ∨
      Spec.blank (lineAt (Spec.input o lines) i))
    (hb : ¬ Spec.opens (lineAt (Spec.input o lines) i)) : (P.h c).parent ≠ i := by
  intro hp
  have hno := C24_no_children h hd hi hc
  obtain ⟨A, B, C, he, ⟨_, hA⟩, ⟨_, hB⟩, ⟨_, hC⟩⟩ := C22_children h hi
  rw [hno] at he
  have he' := he.symm
  simp only [List.append_eq_nil_iff] at he'
  obtain ⟨⟨rfl, rfl⟩, rfl⟩ := he'
  have hlen : c < (Spec.input o lines).length := by
    rw [parse, input_eq] at h; exact ((mem_list h).mp hcl).1
  rw [C21_parent h hcl] at hp
  rcases hp with hp | ⟨_, hp⟩ | ⟨_, _, _, hp⟩ | ⟨_, _, _, hp⟩
  · have := (hC c).mpr ⟨hlen, hp.1⟩; simp at this
  · have := (hB c).mpr ⟨hlen, hp.1⟩; simp at this
  · exact hb hp.2.1
  · have := (hA c).mpr ⟨hlen, hne, hp⟩; simp at this

/-- C24 does not hold as stated: a comment that ends with a brace can be a parent. -/
theorem C24_fails :
    ∃ P, parse {} [s "! note {", s "}"] = .ok P ∧ (P.h 0).isComment = true ∧ (P.h 1).parent = 0 :=
  ⟨_, rfl, by decide⟩

example : ∃ P, parse {} [s "a", s " !c", s "  d"] = .ok P ∧ (P.h 1).children = [] ∧ (P.h 2).parent = 0 :=
  ⟨_, rfl, by decide⟩

/-! ## C25 -/

/-- C25: a line of a banner body has the banner line as its parent, whatever its
indentation or content (with nested banners the last one; macro bodies win). -/
theorem C25_parent {o : Opts} {lines : List Str} {P : Parsed} (h : parse o lines = .ok P)
    (ho : o.syn ≠ .junos) {p i : Nat} (hi : i ∈ P.list)
    (hb : Spec.InBanner (lineAt (Spec.input o lines)) p i)
    (hlast : ∀ q, Spec.InBanner (lineAt (Spec.input o lines)) q i → q ≤ p)
    (hm : ∀ q, ¬ Spec.macros o.syn (lineAt (Spec.input o lines)) i q) : (P.h i).parent = p := by
  rw [C21_parent h hi]
  exact Or.inr (Or.inl ⟨hm, ⟨ho, hb⟩, fun q hq => hlast q hq.2⟩)

/-- C25: the banner line lists its whole body, in order and without gaps (after the
lines that already were its children by indentation), and is itself listed. -/
theorem C25_children_partial {o : Opts} {lines : List Str} {P : Parsed} (h : parse o lines = .ok P)
    (ho : o.syn ≠ .junos) {p : Nat} {d : Char} (hp : p < (Spec.input o lines).length)
    (hh : Spec.OpenBanner (rstrip (lineAt (Spec.input o lines) p)) d) :
    p ∈ P.list ∧ ∃ A B C, (P.h p).children = A ++ B ++ C ∧
      (∀ c ∈ A, Spec.ParentRule o.delims (lineAt (Spec.input o lines)) c p) ∧
      (∀ c ∈ C, Spec.macros o.syn (lineAt (Spec.input o lines)) c p) ∧
      Spec.Increasing B ∧ ∀ i, i ∈ B ↔ p < i ∧ i < (Spec.input o lines).length ∧
        ∀ q, p < q → q < i → d ∉ lineAt (Spec.input o lines) q := by
  have hpl : p ∈ P.list := by
    rw [parse, input_eq] at h
    rw [mem_list h]
    refine ⟨hp, Or.inr (Or.inl ?_)⟩
    rw [← blank_rstrip_iff]
    exact not_blank_of_bannerHead hh.1
  obtain ⟨A, B, C, he, ⟨_, hA⟩, ⟨hB1, hB⟩, ⟨_, hC⟩⟩ := C22_children h hpl
  refine ⟨hpl, A, B, C, he, fun c hc => ((hA c).mp hc).2.2, fun c hc => ((hC c).mp hc).2, hB1, fun i => ?_⟩
  rw [hB]
  have hd : ∀ d', Spec.OpenBanner (rstrip (lineAt (Spec.input o lines) p)) d' → d' = d := by
    intro d' h'
    have e1 := ((bannerHead_iff _ _).mpr hh.1).2
    have e2 := ((bannerHead_iff _ _).mpr h'.1).2
    rw [e1] at e2
    simpa using e2.symm
  constructor
  · rintro ⟨h1, _, h2, d', h3, h4⟩
    rw [hd d' h3] at h4
    exact ⟨h2, h1, h4⟩
  · rintro ⟨h1, h2, h3⟩
    exact ⟨h2, ho, h1, d, hh, h3⟩

/-- C25: every line of a banner body is kept, blank or not. -/
theorem C25_kept {o : Opts} {lines : List Str} {P : Parsed} (h : parse o lines = .ok P)
    (ho : o.syn ≠ .junos) {p i : Nat} (hi : i < (Spec.input o lines).length)
    (hb : Spec.InBanner (lineAt (Spec.input o lines)) p i) : i ∈ P.list := by
  rw [parse, input_eq] at h
  rw [mem_list h]
  exact ⟨hi, Or.inr (Or.inr (Or.inl ⟨p, ho, hb⟩))⟩

/-- C25: lines outside every banner (and macro) have the parent they would have
without the banner pass. -/
theorem C25_outside {o : Opts} {lines : List Str} {P : Parsed} (h : parse o lines = .ok P)
    {i : Nat} (hi : i ∈ P.list)
    (hb : ∀ p, ¬ Spec.banners o.syn (lineAt (Spec.input o lines)) i p)
    (hm : ∀ p, ¬ Spec.macros o.syn (lineAt (Spec.input o lines)) i p)
    (hc : ¬ Spec.closes (lineAt (Spec.input o lines) i)) :
    Spec.ParentRule o.delims (lineAt (Spec.input o lines)) i (P.h i).parent := by
  rcases (C21_parent h hi _).mp rfl with hp | ⟨_, hp⟩ | ⟨_, _, hp, _⟩ | ⟨_, _, _, hp⟩
  · exact absurd hp.1 (hm _)
  · exact absurd hp.1 (hb _)
  · exact absurd hp hc
  · exact hp

/-- C25 does not hold as stated: "exactly" fails, an indented body line is a child of
the banner line twice. -/
theorem C25_twice_fails :
    ∃ P, parse {} [s "banner motd ^", s " hello", s "^", s "end"] = .ok P ∧
      (P.h 0).children = [1, 1, 2] ∧ (P.h 3).parent = 3 :=
  ⟨_, rfl, by decide⟩

example : ∃ P, parse {} [s "banner motd ^", s "!x", s " ", s "^", s "end"] = .ok P ∧
    (P.h 0).children = [1, 2, 3] ∧ (P.h 3).parent = 0 ∧ (P.h 4).parent = 4 ∧
    P.list = [0, 1, 2, 3, 4] :=
  ⟨_, rfl, by decide⟩

/-! ## C26 -/

/-- C26: a line of a macro body has the (last) macro line as its parent and is kept,
blank or not. -/
theorem C26_parent {o : Opts} {lines : List Str} {P : Parsed} (h : parse o lines = .ok P)
    (ho : o.syn = .ios) {p i : Nat} (hi : i < (Spec.input o lines).length)
    (hm : Spec.InMacro (lineAt (Spec.input o lines)) p i)
    (hlast : ∀ q, Spec.InMacro (lineAt (Spec.input o lines)) q i → q ≤ p) :
    i ∈ P.list ∧ (P.h i).parent = p := by
  have hl : i ∈ P.list := by
    rw [parse, input_eq] at h
    rw [mem_list h]
    exact ⟨hi, Or.inr (Or.inr (Or.inr ⟨p, ho, hm⟩))⟩
  refine ⟨hl, ?_⟩
  rw [C21_parent h hl]
  exact Or.inl ⟨⟨ho, hm⟩, fun q hq => hlast q hq.2⟩

/-- C26: the macro line lists its whole body, in order and without gaps, up to and
including the first `@` line, which exists. -/
theorem C26_children {o : Opts} {lines : List Str} {P : Parsed} (h : parse o lines = .ok P)
    (ho : o.syn = .ios) {p : Nat} (hp : p < (Spec.input o lines).length)
    (hm : "macro name ".toList <+: lineAt (Spec.input o lines) p) :
    p ∈ P.list ∧ (∃ e, p < e ∧ e < (Spec.input o lines).length ∧
      Spec.atLine (lineAt (Spec.input o lines) e)) ∧
    ∃ A B C, (P.h p).children = A ++ B ++ C ∧
      (∀ c ∈ A, Spec.ParentRule o.delims (lineAt (Spec.input o lines)) c p) ∧
      (∀ c ∈ B, Spec.banners o.syn (lineAt (Spec.input o lines)) c p) ∧
      Spec.Increasing C ∧ ∀ i, i ∈ C ↔ p < i ∧ i < (Spec.input o lines).length ∧
        ∀ q, p < q → q < i → ¬ Spec.atLine (lineAt (Spec.input o lines) q) := by
  have hpl : p ∈ P.list := by
    rw [parse, input_eq] at h
    rw [mem_list h]
    exact ⟨hp, Or.inr (Or.inl (not_blank_macro hm))⟩
  refine ⟨hpl, ?_, ?_⟩
  · rw [parse, input_eq] at h
    by_cases hex : ∃ e, p < e ∧ e < (Spec.input o lines).length ∧
      Spec.atLine (lineAt (Spec.input o lines) e)
    · exact hex
    · exfalso
      obtain ⟨e, he⟩ := bootstrap_isError o (Spec.input o lines)
        (Or.inr ⟨ho, p, hp, hm, fun i h1 h2 h3 => hex ⟨i, h1, h2, h3⟩⟩)
      rw [h] at he; cases he
  · obtain ⟨A, B, C, he, ⟨_, hA⟩, ⟨_, hB⟩, ⟨hC1, hC⟩⟩ := C22_children h hpl
    refine ⟨A, B, C, he, fun c hc => ((hA c).mp hc).2.2, fun c hc => ((hB c).mp hc).2, hC1, fun i => ?_⟩
    rw [hC]
    constructor
    · rintro ⟨h1, _, h2, _, h3⟩; exact ⟨h2, h1, h3⟩
    · rintro ⟨h1, h2, h3⟩; exact ⟨h2, ho, h1, hm, h3⟩

example : ∃ P, parse {} [s "macro name m", s "x", s "", s " ", s "@", s "end"] = .ok P ∧
    (P.h 0).children = [1, 2, 3] ∧ (P.h 3).parent = 0 ∧ (P.h 4).parent = 4 :=
  ⟨_, rfl, by decide⟩

/-! ## C27 -/

/-- C27: when no blank line was dropped and no line is just `macro name` with trailing
blanks, committing gives back exactly the same objects. -/
theorem C27_commit_partial {o : Opts} {lines : List Str} {P : Parsed} (h : parse o lines = .ok P)
    (h1 : o.ignoreBlank = false ∨ ∀ l ∈ Spec.input o lines, ¬ Spec.blank l)
    (h2 : ∀ l ∈ Spec.input o lines, rstrip l ≠ "macro name".toList) : commit o P = .ok P := by
  have hlist := (C23_linenum_partial h).2 h1
  rw [parse, input_eq] at h
  have htexts : P.texts = (Spec.input o lines).map rstrip := by
    rw [texts_eq h, hlist]
    refine List.ext_getElem (by simp) ?_
    intro i h1 h2
    simp only [List.length_map, List.length_range] at h1
    simp [lineAt, h1]
  rw [commit, htexts, bootstrap_rstrip, h]
  exact fun l hl hm => macro_rstrip (h2 l hl) hm

example : ∃ P, parse {} [s "interface a", s " x", s "banner motd ^", s " y", s "^"] = .ok P ∧
    ∃ P', commit {} P = .ok P' ∧ P'.texts = P.texts :=
  ⟨_, rfl, _, rfl, by decide⟩

/-- C27 does not hold as stated: dropping a blank line moves a comment out of its
block on the next commit. -/
theorem C27_fails :
    ∃ P, parse {} [s "interface a", s "  desc x", s " ", s " ! c"] = .ok P ∧
      (P.h 3).parent = 0 ∧ ∃ P', commit {} P = .ok P' ∧ P'.texts = P.texts ∧ (P'.h 2).parent = 2 :=
  ⟨_, rfl, by decide, _, rfl, by decide, by decide⟩

/-- C27 does not hold as stated: a macro whose name is blank is lost on commit. -/
theorem C27_macro_fails :
    ∃ P, parse {} [s "macro name ", s "x", s "@"] = .ok P ∧ (P.h 1).parent = 0 ∧
      ∃ P', commit {} P = .ok P' ∧ (P'.h 1).parent = 1 :=
  ⟨_, rfl, by decide, _, rfl, by decide⟩

/-! ## C28 -/

/-- C28: parsing succeeds exactly when every closing-brace line has an open block to
close and (ios) every macro has a closing `@` line. -/
theorem C28_succeeds_iff_partial (o : Opts) (lines : List Str) :
    (∃ P, parse o lines = .ok P) ↔
      (∀ i < (Spec.input o lines).length, Spec.closes (lineAt (Spec.input o lines) i) →
        ∃ p, Spec.Matches (lineAt (Spec.input o lines)) p i) ∧
      (o.syn = .ios → ∀ p < (Spec.input o lines).length,
        "macro name ".toList <+: lineAt (Spec.input o lines) p →
        ∃ i, p < i ∧ i < (Spec.input o lines).length ∧ Spec.atLine (lineAt (Spec.input o lines) i)) := by
  rw [parse, input_eq]
  constructor
  · rintro ⟨P, h⟩
    refine ⟨fun i hi hc => ?_, fun ho p hp hm => ?_⟩
    · by_cases hex : ∃ p, Spec.Matches (lineAt (Spec.input o lines)) p i
      · exact hex
      · obtain ⟨e, he⟩ := bootstrap_isError o (Spec.input o lines)
          (Or.inl ⟨i, hi, hc, fun p hp => hex ⟨p, hp⟩⟩)
        rw [h] at he; cases he
    · by_cases hex : ∃ i, p < i ∧ i < (Spec.input o lines).length ∧
          Spec.atLine (lineAt (Spec.input o lines) i)
      · exact hex
      · obtain ⟨e, he⟩ := bootstrap_isError o (Spec.input o lines)
          (Or.inr ⟨ho, p, hp, hm, fun i h1 h2 h3 => hex ⟨i, h1, h2, h3⟩⟩)
        rw [h] at he; cases he
  · rintro ⟨h1, h2⟩
    cases hb : bootstrap o (Spec.input o lines) with
    | ok P => exact ⟨P, rfl⟩
    | error e =>
      rcases bootstrap_error hb with ⟨_, j, hj, hc, hn⟩ | ⟨_, ho, p, hp, hm, hn⟩
      · obtain ⟨p, hp⟩ := h1 j hj hc
        exact absurd hp (hn p)
      · obtain ⟨i, i1, i2, i3⟩ := h2 ho p hp hm
        exact absurd i3 (hn i i1 i2)

/-- C28: text without closing-brace lines and macros always parses. -/
theorem C28_plain (o : Opts) (lines : List Str) (h1 : ∀ l ∈ lines, ¬ Spec.closes l)
    (h2 : ∀ l ∈ lines, ¬ "macro name ".toList <+: l) : ∃ P, parse o lines = .ok P := by
  have hmem := input_mem o lines
  rw [C28_succeeds_iff_partial]
  exact ⟨fun i hi hc => absurd hc (h1 _ (hmem i hi)), fun _ p hp hm => absurd hm (h2 _ (hmem p hp))⟩

/-- C28: the only exceptions are ValueError and IndexError. -/
theorem C28_errors {o : Opts} {lines : List Str} {e : Err} (h : parse o lines = .error e) :
    e = .valueError ∨ (o.syn = .ios ∧ e = .indexError) := by
  rw [parse, input_eq] at h
  rcases bootstrap_error h with ⟨h1, _⟩ | ⟨h1, h2, _⟩
  · exact Or.inl h1
  · exact Or.inr ⟨h2, h1⟩

/-- C28 does not hold as stated: a stray closing brace. -/
theorem C28_brace_fails : parse {} [s "hostname x", s "}"] = .error .valueError := by rfl

/-- C28 does not hold as stated: a macro without an `@` line. -/
theorem C28_macro_fails : parse {} [s "macro name m", s "x"] = .error .indexError := by rfl

example : ∃ P, parse {} [s "a {", s "}"] = .ok P := ⟨_, rfl⟩

/-! ## C43 -/

theorem intStr_ofNat (n : Nat) : intStr (n : Int) = natStr n := rfl

theorem digits_append_inj {a b x y : Str} (ha : ∀ c ∈ a, isDigit c = true) (hb : ∀ c ∈ b, isDigit c = true)
    (hx : ∀ c, x.head? = some c → isDigit c = false) (hy : ∀ c, y.head? = some c → isDigit c = false)
    (h : a ++ x = b ++ y) : a = b := by
  have key : ∀ (u v : Str), (∀ c ∈ u, isDigit c = true) → (∀ c, v.head? = some c → isDigit c = false) →
      (u ++ v).takeWhile isDigit = u := by
    intro u v hu hv
    induction u with
    | nil =>
      cases v with
      | nil => rfl
      | cons c r => rw [List.nil_append, List.takeWhile_cons, hv c rfl]; rfl
    | cons c r ih =>
      rw [List.cons_append, List.takeWhile_cons, hu c (by simp), if_pos rfl,
        ih (fun z hz => hu z (by simp [hz]))]
  rw [← key a x ha hx, h, key b y hb hy]

/-- C43: two objects of one parse compare equal only if they are the same line, as long
as neither text starts with a digit. -/
theorem C43_eq_partial {o : Opts} {lines : List Str} {P : Parsed} (h : parse o lines = .ok P)
    {i j : Nat} (hi : i ∈ P.list) (hj : j ∈ P.list)
    (h1 : ∀ c, (P.h i).text.head? = some c → isDigit c = false)
    (h2 : ∀ c, (P.h j).text.head? = some c → isDigit c = false) :
    objEq (P.h i) (P.h j) = true ↔ i = j := by
  have hn := (C23_linenum_partial h).1
  rw [objEq, beq_iff_eq, hn i hi, hn j hj, intStr_ofNat, intStr_ofNat]
  constructor
  · intro he
    exact natStr_inj (digits_append_inj (natStr_digits i) (natStr_digits j) h1 h2 he)
  · rintro rfl; rfl

/-- C43: every object equals itself, and equality is symmetric and transitive. -/
theorem C43_equivalence (a b c : Obj) : objEq a a = true ∧ (objEq a b = true → objEq b a = true) ∧
    (objEq a b = true → objEq b c = true → objEq a c = true) := by
  rw [objEq, objEq, objEq, objEq, objEq, beq_iff_eq, beq_iff_eq, beq_iff_eq, beq_iff_eq, beq_iff_eq]
  exact ⟨rfl, fun h => h.symm, fun h1 h2 => h1.trans h2⟩

/-- C43 does not hold as stated: line 1 `1 foo` equals line 11 ` foo`. -/
theorem C43_fails :
    ∃ P, parse {} [s "a", s "1 foo", s "b", s "b", s "b", s "b", s "b", s "b", s "b", s "b", s "b", s " foo"]
      = .ok P ∧ 1 ∈ P.list ∧ 11 ∈ P.list ∧ objEq (P.h 1) (P.h 11) = true :=
  ⟨_, rfl, by decide, by decide, by decide⟩

end Conf

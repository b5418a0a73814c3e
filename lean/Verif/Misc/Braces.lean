import Verif.PyLemmas
import Verif.Conf.Final

/-! # C272: braces are escaped for `str.format` -/

namespace Misc

open Py

namespace Spec

/-- `text.format()`, without arguments: a doubled brace stands for the brace; any other brace begins
or ends a replacement field, for which there is no argument. -/
def format : Str → Except Err Str
  | [] => .ok []
  | '{' :: '{' :: s => (format s).map ('{' :: ·)
  | '}' :: '}' :: s => (format s).map ('}' :: ·)
  | c :: s => if c = '{' ∨ c = '}' then .error .valueError else (format s).map (c :: ·)

end Spec

/-- `text.replace(c, cc)` for a character. -/
def double (c : Char) (t : Str) : Str := t.flatMap (fun x => if x = c then [c, c] else [x])

/-- ccp_abc.py:430-452 `safe_escape_curly_braces`.  (The assertion says what the first test says.) -/
def escapeBraces (t : Str) : Str :=
  if !isInfix ['{'] t && !isInfix ['}'] t then t
  else if isInfix ['{', '{'] t || isInfix ['}', '}'] t then t
  else double '}' (double '{' t)

theorem infix_char (c : Char) (t : Str) : isInfix [c] t = true ↔ c ∈ t := by
  rw [Conf.isInfix_iff]
  constructor
  · rintro ⟨a, b, rfl⟩; simp
  · intro h
    obtain ⟨a, b, rfl⟩ := List.append_of_mem h
    exact ⟨a, b, by simp⟩

theorem double_id {c : Char} {t : Str} (h : c ∉ t) : double c t = t := by
  induction t with
  | nil => rfl
  | cons x t ih =>
    rw [List.mem_cons, not_or] at h
    rw [double, List.flatMap_cons, if_neg (fun e => h.1 e.symm)]
    exact congrArg (x :: ·) (ih h.2)

/-- Both braces doubled, at once. -/
theorem double_both (t : Str) : double '}' (double '{' t) = t.flatMap (fun x => if x = '{' ∨ x = '}' then [x, x] else [x]) := by
  rw [double, double, List.flatMap_assoc]
  congr 1
  funext x
  by_cases h1 : x = '{'
  · subst h1; decide
  · by_cases h2 : x = '}'
    · subst h2; decide
    · simp [h1, h2]

theorem format_double (t : Str) : Spec.format (t.flatMap (fun x => if x = '{' ∨ x = '}' then [x, x] else [x])) = .ok t := by
  induction t with
  | nil => rfl
  | cons x t ih =>
    rw [List.flatMap_cons]
    by_cases h1 : x = '{'
    · subst h1
      rw [if_pos (.inl rfl)]
      show Spec.format ('{' :: '{' :: (t.flatMap (fun x => if x = '{' ∨ x = '}' then [x, x] else [x]))) = _
      rw [Spec.format, ih]; rfl
    · by_cases h2 : x = '}'
      · subst h2
        rw [if_pos (.inr rfl)]
        show Spec.format ('}' :: '}' :: (t.flatMap (fun x => if x = '{' ∨ x = '}' then [x, x] else [x]))) = _
        rw [Spec.format, ih]; rfl
      · rw [if_neg (by simp [h1, h2])]
        show Spec.format (x :: (t.flatMap (fun x => if x = '{' ∨ x = '}' then [x, x] else [x]))) = _
        rw [Spec.format, ih, if_neg (by simp [h1, h2])]
        · rfl
        · intro s e; exact absurd e h1
        · intro s e; exact absurd e h2

theorem escape_eq {t : Str} (h1 : ¬ ['{', '{'] <:+: t) (h2 : ¬ ['}', '}'] <:+: t) :
    escapeBraces t = t.flatMap (fun x => if x = '{' ∨ x = '}' then [x, x] else [x]) := by
  rw [← double_both, escapeBraces]
  split
  · rename_i h
    simp only [Bool.and_eq_true, Bool.not_eq_true', Bool.eq_false_iff, ne_eq, infix_char] at h
    rw [double_id h.1, double_id h.2]
  · rw [if_neg (by simp [Conf.isInfix_iff, h1, h2])]

/-- C272: a text without doubled braces is escaped so that `format()` gives it back. -/
theorem C272_format_partial {t : Str} (h1 : ¬ ['{', '{'] <:+: t) (h2 : ¬ ['}', '}'] <:+: t) : Spec.format (escapeBraces t) = .ok t := by
  rw [escape_eq h1 h2, format_double]

/-- C272: a text that has doubled braces, or no brace at all, is left as it is. -/
theorem C272_same {t : Str} (h : ('{' ∉ t ∧ '}' ∉ t) ∨ ['{', '{'] <:+: t ∨ ['}', '}'] <:+: t) : escapeBraces t = t := by
  rw [escapeBraces]
  rcases h with ⟨h1, h2⟩ | h
  · rw [if_pos (by simp [Bool.eq_false_iff, infix_char, h1, h2])]
  · split
    · rfl
    · rw [if_pos (by simpa [Conf.isInfix_iff] using h)]

/-- C272: a text that is escaped stays as it is when it is escaped again. -/
theorem C272_twice (t : Str) : escapeBraces (escapeBraces t) = escapeBraces t := by
  by_cases h : ['{', '{'] <:+: t ∨ ['}', '}'] <:+: t
  · rw [C272_same (.inr h), C272_same (.inr h)]
  · rw [not_or] at h
    rw [escape_eq h.1 h.2]
    by_cases hb : '{' ∈ t ∨ '}' ∈ t
    · refine C272_same (.inr ?_)
      rcases hb with hb | hb
      · obtain ⟨a, b, rfl⟩ := List.append_of_mem hb
        rw [List.flatMap_append, List.flatMap_cons, if_pos (.inl rfl)]
        exact .inl ⟨_, _, List.append_assoc ..⟩
      · obtain ⟨a, b, rfl⟩ := List.append_of_mem hb
        rw [List.flatMap_append, List.flatMap_cons, if_pos (.inr rfl)]
        exact .inr ⟨_, _, List.append_assoc ..⟩
    · rw [not_or] at hb
      refine C272_same (.inl ?_)
      simp only [List.mem_flatMap, not_exists, not_and]
      constructor <;> intro x hx <;> split <;> rename_i h' <;> simp_all
      all_goals grind

/-- C272: with a doubled brace anywhere in the text, single braces are not escaped, and a doubled brace is not given back. -/
theorem C272_mixed_fails : Spec.format (escapeBraces "{a} {{b".toList) = .error .valueError ∧
    Spec.format (escapeBraces "a {{ b".toList) = .ok "a { b".toList := by decide +kernel

example : escapeBraces "interface ge-0/0/0 { unit 0 }".toList = "interface ge-0/0/0 {{ unit 0 }}".toList ∧
    Spec.format (escapeBraces "interface ge-0/0/0 { unit 0 }".toList) = .ok "interface ge-0/0/0 { unit 0 }".toList :=
  ⟨by decide +kernel, C272_format_partial (by rw [← Conf.isInfix_iff]; decide +kernel) (by rw [← Conf.isInfix_iff]; decide +kernel)⟩

end Misc

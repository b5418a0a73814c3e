import Verif.Conf.Model

/-! # Specification of the parse tree, in terms of the text lines only

`L i` is line number `i` of the input.  Nothing here refers to the parser. -/

namespace Conf

/-- Line `i` of a list of lines. -/
def lineAt (lines : List Py.Str) : Nat → Py.Str := fun i => lines.getD i []

namespace Spec

open Py

/-- Number of leading whitespace characters (a blank line has none). -/
def indent (t : Str) : Nat := ((rstrip t).takeWhile isSpace).length

/-- Only whitespace. -/
def blank (t : Str) : Prop := ∀ c ∈ t, isSpace c = true

/-- The first non-blank character is a comment delimiter. -/
def comment (delims : List Char) (t : Str) : Prop :=
  ∃ ws c rest, t = ws ++ c :: rest ∧ (∀ x ∈ ws, isSpace x = true) ∧ isSpace c = false ∧ c ∈ delims

/-- Neither blank nor a comment. -/
def config (delims : List Char) (t : Str) : Prop := ¬ blank t ∧ ¬ comment delims t

/-- `p` is the closest configuration line before `i` that is indented less. -/
def Nearest (delims : List Char) (L : Nat → Str) (i p : Nat) : Prop :=
  p < i ∧ config delims (L p) ∧ indent (L p) < indent (L i) ∧
  ∀ q, p < q → q < i → config delims (L q) → indent (L i) ≤ indent (L q)

/-- A comment whose previous line is indented more is left unattached. -/
def Unattached (delims : List Char) (L : Nat → Str) (i : Nat) : Prop :=
  comment delims (L i) ∧ 0 < i ∧ indent (L i) < indent (L (i - 1))

/-- The parent rule: the nearest less-indented configuration line, or the line itself
when there is none or the line is an unattached comment. -/
def ParentRule (delims : List Char) (L : Nat → Str) (i p : Nat) : Prop :=
  (¬ Unattached delims L i ∧ Nearest delims L i p) ∨
  ((Unattached delims L i ∨ ∀ q, ¬ Nearest delims L i q) ∧ p = i)

/-! ## Braces -/

/-- The line ends with an opening brace. -/
def opens (t : Str) : Prop := ∃ pre ws, t = pre ++ '{' :: ws ∧ ∀ c ∈ ws, isSpace c = true

/-- The line starts with a closing brace (and does not open a block). -/
def closes (t : Str) : Prop :=
  (∃ ws rest, t = ws ++ '}' :: rest ∧ ∀ c ∈ ws, isSpace c = true) ∧ ¬ opens t

/-- Lines `a .. b-1` are balanced: a closing line closes an opening line among them,
and every opening line among them is closed. -/
inductive Balanced (L : Nat → Str) : Nat → Nat → Prop
  | nil {a} : Balanced L a a
  | plain {a k} : Balanced L a k → ¬ opens (L k) → ¬ closes (L k) → Balanced L a (k + 1)
  | block {a p k} : Balanced L a p → opens (L p) → Balanced L (p + 1) k → closes (L k) →
      Balanced L a (k + 1)

/-- The block that line `i` closes was opened at line `p`. -/
def Matches (L : Nat → Str) (p i : Nat) : Prop :=
  p < i ∧ opens (L p) ∧ closes (L i) ∧ Balanced L (p + 1) i

/-! ## Banners and macros -/

/-- `set `, any number of times. -/
inductive Sets : Str → Prop
  | nil : Sets []
  | cons {ws rest} : ws ≠ [] → (∀ c ∈ ws, isSpace c = true) → Sets rest →
      Sets ("set".toList ++ ws ++ rest)

/-- A word character. -/
def wordChar (c : Char) : Prop := isLetter c = true ∨ isDigit c = true ∨ c = '_'

/-- `t` starts a banner whose text ends at the character `d`: `banner`, one blank, a
word that begins with a banner type (or the line mentions the fail-message), blanks,
then the delimiter. -/
def BannerHead (t : Str) (d : Char) : Prop :=
  ∃ sets c word ws rest, t = sets ++ "banner".toList ++ [c] ++ word ++ ws ++ d :: rest ∧
    Sets sets ∧ isSpace c = true ∧ word ≠ [] ∧ (∀ x ∈ word, wordChar x) ∧
    ws ≠ [] ∧ (∀ x ∈ ws, isSpace x = true) ∧ isSpace d = false ∧
    ((∃ ty ∈ ["login", "motd", "incoming", "exec", "telnet", "lcd"], ty.toList <+: word) ∨
      "aaa authentication fail-message".toList <:+: t)

/-- The delimiter occurs at most once in the banner's first line. -/
def OpenBanner (t : Str) (d : Char) : Prop := BannerHead t d ∧ t.count d ≤ 1

/-- Line `i` is in the body of the banner that starts at line `p`: no line strictly
between them contains the delimiter. -/
def InBanner (L : Nat → Str) (p i : Nat) : Prop :=
  p < i ∧ ∃ d, OpenBanner (rstrip (L p)) d ∧ ∀ q, p < q → q < i → d ∉ L q

/-- The line is just `@`. -/
def atLine (t : Str) : Prop := rstrip t = "@".toList

/-- Line `i` is in the body of the macro that starts at line `p`. -/
def InMacro (L : Nat → Str) (p i : Nat) : Prop :=
  p < i ∧ "macro name ".toList <+: L p ∧ ∀ q, p < q → q < i → ¬ atLine (L q)

/-- The last line that satisfies `R`. -/
def Last (R : Nat → Prop) (p : Nat) : Prop := R p ∧ ∀ q, R q → q ≤ p

/-- Banners are recognised except in junos configurations. -/
def banners (syn : Syntax) (L : Nat → Str) (i p : Nat) : Prop := syn ≠ .junos ∧ InBanner L p i

/-- Macros are recognised in ios configurations. -/
def macros (syn : Syntax) (L : Nat → Str) (i p : Nat) : Prop := syn = .ios ∧ InMacro L p i

/-- The parent of every line: the last macro it is in; else the last banner it is in;
else, for a closing brace, the line that opened the block; else the indentation rule. -/
def Parent (o : Opts) (L : Nat → Str) (i p : Nat) : Prop :=
  Last (macros o.syn L i) p ∨
  ((∀ q, ¬ macros o.syn L i q) ∧ Last (banners o.syn L i) p) ∨
  ((∀ q, ¬ macros o.syn L i q) ∧ (∀ q, ¬ banners o.syn L i q) ∧ closes (L i) ∧ Matches L p i) ∨
  ((∀ q, ¬ macros o.syn L i q) ∧ (∀ q, ¬ banners o.syn L i q) ∧ ¬ closes (L i) ∧
    ParentRule o.delims L i p)

/-- The lines the parser is given: `ignore_blank_lines` (without `factory`) takes
the empty strings out first. -/
def input (o : Opts) (lines : List Str) : List Str :=
  if o.ignoreBlank = true ∧ o.factory = false then lines.filter (fun l => decide (l ≠ [])) else lines

/-- No line terminator inside. -/
def oneLine (t : Str) : Prop := '\n' ∉ t ∧ '\r' ∉ t

/-- Strictly increasing. -/
def Increasing (l : List Nat) : Prop := l.Pairwise (· < ·)

end Spec

end Conf

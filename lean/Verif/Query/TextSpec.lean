import Verif.Py

/-! # What a simple search pattern means

Patterns are made of pieces: a character or a kind of characters, once, `+`, `*` or `?`;
`^` may be in front and `$` behind.  This file says how a pattern is written and which texts it
matches. -/

namespace Query.Spec

open Py

/-- A character or a kind of characters. -/
inductive Atom where
  /-- `c` -/
  | ch (c : Char)
  /-- `\c` -/
  | esc (c : Char)
  /-- `.` -/
  | dot
  /-- `\s`, `\S`, `\d`, `\D` -/
  | space | nonspace | digit | nondigit
  deriving DecidableEq

/-- The characters with a meaning in a regular expression. -/
def special : List Char := ['\\', '^', '$', '.', '|', '?', '*', '+', '(', ')', '[', '{']

/-- An atom that may be written. -/
def Atom.Ok : Atom → Prop
  | .ch c => c ∉ special
  | .esc c => isLetter c = false ∧ isDigit c = false
  | _ => True

/-- How it is written. -/
def Atom.text : Atom → Str
  | .ch c => [c]
  | .esc c => ['\\', c]
  | .dot => ['.']
  | .space => ['\\', 's']
  | .nonspace => ['\\', 'S']
  | .digit => ['\\', 'd']
  | .nondigit => ['\\', 'D']

/-- The characters that it stands for. -/
def Atom.Has : Atom → Char → Prop
  | .ch c, x => x = c
  | .esc c, x => x = c
  | .dot, x => x ≠ '\n'
  | .space, x => isSpace x = true
  | .nonspace, x => isSpace x = false
  | .digit, x => isDigit x = true
  | .nondigit, x => isDigit x = false

/-- How often. -/
inductive Quant where
  | one | many | any | maybe
  deriving DecidableEq

def Quant.text : Quant → Str
  | .one => []
  | .many => ['+']
  | .any => ['*']
  | .maybe => ['?']

def Quant.Len : Quant → Nat → Prop
  | .one, n => n = 1
  | .many, n => 1 ≤ n
  | .any, _ => True
  | .maybe, n => n ≤ 1

structure Piece where
  atom : Atom
  quant : Quant
  deriving DecidableEq

def Piece.text (p : Piece) : Str := p.atom.text ++ p.quant.text

/-- The piece stands for the text `w`. -/
def Piece.Reads (p : Piece) (w : Str) : Prop := p.quant.Len w.length ∧ ∀ c ∈ w, p.atom.Has c

/-- The pieces stand for the text, one after the other. -/
inductive Reads : List Piece → Str → Prop where
  | nil : Reads [] []
  | cons {p : Piece} {ps : List Piece} {a b : Str} : p.Reads a → Reads ps b → Reads (p :: ps) (a ++ b)

/-- A pattern. -/
structure Pattern where
  bol : Bool
  ps : List Piece
  eol : Bool

def Pattern.Ok (p : Pattern) : Prop := ∀ q ∈ p.ps, q.atom.Ok

/-- How a pattern is written. -/
def Pattern.text (p : Pattern) : Str :=
  (if p.bol then ['^'] else []) ++ p.ps.flatMap Piece.text ++ (if p.eol then ['$'] else [])

/-- The pattern stands for a part of `t`; with `^` at its beginning, with `$` at its end. -/
def Pattern.In (p : Pattern) (t : Str) : Prop :=
  ∃ a b c, t = a ++ b ++ c ∧ Reads p.ps b ∧ (p.bol = true → a = []) ∧ (p.eol = true → c = [])

/-- A piece that is a literal whitespace character. -/
def Piece.Blank (p : Piece) : Prop := ∃ c, isSpace c = true ∧ p = ⟨.ch c, .one⟩

/-- The pieces stand for the text if each run of blanks may be any run of whitespace. -/
inductive ReadsWs : List Piece → Str → Prop where
  | nil : ReadsWs [] []
  | piece {p : Piece} {ps : List Piece} {a b : Str} :
      ¬ p.Blank → p.Reads a → ReadsWs ps b → ReadsWs (p :: ps) (a ++ b)
  | gap {g ps : List Piece} {a b : Str} :
      g ≠ [] → (∀ p ∈ g, p.Blank) → (∀ p, ps.head? = some p → ¬ p.Blank) →
      a ≠ [] → (∀ c ∈ a, isSpace c = true) → ReadsWs ps b → ReadsWs (g ++ ps) (a ++ b)

/-- No whitespace character is repeated or escaped in the pattern. -/
def Pattern.PlainBlanks (p : Pattern) : Prop :=
  ∀ q ∈ p.ps, (∀ c, q.atom = .ch c → isSpace c = true → q.quant = .one) ∧
    (∀ c, q.atom = .esc c → isSpace c = false)

/-- As `Pattern.In`, up to whitespace. -/
def Pattern.InWs (p : Pattern) (t : Str) : Prop :=
  ∃ a b c, t = a ++ b ++ c ∧ ReadsWs p.ps b ∧ (p.bol = true → a = []) ∧ (p.eol = true → c = [])

/-- No character has a meaning in a regular expression. -/
def Literal (s : Str) : Prop := ∀ c ∈ s, c ∉ special

instance (s : Str) : Decidable (Literal s) := inferInstanceAs (Decidable (∀ c ∈ s, c ∉ special))

end Query.Spec

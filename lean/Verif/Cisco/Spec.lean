import Verif.Query.Model

/-! # Specification of interface attributes, in terms of the words of the lines

`Py.splitWs t` is Python's `t.split()`. -/

namespace Cisco.Spec

open Py Conf Query

/-- The texts of a line and of all its descendants (`all_children`), in order. -/
def family (P : Parsed) (i : Nat) : List Str := (P.h i).text :: (allChildren P i).map (fun j => (P.h j).text)

/-- The texts of the direct children. -/
def kids (P : Parsed) (i : Nat) : List Str := (P.h i).children.map (fun j => (P.h j).text)

/-- `o` is what the first text that says something says; none if no text says anything. -/
def First {α : Type} (Says : Str → α → Prop) : List Str → Option α → Prop
  | [], o => o = none
  | t :: ts, o => (∃ a, Says t a ∧ o = some a) ∨ ((∀ a, ¬ Says t a) ∧ First Says ts o)

/-- A number, in digits. -/
def Digits (v : Str) : Prop := v ≠ [] ∧ ∀ c ∈ v, isDigit c = true

/-- The words as texts. -/
def wd (l : List String) : List Str := l.map String.toList

/-- The line consists of the words `pre`, a number `n`, and the words `post`. -/
def Number (pre post : List String) (t : Str) (n : Int) : Prop :=
  ∃ v, Digits v ∧ splitWs t = wd pre ++ v :: wd post ∧ n = natVal v

/-- The line consists of the words `pre`, one word `v`, and the words `post`. -/
def Word (pre post : List String) (t v : Str) : Prop := splitWs t = wd pre ++ v :: wd post

/-- The line starts with the words `pre`, and the next word is `v`. -/
def Next (pre : List String) (t v : Str) : Prop := ∃ more, splitWs t = wd pre ++ v :: more

/-- The line consists of these words. -/
def Exactly (l : List String) (t : Str) : Prop := splitWs t = wd l

/-- The line starts with a blank. -/
def Indented (t : Str) : Prop := ∃ x, t.head? = some x ∧ isSpace x = true

/-- Behind the indentation, no two blanks are next to each other. -/
def Tidy (t : Str) : Prop :=
  ∀ pre x y post, lstrip t = pre ++ x :: y :: post → ¬ (isSpace x = true ∧ isSpace y = true)

/-- The words `pre` and then the text `r` up to the end of the line, however long. -/
def Rest (pre : String) (t r : Str) : Prop :=
  ∃ ind gap : Str, t = ind ++ pre.toList ++ gap ++ r ∧ (∀ c ∈ ind, isSpace c = true) ∧
    gap ≠ [] ∧ (∀ c ∈ gap, isSpace c = true) ∧ (∃ c, r.head? = some c ∧ isSpace c = false)

/-- Four numbers with dots between them. -/
def DottedQuad (v : Str) : Prop :=
  ∃ a b c d : Str, v = a ++ '.' :: b ++ '.' :: c ++ '.' :: d ∧ ∀ s ∈ [a, b, c, d], Digits s

end Cisco.Spec

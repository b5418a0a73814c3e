import Verif.Edit.Model
import Verif.Query.Spec

/-! # Specification of the edits -/

namespace Edit.Spec

open Py Conf Query

/-- Every listed object's line number is its position. -/
def Numbered (P : Parsed) : Prop := ∀ (k i : Nat), P.list[k]? = some i → (P.h i).linenum = k

/-- The object and everything below it. -/
def Fam (P : Parsed) (i x : Nat) : Prop := x = i ∨ Query.Spec.Desc P i x

/-- The configurations a program can come to: a parse, followed by successful edits. -/
inductive Reach (o : Opts) (C : Compile) : Parsed → Prop
  | parse {lines P} : parse o lines = .ok P → Reach o C P
  | edit {P P'} (op : Op) : Reach o C P → op.run o C P = .ok P' → Reach o C P'

/-- No text in the set of objects starts with a digit (see `C43`). -/
def NoDigits (P : Parsed) (S : Nat → Prop) : Prop :=
  ∀ x, S x → ∀ c, (P.h x).text.head? = some c → isDigit c = false

/-- The objects are as before, up to the line numbers. -/
def SameObjs (P P' : Parsed) : Prop := ∀ x, { P'.h x with linenum := (P.h x).linenum } = P.h x

/-- `P'` lists the objects of `P` outside the set, in the same order, unchanged and
renumbered. -/
def Removed (P P' : Parsed) (S : Nat → Prop) : Prop :=
  P'.list.Sublist P.list ∧ (∀ x, x ∈ P'.list ↔ x ∈ P.list ∧ ¬ S x) ∧ SameObjs P P' ∧ Numbered P'

/-- The expression matches the text. -/
def hits (rx : Rx) (t : Str) : Bool := (rx.find t).isSome

/-- The indent attribute of every listed line is its number of leading blanks (true after
parsing; `re_sub` can break it). -/
def Indents (P : Parsed) : Prop :=
  ∀ i ∈ P.list, (P.h i).indent = ((P.h i).text.takeWhile isSpace).length

/-- At most one line matches. -/
def AtMostOne (P : Parsed) (rx : Rx) : Prop := (P.texts.filter (hits rx)).length ≤ 1

/-- No line is blank, or blank lines are kept anyway. -/
def NoBlank (o : Opts) (texts : List Str) : Prop :=
  o.ignoreBlank = false ∨ ∀ t ∈ texts, ¬ Conf.Spec.blank t

/-- Edits that insert a new line at one place at most (or re-parse afterwards) and insert
no blank line. -/
def Careful (o : Opts) (C : Compile) (P : Parsed) : Op → Prop
  | .listInsertBefore rx _ => AtMostOne P rx
  | .listInsertAfter rx _ => AtMostOne P rx
  | .insertBefore found rx _ _ a => a = true ∨ (AtMostOne P found ∧ AtMostOne P rx)
  | .insertAfter found rx _ _ a => a = true ∨ (AtMostOne P found ∧ AtMostOne P rx)
  | .objInsertBefore i _ => ∀ rx, C (P.h i).text = some rx → AtMostOne P rx
  | .objInsertAfter i _ => ∀ rx, C (P.h i).text = some rx → AtMostOne P rx
  | .appendToFamily i _ _ _ _ =>
    ∀ j, Fam P i j → ∀ rx, C (P.h j).text = some rx → AtMostOne P rx
  | .insertAt _ new => NoBlank o [new]
  | .prependLine new => NoBlank o [new]
  | .insertAfterChild .. => False
  | _ => True

/-- A history of careful edits. -/
inductive History (o : Opts) (C : Compile) : Parsed → Prop
  | parse {lines P} : parse o lines = .ok P → NoBlank o (Conf.Spec.input o lines) → History o C P
  | edit {P P'} (op : Op) : History o C P → Careful o C P op → op.run o C P = .ok P' →
      History o C P'

/-- The last line of a family: the last descendant, or the line itself. -/
def LastOf (P : Parsed) (i j : Nat) : Prop :=
  ((∀ x, ¬ Query.Spec.Desc P i x) ∧ j = i) ∨
  (Query.Spec.Desc P i j ∧ ∀ x, Query.Spec.Desc P i x → (P.h x).linenum ≤ (P.h j).linenum)

/-- `P'` is `P` with one new line `t` directly after the listed line `j`. -/
def PutAfter (P P' : Parsed) (j : Nat) (t : Str) : Prop :=
  ∃ A B new, P.list = A ++ j :: B ∧ P'.list = A ++ j :: new :: B ∧ new ∉ P.list ∧
    (P'.h new).text = t ∧ (∀ x ∈ P.list, { P'.h x with linenum := (P.h x).linenum } = P.h x) ∧
    Numbered P'

/-- `P'` is `P` with one new line `t` directly before the listed line `j`. -/
def PutBefore (P P' : Parsed) (j : Nat) (t : Str) : Prop :=
  ∃ A B new, P.list = A ++ j :: B ∧ P'.list = A ++ new :: j :: B ∧ new ∉ P.list ∧
    (P'.h new).text = t ∧ (∀ x ∈ P.list, { P'.h x with linenum := (P.h x).linenum } = P.h x) ∧
    Numbered P'

/-- The expression matches line `j` and no other. -/
def Only (P : Parsed) (rx : Rx) (j : Nat) : Prop := ∀ x ∈ P.list, hits rx (P.h x).text = true ↔ x = j

/-- The text is excluded. -/
def excluded (excl : Option Rx) (t : Str) : Prop := ∃ e, excl = some e ∧ hits e t = true

/-- `P'` is `P` with the texts of the objects in the set replaced (and their `is_comment`
updated); nothing else differs. -/
def Replaced (o : Opts) (P P' : Parsed) (S : Nat → Prop) (sub : Str → Str) : Prop :=
  P'.list = P.list ∧ (∀ x, ¬ S x → P'.h x = P.h x) ∧
  ∀ x, S x → ∃ c, P'.h x = { P.h x with text := sub (P.h x).text, isComment := c } ∧
    (c = true ↔ Conf.Spec.comment o.delims (sub (P.h x).text))

end Edit.Spec

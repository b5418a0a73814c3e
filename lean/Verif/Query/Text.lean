import Verif.Query.Model
import Verif.Re.Match

/-! # The queries with regular expressions given as texts

`Query/Model.lean` takes a regular expression as an arbitrary function.  Here it is a text
that is compiled with the model of `re` (`Re/Syntax.lean`, `Re/Match.lean`); an error is
`re.error`.  The rewriting of the text by `exactmatch`, `ignore_ws` and `escape_chars` is
modelled, too. -/

namespace Query

open Py Conf

/-- ciscoconfparse.py:484-502 `build_space_tolerant_regex` of a string:
`re.sub(r"\s+", r"\\s+", linespec)`; `fresh` if the last character was not whitespace.
(`translate("utf-8")` changes nothing.) -/
def tolerantAux : Bool → Str → Str
  | _, [] => []
  | fresh, c :: s =>
    if isSpace c then
      if fresh then '\\' :: 's' :: '+' :: tolerantAux false s else tolerantAux false s
    else c :: tolerantAux true s

/-- ciscoconfparse.py:484-502 `build_space_tolerant_regex`. -/
def spaceTolerant (s : Str) : Str := tolerantAux true s

/-- The characters that `re.escape` escapes (CPython Lib/re.py, from version 3.7 on). -/
def reSpecial : List Char :=
  ['(', ')', '[', ']', '{', '}', '?', '*', '+', '-', '|', '^', '$', '\\', '.', '&', '~', '#', ' ',
   '\t', '\n', '\r', '\x0b', '\x0c']

/-- `re.escape(s)`. -/
def reEscape (s : Str) : Str := s.flatMap (fun c => if c ∈ reSpecial then ['\\', c] else [c])

/-- `re.search` with a compiled expression: the text it matches. -/
def findIn (p : Re.Pat) (t : Str) : Option Str := (Re.search p t).map Re.Found.text

/-- `re.compile(spec)`. -/
def textRx (spec : Str) : Except Re.Bad Rx := do
  let p ← Re.compileL spec
  .ok ⟨spec, findIn p⟩

/-- ciscoconfparse.py:3935-3940 (also 1493-1500, 1544-1547, ..): `exactmatch`. -/
def exactSpec (exact : Bool) (spec : Str) : Str := if exact then '^' :: spec ++ ['$'] else spec

/-- ciscoconfparse.py:1467-1468 (also 1490-1491, 1922-1924, ..): `ignore_ws`. -/
def wsSpec (ws : Bool) (spec : Str) : Str := if ws then spaceTolerant spec else spec

/-- ciscoconfparse.py:1420-1469 `find_objects` with 3921-3944 `_find_line_OBJ`. -/
def findObjectsT (P : Parsed) (spec : Str) (exact ws : Bool) : Except Re.Bad (List Nat) := do
  let rx ← textRx (exactSpec exact (wsSpec ws spec))
  .ok (findObjects P rx)

/-- ciscoconfparse.py:1473-1500 `find_lines`. -/
def findLinesT (P : Parsed) (spec : Str) (exact ws : Bool) : Except Re.Bad (List Str) := do
  let rx ← textRx (exactSpec exact (wsSpec ws spec))
  .ok (findLines P rx)

/-- ciscoconfparse.py:1922-1931 (also 2321-2330, 2699-2708): the text of a specification. -/
def pairSpec (ws esc : Bool) (spec : Str) : Str :=
  if esc then reEscape (wsSpec ws spec) else wsSpec ws spec

/-- ciscoconfparse.py:1883-1938 `find_parent_objects` for strings (also 1760-1785
`find_objects_w_child`).  Simplification: a bad `childspec` is refused even if no line makes
Python look at it. -/
def findParentObjectsT (P : Parsed) (p c : Str) (ws rec esc : Bool) : Except Re.Bad (List Nat) := do
  let rp ← textRx (pairSpec ws esc p)
  let rc ← textRx (pairSpec ws esc c)
  .ok (findParentObjects P rp rc rec)

/-- ciscoconfparse.py:2309-2336 `find_parent_objects_wo_child` for strings (also 2207-2224
`find_objects_wo_child`); simplified as `findParentObjectsT`. -/
def findParentObjectsWoChildT (P : Parsed) (p c : Str) (ws rec esc : Bool) : Except Re.Bad (List Nat) := do
  let rp ← textRx (pairSpec ws esc p)
  let rc ← textRx (pairSpec ws esc c)
  .ok (findParentObjectsWoChild P rp rc rec)

/-- ciscoconfparse.py:2718,2727: `re_match(rf"({childspec})")`, the text of its first group. -/
def groupRx (spec : Str) : Except Re.Bad Rx := do
  let p ← Re.compileL ('(' :: spec ++ [')'])
  .ok ⟨spec, fun t => (Re.search p t).bind (fun m => m.caps.lookup 1)⟩

/-- ciscoconfparse.py:2656-2730 `find_child_objects` for strings (also 2538-2558
`find_objects_w_parents`); simplified as `findParentObjectsT`. -/
def findChildObjectsT (P : Parsed) (p c : Str) (ws rec esc : Bool) : Except Re.Bad (List Nat) := do
  let rp ← textRx (pairSpec ws esc p)
  let rc ← groupRx (pairSpec ws esc c)
  .ok (findChildObjects P rp rc rec)

end Query

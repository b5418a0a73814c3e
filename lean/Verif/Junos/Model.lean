import Verif.Conf.Model

/-! # Model of the Junos brace conversion

Simplification: a line contains no line feed (it comes from a split into lines), so `.`
in the regular expressions matches every character. -/

namespace Junos

open Py Conf

/-- ciscoconfparse.py:312-319: `^\s*[#]+[^#]*$` on a stripped line (`#` is the delimiter
that `handle_ccp_brace_syntax` passes, 811). -/
def isNote (t : Str) : Bool :=
  decide (t.head? = some '#') && !(t.dropWhile (· == '#')).contains '#'

/-- ciscoconfparse.py:361: one match of `\s*\{\s*\}\s*` at the start: the rest behind it. -/
def emptyBraces (t : Str) : Option Str :=
  match lstrip t with
  | [] => none
  | c :: r =>
    if c = '{' then
      match lstrip r with
      | [] => none
      | d :: r' => if d = '}' then some (lstrip r') else none
    else none

/-- ciscoconfparse.py:361: `re.sub(r"\s*\{\s*\}\s*", "", ..)`; the first argument bounds
the recursion. -/
def dropEmptyAux : Nat → Str → Str
  | 0, t => t
  | f + 1, t =>
    match emptyBraces t with
    | some r => dropEmptyAux f r
    | none => t.take 1 ++ dropEmptyAux f (t.drop 1)

/-- ciscoconfparse.py:361. -/
def dropEmpty (t : Str) : Str := dropEmptyAux (t.length + 1) t

/-- ciscoconfparse.py:304-310: the first alternative of the regular expression, which
matches every line: after the closing braces the shortest text that is followed by
opening braces and semicolons only.  Result: closing braces on the left, the text,
opening braces on the right. -/
def splitLine (t : Str) : Bool × Str × Bool :=
  let r := ((t.dropWhile (· == '}')).reverse).dropWhile (· == ';')
  (decide (t.head? = some '}'), (r.dropWhile (· == '{')).reverse, decide (r.head? = some '{'))

/-- ciscoconfparse.py:288-414 `parse_line_braces`: the indent of this line, the change for
the next lines, the text. -/
def lineBraces (l : Str) : Int × Int × Str :=
  let t := strip l
  if isNote t then (0, 0, t)
  else
    let (close, line1, opn) := splitLine t
    if close && opn then (-1, 0, line1)
    else if line1 ≠ [] ∧ close = false ∧ opn = false then (0, 0, dropEmpty (strip line1))
    else if close = false ∧ opn = false then (0, 0, [])
    else if close then (-1, -1, [])
    else (0, 1, line1)

/-- ciscoconfparse.py:586-596: the loop of `convert_junos_to_ios` (`stop_width` 4; a
negative width gives no blanks). -/
def convertGo : Int → List Str → List Str
  | _, [] => []
  | offset, l :: ls =>
    let (this, child, t) := lineBraces l
    (spaces (4 * (offset + this)).toNat ++ strip t) :: convertGo (offset + child) ls

/-- ciscoconfparse.py:554-598 `convert_junos_to_ios`. -/
def convert (lines : List Str) : Except Err (List Str) :=
  if lines = [] then .error .valueError else .ok (convertGo 0 lines)

/-- ciscoconfparse.py:615-790 `CiscoConfParse(config=lines, syntax="junos")`, with
794-819 `handle_ccp_brace_syntax`. -/
def parseJunos (o : Opts) (lines : List Str) : Except Err Parsed := do
  bootstrap o (← convert (preFilter o lines))

end Junos

import Verif.Re.Match
import Verif.Query.Model

/-! # Model of the typed searches of `BaseCfgLine`

A line object is `P, i`: object `i` of the configuration `P`.  The regular expressions are
the strings of the code, run by the engine in `Verif.Re`. -/

namespace Cisco

open Py Conf Query Re

/-- `re.search(regex, t)` for a `regex` given as a string: `re.error` if it is invalid.
(An expression outside the syntax that `Verif.Re` supports would also end here; there is
none among those used below.) -/
def reSearch (rx : String) (t : Str) : Except Err (Option (Pat × Found)) :=
  match compile rx with
  | .error _ => .error .reError
  | .ok p => .ok ((search p t).map (fun m => (p, m)))

/-- The first text that the expression matches. -/
def firstMatch (p : Pat) : List Str → Option Found
  | [] => none
  | t :: ts =>
    match search p t with
    | some m => some m
    | none => firstMatch p ts

/-- `str(m.group(g))`. -/
def toStr : Option Str → Except Err Str
  | some s => .ok s
  | none => .ok "None".toList

/-- `int(m.group(g))`. -/
def toInt : Option Str → Except Err Int
  | some s => pyInt s
  | none => .error .typeError

/-- `bool(m.group(g))`. -/
def toBool : Option Str → Except Err Bool
  | some s => .ok (!s.isEmpty)
  | none => .ok false

/-- ccp_abc.py:1346-1349,1364-1368: the texts in the order in which they are tried. -/
def texts (P : Parsed) (i : Nat) : List Str := (P.h i).text :: (allChildren P i).map (fun j => (P.h j).text)

/-- ccp_abc.py:1351-1357: the same without recursion. -/
def kidTexts (P : Parsed) (i : Nat) : List Str := (P.h i).text :: (P.h i).children.map (fun j => (P.h j).text)

/-- ccp_abc.py:1262-1374 `re_match_iter_typed(rx, group=g, result_type=conv, default=dflt,
recurse=recurse)` with `groupdict=None`.  `dflt` is given as `result_type(default)`, or as
`default` when `untyped_default` is True. -/
def iterTyped {α : Type} (P : Parsed) (i : Nat) (rx : String) (g : Nat) (conv : Option Str → Except Err α)
    (dflt : α) (recurse : Bool := true) : Except Err α :=
  match compile rx with
  | .error _ => .error .reError
  | .ok p =>
    match firstMatch p (if recurse then texts P i else kidTexts P i) with
    | some m => do conv (← m.group p g)
    | none => .ok dflt

/-- ccp_abc.py:1194-1258 `re_match_typed`; `dflt` as in `iterTyped`. -/
def matchTyped {α : Type} (t : Str) (rx : String) (g : Nat) (conv : Option Str → Except Err α) (dflt : α) :
    Except Err α := do
  match ← reSearch rx t with
  | none => .ok dflt
  | some (p, m) =>
    match ← m.group p g with
    | some s => conv (some s)
    | none => .ok dflt

/-- ccp_abc.py:1097-1140 `re_match`: the default is a string here. -/
def matchGroup (t : Str) (rx : String) (g : Nat) (dflt : Str) : Except Err (Option Str) := do
  match ← reSearch rx t with
  | none => .ok (some dflt)
  | some (p, m) => m.group p g

/-- The values of a typed dictionary. -/
inductive Val where
  | str (s : Str) | int (n : Int) | bool (b : Bool) | none
  deriving DecidableEq, Repr

/-- The types in use. -/
inductive Ty where
  | str | int | bool
  deriving DecidableEq, Repr

/-- `_type(value)` for the value of a group. -/
def Ty.conv : Ty → Option Str → Except Err Val
  | .str, o => (toStr o).map .str
  | .int, o => (toInt o).map .int
  | .bool, o => (toBool o).map .bool

/-- ccp_abc.py:1019-1022: the entry of one key, for a match. -/
def typedEntry (d : List (Str × Option Str)) (key : Str) (ty : Ty) (dflt : Val) : Except Err Val :=
  match d.lookup key with
  | none => .ok dflt
  | some o => if (match o with | some s => Val.str s | none => Val.none) ≠ dflt then ty.conv o else .ok dflt

/-- ccp_abc.py:987-1032 `get_typed_dict`: for a match (or None). -/
def getTypedDict (p : Pat) (m : Option Found) (types : List (Str × Ty)) (dflt : Val) :
    Except Err (List (Str × Val)) :=
  match m with
  | some m => types.mapM (fun q => do .ok (q.1, ← typedEntry (m.groupdict p) q.1 q.2 dflt))
  | none => .ok (types.map (fun q => (q.1, dflt)))

/-- ccp_abc.py:1375-1419 `re_match_iter_typed(rx, groupdict=types, default=dflt)`, with
recursion. -/
def iterDict (P : Parsed) (i : Nat) (rx : String) (types : List (Str × Ty)) (dflt : Val) :
    Except Err (List (Str × Val)) :=
  match compile rx with
  | .error _ => .error .reError
  | .ok p => getTypedDict p (firstMatch p (texts P i)) types dflt

/-- `retval[key]`. -/
def getKey (d : Except Err (List (Str × Val))) (key : Str) : Except Err Val := do
  match (← d).lookup key with
  | some v => .ok v
  | none => .error .keyError

end Cisco

import Verif.Py

/-!
# Model of integer `CiscoRange` objects (ciscoconfparse/ccp_util.py:4729-5552)

`result_type=int`.  A range is its member list `_list` and the `reverse` flag.
Python's `list(set(..))` has an unspecified order; the model keeps first
occurrences, and every theorem below is about membership or about sorted output.
-/

namespace Range

open Py

/-- `range(a, b)`. -/
def pyRange (a b : Int) : List Int := (List.range (b - a).toNat).map (fun i => a + (i : Nat))

/-- ccp_util.py:4819-4855: the integers of one comma separated part. -/
def parsePart (part : Str) : Except Err (List Int) :=
  if '-' ∈ part then
    match splitOn '-' part with
    | [a, b] => do
      let beginOrdinal ← pyInt (strip a)
      let _ ← pyInt (strip b)
      let endOrdinal ← pyInt ((strip b).filter isDigit)
      .ok (pyRange beginOrdinal (endOrdinal + 1))
    | _ => .error .invalidRange
  else do
    let beginOrdinal ← pyInt part
    .ok [beginOrdinal]

/-- ccp_util.py:4814-4858 `parse_integers`. -/
def parseIntegers (text : Str) : Except Err (List Int) := do
  let parts ← (splitOn ',' text).mapM parsePart
  .ok (dedupBy (· == ·) parts.flatten)

/-- A `CiscoRange` of integers. -/
structure R where
  lst : List Int
  reverse : Bool := false
  deriving DecidableEq, Repr

/-- ccp_util.py:4765-4810 `CiscoRange(text, result_type=int)`. -/
def ofText (text : Str) : Except Err R :=
  if text = [] then .ok ⟨[], false⟩
  else if isInfix [',', ','] text then .error .invalidRange
  else do
    let l ← parseIntegers text
    .ok ⟨l, false⟩

/-- What `as_list()` returns: a list, or `set()` for an empty range. -/
inductive ListResult where
  | list (l : List Int)
  | emptySet
  deriving DecidableEq, Repr

/-- `sorted(l, reverse=..)` on integers. -/
def sortInts (rev : Bool) (l : List Int) : List Int :=
  sortBy (fun a b => if rev then decide (b ≤ a) else decide (a ≤ b)) l

/-- ccp_util.py:5392-5434 `as_list()` for members of any type: first the member
list is rebuilt, with every member that has a `sort_list` attribute appended a
second time; then `sorted(set(..))` is returned.  `hasSortList` is False for
integers. -/
def rebuild {α : Type} (hasSortList : α → Bool) (l : List α) : List α :=
  l ++ l.filter hasSortList

/-- `as_list()` on an integer range: new state and result. -/
def R.asList (r : R) : R × ListResult :=
  let l := rebuild (fun _ => false) r.lst
  let r' : R := { r with lst := l }
  if l.length > 0 then (r', .list (sortInts r.reverse (dedupBy (· == ·) l)))
  else (r', .emptySet)

/-- Argument of `append` / `remove`: an `int` or a `str` (other types are not
modelled). -/
inductive Val where
  | int (i : Int)
  | str (s : Str)
  deriving DecidableEq, Repr

/-- `int(val)`. -/
def Val.toInt : Val → Except Err Int
  | .int i => .ok i
  | .str s => pyInt s

/-- `val in self._list` for an integer list. -/
def Val.isIn (v : Val) (l : List Int) : Bool :=
  match v with
  | .int i => l.contains i
  | .str _ => false

def Val.isInt : Val → Bool
  | .int _ => true
  | .str _ => false

/-- ccp_util.py:5278-5315 `append` (the final sort is `attribute_sort`,
5248-5250). -/
def R.append (r : R) (v : Val) (ignoreErrors : Bool := false) : Except Err R :=
  if r.lst.length > 0 && !v.isInt && !ignoreErrors then .error .mismatchedType
  else if v.isIn r.lst && !ignoreErrors then .error .duplicateMember
  else
    match v.toInt with
    | .error _ => .ok r
    | .ok i => .ok { r with lst := sortInts false (r.lst ++ [i]) }

/-- ccp_util.py:5325-5388 `remove`.  In the loop over `[None, int, str, float, 0]`
only `int` matches the members; when nothing was removed the loop ends with
`result_type == 0`, which is reported as a type mismatch.  On an empty range
without `ignore_errors`, `new_list` was never assigned. -/
def R.remove (r : R) (v : Val) (ignoreErrors : Bool := false) : Except Err R :=
  if !v.isIn r.lst && ignoreErrors then .ok r
  else if r.lst.length > 0 then
    match v.toInt with
    | .error e => .error e
    | .ok i =>
      let newList := r.lst.filter (fun x => x != i)
      if newList.length < r.lst.length then .ok { r with lst := newList }
      else .error .mismatchedType
  else .error .unbound

/-- ccp_util.py:5206-5210 `a + b` (a is updated and returned). -/
def R.add (a b : R) : R :=
  { a with lst := sortInts false (dedupBy (· == ·) (a.lst ++ b.lst)) }

/-- ccp_util.py:5216-5224 `a - b` for two different objects: `list.remove` each
member of b, if present. -/
def R.sub (a b : R) : R := { a with lst := b.lst.foldl (fun l x => l.erase x) a.lst }

/-- The same loop when b is a itself: it iterates by index over the list it is
shrinking. -/
def subSelfLoop : Nat → Nat → List Int → List Int
  | 0, _, l => l
  | f + 1, i, l =>
    match l[i]? with
    | none => l
    | some x => subSelfLoop f (i + 1) (l.erase x)

/-- `a - a`. -/
def R.subSelf (a : R) : R := { a with lst := subSelfLoop (a.lst.length + 1) 0 a.lst }

/-- An element of `range_list` in `as_compressed_str`. -/
inductive Tok where
  | num (i : Int)
  | dash
  deriving DecidableEq, Repr

/-- ccp_util.py:5532-5540: one iteration of the loop over the sorted members. -/
def compStep (xs : List Int) (acc : List Tok) (ii : Nat) : List Tok :=
  if ii + 1 < xs.length ∧ 0 < ii then
    let x := xs.getD ii 0
    let before := xs.getD (ii - 1) 0
    let after := xs.getD (ii + 1) 0
    if x - before = 1 ∧ after - x = 1 then
      (if acc.getLast? = some .dash then acc else acc ++ [.dash])
    else acc ++ [.num x]
  else acc

/-- ccp_util.py:5531-5542 `range_list`. -/
def rangeList (xs : List Int) : List Tok :=
  let acc := (List.range xs.length).foldl (compStep xs) [.num (xs.getD 0 0)]
  if xs.length > 1 then acc ++ [.num (xs.getD (xs.length - 1) 0)] else acc

/-- `str(token)`. -/
def Tok.str : Tok → Str
  | .num i => intStr i
  | .dash => ['-']

/-- Same Python type. -/
def Tok.sameType : Tok → Tok → Bool
  | .num _, .num _ => true
  | .dash, .dash => true
  | _, _ => false

/-- ccp_util.py:5545-5550: join, with a comma between tokens of the same type. -/
def renderFrom (prev : Tok) : List Tok → Str
  | [] => []
  | t :: ts => (if t.sameType prev then ',' :: t.str else t.str) ++ renderFrom t ts

def render : List Tok → Str
  | [] => []
  | t :: ts => t.str ++ renderFrom t ts

/-- ccp_util.py:5465-5552 `as_compressed_str()` for integer members.  (`as_list()`
is called on the way; it returns the sorted members.) -/
def R.compressed (r : R) : Str :=
  if r.lst.length = 0 then []
  else
    let input := match r.asList.2 with
      | .list l => l
      | .emptySet => []
    if input.length = 0 then []
    else render (rangeList (sortInts false (dedupBy (· == ·) input)))

end Range

import Verif.Range.Model

/-!
# Model of integer `CiscoRange` objects as sequences (ciscoconfparse/ccp_util.py:5131-5321, 5438-5460)

`CiscoRange` is a `collections.abc.MutableSequence`; the methods that it does not define itself
(`__contains__`, `index`, `count`, `__reversed__`, `pop`, `clear`, `extend`, `reverse`) are those
of the standard library (`Lib/_collections_abc.py`, Python 3.11) and modelled here as well.
-/

namespace Range

open Py

/-- Position of `l[i]` in a list of length `n`; none raises `IndexError`. -/
def place (n : Nat) (i : Int) : Option Nat :=
  if 0 ≤ i ∧ i < n then some i.toNat
  else if i < 0 ∧ -(n : Int) ≤ i then some (i + n).toNat
  else none

/-- ccp_util.py:5163-5165 `__len__`. -/
def R.len (r : R) : Nat := r.lst.length

/-- ccp_util.py:5169-5171 `__iter__`. -/
def R.iter (r : R) : List Int := r.lst

/-- A key of `r[..]`. -/
inductive Key where
  | int (i : Int)
  | slice
  deriving DecidableEq, Repr

/-- ccp_util.py:5175-5182 `__getitem__`; a slice is compared with an integer. -/
def R.getItem (r : R) : Key → Except Err Int
  | .slice => .error .typeError
  | .int i =>
    if i > (r.lst.length : Int) - 1 then .error .indexError
    else match (place r.lst.length i).bind (fun k => r.lst[k]?) with
      | some x => .ok x
      | none => .error .indexError

/-- ccp_util.py:5186-5193 `__delitem__`. -/
def R.delItem (r : R) : Key → Except Err R
  | .slice => .error .typeError
  | .int i =>
    if i > (r.lst.length : Int) - 1 then .error .indexError
    else match place r.lst.length i with
      | some k => .ok { r with lst := r.lst.eraseIdx k }
      | none => .error .indexError

/-- ccp_util.py:5197-5204 `__setitem__`: it reads the member and stores nothing. -/
def R.setItem (r : R) (k : Key) (_v : Int) : Except Err R := do
  let _ ← r.getItem k
  .ok r

/-- ccp_util.py:5140-5144 `__eq__`, with another range (`none`: something else). -/
def R.eq (a : R) : Option R → Bool
  | some b => a.lst == b.lst
  | none => false

/-- ccp_util.py:5148-5150 `__str__`. -/
def R.str (r : R) : Str := '[' :: (join [',', ' '] (r.lst.map intStr) ++ [']'])

/-- ccp_util.py:5131-5136 `__hash__`: the text that is hashed (all members have type `int`); a list
cannot be hashed. -/
def R.hashKey (r : R) : Except Err Str :=
  if r.lst.length = 0 then .error .typeError else .ok r.str

/-- ccp_util.py:5319-5321 `insert`. -/
def R.insert (_r : R) (_i : Int) (_v : Int) : Except Err R := .error .notImplemented

/-- The argument of `as_set`. -/
inductive Ty where
  | auto | int | other
  deriving DecidableEq, Repr

/-- ccp_util.py:5438-5460 `as_set`, for `result_type` "auto", `int` and what is no type at all: the
automatic type is looked up in `self.as_list[0]`, a method; an empty range gives an empty list. -/
def R.asSet (r : R) : Ty → Except Err (List Int)
  | .auto => if r.lst.length > 0 then .error .typeError else .ok []
  | .int => .ok (dedupBy (· == ·) r.lst)
  | .other => .error .valueError

/-- stdlib `Sequence.__contains__`. -/
def R.contains (r : R) (x : Int) : Bool := r.iter.any (fun v => v == x)

/-- stdlib `Sequence.index(value)`: `self[0]`, `self[1]`, .. until the value is found or
`IndexError` ends the loop.  The fuel is one more than the length. -/
def indexLoop (r : R) (x : Int) : Nat → Nat → Except Err Nat
  | 0, _ => .error .valueError
  | f + 1, i =>
    match r.getItem (.int i) with
    | .error .indexError => .error .valueError
    | .error e => .error e
    | .ok v => if v == x then .ok i else indexLoop r x f (i + 1)

def R.index (r : R) (x : Int) : Except Err Nat := indexLoop r x (r.lst.length + 1) 0

/-- stdlib `Sequence.count`. -/
def R.count (r : R) (x : Int) : Nat := (r.iter.filter (fun v => v == x)).length

/-- stdlib `Sequence.__reversed__`. -/
def R.reversed (r : R) : Except Err (List Int) := (List.range r.len).reverse.mapM (fun (i : Nat) => r.getItem (.int (i : Int)))

/-- stdlib `MutableSequence.pop(index)`. -/
def R.pop (r : R) (i : Int := -1) : Except Err (R × Int) := do
  let v ← r.getItem (.int i)
  let r' ← r.delItem (.int i)
  .ok (r', v)

/-- stdlib `MutableSequence.clear`: `pop()` until `IndexError`. -/
def clearLoop : Nat → R → Except Err R
  | 0, r => .ok r
  | f + 1, r =>
    match r.pop with
    | .error .indexError => .ok r
    | .error e => .error e
    | .ok p => clearLoop f p.1

def R.clear (r : R) : Except Err R := clearLoop (r.lst.length + 1) r

/-- stdlib `MutableSequence.extend` with a list of integers: the range after it and the exception
that stopped it. -/
def R.extend (r : R) : List Int → R × Option Err
  | [] => (r, none)
  | x :: xs =>
    match r.append (.int x) with
    | .ok r' => r'.extend xs
    | .error e => (r, some e)

/-- stdlib `MutableSequence.reverse`: exchanges members by assignment. -/
def reverseLoop (n : Nat) : Nat → Nat → R → Except Err R
  | 0, _, r => .ok r
  | f + 1, i, r => do
    let a ← r.getItem (.int ((n : Int) - i - 1))
    let b ← r.getItem (.int i)
    let r ← r.setItem (.int i) a
    let r ← r.setItem (.int ((n : Int) - i - 1)) b
    reverseLoop n f (i + 1) r

def R.reverseInPlace (r : R) : Except Err R := reverseLoop r.len (r.len / 2) 0 r

end Range

import Verif.Edit.Model
import Verif.Cisco.Access

/-! # Model of `ConfigList` as a Python sequence

`ConfigList` is a `MutableSequence` around a plain list.  Its elements are usually line
objects, but `append`, `extend`, `+=` and `objs[k] = ..` take anything: the other
elements modelled are strings.

Simplifications: the other operand of a comparison or a sum is a list or a `ConfigList`;
`index` has one argument; log messages are left out. -/

namespace Edit

open Py Conf Query

/-- An element: a line object, by its name in the heap, or a string. -/
inductive Elem where
  | obj (i : Nat)
  | str (t : Str)
deriving DecidableEq

/-- The state: all objects made so far, and the elements of `_list`. -/
structure CList where
  h : Heap
  n : Nat
  items : List Elem

/-- ciscoconfparse.py:967-977 `objs`: the list of a parsed configuration. -/
def listOf (P : Parsed) : CList := { h := P.h, n := P.n, items := P.list.map .obj }

/-- An element as far as comparisons see it. -/
inductive Val where
  | obj (b : Obj)
  | str (t : Str)

/-- The value of an element. -/
def CList.val (c : CList) : Elem → Val
  | .obj i => .obj (c.h i)
  | .str t => .str t

/-- The values of the elements. -/
def CList.vals (c : CList) : List Val := c.items.map c.val

/-- `x == y`: ccp_abc.py:147-157 for objects, which is `False` for an operand without
`linenum`. -/
def eqVal : Val → Val → Bool
  | .obj a, .obj b => objEq a b
  | .str s, .str t => s == t
  | _, _ => false

/-- The order of strings. -/
def strLt : Str → Str → Bool
  | _, [] => false
  | [], _ :: _ => true
  | a :: s, b :: t => a.toNat < b.toNat || (a == b && strLt s t)

/-- `x < y`: ccp_abc.py:168-172 for objects; with a string, `linenum` is missing. -/
def ltVal : Val → Val → Except Err Bool
  | .obj a, .obj b => .ok (decide (a.linenum < b.linenum))
  | .str s, .str t => .ok (strLt s t)
  | _, _ => .error .attributeError

/-- `x > y`: ccp_abc.py:161-164 for objects. -/
def gtVal : Val → Val → Except Err Bool
  | .obj a, .obj b => .ok (decide (b.linenum < a.linenum))
  | .str s, .str t => .ok (strLt t s)
  | _, _ => .error .attributeError

/-- `x >= y`: `BaseCfgLine` (ccp_abc.py:35-172) defines neither `__ge__` nor `__le__`. -/
def geVal : Val → Val → Except Err Bool
  | .str s, .str t => .ok (!strLt s t)
  | _, _ => .error .typeError

/-- How Python compares lists: the first elements that differ decide, or the lengths. -/
def cmpLists (f : Val → Val → Except Err Bool) (g : Nat → Nat → Bool) : List Val → List Val → Except Err Bool
  | [], l => .ok (g 0 l.length)
  | k, [] => .ok (g k.length 0)
  | x :: k, y :: l => if eqVal x y then cmpLists f g k l else f x y

/-- ciscoconfparse.py:5017-5018 `__eq__`, with `__cast` (ciscoconfparse.py:5032-5033). -/
def CList.eq (c d : CList) : Bool :=
  c.vals.length == d.vals.length && (c.vals.zip d.vals).all (fun p => eqVal p.1 p.2)

/-- ciscoconfparse.py:5007-5008 `__lt__`. -/
def CList.lt (c d : CList) : Except Err Bool := cmpLists ltVal (fun m n => decide (m < n)) c.vals d.vals

/-- ciscoconfparse.py:5012-5013 `__le__`, which is written with `<`. -/
def CList.le (c d : CList) : Except Err Bool := cmpLists ltVal (fun m n => decide (m < n)) c.vals d.vals

/-- ciscoconfparse.py:5022-5023 `__gt__`. -/
def CList.gt (c d : CList) : Except Err Bool := cmpLists gtVal (fun m n => decide (m > n)) c.vals d.vals

/-- ciscoconfparse.py:5027-5028 `__ge__`. -/
def CList.ge (c d : CList) : Except Err Bool := cmpLists geVal (fun m n => decide (m ≥ n)) c.vals d.vals

/-! ## Building lists -/

/-- The strings of a list, if there is nothing else in it. -/
def strings : List Elem → Option (List Str)
  | [] => some []
  | .str t :: l => (strings l).map (t :: ·)
  | .obj _ :: _ => none

/-- ciscoconfparse.py:4880-4990 `ConfigList(initlist)` with the default options: the
elements are parsed as texts, and anything else is refused (5761-5762). -/
def newList (l : List Elem) : Except Err CList :=
  match strings l with
  | some ts => do .ok (listOf (← bootstrap {} ts))
  | none => .error .valueError

/-- Bounds of a slice, as `slice.indices` computes them for a positive step. -/
def clampUp (n : Nat) (k : Int) : Nat := if k < 0 then (k + n).toNat else min k.toNat n

/-- Bounds of a slice for a negative step: between -1 and `n - 1`. -/
def clampDown (n : Nat) (k : Int) : Int := if k < 0 then max (k + n) (-1) else min k (n - 1)

/-- The positions from `a` to `b` (excluded) with step `s + 1`. -/
def upTo (b s : Nat) : Nat → Nat → List Nat
  | 0, _ => []
  | f + 1, a => if a < b then a :: upTo b s f (a + s + 1) else []

/-- The positions from `a` down to `b` (excluded) with step `-(s + 1)`. -/
def downTo (b : Int) (s : Nat) : Nat → Int → List Nat
  | 0, _ => []
  | f + 1, a => if b < a then a.toNat :: downTo b s f (a - s - 1) else []

/-- The positions that the slice `start:stop:step` selects in a list of length `n`. -/
def slicePos (n : Nat) (start stop step : Option Int) : Except Err (List Nat) :=
  match step.getD 1 with
  | .ofNat 0 => .error .valueError
  | .ofNat (s + 1) =>
    .ok (upTo ((stop.map (clampUp n)).getD n) s n ((start.map (clampUp n)).getD 0))
  | .negSucc s =>
    .ok (downTo ((stop.map (clampDown n)).getD (-1)) s n ((start.map (clampDown n)).getD (n - 1)))

/-- ciscoconfparse.py:5042-5046 `__getitem__` with a slice. -/
def CList.slice (c : CList) (start stop step : Option Int) : Except Err CList := do
  let ps ← slicePos c.items.length start stop step
  newList (ps.filterMap (fun k => c.items[k]?))

/-- ciscoconfparse.py:5042-5046 `__getitem__` with a number. -/
def CList.get (c : CList) (k : Int) : Except Err Elem :=
  match (pyIndex c.items.length k).bind (fun j => c.items[j]?) with
  | some e => .ok e
  | none => .error .indexError

/-- ciscoconfparse.py:5062-5067 `__add__`. -/
def CList.add (c : CList) (l : List Elem) : Except Err CList := newList (c.items ++ l)

/-- ciscoconfparse.py:5071-5076 `__radd__`. -/
def CList.radd (c : CList) (l : List Elem) : Except Err CList := newList (l ++ c.items)

/-- `l * k`. -/
def timesL {α : Type} (l : List α) (k : Int) : List α := (List.replicate k.toNat l).flatten

/-- ciscoconfparse.py:5091-5094 `__mul__`, `__rmul__`. -/
def CList.mul (c : CList) (k : Int) : Except Err CList := newList (timesL c.items k)

/-- ciscoconfparse.py:5178-5179 `copy()`. -/
def CList.copy (c : CList) : Except Err CList := newList c.items

/-- ciscoconfparse.py:5103-5108 `copy.copy(objs)`: a new list of the same objects. -/
def CList.copyModule (c : CList) : CList := { c with items := c.items.map id }

/-! ## Changing lists -/

/-- ciscoconfparse.py:5155-5159 `append(val)`. -/
def CList.append (c : CList) (v : Elem) : CList := { c with items := c.items ++ [v] }

/-- ciscoconfparse.py:5203-5207 `extend`; ciscoconfparse.py:5080-5087 `__iadd__`. -/
def CList.extend (c : CList) (l : List Elem) : CList := { c with items := c.items ++ l }

/-- ciscoconfparse.py:5097-5099 `__imul__`. -/
def CList.imul (c : CList) (k : Int) : CList := { c with items := timesL c.items k }

/-- ciscoconfparse.py:5050-5051 `__setitem__`. -/
def CList.setItem (c : CList) (k : Int) (v : Elem) : Except Err CList :=
  match pyIndex c.items.length k with
  | some j => .ok { c with items := c.items.set j v }
  | none => .error .indexError

/-- ciscoconfparse.py:5163-5164 `pop(ii)`: the element and the rest. -/
def CList.pop (c : CList) (k : Int) : Except Err (Elem × CList) := do
  let e ← c.get k
  match pyIndex c.items.length k with
  | some j => .ok (e, { c with items := c.items.eraseIdx j })
  | none => .error .indexError

/-- ciscoconfparse.py:5173-5174 `clear()`. -/
def CList.clear (c : CList) : CList := { c with items := [] }

/-- ciscoconfparse.py:5193-5194 `reverse()`. -/
def CList.reverse (c : CList) : CList := { c with items := c.items.reverse }

/-- ciscoconfparse.py:5188-5189 `index(val)`. -/
def CList.index (c : CList) (v : Elem) : Except Err Nat :=
  match c.vals.findIdx? (fun x => eqVal x (c.val v)) with
  | some k => .ok k
  | none => .error .valueError

/-- ciscoconfparse.py:5183-5184 `count(val)`. -/
def CList.count (c : CList) (v : Elem) : Nat := c.vals.countP (fun x => eqVal x (c.val v))

/-- `val in objs`: inherited from `Sequence` (4867), by ciscoconfparse.py:5002-5003 `__iter__`. -/
def CList.contains (c : CList) (v : Elem) : Bool := c.vals.any (fun x => eqVal x (c.val v))

/-- ciscoconfparse.py:5168-5169 `remove(val)`. -/
def CList.remove (c : CList) (v : Elem) : Except Err CList := do
  let k ← c.index v
  .ok { c with items := c.items.eraseIdx k }

/-- ciscoconfparse.py:5198-5199 `sort(x)` for a list of objects: its first argument is
ignored, and without an argument it raises. -/
def CList.sort (c : CList) (given : Bool) : Except Err CList :=
  if given then
    let num : Elem → Int := fun e => match e with | .obj i => (c.h i).linenum | .str _ => 0
    .ok { c with items := sortBy (fun a b => decide (num a ≤ num b)) c.items }
  else .error .typeError

/-! ## Reading lists -/

/-- The objects, if there is nothing else. -/
def objects : List Elem → Option (List Nat)
  | [] => some []
  | .obj i :: l => (objects l).map (i :: ·)
  | .str _ :: _ => none

/-- ciscoconfparse.py:5211-5219 `has_line_with`: a string has no `text`. -/
def CList.hasLineWith (c : CList) (rx : Rx) : Except Err Bool :=
  match objects c.items with
  | some l => .ok (l.any (fun i => rx.search (c.h i).text))
  | none => .error .attributeError

/-- ciscoconfparse.py:5894-5897 `iter_with_comments(begin_index)`. -/
def iterWithComments (P : Parsed) (b : Nat) : List Nat := P.list.drop b

/-- ciscoconfparse.py:5901-5904 `iter_no_comments(begin_index)`. -/
def iterNoComments (P : Parsed) (b : Nat) : List Nat :=
  (P.list.drop b).filter (fun i => !(P.h i).isComment)

/-- ciscoconfparse.py:5914-5917 `all_parents` of the list, with ccp_abc.py:540-543
`has_children`. -/
def listAllParents (P : Parsed) : List Nat := P.list.filter (fun i => decide ((P.h i).children.length > 0))

/-- ciscoconfparse.py:5535 `find_objects(r"^\S+")`. -/
def topObjects (P : Parsed) : List Nat :=
  P.list.filter (fun i => match Cisco.reTrue "^\\S+" (P.h i).text with | .ok b => b | .error _ => false)

/-- ciscoconfparse.py:5527-5543 `config_hierarchy`. -/
def configHierarchy (P : Parsed) : List Nat × List Nat :=
  let top := (topObjects P).filter (fun i => !(P.h i).isComment)
  (top.filter (fun i => !((P.h i).children.length == 0)), top.filter (fun i => (P.h i).children.length == 0))

end Edit

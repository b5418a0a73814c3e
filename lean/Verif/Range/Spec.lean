import Verif.Range.Model

/-! # Specification vocabulary for integer ranges -/

namespace Range

open Py

/-- One entry of a range text: `N`, or `A-B`; numbers are any digit strings and
blanks may surround them. -/
inductive Item where
  | single (w1 d w2 : Str)
  | span (w1 d1 w2 w3 d2 w4 : Str)

def allSpace (s : Str) : Prop := ∀ c ∈ s, isSpace c = true

/-- Digits where digits are due, blanks where blanks may be. -/
def Item.Valid : Item → Prop
  | .single w1 d w2 => allSpace w1 ∧ allDigits d = true ∧ allSpace w2
  | .span w1 d1 w2 w3 d2 w4 =>
    allSpace w1 ∧ allDigits d1 = true ∧ allSpace w2 ∧ allSpace w3 ∧ allDigits d2 = true ∧ allSpace w4

/-- The text of an entry. -/
def Item.text : Item → Str
  | .single w1 d w2 => w1 ++ d ++ w2
  | .span w1 d1 w2 w3 d2 w4 => w1 ++ d1 ++ w2 ++ '-' :: (w3 ++ d2 ++ w4)

/-- The integers an entry denotes. -/
def Item.denotes : Item → Int → Prop
  | .single _ d _, x => x = natVal d
  | .span _ d1 _ _ d2 _, x => (natVal d1 : Int) ≤ x ∧ x ≤ natVal d2

/-- One call on a range. -/
inductive Op where
  | append (i : Int)
  | remove (i : Int)

/-- Run a call on the code's range. -/
def Op.run (r : R) : Op → Except Err R
  | .append i => r.append (.int i)
  | .remove i => r.remove (.int i)

/-- Run a history; stops at the first exception. -/
def runOps (r : R) : List Op → Except Err R
  | [] => .ok r
  | o :: os => match o.run r with
    | .ok r' => runOps r' os
    | .error e => .error e

/-- The same history on a mathematical set; `none` when a call must fail. -/
def specOps (S : Int → Prop) : List Op → Option (Int → Prop) → Prop
  | [], out => out = some S
  | .append i :: os, out =>
    (¬ S i ∧ specOps (fun x => S x ∨ x = i) os out) ∨ (S i ∧ out = none)
  | .remove i :: os, out =>
    (S i ∧ specOps (fun x => S x ∧ x ≠ i) os out) ∨ (¬ S i ∧ out = none)

end Range

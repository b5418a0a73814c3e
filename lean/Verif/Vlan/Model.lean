import Verif.Range.Model

/-! # Model of `trunk_vlans_allowed`

models_cisco.py:2100-2331.  The children of the interface line are given by their texts
(which the parser has right-stripped and which hold no newline, so that `$` in the
regular expressions is the end of the text).  Digits are ASCII. -/

namespace Vlan

open Py

/-- models_cisco.py:2104-2108 `is_switchport`: IndexError on a blank child. -/
def isSwitchport : List Str → Except Err Bool
  | [] => .ok false
  | t :: ts =>
    match (splitWs t).head? with
    | none => .error .indexError
    | some w => if w = "switchport".toList then .ok true else isSwitchport ts

/-- models_cisco.py:2113-2117 `has_manual_switch_access`. -/
def isAccess (ts : List Str) : Bool :=
  ts.any (fun t => (splitWs t).take 3 == ["switchport".toList, "mode".toList, "access".toList])

/-- The four words of a statement. -/
def fourWords : List Str := ["switchport".toList, "trunk".toList, "allowed".toList, "vlan".toList]

/-- The text behind the first word. -/
def dropWord (t : Str) : Str := (lstrip t).dropWhile (fun c => !isSpace c)

/-- The text behind the first `n` words. -/
def dropWords : Nat → Str → Str
  | 0, t => t
  | n + 1, t => dropWords n (dropWord t)

/-- `[\d\-\,\s]`. -/
def isVlanChar (c : Char) : Bool := isDigit c || c == '-' || c == ',' || isSpace c

/-- `(\d[\d\-\,\s]*)$` at the beginning of a text. -/
def listArg (t : Str) : Option Str :=
  if t.head?.any isDigit && t.all isVlanChar then some t else none

/-- `^\s+` of the regular expressions. -/
def indented (t : Str) : Bool := t.head?.any isSpace

/-- models_cisco.py:2229-2233: `^\s+switchport .. vlan add (..)$` when the first words are
already known. -/
def arg (n : Nat) (t : Str) : Option Str :=
  if indented t then listArg (lstrip (dropWords n t)) else none

/-- models_cisco.py:2214-2223 `_all_vlans`. -/
def allVlans : Str := "1-4094".toList

/-- models_cisco.py:2217-2222 `vdict`. -/
structure VD where
  allowed : Str := allVlans
  add : Option Str := none
  exc : Option Str := none
  rem : Option Str := none

/-- models_cisco.py:2235-2238: a first or a further text. -/
def plus (o : Option Str) (s : Str) : Option Str :=
  match o with
  | none => some s
  | some a => some (a ++ ',' :: s)

/-- models_cisco.py:2267-2285: a plain statement. -/
def stepAllowed (v : VD) (r : Str) : VD :=
  if r = "none".toList then { v with allowed := [] }
  else if r = "all".toList then { v with allowed := allVlans }
  else
    match listArg r with
    | none => v
    | some s =>
      if v.allowed = allVlans ∨ v.allowed = [] then { v with allowed := s }
      else { v with allowed := v.allowed ++ ',' :: s }

/-- models_cisco.py:2225-2285: one child. -/
def step (v : VD) (t : Str) : VD :=
  let ws := (splitWs t).take 5
  if ws = fourWords ++ ["add".toList] then
    match arg 5 t with
    | some s => { v with add := plus v.add s }
    | none => v
  else if ws = fourWords ++ ["except".toList] then
    match arg 5 t with
    | some s => { v with exc := plus v.exc s }
    | none => v
  else if ws = fourWords ++ ["remove".toList] then
    match arg 5 t with
    | some s => { v with rem := plus v.rem s }
    | none => v
  else if ws.take 4 = fourWords then
    if indented t then stepAllowed v (lstrip (dropWords 4 t)) else v
  else v

/-- models_cisco.py:2287-2295: this first reading of `allowed` can raise. -/
def firstRead (v : VD) : Except Err Unit :=
  if v.allowed = allVlans ∨ v.allowed = [] then .ok ()
  else do
    let _ ← Range.ofText v.allowed
    .ok ()

/-- models_cisco.py:2298-2330: an optional text combined with the result so far. -/
def apply (f : Range.R → Range.R → Range.R) (r : Range.R) (o : Option Str) : Except Err Range.R :=
  match o with
  | none => .ok r
  | some s =>
    if strip s = [] then .ok r
    else do
      let b ← Range.ofText (strip s)
      .ok (f r b)

/-- models_cisco.py:2287-2331: the result from `vdict`. -/
def vlans (v : VD) : Except Err Range.R := do
  firstRead v
  let a ← apply Range.R.add ⟨[], false⟩ (some v.allowed)
  let b ← apply Range.R.add a v.add
  let c ← apply Range.R.sub b v.exc
  apply Range.R.sub c v.rem

/-- models_cisco.py:2203-2331 `trunk_vlans_allowed`: `none` is the value 0. -/
def trunkVlans (children : List Str) : Except Err (Option Range.R) := do
  let sw ← isSwitchport children
  if sw && !isAccess children then
    let r ← vlans (children.foldl step {})
    .ok (some r)
  else .ok none

end Vlan

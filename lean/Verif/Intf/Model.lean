import Verif.Py

/-! # Model of `CiscoIOSInterface` and of interface ranges

Simplifications: digits are ASCII; Python's limit on the length of an integer text is
not modelled; log output and the `debug` parameter are left out; the attribute setters
are used only as the parser and `CiscoRange` use them. -/

namespace Intf

open Py

/-- ccp_util.py:2958-2972: the attributes of an interface.  `port` is always a number on
an object that the constructor returns (3120-3133). -/
structure Intf where
  pfx : Str
  sep : Option Char
  slot : Option Nat
  card : Option Nat
  port : Nat
  sub : Option Nat
  chan : Option Nat
  cls : Option Str
  deriving DecidableEq, Repr

/-- ccp_util.py:3182 `[a-zA-Z\-\s]`. -/
def isPfx (c : Char) : Bool := isLetter c || c == '-' || isSpace c

/-- ccp_util.py:3182 `[\d\:\.^\-^a-z^A-Z^\s]`. -/
def isShort (c : Char) : Bool := isDigit c || c == ':' || c == '.' || c == '^' || isPfx c

/-- ccp_util.py:3183 `[\d\:\.\/^\-^a-z^A-Z^\s]`. -/
def isLong (c : Char) : Bool := isShort c || c == '/'

/-- ccp_util.py:3182-3183: a prefix and the rest, when all characters are allowed.  The
prefix is as long as possible but leaves one character; the optional third group of the
regular expressions never takes part. -/
def splitName (ok : Char → Bool) (t : Str) : Option (Str × Str) :=
  if t ≠ [] ∧ t.all ok = true then
    if (t.dropWhile isPfx) = [] then some (t.dropLast, t.drop (t.length - 1))
    else some (t.takeWhile isPfx, t.dropWhile isPfx)
  else none

/-- ccp_util.py:3305, 3311: `re.search(r"\.(\d+)", ..)` and the same with `:`. -/
def afterSign (c : Char) : Str → Option Nat
  | [] => none
  | x :: r =>
    if x = c ∧ r.takeWhile isDigit ≠ [] then some (natVal (r.takeWhile isDigit)) else afterSign c r

/-- `[a-zA-Z\-]`. -/
def isClsChar (c : Char) : Bool := isLetter c || c == '-'

/-- ccp_util.py:3317, 3424: `re.search(r"(\s+[a-zA-Z\-]+)$", ..)`, stripped (3795). -/
def clsOf (t : Str) : Option Str :=
  let w := (t.reverse.takeWhile (fun c => !isSpace c)).reverse
  if w.length < t.length ∧ w ≠ [] ∧ w.all isClsChar = true then some w else none

/-- ccp_util.py:3288: `re.search(r"^\D*(\d+)", ..)`. -/
def firstDigits (t : Str) : Str := (t.dropWhile (fun c => !isDigit c)).takeWhile isDigit

/-- ccp_util.py:3270-3334 `parse_intf_short`, with the setters (3110-3151). -/
def parseShort (p r : Str) : Except Err Intf :=
  if firstDigits r = [] then .error .noRegexMatch
  else .ok { pfx := strip p, sep := none, slot := none, card := none, port := natVal (firstDigits r),
             sub := afterSign '.' r, chan := afterSign ':' r, cls := clsOf r }

/-- An optional `/`: the separator is any character that is not `:^.-`, blank, digit or
letter (3357), and of those only `/` passes 3183. -/
def optSlash (t : Str) : Bool × Str :=
  match t with
  | '/' :: r => (true, r)
  | _ => (false, t)

/-- `int(..)` of an optional group of digits. -/
def optNat (t : Str) : Option Nat := if t = [] then none else some (natVal t)

/-- ccp_util.py:3338-3453 `parse_intf_long`, with the setters (3110-3151). -/
def parseLong (p r : Str) : Except Err Intf :=
  let slot := r.takeWhile isDigit
  if slot = [] then .error .invalidInterface
  else
    let (sep1, r1) := optSlash (r.dropWhile isDigit)
    let card := r1.takeWhile isDigit
    let (_, r2) := optSlash (r1.dropWhile isDigit)
    let port := r2.takeWhile isDigit
    if sep1 = false then .error .valueError
    else
      let mk (card port : Option Nat) : Except Err Intf :=
        match port with
        | none => .error .invalidInterface
        | some n =>
          .ok { pfx := strip p, sep := some '/', slot := some (natVal slot), card := card, port := n,
                sub := afterSign '.' r, chan := afterSign ':' r, cls := clsOf r }
      match optNat card, optNat port with
      | some c, none => mk none (some c)
      | c, n => mk c n

/-- ccp_util.py:2975-3065 `CiscoIOSInterface(interface_name=..)` and 3155-3245
`parse_single_interface`. -/
def parse (name : Str) : Except Err Intf :=
  if ',' ∈ name then .error .invalidInterface
  else
    match splitName isShort (strip name) with
    | some (p, r) => parseShort p r
    | none =>
      match splitName isLong (strip name) with
      | some (p, r) => parseLong p r
      | none => .error .invalidInterface

/-- A digit separator in an f-string. -/
def sepStr : Option Char → Str
  | some c => [c]
  | none => "None".toList

/-- ccp_util.py:3571-3597 `number`. -/
def number (i : Intf) : Except Err Str :=
  match i.slot, i.card with
  | none, none => .ok (natStr i.port)
  | some s, none => .ok (natStr s ++ sepStr i.sep ++ natStr i.port)
  | some s, some c => .ok (natStr s ++ sepStr i.sep ++ natStr c ++ sepStr i.sep ++ natStr i.port)
  | none, some _ => .error .valueError

/-- ccp_util.py:3519-3532 `render_as_string`, which is `str(i)` and `i.name`. -/
def render (i : Intf) : Except Err Str := do
  let cls := match i.cls with
    | none => []
    | some w => ' ' :: strip w
  let n ← number i
  match i.sub, i.chan with
  | none, none => .ok (i.pfx ++ n ++ cls)
  | some s, none => .ok (i.pfx ++ n ++ '.' :: natStr s ++ cls)
  | none, some c => .ok (i.pfx ++ n ++ ':' :: natStr c ++ cls)
  | some s, some c => .ok (i.pfx ++ n ++ '.' :: natStr s ++ ':' :: natStr c ++ cls)

/-! ## Comparing -/

/-- An element of `sort_list`. -/
inductive Key where
  | num (n : Nat)
  | word (s : Str)
  deriving DecidableEq, Repr

/-- ccp_util.py:3084-3106 `sort_list`. -/
def sortList (i : Intf) : List (Option Key) :=
  [i.slot.map .num, i.card.map .num, some (.num i.port), i.sub.map .num, i.chan.map .num, i.cls.map .word]

/-- `<` on strings: by code points. -/
def strLt : Str → Str → Bool
  | _, [] => false
  | [], _ :: _ => true
  | a :: as, b :: bs => decide (a.toNat < b.toNat) || (a == b && strLt as bs)

/-- `<` on two different elements of sort lists: numbers or strings; TypeError with None. -/
def keyLt : Option Key → Option Key → Except Err Bool
  | some (.num a), some (.num b) => .ok (decide (a < b))
  | some (.word a), some (.word b) => .ok (strLt a b)
  | _, _ => .error .typeError

/-- `<` on Python lists: decided at the first position where they differ. -/
def listLt : List (Option Key) → List (Option Key) → Except Err Bool
  | [], [] => .ok false
  | [], _ :: _ => .ok true
  | _ :: _, [] => .ok false
  | a :: as, b :: bs => if a = b then listLt as bs else keyLt a b

/-- `>` on Python lists. -/
def listGt : List (Option Key) → List (Option Key) → Except Err Bool
  | [], [] => .ok false
  | [], _ :: _ => .ok false
  | _ :: _, [] => .ok true
  | a :: as, b :: bs => if a = b then listGt as bs else keyLt b a

/-- ccp_util.py:3485-3492 `==`. -/
def eq (a b : Intf) : Bool := decide (a.pfx = b.pfx) && decide (sortList a = sortList b)

/-- ccp_util.py:3504-3508 `<`. -/
def lt (a b : Intf) : Except Err Bool := listLt (sortList a) (sortList b)

/-- ccp_util.py:3496-3500 `>`. -/
def gt (a b : Intf) : Except Err Bool := listGt (sortList a) (sortList b)

/-- ccp_util.py:3512-3515 `hash(i)`: the sum of `(idx + 1) ** n` over the numbers. -/
def hashFrom : Nat → List (Option Key) → Nat
  | _, [] => 0
  | k, some (.num n) :: r => (k + 1) ^ n + hashFrom (k + 1) r
  | k, _ :: r => hashFrom (k + 1) r

/-- ccp_util.py:3512-3515 `hash(i)`. -/
def hash (i : Intf) : Nat := hashFrom 0 (sortList i)

/-! ## Copies -/

/-- ccp_util.py:2992-2997, 3044-3053: `CiscoIOSInterface(other)` and
`CiscoIOSInterface(interface_dict=other.as_dict())`: the setters (3137-3144) strip the
prefix and the class and keep the numbers.  The separator setter is called before the
slot is set and ignores None (3630-3639). -/
def copy (i : Intf) : Intf :=
  { i with pfx := strip i.pfx
           card := if i.slot.isSome then i.card else none
           cls := i.cls.map strip }

/-! ## Ranges -/

/-- ccp_util.py:4929-4932: the attribute that the range iterates over. -/
inductive Attr where
  | channel | subinterface | port
  deriving DecidableEq, Repr

/-- ccp_util.py:4929-4932: `card` and `slot` are never reached because every interface
has a port. -/
def iterAttr (i : Intf) : Attr :=
  if i.chan.isSome then .channel else if i.sub.isSome then .subinterface else .port

/-- `getattr(i, attribute)`. -/
def Attr.get (a : Attr) (i : Intf) : Option Nat :=
  match a with
  | .channel => i.chan
  | .subinterface => i.sub
  | .port => some i.port

/-- Setting the attribute (a port is never set to None here). -/
def Attr.set (a : Attr) (i : Intf) (v : Option Nat) : Intf :=
  match a with
  | .channel => { i with chan := v }
  | .subinterface => { i with sub := v }
  | .port => { i with port := v.getD i.port }

/-- `range(a, b + 1)`. -/
def upto (a b : Nat) : List Nat := (List.range (b + 1 - a)).map (a + ·)

/-- ccp_util.py:4966-5109: the interfaces of one part, from the object with the value of
its first number. -/
def expandPart (attr : Attr) (this : Intf) (part : Str) : Except Err (List Intf) :=
  if '-' ∈ part then
    match splitOn '-' part with
    | [a, b] => do
      let obj ← parse (strip a)
      let e ← pyInt ((strip b).filter isDigit)
      match attr.get obj with
      | none => .error .typeError
      | some n => .ok ((upto n e.toNat).map (fun k => attr.set this (some k)))
    | _ => .error .invalidRange
  else .ok [this]

/-- ccp_util.py:4939-4951: a part after the first one. -/
def nextPart (begin_ : Intf) (part : Str) : Except Err (List Intf) := do
  let attr := iterAttr begin_
  let o ← parse (strip ((splitOn '-' part).headD []))
  expandPart attr (attr.set begin_ (attr.get o)) part

/-- ccp_util.py:4895-4916: the first interface, with the class from the last word. -/
def beginObj (text first : Str) : Except Err Intf := do
  let b ← parse ((splitOn '-' first).headD [])
  match (splitWs text).getLast? with
  | none => .error .indexError
  | some w => if w.filter isDigit = [] then .ok { b with cls := some w } else .ok b

/-- `sorted(.., key=sort_list)`: TypeError when two keys cannot be compared.  (Any
comparison sort compares the neighbours of the result, so it meets such a pair.) -/
def sortIntfs (l : List Intf) : Except Err (List Intf) :=
  if l.all (fun a => l.all (fun b => (lt a b).isOk)) then
    .ok (sortBy (fun a b => !(lt b a == .ok true)) l)
  else .error .typeError

/-- ccp_util.py:4875-5127 `parse_cisco_interfaces` and 5232-5262 `attribute_sort`. -/
def parseRange (text : Str) : Except Err (List Intf) := do
  match splitOn ',' text with
  | [] => .error .valueError
  | first :: rest =>
    let b ← beginObj text first
    let l0 ← expandPart (iterAttr b) b first
    let ls ← rest.mapM (nextPart b)
    let all := dedupBy eq (l0 ++ ls.flatten)
    if all = [] then .error .valueError else sortIntfs all

/-- ccp_util.py:4765-4810 `CiscoRange(text)` with a result type other than `int` and
`float`: the members. -/
def range (text : Str) : Except Err (List Intf) :=
  if text = [] then .ok []
  else if isInfix ",,".toList text then .error .invalidRange
  else parseRange text

end Intf

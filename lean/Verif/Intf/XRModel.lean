import Verif.Intf.Model
import Verif.Re.Match

/-! # Model of `CiscoIOSXRInterface`

The simplifications of `Intf/Model.lean` apply. -/

namespace Intf.XR

open Py Re

/-- ccp_util.py:3830-3840: the attributes of an IOS XR interface, as the setters (4442-4708)
keep them.  `port` is always a number on an object that the constructor returns (3991-4006). -/
structure Intf where
  pfx : Str
  sep : Option Str
  slot : Option Nat
  card : Option Str
  proc : Option Str
  port : Nat
  sub : Option Nat
  chan : Option Nat
  cls : Option Str
  deriving DecidableEq, Repr

/-- ccp_util.py:4058, 4242: the expression for names with separators. -/
def longRx : Str := chars! r"^(?P<prefix>[a-zA-Z\-\s]*)(?P<slot_card_port_subinterface_channel>(?P<slot>[a-zA-Z0-9]+)(?P<sep1>[^\:^\.^\-^\s^\d^a-z^A-Z])?(?P<card>[a-zA-Z0-9]+)?(?P<sep2>[^\:^\.^\-^\s^\d^a-z^A-Z])?(?P<processor>[a-zA-Z0-9]+)?(?P<sep3>[^\:^\.^\-^\s^\d^a-z^A-Z])?(?P<port>[a-zA-Z0-9]+)?)"

/-- The groups of `re.search(rx, t)`, if it matches. -/
def groupsOf (rx t : Str) : Except Err (Option (List (Str × Option Str))) :=
  match compileL rx with
  | .error _ => .error .reError
  | .ok p => .ok ((search p t).map (fun m => m.groupdict p))

/-- ccp_util.py:4058, 4241-4246: the groups of the match, if there is one. -/
def longGroups (t : Str) : Except Err (Option (List (Str × Option Str))) := groupsOf longRx t

/-- `groupdict[key]`. -/
def get (d : List (Str × Option Str)) (key : String) : Except Err (Option Str) :=
  match d.lookup key.toList with
  | some v => .ok v
  | none => .error .keyError

/-- `int(value)` of a text of letters and digits. -/
def toNat (s : Str) : Except Err Nat := do .ok (← pyInt s).toNat

/-- ccp_util.py:3981-4025 `update_internal_state` with the setters, for the texts that the
parser finds; the object is new. -/
def state (pfx : Str) (sep slot card proc port : Option Str) (sub chan : Option Nat) (cls : Option Str) : Except Err Intf :=
  match slot, port with
  | some s, some p => do
    let s' ← toNat s
    let p' ← toNat p
    .ok ⟨strip pfx, sep, some s', card, proc, p', sub, chan, cls.map strip⟩
  | none, some p => do
    let p' ← toNat p
    .ok ⟨strip pfx, sep, none, none, proc, p', sub, chan, cls.map strip⟩
  | _, none => .error .invalidInterface

/-- ccp_util.py:4149-4217 `parse_intf_short`: as for `CiscoIOSInterface`, without a processor. -/
def parseShort (p r : Str) : Except Err Intf :=
  if firstDigits r = [] then .error .noRegexMatch
  else state (strip p) none none none none (some (firstDigits r)) (afterSign '.' r) (afterSign ':' r) (clsOf r)

/-- ccp_util.py:4271-4290: the separator. -/
def separator (sep1 sep2 : Option Str) : Except Err (Option Str) :=
  match sep1, sep2 with
  | some s, _ => .ok (some s)
  | none, none => .ok none
  | none, some _ => .error .valueError

/-- ccp_util.py:4221-4335 `parse_intf_long`, from the groups of the first match. -/
def parseLong (d : List (Str × Option Str)) : Except Err Intf := do
  let g ← get d "slot_card_port_subinterface_channel"
  let pfx ← get d "prefix"
  match ← longGroups (g.getD []) with
  | none => .error .invalidInterface
  | some e => do
    let sep1 ← get e "sep1"
    let sep2 ← get e "sep2"
    let slot ← get e "slot"
    let card ← get e "card"
    let proc ← get e "processor"
    let port ← get e "port"
    let (card, port) := if slot.isSome ∧ card.isSome ∧ port = none then (none, card) else (card, port)
    let sep ← separator sep1 sep2
    state (pfx.getD []) sep slot card proc port (afterSign '.' (g.getD [])) (afterSign ':' (g.getD [])) (clsOf (g.getD []))

/-- ccp_util.py:3844-3934 `CiscoIOSXRInterface(interface_name=..)` and 4029-4124
`parse_single_interface`. -/
def parse (name : Str) : Except Err Intf :=
  if ',' ∈ name then .error .invalidInterface
  else
    match splitName isShort (strip name) with
    | some (p, r) => parseShort p r
    | none => do
      match ← longGroups (strip name) with
      | some d => parseLong d
      | none => .error .invalidInterface

/-- A separator in an f-string. -/
def sepStr : Option Str → Str
  | some s => s
  | none => "None".toList

/-- ccp_util.py:4455-4481 `number`. -/
def number (i : Intf) : Except Err Str :=
  match i.slot, i.card, i.proc with
  | none, none, none => .ok (natStr i.port)
  | some s, none, none => .ok (natStr s ++ sepStr i.sep ++ natStr i.port)
  | some s, some c, some p => .ok (natStr s ++ sepStr i.sep ++ c ++ sepStr i.sep ++ p ++ sepStr i.sep ++ natStr i.port)
  | _, _, _ => .error .valueError

/-- ccp_util.py:4403-4416 `render_as_string`, which is `str(i)` and `i.name`. -/
def render (i : Intf) : Except Err Str := do
  let cls := match i.cls with
    | none => []
    | some w => ' ' :: strip w
  let n ← number i
  match i.sub, i.chan with
  | none, none => .ok (i.pfx ++ n ++ cls)
  | some s, none => .ok (i.pfx ++ n ++ '.' :: natStr s ++ cls)
  | none, some c => .ok (i.pfx ++ n ++ ':' :: natStr c ++ cls)
  | some s, some c => .ok (i.pfx ++ n ++ '.' :: natStr s ++ ':' :: natStr c ++ cls)

/-! ## Comparing -/

/-- ccp_util.py:3955-3977 `sort_list`: every element is a text or None. -/
def sortList (i : Intf) : List (Option Key) :=
  [i.slot.map (fun n => .word (natStr n)), i.card.map .word, i.proc.map .word, some (.word (natStr i.port)),
    i.sub.map (fun n => .word (natStr n)), i.chan.map (fun n => .word (natStr n)), i.cls.map .word]

/-- ccp_util.py:4369-4376 `==`. -/
def eq (a b : Intf) : Bool := decide (a.pfx = b.pfx) && decide (sortList a = sortList b)

/-- ccp_util.py:4388-4392 `<`. -/
def lt (a b : Intf) : Except Err Bool := listLt (sortList a) (sortList b)

/-- ccp_util.py:4380-4384 `>`. -/
def gt (a b : Intf) : Except Err Bool := listGt (sortList a) (sortList b)

/-- ccp_util.py:4396-4399 `hash(i)`: the sum over the elements that are integers. -/
def hash (i : Intf) : Nat := hashFrom 0 (sortList i)

/-! ## Dictionaries -/

/-- A value of a dictionary: None, an integer, a text. -/
inductive Val where
  | none
  | int (n : Int)
  | str (s : Str)
  deriving DecidableEq, Repr

/-- A dictionary: its items. -/
abbrev Dict := List (Str × Val)

/-- `d[key]`. -/
def Dict.get (d : Dict) (key : String) : Except Err Val :=
  match d.lookup key.toList with
  | some v => .ok v
  | Option.none => .error .keyError

/-- A number or None as a value. -/
def ofNat? : Option Nat → Val
  | some n => .int n
  | Option.none => .none

/-- A text or None as a value. -/
def ofStr? : Option Str → Val
  | some s => .str s
  | Option.none => .none

/-- ccp_util.py:4354-4365 `as_dict`. -/
def asDict (i : Intf) : Dict :=
  [("prefix".toList, .str i.pfx), ("digit_separator".toList, ofStr? i.sep), ("card".toList, ofStr? i.card),
    ("slot".toList, ofStr? (i.slot.map natStr)), ("processor".toList, ofStr? i.proc), ("port".toList, .int i.port),
    ("subinterface".toList, ofNat? i.sub), ("channel".toList, ofNat? i.chan), ("interface_class".toList, ofStr? (i.cls.map strip))]

/-- ccp_util.py:4566-4576 (also 4635-4685): the setters of `slot`, `subinterface` and `channel`.
Simplification: a negative number becomes 0. -/
def setNum : Val → Except Err (Option Nat)
  | .none => .ok none
  | .int n => .ok (some n.toNat)
  | .str s => do .ok (some (← pyInt s).toNat)

/-- ccp_util.py:4589-4622: the setters of `card` and `processor`. -/
def setStr : Val → Except Err (Option Str)
  | .none => .ok none
  | .int n => .ok (some (intStr n))
  | .str s => .ok (some s)

/-- ccp_util.py:4442-4450: the setter of `prefix`. -/
def setPrefix : Val → Except Err Str
  | .str s => .ok (strip s)
  | _ => .error .valueError

/-- ccp_util.py:4512-4527: the setter of `digit_separator`; `slot` and `card` are what the object
has so far. -/
def setSep (old : Option Str) (slot : Option Nat) (card : Option Str) : Val → Except Err (Option Str)
  | .str s => .ok (some s)
  | _ => if slot.isSome ∨ card.isSome then .error .valueError else .ok old

/-- ccp_util.py:4698-4708: the setter of `interface_class`. -/
def setCls : Val → Except Err (Option Str)
  | .str s => .ok (some (strip s))
  | .none => .ok none
  | .int _ => .error .valueError

/-- The setter of `port`, 4635-4645.  Simplification: a port that is None counts as an error. -/
def setPort (v : Val) : Except Err Nat := do
  match ← setNum v with
  | some n => .ok n
  | none => .error .typeError

/-- ccp_util.py:4339-4350 `from_dict`. -/
def fromDict (d : Dict) : Except Err Intf := do
  let obj ← parse "Ethernet1".toList
  let pfx ← setPrefix (← d.get "prefix")
  let sep ← setSep obj.sep obj.slot obj.card (← d.get "digit_separator")
  let slot ← setNum (← d.get "slot")
  let card ← setStr (← d.get "card")
  let proc ← setStr (← d.get "processor")
  let port ← setPort (← d.get "port")
  let sub ← setNum (← d.get "subinterface")
  let chan ← setNum (← d.get "channel")
  let cls ← setCls (← d.get "interface_class")
  .ok ⟨pfx, sep, slot, card, proc, port, sub, chan, cls⟩

/-- ccp_util.py:3981-4025 `update_internal_state`, for a dictionary of the user; the object is
new. -/
def update (d : Dict) : Except Err Intf := do
  let pfx ← d.get "prefix"
  let sep ← d.get "digit_separator"
  let slot ← d.get "slot"
  let port ← d.get "port"
  if port = .none then .error .invalidInterface
  else do
    let card ← (if slot = .none then .ok .none else d.get "card")
    let proc ← d.get "processor"
    let sub ← d.get "subinterface"
    let chan ← d.get "channel"
    let pfx' ← (match pfx with | .str s => .ok (strip s) | _ => .error .attributeError)
    let sep' ← setSep none none none sep
    let slot' ← setNum slot
    let card' ← setStr card
    let proc' ← setStr proc
    let port' ← setPort port
    let sub' ← setNum sub
    let chan' ← setNum chan
    let cls ← d.get "interface_class"
    let cls' ← setCls cls
    .ok ⟨pfx', sep', slot', card', proc', port', sub', chan', cls'⟩

/-- ccp_util.py:4139-4140: the names that are accepted. -/
def keys : List Str :=
  ["prefix", "slot", "card", "port", "digit_separator", "subinterface", "channel", "interface_class"].map String.toList

/-- ccp_util.py:4128-4145 `check_interface_dict`. -/
def check (d : Dict) : Except Err Unit :=
  if d.length ≠ 8 then .error .valueError
  else if d.any (fun x => !keys.contains x.1) then .error .keyError
  else .ok ()

/-- ccp_util.py:3888-3889, 3913-3926 `CiscoIOSXRInterface(interface_dict=..)`. -/
def ofDict (d : Dict) : Except Err Intf := do
  let _ ← update d
  check d
  update d

/-- ccp_util.py:3861-3866 `CiscoIOSXRInterface(other)`. -/
def copy (i : Intf) : Except Err Intf := ofDict (asDict i)

end Intf.XR

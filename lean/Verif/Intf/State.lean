import Verif.Intf.Model
import Verif.Intf.XRModel

/-! # Model of the attributes of `CiscoIOSInterface`: setters, getters, dictionaries

The objects of `Intf/Model.lean` are what the parser returns; here an object is what any program can make
of it by assignments, so every part may be missing or negative.

Simplifications: the values that are assigned are None, integers and texts (`XR.Val`); log output and
the `debug` parameter are left out; `sort_list` and `number` have setters that nothing reads. -/

namespace Intf.State

open Py
open XR (Val Dict)

/-- ccp_util.py:2958-2972: the attributes of an object. -/
structure Obj where
  pfx : Str
  sep : Option Str
  slot : Option Int
  card : Option Int
  port : Option Int
  sub : Option Int
  chan : Option Int
  cls : Option Str
  deriving DecidableEq, Repr

/-- ccp_util.py:2963-2971: the attributes before the constructor sets them.  Simplification: the prefix is
empty, not None; nothing reads it before it is set. -/
def fresh : Obj := ⟨[], none, none, none, none, none, none, none⟩

/-- The object that the constructor makes of a parsed name (3036-3041). -/
def ofIntf (i : Intf) : Obj :=
  ⟨i.pfx, i.sep.map (fun c => [c]), i.slot.map Int.ofNat, i.card.map Int.ofNat, some i.port, i.sub.map Int.ofNat,
    i.chan.map Int.ofNat, i.cls⟩

/-- ccp_util.py:2975-3065 `CiscoIOSInterface(name)`. -/
def make (name : Str) : Except Err Obj := do .ok (ofIntf (← parse name))

/-- The attributes that a program can assign. -/
inductive Part where
  | pfx | sep | slot | card | port | sub | chan | cls
  deriving DecidableEq, Repr

/-- A number or None as a value. -/
def ofInt? : Option Int → Val
  | some n => .int n
  | none => .none

/-- ccp_util.py:3551-3555, 3621-3625, 3672-3679, 3695-3702, 3718-3725, 3741-3745, 3761-3765, 3781-3788: the
getters. -/
def get : Part → Obj → Val
  | .pfx, o => .str o.pfx
  | .sep, o => XR.ofStr? o.sep
  | .slot, o => ofInt? o.slot
  | .card, o => ofInt? o.card
  | .port, o => ofInt? o.port
  | .sub, o => ofInt? o.sub
  | .chan, o => ofInt? o.chan
  | .cls, o => XR.ofStr? (o.cls.map strip)

/-- ccp_util.py:3684-3692: a number, the number of a text, or None. -/
def toNum : Val → Except Err (Option Int)
  | .none => .ok none
  | .int n => .ok (some n)
  | .str s => do .ok (some (← pyInt s))

/-- ccp_util.py:3558-3566, 3628-3643, 3682-3692, 3705-3715, 3728-3738, 3748-3758, 3768-3778, 3791-3801: the setters of
prefix, digit_separator, slot, card, port, subinterface, channel and interface_class. -/
def set (p : Part) (v : Val) (o : Obj) : Except Err Obj :=
  match p with
  | .pfx => match v with
    | .str s => .ok { o with pfx := strip s }
    | _ => .error .valueError
  | .sep => match v with
    | .str s => .ok { o with sep := some s }
    | _ => if o.slot.isSome || o.card.isSome then .error .valueError else .ok o
  | .slot => do .ok { o with slot := ← toNum v }
  | .card => do .ok { o with card := ← toNum v }
  | .port => do .ok { o with port := ← toNum v }
  | .sub => do .ok { o with sub := ← toNum v }
  | .chan => do .ok { o with chan := ← toNum v }
  | .cls => match v with
    | .str s => .ok { o with cls := some (strip s) }
    | .none => .ok { o with cls := none }
    | .int _ => .error .valueError

/-! ## Dictionaries -/

/-- ccp_util.py:3471-3481 `as_dict`. -/
def asDict (o : Obj) : Dict :=
  [("prefix".toList, get .pfx o), ("digit_separator".toList, get .sep o), ("card".toList, get .card o),
    ("slot".toList, get .slot o), ("port".toList, get .port o), ("subinterface".toList, get .sub o),
    ("channel".toList, get .chan o), ("interface_class".toList, get .cls o)]

/-- ccp_util.py:3457-3467 `from_dict`. -/
def fromDict (d : Dict) : Except Err Obj := do
  let o ← make "Ethernet1".toList
  let o ← set .pfx (← d.get "prefix") o
  let o ← set .sep (← d.get "digit_separator") o
  let o ← set .slot (← d.get "slot") o
  let o ← set .card (← d.get "card") o
  let o ← set .port (← d.get "port") o
  let o ← set .sub (← d.get "subinterface") o
  let o ← set .chan (← d.get "channel") o
  set .cls (← d.get "interface_class") o

/-- ccp_util.py:3110-3151 `update_internal_state`, on an object `o`. -/
def update (d : Dict) (o : Obj) : Except Err Obj := do
  let pfx ← d.get "prefix"
  let sep ← d.get "digit_separator"
  let slot ← d.get "slot"
  let port ← d.get "port"
  if port = .none then .error .invalidInterface
  else do
    let card ← (if slot = .none then .ok .none else d.get "card")
    let sub ← d.get "subinterface"
    let chan ← d.get "channel"
    let pfx' ← (match pfx with | .str s => .ok (Val.str (strip s)) | _ => .error .attributeError)
    let o ← set .pfx pfx' o
    let o ← set .sep sep o
    let o ← set .slot slot o
    let o ← set .card card o
    let o ← set .port port o
    let o ← set .sub sub o
    let o ← set .chan chan o
    set .cls (← d.get "interface_class") o

/-- ccp_util.py:3261: the names that are accepted. -/
def keys : List Str :=
  ["prefix", "slot", "card", "port", "digit_separator", "subinterface", "channel", "interface_class"].map String.toList

/-- ccp_util.py:3249-3266 `check_interface_dict`. -/
def check (d : Dict) : Except Err Unit :=
  if d.length ≠ 8 then .error .valueError
  else if d.any (fun x => !keys.contains x.1) then .error .keyError
  else .ok ()

/-- ccp_util.py:3019-3020, 3044-3053 `CiscoIOSInterface(interface_dict=..)`: the state is updated, the
dictionary is checked, and the state is updated again. -/
def ofDict (d : Dict) : Except Err Obj := do
  let o ← update d fresh
  check d
  update d o

/-- ccp_util.py:2992-2997 `CiscoIOSInterface(other)`. -/
def copy (o : Obj) : Except Err Obj := ofDict (asDict o)

/-- ccp_util.py:2992-2997 `CiscoIOSInterface(other)` for another interface of IOS XR. -/
def copyXR (i : XR.Intf) : Except Err Obj := ofDict (XR.asDict i)

/-! ## Texts -/

/-- The separator in an f-string. -/
def sepStr : Option Str → Str
  | some s => s
  | none => "None".toList

/-- ccp_util.py:3569-3597 `number`. -/
def number (o : Obj) : Except Err Str :=
  match o.slot, o.card, o.port with
  | none, none, none => .error .systemExit
  | none, none, some p => .ok (intStr p)
  | some s, none, some p => .ok (intStr s ++ sepStr o.sep ++ intStr p)
  | some s, some c, some p => .ok (intStr s ++ sepStr o.sep ++ intStr c ++ sepStr o.sep ++ intStr p)
  | _, _, _ => .error .valueError

/-- The class behind a blank, 3520-3523. -/
def clsStr : Option Str → Str
  | none => []
  | some w => ' ' :: strip w

/-- ccp_util.py:3519-3532 `render_as_string`, which is `str(o)` (3536-3537) and `o.name` (3545-3548). -/
def render (o : Obj) : Except Err Str := do
  let n ← number o
  match o.sub, o.chan with
  | none, none => .ok (o.pfx ++ n ++ clsStr o.cls)
  | some s, none => .ok (o.pfx ++ n ++ '.' :: intStr s ++ clsStr o.cls)
  | none, some c => .ok (o.pfx ++ n ++ ':' :: intStr c ++ clsStr o.cls)
  | some s, some c => .ok (o.pfx ++ n ++ '.' :: intStr s ++ ':' :: intStr c ++ clsStr o.cls)

/-- ccp_util.py:3541-3542 `repr(o)`. -/
def repr (o : Obj) : Except Err Str := do .ok ("<CiscoIOSInterface ".toList ++ (← render o) ++ [ '>' ])

/-- ccp_util.py:3606-3618 `number_list`. -/
def numberList (o : Obj) : List (Option Int) := [o.slot, o.card, o.port]

/-- ccp_util.py:3646-3669 `slot_card_port_subinterface_channel`. -/
def tailText (o : Obj) : Except Err Str :=
  match o.sep, o.slot, o.card, o.port, o.sub, o.chan with
  | some e, some s, some c, some p, some b, some h =>
    .ok (intStr s ++ e ++ intStr c ++ e ++ intStr p ++ '.' :: intStr b ++ ':' :: intStr h ++ clsStr o.cls)
  | some e, some s, some c, some p, some b, none =>
    .ok (intStr s ++ e ++ intStr c ++ e ++ intStr p ++ '.' :: intStr b ++ clsStr o.cls)
  | some e, some s, some c, some p, none, none => .ok (intStr s ++ e ++ intStr c ++ e ++ intStr p ++ clsStr o.cls)
  | some e, some s, none, some p, none, none => .ok (intStr s ++ e ++ intStr p ++ clsStr o.cls)
  | _, none, none, some p, none, none => .ok (intStr p ++ clsStr o.cls)
  | _, _, _, _, _, _ => .error .valueError

end Intf.State

namespace Intf.XR

open Py

/-- ccp_util.py:4490-4502 `number_list`. -/
def numberList (i : Intf) : List (Option Str) := [i.slot.map natStr, i.card, some (natStr i.port)]

/-- ccp_util.py:4530-4553 `slot_card_port_subinterface_channel`. -/
def tailText (i : Intf) : Except Err Str :=
  let cls := match i.cls with
    | none => []
    | some w => ' ' :: strip w
  match i.sep, i.slot, i.card, i.sub, i.chan with
  | some e, some s, some c, some b, some h =>
    .ok (natStr s ++ e ++ c ++ e ++ natStr i.port ++ '.' :: natStr b ++ ':' :: natStr h ++ cls)
  | some e, some s, some c, some b, none => .ok (natStr s ++ e ++ c ++ e ++ natStr i.port ++ '.' :: natStr b ++ cls)
  | some e, some s, some c, none, none => .ok (natStr s ++ e ++ c ++ e ++ natStr i.port ++ cls)
  | some e, some s, none, none, none => .ok (natStr s ++ e ++ natStr i.port ++ cls)
  | _, none, none, none, none => .ok (natStr i.port ++ cls)
  | _, _, _, _, _ => .error .valueError

end Intf.XR

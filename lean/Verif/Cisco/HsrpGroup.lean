import Verif.Cisco.Access

/-! # Model of the HSRP groups of an interface

A group object is `P, i, g`: the interface is object `i` of the configuration `P`, and `g` is
the number of the group (`int(group)`). -/

namespace Cisco

open Py Conf Query Re

/-! ## The groups -/

/-- models_cisco.py:919-923: the numbers of the groups in the texts of the children, with
180-190 `HSRPInterfaceGroup.__init__`. -/
def hsrpNumbers : List Str → Except Err (List Int)
  | [] => .ok []
  | t :: ts => do
    if (← reTrue "standby\\s+(?P<group>\\d+)\\s+ip" (strip t)) then
      match (splitWs t)[1]? with
      | none => .error .indexError
      | some w => do
        let g ← pyInt w
        .ok (g :: (← hsrpNumbers ts))
    else hsrpNumbers ts

/-- models_cisco.py:914-926 `hsrp_interfaces`: the numbers of the groups in the result.  Two groups
of one interface are equal when their numbers are (models_cisco.py:204-217 `__hash__`, `__eq__`). -/
def hsrpInterfaces (P : Parsed) (i : Nat) : Except Err (List Int) := do
  let gs ← hsrpNumbers ((P.h i).children.map (fun c => (P.h c).text))
  .ok (sortBy (fun a b => decide (a ≤ b)) (dedupBy (fun a b => a == b) gs))

/-! ## The attributes of a group -/

/-- `obj.text.lower().strip().split()`. -/
def lowParts (t : Str) : List Str := splitWs (strip (t.map lowerChar))

/-- The words `standby`, the number of the group, and more words. -/
def standby (g : Int) (l : List String) : List Str := "standby".toList :: intStr g :: l.map String.toList

/-- The loop of the attributes: the words of the first child that satisfies the test. -/
def firstParts (P : Parsed) (i : Nat) (f : List Str → Bool) : Option (List Str) :=
  ((P.h i).children.map (fun c => lowParts (P.h c).text)).find? f

/-- The words begin with these. -/
def partsBegin (l p : List Str) : Bool := p.take l.length == l

/-- `obj_parts[k]` -/
def partAt (p : List Str) (k : Nat) : Except Err Str :=
  match p[k]? with
  | some w => .ok w
  | none => .error .indexError

/-- `obj_parts[-k]` for `k ≥ 1`. -/
def partBack (p : List Str) (k : Nat) : Except Err Str :=
  match p.reverse[k - 1]? with
  | some w => .ok w
  | none => .error .indexError

/-- models_cisco.py:411-421 `version`. -/
def groupVersion (P : Parsed) (i : Nat) : Except Err Int :=
  match firstParts P i (partsBegin ["standby".toList, "version".toList]) with
  | some p => do pyInt (← partBack p 1)
  | none => .ok 1

/-- models_cisco.py:243-254 `ipv4`, also 236-238 `ip`, with a bound on the depth of the
recursion: for the error message the group is converted with `__str__` (models_cisco.py:194-196), which asks for
the `version` and then for `ipv4` again. -/
def groupIpv4 (P : Parsed) (i : Nat) (g : Int) : Nat → Except Err Str
  | 0 => .error .recursionError
  | fuel + 1 =>
    match firstParts P i (partsBegin (standby g ["ip"])) with
    | some p => partBack p 1
    | none => do
      let _ ← groupVersion P i
      let _ ← groupIpv4 P i g fuel
      .error .valueError

/-- models_cisco.py:269-279 `ipv6`. -/
def groupIpv6 (P : Parsed) (i : Nat) (g : Int) : Except Err Str :=
  match firstParts P i (partsBegin (standby g ["ipv6"])) with
  | some p => partBack p 1
  | none => .ok []

/-- models_cisco.py:259-264 `has_ipv6`. -/
def groupHasIpv6 (P : Parsed) (i : Nat) (g : Int) : Except Err Bool := do .ok (!(← groupIpv6 P i g).isEmpty)

/-- models_cisco.py:284-287 `interface_name`. -/
def groupInterfaceName (P : Parsed) (i : Nat) : Str := join [' '] ((splitWs (strip (P.h i).text)).drop 1)

/-- models_cisco.py:350-360 `preempt_delay`: four words are compared with five. -/
def groupPreemptDelay (P : Parsed) (i : Nat) (g : Int) : Except Err Int :=
  match firstParts P i (fun p => p.take 4 == standby g ["preempt", "delay", "minimum"]) with
  | some p => do pyInt (← partAt p 5)
  | none => .ok 0

/-- A timer: a number of seconds, or of milliseconds (the code gives `n / 1000.0`). -/
inductive Timer where
  | sec (n : Int) | msec (n : Int)
  deriving DecidableEq, Repr

/-- models_cisco.py:365-377 `hello_timer`.  Simplification: `float(..)` is only modelled for
integers. -/
def groupHello (P : Parsed) (i : Nat) (g : Int) : Except Err Timer :=
  match firstParts P i (fun p => partsBegin (standby g ["timers", "msec"]) p || partsBegin (standby g ["timers"]) p) with
  | some p =>
    if partsBegin (standby g ["timers", "msec"]) p then do .ok (.msec (← pyInt (← partAt p 4)))
    else do .ok (.sec (← pyInt (← partBack p 2)))
  | none => .ok (.sec 3)

/-- models_cisco.py:389: the test of the first branch of `hold_timer`. -/
def holdMsec (g : Int) (p : List Str) : Bool :=
  partsBegin (standby g []) p && (p.reverse[1]? == some "msec".toList)

/-- models_cisco.py:382-394 `hold_timer`.  Simplification as for `hello_timer`. -/
def groupHold (P : Parsed) (i : Nat) (g : Int) : Except Err Timer :=
  match firstParts P i (fun p => holdMsec g p || partsBegin (standby g ["timers"]) p) with
  | some p =>
    if holdMsec g p then do .ok (.msec (← pyInt (← partBack p 1)))
    else do .ok (.sec (← pyInt (← partBack p 1)))
  | none => .ok (.sec 10)

/-- models_cisco.py:399-406 `priority`. -/
def groupPriority (P : Parsed) (i : Nat) (g : Int) : Except Err Int :=
  match firstParts P i (partsBegin (standby g ["priority"])) with
  | some p => do pyInt (← partAt p 3)
  | none => .ok 100

/-- models_cisco.py:442-450 `preempt`. -/
def groupPreempt (P : Parsed) (i : Nat) (g : Int) : Bool :=
  (firstParts P i (partsBegin (standby g ["preempt"]))).isSome

/-- models_cisco.py:432-437 `use_bia`. -/
def groupUseBia (P : Parsed) (i : Nat) : Bool :=
  (P.h i).children.any (fun c => isInfix "use-bia".toList (P.h c).text)

/-- models_cisco.py:455-465 `authentication_md5_keychain`: the search is in the group object itself,
which has the text `__undefined__` and no children. -/
def groupKeychain : Except Err Str :=
  matchTyped "__undefined__".toList
    "^\\s*standby\\s+{self.group}\\s+authentication\\s+md5\\s+key-chain\\s+(\\S+)" 1 toStr []

/-- models_cisco.py:470-473 `has_authentication_md5`. -/
def groupHasMd5 : Except Err Bool := do .ok (!(← groupKeychain).isEmpty)

/-! ## Tracking -/

/-- models_cisco.py:69-77 `TrackingInterface.__init__`: group, interface and decrement. -/
structure Track where
  group : Int
  intf : Val
  decr : Int
  deriving DecidableEq, Repr

/-- models_cisco.py:316-335: the tracked interface of one child; the search begins with the text
of the child and goes on with its own children. -/
def trackOf (P : Parsed) (g : Int) (c : Nat) : Except Err Track := do
  let d ← iterDict P c "standby\\s(\\d+)\\s+track\\s+(?P<intf>\\S.+?)(?P<decr>\\s+\\d+)*$"
    [("intf".toList, .str), ("decr".toList, .str)] (.str [])
  let intf ← getKey (.ok d) "intf".toList
  let decr ← (match d.lookup "decr".toList with
    | some (.str w) => if w = "None".toList then .ok 10 else pyInt (strip w)
    | some _ => .ok 10
    | none => .error .keyError)
  .ok { group := g, intf := intf, decr := decr }

/-- models_cisco.py:310-336 `get_hsrp_tracking_interfaces`, also 292-294 `interface_tracking`. -/
def tracking (P : Parsed) (i : Nat) (g : Int) : Except Err (List Track) :=
  ((P.h i).children.filter (fun c => partsBegin (standby g ["track"]) (splitWs (strip (P.h c).text)))).mapM (trackOf P g)

/-- models_cisco.py:426-427 `has_hsrp_track`: every tracked interface has the text `__undefined__`
and is true. -/
def groupHasTrack (P : Parsed) (i : Nat) (g : Int) : Except Err Bool := do .ok (!(← tracking P i g).isEmpty)

/-- models_cisco.py:148-153 `TrackingInterface.decrement`. -/
def Track.decrement (t : Track) : Int := t.decr

/-- models_cisco.py:113-136 `TrackingInterface.interface_name`, `name` and `interface`. -/
def Track.name (t : Track) : Val :=
  match t.intf with
  | .str s => .str s
  | .int n => .str (intStr n)
  | _ => .none

/-- models_cisco.py:158-164 `TrackingInterface.weighting`. -/
def Track.weighting (_ : Track) : Val := .none

end Cisco

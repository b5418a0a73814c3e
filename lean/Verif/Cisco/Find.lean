import Verif.Cisco.Access
import Verif.Cisco.Factory
import Verif.Query.Required

/-! # Model of the searches for factory objects -/

namespace Cisco

open Py Conf Query

/-- ciscoconfparse.py:1331-1334: the loop, which ends with the first object found.  An object
that is no interface has no attribute `abbvs` (ccp_abc.py:136-143 raises AttributeError). -/
def firstAbbreviated (P : Parsed) (cs : List LineCls) (spec : Str) : List Nat → Except Err (List Nat)
  | [] => .ok []
  | i :: is =>
    if cs.getD i .cfg = .intf then do
      if ← isAbbreviatedAs (P.h i).text spec then .ok [i] else firstAbbreviated P cs spec is
    else .error .attributeError

/-- ciscoconfparse.py:1286-1346 `find_interface_objects`; `brace` is true for the syntaxes with
braces. -/
def findInterfaceObjects (factory exact brace : Bool) (P : Parsed) (cs : List LineCls) (spec : Str) :
    Except Err (List Nat) :=
  if factory = false then .error .valueError
  else if brace = false then
    if exact then do
      let objs ← liftBad (findObjectsT P "^interface".toList false false)
      firstAbbreviated P cs spec objs
    else .error .notImplemented
  else .error .notImplemented

/-- ccp_abc.py:534-536 `classname`, 466-467 `dna`. -/
def dna : LineCls → Str
  | .intf => "IOSIntfLine".toList
  | .route => "IOSRouteLine".toList
  | .access => "IOSAccessLine".toList
  | .aaaLogin => "IOSAaaLoginAuthenticationLine".toList
  | .aaaEnable => "IOSAaaEnableAuthenticationLine".toList
  | .aaaCommandsAuthz => "IOSAaaCommandsAuthorizationLine".toList
  | .aaaConsoleAuthz => "IOSAaaConsoleAuthorizationLine".toList
  | .aaaCommandsAcct => "IOSAaaCommandsAccountingLine".toList
  | .aaaExecAcct => "IOSAaaExecAccountingLine".toList
  | .aaaGroup => "IOSAaaGroupServerLine".toList
  | .hostname => "IOSHostnameLine".toList
  | .intfGlobal => "IOSIntfGlobal".toList
  | .cfg => "IOSCfgLine".toList

/-- ciscoconfparse.py:1350-1416 `find_objects_dna`. -/
def findObjectsDna (factory exact : Bool) (P : Parsed) (cs : List LineCls) (spec : Str) : Except Err (List Nat) :=
  if factory = false then .error .valueError
  else do
    let rx ← liftBad (textRx (exactSpec exact spec))
    .ok (P.list.filter (fun i => rx.search (dna (cs.getD i .cfg))))

end Cisco

import Verif.Junos.Model
import Verif.Query.Model
import Verif.Cisco.Access

/-! # Model of the interface attributes of Junos lines

The lines are those of `Junos.parseJunos`.  Object identity (`is`) is equality of the numbers
of the lines. -/

namespace Junos

open Py Conf Query

/-- models_junos.py:167-188 `is_intf`: `all_parents[0]` is an `interfaces` block, and the
line is a child or a grandchild of it. -/
def isIntf (P : Parsed) (i : Nat) : Bool :=
  match allParents P i with
  | [] => false
  | top :: _ =>
    if (strip (P.h top).text).take 10 == "interfaces".toList then
      (P.h top).children.any (fun c => c == i || (P.h c).children.any (· == i))
    else false

/-- models_junos.py:118-130 `intf_name`, and 112-114 `name`. -/
def intfName (P : Parsed) (i : Nat) : Option Str :=
  if isIntf P i then
    some (join [' '] ((((allParents P i).map (fun p => strip (P.h p).text)).filter
      (fun t => t != "interfaces".toList)) ++ [strip (P.h i).text]))
  else none

/-- models_junos.py:228-231 `is_subintf`. -/
def isSubintf (P : Parsed) (i : Nat) : Bool :=
  match intfName P i with
  | some nm => isInfix "unit".toList nm
  | none => false

/-- models_junos.py:236-242 `is_switchport`. -/
def isSwitchport (P : Parsed) (i : Nat) : Bool :=
  isIntf P i && (allChildren P i).any (fun c => isInfix "family ethernet-switching".toList (P.h c).text)

/-- models_junos.py:245-253 `is_virtual_intf`. -/
def isVirtualIntf (P : Parsed) (i : Nat) : Except Err Bool :=
  Cisco.reTrue "^interface\\s+(Loopback|Tunnel|Dialer|Virtual-Template|Port-Channel)" (P.h i).text

/-- models_junos.py:256-292 `is_loopback_intf`. -/
def isLoopbackIntf (P : Parsed) (i : Nat) : Except Err Bool :=
  Cisco.reTrue "^interface\\s+(\\Soopback)" (P.h i).text

/-- models_junos.py:295-336 `is_ethernet_intf`. -/
def isEthernetIntf (P : Parsed) (i : Nat) : Except Err Bool :=
  Cisco.reTrue "^interface\\s+(.*?\\Sthernet)" (P.h i).text

end Junos

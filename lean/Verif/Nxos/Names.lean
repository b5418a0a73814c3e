import Verif.Nxos.Model
import Verif.Cisco.Access

/-! # Model of the names and kinds of NX-OS interfaces -/

namespace Nxos

open Py Conf Query Re Cisco

/-- models_nxos.py:124-129 `is_intf`. -/
def isIntf (t : Str) : Except Err Bool := Cisco.isIntf t

/-- models_nxos.py:131-167 `is_subintf`. -/
def isSubintf (t : Str) : Except Err Bool := reTrue "^interface\\s+(\\S+?\\.\\d+)" t

/-- models_nxos.py:169-176 `is_virtual_intf`. -/
def isVirtualIntf (t : Str) : Except Err Bool := reTrueI "^interface\\s+(Loopback|Vlan|Tunnel|Port-Channel)" t

/-- models_nxos.py:178-212 `is_loopback_intf`. -/
def isLoopbackIntf (t : Str) : Except Err Bool := reTrue "^interface\\s+(\\Soopback)" t

/-- models_nxos.py:214-255 `is_ethernet_intf`. -/
def isEthernetIntf (t : Str) : Except Err Bool := reTrue "^interface\\s+(.*?\\Sthernet|mgmt)" t

/-- models_nxos.py:257-265 `intf_in_portchannel`. -/
def intfInPortchannel (P : Parsed) (i : Nat) : Except Err Bool :=
  iterTyped P i "^\\s*channel-group\\s+(\\d+)" 1 toBool false

/-- models_nxos.py:267-276 `portchannel_number`. -/
def portchannelNumber (P : Parsed) (i : Nat) : Except Err Int :=
  iterTyped P i "^\\s*channel-group\\s+(\\d+)" 1 toInt (-1)

/-- models_nxos.py:278-283 `is_portchannel_intf`: `name` may raise an exception. -/
def isPortchannelIntf (t : Str) : Except Err Bool := do .ok (isInfix "channel".toList ((← name t).map lowerChar))

/-- models_nxos.py:454-489 `port`. -/
def port (t : Str) : Except Err Nat := do .ok (← interfaceObject t).port

/-- models_nxos.py:491-527 `port_type`. -/
def portType (t : Str) : Except Err Str := do .ok ((← matchGroup t "^interface\\s+([A-Za-z\\-]+)" 1 []).getD [])

/-- models_nxos.py:577-621 `interface_number`. -/
def interfaceNumber (t : Str) : Except Err Str := do
  if !(← isIntf t) then .ok []
  else .ok ((← matchGroup t "^interface\\s+[A-Za-z\\-]+\\s*(\\d+.*?)(\\.\\d+)*(\\s\\S+)*\\s*$" 1 []).getD [])

/-- models_nxos.py:623-667 `subinterface_number`. -/
def subinterfaceNumber (t : Str) : Except Err Str := do
  if !(← isIntf t) then .ok []
  else .ok ((← matchGroup t "^interface\\s+[A-Za-z\\-]+\\s*(\\d+.*?\\.?\\d?)(\\s\\S+)*\\s*$" 1 []).getD [])

/-- models_nxos.py:529-575 `ordinal_list`: `int` of each part between slashes. -/
def ordinalList (t : Str) : Except Err (List Int) := do
  if !(← isIntf t) then .ok []
  else
    let number ← interfaceNumber t
    if number = [] then .ok [] else (splitOn '/' number).mapM pyInt

/-- models_nxos.py:332-342 `_build_abbvs`: a set in the code, here the list of its members. -/
def abbvs (t : Str) : Except Err (List Str) := do
  let p := (← portType t).map lowerChar
  let n ← subinterfaceNumber t
  .ok ([[], [' ']].flatMap (fun sep => (List.range p.length).map (fun k => p.take (k + 1) ++ sep ++ n)))

/-- models_nxos.py:975-979 `is_abbreviated_as`. -/
def isAbbreviatedAs (t v : Str) : Except Err Bool := do .ok ((← abbvs t).contains (v.map lowerChar))

/-- models_nxos.py:796-801 `has_manual_speed`. -/
def hasManualSpeed (P : Parsed) (i : Nat) : Except Err Bool := iterTyped P i "^\\s*speed\\s+(\\d+)$" 1 toBool false

/-- models_nxos.py:803-808 `has_manual_duplex`. -/
def hasManualDuplex (P : Parsed) (i : Nat) : Except Err Bool := iterTyped P i "^\\s*duplex\\s+(\\S.+)$" 1 toBool false

/-- models_nxos.py:783-794 `has_autonegotiation`: the last branch is not reached. -/
def hasAutonegotiation (P : Parsed) (i : Nat) : Except Err Bool := do
  if !(← isEthernetIntf (P.h i).text) then .ok false
  else if (← (do if (← hasManualSpeed P i) then .ok true else hasManualDuplex P i)) then .ok false
  else .ok true

end Nxos

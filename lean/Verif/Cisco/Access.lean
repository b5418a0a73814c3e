import Verif.Cisco.Factory
import Verif.Intf.Model

/-! # Model of further attributes of IOS lines: access lines, kinds and names of interfaces -/

namespace Cisco

open Py Conf Query Re

/-- models_cisco.py:2843-2845 `manual_exectimeout_minutes`: `map(..)[0]` is a TypeError (the
numbers are not converted before). -/
def manualExectimeoutMinutes (P : Parsed) (i : Nat) : Except Err Int := do
  let _ ← iterTyped P i "^\\s*exec-timeout\\s+(\\d+\\s*\\d*)\\s*$" 1 toStr []
  .error .typeError

/-- models_cisco.py:2848-2852 `manual_exectimeout_seconds`: `map(..) > 0` is a TypeError. -/
def manualExectimeoutSeconds (P : Parsed) (i : Nat) : Except Err Int := do
  let _ ← iterTyped P i "^\\s*exec-timeout\\s+(\\d+\\s*\\d*)\\s*$" 1 toStr []
  .error .typeError

/-- `bool(re.search(rx, t, re.I))`. -/
def reTrueI (rx : String) (t : Str) : Except Err Bool :=
  match compileL rx.toList { ignoreCase := true } with
  | .error _ => .error .reError
  | .ok p => .ok (search p t).isSome

/-- models_cisco.py:718-728 `is_virtual_intf` (`re_match` gives the group, which is not
empty, or the default). -/
def isVirtualIntf (t : Str) : Except Err Bool :=
  reTrueI "^interface\\s+(Loopback|Vlan|Tunnel|Dialer|Virtual-Template|Port-Channel)" t

/-- models_cisco.py:766-769 `is_loopback_intf`. -/
def isLoopbackIntf (t : Str) : Except Err Bool := reTrue "^interface\\s+(\\Soopback)" t

/-- models_cisco.py:814-817 `is_ethernet_intf`. -/
def isEthernetIntf (t : Str) : Except Err Bool := reTrue "^interface\\s+(.*?\\Sthernet)" t

/-- models_cisco.py:821-831 `intf_in_portchannel`. -/
def intfInPortchannel (P : Parsed) (i : Nat) : Except Err Bool :=
  iterTyped P i "^\\s*channel-group\\s+(\\d+)" 1 toBool false

/-- models_cisco.py:835-845 `portchannel_number`. -/
def portchannelNumber (P : Parsed) (i : Nat) : Except Err Int :=
  iterTyped P i "^\\s*channel-group\\s+(\\d+)" 1 toInt (-1)

/-! ## Names -/

/-- models_cisco.py:1048 `name` of an interface. -/
def intfName (t : Str) : Str := join [' '] ((splitWs t).drop 1)

/-- models_cisco.py:936-938 `build_reset_string`. -/
def intfReset (t : Str) : Str := "default ".toList ++ t

/-- `s.lower()` for ASCII letters.  Simplification: other letters are left as they are. -/
def lowerChar (c : Char) : Char := if 65 ≤ c.toNat ∧ c.toNat ≤ 90 then Char.ofNat (c.toNat + 32) else c

/-- models_cisco.py:849-856 `is_portchannel_intf` of an interface line. -/
def isPortchannelIntf (t : Str) : Bool := isInfix "channel".toList ((intfName t).map lowerChar)

/-- models_cisco.py:989-1001 `interface_object`. -/
def interfaceObject (t : Str) : Except Err Intf.Intf := do
  if !(← isIntf t) then .error .invalidInterface
  else Intf.parse ((splitWs t).drop 1).flatten

/-- models_cisco.py:1053-1092 `port`. -/
def intfPort (t : Str) : Except Err Nat := do .ok (← interfaceObject t).port

/-- models_cisco.py:1097-1137 `port_type`: the default is a string, and the group takes part
in every match. -/
def portType (t : Str) : Except Err Str := do .ok ((← matchGroup t "^interface\\s+([A-Za-z\\-]+)" 1 []).getD [])

/-- models_cisco.py:1189-1200: -1 for what is not a number. -/
def ordOr : Option Nat → Int
  | some n => n
  | none => -1

/-- models_cisco.py:1142-1202 `ordinal_list`: the class is a string or None, so its entry is
-1. -/
def ordinalList (t : Str) : Except Err (List Int) := do
  if !(← isIntf t) then .ok []
  else
    let o ← interfaceObject t
    .ok [ordOr o.slot, ordOr o.card, ordOr (some o.port), ordOr o.sub, ordOr o.chan, -1]

/-- models_cisco.py:1207-1254 `interface_number`. -/
def interfaceNumber (t : Str) : Except Err Str := do
  if !(← isIntf t) then .ok []
  else .ok ((← matchGroup t "^interface\\s+[A-Za-z\\-]+\\s*(\\d+.*?)(\\.\\d+)*(\\s\\S+)*\\s*$" 1 []).getD [])

/-- models_cisco.py:1259-1306 `subinterface_number`. -/
def subinterfaceNumber (t : Str) : Except Err Str := do
  if !(← isIntf t) then .ok []
  else .ok ((← matchGroup t "^interface\\s+[A-Za-z\\-]+\\s*(\\d+.*?\\.?\\d?)(\\s\\S+)*\\s*$" 1 []).getD [])

/-- models_cisco.py:903-911 `_build_abbvs`: the prefixes of the type with the number, the
separator empty or a blank (a set in the code: here the list of its members). -/
def abbvs (t : Str) : Except Err (List Str) := do
  let p := (← portType t).map lowerChar
  let n ← subinterfaceNumber t
  .ok ([[], [' ']].flatMap (fun sep => (List.range p.length).map (fun k => p.take (k + 1) ++ sep ++ n)))

/-- models_cisco.py:1801-1805 `is_abbreviated_as`. -/
def isAbbreviatedAs (t v : Str) : Except Err Bool := do .ok ((← abbvs t).contains (v.map lowerChar))

end Cisco

import Verif.Cisco.Typed
import Verif.Cisco.Model

/-! # Model of the AAA lines of IOS and NXOS

The constructors of these classes read the text `t` of the line; the properties of a server
group read its children as well. -/

namespace Aaa

open Py Conf Query Re Cisco

/-- The two syntaxes with AAA classes. -/
inductive OS where
  | ios | nxos
  deriving DecidableEq, Repr

/-- Python's `t.split(r"\s")`: the separator is a backslash and the letter s. -/
def splitBs : Str → List Str
  | [] => [[]]
  | '\\' :: 's' :: t => [] :: splitBs t
  | c :: t =>
    match splitBs t with
    | [] => [[c]]
    | w :: ws => (c :: w) :: ws

/-- `list_name`, `group`, `methods`, and `level` where there is one. -/
structure Methods where
  level : Int
  listName : Str
  group : Str
  methods : List Str
  deriving DecidableEq, Repr

/-- models_cisco.py:3267-3273,3293-3299 and models_nxos.py:2329-2335,2352-2358: the constructor of
an authentication line, given its expression. -/
def authn (rx : String) (t : Str) : Except Err Methods := do
  let l ← matchTyped t rx 1 toStr []
  let g ← matchTyped t rx 2 toStr []
  let m ← matchTyped t rx 3 toStr []
  .ok ⟨0, l, g, splitBs (strip m)⟩

/-- models_cisco.py:3319-3326,3346-3353 and models_nxos.py:2375-2382,2399-2406: the constructor of
an authorization line, given its expression. -/
def authz (rx : String) (t : Str) : Except Err Methods := do
  let n ← matchTyped t rx 1 toInt 0
  let l ← matchTyped t rx 2 toStr []
  let g ← matchTyped t rx 3 toStr []
  let m ← matchTyped t rx 4 toStr []
  .ok ⟨n, l, g, splitBs (strip m)⟩

/-- models_cisco.py:3263-3273 and models_nxos.py:2325-2335: `aaa authentication login`. -/
def login (_ : OS) : Str → Except Err Methods := authn "^aaa\\sauthentication\\slogin\\s(\\S+)\\sgroup\\s(\\S+)(.+?)$"

/-- models_cisco.py:3289-3299 and models_nxos.py:2348-2358: `aaa authentication enable`. -/
def enable : OS → Str → Except Err Methods
  | .ios => authn "^aaa\\s+authentication\\s+enable\\s+(\\S+)\\s+group\\s+(\\S+)(.+?)$"
  | .nxos => authn "^aaa\\sauthentication\\senable\\s(\\S+)\\sgroup\\s(\\S+)(.+?)$"

/-- models_cisco.py:3315-3326 and models_nxos.py:2371-2382: `aaa authorization commands`. -/
def commandsAuthz : OS → Str → Except Err Methods
  | .ios => authz "^aaa\\s+authorization\\s+commands\\s+(\\d+)\\s+(\\S+)\\s+group\\s+(\\S+)(.+?)$"
  | .nxos => authz "^aaa\\sauthorization\\scommands\\s(\\d+)\\s(\\S+)\\sgroup\\s(\\S+)(.+?)$"

/-- models_cisco.py:3342-3353 and models_nxos.py:2395-2406: `aaa authorization console`. -/
def consoleAuthz : OS → Str → Except Err Methods
  | .ios => authz "^aaa\\s+authorization\\s+console\\s+(\\d+)\\s+(\\S+)\\s+group\\s+(\\S+)(.+?)$"
  | .nxos => authz "^aaa\\s+authorization\\s+console\\s+(\\d+)\\s(\\S+)\\s+group\\s+(\\S+)(.+?)$"

/-- `level`, `list_name`, `record_type` and `group` of an accounting line. -/
structure Records where
  level : Int
  listName : Str
  recordType : Str
  group : Str
  deriving DecidableEq, Repr

/-- models_cisco.py:3369-3381 and models_nxos.py:2419-2431: `aaa accounting commands`. -/
def commandsAcctRx : OS → String
  | .ios => "^aaa\\s+accounting\\s+commands\\s+(\\d+)\\s+(\\S+)\\s+(none|stop\\-only|start\\-stop)\\s+group\\s+(\\S+)$"
  | .nxos => "^aaa\\saccounting\\scommands\\s(\\d+)\\s(\\S+)\\s(none|stop\\-only|start\\-stop)\\sgroup\\s(\\S+)$"

/-- models_cisco.py:3369-3381 and models_nxos.py:2419-2431: its constructor. -/
def commandsAcct (os : OS) (t : Str) : Except Err Records := do
  let n ← matchTyped t (commandsAcctRx os) 1 toInt 0
  let l ← matchTyped t (commandsAcctRx os) 2 toStr []
  let r ← matchTyped t (commandsAcctRx os) 3 toStr []
  let g ← matchTyped t (commandsAcctRx os) 4 toStr []
  .ok ⟨n, l, r, g⟩

/-- models_cisco.py:3401 and models_nxos.py:2448: `aaa accounting exec`. -/
def execAcctRx : OS → String
  | .ios => "^aaa\\s+accounting\\s+exec\\s+(\\S+)\\s+(none|stop\\-only|start\\-stop)\\s+group\\s(\\S+)$"
  | .nxos => "^aaa\\saccounting\\sexec\\s(\\S+)\\s(none|stop\\-only|start\\-stop)\\sgroup\\s(\\S+)$"

/-- models_cisco.py:3397-3408 and models_nxos.py:2444-2455: its constructor (there is no level;
0 stands for it). -/
def execAcct (os : OS) (t : Str) : Except Err Records := do
  let l ← matchTyped t (execAcctRx os) 1 toStr []
  let r ← matchTyped t (execAcctRx os) 2 toStr []
  let g ← matchTyped t (execAcctRx os) 3 toStr []
  .ok ⟨0, l, r, g⟩

/-! ## Server groups -/

/-- models_cisco.py:3205-3216 and models_nxos.py:2276-2287: `(protocol, group)`; ValueError for another line. -/
def groupServer (t : Str) : Except Err (Str × Str) := do
  match ← Cisco.reSearch "^aaa\\sgroup\\sserver\\s(?P<protocol>\\S+)\\s(?P<group>\\S+)\\s*$" t with
  | some (p, m) => do .ok (← toStr (← m.group p 1), ← toStr (← m.group p 2))
  | none => .error .valueError

/-- models_cisco.py:3225-3233 and models_nxos.py:2295-2299 `vrf`. -/
def vrf : OS → Parsed → Nat → Except Err Str
  | .ios, P, i => iterTyped P i "^\\s+(ip\\s+)*vrf\\s+forwarding\\s+(\\S+)" 2 toStr []
  | .nxos, P, i => iterTyped P i "^\\s+use-vrf\\s+(\\S+)" 1 toStr []

/-- models_cisco.py:3235-3243 and models_nxos.py:2301-2308 `source_interface`. -/
def sourceInterface : OS → Parsed → Nat → Except Err Str
  | .ios, P, i => iterTyped P i "^\\s+ip\\s+tacacs\\s+source-interface\\s+(\\S.+?\\S)\\s*$" 1 toStr []
  | .nxos, P, i => iterTyped P i "^\\s+source-interface\\s+(\\S.+?\\S)\\s*$" 1 toStr []

/-- models_cisco.py:3249-3253 and models_nxos.py:2313-2317: the loop over the children; the set as
the list of what is added to it. -/
def serversT : List Str → Except Err (List Str)
  | [] => .ok []
  | t :: ts => do
    match ← Cisco.reSearch "^\\s+server-private\\s+(\\S+)\\s" t with
    | some (p, m) => do .ok ((← toStr (← m.group p 1)) :: (← serversT ts))
    | none => serversT ts

/-- models_cisco.py:3245-3254 and models_nxos.py:2310-2318 `server_private`. -/
def serverPrivate (P : Parsed) (i : Nat) : Except Err (List Str) := serversT (childTexts P i)

end Aaa

import Verif.Query.Text
import Verif.Misc.Words

/-! # Model of the methods that compare a configuration with required lines, and of the
searches of `CiscoConfParse` at the top of the configuration -/

namespace Query

open Py Conf

/-- An error of `re` as an exception. -/
def liftBad {α : Type} : Except Re.Bad α → Except Err α
  | .ok a => .ok a
  | .error _ => .error .reError

/-! ## `req_cfgspec_all_diff` -/

/-- ciscoconfparse.py:3535-3543: the line with the text `t` is the required line `r`.
(`ignore_ws` in 3524-3527.) -/
def isRequired (ws : Bool) (t r : Str) : Except Re.Bad Bool :=
  if ws then do
    let rx ← textRx (exactSpec true (wsSpec true r))
    .ok (rx.search (strip t))
  else .ok (strip t == strip r)

/-- ciscoconfparse.py:3534-3543: the inner loop, over the required lines; `skip` are the keys
of the dictionary. -/
def skipLine (ws : Bool) (t : Str) : List Str → List Str → Except Re.Bad (List Str)
  | [], skip => .ok skip
  | r :: rs, skip => do
    let b ← isRequired ws t r
    skipLine ws t rs (if b then r :: skip else skip)

/-- ciscoconfparse.py:3533-3543: the loops. -/
def skipLines (ws : Bool) (cfg : List Str) : List Str → List Str → Except Re.Bad (List Str)
  | [], skip => .ok skip
  | t :: ts, skip => do
    let skip' ← skipLine ws t cfg skip
    skipLines ws cfg ts skip'

/-- ciscoconfparse.py:3486-3550 `req_cfgspec_all_diff`. -/
def reqAllDiff (P : Parsed) (cfg : List Str) (ws : Bool) : Except Re.Bad (List Str) := do
  let objs ← findObjectsT P "[a-zA-Z]".toList false false
  let skip ← skipLines ws cfg (objs.map (fun i => (P.h i).text)) []
  .ok (cfg.filter (fun r => !skip.contains r))

/-! ## `req_cfgspec_excl_diff` -/

/-- ccp_abc.py:612: the expression. -/
def noRx : Str := chars!"^(\\s*)(no\\s+)(\\S.*)?$"

/-- ccp_abc.py:611-612: `re.sub(r"^(\s*)(no\s+)(\S.*)?$", "\3", unconftext)`.  The replacement
is the character with the number 3.  (The expression matches only at the beginning.) -/
def dropNo (t : Str) : Except Err Str := do
  let p ← liftBad (Re.compileL noRx)
  match Re.search p t with
  | some m => .ok ('\x03' :: t.drop m.text.length)
  | none => .ok t

/-- ccp_abc.py:592-616 `add_uncfgtext`: the text that the object gets. -/
def addUncfgtext (P : Parsed) (i : Nat) (t : Str) : Except Err Str := do
  let conf ← dropNo t
  .ok (spaces (P.h (P.h i).parent).childIndent ++ "no ".toList ++ conf)

/-- ciscoconfparse.py:3605-3618: the objects that are not accepted, with their new texts. -/
def violations (P : Parsed) (unc : Rx) (cfg : List Str) : List Nat → Except Err (List (Nat × Str))
  | [] => .ok []
  | i :: is =>
    if cfg.any (fun r => strip (P.h i).text == strip r) then violations P unc cfg is
    else
      match unc.find (P.h i).text with
      | none => .error .attributeError
      | some g => do
        let u ← addUncfgtext P i g
        let rest ← violations P unc cfg is
        .ok ((i, u) :: rest)

/-- ccp_abc.py:619-652 `uncfgtext` of an object, after `add_uncfgtext` for the objects in `vs`.
Simplification: no other call of `add_uncfgtext` came before. -/
def uncfgOf (P : Parsed) (vs : List (Nat × Str)) (i : Nat) : Except Err Str :=
  match vs.lookup i with
  | some u => .ok u
  | none => Misc.uncfgtext (P.h i).text

/-- ciscoconfparse.py:3983-3994 `_objects_to_uncfg`, with 3970-3979 `_unique_OBJ`. -/
def uncfgTexts (P : Parsed) (vs : List (Nat × Str)) : List Nat → Except Err (List Str)
  | [] => .ok []
  | i :: is => do
    let t ← (if vs.any (fun v => objEq (P.h v.1) (P.h i)) then uncfgOf P vs i else .ok (P.h i).text)
    let rest ← uncfgTexts P vs is
    .ok (t :: rest)

/-- ciscoconfparse.py:3558-3632 `req_cfgspec_excl_diff`. -/
def reqExclDiff (P : Parsed) (line unc : Rx) (cfg : List Str) : Except Err (List Str) := do
  let objs := findObjects P line
  let vs ← violations P unc cfg objs
  let uncfg := vs.flatMap (fun v => allParents P v.1 ++ [v.1])
  let texts ← uncfgTexts P vs (sortObjs P.h (setObjs P.h uncfg))
  .ok (texts ++ cfg.filter (fun r => !objs.any (fun i => strip (P.h i).text == strip r)))

/-! ## Searches at the top -/

/-- ciscoconfparse.py:3349-3373 `CiscoConfParse.re_search_children`. -/
def topSearchChildren (P : Parsed) (rx : Rx) (recurse : Bool) : List Nat :=
  if recurse = false then (findObjects P rx).filter (fun i => (P.h i).parent == i)
  else findObjects P rx

/-- ciscoconfparse.py:3466-3478: the loop over the lines. -/
def topMatchLoop {α β : Type} (P : Parsed) (group : Str → Option α) (typ : α → Except Err β)
    (default : α) (untyped : β) (untypedDefault : Bool) : List Nat → Except Err β
  | [] => if untypedDefault then .ok untyped else typ default
  | i :: is =>
    if (P.h i).parent == i then
      match group (P.h i).text with
      | some g => typ g
      | none => topMatchLoop P group typ default untyped untypedDefault is
    else topMatchLoop P group typ default untyped untypedDefault is

/-- ciscoconfparse.py:3377-3478 `CiscoConfParse.re_match_iter_typed`: `group t` is the group of
the match with the text `t` (if it matches), `typ` is `result_type`. -/
def topMatchIterTyped {α β : Type} (P : Parsed) (group : Str → Option α) (typ : α → Except Err β)
    (default : α) (untyped : β) (untypedDefault : Bool) : Except Err β :=
  topMatchLoop P group typ default untyped untypedDefault P.list

end Query

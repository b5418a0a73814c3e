import Verif.Query.Model

/-! # Model of the edits of `CiscoConfParse`, `ConfigList` and `BaseCfgLine`

The state is a `Conf.Parsed`: every object made so far (`n` of them, also those that
are no longer listed, because the user or other objects may still refer to them) and
the current list.  A failing call is an error value; the partial effects of a call that
raises are not modelled.

A regular expression given by the user is a `Query.Rx`.  Some edits use the *text of a
line* as a regular expression; `Compile` says what `re` makes of a text (`none`: it
raises `re.error`).  The second argument of `re.sub` and its effect on a text is an
arbitrary function `Str → Str`. -/

namespace Edit

open Py Conf Query

/-- `re.compile`. -/
abbrev Compile := Str → Option Rx

/-! ## Python lists -/

/-- The position that `l[k]` means, for a list of length `n`. -/
def pyIndex (n : Nat) (k : Int) : Option Nat :=
  if 0 ≤ k ∧ k < n then some k.toNat
  else if k < 0 ∧ 0 ≤ k + n then some (k + n).toNat
  else none

/-- `del l[k]`. -/
def delAt (l : List Nat) (k : Int) : Except Err (List Nat) :=
  match pyIndex l.length k with
  | none => .error .indexError
  | some j => .ok (l.eraseIdx j)

/-- `l.insert(k, x)`. -/
def pyInsert (l : List Nat) (k : Int) (x : Nat) : List Nat :=
  let j := if k < 0 then (k + l.length).toNat else k.toNat
  l.take j ++ x :: l.drop j

/-! ## Line numbers and re-parsing -/

/-- ciscoconfparse.py:5908-5911: the loop of `reassign_linenums`. -/
def renumber : Nat → List Nat → Heap → Heap
  | _, [], h => h
  | k, i :: l, h => renumber (k + 1) l (upd h i (fun b => { b with linenum := k }))

/-- ciscoconfparse.py:5908-5911 `reassign_linenums`. -/
def reassign (P : Parsed) : Parsed := { P with h := renumber 0 P.list P.h }

/-- An object of a new parse, with the names it refers to moved behind the old ones. -/
def moveObj (k : Nat) (b : Obj) : Obj :=
  { b with parent := b.parent + k, children := b.children.map (· + k) }

/-- The state after a new parse `Q` whose objects become the listed ones. -/
def embed (P Q : Parsed) : Parsed :=
  { h := fun j => if j < P.n then P.h j else moveObj P.n (Q.h (j - P.n))
    n := P.n + Q.n
    list := Q.list.map (· + P.n) }

/-- ciscoconfparse.py:981-1010 `atomic` and `commit`; also the `atomic=True` branches
5359-5362 and 5480-5483, and 5058. -/
def atomic (o : Opts) (P : Parsed) : Except Err Parsed := do .ok (embed P (← bootstrap o P.texts))

/-! ## Deleting -/

/-- `sorted(.., reverse=True)` of line objects. -/
def sortDesc (h : Heap) (l : List Nat) : List Nat :=
  sortBy (fun a b => decide ((h b).linenum ≤ (h a).linenum)) l

/-- ccp_abc.py:696-702: `del self.confobj._list[obj.linenum]` for each object. -/
def delAll (h : Heap) : List Nat → List Nat → Except Err (List Nat)
  | [], l => .ok l
  | j :: js, l => do delAll h js (← delAt l (h j).linenum)

/-- ccp_abc.py:668-722 `delete(recurse)`, and the wrapper ccp_util.py:452-469, which reads
`confobj.syntax` first. -/
def delete (P : Parsed) (i : Nat) (recurse : Bool) : Except Err Parsed :=
  if (P.h i).owned = false then .error .attributeError
  else if recurse then do
    let l ← delAll P.h (sortDesc P.h (setObjs P.h (i :: allChildren P i))) P.list
    .ok (reassign { P with list := l })
  else
    match pyIndex P.list.length (P.h i).linenum with
    | none => .error .indexError
    | some k =>
      if (P.h (P.list.getD k 0)).text = (P.h i).text then
        .ok (reassign { P with list := P.list.eraseIdx k })
      else .error .assertion

/-- Delete several objects one after the other. -/
def deleteEach : List Nat → Parsed → Except Err Parsed
  | [], P => .ok P
  | i :: is, P => do deleteEach is (← delete P i true)

/-- ciscoconfparse.py:3060-3068 `delete_lines`. -/
def deleteLines (P : Parsed) (rx : Rx) : Except Err Parsed :=
  deleteEach (findObjects P rx).reverse P

/-- ccp_abc.py:726-777 `delete_children_matching`. -/
def deleteChildrenMatching (P : Parsed) (i : Nat) (rx : Rx) : Except Err Parsed :=
  if (P.h i).owned = false then .error .attributeError
  else deleteEach ((P.h i).children.filter (fun c => reSearch rx (P.h c).text)) P

/-- ciscoconfparse.py:5055-5058 `ConfigList.__delitem__`. -/
def delItem (o : Opts) (P : Parsed) (k : Int) : Except Err Parsed := do
  atomic o { P with list := ← delAt P.list k }

/-! ## Inserting -/

/-- ccp_abc.py:60-91: an object made by an edit; it has no `confobj` and line number -1
until the list is renumbered. -/
def newObj (o : Opts) (txt : Str) (i : Nat) : Obj :=
  { mkObj o txt i with linenum := -1, owned := false }

/-- ciscoconfparse.py:5350-5354, 5472-5476: the positions of the matching lines. -/
def matchIdx (P : Parsed) (rx : Rx) : List Nat :=
  (List.range P.list.length).filter (fun k => rx.search (P.h (P.list.getD k 0)).text)

/-- ciscoconfparse.py:5355-5357, 5477-5478: the *same* new object at each position, from
the last to the first; then the numbers (5366, 5486). -/
def putNew (o : Opts) (P : Parsed) (new : Str) (idx : List Nat) : Parsed :=
  reassign
    { h := upd P.h P.n (fun _ => newObj o new P.n)
      n := P.n + 1
      list := idx.reverse.foldl (fun l (k : Nat) => pyInsert l k P.n) P.list }

/-- ciscoconfparse.py:5300, 5422, 3094: a blank line that must not be inserted. -/
def blankNew (o : Opts) (new : Str) : Bool := (strip new).isEmpty && o.ignoreBlank

/-- ciscoconfparse.py:5259-5366 `ConfigList.insert_before(exist_val, new_val)` with a
string `exist_val`. -/
def listInsertBefore (o : Opts) (P : Parsed) (rx : Rx) (new : Str) : Except Err Parsed :=
  if blankNew o new then .error .invalidParameters
  else if rx.lit = [] then .error .valueError
  else .ok (putNew o P new (matchIdx P rx))

/-- ciscoconfparse.py:5371-5486 `ConfigList.insert_after(exist_val, new_val)` with a
string `exist_val`. -/
def listInsertAfter (o : Opts) (P : Parsed) (rx : Rx) (new : Str) : Except Err Parsed :=
  if blankNew o new then .error .invalidParameters
  else if rx.lit = [] then .error .valueError
  else .ok (putNew o P new ((matchIdx P rx).map (· + 1)))

/-- ciscoconfparse.py:5371-5486 `ConfigList.insert_after(exist_val, new_val)` with a line
object `exist_val`: its text is used as a regular expression. -/
def listInsertAfterObj (o : Opts) (C : Compile) (P : Parsed) (i : Nat) (new : Str) :
    Except Err Parsed :=
  if blankNew o new then .error .invalidParameters
  else
    match C (P.h i).text with
    | some rx => .ok (putNew o P new ((matchIdx P rx).map (· + 1)))
    | none => if P.list = [] then .ok (putNew o P new []) else .error .reError

/-- ciscoconfparse.py:2879-2881, 2997-2999: the consistency check on one object. -/
def indentOk (b : Obj) : Bool := b.text.length - (lstrip b.text).length == b.indent

/-- ciscoconfparse.py:2883-2890, 3001-3008: the text to insert. -/
def indented (new : Str) (newIndent : Int) : Str :=
  if newIndent ≥ 0 then spaces newIndent.toNat ++ lstrip new else new

/-- ciscoconfparse.py:2877-2890, 2995-3008: insert once *for each object found*; `ins` is
the insertion of `ConfigList`, which looks for all matches itself. -/
def insertEach (ins : Parsed → Except Err Parsed) : List Nat → Parsed → Except Err Parsed
  | [], P => .ok P
  | i :: is, P => if indentOk (P.h i) then do insertEach ins is (← ins P) else .error .requirement

/-- ciscoconfparse.py:2776-2894 `CiscoConfParse.insert_before`; `found` is the expression
of `find_objects` (which differs from `rx` with `exactmatch`). -/
def insertBefore (o : Opts) (P : Parsed) (found rx : Rx) (new : Str) (newIndent : Int) (atom : Bool) :
    Except Err Parsed :=
  if rx.lit = [] ∨ new = [] then .error .valueError
  else do
    let Q ← insertEach (fun Q => listInsertBefore o Q rx (indented new newIndent)) (findObjects P found) P
    if atom then atomic o Q else .ok Q

/-- ciscoconfparse.py:2898-3012 `CiscoConfParse.insert_after`. -/
def insertAfter (o : Opts) (P : Parsed) (found rx : Rx) (new : Str) (newIndent : Int) (atom : Bool) :
    Except Err Parsed := do
  let Q ← insertEach (fun Q => listInsertAfter o Q rx (indented new newIndent)) (findObjects P found) P
  if atom then atomic o Q else .ok Q

/-- ccp_abc.py:795-818 `obj.insert_before(insertstr)`: the text of the object is used as a
regular expression. -/
def objInsertBefore (o : Opts) (C : Compile) (P : Parsed) (i : Nat) (new : Str) : Except Err Parsed :=
  if (P.h i).owned = false then .error .attributeError
  else if blankNew o new then .error .invalidParameters
  else if (P.h i).text = [] then .error .valueError
  else
    match C (P.h i).text with
    | some rx => .ok (putNew o P new (matchIdx P rx))
    | none => if P.list = [] then .ok (putNew o P new []) else .error .reError

/-- ccp_abc.py:822-857 `obj.insert_after(insertstr)` for a string. -/
def objInsertAfter (o : Opts) (C : Compile) (P : Parsed) (i : Nat) (new : Str) : Except Err Parsed :=
  if (P.h i).owned = false then .error .attributeError
  else if blankNew o new then .error .invalidParameters
  else if (P.h i).text = [] then .error .valueError
  else
    match C (P.h i).text with
    | some rx => .ok (putNew o P new ((matchIdx P rx).map (· + 1)))
    | none => if P.list = [] then .ok (putNew o P new []) else .error .reError

/-- ccp_abc.py:919-922: the text that `append_to_family` inserts. -/
def familyText (b : Obj) (s : Str) (indent : Int) (width : Nat) (auto : Bool) : Str :=
  if auto then spaces (b.indent + width) ++ lstrip s
  else if indent > 0 then spaces (b.indent + indent.toNat) ++ lstrip s
  else s

/-- ccp_abc.py:925-930: the object after which the new line goes. -/
def familyLast (P : Parsed) (i : Nat) : Nat := (allChildren P i).getLastD i

/-- ccp_abc.py:861-931 `append_to_family`. -/
def appendToFamily (o : Opts) (C : Compile) (P : Parsed) (i : Nat) (s : Str) (indent : Int)
    (width : Nat) (auto : Bool) : Except Err Parsed :=
  if (P.h i).owned = false then .error .attributeError
  else listInsertAfterObj o C P (familyLast P i) (familyText (P.h i) s indent width auto)

/-- ciscoconfparse.py:5491-5523 `ConfigList.insert` (with `factory`,
`config_line_factory(text=..)` is called, which has no such parameter). -/
def insertAt (o : Opts) (P : Parsed) (k : Int) (new : Str) : Except Err Parsed :=
  if o.factory then .error .typeError
  else .ok (reassign
    { h := upd P.h P.n (fun _ => newObj o new P.n)
      n := P.n + 1
      list := pyInsert P.list k P.n })

/-- ciscoconfparse.py:3072-3076 `prepend_line`. -/
def prependLine (o : Opts) (P : Parsed) (new : Str) : Except Err Parsed := insertAt o P 0 new

/-- ccp_abc.py:30. -/
def defaultText : Str := "__undefined__".toList

/-- ciscoconfparse.py:3080-3107 `append_line(linespec)` for a string: `IOSCfgLine(linespec)`
passes it as `all_lines` (ccp_abc.py:60), so the text of the new object is the default. -/
def appendLine (o : Opts) (P : Parsed) (new : Str) : Except Err Parsed :=
  if blankNew o new then .error .invalidParameters
  else atomic o
    { h := upd P.h P.n (fun _ => newObj {} defaultText P.n)
      n := P.n + 1
      list := P.list ++ [P.n] }

/-- `excludespec` does not exclude the text. -/
def notExcluded (excl : Option Rx) (t : Str) : Bool :=
  match excl with
  | some e => !e.search t
  | none => true

/-- ciscoconfparse.py:3042-3055: the children of one parent. -/
def insertAfterKids (o : Opts) (C : Compile) (child : Rx) (excl : Option Rx) (new : Str) (atom : Bool) :
    List Nat → Parsed → Except Err Parsed
  | [], P => .ok P
  | c :: cs, P =>
    if !notExcluded excl (P.h c).text then
      insertAfterKids o C child excl new atom cs P
    else if child.search (P.h c).text then do
      let Q ← listInsertAfterObj o C P c new
      let Q ← if atom then atomic o Q else .ok Q
      insertAfterKids o C child excl new atom cs Q
    else insertAfterKids o C child excl new atom cs P

/-- ciscoconfparse.py:3038-3055: the parents. -/
def insertAfterChildren (o : Opts) (C : Compile) (child : Rx) (excl : Option Rx) (new : Str)
    (atom : Bool) : List Nat → Parsed → Except Err Parsed
  | [], P => .ok P
  | p :: ps, P =>
    if !notExcluded excl (P.h p).text then
      insertAfterChildren o C child excl new atom ps P
    else do
      insertAfterChildren o C child excl new atom ps
        (← insertAfterKids o C child excl new atom (P.h p).children P)

/-- ciscoconfparse.py:3016-3056 `insert_after_child`. -/
def insertAfterChild (o : Opts) (C : Compile) (P : Parsed) (parent child : Rx) (excl : Option Rx)
    (new : Str) (atom : Bool) : Except Err Parsed :=
  insertAfterChildren o C child excl new atom (findObjects P parent) P

/-! ## Replacing -/

/-- ccp_abc.py:1035-1094 `re_sub` (without `ignore_rgx`): a blank result deletes the line;
the indent is left as it was. -/
def reSub (o : Opts) (P : Parsed) (i : Nat) (sub : Str → Str) : Except Err Parsed :=
  let t := sub (P.h i).text
  if (strip t).isEmpty then delete P i true
  else .ok { P with h := upd P.h i (fun b => { b with text := t, isComment := isCommentText o.delims t }) }

/-- The loops ciscoconfparse.py:3214-3218 (`pick` is "not excluded") and 3299-3306,
3333-3340 (`pick` is "not excluded and matching"). -/
def replaceEach (o : Opts) (pick : Str → Bool) (sub : Str → Str) : List Nat → Parsed → Except Err Parsed
  | [], P => .ok P
  | i :: is, P =>
    if pick (P.h i).text then do replaceEach o pick sub is (← reSub o P i sub)
    else replaceEach o pick sub is P

/-- ciscoconfparse.py:3220-3221: re-parse only with `factory`. -/
def finish (o : Opts) (atom : Bool) (P : Parsed) : Except Err Parsed :=
  if o.factory ∧ atom then atomic o P else .ok P

/-- ciscoconfparse.py:3111-3223 `replace_lines`; `found` is the expression of
`_find_line_OBJ`, `sub` is `re.sub(linespec, replacestr, ·)`. -/
def replaceLines (o : Opts) (P : Parsed) (found : Rx) (sub : Str → Str) (excl : Option Rx)
    (atom : Bool) : Except Err Parsed := do
  finish o atom (← replaceEach o (notExcluded excl) sub (findObjects P found) P)

/-- ciscoconfparse.py:3956-3967 `_find_all_child_OBJ`: children and grandchildren. -/
def twoLevels (P : Parsed) (i : Nat) : List Nat :=
  sortObjs P.h (setObjs P.h ((P.h i).children ++ (P.h i).children.flatMap (fun c => (P.h c).children)))

/-- ciscoconfparse.py:3295-3306, 3329-3340: the parents. -/
def replaceParents (o : Opts) (kids : Parsed → Nat → List Nat) (child : Rx) (sub : Str → Str)
    (excl : Option Rx) : List Nat → Parsed → Except Err Parsed
  | [], P => .ok P
  | p :: ps, P =>
    if notExcluded excl (P.h p).text then do
      replaceParents o kids child sub excl ps
        (← replaceEach o (fun t => notExcluded excl t && child.search t) sub (kids P p) P)
    else replaceParents o kids child sub excl ps P

/-- ciscoconfparse.py:3227-3310 `replace_children`. -/
def replaceChildren (o : Opts) (P : Parsed) (parent child : Rx) (sub : Str → Str) (excl : Option Rx)
    (atom : Bool) : Except Err Parsed := do
  finish o atom (← replaceParents o (fun Q i => (Q.h i).children) child sub excl (findObjects P parent) P)

/-- ciscoconfparse.py:3314-3345 `replace_all_children`. -/
def replaceAllChildren (o : Opts) (P : Parsed) (parent child : Rx) (sub : Str → Str)
    (excl : Option Rx) (atom : Bool) : Except Err Parsed := do
  finish o atom (← replaceParents o twoLevels child sub excl (findObjects P parent) P)

/-! ## Histories -/

/-- The edits, with their arguments. -/
inductive Op where
  | delete (i : Nat) (recurse : Bool)
  | deleteLines (rx : Rx)
  | deleteChildrenMatching (i : Nat) (rx : Rx)
  | delItem (k : Int)
  | listInsertBefore (rx : Rx) (new : Str)
  | listInsertAfter (rx : Rx) (new : Str)
  | insertBefore (found rx : Rx) (new : Str) (newIndent : Int) (atom : Bool)
  | insertAfter (found rx : Rx) (new : Str) (newIndent : Int) (atom : Bool)
  | objInsertBefore (i : Nat) (new : Str)
  | objInsertAfter (i : Nat) (new : Str)
  | appendToFamily (i : Nat) (s : Str) (indent : Int) (width : Nat) (auto : Bool)
  | insertAt (k : Int) (new : Str)
  | prependLine (new : Str)
  | appendLine (new : Str)
  | insertAfterChild (parent child : Rx) (excl : Option Rx) (new : Str) (atom : Bool)
  | reSub (i : Nat) (sub : Str → Str)
  | replaceLines (found : Rx) (sub : Str → Str) (excl : Option Rx) (atom : Bool)
  | replaceChildren (parent child : Rx) (sub : Str → Str) (excl : Option Rx) (atom : Bool)
  | replaceAllChildren (parent child : Rx) (sub : Str → Str) (excl : Option Rx) (atom : Bool)
  | commit

/-- An object the user can have: one that was made. -/
def known (P : Parsed) (i : Nat) (r : Except Err Parsed) : Except Err Parsed :=
  if i < P.n then r else .error .nameError

/-- One edit. -/
def Op.run (o : Opts) (C : Compile) (P : Parsed) : Op → Except Err Parsed
  | .delete i r => known P i (Edit.delete P i r)
  | .deleteLines rx => Edit.deleteLines P rx
  | .deleteChildrenMatching i rx => known P i (Edit.deleteChildrenMatching P i rx)
  | .delItem k => Edit.delItem o P k
  | .listInsertBefore rx new => Edit.listInsertBefore o P rx new
  | .listInsertAfter rx new => Edit.listInsertAfter o P rx new
  | .insertBefore found rx new k a => Edit.insertBefore o P found rx new k a
  | .insertAfter found rx new k a => Edit.insertAfter o P found rx new k a
  | .objInsertBefore i new => known P i (Edit.objInsertBefore o C P i new)
  | .objInsertAfter i new => known P i (Edit.objInsertAfter o C P i new)
  | .appendToFamily i s k w a => known P i (Edit.appendToFamily o C P i s k w a)
  | .insertAt k new => Edit.insertAt o P k new
  | .prependLine new => Edit.prependLine o P new
  | .appendLine new => Edit.appendLine o P new
  | .insertAfterChild p c e new a => Edit.insertAfterChild o C P p c e new a
  | .reSub i sub => known P i (Edit.reSub o P i sub)
  | .replaceLines f sub e a => Edit.replaceLines o P f sub e a
  | .replaceChildren p c sub e a => Edit.replaceChildren o P p c sub e a
  | .replaceAllChildren p c sub e a => Edit.replaceAllChildren o P p c sub e a
  | .commit => Edit.atomic o P

/-- A sequence of edits. -/
def runAll (o : Opts) (C : Compile) : List Op → Parsed → Except Err Parsed
  | [], P => .ok P
  | op :: ops, P => do runAll o C ops (← op.run o C P)

end Edit

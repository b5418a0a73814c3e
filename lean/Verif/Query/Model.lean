import Verif.Conf.Model

/-! # Model of the queries of `CiscoConfParse` and `BaseCfgLine`

A configuration is a `Conf.Parsed`.  A user's regular expression is an arbitrary
function: for each text, the part it matches first, if any.  Invalid regular
expressions (which raise `re.error`), `ignore_ws` and `escape_chars` (which rewrite
the expression before it is used), and specs that are not strings are not modelled.
`sorted(set(..))` is `sortBy` of `dedupBy`; objects in a set are compared with
`BaseCfgLine.__eq__`, sorting is by line number. -/

namespace Query

open Py Conf

/-- A regular expression: its text, and what it matches in a text. -/
structure Rx where
  lit : Str
  find : Str → Option Str

/-- `re.search(rx, t)` is not None. -/
def Rx.search (rx : Rx) (t : Str) : Bool := (rx.find t).isSome

/-- ccp_abc.py:1143-1171 `re_search(rx)` (default ""), as a truth value: the substring
shortcut first, then the regular expression; the value is the text, which is false
when empty. -/
def reSearch (rx : Rx) (t : Str) : Bool :=
  if isInfix rx.lit t then !t.isEmpty
  else if rx.search t then !t.isEmpty
  else false

/-- ccp_abc.py:1097-1140 `re_match("(rx)", default=False)`, as a truth value: the group
is false when it is empty. -/
def reMatch (rx : Rx) (t : Str) : Bool :=
  match rx.find t with
  | some g => !g.isEmpty
  | none => false

/-- `sorted(..)` of line objects (ccp_abc.py:160-173). -/
def sortObjs (h : Heap) (l : List Nat) : List Nat :=
  sortBy (fun a b => decide ((h a).linenum ≤ (h b).linenum)) l

/-- `set(..)` of line objects. -/
def setObjs (h : Heap) (l : List Nat) : List Nat := dedupBy (fun a b => objEq (h a) (h b)) l

/-- ccp_abc.py:524-531 `all_children`; the recursion has a bound, see `Conf.Parsed.n`. -/
def allChildrenAux (h : Heap) : Nat → Nat → List Nat
  | 0, _ => []
  | f + 1, i =>
    sortObjs h (setObjs h ((h i).children.flatMap (fun c => c :: allChildrenAux h f c)))

/-- ccp_abc.py:524-531 `all_children`. -/
def allChildren (P : Parsed) (i : Nat) : List Nat := allChildrenAux P.h P.n i

/-- ccp_abc.py:515-520: the parents met on the way up. -/
def parentsUp (h : Heap) : Nat → Nat → List Nat
  | 0, _ => []
  | f + 1, i =>
    if objEq (h (h i).parent) (h i) then []
    else (h i).parent :: parentsUp h f (h i).parent

/-- ccp_abc.py:514-521 `all_parents`. -/
def allParents (P : Parsed) (i : Nat) : List Nat := sortObjs P.h (setObjs P.h (parentsUp P.h P.n i))

/-- ccp_abc.py:480-488 `family_endpoint`. -/
def familyEndpoint (P : Parsed) (i : Nat) : Int :=
  match (allChildren P i).getLast? with
  | none => (P.h i).linenum
  | some j => (P.h j).linenum

/-- ccp_abc.py:1445-1455 `lineage`. -/
def lineage (P : Parsed) (i : Nat) : List Nat :=
  let retval := allParents P i ++ [i]
  let retval := if (P.h i).children ≠ [] then retval ++ allChildren P i else retval
  sortObjs P.h retval

/-- ccp_abc.py:1458-1466 `geneology`. -/
def geneology (P : Parsed) (i : Nat) : List Nat := sortObjs P.h (allParents P i) ++ [i]

/-- ccp_abc.py:1489-1492 `siblings`. -/
def siblings (P : Parsed) (i : Nat) : List Nat :=
  (P.h (P.h i).parent).children.filter (fun j => (P.h j).indent == (P.h i).indent)

/-- ccp_abc.py:1436-1442 `ioscfg` of one object. -/
def objIoscfg (P : Parsed) (i : Nat) : List Str :=
  (P.h i).text :: (allChildren P i).map (fun j => (P.h j).text)

/-- ccp_abc.py:1174-1191 `re_search_children`. -/
def reSearchChildren (P : Parsed) (i : Nat) (rx : Rx) (recurse : Bool) : List Nat :=
  (if recurse then allChildren P i else (P.h i).children).filter (fun c => reSearch rx (P.h c).text)

/-- ciscoconfparse.py:3921-3944 `_find_line_OBJ`, 1420-1469 `find_objects`. -/
def findObjects (P : Parsed) (rx : Rx) : List Nat := P.list.filter (fun i => rx.search (P.h i).text)

/-- ciscoconfparse.py:1473-1500 `find_lines`. -/
def findLines (P : Parsed) (rx : Rx) : List Str := P.texts.filter rx.search

/-- ciscoconfparse.py:2763-2772 `has_line_with`. -/
def hasLineWith (P : Parsed) (rx : Rx) : Bool := P.texts.any rx.search

/-- ciscoconfparse.py:1504-1555 `find_children`: the objects whose texts it returns. -/
def findChildren (P : Parsed) (rx : Rx) : List Nat :=
  sortObjs P.h (setObjs P.h ((findObjects P rx).flatMap (fun p => (P.h p).children ++ [p])))

/-- ciscoconfparse.py:1559-1633 `find_all_children`: the objects whose texts it returns. -/
def findAllChildren (P : Parsed) (rx : Rx) : List Nat :=
  sortObjs P.h (setObjs P.h ((findObjects P rx).flatMap (fun p => p :: allChildren P p)))

/-- ciscoconfparse.py:1637-1756 `find_blocks`: the objects whose texts it returns. -/
def findBlocks (P : Parsed) (rx : Rx) : List Nat :=
  let tmp := setObjs P.h ((findObjects P rx).flatMap (fun i => i :: (P.h (P.h i).parent).children))
  sortObjs P.h (setObjs P.h (tmp ++ tmp.flatMap (allParents P)))

/-- ciscoconfparse.py:1789-1938 `find_parent_objects(parentspec, childspec)` for two
strings; also 1760-1785 `find_objects_w_child`. -/
def findParentObjects (P : Parsed) (p c : Rx) (recurse : Bool) : List Nat :=
  (findObjects P p).filter (fun i => !(reSearchChildren P i c recurse).isEmpty)

/-- ciscoconfparse.py:1887-1909: `find_parent_objects([p, c1, c2, ..])`. -/
def findParentObjectsList (P : Parsed) (p : Rx) (recurse : Bool) : List Rx → List Nat → List Nat
  | [], results => sortObjs P.h (setObjs P.h results)
  | c :: cs, results =>
    let values := findParentObjects P p c recurse
    if values = [] then [] else findParentObjectsList P p recurse cs (results ++ values)

/-- ciscoconfparse.py:1942-2061 `find_objects_w_all_children`. -/
def findWAllChildren (P : Parsed) (p : Rx) (cs : List Rx) (recurse : Bool) : List Nat :=
  (findObjects P p).filter (fun i => cs.all (fun c => !(reSearchChildren P i c recurse).isEmpty))

/-- ciscoconfparse.py:2065-2115 `find_objects_w_missing_children` (direct children only). -/
def findWMissingChildren (P : Parsed) (p : Rx) (cs : List Rx) : List Nat :=
  (findObjects P p).filter (fun i => cs.any (fun c => (reSearchChildren P i c false).isEmpty))

/-- ciscoconfparse.py:2119-2203 `find_parents_w_child`. -/
def findParentsWChild (P : Parsed) (p c : Rx) : List Str :=
  (findParentObjects P p c false).map (fun i => (P.h i).text)

/-- ciscoconfparse.py:2228-2336 `find_parent_objects_wo_child`. -/
def findParentObjectsWoChild (P : Parsed) (p c : Rx) (recurse : Bool) : List Nat :=
  (findObjects P p).filter (fun i => (reSearchChildren P i c recurse).isEmpty)

/-- ciscoconfparse.py:2340-2423 `find_parents_wo_child`. -/
def findParentsWoChild (P : Parsed) (p c : Rx) : List Str :=
  (findParentObjectsWoChild P p c false).map (fun i => (P.h i).text)

/-- ciscoconfparse.py:2427-2534 `find_children_w_parents`: the objects whose texts it
returns. -/
def findChildrenWParents (P : Parsed) (p c : Rx) : List Nat :=
  sortObjs P.h (setObjs P.h ((findObjects P c).filter (fun i =>
    (allParents P i).any (fun q => p.search (P.h q).text))))

/-- ciscoconfparse.py:2562-2730 `find_child_objects(parentspec, childspec)` for two
strings; also (with `recurse=False`) 2538-2558 `find_objects_w_parents`. -/
def findChildObjects (P : Parsed) (p c : Rx) (recurse : Bool) : List Nat :=
  sortObjs P.h (setObjs P.h ((findObjects P p).flatMap (fun i =>
    (if recurse then allChildren P i else (P.h i).children).filter (fun j => reMatch c (P.h j).text))))

/-- ciscoconfparse.py:2660-2686: `find_child_objects([p, c1, .., ck])`. -/
def findChildObjectsList (P : Parsed) (p : Rx) (recurse : Bool) : List Rx → List Nat
  | [] => []
  | [c] => findChildObjects P p c recurse
  | c :: cs => if findChildObjects P p c recurse = [] then [] else findChildObjectsList P p recurse cs

/-- ciscoconfparse.py:2734-2759 `find_lineage`: `tmp[0]` raises when nothing matches. -/
def findLineage (P : Parsed) (rx : Rx) : Except Err (List Str) :=
  match findObjects P rx with
  | [] => .error .indexError
  | [i] => .ok ((lineage P i).map (fun j => (P.h j).text))
  | _ => .error .valueError

/-! ## Branches -/

/-- One element of a branchspec: the expression compiled without and with the
`regex_flags` of the call. -/
structure Level where
  plain : Rx
  flagged : Rx

/-- ciscoconfparse.py:1165-1172: the objects to choose from. -/
def candidates (P : Parsed) (parent : Option Nat) (l : Level) : List Nat :=
  match parent with
  | none => findObjects P l.plain
  | some i => (P.h i).children

/-- ciscoconfparse.py:1132-1191 `list_matching_children`: `[None]` when there is none. -/
def matchingChildren (P : Parsed) (parent : Option Nat) (l : Level) : List (Option Nat) :=
  let segment := (candidates P parent l).filter (fun c => l.flagged.search (P.h c).text)
  if segment = [] then [none] else segment.map some

/-- ciscoconfparse.py:1211-1236: extend every branch. -/
def growBranches (P : Parsed) (l : Level) (branches : List (List (Option Nat))) :
    List (List (Option Nat)) :=
  branches.flatMap (fun b =>
    match b.getLast? with
    | some (some i) => (matchingChildren P (some i) l).map (fun k => b ++ [k])
    | _ => [b ++ [none]])

/-- ciscoconfparse.py:1012-1282 `find_object_branches` (without `regex_groups`).  With a
single level `new_branches` is never assigned. -/
def findObjectBranches (P : Parsed) : List Level → Except Err (List (List (Option Nat)))
  | [] => .error .valueError
  | [_] => .error .unbound
  | l :: ls => .ok (ls.foldl (fun bs l => growBranches P l bs)
      ((matchingChildren P none l).map (fun k => [k])))

end Query

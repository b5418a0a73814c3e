import Verif.Py

/-! # Model of the parser: configuration lines and `ConfigList.bootstrap_obj_init_ng`

A parsed configuration is a heap of line objects.  An object is named by a
number; inside one parse the number is the index of the line in the text list.
Python's object identity is equality of these numbers.

Not modelled: loguru calls, `debug` output, the classes chosen by
`factory=True` (they do not change text, indent, parent or children), and the
first of the two identical `bootstrap_obj_init_ng` calls of
`ConfigList.__init__` (ciscoconfparse.py:4968,4972), whose objects are dropped. -/

namespace Conf

open Py

/-- ccp_abc.py:35-91: the attributes of `BaseCfgLine` that parsing uses.
`owned` is "confobj is not None". -/
structure Obj where
  text : Str
  indent : Nat
  isComment : Bool
  linenum : Int
  parent : Nat
  children : List Nat
  childIndent : Nat
  blankKeep : Bool
  owned : Bool
  deriving DecidableEq, Repr, Inhabited

/-- The heap. -/
abbrev Heap := Nat → Obj

/-- Change one object. -/
def upd (h : Heap) (i : Nat) (f : Obj → Obj) : Heap := fun j => if j = i then f (h i) else h j

/-- ciscoconfparse.py:168-178: the accepted syntaxes. -/
inductive Syntax where
  | ios | nxos | iosxr | asa | junos
  deriving DecidableEq, Repr

/-- The options of `CiscoConfParse()` that reach the parser. -/
structure Opts where
  delims : List Char := ['!']
  ignoreBlank : Bool := true
  factory : Bool := false
  syn : Syntax := .ios
  deriving DecidableEq, Repr

/-! ## One line -/

/-- ccp_abc.py:414-420: the stored text. -/
def lineText (s : Str) : Str := rstrip s

/-- ccp_abc.py:414-416: the indent. -/
def lineIndent (s : Str) : Nat := (rstrip s).length - (lstrip (rstrip s)).length

/-- ccp_abc.py:215-226 `set_comment_bool` (on the stored text). -/
def isCommentText (delims : List Char) (t : Str) : Bool :=
  match lstrip t with
  | [] => false
  | c :: _ => delims.contains c

/-- ccp_abc.py:60-91 `BaseCfgLine.__init__` with the `text` setter (397-427), and
ciscoconfparse.py:452 (`obj.linenum = idx`), 5773 (`obj.confobj = self`).
A new object is its own parent. -/
def mkObj (o : Opts) (txt : Str) (idx : Nat) : Obj :=
  { text := lineText txt
    indent := lineIndent txt
    isComment := isCommentText o.delims (lineText txt)
    linenum := idx
    parent := idx
    children := []
    childIndent := 0
    blankKeep := false
    owned := true }

/-- ccp_abc.py:547-554 `is_config_line`. -/
def Obj.isConfig (b : Obj) : Bool := !(strip b.text).isEmpty && !b.isComment

/-! ## The indentation pass -/

/-- The loop variables of `bootstrap_obj_init_ng` (ciscoconfparse.py:5749-5757). -/
structure BS where
  h : Heap
  n : Nat
  cache : List (Nat × Nat)
  maxIndent : Nat

/-- ciscoconfparse.py:5676-5697 `_maintain_bootstrap_parent_cache`. -/
def maintainCache (cache : List (Nat × Nat)) (indent maxIndent : Nat) (isCfg : Bool) :
    List (Nat × Nat) × Option Nat :=
  if indent < maxIndent ∧ isCfg = true then (cache.filter (fun e => decide (e.1 < indent)), none)
  else (cache, cache.lookup indent)

/-- ciscoconfparse.py:5713-5724: walk backwards from `k - 1`. -/
def walkBack (h : Heap) (indent : Nat) : Nat → Option Nat
  | 0 => none
  | k + 1 => if (h k).indent < indent ∧ (h k).isConfig = true then some k else walkBack h indent k

/-- ciscoconfparse.py:5855-5885 `_add_child_to_parent` (parent not None; the child is
new, so `childobj.parent is childobj`). -/
def addChild (h : Heap) (idx p : Nat) : Heap :=
  if (h idx).isComment = true ∧ (h (idx - 1)).indent > (h idx).indent then h
  else upd (upd h p (fun b => { b with children := b.children ++ [idx],
                                       childIndent := (h idx).indent }))
        idx (fun b => { b with parent := p })

/-- `d[k] = v`. -/
def dictSet (d : List (Nat × Nat)) (k v : Nat) : List (Nat × Nat) :=
  (k, v) :: d.filter (fun e => e.1 != k)

/-- ciscoconfparse.py:5758-5801: one iteration, with
`_build_bootstrap_parent_child` (5700-5733). -/
def step (o : Opts) (s : BS) (txt : Str) : BS :=
  let obj := mkObj o txt s.n
  let cp := maintainCache s.cache obj.indent s.maxIndent obj.isConfig
  let h := upd s.h s.n (fun _ => obj)
  let ch : List (Nat × Nat) × Heap :=
    if obj.indent > 0 then
      match cp.2 with
      | some p => (cp.1, addChild h s.n p)
      | none =>
        match walkBack h obj.indent s.n with
        | some p => (dictSet cp.1 obj.indent p, addChild h s.n p)
        | none => (cp.1, h)
    else (cp.1, h)
  { h := ch.2
    n := s.n + 1
    cache := ch.1
    maxIndent :=
      if obj.indent = 0 ∧ obj.isConfig = true then 0
      else if obj.indent > s.maxIndent then obj.indent else s.maxIndent }

/-- An object that no name refers to. -/
def noObj : Obj := mkObj {} [] 0

/-- Start of the loop (ciscoconfparse.py:5749-5757). -/
def bs0 : BS := { h := fun _ => noObj, n := 0, cache := [], maxIndent := 0 }

/-- ciscoconfparse.py:5758-5801: the loop. -/
def indentPass (o : Opts) (lines : List Str) : BS := lines.foldl (step o) bs0

/-! ## Closing braces -/

/-- ciscoconfparse.py:539: the line ends with an opening brace. -/
def opensBrace (t : Str) : Bool := (rstrip t).getLast? == some '{'

/-- ciscoconfparse.py:542: the line starts with a closing brace. -/
def closesBrace (t : Str) : Bool := (strip t).head? == some '}'

/-- ciscoconfparse.py:506-548 `assign_parent_to_closing_braces`: `todo` are the
objects still to visit, `stack` the opening lines. -/
def bracePass : List Nat → List Nat → Heap → Except Err Heap
  | [], _, h => .ok h
  | i :: todo, stack, h =>
    if opensBrace (h i).text then bracePass todo (i :: stack) h
    else if closesBrace (h i).text then
      match stack with
      | p :: stack' => bracePass todo stack' (upd h i (fun b => { b with parent := p }))
      | [] => .error .valueError
    else bracePass todo stack h

/-! ## Banners -/

/-- `set\s+` repeated, at the front (each round drops at least four characters). -/
def eatSets : Nat → Str → Str
  | 0, s => s
  | f + 1, s =>
    match s with
    | 's' :: 'e' :: 't' :: c :: r => if isSpace c then eatSets f (lstrip r) else s
    | _ => s

/-- The banner types (ciscoconfparse.py:5837-5844). -/
def bannerTypes : List Str :=
  ["login".toList, "motd".toList, "incoming".toList, "exec".toList, "telnet".toList, "lcd".toList]

/-- ciscoconfparse.py:5835-5851 `_build_banner_re_ios`: does the regex match? -/
def isBanner (t : Str) : Bool :=
  (match eatSets t.length t with
   | 'b' :: 'a' :: 'n' :: 'n' :: 'e' :: 'r' :: c :: r =>
     isSpace c && bannerTypes.any (fun b => b.isPrefixOf (lstrip r))
   | _ => false)
  || isInfix "aaa authentication fail-message".toList t

/-- `\w`, ASCII part. -/
def isWordChar (c : Char) : Bool := isLetter c || isDigit c || c == '_'

/-- ciscoconfparse.py:5561-5575: the delimiter, if
`^(?:(?P<btype>(?:set\s+)*banner\s\w+\s+)(?P<bchar>\S))` matches. -/
def bannerDelim (t : Str) : Option Char :=
  match eatSets t.length t with
  | 'b' :: 'a' :: 'n' :: 'n' :: 'e' :: 'r' :: c :: r =>
    if isSpace c then
      let w := r.takeWhile isWordChar
      let r' := r.dropWhile isWordChar
      if w = [] then none
      else match r' with
        | c' :: r'' => if isSpace c' then (lstrip r'').head? else none
        | [] => none
    else none
  | _ => none

/-- ciscoconfparse.py:5591-5592: more than two parts when split at the delimiter. -/
def closedOnLine (d : Char) (t : Str) : Bool := decide ((splitOn d t).length > 2)

/-- Add `i` to the body of `p` (ciscoconfparse.py:5626-5628, 5638-5641). -/
def bannerChild (h : Heap) (p i : Nat) (keep : Bool) : Heap :=
  upd (upd h p (fun b => { b with children := b.children ++ [i], childIndent := 0 }))
    i (fun b => { b with parent := p, blankKeep := b.blankKeep || keep })

/-- ciscoconfparse.py:5605-5644: the following lines (`todo`) of banner `p`. -/
def bannerBody (p : Nat) (d : Char) : List Nat → Heap → Heap
  | [], h => h
  | i :: todo, h =>
    if d ∈ strip (h i).text then bannerChild h p i false
    else bannerBody p d todo (bannerChild h p i true)

/-- ciscoconfparse.py:5562-5644: one banner line at index `p` of `n` lines. -/
def bannerOne (n : Nat) (h : Heap) (p : Nat) : Heap :=
  let h1 := upd h p (fun b => { b with blankKeep := true })
  match bannerDelim (h p).text with
  | none => h1
  | some d =>
    if closedOnLine d (h p).text then h1
    else bannerBody p d (List.range' (p + 1) (n - (p + 1))) h1

/-- ciscoconfparse.py:5547-5644 `_banner_mark_regex` (with 5557-5559: the banner
lines are collected first). -/
def bannerPass (n : Nat) (h : Heap) : Heap :=
  ((List.range n).filter (fun i => isBanner (h i).text)).foldl (bannerOne n) h

/-! ## Macros -/

/-- ciscoconfparse.py:5663-5672: the lines after macro `p`; running off the end of
the list raises. -/
def macroBody (p : Nat) : List Nat → Heap → Except Err Heap
  | [], _ => .error .indexError
  | i :: todo, h =>
    let h1 := upd (upd h i (fun b => { b with blankKeep := true, parent := p }))
      p (fun b => { b with children := b.children ++ [i] })
    if rstrip (h1 i).text = "@".toList then .ok h1 else macroBody p todo h1

/-- ciscoconfparse.py:5655-5672: one macro. -/
def macroOne (n : Nat) (h : Heap) (p : Nat) : Except Err Heap :=
  macroBody p (List.range' (p + 1) (n - (p + 1)))
    (upd h p (fun b => { b with blankKeep := true, childIndent := 0 }))

/-- ciscoconfparse.py:5648-5672 `_macro_mark_children`. -/
def macroPass (n : Nat) : List Nat → Heap → Except Err Heap
  | [], h => .ok h
  | p :: ps, h => do macroPass n ps (← macroOne n h p)

/-- ciscoconfparse.py:5778-5779: the macro lines (tested on the raw text). -/
def macroLines (lines : List Str) : List Nat :=
  (List.range lines.length).filter
    (fun i => "macro name ".toList.isPrefixOf (lines.getD i []))

/-! ## The parser -/

/-- What `bootstrap_obj_init_ng` returns: the heap, the number of objects made and
the list (of object names) that becomes `ConfigObjs`. -/
structure Parsed where
  h : Heap
  n : Nat
  list : List Nat

/-- ciscoconfparse.py:5823-5829: the final filter. -/
def keepLine (o : Opts) (b : Obj) : Bool := !o.ignoreBlank || !(strip b.text).isEmpty || b.blankKeep

/-- ciscoconfparse.py:5737-5831 `bootstrap_obj_init_ng`. -/
def bootstrap (o : Opts) (lines : List Str) : Except Err Parsed := do
  let s := indentPass o lines
  let h1 ← bracePass (List.range s.n) [] s.h
  let h2 ←
    if o.syn = .junos then .ok h1
    else
      macroPass s.n (if o.syn = .ios then macroLines lines else []) (bannerPass s.n h1)
  .ok { h := h2, n := s.n, list := (List.range s.n).filter (fun i => keepLine o (h2 i)) }

/-- ciscoconfparse.py:758-762: empty strings are dropped first, with
`ignore_blank_lines` and without `factory`. -/
def preFilter (o : Opts) (lines : List Str) : List Str :=
  if o.ignoreBlank = true ∧ o.factory = false then lines.filter (fun l => !l.isEmpty) else lines

/-- ciscoconfparse.py:615-790 `CiscoConfParse(config=lines)` for a list of strings and
a syntax other than junos (whose brace conversion is modelled separately). -/
def parse (o : Opts) (lines : List Str) : Except Err Parsed := bootstrap o (preFilter o lines)

/-- ccp_abc.py:147-157 `__eq__` (and 129-132 `__hash__`).  Simplification: Python's
string hash is taken to be injective. -/
def objEq (a b : Obj) : Bool := intStr a.linenum ++ a.text == intStr b.linenum ++ b.text

/-- ciscoconfparse.py:951-964 `ioscfg`. -/
def Parsed.texts (p : Parsed) : List Str := p.list.map (fun i => (p.h i).text)

/-- ciscoconfparse.py:981-1010 `atomic` and `commit`: parse the current texts again. -/
def commit (o : Opts) (p : Parsed) : Except Err Parsed := bootstrap o p.texts

end Conf

import Verif.Query.Model

/-! # Model of `HDiff` and `sync_diff`

`H` is Python's `hash()` of a text.  It is a parameter: Python chooses it anew for each
process.  The words of one side are a function from objects to words.

File names and `CiscoConfParse` objects as arguments are in `Diff/Inputs.lean`.

Not modelled: `debug` output, the type checks of the arguments, and junos
configurations. -/

namespace Diff

open Py Conf Query

/-! ## Preparing the lines -/

/-- ciscoconfparse.py:4339: one blank between the words, the indentation as blanks. -/
def normText (b : Obj) : Str := spaces b.indent ++ join [' '] (splitWs (strip b.text))

/-- ccp_abc.py:397-427: the `text` setter on object `i`; a comment becomes its own parent. -/
def setText (o : Opts) (i : Nat) (t : Str) (b : Obj) : Obj :=
  { b with
    text := lineText t
    indent := lineIndent t
    isComment := isCommentText o.delims (lineText t)
    parent := if isCommentText o.delims (lineText t) then i else b.parent }

/-- ciscoconfparse.py:4326-4349 `build_diff_obj_list`: every listed line gets its new
text (an update changes only the line itself). -/
def normParsed (o : Opts) (P : Parsed) : Parsed :=
  { P with h := fun i => if i ∈ P.list then setText o i (normText (P.h i)) (P.h i) else P.h i }

/-- ccp_abc.py:237-275 `calculate_line_id`. -/
def lineId (H : Str → Int) (b : Obj) : Int := H (spaces b.indent ++ join [' '] (splitWs (strip b.text)))

/-- ccp_abc.py:280-311 `diff_id_list`: both branches insert at the front. -/
def idList (H : Str → Int) (P : Parsed) (i : Nat) : List Int :=
  (geneology P i).foldl (fun r j => lineId H (P.h j) :: r) []

/-! ## Marking the lines -/

/-- ccp_abc.py:54: the values of `diff_word`. -/
inductive Word where
  | keep | remove | unchanged | add | unknown
  deriving DecidableEq, Repr

/-- ccp_abc.py:55: the values of `diff_side`. -/
inductive Side where
  | before | after
  deriving DecidableEq, Repr

/-- The words of the objects of one side. -/
abbrev Words := Nat → Word

/-- `for x in l: x.diff_word = v`. -/
def mark (w : Words) (l : List Nat) (v : Word) : Words := fun j => if j ∈ l then v else w j

/-- ciscoconfparse.py:4549-4641 `find_in_before_obj_list` for the line `a` of `A`; the
list argument is the rest of the lines of `B`. -/
def findIn (H : Str → Int) (B A : Parsed) (a : Nat) :
    List Nat → Words → Words → Except Err (Words × Words)
  | [], wb, wa => .ok (wb, mark wa [a] .add)
  | b :: bs, wb, wa =>
    if wb b = .keep ∧ idList H B b ≠ idList H A a then
      findIn H B A a bs (mark wb (geneology B b) .keep) wa
    else if wb b = .keep ∧ idList H B b = idList H A a then
      .ok (mark wb (geneology B b) .keep, mark wa (geneology A a) .unchanged)
    else if wb b = .remove ∧ idList H B b ≠ idList H A a then findIn H B A a bs wb wa
    else if wb b = .remove ∧ idList H B b = idList H A a then
      .ok (mark wb (geneology B b) .keep, mark (mark wa [a] .unchanged) (geneology A a) .unchanged)
    else .error .notImplemented

/-- ciscoconfparse.py:4355-4371: the loop of `build_ios_diffs`. -/
def findAll (H : Str → Int) (B A : Parsed) :
    List Nat → Words → Words → Except Err (Words × Words)
  | [], wb, wa => .ok (wb, wa)
  | a :: as, wb, wa =>
    if wa a ≠ .unknown then .error .requirement
    else do
      let w ← findIn H B A a B.list wb wa
      findAll H B A as w.1 w.2

/-! ## The entries -/

/-- ccp_abc.py:374-385 `as_diff_dict`. -/
structure Entry where
  linenum : Int
  side : Side
  word : Word
  indent : Nat
  parents : List Str
  text : Str
  ids : List Int
  deriving DecidableEq, Repr

/-- ccp_abc.py:374-385 `as_diff_dict` of object `i`. -/
def entry (H : Str → Int) (P : Parsed) (side : Side) (w : Word) (num : Int) (i : Nat) : Entry :=
  { linenum := num
    side := side
    word := w
    indent := (P.h i).indent
    parents := (allParents P i).map (fun j => (P.h j).text)
    text := (P.h i).text
    ids := idList H P i }

/-- ciscoconfparse.py:4516-4537: the entry of one line before (`diff_rendered` is still
False, every line is visited once). -/
def renderBefore (H : Str → Int) (B : Parsed) (wb : Words) (b : Nat) : Except Err Entry :=
  match wb b with
  | .keep => .ok (entry H B .before .keep (-1) b)
  | .remove => .ok (entry H B .before .remove (-1) b)
  | _ => .error .notImplemented

/-- ciscoconfparse.py:4645-4685 `render_after_obj_diffs`: an unchanged line is rendered
only if it has children. -/
def renderAfter (H : Str → Int) (A : Parsed) (wa : Words) (a : Nat) : Except Err (List Entry) :=
  match wa a with
  | .unchanged =>
    .ok (if (A.h a).children.length > 0 then [entry H A .after .unchanged (A.h a).linenum a] else [])
  | .add => .ok [entry H A .after .add (A.h a).linenum a]
  | _ => .error .requirement

/-- Collect the results of a loop that may raise. -/
def collect {α β : Type} (f : α → Except Err β) : List α → Except Err (List β)
  | [] => .ok []
  | a :: as => do
    let b ← f a
    let bs ← collect f as
    .ok (b :: bs)

/-- ciscoconfparse.py:4511-4545 `dict_diffs`. -/
def dictDiffs (H : Str → Int) (B A : Parsed) (wb wa : Words) : Except Err (List Entry) := do
  let bs ← collect (renderBefore H B wb) B.list
  let as ← collect (renderAfter H A wa) A.list
  .ok (bs ++ as.flatten)

/-- ciscoconfparse.py:4799, 4817-4819: the identifiers as text. -/
def csv (ids : List Int) : Str := join [','] (ids.map intStr)

/-- ciscoconfparse.py:4807-4848: put an added line after the first entry that looks like
its parent, else at the end. -/
def insertAdd (e : Entry) : List Entry → List Entry
  | [] => [e]
  | x :: xs =>
    if isInfix (csv x.ids) (csv e.ids) = true ∧ x.ids.length + 1 = e.ids.length then x :: e :: xs
    else x :: insertAdd e xs

/-- ciscoconfparse.py:4735-4858: one entry.  `seen` are the keys of `lines`. -/
def compressStep (st : List Entry × List (List Int)) (e : Entry) :
    Except Err (List Entry × List (List Int)) :=
  if e.ids ∈ st.2 then .ok st
  else match e.side, e.word with
    | .before, .keep => .ok (st.1 ++ [e], e.ids :: st.2)
    | .before, .remove => .ok (st.1 ++ [e], e.ids :: st.2)
    | .after, .unchanged => .ok (st.1 ++ [e], e.ids :: st.2)
    | .after, .add => .ok (insertAdd e st.1, e.ids :: st.2)
    | _, _ => .error .valueError

/-- The loop of `compress_dict_diffs`. -/
def compressLoop : List Entry → List Entry × List (List Int) → Except Err (List Entry × List (List Int))
  | [], st => .ok st
  | e :: es, st => do
    let st' ← compressStep st e
    compressLoop es st'

/-- ciscoconfparse.py:4689-4864 `compress_dict_diffs` (the deletion of `diff_id_list` from
the result is not modelled). -/
def compress (es : List Entry) : Except Err (List Entry) := do
  let st ← compressLoop es ([], [])
  .ok st.1

/-- ciscoconfparse.py:4353-4383 `build_ios_diffs`. -/
def buildIos (H : Str → Int) (B A : Parsed) : Except Err (Words × Words × List Entry) := do
  let w ← findAll H B A A.list (fun _ => .remove) (fun _ => .unknown)
  let es ← dictDiffs H B A w.1 w.2
  let out ← compress es
  .ok (w.1, w.2, out)

/-- ciscoconfparse.py:4286-4295: the options of the two parses. -/
def opts (syn : Conf.Syntax) (ignoreBlank : Bool) : Opts := { syn := syn, ignoreBlank := ignoreBlank }

/-- ciscoconfparse.py:4115-4274 `HDiff(before, after, syntax, ignore_blank_lines)`;
the result is `all_output_dicts`. -/
def hdiff (H : Str → Int) (syn : Conf.Syntax) (ign : Bool) (before after : List Str) :
    Except Err (List Entry) := do
  let B ← parse (opts syn ign) before
  let A ← parse (opts syn ign) after
  let B' := normParsed (opts syn ign) B
  let A' := normParsed (opts syn ign) A
  if syn = .ios ∨ syn = .nxos then do
    let r ← buildIos H B' A'
    .ok r.2.2
  else .ok []

/-- ciscoconfparse.py:4477-4482: one line of `unified_diffs`. -/
def unifiedLine (e : Entry) : Str :=
  match e.word with
  | .add => '+' :: e.text
  | .remove => '-' :: e.text
  | _ => ' ' :: e.text

/-- ciscoconfparse.py:4467-4484 `unified_diffs_contents`. -/
def unified (es : List Entry) : List Str := es.map unifiedLine

/-- ciscoconfparse.py:4415-4435: number and first position of the lines with a word. -/
def tally (v : Word) (w : Words) (l : List Nat) : Nat × Nat :=
  ((l.filter (fun i => w i = v)).length,
    match l.findIdx? (fun i => w i = v) with
    | some k => k + 1
    | none => 0)

/-- ciscoconfparse.py:4438-4442: the four numbers of the last line of
`unified_diff_header`, in the order in which they are printed (the two lines with the
time are not modelled). -/
def header (B A : Parsed) (wb wa : Words) : Nat × Nat × Nat × Nat :=
  let l := tally .remove wb B.list
  let r := tally .add wa A.list
  (l.1, l.2, r.1, r.2)

/-- ciscoconfparse.py:4393-4444 `HDiff(..).unified_diff_header()` for ios and nxos. -/
def hdiffHeader (H : Str → Int) (syn : Conf.Syntax) (ign : Bool) (before after : List Str) :
    Except Err (Nat × Nat × Nat × Nat) := do
  let B ← parse (opts syn ign) before
  let A ← parse (opts syn ign) after
  let B' := normParsed (opts syn ign) B
  let A' := normParsed (opts syn ign) A
  let r ← buildIos H B' A'
  .ok (header B' A' r.1 r.2.1)

/-! ## `sync_diff` -/

/-- ccp_util.py:530: `^(\s*)no\s+no\s+(\S.+)$`: the two groups.  Simplification: a text
that contains a line break does not match. -/
def noNo (cmd : Str) : Option (Str × Str) :=
  match lstrip cmd with
  | 'n' :: 'o' :: r1 =>
    match lstrip r1 with
    | 'n' :: 'o' :: r2 =>
      if (lstrip r1).length < r1.length ∧ (lstrip r2).length < r2.length ∧
          2 ≤ (lstrip r2).length ∧ '\n' ∉ lstrip r2 then
        some (cmd.takeWhile isSpace, lstrip r2)
      else none
    | _ => none
  | _ => none

/-- ccp_util.py:523-540 `fix_repeated_words(cmd, "no")`; every round makes the command
shorter, the first argument bounds the rounds. -/
def fixNo : Nat → Str → Str
  | 0, cmd => cmd
  | f + 1, cmd =>
    match noNo cmd with
    | some (ind, rest) => fixNo f (ind ++ rest)
    | none => cmd

/-- ciscoconfparse.py:3868-3873: the command that removes a line; `uu` is None when the
expression does not match. -/
def removeCmd (unc : Rx) (e : Entry) : Except Err Str :=
  match unc.find e.text with
  | none => .error .attributeError
  | some g =>
    let cmd := spaces e.indent ++ ("no ".toList ++ strip g)
    .ok (fixNo cmd.length cmd)

/-- ciscoconfparse.py:3858-3897: the commands for one entry. -/
def syncEntry (line unc : Rx) (remove : Bool) (e : Entry) : Except Err (List Str) :=
  if line.search e.text = false then .ok []
  else if remove = true ∧ e.word = .remove then do
    let c ← removeCmd unc e
    .ok [c]
  else if e.word = .add then .ok (e.parents ++ [e.text])
  else .ok []

/-- ciscoconfparse.py:3749-3899 `p.sync_diff(cfgspec, linespec, uncfgspec, remove_lines=..)`
for a list of texts `cfgspec`; `HDiff` keeps blank lines here. -/
def syncDiff (H : Str → Int) (syn : Conf.Syntax) (P : Parsed) (cfgspec : List Str) (line unc : Rx)
    (remove : Bool) : Except Err (List Str) := do
  let es ← hdiff H syn false P.texts cfgspec
  let ls ← collect (syncEntry line unc remove) es
  .ok ls.flatten

end Diff

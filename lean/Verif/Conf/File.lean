import Verif.Conf.Model

/-! # Model of saving and reading configuration files

A file is the string that `open()` in text mode reads or writes.  Not modelled: the
encoding, errors of the file system, `pathlib` objects.  The model writes `\n` for a
newline, as Python does on POSIX systems. -/

namespace Conf

open Py

/-- ciscoconfparse.py:3907-3911 `save_as`: every text and a newline. -/
def saveText (ts : List Str) : Str := ts.flatMap (fun t => t ++ ['\n'])

/-- ciscoconfparse.py:945 (`newline=None`): universal newlines, when a file is read. -/
def universal : Str → Str
  | [] => []
  | '\r' :: '\n' :: r => '\n' :: universal r
  | '\r' :: r => '\n' :: universal r
  | c :: r => c :: universal r

/-- Match `\r*\n+` (`multi`) or `\r*\n` at the start; the rest of the text. -/
def matchNl (multi : Bool) (s : Str) : Option Str :=
  match s.dropWhile (fun c => c == '\r') with
  | '\n' :: r => some (if multi then r.dropWhile (fun c => c == '\n') else r)
  | _ => none

/-- `re.split()` at these matches; `cur` is the line read so far.  Every round takes
at least one character, so the length of the text is enough fuel. -/
def splitNl (multi : Bool) : Nat → Str → Str → List Str
  | 0, cur, s => [cur ++ s]
  | _ + 1, cur, [] => [cur]
  | f + 1, cur, c :: r =>
    match matchNl multi (c :: r) with
    | some rest => cur :: splitNl multi f [] rest
    | none => splitNl multi f (cur ++ [c]) r

/-- ciscoconfparse.py:843-900 `read_config_file` with the choice of the regular
expression (753-757). -/
def readLines (o : Opts) (file : Str) : List Str :=
  let text := universal file
  splitNl (o.ignoreBlank && !o.factory) text.length [] text

/-- ciscoconfparse.py:615-790 `CiscoConfParse(config="<file name>")` for a syntax other
than junos.  The empty strings are not taken out here (compare `preFilter`). -/
def load (o : Opts) (file : Str) : Except Err Parsed := bootstrap o (readLines o file)

/-- ciscoconfparse.py:3903-3911 `save_as`. -/
def save (p : Parsed) : Str := saveText p.texts

end Conf

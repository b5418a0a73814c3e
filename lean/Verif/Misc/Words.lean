import Verif.Py

/-! # Models of `uncfgtext` and `fix_repeated_words` -/

namespace Misc

open Py

/-- `str.lower()` of a word equals "no".  The only characters that lower-case to
`n` and `o` are `n`, `N`, `o`, `O`. -/
def isNo (w : Str) : Bool :=
  w == "no".toList || w == "No".toList || w == "nO".toList || w == "NO".toList

/-- `len(text) - len(text.lstrip())`, the `indent` of a line object
(ccp_abc.py:397-413). -/
def indentOf (text : Str) : Nat := text.length - (lstrip text).length

/-- ccp_abc.py:619-651 `uncfgtext` (with `_uncfgtext_to_be_deprecated` unset);
`tmp[0]` of a blank line raises IndexError. -/
def uncfgtext (text : Str) : Except Err Str :=
  match splitWs text with
  | [] => .error .indexError
  | w :: ws =>
    if isNo w then
      if ws = [] then .error .assertion
      else .ok (spaces (indentOf text) ++ join " ".toList ws)
    else .ok (spaces (indentOf text) ++ "no ".toList ++ lstrip text)

/-- One `word\s+` at the front of `s`: what follows it. -/
def eatWord (word s : Str) : Option Str :=
  if word.isPrefixOf s then
    let r := s.drop word.length
    let r' := lstrip r
    if r'.length < r.length then some r' else none
  else none

/-- ccp_util.py:533-540: one pass of the loop, i.e. one match of
`^(?P<indent>\s*)word\s+word\s+(?P<remaining_cmd>\S.+)$` (`.` is not a newline,
`$` also matches before one final newline).  `word` is a literal without blanks. -/
def fixOnce (word cmd : Str) : Option Str :=
  let indent := cmd.takeWhile isSpace
  match eatWord word (lstrip cmd) with
  | none => none
  | some s1 =>
    match eatWord word s1 with
    | none => none
    | some s2 =>
      let body := if s2.getLast? = some '\n' then s2.dropLast else s2
      if 2 ≤ body.length ∧ body.all (· != '\n') = true then some (indent ++ body) else none

/-- ccp_util.py:530-541: the loop. -/
def fixLoop (word : Str) : Nat → Str → Str
  | 0, cmd => cmd
  | f + 1, cmd =>
    match fixOnce word cmd with
    | none => cmd
    | some cmd' => fixLoop word f cmd'

/-- ccp_util.py:523-541 `fix_repeated_words(cmd, word)`. -/
def fixRepeatedWords (cmd word : Str) : Except Err Str :=
  if cmd = [] ∨ word = [] then .error .requirement
  else .ok (fixLoop (strip word) (cmd.length + 1) cmd)

end Misc

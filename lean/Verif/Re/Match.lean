import Verif.Re.Syntax

/-! # Regular expressions of Python's `re`: matching

`run` gives all the ways in which an expression can match at the beginning of a text, in
the order in which Python's backtracking matcher tries them; so the first of them is the
match that Python finds.  A text is given by its suffixes: what is left to read.

Simplification: an iteration of `*` that reads nothing is not tried (no expression in the
code has a `*` around something that can match the empty text). -/

namespace Re

open Py

/-- What the groups have captured, newest first. -/
abbrev Caps := List (Nat × Str)

/-- `a*` by repetition of `f`, at most `fuel` times. -/
def runStar (g : Bool) (f : Str → Caps → List (Str × Caps)) : Nat → Str → Caps → List (Str × Caps)
  | 0, s, c => [(s, c)]
  | n + 1, s, c =>
    let more := (f s c).flatMap (fun p => if p.1.length < s.length then runStar g f n p.1 p.2 else [])
    if g then more ++ [(s, c)] else (s, c) :: more

/-- All the matches at the beginning of `s`, best first: what is left, and the groups.
`n` is the length of the whole text. -/
def run (n : Nat) : Rgx → Str → Caps → List (Str × Caps)
  | .eps, s, c => [(s, c)]
  | .cls k, s, c =>
    match s with
    | [] => []
    | a :: s' => if k.has a then [(s', c)] else []
  | .seq a b, s, c => (run n a s c).flatMap (fun p => run n b p.1 p.2)
  | .alt a b, s, c => run n a s c ++ run n b s c
  | .star g a, s, c => runStar g (run n a) s.length s c
  | .opt g a, s, c => if g then run n a s c ++ [(s, c)] else (s, c) :: run n a s c
  | .grp k a, s, c => (run n a s c).map (fun p => (p.1, (k, s.take (s.length - p.1.length)) :: p.2))
  | .bol, s, c => if s.length = n then [(s, c)] else []
  | .eol, s, c => if s = [] ∨ s = ['\n'] then [(s, c)] else []
  | .nla a, s, c => if (run n a s c).isEmpty then [(s, c)] else []

/-- A match: the matched text, what is before it, and the groups. -/
structure Found where
  text : Str
  start : Nat
  caps : Caps
  deriving DecidableEq, Repr

/-- `re.search`: the first place with a match; `k` characters have been passed. -/
def searchFrom (n : Nat) (r : Rgx) : Nat → Str → Option Found
  | k, [] =>
    match run n r [] [] with
    | p :: _ => some ⟨[], k, p.2⟩
    | [] => none
  | k, a :: s =>
    match run n r (a :: s) [] with
    | p :: _ => some ⟨(a :: s).take ((a :: s).length - p.1.length), k, p.2⟩
    | [] => searchFrom n r (k + 1) s

/-- `re.search(p, t)`. -/
def search (p : Pat) (t : Str) : Option Found := searchFrom t.length p.re 0 t

/-- `m.group(k)`: None if the group took no part; IndexError without such a group. -/
def Found.group (m : Found) (p : Pat) (k : Nat) : Except Err (Option Str) :=
  if k = 0 then .ok (some m.text)
  else if k ≤ p.groups then .ok (m.caps.lookup k)
  else .error .indexError

/-- `m.groupdict()`. -/
def Found.groupdict (m : Found) (p : Pat) : List (Str × Option Str) :=
  p.names.map (fun q => (q.1, m.caps.lookup q.2))

end Re

import Verif.Py

/-! # Regular expressions of Python's `re`: syntax

The classes for the lines of a configuration (models_cisco.py, models_nxos.py, ..) are
written with regular expressions.  This file has their abstract syntax and the parser for
Python's notation (`re.compile`), so that the model can quote the expressions as they
stand in the source.

Supported: literals, `.`, `\s \S \d \D \w \W`, escaped punctuation, `\n \r \t`, sets
`[..]`, groups `(..)`, `(?:..)`, `(?P<n>..)`, `(?!..)`, `|`, `^`, `$`, `* + ?` and `{m,n}`,
greedy and lazy, and the flags `re.I` and `re.VERBOSE`.  Not supported (the parser says so):
other look-around, back references, `\b \A \Z`, inline flags.  `\d` and `\w` are ASCII.  The
notation is that of a `re` without possessive quantifiers (before Python 3.11). -/

namespace Re

open Py

/-- One member of a set. -/
inductive Item where
  | chr (c : Char)
  | range (a b : Char)
  | space | nonspace | digit | nondigit | word | nonword
  deriving DecidableEq, Repr

/-- `[a-zA-Z0-9_]`. -/
def isWordChar (c : Char) : Bool := isLetter c || isDigit c || c == '_'

/-- A letter with the other case (ASCII). -/
def swapCase (c : Char) : Char :=
  if 65 ≤ c.toNat ∧ c.toNat ≤ 90 then Char.ofNat (c.toNat + 32)
  else if 97 ≤ c.toNat ∧ c.toNat ≤ 122 then Char.ofNat (c.toNat - 32)
  else c

def Item.has : Item → Char → Bool
  | chr a, c => c == a
  | range a b, c => a.toNat ≤ c.toNat && c.toNat ≤ b.toNat
  | space, c => isSpace c
  | nonspace, c => !isSpace c
  | digit, c => isDigit c
  | nondigit, c => !isDigit c
  | word, c => isWordChar c
  | nonword, c => !isWordChar c

/-- A set of characters; `ci` is `re.I`. -/
structure Cls where
  items : List Item
  neg : Bool := false
  ci : Bool := false
  deriving DecidableEq, Repr

def Cls.has (k : Cls) (c : Char) : Bool :=
  (k.items.any (fun i => i.has c || (k.ci && i.has (swapCase c)))) != k.neg

/-- A regular expression. -/
inductive Rgx where
  | eps
  | cls (k : Cls)
  | seq (a b : Rgx)
  | alt (a b : Rgx)
  | star (greedy : Bool) (a : Rgx)
  | opt (greedy : Bool) (a : Rgx)
  | grp (k : Nat) (a : Rgx)
  | bol
  | eol
  /-- `(?!a)` -/
  | nla (a : Rgx)
  deriving DecidableEq, Repr

/-- A compiled expression: the number of groups and the names of some. -/
structure Pat where
  re : Rgx
  groups : Nat
  names : List (Str × Nat)
  deriving DecidableEq, Repr

/-- Why an expression is refused: `bad` is Python's `re.error`. -/
inductive Bad where
  | bad | unsupported
  deriving DecidableEq, Repr

/-- The flags. -/
structure Flags where
  ignoreCase : Bool := false
  verbose : Bool := false

/-- What the parser knows: the groups opened so far. -/
structure St where
  n : Nat := 0
  names : List (Str × Nat) := []

/-- `abc` is `a(bc)`. -/
def seqs : List Rgx → Rgx
  | [] => .eps
  | [a] => a
  | a :: as => .seq a (seqs as)

/-- `a|b|c`. -/
def alts : List Rgx → Rgx
  | [] => .eps
  | [a] => a
  | a :: as => .alt a (alts as)

/-- `\x` for a letter or digit `x`, else none. -/
def escapeItem (c : Char) : Except Bad Item :=
  if c == 's' then .ok .space
  else if c == 'S' then .ok .nonspace
  else if c == 'd' then .ok .digit
  else if c == 'D' then .ok .nondigit
  else if c == 'w' then .ok .word
  else if c == 'W' then .ok .nonword
  else if c == 'n' then .ok (.chr '\n')
  else if c == 'r' then .ok (.chr '\r')
  else if c == 't' then .ok (.chr '\t')
  else if isLetter c || isDigit c then .error .unsupported
  else .ok (.chr c)

/-- A range, if `-` and a member follow the member `i`: the member and the rest. -/
def setRange (i : Item) (s : Str) : Except Bad (Item × Str) :=
  match i, s with
  | .chr a, '-' :: b :: s' =>
    if b == ']' then .ok (i, s)
    else if b == '\\' then
      match s' with
      | [] => .error .bad
      | c :: s'' => do
        match ← escapeItem c with
        | .chr b => if a.toNat ≤ b.toNat then .ok (.range a b, s'') else .error .bad
        | _ => .error .bad
    else if a.toNat ≤ b.toNat then .ok (.range a b, s')
    else .error .bad
  | _, _ => .ok (i, s)

/-- The members of a set up to `]`; `first` while `]` is a literal. -/
def setItems : Nat → Bool → Str → List Item → Except Bad (List Item × Str)
  | 0, _, _, _ => .error .bad
  | f + 1, first, s, acc =>
    let next (q : Except Bad (Item × Str)) : Except Bad (List Item × Str) := do
      let (i, s) ← q
      setItems f false s (i :: acc)
    match s with
    | [] => .error .bad
    | ']' :: s' => if first then next (setRange (.chr ']') s') else .ok (acc.reverse, s')
    | '\\' :: c :: s' => next (do setRange (← escapeItem c) s')
    | c :: s' => next (setRange (.chr c) s')

/-- The digits at the beginning. -/
def number (s : Str) : Option Nat × Str :=
  let d := s.takeWhile isDigit
  (if d.isEmpty then none else some (natVal d), s.dropWhile isDigit)

/-- `{m}`, `{m,}`, `{,n}`, `{m,n}` behind the `{`: the bounds (no upper one is `none`). -/
def braces (s : Str) : Option ((Nat × Option Nat) × Str) :=
  match number s with
  | (some m, '}' :: s') => some ((m, some m), s')
  | (m, ',' :: s') =>
    match number s' with
    | (n, '}' :: s'') => if m.isNone && n.isNone then none else some ((m.getD 0, n), s'')
    | _ => none
  | _ => none

/-- At most `n` times `a`. -/
def upTo (g : Bool) (a : Rgx) : Nat → Rgx
  | 0 => .eps
  | 1 => .opt g a
  | n + 1 => .opt g (.seq a (upTo g a n))

/-- `a` from `m` to `n` times. -/
def times (g : Bool) (a : Rgx) (m : Nat) (n : Option Nat) : Rgx :=
  match n with
  | none => seqs (List.replicate m a ++ [.star g a])
  | some n => if m = n then seqs (List.replicate m a) else seqs (List.replicate m a ++ [upTo g a (n - m)])

/-- The quantifier behind `a`, if any; a second one is an error. -/
def quantify (a : Rgx) (s : Str) : Except Bad (Rgx × Str) :=
  let done (m : Nat) (n : Option Nat) (s : Str) : Except Bad (Rgx × Str) :=
    let (g, s) := match s with
      | '?' :: s' => (false, s')
      | _ => (true, s)
    match s with
    | '*' :: _ => .error .bad
    | '+' :: _ => .error .bad
    | '?' :: _ => .error .bad
    | _ =>
      if a = .bol ∨ a = .eol then .error .bad
      else if n = some 1 ∧ m = 0 then .ok (.opt g a, s)
      else if n.any (· < m) then .error .bad
      else .ok (times g a m n, s)
  match s with
  | '*' :: s' => done 0 none s'
  | '+' :: s' => done 1 none s'
  | '?' :: s' => done 0 (some 1) s'
  | '{' :: s' =>
    match braces s' with
    | some ((m, n), s'') => done m n s''
    | none => .ok (a, s)
  | _ => .ok (a, s)

/-- `?:`, `?P<name>` or nothing behind a `(`: the number of the group and the rest. -/
def header (s : Str) (st : St) : Except Bad (Option Nat × Str × St) :=
  match s with
  | '?' :: ':' :: s' => .ok (none, s', st)
  | '?' :: 'P' :: '<' :: s' =>
    let name := s'.takeWhile (· != '>')
    if name.isEmpty || !name.all isWordChar || name.head?.any isDigit || (st.names.any (·.1 == name)) then .error .bad
    else
      match s'.dropWhile (· != '>') with
      | '>' :: s'' => .ok (some (st.n + 1), s'', ⟨st.n + 1, st.names ++ [(name, st.n + 1)]⟩)
      | _ => .error .bad
  | '?' :: _ => .error .unsupported
  | _ => .ok (some (st.n + 1), s, { st with n := st.n + 1 })

/-- One expression up to `)` or the end; `as` and `cur` are the alternatives and the
factors read so far, reversed. -/
def parseAlt (fl : Flags) : Nat → Str → St → List Rgx → List Rgx → Except Bad (Rgx × Str × St)
  | 0, _, _, _, _ => .error .bad
  | f + 1, s, st, as, cur =>
    let lit (i : Item) (s : Str) : Except Bad (Rgx × Str × St) := do
      let (r, s) ← quantify (.cls { items := [i], ci := fl.ignoreCase }) s
      parseAlt fl f s st as (r :: cur)
    let done : Rgx := alts ((seqs cur.reverse :: as).reverse)
    match s with
    | [] => .ok (done, [], st)
    | ')' :: _ => .ok (done, s, st)
    | '|' :: s' => parseAlt fl f s' st (seqs cur.reverse :: as) []
    | '(' :: '?' :: '!' :: s' => do
      let (r, s2, st2) ← parseAlt fl f s' st [] []
      match s2 with
      | ')' :: s3 =>
        let (r, s4) ← quantify (.nla r) s3
        parseAlt fl f s4 st2 as (r :: cur)
      | _ => .error .bad
    | '(' :: s' => do
      let (k, s1, st1) ← header s' st
      let (r, s2, st2) ← parseAlt fl f s1 st1 [] []
      match s2 with
      | ')' :: s3 =>
        let (r, s4) ← quantify (match k with | some k => .grp k r | none => r) s3
        parseAlt fl f s4 st2 as (r :: cur)
      | _ => .error .bad
    | '^' :: s' => do
      let (r, s1) ← quantify .bol s'
      parseAlt fl f s1 st as (r :: cur)
    | '$' :: s' => do
      let (r, s1) ← quantify .eol s'
      parseAlt fl f s1 st as (r :: cur)
    | '.' :: s' => do
      let (r, s1) ← quantify (.cls { items := [.chr '\n'], neg := true }) s'
      parseAlt fl f s1 st as (r :: cur)
    | '[' :: '^' :: s' => do
      let (l, s1) ← setItems f true s' []
      let (r, s2) ← quantify (.cls { items := l, neg := true, ci := fl.ignoreCase }) s1
      parseAlt fl f s2 st as (r :: cur)
    | '[' :: s' => do
      let (l, s1) ← setItems f true s' []
      let (r, s2) ← quantify (.cls { items := l, ci := fl.ignoreCase }) s1
      parseAlt fl f s2 st as (r :: cur)
    | '*' :: _ => .error .bad
    | '+' :: _ => .error .bad
    | '?' :: _ => .error .bad
    | '{' :: s' => if (braces s').isSome then .error .bad else lit (.chr '{') s'
    | '\\' :: c :: s' => do lit (← escapeItem c) s'
    | ['\\'] => .error .bad
    | c :: s' => lit (.chr c) s'

/-- Where a verbose expression is being read. -/
inductive Mode where
  | normal | set | comment
  deriving DecidableEq

/-- `re.VERBOSE`: blanks and comments go, outside of sets. -/
def unverbose : Mode → Str → Str
  | _, [] => []
  | .comment, c :: s => unverbose (if c == '\n' then .normal else .comment) s
  | m, '\\' :: c :: s => '\\' :: c :: unverbose m s
  | .set, c :: s => c :: unverbose (if c == ']' then .normal else .set) s
  | .normal, c :: s =>
    if c == '[' then '[' :: unverbose .set s
    else if c == '#' then unverbose .comment s
    else if isSpace c then unverbose .normal s
    else c :: unverbose .normal s

/-- `re.compile(t, flags)`, for an expression given by its characters. -/
def compileL (t : Str) (fl : Flags := {}) : Except Bad Pat :=
  let t := if fl.verbose then unverbose .normal t else t
  match parseAlt fl (2 * t.length + 2) t {} [] [] with
  | .ok (r, [], st) => .ok ⟨r, st.n, st.names⟩
  | .ok _ => .error .bad
  | .error e => .error e

/-- `re.compile(s)`. -/
def compile (s : String) : Except Bad Pat := compileL s.toList

/-- The characters of a string literal, as a list.  (The kernel reads a long list faster than
it takes a long string to pieces.) -/
macro "chars!" s:str : term => do
  let cs := s.getString.toList.toArray.map Lean.Syntax.mkCharLit
  `([$cs,*])

end Re

/-!
# Python built-ins used by the modelled code

Strings are lists of characters.  Every function here models a Python built-in
(not repository code); the repository functions that call them cite their own
lines.

Simplifications: `isDigit` is the ASCII digit test (Python's `\d`, `str.isdigit`
and `int()` also accept other Unicode decimal digits).  `isSpace` is exactly
Python's `str.isspace` on one character, which is also what `\s` matches.
-/

namespace Py

/-- A Python `str`. -/
abbrev Str := List Char

/-- The exceptions the modelled code raises. -/
inductive Err where
  | valueError | indexError | typeError | attributeError | keyError | nameError
  | assertion | requirement | notImplemented | invalidParameters | addressValue
  | invalidInterface | invalidRange | invalidMember | mismatchedType
  | duplicateMember | noRegexMatch | unexpectedType | untyped | systemExit
  | recursionError | osError | unbound | reError | dynamicAddress
  deriving DecidableEq, Repr, Inhabited

deriving instance DecidableEq for Except

/-- `str.isspace` for one character (also the meaning of `\s` in `re`). -/
def isSpace (c : Char) : Bool :=
  let n := c.toNat
  (9 ≤ n && n ≤ 13) || (28 ≤ n && n ≤ 32) || n == 133 || n == 160 || n == 5760 ||
  (8192 ≤ n && n ≤ 8202) || n == 8232 || n == 8233 || n == 8239 || n == 8287 || n == 12288

/-- ASCII digit. -/
def isDigit (c : Char) : Bool := 48 ≤ c.toNat && c.toNat ≤ 57

/-- `[a-zA-Z]`. -/
def isLetter (c : Char) : Bool :=
  (65 ≤ c.toNat && c.toNat ≤ 90) || (97 ≤ c.toNat && c.toNat ≤ 122)

/-- `s.lstrip()`. -/
def lstrip (s : Str) : Str := s.dropWhile isSpace

/-- `s.rstrip()`. -/
def rstrip (s : Str) : Str := (s.reverse.dropWhile isSpace).reverse

/-- `s.strip()`. -/
def strip (s : Str) : Str := lstrip (rstrip s)

/-- `s.split(c)` for a one-character separator. -/
def splitOn (c : Char) : Str → List Str
  | [] => [[]]
  | x :: xs =>
    if x = c then [] :: splitOn c xs
    else match splitOn c xs with
      | [] => [[x]]
      | h :: t => (x :: h) :: t

/-- `s.split()` (runs of whitespace, no empty parts); `acc` is the word being
read, reversed. -/
def splitWsAux : Str → Str → List Str
  | [], acc => if acc.isEmpty then [] else [acc.reverse]
  | x :: xs, acc =>
    if isSpace x then
      (if acc.isEmpty then splitWsAux xs [] else acc.reverse :: splitWsAux xs [])
    else splitWsAux xs (x :: acc)

/-- `s.split()`. -/
def splitWs (s : Str) : List Str := splitWsAux s []

/-- `sep.join(parts)`. -/
def join (sep : Str) : List Str → Str
  | [] => []
  | [p] => p
  | p :: q :: ps => p ++ sep ++ join sep (q :: ps)

/-- `t in s` for strings. -/
def isInfix (t : Str) : Str → Bool
  | [] => t.isEmpty
  | x :: xs => t.isPrefixOf (x :: xs) || isInfix t xs

/-- `" " * n`. -/
def spaces (n : Nat) : Str := List.replicate n ' '

/-- The digit character of `n < 10`. -/
def digitChar (n : Nat) : Char := Char.ofNat (48 + n)

def natStrAux : Nat → Nat → Str
  | 0, _ => []
  | f + 1, n => if n < 10 then [digitChar n] else natStrAux f (n / 10) ++ [digitChar (n % 10)]

/-- `str(n)` for a non-negative integer. -/
def natStr (n : Nat) : Str := natStrAux (n + 1) n

/-- `str(i)`. -/
def intStr : Int → Str
  | .ofNat n => natStr n
  | .negSucc n => '-' :: natStr (n + 1)

/-- Value of a digit character. -/
def digitVal (c : Char) : Nat := c.toNat - 48

/-- Decimal value of a string of digits. -/
def natVal (s : Str) : Nat := s.foldl (fun a c => 10 * a + digitVal c) 0

/-- Non-empty, all digits. -/
def allDigits (s : Str) : Bool := !s.isEmpty && s.all isDigit

/-- Unsigned integer literal accepted by `int()`: digits, single underscores
between digits. -/
def unsignedLit (s : Str) : Option Nat :=
  let parts := splitOn '_' s
  if parts.all allDigits then some (natVal parts.flatten) else none

/-- `int(s)` for a string. -/
def pyInt (s : Str) : Except Err Int :=
  match strip s with
  | [] => .error .valueError
  | c :: cs =>
    if c = '-' then
      match unsignedLit cs with
      | some n => .ok (-(n : Int))
      | none => .error .valueError
    else if c = '+' then
      match unsignedLit cs with
      | some n => .ok (n : Int)
      | none => .error .valueError
    else
      match unsignedLit (c :: cs) with
      | some n => .ok (n : Int)
      | none => .error .valueError

/-- Stable insertion used by `sortBy`. -/
def insertBy {α : Type _} (le : α → α → Bool) (a : α) : List α → List α
  | [] => [a]
  | b :: bs => if le a b then a :: b :: bs else b :: insertBy le a bs

/-- `sorted(l, key=...)`: a stable sort (`le a b` is `key a <= key b`). -/
def sortBy {α : Type _} (le : α → α → Bool) : List α → List α
  | [] => []
  | a :: as => insertBy le a (sortBy le as)

/-- `set(l)` as a duplicate-free list in order of first occurrence, for an
equality test `eq`. -/
def dedupBy {α : Type _} (eq : α → α → Bool) : List α → List α
  | [] => []
  | a :: as => a :: (dedupBy eq as).filter (fun b => !eq a b)

end Py

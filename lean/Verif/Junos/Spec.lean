import Verif.Junos.Model

/-! # Specification: brace documents, how they are written, and the indented text

Nothing here refers to the model's functions. -/

namespace Junos.Spec

open Py

mutual
/-- A document: statements `t;`, blocks `t { body }` (possibly continued by
`} t {`), comments and empty lines. -/
inductive Doc where
  | nil
  | leaf (t : Str) (rest : Doc)
  | note (t : Str) (rest : Doc)
  | gap (rest : Doc)
  | block (t : Str) (body : Doc) (alts : Alts) (rest : Doc)
/-- The end of a block: closed, or continued with a new header. -/
inductive Alts where
  | done
  | alt (t : Str) (body : Doc) (more : Alts)
end

/-- Only whitespace. -/
def White (w : Str) : Prop := ∀ c ∈ w, isSpace c = true

/-- A statement text: not empty, no whitespace at the ends, does not begin with a closing
brace or the comment sign, does not end with an opening brace or a semicolon. -/
structure Text (t : Str) : Prop where
  ne : t ≠ []
  head : ∀ c, t.head? = some c → isSpace c = false ∧ c ≠ '}' ∧ c ≠ '#'
  last : ∀ c, t.getLast? = some c → isSpace c = false ∧ c ≠ '{' ∧ c ≠ ';'

/-- No empty pair of braces inside. -/
def NoEmpty (t : Str) : Prop := ¬ ∃ a w b, t = a ++ '{' :: w ++ '}' :: b ∧ White w

/-- `t;` with any whitespace and any number of semicolons. -/
def LeafLine (t l : Str) : Prop :=
  Text t ∧ NoEmpty t ∧ ∃ w1 w2 w3 k, l = w1 ++ t ++ w2 ++ List.replicate k ';' ++ w3 ∧
    White w1 ∧ White w2 ∧ White w3

/-- `t { }`: an empty block on one line. -/
def EmptyLine (t l : Str) : Prop :=
  Text t ∧ NoEmpty t ∧ ∃ w1 w2 w w3 k, l = w1 ++ (t ++ (w2 ++ '{' :: (w ++ ['}']))) ++
    List.replicate k ';' ++ w3 ∧ White w1 ∧ White w2 ∧ White w ∧ White w3

/-- `# ...` with no further `#`. -/
def NoteLine (t l : Str) : Prop :=
  ∃ w1 w3 k u, l = w1 ++ t ++ w3 ∧ White w1 ∧ White w3 ∧ t = List.replicate (k + 1) '#' ++ u ∧
    '#' ∉ u ∧ ∀ c, u.getLast? = some c → isSpace c = false

/-- `t {`. -/
def OpenLine (t l : Str) : Prop :=
  Text t ∧ ∃ w1 w2 w3, l = w1 ++ t ++ w2 ++ '{' :: w3 ∧ White w1 ∧ White w2 ∧ White w3

/-- `}`, also `};`. -/
def CloseLine (l : Str) : Prop :=
  ∃ w1 w3 k, l = w1 ++ '}' :: List.replicate k ';' ++ w3 ∧ White w1 ∧ White w3

/-- `} t {`. -/
def AltLine (t l : Str) : Prop :=
  Text t ∧ ∃ w1 w w2 w3, l = w1 ++ '}' :: w ++ t ++ w2 ++ '{' :: w3 ∧
    White w1 ∧ White w ∧ White w2 ∧ White w3

mutual
/-- The document is written as these lines, one item to a line, with any indentation. -/
inductive Written : Doc → List Str → Prop
  | nil : Written .nil []
  | leaf {t l d ls} : LeafLine t l → Written d ls → Written (.leaf t d) (l :: ls)
  | empty {t l d ls} : EmptyLine t l → Written d ls → Written (.leaf t d) (l :: ls)
  | note {t l d ls} : NoteLine t l → Written d ls → Written (.note t d) (l :: ls)
  | gap {l d ls} : White l → Written d ls → Written (.gap d) (l :: ls)
  | block {t l b lb a la d ls} : OpenLine t l → Written b lb → WrittenAlts a la → Written d ls →
      Written (.block t b a d) (l :: (lb ++ (la ++ ls)))
/-- The same for the end of a block. -/
inductive WrittenAlts : Alts → List Str → Prop
  | done {l} : CloseLine l → WrittenAlts .done [l]
  | alt {t l b lb a la} : AltLine t l → Written b lb → WrittenAlts a la →
      WrittenAlts (.alt t b a) (l :: (lb ++ la))
end

/-- A text at a depth: four blanks per level. -/
def at_ (d : Nat) (t : Str) : Str := List.replicate (4 * d) ' ' ++ t

mutual
/-- The indented text of a document at a depth (a closing brace gives an empty line). -/
def Doc.lines : Nat → Doc → List Str
  | _, .nil => []
  | d, .leaf t r => at_ d t :: r.lines d
  | d, .note t r => at_ d t :: r.lines d
  | d, .gap r => at_ d [] :: r.lines d
  | d, .block t b a r => at_ d t :: (b.lines (d + 1) ++ (a.lines d ++ r.lines d))
/-- The same for the end of a block. -/
def Alts.lines : Nat → Alts → List Str
  | d, .done => [at_ d []]
  | d, .alt t b a => at_ d t :: (b.lines (d + 1) ++ a.lines d)
end

mutual
/-- For each of those lines, the line of the header of the innermost block around it; `k`
is the number of the first line and `p` the block around the document. -/
def Doc.owners (p : Option Nat) : Nat → Doc → List (Option Nat)
  | _, .nil => []
  | k, .leaf _ r => p :: r.owners p (k + 1)
  | k, .note _ r => p :: r.owners p (k + 1)
  | k, .gap r => p :: r.owners p (k + 1)
  | k, .block _ b a r =>
    p :: (b.owners (some k) (k + 1) ++ (a.owners p (k + 1 + (b.lines 0).length) ++
      r.owners p (k + 1 + (b.lines 0).length + (a.lines 0).length)))
/-- The same for the end of a block. -/
def Alts.owners (p : Option Nat) : Nat → Alts → List (Option Nat)
  | _, .done => [p]
  | k, .alt _ b a => p :: (b.owners (some k) (k + 1) ++ a.owners p (k + 1 + (b.lines 0).length))
end

/-- The header line of the innermost block around line `i`. -/
def owner (doc : Doc) (i : Nat) : Option Nat := ((doc.owners none 0)[i]?).join

mutual
/-- No block header is a comment for the parser (`comment=` characters). -/
def Doc.headers (ds : List Char) : Doc → Prop
  | .nil => True
  | .leaf _ r => r.headers ds
  | .note _ r => r.headers ds
  | .gap r => r.headers ds
  | .block t b a r => (∀ c, t.head? = some c → c ∉ ds) ∧ b.headers ds ∧ a.headers ds ∧ r.headers ds
/-- The same for the end of a block. -/
def Alts.headers (ds : List Char) : Alts → Prop
  | .done => True
  | .alt t b a => (∀ c, t.head? = some c → c ∉ ds) ∧ b.headers ds ∧ a.headers ds
end

end Junos.Spec

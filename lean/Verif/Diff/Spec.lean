import Verif.Diff.Model
import Verif.Query.Spec

/-! # Specification of `HDiff`

A line is identified by its path: its own text and the texts of its parents, with
one blank between the words.  Comments have no parents here. -/

namespace Diff.Spec

open Py Conf

/-- The words of a text: its maximal parts without blanks. -/
inductive Words : Str → List Str → Prop
  | nil {ws} : (∀ c ∈ ws, isSpace c = true) → Words ws []
  | cons {ws w rest l} : (∀ c ∈ ws, isSpace c = true) → w ≠ [] → (∀ c ∈ w, isSpace c = false) →
      (∀ c, rest.head? = some c → isSpace c = true) → Words rest l → Words (ws ++ w ++ rest) (w :: l)

/-- `u` is `t` with as many blanks in front and one blank between the words. -/
def Norm (t u : Str) : Prop :=
  ∃ l, Words t l ∧ u = List.replicate (Conf.Spec.indent t) ' ' ++ join [' '] l

/-- The path of line `i`, from the line to its outermost parent. -/
inductive Path (o : Opts) (P : Parsed) : Nat → List Str → Prop
  | root {i u} : i ∈ P.list → (P.h i).parent = i ∨ Conf.Spec.comment o.delims (P.h i).text →
      Norm (P.h i).text u → Path o P i [u]
  | child {i u l} : i ∈ P.list → (P.h i).parent ≠ i → ¬ Conf.Spec.comment o.delims (P.h i).text →
      Norm (P.h i).text u → Path o P (P.h i).parent l → Path o P i (u :: l)

/-- The configuration has a line with this path. -/
def Has (o : Opts) (P : Parsed) (l : List Str) : Prop := ∃ i, Path o P i l

/-- No two different texts of the two configurations have the same hash. -/
def NoCollision (H : Str → Int) (o : Opts) (P Q : Parsed) : Prop :=
  ∀ l m, Has o P l ∨ Has o Q l → Has o P m ∨ Has o Q m → ∀ s ∈ l, ∀ t ∈ m, H s = H t → s = t

/-- The first line with this path. -/
def First (o : Opts) (P : Parsed) (i : Nat) (l : List Str) : Prop :=
  Path o P i l ∧ ∀ j, Path o P j l → i ≤ j

/-- The hypotheses of the theorems: both configurations can be parsed, no text starts
with a digit, the hashes of the texts do not collide, the syntax is ios or nxos. -/
structure Ready (H : Str → Int) (syn : Conf.Syntax) (ign : Bool) (before after : List Str)
    (P Q : Parsed) : Prop where
  before : parse (opts syn ign) before = .ok P
  after : parse (opts syn ign) after = .ok Q
  digitsP : Query.Spec.NoDigits P
  digitsQ : Query.Spec.NoDigits Q
  hash : NoCollision H (opts syn ign) P Q
  syn : syn = .ios ∨ syn = .nxos

end Diff.Spec

namespace Diff

/-- The path an entry of the result shows: its text and its parents' texts. -/
def Entry.path (e : Entry) : List Py.Str := e.text :: e.parents.reverse

end Diff

namespace Diff.Spec

open Py Conf Query

/-- The text starts with the word `no`. -/
def NoWord (t : Str) : Prop := ∃ c r, t = 'n' :: 'o' :: c :: r ∧ isSpace c = true

/-- `c` removes a line that is indented by `k`, of which `uncfgspec` matches `g`. -/
structure Undo (k : Nat) (g c : Str) : Prop where
  /-- `no` is put in front. -/
  plain : ¬ NoWord (strip g) → c = List.replicate k ' ' ++ ('n' :: 'o' :: ' ' :: strip g)
  /-- A `no` is taken away instead. -/
  negated : ∀ r, strip g = 'n' :: 'o' :: ' ' :: r → (∀ x, r.head? = some x → isSpace x = false) →
    2 ≤ r.length → '\n' ∉ r → ¬ NoWord r → c = List.replicate k ' ' ++ r

/-- The commands for a line that only the wanted configuration has. -/
def AddBlock (o : Opts) (P Q : Parsed) (line : Rx) (b : List Str) : Prop :=
  ∃ t ps, Has o Q (t :: ps) ∧ ¬ Has o P (t :: ps) ∧ Query.Spec.Match line t ∧ b = ps.reverse ++ [t]

/-- The command for a line that only the present configuration has. -/
def RemoveBlock (o : Opts) (P Q : Parsed) (line unc : Rx) (b : List Str) : Prop :=
  ∃ t ps g c, Has o P (t :: ps) ∧ ¬ Has o Q (t :: ps) ∧ Query.Spec.Match line t ∧ unc.find t = some g ∧
    Undo (Conf.Spec.indent t) g c ∧ b = [c]

end Diff.Spec

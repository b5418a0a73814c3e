import Verif.Query.Model
import Verif.Conf.Spec

/-! # Specification of the queries -/

namespace Query.Spec

open Py Conf

/-- `d` is reached from `o` by one or more steps to a child. -/
inductive Desc (P : Parsed) : Nat → Nat → Prop
  | child {o c} : c ∈ (P.h o).children → Desc P o c
  | step {o c d} : c ∈ (P.h o).children → Desc P c d → Desc P o d

/-- `a` is reached from `d` by one or more steps to a different parent. -/
inductive Anc (P : Parsed) : Nat → Nat → Prop
  | parent {d} : (P.h d).parent ≠ d → Anc P d (P.h d).parent
  | step {d a} : (P.h d).parent ≠ d → Anc P (P.h d).parent a → Anc P d a

/-- The expression matches the text. -/
def Match (rx : Rx) (t : Str) : Prop := ∃ g, rx.find t = some g

/-- The texts have no leading digit (then no two lines compare equal, see `C43`). -/
def NoDigits (P : Parsed) : Prop :=
  ∀ i ∈ P.list, ∀ c, (P.h i).text.head? = some c → isDigit c = false

/-- No child's text has a leading digit.  Only banner and macro bodies can have such
children, the others are indented (`C33_kids`). -/
def KidsNoDigits (P : Parsed) : Prop :=
  ∀ i ∈ P.list, ∀ k ∈ (P.h i).children, ∀ c, (P.h k).text.head? = some c → isDigit c = false

/-- The expression as a literal text is matched by the expression, and what it matches
is a non-empty part of the text. -/
def Normal (rx : Rx) : Prop :=
  (∀ t, rx.lit <:+: t → Match rx t) ∧ (∀ t g, rx.find t = some g → g ≠ [] ∧ g <:+: t)

/-- A list without repetitions, in line order. -/
def Ordered (P : Parsed) (l : List Nat) : Prop :=
  l.Pairwise (fun a b => (P.h a).linenum < (P.h b).linenum)

/-- No line starts a banner or a macro and none starts with a closing brace. -/
def Plain (lines : List Str) : Prop :=
  (∀ l ∈ lines, ∀ d, ¬ Conf.Spec.BannerHead (rstrip l) d) ∧
  (∀ l ∈ lines, ¬ "macro name ".toList <+: l) ∧ (∀ l ∈ lines, ¬ Conf.Spec.closes l)

/-- `objs` is a chain of parent/child links from a listed line, whose elements match
the levels one by one. -/
def Chain (P : Parsed) : List Level → List Nat → Prop
  | [], objs => objs = []
  | _ :: _, [] => False
  | l :: ls, o :: os =>
    (o ∈ P.list ∧ Match l.plain (P.h o).text ∧ Match l.flagged (P.h o).text) ∧ Links P ls o os
where
  /-- The rest of a chain. -/
  Links (P : Parsed) : List Level → Nat → List Nat → Prop
    | [], _, os => os = []
    | _ :: _, _, [] => False
    | l :: ls, p, o :: os =>
      o ∈ (P.h p).children ∧ Match l.flagged (P.h o).text ∧ Links P ls o os

/-- A returned row: a chain that matches the first `m` levels, filled up with `None`
where it cannot be continued. -/
def Row (P : Parsed) (ls : List Level) (row : List (Option Nat)) : Prop :=
  ∃ m os, m ≤ ls.length ∧ Chain P (ls.take m) os ∧
    row = os.map some ++ List.replicate (ls.length - m) none ∧
    (m < ls.length → ∀ k, ¬ Chain P (ls.take (m + 1)) (os ++ [k]))

end Query.Spec

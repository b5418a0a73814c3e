import Verif.Vlan.Model
import Verif.Range.Spec

/-! # Specification of the allowed VLANs of a trunk

The statements, their texts, and what a device does with them. -/

namespace Vlan.Spec

open Py Range

/-- A `switchport trunk allowed vlan` statement. -/
inductive Stmt where
  | none
  | all
  | list (items : List Item)
  | add (items : List Item)
  | except (items : List Item)
  | remove (items : List Item)

/-- The VLANs of a list. -/
def In (items : List Item) (x : Int) : Prop := ∃ i ∈ items, i.denotes x

/-- The text of a list. -/
def text (items : List Item) : Str := join [','] (items.map Item.text)

/-- A list can be written in a statement: it begins with a digit and does not end in
white text. -/
structure Good (items : List Item) : Prop where
  ne : items ≠ []
  valid : ∀ i ∈ items, i.Valid
  first : ∀ c, (text items).head? = some c → isDigit c = true
  last : ∀ c, (text items).getLast? = some c → isSpace c = false

/-- White text that separates words. -/
def Gap (w : Str) : Prop := w ≠ [] ∧ ∀ c ∈ w, isSpace c = true

/-- What may stand behind `vlan`. -/
inductive Arg : Str → Stmt → Prop where
  | none : Arg "none".toList .none
  | all : Arg "all".toList .all
  | list {l} : Good l → Arg (text l) (.list l)
  | add {l w} : Good l → Gap w → Arg ("add".toList ++ w ++ text l) (.add l)
  | except {l w} : Good l → Gap w → Arg ("except".toList ++ w ++ text l) (.except l)
  | remove {l w} : Good l → Gap w → Arg ("remove".toList ++ w ++ text l) (.remove l)

/-- A line that is a statement. -/
inductive Reads : Str → Stmt → Prop where
  | mk {w0 w1 w2 w3 w4 a s} : Gap w0 → Gap w1 → Gap w2 → Gap w3 → Gap w4 → Arg a s →
      Reads (w0 ++ "switchport".toList ++ w1 ++ "trunk".toList ++ w2 ++ "allowed".toList ++ w3 ++
        "vlan".toList ++ w4 ++ a) s

/-- A line that is something else. -/
def Other (t : Str) : Prop :=
  (splitWs t).take 4 ≠ ["switchport".toList, "trunk".toList, "allowed".toList, "vlan".toList]

/-- Lines, and the statements among them. -/
inductive Lines : List Str → List Stmt → Prop where
  | nil : Lines [] []
  | stmt {t s ts ss} : Reads t s → Lines ts ss → Lines (t :: ts) (s :: ss)
  | other {t ts ss} : Other t → Lines ts ss → Lines (t :: ts) ss

/-- The interface is a switchport that is not in access mode, and has no blank line. -/
structure Trunk (ts : List Str) : Prop where
  noBlank : ∀ t ∈ ts, splitWs t ≠ []
  switchport : ∃ t ∈ ts, (splitWs t).head? = some "switchport".toList
  notAccess : ∀ t ∈ ts, (splitWs t).take 3 ≠ ["switchport".toList, "mode".toList, "access".toList]

/-- All VLANs. -/
def All (x : Int) : Prop := 1 ≤ x ∧ x ≤ 4094

/-- What a device does with one statement. -/
def Stmt.apply (S : Int → Prop) : Stmt → (Int → Prop)
  | .none => fun _ => False
  | .all => All
  | .list l => In l
  | .add l => fun x => S x ∨ In l x
  | .except l => fun x => All x ∧ ¬ In l x
  | .remove l => fun x => S x ∧ ¬ In l x

/-- The VLANs of a device after the statements, in order. -/
def device (ss : List Stmt) : Int → Prop := ss.foldl Stmt.apply All

/-- `none`, `all` or a list. -/
def Base : Stmt → Prop
  | .none | .all | .list _ => True
  | _ => False

/-- No list statement directly after another. -/
def NoTwoLists : List Stmt → Prop
  | .list _ :: .list _ :: _ => False
  | _ :: r => NoTwoLists r
  | [] => True

/-- The plain statements among all. -/
def plain : List Stmt → List Stmt
  | [] => []
  | .none :: r => .none :: plain r
  | .all :: r => .all :: plain r
  | .list l :: r => .list l :: plain r
  | _ :: r => plain r

/-- `add` or `remove`. -/
def Change : Stmt → Prop
  | .add _ | .remove _ => True
  | _ => False

/-- Nothing that a statement removes is added by a later one. -/
def NoReturn (ss : List Stmt) : Prop :=
  ss.Pairwise (fun s t => ∀ a b, s = .remove a → t = .add b → ∀ x, In a x → ¬ In b x)

end Vlan.Spec

import Verif.Intf.Model

/-! # Specification of interface names

Nothing here refers to the parser. -/

namespace Intf.Spec

open Py

/-- A character of a prefix: a letter, a hyphen or whitespace. -/
def pfxChar (c : Char) : Prop := isLetter c = true ∨ c = '-' ∨ isSpace c = true

/-- The interfaces that IOS names can express: a prefix of letters, hyphens and inner
blanks; `port`, `slot/port` or `slot/card/port`; a class word of letters and hyphens. -/
structure Valid (i : Intf) : Prop where
  pfx : ∀ c ∈ i.pfx, pfxChar c
  first : ∀ c, i.pfx.head? = some c → isSpace c = false
  last : ∀ c, i.pfx.getLast? = some c → isSpace c = false
  sep : i.sep = if i.slot.isSome then some '/' else none
  card : i.card.isSome = true → i.slot.isSome = true
  cls : ∀ w, i.cls = some w → w ≠ [] ∧ ∀ c ∈ w, isLetter c = true ∨ c = '-'

/-- `slot/card/port` with the parts that there are. -/
def numbers (i : Intf) : Str :=
  join ['/'] ((i.slot.toList ++ i.card.toList ++ [i.port]).map natStr)

/-- An optional number behind a sign. -/
def signed (c : Char) : Option Nat → Str
  | none => []
  | some n => c :: natStr n

/-- An optional class word behind a blank. -/
def word : Option Str → Str
  | none => []
  | some w => ' ' :: w

/-- Everything behind the prefix. -/
def body (i : Intf) : Str := numbers i ++ signed '.' i.sub ++ signed ':' i.chan ++ word i.cls

/-- The name of an interface. -/
def name (i : Intf) : Str := i.pfx ++ body i

/-- The five numbers and the class. -/
def parts (i : Intf) : Option Nat × Option Nat × Nat × Option Nat × Option Nat × Option Str :=
  (i.slot, i.card, i.port, i.sub, i.chan, i.cls)

/-- Two interfaces have the same parts (slot, card, ...) present. -/
def SameShape (a b : Intf) : Prop :=
  a.slot.isSome = b.slot.isSome ∧ a.card.isSome = b.card.isSome ∧ a.sub.isSome = b.sub.isSome ∧
  a.chan.isSome = b.chan.isSome ∧ a.cls.isSome = b.cls.isSome

/-! ## Ranges -/

/-- One element of a range: a number or `a-b`. -/
inductive Item where
  | one (a : Nat)
  | run (a b : Nat)

/-- The text of an element. -/
def Item.text : Item → Str
  | .one a => natStr a
  | .run a b => natStr a ++ '-' :: natStr b

/-- The numbers of an element. -/
def Item.has : Item → Nat → Prop
  | .one a, k => k = a
  | .run a b, k => a ≤ k ∧ k ≤ b

/-- Whitespace. -/
def White (w : Str) : Prop := ∀ c ∈ w, isSpace c = true

/-- The slot and card in front of the first number. -/
def slots (slot card : Option Nat) : Str :=
  ((slot.toList ++ card.toList).map (fun n => natStr n ++ ['/'])).flatten

/-- `PREFIX s/c/a-b, c, d-e class`: white text may stand behind the prefix and the commas. -/
def rangeText (pfx w : Str) (slot card : Option Nat) (first : Item) (rest : List (Str × Item))
    (cls : Option Str) : Str :=
  pfx ++ w ++ slots slot card ++ join [','] (first.text :: rest.map (fun x => x.1 ++ x.2.text)) ++ word cls

/-- The prefix has letters and inner blanks but no hyphen; a card comes with a slot; the
class is a word of letters. -/
structure RangeOk (pfx w : Str) (slot card : Option Nat) (cls : Option Str) : Prop where
  chars : ∀ c ∈ pfx, isLetter c = true ∨ isSpace c = true
  first : ∀ c, pfx.head? = some c → isSpace c = false
  last : ∀ c, pfx.getLast? = some c → isSpace c = false
  white : White w
  slotted : card.isSome = true → slot.isSome = true
  word : ∀ v, cls = some v → v ≠ [] ∧ ∀ c ∈ v, isLetter c = true

/-- The number is listed in the range. -/
def Listed (first : Item) (rest : List (Str × Item)) (k : Nat) : Prop :=
  first.has k ∨ ∃ x ∈ rest, x.2.has k

/-- The interface of one number of the range. -/
def member (pfx : Str) (slot card : Option Nat) (cls : Option Str) (k : Nat) : Intf :=
  { pfx := pfx, sep := if slot.isSome then some '/' else none, slot := slot, card := card, port := k,
    sub := none, chan := none, cls := cls }

end Intf.Spec

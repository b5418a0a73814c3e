import Verif.Intf.RangeProps
import Verif.Intf.XRProps
import Verif.Range.Props
import Verif.Conf.Final

/-! # C226: the result types of a range

`Intf.range` is a range of IOS interfaces and `Range.ofText` one of integers; here is the choice among them, with the types that
are left over. -/

namespace Intf.Typed

open Py

/-- ccp_util.py:4779: the values of `result_type`. -/
inductive Kind where
  | str | int | float | none | ios | xr
  deriving DecidableEq, Repr

/-- The members of a range. -/
inductive Members where
  | intfs (l : List Intf.Intf)
  | ints (l : List Int)
  | xrs (l : List XR.Intf)
  deriving DecidableEq, Repr

/-- ccp_util.py:4875-4899 `parse_cisco_interfaces` with `result_type=CiscoIOSXRInterface`, up to the copy of the first
interface (line 4899). Simplification: what follows, on a copy, is not modelled; the theorem below shows that it is not
reached. -/
def xrRange (text : Str) : Except Err Members :=
  match splitOn ',' text with
  | [] => .error .valueError
  | first :: _ => do
    let b ← XR.parse ((splitOn '-' first).headD [])
    let c ← XR.ofDict (XR.asDict b)
    .ok (.xrs [c])

/-- ccp_util.py:4862-4871 `parse_strings` (which parses interfaces, as with `result_type=None`) and `parse_floats`, and
4796-4810: the members of a text that is not empty. -/
def parseKind (k : Kind) (text : Str) : Except Err Members :=
  match k with
  | .none | .ios | .str => do .ok (.intfs (← parseRange text))
  | .xr => xrRange text
  | .int => do .ok (.ints (← Range.parseIntegers text))
  | .float => .error .notImplemented

/-- ccp_util.py:4765-4810 `CiscoRange(text, result_type=k)`; `none` stands for a range without members. -/
def make (k : Kind) (text : Str) : Except Err (Option Members) :=
  if text = [] then .ok .none
  else if isInfix ",,".toList text then .error .invalidRange
  else do .ok (some (← parseKind k text))

/-! ## C226 -/

/-- C226: the empty text is the empty range, for every type; a text with two commas in a row is rejected for every type. -/
theorem C226_all (k : Kind) : make k [] = .ok .none ∧
    ∀ a b : Str, make k (a ++ ",,".toList ++ b) = .error .invalidRange := by
  refine ⟨rfl, fun a b => ?_⟩
  have h : isInfix ",,".toList (a ++ ",,".toList ++ b) = true := by
    rw [Conf.isInfix_iff]
    exact ⟨a, b, rfl⟩
  rw [make, if_neg (by simp), if_pos h]

/-- C226: with `str`, `None` and `CiscoIOSInterface` the members are the same interfaces (those of C16), and with `int` they are
the integers of C09. -/
theorem C226_types_partial {text : Str} (h : text ≠ []) :
    (∀ k, k = .str ∨ k = .none ∨ k = .ios → make k text = (do .ok (some (.intfs (← range text))))) ∧
    make .int text = (do .ok (some (.ints (← Range.ofText text).lst))) := by
  constructor
  · rintro k (rfl | rfl | rfl) <;>
    · rw [make, range, if_neg h, if_neg h]
      split
      · rfl
      · rw [parseKind]
        cases parseRange text <;> rfl
  · rw [make, Range.ofText, if_neg h, if_neg h]
    have e : ",,".toList = [',', ','] := rfl
    rw [e]
    split
    · rfl
    · rw [parseKind]
      cases Range.parseIntegers text <;> rfl

/-- C226 fails: there is no range of numbers with a fraction, nor one of texts: what `str` gives are interfaces. -/
theorem C226_float_fails {text : Str} (h : text ≠ []) : ∃ e, make .float text = .error e := by
  rw [make, if_neg h]
  split
  · exact ⟨_, rfl⟩
  · exact ⟨_, rfl⟩

/-- C226 fails: there is no range of IOS-XR interfaces; every text but the empty one raises an error. -/
theorem C226_xr_fails {text : Str} (h : text ≠ []) : ∃ e, make .xr text = .error e := by
  rw [make, if_neg h]
  split
  · exact ⟨_, rfl⟩
  · rw [parseKind, xrRange]
    split
    · exact ⟨_, rfl⟩
    · rename_i first _ _
      cases hp : XR.parse ((splitOn '-' first).headD []) with
      | error e => exact ⟨e, rfl⟩
      | ok b =>
        obtain ⟨e, he⟩ := XR.C109_constructor_fails (XR.asDict b)
        refine ⟨e, ?_⟩
        show (do .ok (some (← (XR.ofDict (XR.asDict b)) >>= fun c => .ok (Members.xrs [c])))) = _
        rw [he]
        rfl

example : (XR.parse "GigabitEthernet0/0/0/1".toList).isOk = true := by decide +kernel
example : make .str "Eth1/1-3".toList = make .none "Eth1/1-3".toList := by decide +kernel
example : make .int "1-3,5".toList = .ok (some (.ints [1, 2, 3, 5])) := by decide +kernel

end Intf.Typed

import Verif.Conf.FileLemmas
import Verif.Diff.Props

/-! # What `HDiff` accepts: lists of lines, file names and `CiscoConfParse` objects -/

namespace Diff

open Py Conf Query

/-! ## Model -/

/-- The documented kinds of `before_config` and `after_config`; a file name stands for the content of the file. -/
inductive Input where
  | lines (l : List Str)
  | file (content : Str)
  | object (P : Parsed)

/-- ciscoconfparse.py:4277-4295 `parse_hdiff_configs`, one side: `parse_before` and `parse_after` are None at first (4253-4254)
and are set only if the argument is not a `CiscoConfParse`. -/
def parseSide (o : Opts) : Input → Except Err (Option Parsed)
  | .lines l => (parse o l).map some
  | .file c => (load o c).map some
  | .object _ => .ok none

/-- ciscoconfparse.py:4298-4304: the checks of `build_diff_obj_lists`. -/
def needParse : Option Parsed → Except Err Parsed
  | some P => .ok P
  | none => .error .requirement

/-- ciscoconfparse.py:4190-4274 `HDiff(before, after, syntax, ignore_blank_lines)` for all kinds of arguments. -/
def hdiffIn (H : Str → Int) (syn : Conf.Syntax) (ign : Bool) (before after : Input) : Except Err (List Entry) := do
  let b ← parseSide (opts syn ign) before
  let a ← parseSide (opts syn ign) after
  let B ← needParse b
  let A ← needParse a
  let B' := normParsed (opts syn ign) B
  let A' := normParsed (opts syn ign) A
  if syn = .ios ∨ syn = .nxos then do
    let r ← buildIos H B' A'
    .ok r.2.2
  else .ok []

/-! ## C212 -/

/-- The lines that an argument stands for: the list, the lines of the file (with the empty line behind the last newline), the
lines of the object. -/
def Spec.Stands : Input → List Str → Prop
  | .lines l, l' => l' = l
  | .file c, l' => ∃ ts, (∀ t ∈ ts, Conf.Spec.oneLine t) ∧ c = saveText ts ∧ l' = ts ++ [[]]
  | .object P, l' => l' = P.texts

theorem side_lines {o : Opts} {x : Input} {l : List Str} (ho : o.ignoreBlank = false) (h : Spec.Stands x l)
    (hx : ∀ P, x ≠ .object P) : parseSide o x = (parse o l).map some := by
  cases x with
  | lines l' => cases h; rfl
  | object P => exact absurd rfl (hx P)
  | file c =>
    obtain ⟨ts, h1, rfl, rfl⟩ := h
    rw [parseSide, load, parse, preFilter, if_neg (by simp [ho]), read_save h1 (fun h => by rw [ho] at h; cases h), Conf.Spec.input, if_neg (by simp [ho])]

/-- C212: lists and files that stand for the same lines are compared alike (blank lines are kept).  Missing: objects. -/
theorem C212_lines_partial (H : Str → Int) (syn : Conf.Syntax) {x y : Input} {l m : List Str} (hx : Spec.Stands x l)
    (hy : Spec.Stands y m) (ox : ∀ P, x ≠ .object P) (oy : ∀ P, y ≠ .object P) :
    hdiffIn H syn false x y = hdiff H syn false l m := by
  rw [hdiffIn, hdiff, side_lines rfl hx ox, side_lines rfl hy oy]
  cases parse (opts syn false) l with
  | error e => rfl
  | ok B =>
    cases parse (opts syn false) m with
    | error e => rfl
    | ok A => rfl

/-- C212 fails for every object, whichever side it is on: RequirementFailure is raised instead of a comparison (or the error
of reading the other side). -/
theorem C212_object_fails (H : Str → Int) (syn : Conf.Syntax) (ign : Bool) (P : Parsed) (x : Input) :
    (∀ out, hdiffIn H syn ign (.object P) x ≠ .ok out) ∧ (∀ out, hdiffIn H syn ign x (.object P) ≠ .ok out) ∧
    ∀ l Q, x = .lines l → parse (opts syn ign) l = .ok Q →
      hdiffIn H syn ign (.object P) x = .error .requirement ∧ hdiffIn H syn ign x (.object P) = .error .requirement := by
  refine ⟨fun out h => ?_, fun out h => ?_, ?_⟩
  · rw [hdiffIn] at h
    cases hx : parseSide (opts syn ign) x with
    | error e => rw [hx] at h; cases h
    | ok a => rw [hx] at h; cases h
  · rw [hdiffIn] at h
    cases hx : parseSide (opts syn ign) x with
    | error e => rw [hx] at h; cases h
    | ok a =>
      rw [hx] at h
      cases a with
      | none => cases h
      | some A => cases h
  · rintro l Q rfl hp
    constructor
    · simp [hdiffIn, parseSide, hp, Except.map, needParse, bind, Except.bind]
    · simp [hdiffIn, parseSide, hp, Except.map, needParse, bind, Except.bind]

/-- A list against a file. -/
example : ∃ out, hdiffIn code .ios false (.lines [s "interface a", s " x"]) (.file (s "interface a\n x\n y\n")) = .ok out ∧
    out = (match hdiff code .ios false [s "interface a", s " x"] [s "interface a", s " x", s " y", []] with | .ok o => o | .error _ => []) ∧
    out ≠ [] := by
  have h := C212_lines_partial code .ios (x := .lines [s "interface a", s " x"]) (y := .file (s "interface a\n x\n y\n"))
    rfl ⟨[s "interface a", s " x", s " y"], fun t ht => by
      simp only [List.mem_cons, List.not_mem_nil, or_false] at ht
      rcases ht with rfl | rfl | rfl <;> exact ⟨by decide, by decide⟩, by decide +kernel, rfl⟩ (fun _ h => by cases h) (fun _ h => by cases h)
  rw [h]
  cases e : hdiff code .ios false [s "interface a", s " x"] ([s "interface a", s " x", s " y"] ++ [[]]) with
  | error err =>
    exfalso
    have : (match hdiff code .ios false [s "interface a", s " x"] ([s "interface a", s " x", s " y"] ++ [[]]) with
      | .ok _ => true | .error _ => false) = true := by decide +kernel
    rw [e] at this; cases this
  | ok out =>
    refine ⟨out, rfl, by rw [show [s "interface a", s " x", s " y", []] = [s "interface a", s " x", s " y"] ++ [[]] from rfl, e], ?_⟩
    rintro rfl
    have : (match hdiff code .ios false [s "interface a", s " x"] ([s "interface a", s " x", s " y"] ++ [[]]) with
      | .ok [] => false | _ => true) = true := by decide +kernel
    rw [e] at this; cases this

end Diff

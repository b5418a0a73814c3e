import Verif.PyLemmas

/-! # C273: the arguments of `Diff()`

Only what is given to the library hier_config is modelled, not what the library does with it. -/

namespace Misc

open Py

/-- The characters where `str.splitlines()` ends a line. -/
def isBreak (c : Char) : Bool :=
  [10, 11, 12, 13, 28, 29, 30, 133, 0x2028, 0x2029].contains c.toNat

/-- `str.splitlines()`. -/
def splitlines : Str → List Str
  | [] => []
  | '\r' :: '\n' :: s => [] :: splitlines s
  | c :: s =>
    if isBreak c then [] :: splitlines s
    else
      match splitlines s with
      | [] => [[c]]
      | l :: ls => (c :: l) :: ls

namespace Spec

/-- An argument `old_config` or `new_config`: None, a text, a list or tuple of texts, anything else. -/
inductive Arg where
  | none
  | text (t : Str)
  | lines (l : List Str)
  | other

/-- What hier_config gets. -/
inductive Given where
  | text (t : Str)
  | lines (l : List Str)
  deriving DecidableEq

/-- The lines of a configuration. -/
def Given.config : Given → List Str
  | .text t => splitlines t
  | .lines l => l

/-- The text is the path of a file; `F` are the files with their texts. -/
def Path (F : Str → Option Str) (t : Str) : Prop := (splitlines t).length = 1 ∧ F t ≠ none

/-- A text on one line. -/
def OneLine (t : Str) : Prop := ∀ c ∈ t, isBreak c = false

end Spec

open Spec

/-- ciscoconfparse.py:4030-4042 `old_config`; `F` are the files with their texts, and the lines of a
list are joined as on a POSIX system. -/
def oldConfig (F : Str → Option Str) : Arg → Except Err Given
  | .none => .ok (.lines [])
  | .text t =>
    if (splitlines t).length = 1 then
      match F t with
      | some c => .ok (.text c)
      | none => .ok (.text t)
    else .ok (.text t)
  | .lines l => .ok (.text (join ['\n'] l))
  | .other => .error .valueError

/-- ciscoconfparse.py:4047-4059 `new_config`. -/
def newConfig (F : Str → Option Str) : Arg → Except Err Given
  | .none => .ok (.lines [])
  | .text t =>
    if (splitlines t).length = 1 then
      match F t with
      | some c => .ok (.lines (splitlines c))
      | none => .ok (.text t)
    else .ok (.text t)
  | .lines l => .ok (.text (join ['\n'] l))
  | .other => .error .valueError

/-- ciscoconfparse.py:4000-4085 `Diff.__init__`: what hier_config gets as the running and as the
generated configuration.  (A host name is only logged.) -/
def diffInit (F : Str → Option Str) (old new : Arg) (syn : Str) : Except Err (Given × Given) := do
  let o ← oldConfig F old
  let n ← newConfig F new
  if syn ≠ "ios".toList then .error .notImplemented else .ok (o, n)

theorem break_cr : isBreak '\r' = true := by decide
theorem break_nl : isBreak '\n' = true := by decide

theorem splitlines_cons {c : Char} (h : isBreak c = false) (s : Str) :
    splitlines (c :: s) = match splitlines s with
      | [] => [[c]]
      | l :: ls => (c :: l) :: ls := by
  rw [splitlines, if_neg (by simp [h])]
  intro s e; subst e; exact absurd h (by decide)

theorem splitlines_nl (s : Str) : splitlines ('\n' :: s) = [] :: splitlines s := by
  rw [splitlines, if_pos break_nl]
  intro s e; exact absurd e (by decide)

theorem splitlines_line {l : Str} (h : OneLine l) (s : Str) : splitlines (l ++ '\n' :: s) = l :: splitlines s := by
  induction l with
  | nil => exact splitlines_nl s
  | cons c l ih =>
    rw [List.cons_append, splitlines_cons (h c (by simp)), ih (fun x hx => h x (by simp [hx]))]

theorem splitlines_one {l : Str} (h : OneLine l) (hn : l ≠ []) : splitlines l = [l] := by
  induction l with
  | nil => exact absurd rfl hn
  | cons c l ih =>
    rw [splitlines_cons (h c (by simp))]
    cases l with
    | nil => rfl
    | cons d l => rw [ih (fun x hx => h x (by simp [hx])) (by simp)]

theorem splitlines_join : ∀ {ls : List Str}, (∀ l ∈ ls, OneLine l) → ls.getLast? ≠ some [] → splitlines (join ['\n'] ls) = ls
  | [], _, _ => rfl
  | [l], h, hl => by
    have : l ≠ [] := fun e => hl (by rw [e]; rfl)
    show splitlines l = [l]
    exact splitlines_one (h l (by simp)) this
  | l :: m :: ls, h, hl => by
    have := splitlines_join (ls := m :: ls) (fun x hx => h x (by simp [hx])) (by rwa [List.getLast?_cons_cons] at hl)
    rw [join, List.append_assoc, List.singleton_append, splitlines_line (h l (by simp)), this]

/-- C273: which arguments are refused: a configuration that is no text, list, tuple or None first,
then a syntax other than ios. -/
theorem C273_refused (F : Str → Option Str) (old new : Arg) (syn : Str) :
    (diffInit F old new syn = .error .valueError ↔ old = .other ∨ new = .other) ∧
    (diffInit F old new syn = .error .notImplemented ↔ old ≠ .other ∧ new ≠ .other ∧ syn ≠ "ios".toList) ∧
    ((∃ r, diffInit F old new syn = .ok r) ↔ old ≠ .other ∧ new ≠ .other ∧ syn = "ios".toList) := by
  have ho : old ≠ .other → ∃ g, oldConfig F old = .ok g := by
    intro h
    cases old with
    | none => exact ⟨_, rfl⟩
    | text t =>
      rw [oldConfig]
      split
      · split <;> exact ⟨_, rfl⟩
      · exact ⟨_, rfl⟩
    | lines l => exact ⟨_, rfl⟩
    | other => exact absurd rfl h
  have hn : new ≠ .other → ∃ g, newConfig F new = .ok g := by
    intro h
    cases new with
    | none => exact ⟨_, rfl⟩
    | text t =>
      rw [newConfig]
      split
      · split <;> exact ⟨_, rfl⟩
      · exact ⟨_, rfl⟩
    | lines l => exact ⟨_, rfl⟩
    | other => exact absurd rfl h
  by_cases h1 : old = .other
  · subst h1
    simp [diffInit, oldConfig, bind, Except.bind]
  · obtain ⟨g, hg⟩ := ho h1
    by_cases h2 : new = .other
    · subst h2
      simp [diffInit, hg, newConfig, bind, Except.bind]
    · obtain ⟨k, hk⟩ := hn h2
      by_cases h3 : syn = "ios".toList
      · simp [diffInit, hg, hk, h1, h2, h3, bind, Except.bind]
      · have : diffInit F old new syn = .error .notImplemented := by
          simp only [diffInit, hg, hk, bind, Except.bind]
          rw [if_pos h3]
        rw [this]
        exact ⟨⟨fun e => (by cases e), fun e => (e.elim h1 h2).elim⟩, ⟨fun _ => ⟨h1, h2, h3⟩, fun _ => rfl⟩,
          ⟨fun ⟨r, e⟩ => (by cases e), fun e => absurd e.2.2 h3⟩⟩

/-- C273: hier_config gets the lines of the lists, texts and files that are given; None is the empty
configuration.  (The last line of a list must not be empty.) -/
theorem C273_lines_partial {F : Str → Option Str} {old new : Arg} {g k : Given} (h : diffInit F old new "ios".toList = .ok (g, k)) :
    (∀ a r, (a, r) = (old, g) ∨ (a, r) = (new, k) →
      (a = .none → r.config = []) ∧
      (∀ l, a = .lines l → (∀ x ∈ l, OneLine x) → l.getLast? ≠ some [] → r.config = l) ∧
      (∀ t, a = .text t → ¬ Path F t → r.config = splitlines t) ∧
      ∀ t c, a = .text t → Path F t → F t = some c → r.config = splitlines c) := by
  have he : oldConfig F old = .ok g ∧ newConfig F new = .ok k := by
    rw [diffInit] at h
    cases ho : oldConfig F old with
    | error e => rw [ho] at h; cases h
    | ok a =>
      cases hn : newConfig F new with
      | error e => rw [ho, hn] at h; cases h
      | ok b =>
        rw [ho, hn] at h
        simp only [bind, Except.bind] at h
        rw [if_neg (by simp)] at h
        cases h
        exact ⟨rfl, rfl⟩
  intro a r har
  have key : oldConfig F a = .ok r ∨ newConfig F a = .ok r := by
    rcases har with e | e <;> cases e
    · exact .inl he.1
    · exact .inr he.2
  refine ⟨?_, ?_, ?_, ?_⟩
  · rintro rfl
    rcases key with e | e <;> cases e <;> rfl
  · rintro l rfl h1 h2
    rcases key with e | e <;> cases e <;> exact splitlines_join h1 h2
  · rintro t rfl hp
    rw [Path, not_and, Decidable.not_not] at hp
    by_cases h1 : (splitlines t).length = 1
    · rw [oldConfig, newConfig, if_pos h1, if_pos h1, hp h1] at key
      rcases key with e | e <;> cases e <;> rfl
    · rw [oldConfig, newConfig, if_neg h1, if_neg h1] at key
      rcases key with e | e <;> cases e <;> rfl
  · rintro t c rfl hp hc
    rw [oldConfig, newConfig, if_pos hp.1, if_pos hp.1, hc] at key
    rcases key with e | e <;> cases e <;> rfl

/-- C273: the text of a file is given as a text if it is the old configuration and as a list if it is
the new one. -/
theorem C273_file_fails : ∃ F : Str → Option Str, ∃ t, oldConfig F (.text t) = .ok (.text "hostname a".toList) ∧
    newConfig F (.text t) = .ok (.lines ["hostname a".toList]) :=
  ⟨fun _ => some "hostname a".toList, "a.cfg".toList, by decide +kernel, by decide +kernel⟩

/-- C273: an empty line at the end of a list is lost, and a line that holds a line break is two lines. -/
theorem C273_last_fails :
    oldConfig (fun _ => none) (.lines ["a".toList, []]) = .ok (.text "a\n".toList) ∧
    (Given.text "a\n".toList).config = ["a".toList] ∧
    oldConfig (fun _ => none) (.lines ["a\nb".toList]) = .ok (.text "a\nb".toList) ∧
    (Given.text "a\nb".toList).config = ["a".toList, "b".toList] := by decide +kernel

example : diffInit (fun _ => none) (.lines ["interface a".toList, " shutdown".toList]) .none "ios".toList =
    .ok (.text "interface a\n shutdown".toList, .lines []) := by decide +kernel

example : (Given.text "interface a\n shutdown".toList).config = ["interface a".toList, " shutdown".toList] :=
  ((C273_lines_partial (F := fun _ => none) (old := .lines ["interface a".toList, " shutdown".toList]) (new := .none) (k := .lines [])
    (by decide +kernel)) _ _ (.inl rfl)).2.1 _ rfl (by unfold OneLine; decide +kernel) (by decide +kernel)

end Misc

import Verif.Py

/-! # C228: the marks of a line in a diff -/

namespace Diff.Word

open Py

/-- ccp_abc.py:90-91: the marks of a line. -/
structure Mark where
  word : Str := []
  side : Str := []
  deriving DecidableEq, Repr

/-- ccp_abc.py:357-369 `diff_side = val`. -/
def setSide (v : Str) (m : Mark) : Except Err Mark :=
  if v ∈ ["before".toList, "after".toList, []] then .ok { m with side := v } else .error .assertion

/-- ccp_abc.py:320-348 `diff_word = val`. -/
def setWord (v : Str) (m : Mark) : Except Err Mark :=
  if m.side = "before".toList then
    if v ∈ ["keep".toList, "remove".toList, []] then .ok { m with word := v } else .error .assertion
  else if m.side = "after".toList then
    if v ∈ ["unchanged".toList, "add".toList, "unknown".toList, []] then .ok { m with word := v } else .error .assertion
  else .error .valueError

namespace Spec

/-- The words of the lines of each configuration. -/
inductive Goes : Str → Str → Prop where
  | keep : Goes "before".toList "keep".toList
  | remove : Goes "before".toList "remove".toList
  | unchanged : Goes "after".toList "unchanged".toList
  | add : Goes "after".toList "add".toList
  | unknown : Goes "after".toList "unknown".toList

/-- The marks agree: a line without a word, or with a word of its side. -/
def Fits (m : Mark) : Prop := m.word = [] ∨ Goes m.side m.word

/-- What assignments make of a new line. -/
inductive Reach : Mark → Prop where
  | new : Reach {}
  | side {m m' v} : Reach m → setSide v m = .ok m' → Reach m'
  | word {m m' v} : Reach m → setWord v m = .ok m' → Reach m'

end Spec

theorem goes_side {a b w : Str} (h : Spec.Goes a w) (h' : Spec.Goes b w) : a = b := by
  have key : ∀ {a}, Spec.Goes a w → a = if w ∈ ["keep".toList, "remove".toList] then "before".toList else "after".toList := by
    intro a h
    cases h <;> decide
  rw [key h, key h']

/-- C228: a word is accepted iff the side is set and the word is empty or one of that side; nothing else changes. -/
theorem C228_word (v : Str) (m m' : Mark) : setWord v m = .ok m' ↔
    m' = { m with word := v } ∧ (m.side = "before".toList ∨ m.side = "after".toList) ∧ (v = [] ∨ Spec.Goes m.side v) := by
  have hne : ("after".toList : Str) ≠ "before".toList := by decide
  have key : ∀ {p : Prop} [Decidable p] {a : Mark}, (if p then Except.ok a else .error Err.assertion) = Except.ok (ε := Err) m' ↔
      m' = a ∧ p := by
    intro p _ a
    split
    · rename_i h; exact ⟨fun e => ⟨(Except.ok.inj e).symm, h⟩, fun e => by rw [e.1]⟩
    · rename_i h; exact ⟨fun e => (by cases e), fun e => absurd e.2 h⟩
  rw [setWord]
  split
  · rename_i hs
    rw [key, hs]
    constructor
    · rintro ⟨h1, h2⟩
      refine ⟨h1, Or.inl rfl, ?_⟩
      simp only [List.mem_cons, List.not_mem_nil, or_false] at h2
      rcases h2 with rfl | rfl | rfl
      · exact Or.inr .keep
      · exact Or.inr .remove
      · exact Or.inl rfl
    · rintro ⟨h1, _, h2⟩
      refine ⟨h1, ?_⟩
      rcases h2 with rfl | h2
      · simp
      · generalize hb : ("before".toList : Str) = b at h2
        cases h2 with
        | keep => simp
        | remove => simp
        | unchanged => exact absurd hb.symm hne
        | add => exact absurd hb.symm hne
        | unknown => exact absurd hb.symm hne
  · split
    · rename_i hs
      rw [key, hs]
      constructor
      · rintro ⟨h1, h2⟩
        refine ⟨h1, Or.inr rfl, ?_⟩
        simp only [List.mem_cons, List.not_mem_nil, or_false] at h2
        rcases h2 with rfl | rfl | rfl | rfl
        · exact Or.inr .unchanged
        · exact Or.inr .add
        · exact Or.inr .unknown
        · exact Or.inl rfl
      · rintro ⟨h1, _, h2⟩
        refine ⟨h1, ?_⟩
        rcases h2 with rfl | h2
        · simp
        · generalize hb : ("after".toList : Str) = b at h2
          cases h2 with
          | keep => exact absurd hb hne
          | remove => exact absurd hb hne
          | unchanged => simp
          | add => simp
          | unknown => simp
    · rename_i h1 h2
      constructor
      · intro e; cases e
      · rintro ⟨_, h | h, _⟩
        · exact absurd h h1
        · exact absurd h h2

/-- C228: after any assignment of a word the marks agree, whatever was assigned before. -/
theorem C228_fits_partial {v : Str} {m m' : Mark} (h : setWord v m = .ok m') : Spec.Fits m' := by
  obtain ⟨rfl, _, h2⟩ := (C228_word v m m').mp h
  exact h2

/-- C228: a side is one of three texts, and only those are accepted. -/
theorem C228_side {m : Mark} (h : Spec.Reach m) : m.side = [] ∨ m.side = "before".toList ∨ m.side = "after".toList := by
  induction h with
  | new => exact Or.inl rfl
  | side _ h _ =>
    rw [setSide] at h
    split at h
    · rename_i hv
      obtain rfl := Except.ok.inj h
      simp only [List.mem_cons, List.not_mem_nil, or_false] at hv
      rcases hv with rfl | rfl | rfl
      · exact Or.inr (Or.inl rfl)
      · exact Or.inr (Or.inr rfl)
      · exact Or.inl rfl
    · cases h
  | word _ h ih =>
    obtain ⟨rfl, _, _⟩ := (C228_word _ _ _).mp h
    exact ih

/-- C228 fails: the side can be assigned anew and the word stays, so that every word comes to stand on the other side and on a
line without side. -/
theorem C228_stale_fails {a b w : Str} (hw : Spec.Goes a w) (hb : b = [] ∨ b = "before".toList ∨ b = "after".toList)
    (hne : b ≠ a) : Spec.Reach ⟨w, b⟩ ∧ ¬ Spec.Fits ⟨w, b⟩ := by
  have ha : a = "before".toList ∨ a = "after".toList := by
    cases hw
    · exact Or.inl rfl
    · exact Or.inl rfl
    · exact Or.inr rfl
    · exact Or.inr rfl
    · exact Or.inr rfl
  have side : ∀ {s : Str} (m : Mark), (s = [] ∨ s = "before".toList ∨ s = "after".toList) → setSide s m = .ok { m with side := s } := by
    rintro s m (rfl | rfl | rfl)
    · exact if_pos (by simp)
    · exact if_pos (by simp)
    · exact if_pos (by simp)
  constructor
  · have h1 : Spec.Reach ⟨[], a⟩ := .side .new (side {} (Or.inr ha))
    have h2 : Spec.Reach ⟨w, a⟩ := .word h1 ((C228_word w ⟨[], a⟩ _).mpr ⟨rfl, ha, Or.inr hw⟩)
    exact .side h2 (side ⟨w, a⟩ hb)
  · rintro (h | h)
    · change w = [] at h
      subst h
      cases hw
    · change Spec.Goes b w at h
      exact hne (goes_side h hw)

example : Spec.Goes "before".toList "remove".toList := .remove
example : Spec.Reach ⟨"add".toList, "after".toList⟩ ∧ Spec.Fits ⟨"add".toList, "after".toList⟩ :=
  ⟨.word (.side .new (v := "after".toList) (m' := ⟨[], "after".toList⟩) (by decide)) (v := "add".toList) (by decide), Or.inr .add⟩

end Diff.Word

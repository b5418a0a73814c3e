import Verif.Diff.Props

/-! # C242: the marks of a line and of the lines below it -/

namespace Diff

open Py Conf Query

variable {o : Opts} {P Q : Parsed}

/-- The parents of a line are lines. -/
theorem has_suffix {l m : List Str} (h : Spec.Has o P m) (hl : l ≠ []) (hs : l <:+ m) : Spec.Has o P l := by
  obtain ⟨i, hi⟩ := h
  induction hi with
  | @root i u h1 h2 h3 =>
    obtain ⟨a, e⟩ := hs
    have : l = [u] := by
      cases a with
      | nil => exact e
      | cons x a =>
        simp only [List.cons_append, List.cons.injEq, List.append_eq_nil_iff] at e
        exact absurd e.2.2 hl
    rw [this]
    exact ⟨i, .root h1 h2 h3⟩
  | @child i u m h1 h2 h3 h4 h5 ih =>
    rcases List.suffix_cons_iff.mp hs with rfl | hs
    · exact ⟨i, .child h1 h2 h3 h4 h5⟩
    · exact ih hs

section
variable {H : Str → Int} {syn : Conf.Syntax} {ign : Bool} {before after : List Str}
  (R : Spec.Ready H syn ign before after P Q) {out : List Entry} (ho : hdiff H syn ign before after = .ok out)
include R ho

/-- C242: all lines below an added line are added. -/
theorem C242_add_partial {e d : Entry} (he : e ∈ out) (hd : d ∈ out) (hs : e.path <:+ d.path) (hw : e.word = .add) :
    d.word = .add := by
  have h1 := C48_plus_partial R ho he hw
  refine Classical.byContradiction (fun h2 => h1.2 ?_)
  have hne : e.path ≠ [] := by rw [Entry.path]; simp
  by_cases h3 : d.word = .remove
  · exact has_suffix (C48_minus_partial R ho hd h3).1 hne hs
  · exact has_suffix (C48_same_partial R ho hd h2 h3).1 hne hs

/-- C242: all lines below a removed line are removed. -/
theorem C242_remove_partial {e d : Entry} (he : e ∈ out) (hd : d ∈ out) (hs : e.path <:+ d.path) (hw : e.word = .remove) :
    d.word = .remove := by
  have h1 := C48_minus_partial R ho he hw
  refine Classical.byContradiction (fun h2 => h1.2 ?_)
  have hne : e.path ≠ [] := by rw [Entry.path]; simp
  by_cases h3 : d.word = .add
  · exact has_suffix (C48_plus_partial R ho hd h3).1 hne hs
  · exact has_suffix (C48_same_partial R ho hd h3 h2).2 hne hs

/-- C242: with a line its parents are shown, each with its own parents. -/
theorem C242_parents_partial {d : Entry} (hd : d ∈ out) {l : List Str} (hl : l ≠ []) (hs : l <:+ d.path) :
    ∃ e ∈ out, e.path = l := by
  have key : Spec.Has (opts syn ign) P l ∨ Spec.Has (opts syn ign) Q l := by
    by_cases h3 : d.word = .remove
    · exact .inl (has_suffix (C48_minus_partial R ho hd h3).1 hl hs)
    · by_cases h2 : d.word = .add
      · exact .inr (has_suffix (C48_plus_partial R ho hd h2).1 hl hs)
      · exact .inl (has_suffix (C48_same_partial R ho hd h2 h3).1 hl hs)
  obtain ⟨c1, c2, c3⟩ := C64_complete_partial R ho l
  by_cases hp : Spec.Has (opts syn ign) P l <;> by_cases hq : Spec.Has (opts syn ign) Q l
  · obtain ⟨e, h1, h2, _⟩ := c3 hp hq; exact ⟨e, h1, h2⟩
  · obtain ⟨e, h1, h2, _⟩ := c2 hp hq; exact ⟨e, h1, h2⟩
  · obtain ⟨e, h1, h2, _⟩ := c1 hq hp; exact ⟨e, h1, h2⟩
  · exact absurd key (by simp [hp, hq])

end

/-- The hypotheses are met: the line `j` is added with the line below it. -/
example : ∃ P Q out, Spec.Ready code .ios false [s "i", s " x"] [s "i", s "j", s " x"] P Q ∧
    hdiff code .ios false [s "i", s " x"] [s "i", s "j", s " x"] = .ok out ∧
    out.map (fun e => (e.word, e.path)) =
      [(.keep, [s "i"]), (.remove, [s " x", s "i"]), (.add, [s "j"]), (.add, [s " x", s "j"])] :=
  ⟨_, _, _, ⟨rfl, rfl, noDigits_of (by decide), noDigits_of (by decide), noCollision_code _ _ _, .inl rfl⟩, rfl,
    by decide +kernel⟩

end Diff

import Verif.Edit.Reshape

/-! # C254: lines that follow do not change what was read before -/

namespace Edit

open Py Conf Query

variable {o : Opts} {a b : List Str} {P Q : Parsed}

theorem lineAt_left {i : Nat} (hi : i < a.length) : lineAt (a ++ b) i = lineAt a i := by
  rw [lineAt, lineAt, List.getD_eq_getElem?_getD, List.getD_eq_getElem?_getD, List.getElem?_append_left hi]

theorem rule_left {ds : List Char} {i p : Nat} (hi : i < a.length) :
    Conf.Spec.ParentRule ds (lineAt (a ++ b)) i p ↔ Conf.Spec.ParentRule ds (lineAt a) i p := by
  have hn : ∀ p, Conf.Spec.Nearest ds (lineAt (a ++ b)) i p ↔ Conf.Spec.Nearest ds (lineAt a) i p := by
    intro p
    constructor
    · rintro ⟨h1, h2, h3, h4⟩
      rw [lineAt_left (by omega)] at h2 h3
      rw [lineAt_left hi] at h3
      refine ⟨h1, h2, h3, fun q h5 h6 h7 => ?_⟩
      have := h4 q h5 h6 (by rw [lineAt_left (by omega)]; exact h7)
      rwa [lineAt_left hi, lineAt_left (by omega)] at this
    · rintro ⟨h1, h2, h3, h4⟩
      refine ⟨h1, by rw [lineAt_left (by omega)]; exact h2, by rw [lineAt_left (by omega), lineAt_left hi]; exact h3,
        fun q h5 h6 h7 => ?_⟩
      rw [lineAt_left (by omega)] at h7
      rw [lineAt_left hi, lineAt_left (i := q) (by omega)]
      exact h4 q h5 h6 h7
  have hu : Conf.Spec.Unattached ds (lineAt (a ++ b)) i ↔ Conf.Spec.Unattached ds (lineAt a) i := by
    rw [Conf.Spec.Unattached, Conf.Spec.Unattached, lineAt_left hi, lineAt_left (i := i - 1) (by omega)]
  rw [Conf.Spec.ParentRule, Conf.Spec.ParentRule, hu]
  simp only [hn]

/-- C254: the lines of the beginning `a` of a configuration have the texts and the parents that they have when `a` is
read alone; and of the children, those that are in `a`. -/
theorem C254_prefix_partial (h : parse o a = .ok P) (h' : parse o (a ++ b) = .ok Q) (hpl : Query.Spec.Plain (a ++ b))
    (hb : ∀ l ∈ a ++ b, ¬ Conf.Spec.blank l) :
    P.list = Q.list.take a.length ∧ ∀ i ∈ P.list, (Q.h i).text = (P.h i).text ∧ (Q.h i).parent = (P.h i).parent ∧
      (P.h i).children = (Q.h i).children.filter (· < a.length) := by
  have hba : ∀ l ∈ a, ¬ Conf.Spec.blank l := fun l hl => hb l (by simp [hl])
  have hpa : Query.Spec.Plain a :=
    ⟨fun l hl => hpl.1 l (by simp [hl]), fun l hl => hpl.2.1 l (by simp [hl]), fun l hl => hpl.2.2 l (by simp [hl])⟩
  have hnil : ∀ t ∈ a, t ≠ [] := fun t ht => by rintro rfl; exact hba [] ht (fun _ hc => by cases hc)
  have hnil' : ∀ t ∈ a ++ b, t ≠ [] := fun t ht => by rintro rfl; exact hb [] ht (fun _ hc => by cases hc)
  have hboot := h
  rw [texts_parse hnil] at hboot
  have hboot' := h'
  rw [texts_parse hnil'] at hboot'
  have hl := list_full hboot (keep_of_noBlank (Or.inr hba))
  have hl' := list_full hboot' (keep_of_noBlank (Or.inr hb))
  have hlt : ∀ i, i ∈ P.list ↔ i < a.length := fun i => by rw [hl]; simp
  have hlt' : ∀ i, i ∈ Q.list ↔ i < a.length + b.length := fun i => by rw [hl']; simp
  have hpar : ∀ i < a.length, (Q.h i).parent = (P.h i).parent := by
    intro i hi
    have r := C21_indent h hpa.1 hpa.2.1 hpa.2.2 ((hlt i).mpr hi) (P.h i).parent
    have r' := C21_indent h' hpl.1 hpl.2.1 hpl.2.2 ((hlt' i).mpr (by omega)) (P.h i).parent
    rw [input_id hnil] at r
    rw [input_id hnil', rule_left hi] at r'
    exact r'.mpr (r.mp rfl)
  refine ⟨?_, fun i hi => ?_⟩
  · rw [hl, hl', List.take_range, List.length_append, Nat.min_eq_left (by omega)]
  have hi' := (hlt i).mp hi
  refine ⟨?_, hpar i hi', ?_⟩
  · rw [show (Q.h i).text = rstrip (lineAt (a ++ b) i) from (attrs hboot' (by rw [List.length_append]; omega)).1,
      show (P.h i).text = rstrip (lineAt a i) from (attrs hboot hi').1, lineAt_left hi']
  · have c := C22_agree_partial h hpa.1 hpa.2.1 hpa.2.2 hi
    have c' := C22_agree_partial h' hpl.1 hpl.2.1 hpl.2.2 ((hlt' i).mpr (by omega))
    refine increasing_ext c.1 (List.Pairwise.filter _ c'.1) (fun x => ?_)
    rw [c.2, List.mem_filter, c'.2, hlt, hlt', decide_eq_true_eq]
    constructor
    · rintro ⟨h1, h2, h3⟩
      exact ⟨⟨by omega, by rw [hpar x h1]; exact h2, h3⟩, h1⟩
    · rintro ⟨⟨_, h2, h3⟩, h1⟩
      exact ⟨h1, by rw [← hpar x h1]; exact h2, h3⟩

/-- The first three lines of four; the last line is a new child of the first. -/
example : ∃ P Q, parse {} [s "a", s " b", s "  c"] = .ok P ∧ parse {} ([s "a", s " b", s "  c"] ++ [s " d"]) = .ok Q ∧
    (P.h 0).children = [1] ∧ (Q.h 0).children = [1, 3] ∧ (Q.h 2).parent = 1 :=
  ⟨_, _, rfl, rfl, by decide +kernel, by decide +kernel, by decide +kernel⟩

/-- C254 does not hold for macros: a macro without its end cannot be read, with it it can. -/
theorem C254_macro_fails : (parse {} [s "macro name m", s "a"]).toOption.map (·.texts) = none ∧
    (parse {} ([s "macro name m", s "a"] ++ [s "@"])).toOption.map (·.texts) = some [s "macro name m", s "a", s "@"] := by
  decide +kernel

end Edit

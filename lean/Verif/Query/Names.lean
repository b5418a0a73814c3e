import Verif.Query.Props

/-! # C237: the searches by parent and by child find the two ends of the same links -/

namespace Query

open Py Conf

/-- ciscoconfparse.py:1760-1785 `find_objects_w_child`. -/
def findObjectsWChild (P : Parsed) (p c : Rx) (recurse : Bool) : List Nat := findParentObjects P p c recurse

/-- ciscoconfparse.py:2207-2224 `find_objects_wo_child`. -/
def findObjectsWoChild (P : Parsed) (p c : Rx) (recurse : Bool) : List Nat := findParentObjectsWoChild P p c recurse

/-- ciscoconfparse.py:2538-2558 `find_objects_w_parents`. -/
def findObjectsWParents (P : Parsed) (p c : Rx) : List Nat := findChildObjects P p c false

/-- `d` is a child of `i`; with `recurse`, a descendant. -/
def Spec.Below (P : Parsed) (recurse : Bool) (i d : Nat) : Prop :=
  if recurse then Spec.Desc P i d else d ∈ (P.h i).children

variable {o : Opts} {lines : List Str} {P : Parsed}

/-- C237: `find_objects_w_child` finds the lines that match `parentspec` and have a line below them that `find_child_objects`
finds, and `find_child_objects` finds the lines that match `childspec` and are below a line that `find_objects_w_child` finds. -/
theorem C237_links_partial (h : parse o lines = .ok P) (hd : Spec.KidsNoDigits P) (p c : Rx) (hc : Spec.Normal c) (r : Bool) :
    (∀ i, i ∈ findObjectsWChild P p c r ↔
      (i ∈ P.list ∧ Spec.Match p (P.h i).text) ∧ ∃ d ∈ findChildObjects P p c r, Spec.Below P r i d) ∧
    (∀ d, d ∈ findChildObjects P p c r ↔
      Spec.Match c (P.h d).text ∧ ∃ i ∈ findObjectsWChild P p c r, Spec.Below P r i d) := by
  obtain ⟨h1, h2, _⟩ := C32_children h hd p c
  have h3 := C30_parents_partial h p c hc
  have hm : ∀ d, (∃ g, c.find (P.h d).text = some g ∧ g ≠ []) ↔ Spec.Match c (P.h d).text :=
    fun d => ⟨fun ⟨g, hg, _⟩ => ⟨g, hg⟩, fun ⟨g, hg⟩ => ⟨g, hg, (hc.2 _ g hg).1⟩⟩
  have hp : ∀ i, i ∈ findObjectsWChild P p c r ↔ (i ∈ P.list ∧ Spec.Match p (P.h i).text) ∧
      ∃ d, Spec.Below P r i d ∧ Spec.Match c (P.h d).text := by
    intro i
    cases r
    · exact (h3 i).1
    · exact (h3 i).2 hd
  have hk : ∀ d, d ∈ findChildObjects P p c r ↔ Spec.Match c (P.h d).text ∧
      ∃ i ∈ P.list, Spec.Match p (P.h i).text ∧ Spec.Below P r i d := by
    intro d
    rw [← hm]
    cases r
    · exact h1 d
    · exact h2 d
  refine ⟨fun i => ?_, fun d => ?_⟩
  · rw [hp i]
    refine and_congr_right (fun hi => ⟨?_, ?_⟩)
    · rintro ⟨d, b, m⟩
      exact ⟨d, (hk d).mpr ⟨m, i, hi.1, hi.2, b⟩, b⟩
    · rintro ⟨d, hd', b⟩
      exact ⟨d, b, ((hk d).mp hd').1⟩
  · rw [hk d]
    refine and_congr_right (fun m => ⟨?_, ?_⟩)
    · rintro ⟨i, hi, hm', b⟩
      exact ⟨i, (hp i).mpr ⟨⟨hi, hm'⟩, d, b, m⟩, b⟩
    · rintro ⟨i, hi, b⟩
      exact ⟨i, ((hp i).mp hi).1.1, ((hp i).mp hi).1.2, b⟩

/-- C237: a line that matches `parentspec` is found by exactly one of `find_objects_w_child` and `find_objects_wo_child`; if it is
found by the second, no line below it is found by `find_objects_w_parents`. -/
theorem C237_without_partial (h : parse o lines = .ok P) (hd : Spec.KidsNoDigits P) (p c : Rx) (hc : Spec.Normal c) {i : Nat}
    (hi : i ∈ P.list) (hm : Spec.Match p (P.h i).text) :
    (i ∈ findObjectsWoChild P p c false ↔ i ∉ findObjectsWChild P p c false) ∧
    (i ∈ findObjectsWoChild P p c false ↔ ∀ d ∈ (P.h i).children, d ∉ findObjectsWParents P p c) := by
  obtain ⟨k1, k2⟩ := C31_partition (P := P) p c false i
  have hf : i ∈ findObjects P p := (C29_find_objects h p).1 i |>.mpr ⟨hi, hm⟩
  have e : i ∈ findObjectsWoChild P p c false ↔ i ∉ findObjectsWChild P p c false := by
    constructor
    · exact fun a b => k2 ⟨b, a⟩
    · exact fun a => (k1.mp hf).resolve_left a
  refine ⟨e, e.trans ?_⟩
  rw [(C237_links_partial h hd p c hc false).1 i]
  constructor
  · exact fun hn d hd' hx => hn ⟨⟨hi, hm⟩, d, hx, hd'⟩
  · rintro hn ⟨_, d, hx, hb⟩
    exact hn d hb hx

theorem kidsNoDigits_of (h : P.list.all (fun i => (P.h i).children.all (fun k => (P.h k).text.head?.all (fun c => !isDigit c))) = true) :
    Spec.KidsNoDigits P := by
  intro i hi k hk c hc
  have := List.all_eq_true.mp (List.all_eq_true.mp h i hi) k hk
  rw [hc] at this
  simpa using this

/-- Two parents, one of them with a matching child, one without. -/
example : ∃ P, parse {} [s "p 1", s " p", s "  p", s "p 2", s " b"] = .ok P ∧ Spec.KidsNoDigits P ∧
    findObjectsWChild P rxP rxP false = [0, 1] ∧ findObjectsWoChild P rxP rxP false = [2, 3] ∧
    findObjectsWParents P rxP rxP = [1, 2] := by
  refine ⟨_, rfl, kidsNoDigits_of (by decide), by decide, by decide, by decide⟩

/-- C237: with `x*` the parent is found and no child of it. -/
theorem C237_star_fails : ∃ P, parse {} [s "p", s " b"] = .ok P ∧ findObjectsWChild P rxP rxStar false = [0] ∧
    findObjectsWParents P rxP rxStar = [] :=
  ⟨_, rfl, by decide, by decide⟩

end Query

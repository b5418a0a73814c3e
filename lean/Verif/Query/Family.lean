import Verif.Query.Props
import Verif.Query.More

/-! # Family predicates of a line, and the methods that link lines by hand -/

namespace Query

open Py Conf

/-! ## Model -/

/-- ccp_abc.py:780-791 `has_child_with`. -/
def hasChildWith (P : Parsed) (i : Nat) (rx : Rx) (allKids : Bool) : Bool :=
  decide (((if allKids then allChildren P i else (P.h i).children).filter (fun c => reSearch rx (P.h c).text)).length ≠ 0)

/-- ccp_abc.py:539-543,1479-1481 `has_children`, `is_parent`. -/
def isParent (P : Parsed) (i : Nat) : Bool := decide ((P.h i).children.length > 0)

/-- ccp_abc.py:1484-1486 `is_child`. -/
def isChild (P : Parsed) (i : Nat) : Bool := !objEq (P.h (P.h i).parent) (P.h i)

/-- ccp_abc.py:1469-1476 `geneology_text`. -/
def geneologyText (P : Parsed) (i : Nat) : List Str := (geneology P i).map (fun j => (P.h j).text)

/-- ccp_abc.py:567-573 `add_parent`, for syntaxes other than junos (as the next one). -/
def addParent (P : Parsed) (i p : Nat) : Parsed := { P with h := upd P.h i (fun b => { b with parent := p }) }

/-- ccp_abc.py:576-588 `add_child`: the new state and the returned value. -/
def addKid (P : Parsed) (i c : Nat) : Parsed × Bool :=
  if (P.h i).children.any (fun d => objEq (P.h d) (P.h c)) then (P, false)
  else ({ P with h := upd P.h i (fun b =>
    { b with children := b.children ++ [c], childIndent := (P.h c).indent }) }, true)

section
variable {o : Opts} {lines : List Str} {P : Parsed}

/-! ## C199: has_child_with -/

theorem hasChildWith_iff (i : Nat) (rx : Rx) (r : Bool) : hasChildWith P i rx r = true ↔
    ∃ c ∈ (if r then allChildren P i else (P.h i).children), (P.h c).text ≠ [] ∧
      (rx.lit <:+: (P.h c).text ∨ Spec.Match rx (P.h c).text) := by
  rw [hasChildWith, decide_eq_true_eq, ← Nat.pos_iff_ne_zero, List.length_pos_iff_exists_mem]
  refine exists_congr fun c => ?_
  rw [List.mem_filter, reSearch_iff]

/-- C199: for an expression that matches its own text and never the empty string, `has_child_with` tells
whether a child matches, or with `all_children` a descendant (unless a child's text starts with a digit). -/
theorem C199_child_partial (h : parse o lines = .ok P) {i : Nat} (hi : i ∈ P.list) (rx : Rx) (hr : Spec.Normal rx) :
    (hasChildWith P i rx false = true ↔ ∃ c ∈ (P.h i).children, Spec.Match rx (P.h c).text) ∧
    (Spec.KidsNoDigits P → (hasChildWith P i rx true = true ↔ ∃ d, Spec.Desc P i d ∧ Spec.Match rx (P.h d).text)) := by
  refine ⟨?_, fun hd => ?_⟩
  · rw [hasChildWith_iff]
    simp only [normal_search hr]
    rfl
  · rw [hasChildWith_iff]
    simp only [normal_search hr, if_true, C33_all_children_exact_partial h hd hi]

/-- C199: whatever the expression, a line has a matching child exactly if `find_parent_objects` finds it. -/
theorem C199_find (p rx : Rx) (r : Bool) (i : Nat) :
    i ∈ findParentObjects P p rx r ↔ (i ∈ P.list ∧ Spec.Match p (P.h i).text) ∧ hasChildWith P i rx r = true := by
  rw [findParentObjects, List.mem_filter, mem_findObjects, nonempty_iff, hasChildWith_iff]
  refine and_congr Iff.rfl (exists_congr fun k => ?_)
  rw [mem_reSearchChildren, reSearch_iff]

example : ∃ P, parse {} [s "p", s " q", s "  p", s "b"] = .ok P ∧ hasChildWith P 0 rxP false = false ∧
    hasChildWith P 0 rxP true = true ∧ hasChildWith P 1 rxP false = true ∧ hasChildWith P 3 rxP true = false :=
  ⟨_, rfl, by decide, by decide, by decide, by decide⟩

example : ∃ P, parse {} [s "p", s " q", s "  p", s "b"] = .ok P ∧
    (hasChildWith P 1 rxP false = true ↔ ∃ c ∈ (P.h 1).children, Spec.Match rxP (P.h c).text) := by
  refine ⟨_, rfl, ?_⟩
  exact (C199_child_partial (o := {}) (lines := [s "p", s " q", s "  p", s "b"]) rfl (by decide) rxP rxP_normal).1

/-- C199 does not hold as stated: a child that contains the text of the expression counts even if the expression
does not match it. -/
theorem C199_literal_fails : ∃ P, parse {} [s "p", s " b^a"] = .ok P ∧ hasChildWith P 0 rxStartA false = true ∧
    ∀ k ∈ (P.h 0).children, rxStartA.find (P.h k).text = none := ⟨_, rfl, by decide, by decide⟩

/-! ## C200: is_parent, is_child, geneology_text -/

/-- C200: `is_parent` tells whether there are children. -/
theorem C200_parent (P : Parsed) (i : Nat) : isParent P i = true ↔ ∃ c, c ∈ (P.h i).children := by
  rw [isParent, decide_eq_true_eq, gt_iff_lt, List.length_pos_iff_exists_mem]

/-- C200: `is_child` tells whether the parent is another line (no text starts with a digit). -/
theorem C200_child_partial (h : parse o lines = .ok P) (hd : Spec.NoDigits P) {i : Nat} (hi : i ∈ P.list) :
    (isChild P i = true ↔ (P.h i).parent ≠ i) ∧ (isChild P i = true ↔ ∃ a, Spec.Anc P i a) := by
  have h1 : isChild P i = true ↔ (P.h i).parent ≠ i := by
    rw [isChild, Bool.not_eq_true', Bool.eq_false_iff]
    refine not_congr ⟨distinct_of_parse h hd _ ((tree_of_parse h).up i hi).1 _ hi, fun he => ?_⟩
    rw [he]; exact objEq_refl _ _
  refine ⟨h1, h1.trans ⟨fun hne => ⟨_, .parent hne⟩, ?_⟩⟩
  rintro ⟨a, ha⟩
  cases ha <;> assumption

/-- C200: without closing braces too, a line is a child exactly if another line has it among its children. -/
theorem C200_listed_partial (h : parse o lines = .ok P) (hp : Spec.Plain lines) (hd : Spec.NoDigits P) {i : Nat}
    (hi : i ∈ P.list) : isChild P i = true ↔ ∃ p ∈ P.list, i ∈ (P.h p).children := by
  rw [(C200_child_partial h hd hi).1]
  constructor
  · intro hne
    exact ⟨_, ((tree_of_parse h).up i hi).1, parent_lists h hp.2.2 hi hne⟩
  · rintro ⟨p, hp', hc⟩
    have h1 := (((C22_agree_partial h hp.1 hp.2.1 hp.2.2 hp').2 i).mp hc).2.1
    have h2 := ((tree_of_parse h).kids p hp' i hc).2
    rw [h1]; omega

/-- C200: `geneology_text` is the texts of the line's ancestors from the oldest down, and its own (no text starts
with a digit). -/
theorem C200_geneology_partial (h : parse o lines = .ok P) (hd : Spec.NoDigits P) {i : Nat} (hi : i ∈ P.list) :
    ∃ l, geneologyText P i = l.map (fun j => (P.h j).text) ∧ Spec.Ordered P l ∧ ∀ x, x ∈ l ↔ x = i ∨ Spec.Anc P i x :=
  ⟨geneology P i, rfl, (C54_lineage_partial h hd hi).2.1, (C54_lineage_partial h hd hi).1⟩

example : ∃ P, parse {} [s "a", s " b", s "  c", s "d"] = .ok P ∧ isParent P 1 = true ∧ isChild P 1 = true ∧
    isChild P 0 = false ∧ geneologyText P 2 = [s "a", s " b", s "  c"] ∧ isParent P 3 = false :=
  ⟨_, rfl, by decide, by decide, by decide, by decide, by decide⟩

/-- C200 does not hold as stated: line 11 has a parent and is no child, because it compares equal to it. -/
theorem C200_digit_fails : ∃ P, parse {} digitLines = .ok P ∧ (P.h 11).parent = 1 ∧ 11 ∈ (P.h 1).children ∧
    isChild P 11 = false ∧ geneologyText P 11 = [s " foo"] := ⟨_, rfl, by decide, by decide, by decide, by decide⟩

/-! ## C201, C202: add_child, add_parent -/

theorem addKid_new {i c : Nat} (h : (addKid P i c).2 = true) :
    addKid P i c = ({ P with h := upd P.h i (fun b =>
      { b with children := b.children ++ [c], childIndent := (P.h c).indent }) }, true) := by
  rw [addKid] at h ⊢
  split
  · rename_i hh; rw [if_pos hh] at h; cases h
  · rfl

theorem addKid_old {i c : Nat} (h : (addKid P i c).2 = false) : addKid P i c = (P, false) := by
  rw [addKid] at h ⊢
  split
  · rfl
  · rename_i hh; rw [if_neg hh] at h; cases h

/-- C201: `o.add_child(c)` returns True exactly if `c` is not yet a child (no text starts with a digit); then `c` is
the last child of `o`, and nothing else changes but `child_indent`.  Otherwise nothing changes. -/
theorem C201_add_child (h : parse o lines = .ok P) (hd : Spec.NoDigits P) {i c : Nat} (hi : i ∈ P.list)
    (hc : c ∈ P.list) :
    ((addKid P i c).2 = true ↔ c ∉ (P.h i).children) ∧
    (c ∈ (P.h i).children → (addKid P i c).1 = P) ∧
    (c ∉ (P.h i).children → (addKid P i c).1.list = P.list ∧
      ((addKid P i c).1.h i).children = (P.h i).children ++ [c] ∧
      ((addKid P i c).1.h i).childIndent = (P.h c).indent ∧
      (∀ x, x ≠ i → (addKid P i c).1.h x = P.h x) ∧
      (∀ x, ((addKid P i c).1.h x).text = (P.h x).text ∧ ((addKid P i c).1.h x).parent = (P.h x).parent ∧
        ((addKid P i c).1.h x).linenum = (P.h x).linenum)) := by
  have key : (P.h i).children.any (fun d => objEq (P.h d) (P.h c)) = true ↔ c ∈ (P.h i).children := by
    rw [List.any_eq_true]
    constructor
    · rintro ⟨d, hd1, hd2⟩
      rw [← distinct_of_parse h hd d ((tree_of_parse h).kids i hi d hd1).1 c hc hd2]; exact hd1
    · intro hm; exact ⟨c, hm, objEq_refl _ _⟩
  have h1 : (addKid P i c).2 = true ↔ c ∉ (P.h i).children := by
    rw [← key, addKid]
    split <;> simp_all
  refine ⟨h1, fun hm => ?_, fun hm => ?_⟩
  · have := addKid_old (P := P) (i := i) (c := c) (by
      cases he : (addKid P i c).2 with
      | false => rfl
      | true => exact absurd hm (h1.mp he))
    rw [this]
  · rw [addKid_new (h1.mpr hm)]
    refine ⟨rfl, by simp [upd], by simp [upd], fun x hx => by simp [upd, hx], fun x => ?_⟩
    by_cases hx : x = i
    · subst hx; simp [upd]
    · simp [upd, hx]

/-- C201: the second call changes nothing and returns False. -/
theorem C201_twice (P : Parsed) (i c : Nat) :
    addKid (addKid P i c).1 i c = ((addKid P i c).1, false) := by
  refine addKid_old ?_
  cases he : (addKid P i c).2 with
  | false => rw [addKid_old he]; rw [addKid_old he]
  | true =>
    rw [addKid_new he]
    rw [addKid, if_pos]
    rw [List.any_eq_true]
    exact ⟨c, by simp [upd], objEq_refl _ _⟩

/-- C201: afterwards a line has the descendants it had, and if it is `o` or above `o`, also `c` and the descendants
of `c`. -/
theorem C201_descendants {i c : Nat} (h : (addKid P i c).2 = true) (a d : Nat) :
    Spec.Desc (addKid P i c).1 a d ↔
      Spec.Desc P a d ∨ ((a = i ∨ Spec.Desc P a i) ∧ (d = c ∨ Spec.Desc P c d)) := by
  have hk : ∀ x y, y ∈ ((addKid P i c).1.h x).children ↔ y ∈ (P.h x).children ∨ (x = i ∧ y = c) := by
    intro x y
    rw [addKid_new h]
    by_cases hx : x = i
    · subst hx; simp [upd]
    · simp [upd, hx]
  have trans : ∀ {x y z}, Spec.Desc P x y → Spec.Desc P y z → Spec.Desc P x z := by
    intro x y z h1 h2
    induction h1 with
    | child hc => exact .step hc h2
    | step hc _ ih => exact .step hc (ih h2)
  constructor
  · intro hh
    induction hh with
    | child hc =>
      rcases (hk _ _).mp hc with h1 | ⟨rfl, rfl⟩
      · exact .inl (.child h1)
      · exact .inr ⟨.inl rfl, .inl rfl⟩
    | step hc _ ih =>
      rcases (hk _ _).mp hc with h1 | ⟨rfl, rfl⟩
      · rcases ih with ih | ⟨ih1, ih2⟩
        · exact .inl (.step h1 ih)
        · refine .inr ⟨.inr ?_, ih2⟩
          rcases ih1 with rfl | ih1
          · exact .child h1
          · exact .step h1 ih1
      · rcases ih with ih | ⟨_, ih2⟩
        · exact .inr ⟨.inl rfl, .inr ih⟩
        · exact .inr ⟨.inl rfl, ih2⟩
  · have lift : ∀ {x y}, Spec.Desc P x y → Spec.Desc (addKid P i c).1 x y := by
      intro x y h1
      induction h1 with
      | child hc => exact .child ((hk _ _).mpr (.inl hc))
      | step hc _ ih => exact .step ((hk _ _).mpr (.inl hc)) ih
    have trans' : ∀ {x y z}, Spec.Desc (addKid P i c).1 x y → Spec.Desc (addKid P i c).1 y z →
        Spec.Desc (addKid P i c).1 x z := by
      intro x y z h1 h2
      induction h1 with
      | child hc => exact .step hc h2
      | step hc _ ih => exact .step hc (ih h2)
    have new : Spec.Desc (addKid P i c).1 i c := .child ((hk _ _).mpr (.inr ⟨rfl, rfl⟩))
    rintro (h1 | ⟨h1, h2⟩)
    · exact lift h1
    · have hic : Spec.Desc (addKid P i c).1 i d := by
        rcases h2 with rfl | h2
        · exact new
        · exact trans' new (lift h2)
      rcases h1 with rfl | h1
      · exact hic
      · exact trans' (lift h1) hic

example : ∃ P, parse {} [s "a", s " b", s "c", s " d"] = .ok P ∧ (addKid P 1 2).2 = true ∧
    ((addKid P 1 2).1.h 1).children = [2] ∧ allChildren (addKid P 1 2).1 0 = [1, 2, 3] ∧
    (addKid P 0 1).2 = false := ⟨_, rfl, by decide, by decide, by decide, by decide⟩

/-- C202: `add_parent` sets the parent of the line and changes nothing else; called with `add_child` of the parent it
links the two lines in both directions. -/
theorem C202_both_partial {i c : Nat} (hne : i ≠ c) (h : (addKid P i c).2 = true) :
    ((addParent (addKid P i c).1 c i).h c).parent = i ∧ c ∈ ((addParent (addKid P i c).1 c i).h i).children ∧
    (∀ x, x ≠ c → ((addParent (addKid P i c).1 c i).h x).parent = (P.h x).parent) ∧
    (∀ x, x ≠ i → ((addParent (addKid P i c).1 c i).h x).children = (P.h x).children) := by
  rw [addKid_new h]
  have hne' : ¬ c = i := fun e => hne e.symm
  refine ⟨by simp [addParent, upd], by simp [addParent, upd, hne], fun x hx => ?_, fun x hx => ?_⟩
  · by_cases h2 : x = i
    · subst h2; simp [addParent, upd, hx]
    · simp [addParent, upd, hx, h2]
  · by_cases h2 : x = c
    · subst h2; simp [addParent, upd, hne']
    · simp [addParent, upd, hx, h2]

/-- C202 does not hold as stated: `add_child` never makes the line the parent of its new child. -/
theorem C202_child_fails {i c : Nat} (hp : (P.h c).parent ≠ i) :
    ((addKid P i c).1.h c).parent ≠ i := by
  cases h : (addKid P i c).2 with
  | false => rw [addKid_old h]; exact hp
  | true =>
    rw [addKid_new h]
    by_cases h2 : c = i
    · subst h2; simpa [upd] using hp
    · simpa [upd, h2] using hp

/-- C202 does not hold as stated: `add_parent` never adds the line to the children of its new parent. -/
theorem C202_parent_fails {i p : Nat} (hc : i ∉ (P.h p).children) : i ∉ ((addParent P i p).h p).children := by
  by_cases h2 : p = i
  · subst h2; simpa [addParent, upd] using hc
  · simpa [addParent, upd, h2] using hc

example : ∃ P, parse {} [s "a", s " b", s "c", s " d"] = .ok P ∧ (P.h 2).parent ≠ 1 ∧ 2 ∉ (P.h 1).children ∧
    (addKid P 1 2).2 = true ∧ ((addParent (addKid P 1 2).1 2 1).h 2).parent = 1 :=
  ⟨_, rfl, by decide, by decide, by decide, by decide⟩

end

end Query

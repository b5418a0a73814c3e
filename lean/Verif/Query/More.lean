import Verif.Query.Props

/-! # C51 – C55: family, block and lineage queries, queries with several specs -/

namespace Query

open Py Conf

section
variable {o : Opts} {lines : List Str} {P : Parsed}

/-! ## C51 -/

/-- C51: `find_children` returns the matching lines and their children, `find_all_children`
the matching lines and their descendants, in line order and once each (no text starts
with a digit). -/
theorem C51_families_partial (h : parse o lines = .ok P) (hd : Spec.NoDigits P) (rx : Rx) :
    (∀ x, x ∈ findChildren P rx ↔ ∃ i ∈ P.list, Spec.Match rx (P.h i).text ∧
      (x = i ∨ x ∈ (P.h i).children)) ∧
    (∀ x, x ∈ findAllChildren P rx ↔ ∃ i ∈ P.list, Spec.Match rx (P.h i).text ∧
      (x = i ∨ Spec.Desc P i x)) ∧
    Spec.Ordered P (findChildren P rx) ∧ Spec.Ordered P (findAllChildren P rx) := by
  have ht := tree_of_parse h
  have hdi := distinct_of_parse h hd
  have hk := kidsNoDigits_of_noDigits (fun i hi c hc => (ht.kids i hi c hc).1) hd
  have s1 : ∀ x ∈ (findObjects P rx).flatMap (fun p => (P.h p).children ++ [p]), x ∈ P.list := by
    intro x hx
    obtain ⟨i, hi, hx⟩ := List.mem_flatMap.mp hx
    have hi := (mem_findObjects.mp hi).1
    rcases List.mem_append.mp hx with hx | hx
    · exact (ht.kids i hi x hx).1
    · rw [List.mem_singleton.mp hx]; exact hi
  have s2 : ∀ x ∈ (findObjects P rx).flatMap (fun p => p :: allChildren P p), x ∈ P.list := by
    intro x hx
    obtain ⟨i, hi, hx⟩ := List.mem_flatMap.mp hx
    have hi := (mem_findObjects.mp hi).1
    rcases List.mem_cons.mp hx with hx | hx
    · rw [hx]; exact hi
    · exact (desc_lt ht hi (allAux_sound _ _ hx)).1
  refine ⟨fun x => ?_, fun x => ?_, sortSet_ordered ht s1, sortSet_ordered ht s2⟩
  · rw [findChildren, mem_sortObjs, mem_set hdi s1, List.mem_flatMap]
    refine exists_congr fun i => ?_
    rw [mem_findObjects, List.mem_append, List.mem_singleton, and_assoc, or_comm]
  · rw [findAllChildren, mem_sortObjs, mem_set hdi s2, List.mem_flatMap]
    refine exists_congr fun i => ?_
    rw [mem_findObjects, List.mem_cons, and_assoc]
    refine and_congr_right fun hi => and_congr_right fun _ => or_congr Iff.rfl ?_
    exact C33_all_children_exact_partial h hk hi x

example : ∃ P, parse {} [s "p", s " a", s "  b", s "c", s " p"] = .ok P ∧
    findChildren P rxP = [0, 1, 4] ∧ findAllChildren P rxP = [0, 1, 2, 4] := by
  refine ⟨_, rfl, ?_⟩
  decide

/-! ## C52 -/

/-- C52: a matching parent is returned by `find_objects_w_all_children` iff it has a
matching child for every spec of the list, and by `find_objects_w_missing_children`
iff it has none for some spec; the two split the matching parents. -/
theorem C52_all_missing_partial (h : parse o lines = .ok P) (p : Rx) (cs : List Rx)
    (hc : ∀ c ∈ cs, Spec.Normal c) :
    (∀ i, i ∈ findWAllChildren P p cs false ↔ (i ∈ P.list ∧ Spec.Match p (P.h i).text) ∧
      ∀ c ∈ cs, ∃ k ∈ (P.h i).children, Spec.Match c (P.h k).text) ∧
    (∀ i, i ∈ findWMissingChildren P p cs ↔ (i ∈ P.list ∧ Spec.Match p (P.h i).text) ∧
      ∃ c ∈ cs, ∀ k ∈ (P.h i).children, ¬ Spec.Match c (P.h k).text) ∧
    Spec.Ordered P (findWAllChildren P p cs false) ∧ Spec.Ordered P (findWMissingChildren P p cs) := by
  have key : ∀ i c, c ∈ cs → ((reSearchChildren P i c false).isEmpty = true ↔
      ∀ k ∈ (P.h i).children, ¬ Spec.Match c (P.h k).text) := by
    intro i c hcc
    rw [reSearchChildren, List.isEmpty_iff, List.filter_eq_nil_iff]
    refine forall_congr' fun k => imp_congr Iff.rfl ?_
    rw [reSearch_iff, normal_search (hc c hcc)]
  have ho := findObjects_ordered (tree_of_parse h) p
  refine ⟨fun i => ?_, fun i => ?_, filter_ordered ho _, filter_ordered ho _⟩
  · rw [findWAllChildren, List.mem_filter, mem_findObjects, List.all_eq_true]
    refine and_congr_right fun _ => forall_congr' fun c => forall_congr' fun hcc => ?_
    rw [Bool.not_eq_true', ← Bool.not_eq_true, key i c hcc]
    simp only [Classical.not_forall, Classical.not_not, exists_prop]
  · rw [findWMissingChildren, List.mem_filter, mem_findObjects, List.any_eq_true]
    refine and_congr_right fun _ => exists_congr fun c => and_congr_right fun hcc => ?_
    exact key i c hcc

/-- C52: each matching parent is in exactly one of the two results, for all specs. -/
theorem C52_partition (p : Rx) (cs : List Rx) (i : Nat) :
    (i ∈ findObjects P p ↔ i ∈ findWAllChildren P p cs false ∨ i ∈ findWMissingChildren P p cs) ∧
    ¬ (i ∈ findWAllChildren P p cs false ∧ i ∈ findWMissingChildren P p cs) := by
  have key : cs.any (fun c => (reSearchChildren P i c false).isEmpty) =
      !cs.all (fun c => !(reSearchChildren P i c false).isEmpty) := by
    rw [List.not_all_eq_any_not]
    congr 1
    funext c
    rw [Bool.not_not]
  rw [findWAllChildren, findWMissingChildren, List.mem_filter, List.mem_filter, key]
  cases cs.all (fun c => !(reSearchChildren P i c false).isEmpty) <;> simp

/-- The expression `q`. -/
def rxQ : Rx := ⟨s "q", fun t => if 'q' ∈ t then some (s "q") else none⟩

example : ∃ P, parse {} [s "p", s " a p", s " q", s "p", s " q"] = .ok P ∧
    findWAllChildren P rxP [rxP, rxQ] false = [0] ∧ findWMissingChildren P rxP [rxP, rxQ] = [1, 3] := by
  refine ⟨_, rfl, ?_⟩
  decide

/-! ## C53 -/

theorem parentList_spec (p : Rx) (r : Bool) (cs : List Rx) (acc : List Nat) :
    findParentObjectsList P p r cs acc =
      if ∃ c ∈ cs, findParentObjects P p c r = [] then []
      else sortObjs P.h (setObjs P.h (acc ++ cs.flatMap (fun c => findParentObjects P p c r))) := by
  induction cs generalizing acc with
  | nil => simp [findParentObjectsList]
  | cons c cs ih =>
    rw [findParentObjectsList]
    by_cases h : findParentObjects P p c r = []
    · rw [if_pos h, if_pos ⟨c, by simp, h⟩]
    · rw [if_neg h, ih]
      have : (∃ d ∈ c :: cs, findParentObjects P p d r = []) ↔ ∃ d ∈ cs, findParentObjects P p d r = [] := by
        simp [h]
      simp only [this, List.flatMap_cons, List.append_assoc]

/-- C53, what the list form does: nothing if some child spec has no result, else all the
parents that have a child for some child spec.  The full claim (a parent is returned iff
it has a child for every spec) does not hold, see `C53_list_fails`. -/
theorem C53_list_partial (h : parse o lines = .ok P) (hd : Spec.NoDigits P) (p : Rx) (r : Bool)
    (c : Rx) (cs : List Rx) :
    (∀ i, i ∈ findParentObjectsList P p r (c :: cs) [] ↔
      (∀ d ∈ c :: cs, ∃ j, j ∈ findParentObjects P p d r) ∧ ∃ d ∈ c :: cs, i ∈ findParentObjects P p d r) ∧
    Spec.Ordered P (findParentObjectsList P p r (c :: cs) []) ∧
    findParentObjectsList P p r [c] [] = findParentObjects P p c r := by
  have ht := tree_of_parse h
  have hdi := distinct_of_parse h hd
  have sub : ∀ ds : List Rx, ∀ x ∈ [] ++ ds.flatMap (fun c => findParentObjects P p c r), x ∈ P.list := by
    intro ds x hx
    obtain ⟨d, _, hx⟩ := List.mem_flatMap.mp hx
    exact (mem_findObjects.mp (List.mem_filter.mp hx).1).1
  have hne : ∀ l : List Nat, l ≠ [] ↔ ∃ j, j ∈ l := by
    intro l
    cases l with
    | nil => simp
    | cons a as => exact ⟨fun _ => ⟨a, by simp⟩, fun _ => by simp⟩
  have main : ∀ ds : List Rx, (∀ i, i ∈ findParentObjectsList P p r ds [] ↔
      (∀ d ∈ ds, ∃ j, j ∈ findParentObjects P p d r) ∧ ∃ d ∈ ds, i ∈ findParentObjects P p d r) ∧
      Spec.Ordered P (findParentObjectsList P p r ds []) := by
    intro ds
    rw [parentList_spec]
    by_cases hex : ∃ d ∈ ds, findParentObjects P p d r = []
    · rw [if_pos hex]
      refine ⟨fun i => ?_, List.Pairwise.nil⟩
      obtain ⟨d, hd1, hd2⟩ := hex
      constructor
      · intro hi; cases hi
      · rintro ⟨h1, _⟩
        obtain ⟨j, hj⟩ := h1 d hd1
        rw [hd2] at hj; cases hj
    · rw [if_neg hex]
      refine ⟨fun i => ?_, sortSet_ordered ht (sub ds)⟩
      rw [mem_sortObjs, mem_set hdi (sub ds), List.nil_append, List.mem_flatMap]
      constructor
      · intro hi
        refine ⟨fun d hd => ?_, hi⟩
        rw [← hne]
        intro he
        exact hex ⟨d, hd, he⟩
      · exact fun hi => hi.2
  refine ⟨(main _).1, (main _).2, ?_⟩
  refine ordered_ext ht ?_ (main [c]).2 (filter_ordered (findObjects_ordered ht p) _) fun x => ?_
  · intro x hx
    obtain ⟨_, d, _, hx⟩ := ((main [c]).1 x).mp hx
    exact (mem_findObjects.mp (List.mem_filter.mp hx).1).1
  · rw [(main [c]).1 x]
    constructor
    · rintro ⟨_, d, hd, hx⟩
      rw [List.mem_singleton.mp hd] at hx; exact hx
    · intro hx
      exact ⟨fun d hd => ⟨x, by rw [List.mem_singleton.mp hd]; exact hx⟩, c, by simp, hx⟩

/-- C53 does not hold as stated: the first parent has no `q` child and the second no `p`
child, and both are returned. -/
theorem C53_list_fails :
    ∃ P, parse {} [s "ap", s " p", s "bp", s " q"] = .ok P ∧
      findParentObjectsList P rxP false [rxP, rxQ] [] = [0, 2] ∧
      findWAllChildren P rxP [rxP, rxQ] false = [] := ⟨_, rfl, by decide, by decide⟩

theorem childList_spec (p : Rx) (r : Bool) (cs : List Rx) (c : Rx) :
    findChildObjectsList P p r (cs ++ [c]) =
      if ∃ d ∈ cs, findChildObjects P p d r = [] then [] else findChildObjects P p c r := by
  induction cs with
  | nil => simp [findChildObjectsList]
  | cons d ds ih =>
    have e : findChildObjectsList P p r (d :: (ds ++ [c])) =
        if findChildObjects P p d r = [] then [] else findChildObjectsList P p r (ds ++ [c]) := by
      cases ds <;> simp only [List.nil_append, List.cons_append, findChildObjectsList]
    rw [List.cons_append, e, ih]
    by_cases h : findChildObjects P p d r = []
    · rw [if_pos h, if_pos ⟨d, by simp, h⟩]
    · rw [if_neg h]
      congr 1
      simp [h]

/-- C53: the list form of `find_child_objects` returns the result for the last spec
alone, or nothing if another spec has no result. -/
theorem C53_child_list_partial (p : Rx) (r : Bool) (cs : List Rx) (c : Rx) :
    ((∀ d ∈ cs, findChildObjects P p d r ≠ []) →
      findChildObjectsList P p r (cs ++ [c]) = findChildObjects P p c r) ∧
    ((∃ d ∈ cs, findChildObjects P p d r = []) → findChildObjectsList P p r (cs ++ [c]) = []) := by
  rw [childList_spec]
  refine ⟨fun h => if_neg ?_, fun h => if_pos h⟩
  rintro ⟨d, hd, he⟩
  exact h d hd he

/-- C53 does not hold as stated: the child that matches the first spec is not returned. -/
theorem C53_child_list_fails :
    ∃ P, parse {} [s "ap", s " p", s " q"] = .ok P ∧
      findChildObjectsList P rxP false [rxP, rxQ] = [2] := ⟨_, rfl, by decide⟩

/-! ## C54 -/

/-- C54: `geneology` is the ancestors in order, then the line; `lineage` is the
ancestors, the line and the descendants in order (no text starts with a digit). -/
theorem C54_lineage_partial (h : parse o lines = .ok P) (hd : Spec.NoDigits P) {i : Nat} (hi : i ∈ P.list) :
    (∀ x, x ∈ geneology P i ↔ x = i ∨ Spec.Anc P i x) ∧ Spec.Ordered P (geneology P i) ∧
    (∀ x, x ∈ lineage P i ↔ x = i ∨ Spec.Anc P i x ∨ Spec.Desc P i x) ∧ Spec.Ordered P (lineage P i) := by
  have ht := tree_of_parse h
  have hdi := distinct_of_parse h hd
  have hk := kidsNoDigits_of_noDigits (fun i hi c hc => (ht.kids i hi c hc).1) hd
  have hpar := fun x => mem_allParents (x := x) ht hdi hi
  have hchi := fun x => C33_all_children_exact_partial h hk hi x
  have gen : geneology P i = allParents P i ++ [i] := by
    rw [geneology, sortObjs_of_ordered (allParents_ordered ht hi)]
  have og : Spec.Ordered P (allParents P i ++ [i]) := by
    rw [Spec.Ordered, List.pairwise_append]
    refine ⟨allParents_ordered ht hi, List.pairwise_singleton _ _, ?_⟩
    intro a ha b hb
    rw [List.mem_singleton.mp hb]
    obtain ⟨h1, h2⟩ := anc_lt ht hi ((hpar a).mp ha)
    rw [ht.num a h1, ht.num i hi]; omega
  have hempty : (P.h i).children = [] → allChildren P i = [] := by
    intro he
    rw [List.eq_nil_iff_forall_not_mem]
    intro x hx
    cases (hchi x).mp hx with
    | child hc => rw [he] at hc; cases hc
    | step hc _ => rw [he] at hc; cases hc
  have lin0 : (if (P.h i).children ≠ [] then allParents P i ++ [i] ++ allChildren P i
      else allParents P i ++ [i]) = allParents P i ++ [i] ++ allChildren P i := by
    by_cases he : (P.h i).children = []
    · rw [if_neg (by simp [he]), hempty he, List.append_nil]
    · rw [if_pos he]
  have ol : Spec.Ordered P (allParents P i ++ [i] ++ allChildren P i) := by
    rw [Spec.Ordered, List.pairwise_append]
    refine ⟨og, allChildren_ordered ht hi, ?_⟩
    intro a ha b hb
    obtain ⟨h1, h2⟩ := desc_lt ht hi ((hchi b).mp hb)
    have hai : a ∈ P.list ∧ a ≤ i := by
      rcases List.mem_append.mp ha with ha | ha
      · obtain ⟨h3, h4⟩ := anc_lt ht hi ((hpar a).mp ha)
        exact ⟨h3, by omega⟩
      · rw [List.mem_singleton.mp ha]; exact ⟨hi, Nat.le_refl _⟩
    rw [ht.num a hai.1, ht.num b h1]; omega
  have lin : lineage P i = allParents P i ++ [i] ++ allChildren P i := by
    rw [lineage]
    rw [lin0, sortObjs_of_ordered ol]
  refine ⟨fun x => ?_, gen ▸ og, fun x => ?_, lin ▸ ol⟩
  · rw [gen, List.mem_append, List.mem_singleton, hpar, or_comm]
  · rw [lin, List.mem_append, List.mem_append, List.mem_singleton, hpar, hchi]
    constructor
    · rintro ((h1 | h1) | h1)
      · exact Or.inr (Or.inl h1)
      · exact Or.inl h1
      · exact Or.inr (Or.inr h1)
    · rintro (h1 | h1 | h1)
      · exact Or.inl (Or.inr h1)
      · exact Or.inl (Or.inl h1)
      · exact Or.inr h1

example : ∃ P, parse {} [s "a", s " b", s "  c", s " d", s "  e"] = .ok P ∧
    lineage P 1 = [0, 1, 2] ∧ geneology P 4 = [0, 3, 4] := ⟨_, rfl, by decide, by decide⟩

/-- C54: `find_lineage` succeeds exactly when one line matches, and returns the texts
of its lineage. -/
theorem C54_find_lineage (rx : Rx) :
    (∀ i, findObjects P rx = [i] → findLineage P rx = .ok ((lineage P i).map (fun j => (P.h j).text))) ∧
    ((∀ i, findObjects P rx ≠ [i]) → ∃ e, findLineage P rx = .error e) := by
  refine ⟨fun i h => by rw [findLineage, h], fun h => ?_⟩
  rw [findLineage]
  cases hf : findObjects P rx with
  | nil => exact ⟨_, rfl⟩
  | cons a as =>
    cases as with
    | nil => exact absurd hf (h a)
    | cons b bs => exact ⟨_, rfl⟩

/-! ## C55 -/

/-- C55: `find_blocks` returns the matching lines, the lines listed with them by their
parents, and the ancestors of all these, in order (no text starts with a digit). -/
theorem C55_blocks_partial (h : parse o lines = .ok P) (hd : Spec.NoDigits P) (rx : Rx) :
    (∀ x, x ∈ findBlocks P rx ↔ ∃ i ∈ P.list, Spec.Match rx (P.h i).text ∧
      ∃ y, (y = i ∨ y ∈ (P.h (P.h i).parent).children) ∧ (x = y ∨ Spec.Anc P y x)) ∧
    Spec.Ordered P (findBlocks P rx) := by
  have ht := tree_of_parse h
  have hdi := distinct_of_parse h hd
  have s1 : ∀ x ∈ (findObjects P rx).flatMap (fun i => i :: (P.h (P.h i).parent).children), x ∈ P.list := by
    intro x hx
    obtain ⟨i, hi, hx⟩ := List.mem_flatMap.mp hx
    have hi := (mem_findObjects.mp hi).1
    rcases List.mem_cons.mp hx with hx | hx
    · rw [hx]; exact hi
    · exact (ht.kids _ (ht.up i hi).1 x hx).1
  have m1 : ∀ y, y ∈ setObjs P.h ((findObjects P rx).flatMap (fun i => i :: (P.h (P.h i).parent).children)) ↔
      ∃ i ∈ P.list, Spec.Match rx (P.h i).text ∧ (y = i ∨ y ∈ (P.h (P.h i).parent).children) := by
    intro y
    rw [mem_set hdi s1, List.mem_flatMap]
    refine exists_congr fun i => ?_
    rw [mem_findObjects, List.mem_cons, and_assoc]
  have l1 : ∀ y ∈ setObjs P.h ((findObjects P rx).flatMap (fun i => i :: (P.h (P.h i).parent).children)),
      y ∈ P.list := fun y hy => s1 y (mem_of_mem_set hy)
  rw [findBlocks]
  generalize hT : setObjs P.h ((findObjects P rx).flatMap (fun i => i :: (P.h (P.h i).parent).children)) = T
    at m1 l1
  have s2 : ∀ x ∈ T ++ T.flatMap (allParents P), x ∈ P.list := by
    intro x hx
    rcases List.mem_append.mp hx with hx | hx
    · exact l1 x hx
    · obtain ⟨y, hy, hx⟩ := List.mem_flatMap.mp hx
      exact (anc_lt ht (l1 y hy) (mem_allParents_sound hx)).1
  refine ⟨fun x => ?_, sortSet_ordered ht s2⟩
  rw [mem_sortObjs, mem_set hdi s2, List.mem_append, List.mem_flatMap]
  constructor
  · rintro (hx | ⟨y, hy, hx⟩)
    · obtain ⟨i, h1, h2, h3⟩ := (m1 x).mp hx
      exact ⟨i, h1, h2, x, h3, Or.inl rfl⟩
    · obtain ⟨i, h1, h2, h3⟩ := (m1 y).mp hy
      exact ⟨i, h1, h2, y, h3, Or.inr (mem_allParents_sound hx)⟩
  · rintro ⟨i, h1, h2, y, h3, e | ha⟩
    · exact Or.inl ((m1 x).mpr ⟨i, h1, h2, e ▸ h3⟩)
    · have hy := (m1 y).mpr ⟨i, h1, h2, h3⟩
      exact Or.inr ⟨y, hy, (mem_allParents ht hdi (l1 y hy)).mpr ha⟩

example : ∃ P, parse {} [s "a", s " b", s "  p", s "  c", s " d", s "e"] = .ok P ∧
    findBlocks P rxP = [0, 1, 2, 3] := ⟨_, rfl, by decide⟩

/-! ## C56 -/

/-- C56: `siblings` are the children of the parent with the same indent; without
banners, macros and closing braces a line that has a parent is its own sibling, and
siblings have the same parent. -/
theorem C56_siblings_partial (h : parse o lines = .ok P) (hp : Spec.Plain lines) {i : Nat} (hi : i ∈ P.list)
    (hne : (P.h i).parent ≠ i) :
    (∀ x, x ∈ siblings P i ↔ x ∈ P.list ∧ x ≠ (P.h i).parent ∧
      (P.h x).parent = (P.h i).parent ∧ (P.h x).indent = (P.h i).indent) ∧
    i ∈ siblings P i := by
  have ht := tree_of_parse h
  have key : ∀ x, x ∈ siblings P i ↔ x ∈ P.list ∧ x ≠ (P.h i).parent ∧
      (P.h x).parent = (P.h i).parent ∧ (P.h x).indent = (P.h i).indent := by
    intro x
    rw [siblings, List.mem_filter, beq_iff_eq,
      (C22_agree_partial h hp.1 hp.2.1 hp.2.2 (ht.up i hi).1).2 x]
    constructor
    · rintro ⟨⟨h1, h2, h3⟩, h4⟩; exact ⟨h1, h3, h2, h4⟩
    · rintro ⟨h1, h3, h2, h4⟩; exact ⟨⟨h1, h2, h3⟩, h4⟩
  exact ⟨key, (key i).mpr ⟨hi, Ne.symm hne, rfl, rfl⟩⟩

example : ∃ P, parse {} [s "a", s "  b", s " c", s " d", s "e"] = .ok P ∧
    siblings P 3 = [2, 3] ∧ siblings P 1 = [1] := ⟨_, rfl, by decide, by decide⟩

/-! ## Where C51, C52 and C54 to C56 do not hold as stated -/

/-- Line 1 `1 foo` compares equal to its child, line 11 ` foo`. -/
def digitLines : List Str :=
  [s "a", s "1 foo", s " b", s " b", s " b", s " b", s " b", s " b", s " b", s " b", s " b", s " foo"]

/-- The expression `1`. -/
def rxOne : Rx := ⟨s "1", fun t => if '1' ∈ t then some (s "1") else none⟩

/-- The expression `f`. -/
def rxF : Rx := ⟨s "f", fun t => if 'f' ∈ t then some (s "f") else none⟩

/-- C51 does not hold as stated: the matching line is missing from `find_children`, and a
child of it from `find_all_children`. -/
theorem C51_digit_fails :
    ∃ P, parse {} digitLines = .ok P ∧ 1 ∈ P.list ∧ rxOne.find (P.h 1).text ≠ none ∧ 11 ∈ (P.h 1).children ∧
      1 ∉ findChildren P rxOne ∧ 11 ∉ findAllChildren P rxOne :=
  ⟨_, rfl, by decide, by decide, by decide, by decide, by decide⟩

/-- C52 does not hold as stated: a child that contains the text `^a` counts although the
expression `^a` does not match it. -/
theorem C52_literal_fails :
    ∃ P, parse {} [s "p", s " b^a"] = .ok P ∧ findWAllChildren P rxP [rxStartA] false = [0] ∧
      findWMissingChildren P rxP [rxStartA] = [] ∧
      ∀ k ∈ (P.h 0).children, rxStartA.find (P.h k).text = none :=
  ⟨_, rfl, by decide, by decide, by decide⟩

/-- C54 does not hold as stated: a line with a parent has no ancestor in `geneology` and
`lineage`. -/
theorem C54_digit_fails :
    ∃ P, parse {} digitLines = .ok P ∧ (P.h 11).parent = 1 ∧ geneology P 11 = [11] ∧ lineage P 11 = [11] :=
  ⟨_, rfl, by decide, by decide, by decide⟩

/-- C55 does not hold as stated: a matching line is missing. -/
theorem C55_digit_fails :
    ∃ P, parse {} digitLines = .ok P ∧ 11 ∈ P.list ∧ rxF.find (P.h 11).text ≠ none ∧ 11 ∉ findBlocks P rxF :=
  ⟨_, rfl, by decide, by decide, by decide⟩

/-- C56 does not hold as stated: a closing brace has a parent but no siblings, not even
itself. -/
theorem C56_brace_fails :
    ∃ P, parse {} [s "a {", s " b", s "}"] = .ok P ∧ (P.h 2).parent = 0 ∧ siblings P 2 = [] :=
  ⟨_, rfl, by decide, by decide⟩

end

end Query

import Verif.Query.Lemmas

/-! # C29 – C36: queries on a parsed configuration

`parse o lines = .ok P`: the configuration.  Objects are named by the number of the
line they were made from, `P.list` is `ConfigObjs`. -/

namespace Query

open Py Conf

section
variable {o : Opts} {lines : List Str} {P : Parsed}

/-! ## C29 -/

/-- C29: `find_objects` returns exactly the listed objects whose text matches, each
once, in line order. -/
theorem C29_find_objects (h : parse o lines = .ok P) (rx : Rx) :
    (∀ i, i ∈ findObjects P rx ↔ i ∈ P.list ∧ Spec.Match rx (P.h i).text) ∧
    Spec.Ordered P (findObjects P rx) :=
  ⟨fun _ => mem_findObjects, findObjects_ordered (tree_of_parse h) rx⟩

/-- C29: `find_lines` returns their texts in order and `has_line_with` tells whether
there is one. -/
theorem C29_find_lines (rx : Rx) :
    findLines P rx = (findObjects P rx).map (fun i => (P.h i).text) ∧
    (hasLineWith P rx = true ↔ ∃ i ∈ P.list, Spec.Match rx (P.h i).text) := by
  refine ⟨?_, ?_⟩
  · rw [findLines, findObjects, Parsed.texts, List.filter_map]; rfl
  · rw [hasLineWith, Parsed.texts, List.any_map, List.any_eq_true]
    refine exists_congr fun i => and_congr Iff.rfl ?_
    rw [Function.comp_apply, search_iff]

/-- The expression `b+` on lines without two groups of `b`. -/
def rxB : Rx := ⟨s "b+", fun t => if 'b' ∈ t then some (t.filter (· == 'b')) else none⟩

example : ∃ P, parse {} [s "ab", s " c", s " bb"] = .ok P ∧ findObjects P rxB = [0, 2] ∧
    hasLineWith P rxB = true := ⟨_, rfl, by decide, by decide⟩

/-! ## C33: transitive closures -/

/-- C33: `all_children` only holds descendants, in line order and without repetitions;
every descendant is in it, or another one that compares equal. -/
theorem C33_all_children (h : parse o lines = .ok P) {i : Nat} (hi : i ∈ P.list) :
    (∀ d ∈ allChildren P i, Spec.Desc P i d) ∧ Spec.Ordered P (allChildren P i) ∧
    (∀ d, Spec.Desc P i d → ∃ e ∈ allChildren P i, objEq (P.h e) (P.h d) = true) := by
  have ht := tree_of_parse h
  exact ⟨fun d hd => allAux_sound _ _ hd, allChildren_ordered ht hi,
    fun d hd => allAux_rep ht P.n i hi (by omega) hd⟩

/-- C33: `all_children` is exactly the descendants when no child's text starts with a
digit. -/
theorem C33_all_children_exact_partial (h : parse o lines = .ok P) (hd : Spec.KidsNoDigits P)
    {i : Nat} (hi : i ∈ P.list) (d : Nat) : d ∈ allChildren P i ↔ Spec.Desc P i d :=
  mem_allChildren (tree_of_parse h) (kidsDistinct_of_parse h hd) hi

/-- C33: that is the case unless there are banners or macros. -/
theorem C33_kids (h : parse o lines = .ok P)
    (h1 : ∀ l ∈ lines, ∀ d, ¬ Conf.Spec.BannerHead (rstrip l) d)
    (h2 : ∀ l ∈ lines, ¬ "macro name ".toList <+: l) : Spec.KidsNoDigits P := by
  intro i hi k hk c hc
  obtain ⟨A, B, C, he, ⟨_, hA⟩, ⟨_, hB⟩, ⟨_, hC⟩⟩ := C22_children h hi
  rw [he, List.mem_append, List.mem_append, hA, hB, hC] at hk
  have hmem := input_mem o lines
  rcases hk with (⟨hl, hne, hr⟩ | ⟨hl, _, hp⟩) | ⟨hl, _, hp⟩
  · have hb := h
    rw [parse, input_eq] at hb
    have htext : (P.h k).text = rstrip (lineAt (Conf.Spec.input o lines) k) := (attrs hb hl).1
    rw [htext] at hc
    refine head_of_indent ?_ hc
    rcases hr with ⟨_, hr⟩ | ⟨_, hr⟩
    · have := hr.2.2.1; omega
    · exact absurd hr.symm hne
  · obtain ⟨hlt, d, ⟨hh, _⟩, _⟩ := hp
    exact absurd hh (h1 _ (hmem i (by omega)) d)
  · exact absurd hp.2.1 (h2 _ (hmem i (by have := hp.1; omega)))

/-- C33: `all_parents` only holds ancestors, in line order and without repetitions, and
all of them when no text starts with a digit. -/
theorem C33_all_parents_partial (h : parse o lines = .ok P) {i : Nat} (hi : i ∈ P.list) :
    (∀ a ∈ allParents P i, Spec.Anc P i a) ∧ Spec.Ordered P (allParents P i) ∧
    (Spec.NoDigits P → ∀ a, a ∈ allParents P i ↔ Spec.Anc P i a) := by
  have ht := tree_of_parse h
  exact ⟨fun a ha => mem_allParents_sound ha, allParents_ordered ht hi,
    fun hd a => mem_allParents ht (distinct_of_parse h hd) hi⟩

/-- C33: every parent lists its children unless it is the parent of a closing brace. -/
theorem parent_lists (h : parse o lines = .ok P) (h3 : ∀ l ∈ lines, ¬ Conf.Spec.closes l) {i : Nat}
    (hi : i ∈ P.list) (hne : (P.h i).parent ≠ i) : i ∈ (P.h (P.h i).parent).children := by
  have ht := tree_of_parse h
  obtain ⟨A, B, C, he, ⟨_, hA⟩, ⟨_, hB⟩, ⟨_, hC⟩⟩ := C22_children h (ht.up i hi).1
  have hp := (C21_parent h hi _).mp rfl
  have hlen : i < (Conf.Spec.input o lines).length := by
    rw [parse, input_eq] at h; exact ((mem_list h).mp hi).1
  rw [he, List.mem_append, List.mem_append, hA, hB, hC]
  rcases hp with hp | ⟨_, hp⟩ | ⟨_, _, hc, _⟩ | ⟨_, _, _, hp⟩
  · exact Or.inr ⟨hlen, hp.1⟩
  · exact Or.inl (Or.inr ⟨hlen, hp.1⟩)
  · exact absurd hc (h3 _ (input_mem o lines i hlen))
  · exact Or.inl (Or.inl ⟨hlen, Ne.symm hne, hp⟩)

/-- C33: without closing braces an ancestor has the line among its descendants. -/
theorem C33_ancestor_descendant (h : parse o lines = .ok P) (h3 : ∀ l ∈ lines, ¬ Conf.Spec.closes l)
    {d a : Nat} (hd : d ∈ P.list) (ha : Spec.Anc P d a) : Spec.Desc P a d :=
  desc_of_anc (tree_of_parse h) (fun _ hi hne => parent_lists h h3 hi hne) hd ha

theorem anc_iff_desc (h : parse o lines = .ok P) (hp : Spec.Plain lines) {d a : Nat}
    (hd : d ∈ P.list) (ha : a ∈ P.list) : Spec.Anc P d a ↔ Spec.Desc P a d := by
  refine ⟨C33_ancestor_descendant h hp.2.2 hd, fun hh => ?_⟩
  refine anc_of_desc (tree_of_parse h) ?_ ha hh
  intro i hi c hc
  exact (((C22_agree_partial h hp.1 hp.2.1 hp.2.2 hi).2 c).mp hc).2.1

/-- C33: without banners, macros and closing braces, and with no text starting with a
digit: `d` is in `o.all_children` iff `o` is in `d.all_parents` iff following the
parents of `d` meets `o`. -/
theorem C33_agree_partial (h : parse o lines = .ok P) (hp : Spec.Plain lines) (hn : Spec.NoDigits P)
    {a d : Nat} (ha : a ∈ P.list) (hd : d ∈ P.list) :
    (d ∈ allChildren P a ↔ a ∈ allParents P d) ∧ (a ∈ allParents P d ↔ Spec.Anc P d a) := by
  have h1 := C33_all_children_exact_partial h (C33_kids h hp.1 hp.2.1) ha d
  have h2 := (C33_all_parents_partial h hd).2.2 hn a
  exact ⟨by rw [h1, h2, anc_iff_desc h hp hd ha], h2⟩

example : ∃ P, parse {} [s "a", s " b", s "  c", s " d", s "e"] = .ok P ∧
    allChildren P 0 = [1, 2, 3] ∧ allParents P 2 = [0, 1] := ⟨_, rfl, by decide, by decide⟩

/-- C33 does not hold as stated: line 1 `1 foo` compares equal to its child, line 11
` foo`, which therefore has no ancestors. -/
theorem C33_digit_fails :
    ∃ P, parse {} [s "a", s "1 foo", s " b", s " b", s " b", s " b", s " b", s " b", s " b", s " b", s " b",
      s " foo"] = .ok P ∧ 11 ∈ allChildren P 1 ∧ (P.h 11).parent = 1 ∧ allParents P 11 = [] :=
  ⟨_, rfl, by decide, by decide, by decide⟩

/-- C33 does not hold as stated: a closing brace has an ancestor that does not have it
as a descendant. -/
theorem C33_brace_fails :
    ∃ P, parse {} [s "a {", s " b", s "}"] = .ok P ∧ 0 ∈ allParents P 2 ∧ 2 ∉ allChildren P 0 :=
  ⟨_, rfl, by decide, by decide⟩

/-! ## C30 -/

/-- C30, exactly: an object is returned iff it matches `parentspec` and one of its
children has a non-empty text that contains `childspec` literally or matches it. -/
theorem C30_children (h : parse o lines = .ok P) (p c : Rx) :
    (∀ i, i ∈ findParentObjects P p c false ↔ (i ∈ P.list ∧ Spec.Match p (P.h i).text) ∧
      ∃ k ∈ (P.h i).children, (P.h k).text ≠ [] ∧
        (c.lit <:+: (P.h k).text ∨ Spec.Match c (P.h k).text)) ∧
    Spec.Ordered P (findParentObjects P p c false) := by
  refine ⟨fun i => ?_, filter_ordered (findObjects_ordered (tree_of_parse h) p) _⟩
  rw [findParentObjects, List.mem_filter, mem_findObjects, nonempty_iff]
  refine and_congr Iff.rfl (exists_congr fun k => ?_)
  rw [mem_reSearchChildren, reSearch_iff]
  rfl

/-- C30, exactly, with `recurse=True` (no child's text starts with a digit). -/
theorem C30_recurse (h : parse o lines = .ok P) (hd : Spec.KidsNoDigits P) (p c : Rx) :
    (∀ i, i ∈ findParentObjects P p c true ↔ (i ∈ P.list ∧ Spec.Match p (P.h i).text) ∧
      ∃ k, Spec.Desc P i k ∧ (P.h k).text ≠ [] ∧
        (c.lit <:+: (P.h k).text ∨ Spec.Match c (P.h k).text)) ∧
    Spec.Ordered P (findParentObjects P p c true) := by
  refine ⟨fun i => ?_, filter_ordered (findObjects_ordered (tree_of_parse h) p) _⟩
  rw [findParentObjects, List.mem_filter, mem_findObjects, nonempty_iff]
  refine and_congr_right fun hi => exists_congr fun k => ?_
  rw [mem_reSearchChildren, reSearch_iff, if_pos rfl, C33_all_children_exact_partial h hd hi.1]

theorem normal_search {c : Rx} (hc : Spec.Normal c) (t : Str) :
    (t ≠ [] ∧ (c.lit <:+: t ∨ Spec.Match c t)) ↔ Spec.Match c t := by
  constructor
  · rintro ⟨_, h | h⟩
    · exact hc.1 t h
    · exact h
  · intro h
    refine ⟨?_, Or.inr h⟩
    obtain ⟨g, hg⟩ := h
    obtain ⟨h1, h2⟩ := hc.2 t g hg
    intro he
    rw [he] at h2
    exact h1 (List.infix_nil.mp h2)

/-- C30: for a `childspec` that matches its own text and never matches the empty string,
an object is returned iff it matches `parentspec` and a child (with `recurse`, a
descendant) matches `childspec`. -/
theorem C30_parents_partial (h : parse o lines = .ok P) (p c : Rx) (hc : Spec.Normal c) (i : Nat) :
    (i ∈ findParentObjects P p c false ↔ (i ∈ P.list ∧ Spec.Match p (P.h i).text) ∧
      ∃ k ∈ (P.h i).children, Spec.Match c (P.h k).text) ∧
    (Spec.KidsNoDigits P → (i ∈ findParentObjects P p c true ↔
      (i ∈ P.list ∧ Spec.Match p (P.h i).text) ∧ ∃ k, Spec.Desc P i k ∧ Spec.Match c (P.h k).text)) := by
  refine ⟨?_, fun hd => ?_⟩
  · rw [(C30_children h p c).1 i]
    simp only [normal_search hc]
  · rw [(C30_recurse h hd p c).1 i]
    simp only [normal_search hc]

/-- The expression `^a`. -/
def rxStartA : Rx := ⟨s "^a", fun t => if t.head? = some 'a' then some (s "a") else none⟩

/-- The expression `p`. -/
def rxP : Rx := ⟨s "p", fun t => if 'p' ∈ t then some (s "p") else none⟩

theorem rxP_normal : Spec.Normal rxP := by
  refine ⟨?_, ?_⟩
  · intro t ht
    have hm : 'p' ∈ t := ht.subset (by decide)
    exact ⟨s "p", if_pos hm⟩
  · intro t g hg
    have hg' : (if 'p' ∈ t then some (s "p") else none) = some g := hg
    split at hg'
    · rename_i hm
      injection hg' with hg'
      subst hg'
      refine ⟨by decide, ?_⟩
      obtain ⟨a, b, hab⟩ := List.append_of_mem hm
      exact ⟨a, b, by rw [hab, List.append_assoc]; rfl⟩
    · cases hg'

example : ∃ P, parse {} [s "p", s " q p", s "b", s " p", s "p", s " q", s "  p", s "   p"] = .ok P ∧
    findParentObjects P rxP rxP false = [0, 6] ∧ findParentObjects P rxP rxP true = [0, 4, 6] := by
  refine ⟨_, rfl, ?_⟩
  decide

/-- C30 does not hold as stated: a child that contains the text `^a` counts although the
expression `^a` does not match it. -/
theorem C30_fails :
    ∃ P, parse {} [s "p", s " b^a"] = .ok P ∧ findParentObjects P rxP rxStartA false = [0] ∧
      ∀ k ∈ (P.h 0).children, rxStartA.find (P.h k).text = none :=
  ⟨_, rfl, by decide, by decide⟩

/-! ## C31 -/

/-- C31: every parent that matches is in exactly one of the two results, and nothing
else is. -/
theorem C31_partition (p c : Rx) (r : Bool) (i : Nat) :
    (i ∈ findObjects P p ↔
      i ∈ findParentObjects P p c r ∨ i ∈ findParentObjectsWoChild P p c r) ∧
    ¬ (i ∈ findParentObjects P p c r ∧ i ∈ findParentObjectsWoChild P p c r) := by
  rw [findParentObjects, findParentObjectsWoChild, List.mem_filter, List.mem_filter]
  cases (reSearchChildren P i c r).isEmpty <;> simp

/-- C31: both are in line order, without repetitions. -/
theorem C31_ordered (h : parse o lines = .ok P) (p c : Rx) (r : Bool) :
    Spec.Ordered P (findParentObjects P p c r) ∧ Spec.Ordered P (findParentObjectsWoChild P p c r) :=
  ⟨filter_ordered (findObjects_ordered (tree_of_parse h) p) _,
   filter_ordered (findObjects_ordered (tree_of_parse h) p) _⟩

example : ∃ P, parse {} [s "p", s " q p", s "b", s " p", s "p", s " q"] = .ok P ∧
    findParentObjects P rxP rxP false = [0] ∧ findParentObjectsWoChild P rxP rxP false = [1, 3, 4] := by
  refine ⟨_, rfl, ?_⟩
  decide

/-! ## C32 -/

/-- C32, exactly: an object is returned iff `childspec` matches a non-empty part of it
and it is a child (with `recurse`, a descendant) of an object that matches
`parentspec`; the result is in line order without repetitions. -/
theorem C32_children (h : parse o lines = .ok P) (hd : Spec.KidsNoDigits P) (p c : Rx) :
    (∀ x, x ∈ findChildObjects P p c false ↔ (∃ g, c.find (P.h x).text = some g ∧ g ≠ []) ∧
      ∃ i ∈ P.list, Spec.Match p (P.h i).text ∧ x ∈ (P.h i).children) ∧
    (∀ x, x ∈ findChildObjects P p c true ↔ (∃ g, c.find (P.h x).text = some g ∧ g ≠ []) ∧
      ∃ i ∈ P.list, Spec.Match p (P.h i).text ∧ Spec.Desc P i x) ∧
    (∀ r, Spec.Ordered P (findChildObjects P p c r)) := by
  have ht := tree_of_parse h
  have hk := kidsDistinct_of_parse h hd
  have key : ∀ r x, x ∈ findChildObjects P p c r ↔ (∃ g, c.find (P.h x).text = some g ∧ g ≠ []) ∧
      ∃ i ∈ P.list, Spec.Match p (P.h i).text ∧
        x ∈ (if r then allChildren P i else (P.h i).children) := by
    intro r x
    have sub : ∀ y ∈ ((findObjects P p).flatMap (fun i =>
        (if r then allChildren P i else (P.h i).children).filter (fun j => reMatch c (P.h j).text))),
        ∃ j ∈ P.list, y ∈ (P.h j).children := by
      intro y hy
      obtain ⟨i, hi, hy⟩ := List.mem_flatMap.mp hy
      have hy := (List.mem_filter.mp hy).1
      have hi := (mem_findObjects.mp hi).1
      cases r with
      | false => exact ⟨i, hi, hy⟩
      | true => exact desc_kid ht hi (allAux_sound _ _ hy)
    rw [findChildObjects, mem_sortObjs, mem_set_on, List.mem_flatMap]
    · constructor
      · rintro ⟨i, hi, hx⟩
        rw [mem_findObjects] at hi
        rw [List.mem_filter, reMatch_iff] at hx
        exact ⟨hx.2, i, hi.1, hi.2, hx.1⟩
      · rintro ⟨hg, i, hi, hm, hx⟩
        exact ⟨i, mem_findObjects.mpr ⟨hi, hm⟩, List.mem_filter.mpr ⟨hx, (reMatch_iff _ _).mpr hg⟩⟩
    · intro y hy z hz he
      obtain ⟨j, hj, hyj⟩ := sub y hy
      obtain ⟨k, hk', hzk⟩ := sub z hz
      exact hk j hj y hyj k hk' z hzk he
  refine ⟨fun x => key false x, fun x => ?_, fun r => ?_⟩
  · rw [key true x]
    refine and_congr Iff.rfl (exists_congr fun i => and_congr_right fun hi => and_congr Iff.rfl ?_)
    rw [if_pos rfl, C33_all_children_exact_partial h hd hi]
  · refine sortSet_ordered ht ?_
    intro y hy
    obtain ⟨i, hi, hy⟩ := List.mem_flatMap.mp hy
    have hy := (List.mem_filter.mp hy).1
    have hi := (mem_findObjects.mp hi).1
    cases r with
    | false => exact (ht.kids i hi y hy).1
    | true => exact (desc_lt ht hi (allAux_sound _ _ hy)).1

theorem normal_match {c : Rx} (hc : Spec.Normal c) (t : Str) :
    (∃ g, c.find t = some g ∧ g ≠ []) ↔ Spec.Match c t :=
  ⟨fun ⟨g, h, _⟩ => ⟨g, h⟩, fun ⟨g, h⟩ => ⟨g, h, (hc.2 t g h).1⟩⟩

/-- C32: without banners, macros and closing braces, and for a `childspec` as in C30: an
object is returned iff it matches `childspec` and its parent matches `parentspec`; with
`recurse`, some ancestor. -/
theorem C32_parent_partial (h : parse o lines = .ok P) (hp : Spec.Plain lines) (p c : Rx)
    (hc : Spec.Normal c) {x : Nat} (hx : x ∈ P.list) :
    (x ∈ findChildObjects P p c false ↔ Spec.Match c (P.h x).text ∧
      (P.h x).parent ≠ x ∧ Spec.Match p (P.h (P.h x).parent).text) ∧
    (x ∈ findChildObjects P p c true ↔ Spec.Match c (P.h x).text ∧
      ∃ a, Spec.Anc P x a ∧ Spec.Match p (P.h a).text) := by
  have ht := tree_of_parse h
  obtain ⟨h1, h2, _⟩ := C32_children h (C33_kids h hp.1 hp.2.1) p c
  rw [h1, h2, normal_match hc]
  refine ⟨and_congr Iff.rfl ⟨?_, ?_⟩, and_congr Iff.rfl ⟨?_, ?_⟩⟩
  · rintro ⟨i, hi, hm, hk⟩
    obtain ⟨_, e, hne⟩ := ((C22_agree_partial h hp.1 hp.2.1 hp.2.2 hi).2 x).mp hk
    rw [e]; exact ⟨Ne.symm hne, hm⟩
  · rintro ⟨hne, hm⟩
    have hpl := (ht.up x hx).1
    exact ⟨_, hpl, hm, ((C22_agree_partial h hp.1 hp.2.1 hp.2.2 hpl).2 x).mpr ⟨hx, rfl, Ne.symm hne⟩⟩
  · rintro ⟨i, hi, hm, hk⟩
    exact ⟨i, (anc_iff_desc h hp hx hi).mpr hk, hm⟩
  · rintro ⟨a, ha, hm⟩
    have hal := (anc_lt ht hx ha).1
    exact ⟨a, hal, hm, (anc_iff_desc h hp hx hal).mp ha⟩

/-- C32: for a `childspec` as in C30 there is a child result iff there is a parent
result. -/
theorem C32_both_partial (h : parse o lines = .ok P) (hd : Spec.KidsNoDigits P) (p c : Rx)
    (hc : Spec.Normal c) (r : Bool) :
    findChildObjects P p c r = [] ↔ findParentObjects P p c r = [] := by
  obtain ⟨h1, h2, _⟩ := C32_children h hd p c
  have h3 := C30_parents_partial h p c hc
  rw [List.eq_nil_iff_forall_not_mem, List.eq_nil_iff_forall_not_mem]
  cases r with
  | false =>
    constructor
    · intro hn i hi
      obtain ⟨⟨hl, hm⟩, k, hk, hck⟩ := (h3 i).1.mp hi
      exact hn k ((h1 k).mpr ⟨(normal_match hc _).mpr hck, i, hl, hm, hk⟩)
    · intro hn k hk
      obtain ⟨hck, i, hl, hm, hik⟩ := (h1 k).mp hk
      exact hn i ((h3 i).1.mpr ⟨⟨hl, hm⟩, k, hik, (normal_match hc _).mp hck⟩)
  | true =>
    constructor
    · intro hn i hi
      obtain ⟨⟨hl, hm⟩, k, hk, hck⟩ := ((h3 i).2 hd).mp hi
      exact hn k ((h2 k).mpr ⟨(normal_match hc _).mpr hck, i, hl, hm, hk⟩)
    · intro hn k hk
      obtain ⟨hck, i, hl, hm, hik⟩ := (h2 k).mp hk
      exact hn i (((h3 i).2 hd).mpr ⟨⟨hl, hm⟩, k, hik, (normal_match hc _).mp hck⟩)

example : ∃ P, parse {} [s "p", s " q p", s "b", s " p", s "p", s " q", s "  p", s "   p"] = .ok P ∧
    findChildObjects P rxP rxP false = [1, 7] ∧ findChildObjects P rxP rxP true = [1, 6, 7] := by
  refine ⟨_, rfl, ?_⟩
  decide

/-- The expression `x*`. -/
def rxStar : Rx := ⟨s "x*", fun t => some (t.takeWhile (· == 'x'))⟩

/-- C32 does not hold as stated: `x*` matches (the empty string in) the child, the parent
query finds the parent, the child query finds nothing. -/
theorem C32_fails :
    ∃ P, parse {} [s "p", s " b"] = .ok P ∧ (rxStar.find (P.h 1).text).isSome = true ∧
      findParentObjects P rxP rxStar false = [0] ∧ findChildObjects P rxP rxStar false = [] :=
  ⟨_, rfl, by decide, by decide, by decide⟩

/-! ## C36 -/

/-- C36: `find_parents_w_child` and `find_parents_wo_child` return the texts of the
object queries in order. -/
theorem C36_parents (p c : Rx) :
    findParentsWChild P p c = (findParentObjects P p c false).map (fun i => (P.h i).text) ∧
    findParentsWoChild P p c = (findParentObjectsWoChild P p c false).map (fun i => (P.h i).text) :=
  ⟨rfl, rfl⟩

/-- C36, exactly: the lines `find_children_w_parents` returns are those that match
`childspec` and have an ancestor that matches `parentspec` (no text starts with a
digit). -/
theorem C36_children_w_parents (h : parse o lines = .ok P) (hd : Spec.NoDigits P) (p c : Rx) :
    (∀ x, x ∈ findChildrenWParents P p c ↔ (x ∈ P.list ∧ Spec.Match c (P.h x).text) ∧
      ∃ a, Spec.Anc P x a ∧ Spec.Match p (P.h a).text) ∧
    Spec.Ordered P (findChildrenWParents P p c) := by
  have ht := tree_of_parse h
  have hdi := distinct_of_parse h hd
  have sub : ∀ y ∈ (findObjects P c).filter (fun i => (allParents P i).any (fun q => p.search (P.h q).text)),
      y ∈ P.list := fun y hy => (mem_findObjects.mp (List.mem_filter.mp hy).1).1
  refine ⟨fun x => ?_, sortSet_ordered ht sub⟩
  rw [findChildrenWParents, mem_sortObjs, mem_set hdi sub, List.mem_filter, mem_findObjects, List.any_eq_true]
  refine and_congr_right fun hx => exists_congr fun a => ?_
  rw [search_iff, mem_allParents ht hdi hx.1]

/-- C36: `find_children_w_parents` agrees with `find_child_objects(recurse=True)`, for
configurations as in C33 and a `childspec` as in C30. -/
theorem C36_agree_partial (h : parse o lines = .ok P) (hp : Spec.Plain lines) (hd : Spec.NoDigits P)
    (p c : Rx) (hc : Spec.Normal c) :
    findChildrenWParents P p c = findChildObjects P p c true := by
  have ht := tree_of_parse h
  obtain ⟨h1, o1⟩ := C36_children_w_parents h hd p c
  have h2 := C32_children h (C33_kids h hp.1 hp.2.1) p c
  refine ordered_ext ht (fun x hx => ((h1 x).mp hx).1.1) o1 (h2.2.2 true) fun x => ?_
  rw [h1]
  constructor
  · rintro ⟨⟨hx, hm⟩, ha⟩
    exact ((C32_parent_partial h hp p c hc hx).2).mpr ⟨hm, ha⟩
  · intro hx
    have hxl : x ∈ P.list := by
      obtain ⟨_, i, hi, _, hdsc⟩ := (h2.2.1 x).mp hx
      exact (desc_lt ht hi hdsc).1
    obtain ⟨hm, ha⟩ := ((C32_parent_partial h hp p c hc hxl).2).mp hx
    exact ⟨⟨hxl, hm⟩, ha⟩

example : ∃ P, parse {} [s "p", s " q p", s "b", s " p", s "p", s " q", s "  p"] = .ok P ∧
    findChildrenWParents P rxP rxP = [1, 6] := by
  refine ⟨_, rfl, ?_⟩
  decide

/-- C36 does not hold as stated: `find_children_w_parents` also looks at ancestors, the
object query of that name (`find_objects_w_parents`) only at the parent. -/
theorem C36_fails :
    ∃ P, parse {} [s "p", s " q", s "  p"] = .ok P ∧ findChildrenWParents P rxP rxP = [2] ∧
      findChildObjects P rxP rxP false = [] :=
  ⟨_, rfl, by decide, by decide⟩

/-! ## C34 -/

theorem nearest_exists {ds : List Char} {L : Nat → Str} {i q : Nat} (hq : q < i)
    (hc : Conf.Spec.config ds (L q)) (hi : Conf.Spec.indent (L q) < Conf.Spec.indent (L i)) :
    ∃ p, q ≤ p ∧ Conf.Spec.Nearest ds L i p := by
  generalize hn : i - q = n
  induction n using Nat.strongRecOn generalizing q with
  | ind n ih =>
    by_cases h : ∀ r, q < r → r < i → Conf.Spec.config ds (L r) →
        Conf.Spec.indent (L i) ≤ Conf.Spec.indent (L r)
    · exact ⟨q, Nat.le_refl q, hq, hc, hi, h⟩
    · simp only [Classical.not_forall, Nat.not_le] at h
      obtain ⟨r, h1, h2, h3, h4⟩ := h
      obtain ⟨p, hp1, hp2⟩ := ih (i - r) (by omega) h2 h3 h4 rfl
      exact ⟨p, by omega, hp2⟩

theorem child_nearest (h : parse o lines = .ok P) (hp : Spec.Plain lines) {i c : Nat} (hi : i ∈ P.list)
    (hc : c ∈ (P.h i).children) : Conf.Spec.Nearest o.delims (lineAt (Conf.Spec.input o lines)) c i := by
  obtain ⟨hl, e, hne⟩ := ((C22_agree_partial h hp.1 hp.2.1 hp.2.2 hi).2 c).mp hc
  rcases (C21_indent h hp.1 hp.2.1 hp.2.2 hl i).mp e with ⟨_, hr⟩ | ⟨_, hr⟩
  · exact hr
  · exact absurd hr.symm hne

/-- Configuration lines up to a descendant are indented more than the ancestor. -/
theorem deeper (h : parse o lines = .ok P) (hp : Spec.Plain lines) {i d : Nat} (hi : i ∈ P.list)
    (hd : Spec.Desc P i d) {q : Nat} (h1 : i < q) (h2 : q ≤ d)
    (hq : Conf.Spec.config o.delims (lineAt (Conf.Spec.input o lines) q)) :
    Conf.Spec.indent (lineAt (Conf.Spec.input o lines) i) <
      Conf.Spec.indent (lineAt (Conf.Spec.input o lines) q) := by
  have ht := tree_of_parse h
  have one : ∀ {i c : Nat}, i ∈ P.list → c ∈ (P.h i).children → ∀ {q}, i < q → q ≤ c →
      Conf.Spec.config o.delims (lineAt (Conf.Spec.input o lines) q) →
      Conf.Spec.indent (lineAt (Conf.Spec.input o lines) i) <
      Conf.Spec.indent (lineAt (Conf.Spec.input o lines) q) := by
    intro i c hi hc q h1 h2 hq
    obtain ⟨n1, n2, n3, n4⟩ := child_nearest h hp hi hc
    rcases Nat.lt_or_eq_of_le h2 with h2 | h2
    · have := n4 q h1 h2 hq; omega
    · rw [h2]; exact n3
  induction hd generalizing q with
  | child hc => exact one hi hc h1 h2 hq
  | @step i c d hc _ ih =>
    obtain ⟨hl, hlt⟩ := ht.kids _ hi _ hc
    rcases Nat.lt_or_ge c q with hlt2 | hge
    · have e1 := ih hl hlt2 h2 hq
      have e2 := (child_nearest h hp hi hc).2.2.1
      omega
    · exact one hi hc h1 hge hq

/-- C34: every configuration line between a line and one of its descendants is a
descendant as well. -/
theorem C34_contiguous (h : parse o lines = .ok P) (hp : Spec.Plain lines) {i d q : Nat}
    (hi : i ∈ P.list) (hd : Spec.Desc P i d) (h1 : i < q) (h2 : q ≤ d)
    (hq : Conf.Spec.config o.delims (lineAt (Conf.Spec.input o lines) q)) : Spec.Desc P i q := by
  have ht := tree_of_parse h
  have hb := h
  rw [parse, input_eq] at hb
  have hic : Conf.Spec.config o.delims (lineAt (Conf.Spec.input o lines) i) := by
    cases hd with
    | child hc => exact (child_nearest h hp hi hc).2.1
    | step hc _ => exact (child_nearest h hp hi hc).2.1
  induction q using Nat.strongRecOn with
  | ind q ih =>
    have hdl := (desc_lt ht hi hd).1
    have hql : q ∈ P.list := by
      rw [mem_list hb]
      exact ⟨by have := ((mem_list hb).mp hdl).1; omega, Or.inr (Or.inl hq.1)⟩
    obtain ⟨p, hp1, hp2⟩ := nearest_exists (L := lineAt (Conf.Spec.input o lines)) h1 hic
      (deeper h hp hi hd h1 h2 hq)
    have hpar : (P.h q).parent = p :=
      (C21_indent h hp.1 hp.2.1 hp.2.2 hql p).mpr (Or.inl ⟨fun hu => hq.2 hu.1, hp2⟩)
    have hpl : p ∈ P.list := hpar ▸ (ht.up q hql).1
    have hkid : q ∈ (P.h p).children :=
      ((C22_agree_partial h hp.1 hp.2.1 hp.2.2 hpl).2 q).mpr ⟨hql, hpar, by have := hp2.1; omega⟩
    rcases Nat.lt_or_eq_of_le hp1 with hlt | heq
    · exact desc_tail (ih p hp2.1 hlt (by have := hp2.1; omega) hp2.2.1) hkid
    · rw [heq]; exact .child hkid

/-- C34: `family_endpoint` is the line number of the last descendant, or of the line
itself if it has none. -/
theorem C34_endpoint (h : parse o lines = .ok P) (hd : Spec.KidsNoDigits P) {i : Nat} (hi : i ∈ P.list) :
    (∀ d, Spec.Desc P i d → (P.h d).linenum ≤ familyEndpoint P i) ∧
    ((∃ d, Spec.Desc P i d ∧ (P.h d).linenum = familyEndpoint P i) ∨
      ((∀ d, ¬ Spec.Desc P i d) ∧ familyEndpoint P i = (P.h i).linenum)) := by
  have hmem := C33_all_children_exact_partial h hd hi
  have hord := (C33_all_children h hi).2.1
  rw [familyEndpoint]
  cases hl : (allChildren P i).getLast? with
  | none =>
    rw [List.getLast?_eq_none_iff] at hl
    have hno : ∀ d, ¬ Spec.Desc P i d := by
      intro d hd
      rw [← hmem, hl] at hd; cases hd
    exact ⟨fun d hd => absurd hd (hno d), Or.inr ⟨hno, rfl⟩⟩
  | some j =>
    obtain ⟨init, hinit⟩ := List.getLast?_eq_some_iff.mp hl
    refine ⟨?_, Or.inl ⟨j, (hmem j).mp (by rw [hinit]; simp), rfl⟩⟩
    intro d hd
    rw [← hmem, hinit, List.mem_append] at hd
    rw [hinit, Spec.Ordered, List.pairwise_append] at hord
    rcases hd with hd | hd
    · have := hord.2.2 d hd j (by simp)
      show (P.h d).linenum ≤ (P.h j).linenum
      omega
    · have : d = j := by simpa using hd
      rw [this]; exact Int.le_refl _

/-- C34: the configuration lines from the line after `o` to `o.family_endpoint` are
exactly the descendants of `o` that are configuration lines. -/
theorem C34_family (h : parse o lines = .ok P) (hp : Spec.Plain lines) {i q : Nat} (hi : i ∈ P.list)
    (hql : q ∈ P.list) (hq : Conf.Spec.config o.delims (lineAt (Conf.Spec.input o lines) q)) :
    Spec.Desc P i q ↔ (P.h i).linenum < (P.h q).linenum ∧ (P.h q).linenum ≤ familyEndpoint P i := by
  have ht := tree_of_parse h
  have hk := C33_kids h hp.1 hp.2.1
  obtain ⟨e1, e2⟩ := C34_endpoint h hk hi
  have ni := ht.num i hi
  have nq := ht.num q hql
  constructor
  · intro hd
    have := (desc_lt ht hi hd).2
    exact ⟨by omega, e1 q hd⟩
  · rintro ⟨h1, h2⟩
    rcases e2 with ⟨d, hd, e⟩ | ⟨_, e⟩
    · have nd := ht.num d (desc_lt ht hi hd).1
      exact C34_contiguous h hp hi hd (by omega) (by omega) hq
    · omega

example : ∃ P, parse {} [s "a", s " b", s "  c", s "!", s " d", s "e"] = .ok P ∧
    familyEndpoint P 0 = 4 ∧ familyEndpoint P 1 = 2 ∧ familyEndpoint P 5 = 5 :=
  ⟨_, rfl, by decide, by decide, by decide⟩

/-! ## C35 -/

theorem links_length {ls : List Level} {p : Nat} {os : List Nat} (h : Spec.Chain.Links P ls p os) :
    os.length = ls.length := by
  induction ls generalizing p os with
  | nil => rw [Spec.Chain.Links] at h; rw [h]; rfl
  | cons l ls ih =>
    cases os with
    | nil => exact absurd h (by rw [Spec.Chain.Links]; exact id)
    | cons o os =>
      rw [Spec.Chain.Links] at h
      rw [List.length_cons, List.length_cons, ih h.2.2]

theorem chain_length {ls : List Level} {os : List Nat} (h : Spec.Chain P ls os) :
    os.length = ls.length := by
  cases ls with
  | nil => rw [Spec.Chain] at h; rw [h]; rfl
  | cons l ls =>
    cases os with
    | nil => exact absurd h (by rw [Spec.Chain]; exact id)
    | cons o os =>
      rw [Spec.Chain] at h
      rw [List.length_cons, List.length_cons, links_length h.2]

theorem links_snoc {ls : List Level} {l : Level} {p k : Nat} {os : List Nat} :
    Spec.Chain.Links P (ls ++ [l]) p (os ++ [k]) ↔ Spec.Chain.Links P ls p os ∧
      k ∈ (P.h ((p :: os).getLast (by simp))).children ∧ Spec.Match l.flagged (P.h k).text := by
  induction ls generalizing p os with
  | nil =>
    cases os with
    | nil => simp [Spec.Chain.Links]
    | cons a as =>
      simp only [List.nil_append, List.cons_append, Spec.Chain.Links]
      constructor
      · rintro ⟨_, _, h⟩; simp at h
      · rintro ⟨h, _⟩; simp at h
  | cons m ms ih =>
    cases os with
    | nil =>
      simp only [List.nil_append, List.cons_append, Spec.Chain.Links]
      constructor
      · rintro ⟨_, _, h⟩
        exact absurd (links_length h) (by simp)
      · rintro ⟨h, _⟩; exact h.elim
    | cons a as =>
      simp only [List.cons_append, Spec.Chain.Links, ih, List.getLast_cons_cons, and_assoc]

theorem chain_snoc {ls : List Level} (hls : ls ≠ []) {l : Level} {k : Nat} {os : List Nat} (hos : os ≠ []) :
    Spec.Chain P (ls ++ [l]) (os ++ [k]) ↔ Spec.Chain P ls os ∧
      k ∈ (P.h (os.getLast hos)).children ∧ Spec.Match l.flagged (P.h k).text := by
  cases ls with
  | nil => exact absurd rfl hls
  | cons m ms =>
    cases os with
    | nil => exact absurd rfl hos
    | cons a as =>
      simp only [List.cons_append, Spec.Chain, links_snoc, and_assoc]

theorem mem_matching {parent : Option Nat} {l : Level} {r : Option Nat} :
    r ∈ matchingChildren P parent l ↔
      (∃ k, r = some k ∧ k ∈ candidates P parent l ∧ Spec.Match l.flagged (P.h k).text) ∨
      (r = none ∧ ∀ k ∈ candidates P parent l, ¬ Spec.Match l.flagged (P.h k).text) := by
  rw [matchingChildren]
  generalize candidates P parent l = cs
  by_cases he : cs.filter (fun c => l.flagged.search (P.h c).text) = []
  · rw [if_pos he]
    have hno : ∀ k ∈ cs, ¬ Spec.Match l.flagged (P.h k).text := by
      intro k hk
      rw [List.filter_eq_nil_iff] at he
      rw [← search_iff]; exact he k hk
    constructor
    · intro hr
      exact Or.inr ⟨by simpa using hr, hno⟩
    · rintro (⟨k, _, hk, hm⟩ | ⟨hr, _⟩)
      · exact absurd hm (hno k hk)
      · simp [hr]
  · rw [if_neg he]
    constructor
    · intro hr
      obtain ⟨k, hk, e⟩ := List.mem_map.mp hr
      rw [List.mem_filter, search_iff] at hk
      exact Or.inl ⟨k, e.symm, hk⟩
    · rintro (⟨k, hr, hk, hm⟩ | ⟨_, hno⟩)
      · rw [hr]
        exact List.mem_map.mpr ⟨k, List.mem_filter.mpr ⟨hk, (search_iff _ _).mpr hm⟩, rfl⟩
      · exfalso
        apply he
        rw [List.filter_eq_nil_iff]
        intro k hk
        rw [search_iff]; exact hno k hk

theorem chain_single {l : Level} {k : Nat} :
    Spec.Chain P [l] [k] ↔ k ∈ findObjects P l.plain ∧ Spec.Match l.flagged (P.h k).text := by
  simp only [Spec.Chain, Spec.Chain.Links, mem_findObjects, and_true, and_assoc]

theorem row_single {l : Level} {row : List (Option Nat)} :
    row ∈ (matchingChildren P none l).map (fun k => [k]) ↔ Spec.Row P [l] row := by
  rw [List.mem_map]
  constructor
  · rintro ⟨r, hr, e⟩
    subst e
    rcases mem_matching.mp hr with ⟨k, e, hk, hm⟩ | ⟨e, hno⟩
    · exact ⟨1, [k], by simp, chain_single.mpr ⟨hk, hm⟩, by rw [e]; rfl, by simp⟩
    · refine ⟨0, [], by simp, by simp [Spec.Chain], by rw [e]; rfl, ?_⟩
      intro _ k hc
      obtain ⟨h1, h2⟩ := chain_single.mp hc
      exact hno k h1 h2
  · rintro ⟨m, os, hm, hc, hrow, hext⟩
    have hl := chain_length hc
    rcases (show m = 0 ∨ m = 1 by simp at hm; omega) with e | e
    · subst e
      have : os = [] := by simpa using hl
      subst this
      refine ⟨none, mem_matching.mpr (Or.inr ⟨rfl, ?_⟩), by rw [hrow]; rfl⟩
      intro k hk hmt
      exact hext (by simp) k (chain_single.mpr ⟨hk, hmt⟩)
    · subst e
      obtain ⟨k, hk⟩ : ∃ k, os = [k] := List.length_eq_one_iff.mp (by simpa using hl)
      subst hk
      obtain ⟨h1, h2⟩ := chain_single.mp hc
      exact ⟨some k, mem_matching.mpr (Or.inl ⟨k, rfl, h1, h2⟩), by rw [hrow]; rfl⟩

theorem getLast?_map_some {os : List Nat} (h : os ≠ []) :
    (os.map some).getLast? = some (some (os.getLast h)) := by
  rw [List.getLast?_map, List.getLast?_eq_some_getLast h]; rfl

theorem row_step {ls : List Level} (hls : ls ≠ []) {l : Level} {rows : List (List (Option Nat))}
    (hr : ∀ b, b ∈ rows ↔ Spec.Row P ls b) (row : List (Option Nat)) :
    row ∈ growBranches P l rows ↔ Spec.Row P (ls ++ [l]) row := by
  have hlen : 0 < ls.length := List.length_pos_iff.mpr hls
  have ext : ∀ (os : List Nat) (hos : os ≠ []), Spec.Chain P ls os → ∀ k,
      (Spec.Chain P (ls ++ [l]) (os ++ [k]) ↔
        k ∈ (P.h (os.getLast hos)).children ∧ Spec.Match l.flagged (P.h k).text) := by
    intro os hos hc k
    rw [chain_snoc hls hos]
    exact ⟨fun h => h.2, fun h => ⟨hc, h⟩⟩
  have t1 : (ls ++ [l]).take ls.length = ls := by simp
  have t2 : (ls ++ [l]).take (ls.length + 1) = ls ++ [l] := by
    rw [List.take_of_length_le]; simp
  rw [growBranches, List.mem_flatMap]
  constructor
  · rintro ⟨b, hb, hrow⟩
    obtain ⟨m, os, hm, hc, hbe, hext⟩ := (hr b).mp hb
    have hosl := chain_length hc
    rcases Nat.lt_or_eq_of_le hm with hlt | heq
    · have hlast : b.getLast? = some none := by
        rw [hbe, List.getLast?_append]
        have : (List.replicate (ls.length - m) (none : Option Nat)).getLast? = some none := by
          rw [List.getLast?_replicate, if_neg (by omega)]
        rw [this]; rfl
      rw [hlast] at hrow
      have hrow : row = b ++ [none] := by simpa using hrow
      refine ⟨m, os, by simp; omega, ?_, ?_, ?_⟩
      · rw [List.take_append_of_le_length hm]; exact hc
      · rw [hrow, hbe, List.append_assoc]
        congr 1
        rw [List.length_append, List.length_singleton, show ls.length + 1 - m = (ls.length - m) + 1 by omega,
          List.replicate_succ']
      · intro _ k
        rw [List.take_append_of_le_length (by omega)]
        exact hext hlt k
    · subst heq
      rw [List.take_length] at hc
      have hos : os ≠ [] := by
        intro e; rw [e] at hosl; simp at hosl; omega
      rw [Nat.sub_self, List.replicate_zero, List.append_nil] at hbe
      rw [hbe, getLast?_map_some hos] at hrow
      obtain ⟨r, hrm, e⟩ := List.mem_map.mp hrow
      rcases mem_matching.mp hrm with ⟨k, e', hk, hmt⟩ | ⟨e', hno⟩
      · refine ⟨ls.length + 1, os ++ [k], by simp, ?_, ?_, by simp⟩
        · rw [t2]; exact (ext os hos hc k).mpr ⟨hk, hmt⟩
        · rw [← e, e']; simp
      · refine ⟨ls.length, os, by simp, by rw [t1]; exact hc, ?_, ?_⟩
        · rw [← e, e']; simp
        · intro _ k hch
          rw [t2] at hch
          obtain ⟨h1, h2⟩ := (ext os hos hc k).mp hch
          exact hno k h1 h2
  · rintro ⟨m, os, hm, hc, hrow, hext⟩
    have hosl := chain_length hc
    rw [List.length_append, List.length_singleton] at hm hrow hext
    rcases (show m < ls.length ∨ m = ls.length ∨ m = ls.length + 1 by omega) with hlt | heq | heq
    · refine ⟨os.map some ++ List.replicate (ls.length - m) none, ?_, ?_⟩
      · rw [hr]
        refine ⟨m, os, by omega, ?_, rfl, ?_⟩
        · rw [List.take_append_of_le_length (by omega)] at hc; exact hc
        · intro _ k
          have := hext (by omega) k
          rwa [List.take_append_of_le_length (by omega)] at this
      · have hlast : (os.map some ++ List.replicate (ls.length - m) none).getLast? = some none := by
          rw [List.getLast?_append]
          have : (List.replicate (ls.length - m) (none : Option Nat)).getLast? = some none := by
            rw [List.getLast?_replicate, if_neg (by omega)]
          rw [this]; rfl
        rw [hlast]
        rw [hrow, show ls.length + 1 - m = (ls.length - m) + 1 by omega, List.replicate_succ',
          ← List.append_assoc]
        exact List.mem_singleton.mpr rfl
    · subst heq
      rw [t1] at hc
      have hos : os ≠ [] := by
        intro e; rw [e] at hosl; simp at hosl; omega
      refine ⟨os.map some, ?_, ?_⟩
      · rw [hr]
        exact ⟨ls.length, os, Nat.le_refl _, by rw [List.take_length]; exact hc, by simp,
          fun h => absurd h (Nat.lt_irrefl _)⟩
      · rw [getLast?_map_some hos]
        refine List.mem_map.mpr ⟨none, mem_matching.mpr (Or.inr ⟨rfl, ?_⟩), ?_⟩
        · intro k hk hmt
          refine hext (by omega) k ?_
          rw [t2]; exact (ext os hos hc k).mpr ⟨hk, hmt⟩
        · rw [hrow]; simp
    · subst heq
      rw [t2] at hc
      have hne : os ≠ [] := by
        intro e; rw [e] at hosl; simp at hosl
      obtain ⟨os', k, e⟩ : ∃ os' k, os = os' ++ [k] := ⟨_, _, (List.dropLast_concat_getLast hne).symm⟩
      subst e
      have hos' : os' ≠ [] := by
        intro e
        rw [e, t2] at hosl
        simp at hosl
        exact hls hosl
      obtain ⟨h1, h2, h3⟩ := (chain_snoc hls hos').mp hc
      refine ⟨os'.map some, ?_, ?_⟩
      · rw [hr]
        exact ⟨ls.length, os', Nat.le_refl _, by rw [List.take_length]; exact h1, by simp,
          fun h => absurd h (Nat.lt_irrefl _)⟩
      · rw [getLast?_map_some hos']
        refine List.mem_map.mpr ⟨some k, mem_matching.mpr (Or.inl ⟨k, rfl, h2, h3⟩), ?_⟩
        rw [hrow]; simp

/-- C35: with two or more levels the query succeeds and its rows are exactly the chains
of parent/child links that match the levels one by one from the first, filled up with
`None` where no child matches the next level. -/
theorem C35_rows (l1 l2 : Level) (ls : List Level) :
    ∃ rows, findObjectBranches P (l1 :: l2 :: ls) = .ok rows ∧
      ∀ row, row ∈ rows ↔ Spec.Row P (l1 :: l2 :: ls) row := by
  refine ⟨_, rfl, ?_⟩
  have key : ∀ (ks : List Level) (row : List (Option Nat)),
      row ∈ ks.foldl (fun bs l => growBranches P l bs) ((matchingChildren P none l1).map (fun k => [k])) ↔
      Spec.Row P (l1 :: ks) row := by
    intro ks
    rw [← List.reverse_reverse ks]
    induction ks.reverse with
    | nil => intro row; exact row_single
    | cons k ks ih =>
      intro row
      rw [List.reverse_cons, List.foldl_append, List.foldl_cons, List.foldl_nil, ← List.cons_append]
      exact row_step (by simp) ih row
  exact key (l2 :: ls)

/-- C35: the rows without `None` are exactly the complete chains: every row found is a
chain and every chain is found, for branchspecs of two or more levels. -/
theorem C35_chains_partial (l1 l2 : Level) (ls : List Level) :
    ∃ rows, findObjectBranches P (l1 :: l2 :: ls) = .ok rows ∧
      ∀ os, os.map some ∈ rows ↔ Spec.Chain P (l1 :: l2 :: ls) os := by
  obtain ⟨rows, h1, h2⟩ := C35_rows (P := P) l1 l2 ls
  refine ⟨rows, h1, fun os => ?_⟩
  rw [h2]
  constructor
  · rintro ⟨m, os', hm, hc, he, _⟩
    have hz : (l1 :: l2 :: ls).length - m = 0 := by
      cases hk : (l1 :: l2 :: ls).length - m with
      | zero => rfl
      | succ k =>
        rw [hk] at he
        have : (none : Option Nat) ∈ os.map some := by
          rw [he]; simp
        simp at this
    rw [hz, List.replicate_zero, List.append_nil] at he
    have : os = os' := (List.map_inj_right (fun _ _ h => Option.some.inj h)).mp he
    rw [this]
    rwa [List.take_of_length_le (by omega)] at hc
  · intro hc
    exact ⟨_, os, Nat.le_refl _, by rw [List.take_length]; exact hc, by simp,
      fun h => absurd h (Nat.lt_irrefl _)⟩

example : ∃ P, parse {} [s "p", s " q p", s " q", s "p", s "r"] = .ok P ∧
    findObjectBranches P [⟨rxP, rxP⟩, ⟨rxP, rxP⟩] = .ok [[some 0, some 1], [some 1, none], [some 3, none]] := by
  refine ⟨_, rfl, ?_⟩
  decide

/-- C35 does not hold as stated: a branchspec with one level always raises
(`UnboundLocalError`). -/
theorem C35_single_fails (l : Level) : findObjectBranches P [l] = .error .unbound := rfl

/-- C35: a branchspec with fewer than two levels always raises, one with two or more never
does. -/
theorem C35_short (ls : List Level) : (∃ rows, findObjectBranches P ls = .ok rows) ↔ 2 ≤ ls.length := by
  cases ls with
  | nil => exact ⟨fun ⟨_, h⟩ => (by cases h), fun h => absurd h (by decide)⟩
  | cons l ls =>
    cases ls with
    | nil => exact ⟨fun ⟨_, h⟩ => (by cases h), fun h => absurd h (by simp)⟩
    | cons m ms => exact ⟨fun _ => by simp, fun _ => ⟨_, rfl⟩⟩

/-- The expression `P`, without and with `re.IGNORECASE`. -/
def rxUpper : Rx := ⟨s "P", fun t => if 'P' ∈ t then some (s "P") else none⟩
def rxUpperI : Rx := ⟨s "P", fun t => if 'P' ∈ t ∨ 'p' ∈ t then some (s "p") else none⟩

/-- C35 does not hold as stated: the flags are not used to find the first element of a
branch: with `re.IGNORECASE`, `P` matches both lines but no branch is found. -/
theorem C35_flags_fails :
    ∃ P, parse {} [s "p", s " p"] = .ok P ∧ (rxUpperI.find (P.h 0).text).isSome = true ∧
      findObjectBranches P [⟨rxUpper, rxUpperI⟩, ⟨rxUpper, rxUpperI⟩] = .ok [[none, none]] :=
  ⟨_, rfl, by decide, by decide⟩

end

end Query

import Verif.Query.Spec
import Verif.Conf.Props

/-! # Lemmas for the queries -/

namespace Query

open Py Conf

/-! ## Sets and sorting -/

theorem dedupBy_rep {α : Type _} {eq : α → α → Bool} (rf : ∀ a, eq a a = true)
    (tr : ∀ a b c, eq a b = true → eq b c = true → eq a c = true)
    {l : List α} {x : α} (hx : x ∈ l) : ∃ y ∈ dedupBy eq l, eq y x = true := by
  induction l with
  | nil => simp at hx
  | cons a as ih =>
    rw [dedupBy]
    rcases List.mem_cons.mp hx with h | h
    · exact ⟨a, by simp, h ▸ rf x⟩
    · obtain ⟨y, h1, h3⟩ := ih h
      by_cases hay : eq a y = true
      · exact ⟨a, by simp, tr _ _ _ hay h3⟩
      · exact ⟨y, by simp [h1, hay], h3⟩

theorem nodup_dedupBy {α : Type _} {eq : α → α → Bool} (rf : ∀ a, eq a a = true) {l : List α} :
    (dedupBy eq l).Nodup := by
  induction l with
  | nil => simp [dedupBy]
  | cons a as ih =>
    rw [dedupBy, List.nodup_cons]
    refine ⟨?_, List.Nodup.sublist List.filter_sublist ih⟩
    intro h
    have := (List.mem_filter.1 h).2
    simp [rf a] at this

theorem objEq_refl (h : Heap) (a : Nat) : objEq (h a) (h a) = true := (C43_equivalence (h a) (h a) (h a)).1

theorem objEq_trans (h : Heap) (a b c : Nat) (h1 : objEq (h a) (h b) = true)
    (h2 : objEq (h b) (h c) = true) : objEq (h a) (h c) = true :=
  (C43_equivalence (h a) (h b) (h c)).2.2 h1 h2

theorem mem_sortObjs {h : Heap} {l : List Nat} {x : Nat} : x ∈ sortObjs h l ↔ x ∈ l := mem_sortBy

theorem mem_of_mem_set {h : Heap} {l : List Nat} {x : Nat} (hx : x ∈ setObjs h l) : x ∈ l :=
  dedupBy_subset x hx

theorem set_rep {h : Heap} {l : List Nat} {x : Nat} (hx : x ∈ l) :
    ∃ y ∈ setObjs h l, objEq (h y) (h x) = true :=
  dedupBy_rep (eq := fun a b => objEq (h a) (h b)) (objEq_refl h) (objEq_trans h) hx

/-- No two listed objects compare equal. -/
def Distinct (P : Parsed) : Prop :=
  ∀ i ∈ P.list, ∀ j ∈ P.list, objEq (P.h i) (P.h j) = true → i = j

theorem mem_set {P : Parsed} (hd : Distinct P) {l : List Nat} (hl : ∀ x ∈ l, x ∈ P.list) {x : Nat} :
    x ∈ setObjs P.h l ↔ x ∈ l := by
  refine ⟨mem_of_mem_set, fun hx => ?_⟩
  obtain ⟨y, hy, he⟩ := set_rep (h := P.h) hx
  have := hd y (hl y (mem_of_mem_set hy)) x (hl x hx) he
  rw [← this]; exact hy

theorem sort_sorted (h : Heap) (l : List Nat) :
    (sortObjs h l).Pairwise (fun a b => (h a).linenum ≤ (h b).linenum) := by
  have := sortBy_sorted (le := fun a b => decide ((h a).linenum ≤ (h b).linenum))
    (fun a b => by simp only [decide_eq_true_eq]; omega)
    (fun a b c => by simp only [decide_eq_true_eq]; omega) l
  refine this.imp ?_
  intro a b hab
  exact of_decide_eq_true hab

/-- The state right after parsing. -/
structure Tree (P : Parsed) : Prop where
  lt : ∀ i ∈ P.list, i < P.n
  kids : ∀ i ∈ P.list, ∀ c ∈ (P.h i).children, c ∈ P.list ∧ i < c
  up : ∀ i ∈ P.list, (P.h i).parent ∈ P.list ∧ (P.h i).parent ≤ i
  inc : P.list.Pairwise (· < ·)
  num : ∀ i ∈ P.list, (P.h i).linenum = i

theorem tree_of_parse {o : Opts} {lines : List Str} {P : Parsed} (h : parse o lines = .ok P) : Tree P := by
  have hnum := (C23_linenum_partial h).1
  have hb := h
  rw [parse, input_eq] at hb
  obtain ⟨_, _, hn, _, _⟩ := bootstrap_ok hb
  refine ⟨?_, ?_, ?_, list_increasing hb, hnum⟩
  · intro i hi
    rw [hn]; exact ((mem_list hb).mp hi).1
  · intro i hi c hc
    have := C22_children_after h hi hc
    exact ⟨this.2, this.1⟩
  · intro i hi
    refine ⟨parent_listed hb hi, ?_⟩
    exact parent_le (parent_spec hb ((mem_list hb).mp hi).1)

theorem distinct_of_parse {o : Opts} {lines : List Str} {P : Parsed} (h : parse o lines = .ok P)
    (hd : Spec.NoDigits P) : Distinct P := fun i hi j hj he =>
  (C43_eq_partial h hi hj (hd i hi) (hd j hj)).mp he

/-- A child by indentation starts with a blank. -/
theorem head_of_indent {t : Str} (h : 0 < Conf.Spec.indent t) {c : Char}
    (hc : (rstrip t).head? = some c) : isDigit c = false := by
  rw [Conf.Spec.indent] at h
  cases hr : rstrip t with
  | nil => rw [hr] at hc; cases hc
  | cons x xs =>
    rw [hr] at hc h
    simp only [List.head?_cons, Option.some.injEq] at hc
    subst hc
    rw [List.takeWhile_cons] at h
    split at h
    · rename_i hs
      cases hd : isDigit x with
      | false => rfl
      | true => rw [isDigit_not_space hd] at hs; cases hs
    · simp at h

theorem kidsDistinct_of_parse {o : Opts} {lines : List Str} {P : Parsed} (h : parse o lines = .ok P)
    (hd : Spec.KidsNoDigits P) : ∀ i ∈ P.list, ∀ c ∈ (P.h i).children, ∀ j ∈ P.list,
      ∀ d ∈ (P.h j).children, objEq (P.h c) (P.h d) = true → c = d := fun i hi c hc j hj d hd' he =>
  (C43_eq_partial h (C22_children_after h hi hc).2 (C22_children_after h hj hd').2
    (hd i hi c hc) (hd j hj d hd')).mp he

theorem kidsNoDigits_of_noDigits {P : Parsed} (ht : ∀ i ∈ P.list, ∀ c ∈ (P.h i).children, c ∈ P.list)
    (h : Spec.NoDigits P) : Spec.KidsNoDigits P := fun i hi k hk => h k (ht i hi k hk)

section
variable {P : Parsed}

theorem ordered_of (ht : Tree P) {l : List Nat} (hl : ∀ x ∈ l, x ∈ P.list) (hn : l.Nodup)
    (hs : l.Pairwise (fun a b => (P.h a).linenum ≤ (P.h b).linenum)) : Spec.Ordered P l := by
  refine List.Pairwise.imp_of_mem ?_ (List.pairwise_and_iff.mpr ⟨hs, hn⟩)
  rintro a b ha hb ⟨h1, h2⟩
  have ea := ht.num a (hl a ha)
  have eb := ht.num b (hl b hb)
  omega

theorem sortSet_ordered (ht : Tree P) {l : List Nat} (hl : ∀ x ∈ l, x ∈ P.list) :
    Spec.Ordered P (sortObjs P.h (setObjs P.h l)) := by
  refine ordered_of ht (fun x hx => hl x (mem_of_mem_set (mem_sortObjs.mp hx))) ?_ (sort_sorted _ _)
  exact (sortBy_perm _ _).nodup_iff.mpr (nodup_dedupBy (objEq_refl P.h))

theorem list_ordered (ht : Tree P) : Spec.Ordered P P.list := by
  refine List.Pairwise.imp_of_mem ?_ ht.inc
  intro a b ha hb hab
  rw [ht.num a ha, ht.num b hb]; omega

/-- An ordered list of listed objects is determined by its members. -/
theorem ordered_ext (ht : Tree P) {l m : List Nat} (hl : ∀ x ∈ l, x ∈ P.list)
    (ol : Spec.Ordered P l) (om : Spec.Ordered P m) (h : ∀ x, x ∈ l ↔ x ∈ m) : l = m := by
  have conv : ∀ k : List Nat, (∀ x ∈ k, x ∈ P.list) → Spec.Ordered P k → k.Pairwise (· < ·) := by
    intro k hk ok
    refine List.Pairwise.imp_of_mem ?_ ok
    intro a b ha hb hab
    rw [ht.num a (hk a ha), ht.num b (hk b hb)] at hab; omega
  exact eq_of_sorted_mem (conv l hl ol) (conv m (fun x hx => hl x ((h x).mpr hx)) om) h

theorem sortObjs_of_ordered {l : List Nat} (h : Spec.Ordered P l) : sortObjs P.h l = l := by
  refine sortBy_of_sorted (h.imp ?_)
  intro a b hab
  rw [decide_eq_true_eq]; omega

/-! ## Descendants -/

theorem desc_lt (ht : Tree P) {i d : Nat} (hi : i ∈ P.list) (h : Spec.Desc P i d) :
    d ∈ P.list ∧ i < d := by
  induction h with
  | child hc => exact ht.kids _ hi _ hc
  | step hc _ ih =>
    obtain ⟨h1, h2⟩ := ht.kids _ hi _ hc
    obtain ⟨h3, h4⟩ := ih h1
    exact ⟨h3, Nat.lt_trans h2 h4⟩

theorem allAux_sound (f i : Nat) {x : Nat} (hx : x ∈ allChildrenAux P.h f i) : Spec.Desc P i x := by
  induction f generalizing i x with
  | zero => simp [allChildrenAux] at hx
  | succ f ih =>
    rw [allChildrenAux, mem_sortObjs] at hx
    have := mem_of_mem_set hx
    rw [List.mem_flatMap] at this
    obtain ⟨c, hc, hx⟩ := this
    rcases List.mem_cons.mp hx with h | h
    · rw [h]; exact .child hc
    · exact .step hc (ih c h)

theorem allAux_rep (ht : Tree P) (f i : Nat) (hi : i ∈ P.list) (hf : P.n ≤ f + i) {x : Nat}
    (hx : Spec.Desc P i x) : ∃ y ∈ allChildrenAux P.h f i, objEq (P.h y) (P.h x) = true := by
  induction f generalizing i x with
  | zero => have := ht.lt i hi; omega
  | succ f ih =>
    have key : ∃ z ∈ (P.h i).children.flatMap (fun c => c :: allChildrenAux P.h f c),
        objEq (P.h z) (P.h x) = true := by
      cases hx with
      | child hc => exact ⟨x, List.mem_flatMap.mpr ⟨x, hc, by simp⟩, objEq_refl _ _⟩
      | @step _ c _ hc hd =>
        obtain ⟨h1, h2⟩ := ht.kids i hi c hc
        obtain ⟨y, hy, he⟩ := ih c h1 (by omega) hd
        exact ⟨y, List.mem_flatMap.mpr ⟨c, hc, by simp [hy]⟩, he⟩
    obtain ⟨z, hz, he⟩ := key
    obtain ⟨y, hy, he2⟩ := set_rep (h := P.h) hz
    exact ⟨y, by rw [allChildrenAux, mem_sortObjs]; exact hy, objEq_trans _ _ _ _ he2 he⟩

/-- No two children compare equal. -/
def KidsDistinct (P : Parsed) : Prop :=
  ∀ i ∈ P.list, ∀ c ∈ (P.h i).children, ∀ j ∈ P.list, ∀ d ∈ (P.h j).children,
    objEq (P.h c) (P.h d) = true → c = d

theorem desc_kid (ht : Tree P) {i d : Nat} (hi : i ∈ P.list) (h : Spec.Desc P i d) :
    ∃ j ∈ P.list, d ∈ (P.h j).children := by
  induction h with
  | child hc => exact ⟨_, hi, hc⟩
  | step hc _ ih => exact ih (ht.kids _ hi _ hc).1

theorem mem_allChildren (ht : Tree P) (hd : KidsDistinct P) {i x : Nat} (hi : i ∈ P.list) :
    x ∈ allChildren P i ↔ Spec.Desc P i x := by
  refine ⟨allAux_sound P.n i, fun h => ?_⟩
  obtain ⟨y, hy, he⟩ := allAux_rep ht P.n i hi (by omega) h
  obtain ⟨j, hj, hyj⟩ := desc_kid ht hi (allAux_sound P.n i hy)
  obtain ⟨k, hk, hxk⟩ := desc_kid ht hi h
  have := hd j hj y hyj k hk x hxk he
  rw [← this]; exact hy

theorem mem_set_on {l : List Nat}
    (hd : ∀ x ∈ l, ∀ y ∈ l, objEq (P.h x) (P.h y) = true → x = y) {x : Nat} :
    x ∈ setObjs P.h l ↔ x ∈ l := by
  refine ⟨mem_of_mem_set, fun hx => ?_⟩
  obtain ⟨y, hy, he⟩ := set_rep (h := P.h) hx
  rw [← hd y (mem_of_mem_set hy) x hx he]; exact hy

theorem allChildren_ordered (ht : Tree P) {i : Nat} (hi : i ∈ P.list) :
    Spec.Ordered P (allChildren P i) := by
  rw [allChildren]
  cases hn : P.n with
  | zero => exact List.Pairwise.nil
  | succ f =>
    rw [allChildrenAux]
    refine sortSet_ordered ht ?_
    intro x hx
    rw [List.mem_flatMap] at hx
    obtain ⟨c, hc, hx⟩ := hx
    have h1 := (ht.kids i hi c hc).1
    rcases List.mem_cons.mp hx with h | h
    · rw [h]; exact h1
    · exact (desc_lt ht h1 (allAux_sound f c h)).1

/-! ## Ancestors -/

theorem anc_lt (ht : Tree P) {i a : Nat} (hi : i ∈ P.list) (h : Spec.Anc P i a) :
    a ∈ P.list ∧ a < i := by
  induction h with
  | parent hne => exact ⟨(ht.up _ hi).1, by have := (ht.up _ hi).2; omega⟩
  | step hne _ ih =>
    obtain ⟨h1, h2⟩ := ih (ht.up _ hi).1
    exact ⟨h1, by have := (ht.up _ hi).2; omega⟩

theorem up_sound (f i : Nat) {x : Nat} (hx : x ∈ parentsUp P.h f i) : Spec.Anc P i x := by
  induction f generalizing i x with
  | zero => simp [parentsUp] at hx
  | succ f ih =>
    rw [parentsUp] at hx
    split at hx
    · simp at hx
    · rename_i hne
      have hne' : (P.h i).parent ≠ i := by
        intro he
        apply hne
        rw [he]; exact objEq_refl _ _
      rcases List.mem_cons.mp hx with h | h
      · rw [h]; exact .parent hne'
      · exact .step hne' (ih _ h)

theorem up_complete (ht : Tree P) (hd : Distinct P) (f i : Nat) (hi : i ∈ P.list) (hf : i < f) {x : Nat}
    (hx : Spec.Anc P i x) : x ∈ parentsUp P.h f i := by
  induction f generalizing i x with
  | zero => omega
  | succ f ih =>
    have hp := ht.up i hi
    have hne : (P.h i).parent ≠ i := by cases hx <;> assumption
    rw [parentsUp, if_neg (fun he => hne (hd _ hp.1 _ hi he))]
    cases hx with
    | parent _ => simp
    | step _ h2 =>
      have := ih _ hp.1 (by omega) h2
      simp [this]

theorem mem_allParents_sound {i x : Nat} (h : x ∈ allParents P i) : Spec.Anc P i x :=
  up_sound P.n i (mem_of_mem_set (mem_sortObjs.mp h))

theorem mem_allParents (ht : Tree P) (hd : Distinct P) {i x : Nat} (hi : i ∈ P.list) :
    x ∈ allParents P i ↔ Spec.Anc P i x := by
  refine ⟨mem_allParents_sound, fun h => ?_⟩
  rw [allParents, mem_sortObjs, mem_set hd]
  · exact up_complete ht hd P.n i hi (ht.lt i hi) h
  · intro y hy
    exact (anc_lt ht hi (up_sound _ _ hy)).1

theorem allParents_ordered (ht : Tree P) {i : Nat} (hi : i ∈ P.list) :
    Spec.Ordered P (allParents P i) :=
  sortSet_ordered ht (fun _ hy => (anc_lt ht hi (up_sound _ _ hy)).1)

theorem desc_tail {i c d : Nat} (h : Spec.Desc P i c) (hd : d ∈ (P.h c).children) : Spec.Desc P i d := by
  induction h with
  | child hc => exact .step hc (.child hd)
  | step hc _ ih => exact .step hc (ih hd)

theorem anc_tail {i a : Nat} (h : Spec.Anc P i a) (hne : (P.h a).parent ≠ a) :
    Spec.Anc P i (P.h a).parent := by
  induction h with
  | parent h0 => exact .step h0 (.parent hne)
  | step h0 _ ih => exact .step h0 (ih hne)

/-- When every parent lists its children, an ancestor has the line as descendant. -/
theorem desc_of_anc (ht : Tree P)
    (hag : ∀ i ∈ P.list, (P.h i).parent ≠ i → i ∈ (P.h (P.h i).parent).children)
    {i a : Nat} (hi : i ∈ P.list) (h : Spec.Anc P i a) : Spec.Desc P a i := by
  induction h with
  | parent h0 => exact .child (hag _ hi h0)
  | step h0 _ ih => exact desc_tail (ih (ht.up _ hi).1) (hag _ hi h0)

/-- When every child's parent is the line that lists it, a descendant has the line as
ancestor. -/
theorem anc_of_desc (ht : Tree P)
    (hag : ∀ i ∈ P.list, ∀ c ∈ (P.h i).children, (P.h c).parent = i)
    {i d : Nat} (hi : i ∈ P.list) (h : Spec.Desc P i d) : Spec.Anc P d i := by
  induction h with
  | child hc =>
    have h1 := hag _ hi _ hc
    have h2 := (ht.kids _ hi _ hc).2
    have h3 := Spec.Anc.parent (P := P) (d := _) (by rw [h1]; omega)
    rw [h1] at h3; exact h3
  | step hc _ ih =>
    have h1 := hag _ hi _ hc
    have h2 := ht.kids _ hi _ hc
    have h3 := anc_tail (ih h2.1) (by rw [h1]; omega)
    rw [h1] at h3; exact h3

/-! ## Matching -/

theorem search_iff (rx : Rx) (t : Str) : rx.search t = true ↔ Spec.Match rx t := by
  rw [Rx.search, Option.isSome_iff_exists, Spec.Match]

theorem reMatch_iff (rx : Rx) (t : Str) : reMatch rx t = true ↔ ∃ g, rx.find t = some g ∧ g ≠ [] := by
  rw [reMatch]
  cases rx.find t with
  | none => simp
  | some g => cases g <;> simp

theorem reSearch_iff (rx : Rx) (t : Str) :
    reSearch rx t = true ↔ t ≠ [] ∧ (rx.lit <:+: t ∨ Spec.Match rx t) := by
  have hl := isInfix_iff rx.lit t
  have hs := search_iff rx t
  rw [reSearch, ← hl, ← hs]
  cases t <;> cases isInfix rx.lit _ <;> cases rx.search _ <;> simp

theorem mem_findObjects {rx : Rx} {i : Nat} :
    i ∈ findObjects P rx ↔ i ∈ P.list ∧ Spec.Match rx (P.h i).text := by
  rw [findObjects, List.mem_filter, search_iff]

theorem filter_ordered {l : List Nat} (h : Spec.Ordered P l) (f : Nat → Bool) :
    Spec.Ordered P (l.filter f) := List.Pairwise.sublist List.filter_sublist h

theorem findObjects_ordered (ht : Tree P) (rx : Rx) : Spec.Ordered P (findObjects P rx) :=
  filter_ordered (list_ordered ht) _

theorem mem_reSearchChildren {i c : Nat} {rx : Rx} {r : Bool} :
    c ∈ reSearchChildren P i rx r ↔
      c ∈ (if r then allChildren P i else (P.h i).children) ∧ reSearch rx (P.h c).text = true := by
  rw [reSearchChildren, List.mem_filter]

theorem nonempty_iff {l : List Nat} : (!l.isEmpty) = true ↔ ∃ x, x ∈ l := by
  cases l with
  | nil => simp
  | cons a as => simp only [List.isEmpty_cons, Bool.not_false, true_iff]; exact ⟨a, by simp⟩

end

end Query

import Verif.Edit.ListModel
import Verif.Edit.More

/-! # C127-C129: comparing, cutting and copying configurations -/

namespace Edit

open Py Conf Query

/-! ## Lists whose line numbers are positions -/

/-- The line numbers go up one by one from `k`. -/
def From (k : Nat) (l : List Obj) : Prop := ∀ (j : Nat) (b : Obj), l[j]? = some b → b.linenum = ((k + j : Nat) : Int)

theorem from_cons {k : Nat} {b : Obj} {l : List Obj} (h : From k (b :: l)) : b.linenum = (k : Int) ∧ From (k + 1) l := by
  refine ⟨h 0 b rfl, fun j c hc => ?_⟩
  have := h (j + 1) c hc
  omega

theorem from_numbered {P : Parsed} (h : Spec.Numbered P) : From 0 (P.list.map P.h) := by
  intro j b hb
  rw [List.getElem?_map] at hb
  obtain ⟨i, hi, rfl⟩ := Option.map_eq_some_iff.mp hb
  have := h j i hi
  omega

theorem vals_listOf (P : Parsed) : (listOf P).vals = (P.list.map P.h).map Val.obj := by
  show (P.list.map Elem.obj).map _ = _
  rw [List.map_map, List.map_map]; rfl

theorem texts_objs (P : Parsed) : P.texts = (P.list.map P.h).map (·.text) := by
  rw [Parsed.texts, List.map_map]; rfl

theorem objEq_same {a b : Obj} (h : a.linenum = b.linenum) : objEq a b = true ↔ a.text = b.text := by
  rw [objEq, beq_iff_eq, h]
  exact List.append_right_inj _

/-! ## C127 -/

theorem all_eq {k : Nat} {A B : List Obj} (hA : From k A) (hB : From k B) :
    ((A.map Val.obj).length == (B.map Val.obj).length &&
      ((A.map Val.obj).zip (B.map Val.obj)).all (fun p => eqVal p.1 p.2)) = true ↔
      A.map (·.text) = B.map (·.text) := by
  induction A generalizing k B with
  | nil =>
    cases B with
    | nil => simp
    | cons b B => simp
  | cons a A ih =>
    cases B with
    | nil => simp
    | cons b B =>
      obtain ⟨ha, hA⟩ := from_cons hA
      obtain ⟨hb, hB⟩ := from_cons hB
      have ih := ih hA hB
      have he := objEq_same (a := a) (b := b) (ha.trans hb.symm)
      simp only [List.map_cons, List.length_cons, List.zip_cons_cons, List.all_cons, eqVal,
        Bool.and_eq_true, beq_iff_eq, Nat.add_right_cancel_iff, List.cons.injEq] at ih ⊢
      rw [he, ← ih]
      exact ⟨fun ⟨h1, h2, h3⟩ => ⟨h2, h1, h3⟩, fun ⟨h1, h2, h3⟩ => ⟨h2, h1, h3⟩⟩

/-- C127: two configurations whose line numbers are positions compare equal if and only if
they have the same lines. -/
theorem C127_eq {P Q : Parsed} (hP : Spec.Numbered P) (hQ : Spec.Numbered Q) :
    (listOf P).eq (listOf Q) = true ↔ P.texts = Q.texts := by
  rw [CList.eq, vals_listOf, vals_listOf, texts_objs, texts_objs]
  exact all_eq (from_numbered hP) (from_numbered hQ)

/-- C127: in particular after parsing, and after any history of careful edits. -/
theorem C127_history {o o' : Opts} {C C' : Compile} {P Q : Parsed} (hP : Spec.History o C P)
    (hQ : Spec.History o' C' Q) : (listOf P).eq (listOf Q) = true ↔ P.texts = Q.texts :=
  C127_eq (history hP).2 (history hQ).2

/-- Two different spellings of the input, and a different input. -/
example : ∃ P Q R, parse {} [s "a ", s "", s " b"] = .ok P ∧ parse {} [s "a", s " b  "] = .ok Q ∧
    parse {} [s "a", s "  b"] = .ok R ∧ (listOf P).eq (listOf Q) = true ∧ (listOf P).eq (listOf R) = false :=
  ⟨_, _, _, rfl, rfl, rfl, by decide, by decide⟩

/-! ## C128 -/

theorem cmp_cases {f : Val → Val → Except Err Bool} {g : Nat → Nat → Bool}
    (hg : ∀ m n, g (m + 1) (n + 1) = g m n) {k : Nat} {A B : List Obj} (hA : From k A) (hB : From k B) :
    ((A.map (·.text) <+: B.map (·.text) ∨ B.map (·.text) <+: A.map (·.text)) ∧
      cmpLists f g (A.map .obj) (B.map .obj) = .ok (g A.length B.length)) ∨
    (¬ A.map (·.text) <+: B.map (·.text) ∧ ¬ B.map (·.text) <+: A.map (·.text) ∧
      ∃ a b, a.linenum = b.linenum ∧ cmpLists f g (A.map .obj) (B.map .obj) = f (.obj a) (.obj b)) := by
  induction A generalizing k B with
  | nil =>
    left
    refine ⟨Or.inl List.nil_prefix, ?_⟩
    rw [List.map_nil, cmpLists, List.length_map]; rfl
  | cons a A ih =>
    cases B with
    | nil =>
      left
      refine ⟨Or.inr List.nil_prefix, ?_⟩
      rw [List.map_cons, List.map_nil, cmpLists, List.length_cons, List.length_map]; rfl
      simp
    | cons b B =>
      obtain ⟨ha, hA⟩ := from_cons hA
      obtain ⟨hb, hB⟩ := from_cons hB
      have hab := ha.trans hb.symm
      have he := objEq_same (a := a) (b := b) hab
      rw [List.map_cons, List.map_cons, List.map_cons, List.map_cons, cmpLists]
      simp only [List.cons_prefix_cons, List.length_cons, hg]
      show ((a.text = b.text ∧ _ ∨ b.text = a.text ∧ _) ∧ (if objEq a b = true then _ else _) = _) ∨
        (_ ∧ _ ∧ ∃ a' b', _ ∧ (if objEq a b = true then _ else _) = _)
      by_cases ht : a.text = b.text
      · rw [if_pos (he.mpr ht)]
        have := ih hA hB
        simpa only [ht, true_and] using this
      · rw [if_neg (fun h => ht (he.mp h))]
        right
        exact ⟨fun h => ht h.1, fun h => ht h.1.symm, a, b, hab, rfl⟩

theorem prefix_lt {α β : Type} {f : α → β} {A B : List α} (h : A.map f <+: B.map f ∨ B.map f <+: A.map f) :
    A.length < B.length ↔ A.map f <+: B.map f ∧ A.map f ≠ B.map f := by
  have e1 : A.length = (A.map f).length := (List.length_map ..).symm
  have e2 : B.length = (B.map f).length := (List.length_map ..).symm
  constructor
  · intro hlt
    rcases h with h | h
    · exact ⟨h, fun e => by rw [e1, e2, e] at hlt; omega⟩
    · have := h.length_le; omega
  · rintro ⟨h1, h2⟩
    have := h1.length_le
    rcases Nat.lt_or_ge A.length B.length with h | h
    · exact h
    · exact absurd (h1.eq_of_length (by omega)) h2

/-- C128: `<` between configurations whose line numbers are positions raises nothing, and
means: the lines of the left one are the first lines of the right one, which has more. -/
theorem C128_lt_partial {P Q : Parsed} (hP : Spec.Numbered P) (hQ : Spec.Numbered Q) :
    ∃ b, (listOf P).lt (listOf Q) = .ok b ∧ (b = true ↔ P.texts <+: Q.texts ∧ P.texts ≠ Q.texts) := by
  rw [CList.lt, vals_listOf, vals_listOf, texts_objs, texts_objs]
  rcases cmp_cases (f := ltVal) (g := fun m n => decide (m < n)) (fun m n => by simp)
    (from_numbered hP) (from_numbered hQ) with ⟨h, e⟩ | ⟨h1, h2, a, b, hab, e⟩
  · refine ⟨_, e, ?_⟩
    rw [decide_eq_true_iff, prefix_lt h]
  · refine ⟨_, e.trans rfl, ?_⟩
    rw [decide_eq_true_iff, hab]
    exact ⟨fun h => absurd h (Int.lt_irrefl _), fun h => absurd h.1 h1⟩

/-- C128: `>` is `<` the other way round. -/
theorem C128_gt_partial {P Q : Parsed} (hP : Spec.Numbered P) (hQ : Spec.Numbered Q) :
    ∃ b, (listOf P).gt (listOf Q) = .ok b ∧ (b = true ↔ Q.texts <+: P.texts ∧ Q.texts ≠ P.texts) := by
  rw [CList.gt, vals_listOf, vals_listOf, texts_objs, texts_objs]
  rcases cmp_cases (f := gtVal) (g := fun m n => decide (m > n)) (fun m n => by simp)
    (from_numbered hP) (from_numbered hQ) with ⟨h, e⟩ | ⟨h1, h2, a, b, hab, e⟩
  · refine ⟨_, e, ?_⟩
    rw [decide_eq_true_iff, gt_iff_lt, prefix_lt h.symm]
  · refine ⟨_, e.trans rfl, ?_⟩
    rw [decide_eq_true_iff, hab]
    exact ⟨fun h => absurd h (Int.lt_irrefl _), fun h => absurd h.1 h2⟩

/-- C128: `>=` is right when one configuration begins with the other. -/
theorem C128_ge_partial {P Q : Parsed} (hP : Spec.Numbered P) (hQ : Spec.Numbered Q)
    (hc : P.texts <+: Q.texts ∨ Q.texts <+: P.texts) :
    ∃ b, (listOf P).ge (listOf Q) = .ok b ∧ (b = true ↔ Q.texts <+: P.texts) := by
  rw [texts_objs, texts_objs] at hc
  rw [CList.ge, vals_listOf, vals_listOf, texts_objs, texts_objs]
  rcases cmp_cases (f := geVal) (g := fun m n => decide (m ≥ n)) (fun m n => by simp)
    (from_numbered hP) (from_numbered hQ) with ⟨h, e⟩ | ⟨h1, h2, _⟩
  · refine ⟨_, e, ?_⟩
    rw [decide_eq_true_iff, ge_iff_le]
    constructor
    · intro hle
      rcases h with h | h
      · rw [h.eq_of_length (by have := h.length_le; simp only [List.length_map] at this hle ⊢; omega)]
        exact List.prefix_rfl
      · exact h
    · intro h
      have := h.length_le
      simp only [List.length_map] at this ⊢
      exact this
  · rcases hc with h | h
    · exact absurd h h1
    · exact absurd h h2

/-- C128 does not hold as stated: `>=` raises `TypeError` whenever the configurations have
different lines at the same place, that is whenever neither begins with the other. -/
theorem C128_ge_fails {P Q : Parsed} (hP : Spec.Numbered P) (hQ : Spec.Numbered Q)
    (h1 : ¬ P.texts <+: Q.texts) (h2 : ¬ Q.texts <+: P.texts) :
    (listOf P).ge (listOf Q) = .error .typeError := by
  rw [texts_objs, texts_objs] at h1 h2
  rw [CList.ge, vals_listOf, vals_listOf]
  rcases cmp_cases (f := geVal) (g := fun m n => decide (m ≥ n)) (fun m n => by simp)
    (from_numbered hP) (from_numbered hQ) with ⟨h, _⟩ | ⟨_, _, a, b, _, e⟩
  · rcases h with h | h
    · exact absurd h h1
    · exact absurd h h2
  · exact e

/-- C128 does not hold as stated: `<=` is not true of equal configurations, whatever they
are: `objs <= objs` is `False`. -/
theorem C128_le_fails {P Q : Parsed} (hP : Spec.Numbered P) (hQ : Spec.Numbered Q) (h : P.texts = Q.texts) :
    (listOf P).eq (listOf Q) = true ∧ (listOf P).le (listOf Q) = .ok false := by
  refine ⟨(C127_eq hP hQ).mpr h, ?_⟩
  obtain ⟨b, e, hb⟩ := C128_lt_partial hP hQ
  have : b = false := by
    cases b with
    | false => rfl
    | true => exact absurd h (hb.mp rfl).2
  rw [this] at e
  exact e

example : ∃ P Q R, parse {} [s "a"] = .ok P ∧ parse {} [s "a", s " b"] = .ok Q ∧ parse {} [s "b", s "c"] = .ok R ∧
    (listOf P).lt (listOf Q) = .ok true ∧ (listOf Q).gt (listOf P) = .ok true ∧
    (listOf Q).ge (listOf P) = .ok true ∧ (listOf Q).lt (listOf R) = .ok false ∧
    (listOf R).lt (listOf Q) = .ok false ∧ (listOf Q).le (listOf Q) = .ok false ∧
    (listOf R).ge (listOf Q) = .error .typeError :=
  ⟨_, _, _, rfl, rfl, rfl, by decide, by decide, by decide, by decide, by decide, by decide, by decide⟩

/-! ## C129 -/

theorem strings_obj {l : List Elem} {i : Nat} (h : Elem.obj i ∈ l) : strings l = none := by
  induction l with
  | nil => cases h
  | cons e l ih =>
    cases e with
    | obj j => rfl
    | str t =>
      rw [strings, ih (by simpa using h)]; rfl

theorem newList_obj {l : List Elem} {i : Nat} (h : Elem.obj i ∈ l) : newList l = .error .valueError := by
  rw [newList, strings_obj h]

theorem newList_nil : newList [] = .ok { h := (indentPass {} []).h, n := 0, items := [] } := rfl

/-- C129 does not hold as stated: no slice of the list of a configuration, whatever the
bounds and the step, is a list with a line in it: it raises `ValueError` or is empty. -/
theorem C129_slice_fails (P : Parsed) (start stop step : Option Int) :
    (listOf P).slice start stop step = .error .valueError ∨
    ∃ c, (listOf P).slice start stop step = .ok c ∧ c.items = [] := by
  rw [CList.slice]
  have hs : slicePos (listOf P).items.length start stop step = .error .valueError ∨
      ∃ ps, slicePos (listOf P).items.length start stop step = .ok ps := by
    rw [slicePos]; split
    · exact Or.inl rfl
    · exact Or.inr ⟨_, rfl⟩
    · exact Or.inr ⟨_, rfl⟩
  rcases hs with hs | ⟨ps, hs⟩
  · rw [hs]; exact Or.inl rfl
  · rw [hs]
    show newList _ = _ ∨ ∃ c, newList _ = _ ∧ _
    cases hl : List.filterMap (fun k => (listOf P).items[k]?) ps with
    | nil => exact Or.inr ⟨_, newList_nil, rfl⟩
    | cons e l =>
      left
      have hm : e ∈ List.filterMap (fun k => (listOf P).items[k]?) ps := by rw [hl]; simp
      obtain ⟨k, _, hk⟩ := List.mem_filterMap.mp hm
      have := List.mem_of_getElem? hk
      obtain ⟨i, _, rfl⟩ := List.mem_map.mp this
      exact newList_obj (i := i) (by simp)

/-- C129 does not hold as stated: a slice that selects a line raises, for example
`objs[a:b]` with `a` below `b` and below the number of lines. -/
theorem C129_range_fails {P : Parsed} {a b : Nat} (ha : a < b) (hl : a < P.list.length) :
    (listOf P).slice (some a) (some b) none = .error .valueError := by
  have hlen : (listOf P).items.length = P.list.length := List.length_map ..
  have hn : ∃ n, P.list.length = n + 1 := ⟨P.list.length - 1, by omega⟩
  obtain ⟨n, hn⟩ := hn
  rw [CList.slice, hlen, slicePos]
  show newList (List.filterMap _ (upTo (clampUp P.list.length b) 0 P.list.length (clampUp P.list.length a))) = _
  have h1 : clampUp P.list.length a = a := by
    rw [clampUp, if_neg (by omega)]; simp; omega
  have h2 : a < clampUp P.list.length b := by
    rw [clampUp, if_neg (by omega)]; simp; omega
  have hu : upTo (clampUp P.list.length b) 0 P.list.length a =
      a :: upTo (clampUp P.list.length b) 0 n (a + 0 + 1) := by
    rw [hn, upTo, if_pos (by rw [← hn]; exact h2)]
  rw [h1, hu]
  refine newList_obj (i := P.list[a]) ?_
  rw [List.mem_filterMap]
  refine ⟨a, by simp, ?_⟩
  show (P.list.map Elem.obj)[a]? = _
  rw [List.getElem?_map, List.getElem?_eq_getElem hl]; rfl

/-- C129 does not hold as stated: of a configuration with at least one line, sums with any
list or configuration, multiples and `copy()` raise `ValueError`. -/
theorem C129_sum_fails {P : Parsed} (h : P.list ≠ []) (l : List Elem) {k : Int} (hk : 0 < k) :
    (listOf P).add l = .error .valueError ∧ (listOf P).radd l = .error .valueError ∧
    (listOf P).mul k = .error .valueError ∧ (listOf P).copy = .error .valueError := by
  obtain ⟨i, hi⟩ := List.exists_mem_of_ne_nil _ h
  have hm : Elem.obj i ∈ (listOf P).items := List.mem_map_of_mem hi
  refine ⟨newList_obj (i := i) (by simp [hm]), newList_obj (i := i) (by simp [hm]), newList_obj (i := i) ?_,
    newList_obj hm⟩
  rw [timesL, List.mem_flatten]
  exact ⟨_, List.mem_replicate.mpr ⟨by omega, rfl⟩, hm⟩

/-- C129: single elements are right: `objs[k]` is line `k`, counted from the end when `k`
is negative, and raises `IndexError` exactly when there is no such line. -/
theorem C129_item_partial (P : Parsed) (k : Int) :
    (∀ j : Nat, j < P.list.length → (k = j ∨ k + P.list.length = j) →
      ∃ i, P.list[j]? = some i ∧ (listOf P).get k = .ok (.obj i)) ∧
    ((k < -P.list.length ∨ (P.list.length : Int) ≤ k) ↔ (listOf P).get k = .error .indexError) := by
  have hlen : (listOf P).items.length = P.list.length := List.length_map ..
  have hit : ∀ j : Nat, j < P.list.length → (k = j ∨ k + P.list.length = j) →
      ∃ i, P.list[j]? = some i ∧ (listOf P).get k = .ok (.obj i) := by
    intro j hj hk
    refine ⟨P.list[j], List.getElem?_eq_getElem hj, ?_⟩
    have hp : pyIndex (listOf P).items.length k = some j := by
      rw [hlen, pyIndex]
      rcases hk with hk | hk
      · rw [if_pos ⟨by omega, by omega⟩]; congr 1; omega
      · rw [if_neg (by omega), if_pos ⟨by omega, by omega⟩]; congr 1; omega
    rw [CList.get, hp, Option.bind_some]
    have : (listOf P).items[j]? = some (.obj P.list[j]) := by
      show (P.list.map Elem.obj)[j]? = _
      rw [List.getElem?_map, List.getElem?_eq_getElem hj]; rfl
    rw [this]
  refine ⟨hit, ?_, ?_⟩
  · intro hk
    have hp : pyIndex (listOf P).items.length k = none := by
      rw [hlen, pyIndex, if_neg (by omega), if_neg (by omega)]
    rw [CList.get, hp]; rfl
  · intro he
    rcases Decidable.em (k < -P.list.length ∨ (P.list.length : Int) ≤ k) with h | h
    · exact h
    · exfalso
      have : ∃ j : Nat, j < P.list.length ∧ (k = j ∨ k + P.list.length = j) := by
        by_cases h0 : 0 ≤ k
        · exact ⟨k.toNat, by omega, Or.inl (by omega)⟩
        · exact ⟨(k + P.list.length).toNat, by omega, Or.inr (by omega)⟩
      obtain ⟨j, hj, hk⟩ := this
      obtain ⟨i, _, e⟩ := hit j hj hk
      rw [e] at he; cases he

/-- C129: `copy.copy(objs)` is a list of the same objects, equal to the original. -/
theorem C129_copy_partial (P : Parsed) :
    (listOf P).copyModule.items = P.list.map .obj ∧ (listOf P).copyModule.h = P.h ∧
    (listOf P).eq (listOf P).copyModule = true := by
  have hi : (listOf P).copyModule.items = (listOf P).items := by
    show (listOf P).items.map id = _
    rw [List.map_id]
  refine ⟨hi, rfl, ?_⟩
  rw [CList.eq]
  have hv : (listOf P).copyModule.vals = (listOf P).vals := by
    rw [CList.vals, hi]; rfl
  rw [hv, vals_listOf, Bool.and_eq_true, beq_iff_eq, List.all_eq_true]
  refine ⟨rfl, ?_⟩
  generalize P.list.map P.h = l
  intro p hp
  induction l with
  | nil => cases hp
  | cons b l ih =>
    rw [List.map_cons, List.zip_cons_cons, List.mem_cons] at hp
    rcases hp with rfl | hp
    · exact (C43_equivalence b b b).1
    · exact ih hp

example : ∃ P, parse {} [s "a", s " b", s "c"] = .ok P ∧
    (listOf P).slice (some 0) (some 2) none = .error .valueError ∧
    (listOf P).slice none none (some (-1)) = .error .valueError ∧
    (∃ c, (listOf P).slice (some 2) (some 1) none = .ok c ∧ c.items = []) ∧
    (listOf P).copy = .error .valueError ∧ (listOf P).get (-1) = .ok (.obj 2) ∧
    (listOf P).get 3 = .error .indexError := by
  refine ⟨_, rfl, rfl, rfl, ⟨_, rfl, rfl⟩, rfl, by rfl, by rfl⟩

end Edit

import Verif.PyLemmas

/-! # C274: `attribute_sort` of numbers and of texts -/

namespace Range

open Py

namespace Spec

/-- A member of a list: a number, or a text. -/
inductive Member where
  | num (n : Int)
  | text (t : Str)
  deriving DecidableEq

/-- The number that a member is or that its text is. -/
def Member.value : Member → Option Int
  | .num n => some n
  | .text t => (pyInt t).toOption

/-- The members are in the order of their values, or against it. -/
def Ordered (reverse : Bool) (l : List Member) : Prop :=
  l.Pairwise (fun a b => ∀ x y, a.value = some x → b.value = some y → if reverse then y ≤ x else x ≤ y)

end Spec

open Spec

/-- `int(x)` for a member. -/
def intOf : Member → Except Err Int
  | .num n => .ok n
  | .text t => pyInt t

/-- `sorted(l, key=int, reverse=reverse)`: first the keys, then a stable sort; with `reverse`, members
with equal keys keep their order, too. -/
def sortedInt (reverse : Bool) (l : List Member) : Except Err (List Member) := do
  let ks ← l.mapM intOf
  .ok (((l.zip ks).mergeSort (fun a b => if reverse then decide (b.2 ≤ a.2) else decide (a.2 ≤ b.2))).map (·.1))

def isNum : Member → Bool
  | .num _ => true
  | .text _ => false

/-- ccp_util.py:5232-5262 `attribute_sort(target_list, reverse=reverse)` of a range with the members
`self`: the list that is returned and the members of the range afterwards.  (For lists of int and
str; a list of numbers with a text in it cannot be compared.) -/
def attributeSort (self : List Member) (target : Option (List Member)) (reverse : Bool) : Except Err (List Member × List Member) :=
  match target with
  | none => .ok (self, self)
  | some [] => .error .valueError
  | some (.num n :: l) =>
    if l.all isNum then do
      let r ← sortedInt reverse (.num n :: l)
      .ok (r, self)
    else .error .typeError
  | some (.text t :: l) => do
    let r ← sortedInt reverse (.text t :: l)
    .ok (r, self)

theorem intOf_value {m : Member} {k : Int} : intOf m = .ok k ↔ m.value = some k := by
  cases m with
  | num n => simp [intOf, Member.value]
  | text t =>
    rw [intOf, Member.value]
    cases pyInt t <;> simp [Except.toOption]

theorem mapM_intOf : ∀ {l : List Member}, (∀ m ∈ l, m.value ≠ none) → ∃ ks, l.mapM intOf = .ok ks ∧ ks.length = l.length ∧
    ∀ p ∈ l.zip ks, p.1.value = some p.2
  | [], _ => ⟨[], rfl, rfl, by simp⟩
  | m :: l, h => by
    obtain ⟨ks, h1, h2, h3⟩ := mapM_intOf (l := l) (fun x hx => h x (by simp [hx]))
    obtain ⟨k, hk⟩ := Option.ne_none_iff_exists'.mp (h m (by simp))
    refine ⟨k :: ks, ?_, by simp [h2], ?_⟩
    · rw [List.mapM_cons, intOf_value.mpr hk, h1]; rfl
    · intro p hp
      rw [List.zip_cons_cons, List.mem_cons] at hp
      rcases hp with rfl | hp
      · exact hk
      · exact h3 p hp

theorem mapM_intOf_error : ∀ {l : List Member} {m : Member}, m ∈ l → m.value = none → ∃ e, l.mapM intOf = .error e
  | x :: l, m, hm, hv => by
    rw [List.mapM_cons]
    cases hx : intOf x with
    | error e => exact ⟨e, rfl⟩
    | ok k =>
      rcases List.mem_cons.mp hm with rfl | hm
      · rw [intOf_value, hv] at hx; cases hx
      · obtain ⟨e, he⟩ := mapM_intOf_error hm hv
        rw [he]; exact ⟨e, rfl⟩

theorem sortedInt_ok {reverse : Bool} {l : List Member} (h : ∀ m ∈ l, m.value ≠ none) :
    ∃ r, sortedInt reverse l = .ok r ∧ r.Perm l ∧ Ordered reverse r ∧
      ∀ k, r.filter (fun m => m.value = some k) = l.filter (fun m => m.value = some k) := by
  obtain ⟨ks, h1, h2, h3⟩ := mapM_intOf h
  have hz : (l.zip ks).map (·.1) = l := List.map_fst_zip (by omega)
  let le : Member × Int → Member × Int → Bool := fun a b => if reverse then decide (b.2 ≤ a.2) else decide (a.2 ≤ b.2)
  have htr : ∀ a b c, le a b = true → le b c = true → le a c = true := by
    intro a b c
    simp only [le]
    cases reverse <;> simp <;> omega
  have htot : ∀ a b, (le a b || le b a) = true := by
    intro a b
    simp only [le]
    cases reverse <;> simp <;> omega
  have hp := List.mergeSort_perm (l.zip ks) le
  have hval : ∀ p ∈ (l.zip ks).mergeSort le, p.1.value = some p.2 := fun p hp' => h3 p (hp.mem_iff.mp hp')
  refine ⟨((l.zip ks).mergeSort le).map (·.1), by rw [sortedInt, h1]; rfl, ?_, ?_, ?_⟩
  · have := hp.map (·.1)
    rwa [hz] at this
  · rw [Ordered, List.pairwise_map]
    refine (List.pairwise_mergeSort htr htot (l.zip ks)).imp_of_mem ?_
    intro a b ha hb hab x y hx hy
    rw [hval a ha] at hx
    rw [hval b hb] at hy
    cases hx; cases hy
    simp only [le] at hab
    cases reverse <;> simpa using hab
  · intro k
    have e1 : (((l.zip ks).mergeSort le).map (·.1)).filter (fun m => m.value = some k) =
        (((l.zip ks).mergeSort le).filter (fun p => p.2 = k)).map (·.1) := by
      rw [List.filter_map]
      congr 1
      refine List.filter_congr ?_
      intro p hp'
      simp [hval p hp']
    have e2 : l.filter (fun m => m.value = some k) = ((l.zip ks).filter (fun p => p.2 = k)).map (·.1) := by
      conv => lhs; rw [← hz]
      rw [List.filter_map]
      congr 1
      refine List.filter_congr ?_
      intro p hp'
      simp [h3 p hp']
    rw [e1, e2]
    congr 1
    have hs : ((l.zip ks).filter (fun p => p.2 = k)).Sublist ((l.zip ks).mergeSort le) := by
      refine List.sublist_mergeSort htr htot ?_ List.filter_sublist
      refine List.pairwise_iff_forall_sublist.mpr ?_
      intro a b hab
      have ha := hab.subset (List.mem_cons_self)
      have hb := hab.subset (List.mem_cons_of_mem a List.mem_cons_self)
      simp only [List.mem_filter, decide_eq_true_eq] at ha hb
      simp only [le, ha.2, hb.2]
      cases reverse <;> simp
    have hs' := hs.filter (fun p => decide (p.2 = k))
    rw [List.filter_filter] at hs'
    simp only [Bool.and_self] at hs'
    exact (hs'.eq_of_length (hp.filter _).length_eq.symm).symm

/-- C274: a non-empty list of numbers, and a list that begins with a text and of which every member
is or writes a number, is returned with the same members, in the order of their numbers or, with
`reverse`, against it; members with the same number stay in the order in which they were given, and
the range is as it was. -/
theorem C274_list_partial {self l : List Member} {reverse : Bool} (h0 : l ≠ [])
    (hn : (∀ m ∈ l, isNum m = true) ∨ ((∃ t, l.head? = some (.text t)) ∧ ∀ m ∈ l, m.value ≠ none)) :
    ∃ r, attributeSort self (some l) reverse = .ok (r, self) ∧ r.Perm l ∧ Ordered reverse r ∧
      ∀ k, r.filter (fun m => m.value = some k) = l.filter (fun m => m.value = some k) := by
  have hv : ∀ m ∈ l, m.value ≠ none := by
    rcases hn with hn | hn
    · intro m hm
      have := hn m hm
      cases m with
      | num n => simp [Member.value]
      | text t => cases this
    · exact hn.2
  obtain ⟨r, h1, h2⟩ := sortedInt_ok (reverse := reverse) hv
  refine ⟨r, ?_, h2⟩
  match l, h0, hn, h1 with
  | .num n :: l, _, hn, h1 =>
    rcases hn with hn | ⟨⟨t, ht⟩, _⟩
    · rw [attributeSort, if_pos (List.all_eq_true.mpr fun m hm => hn m (by simp [hm])), h1]; rfl
    · cases ht
  | .text t :: l, _, _, h1 => rw [attributeSort, h1]; rfl

/-- C274: an empty list, a list that begins with a number and has a text in it, and a list in which a
text writes no number raise. -/
theorem C274_raises {self l : List Member} {reverse : Bool}
    (h : l = [] ∨ (∃ m ∈ l, m.value = none) ∨ ((∃ n, l.head? = some (.num n)) ∧ ∃ t, .text t ∈ l)) :
    ∃ e, attributeSort self (some l) reverse = .error e := by
  have hnum : ∀ {n : Int} {l : List Member} {t : Str}, .text t ∈ .num n :: l → attributeSort self (some (.num n :: l)) reverse = .error .typeError := by
    intro n l t ht
    rw [attributeSort, if_neg]
    intro ha
    rcases List.mem_cons.mp ht with e | e
    · cases e
    · cases List.all_eq_true.mp ha _ e
  match l with
  | [] => exact ⟨_, rfl⟩
  | .num n :: l =>
    rcases h with h | ⟨m, hm, hv⟩ | ⟨_, t, ht⟩
    · cases h
    · cases m with
      | num k => cases hv
      | text t => exact ⟨_, hnum hm⟩
    · exact ⟨_, hnum ht⟩
  | .text t :: l =>
    rcases h with h | ⟨m, hm, hv⟩ | ⟨⟨n, hn⟩, _⟩
    · cases h
    · obtain ⟨e, he⟩ := mapM_intOf_error hm hv
      exact ⟨e, by rw [attributeSort, sortedInt, he]; rfl⟩
    · cases hn

/-- C274 fails for the range itself: without a list nothing is sorted, whatever the members and the
direction. -/
theorem C274_self_fails :
    (∀ (self : List Member) reverse, attributeSort self none reverse = .ok (self, self)) ∧
      ¬ (∀ (self : List Member) reverse, ∃ r s, attributeSort self none reverse = .ok (r, s) ∧ Ordered reverse r) := by
  refine ⟨fun _ _ => rfl, fun h => ?_⟩
  obtain ⟨r, s, h1, h2⟩ := h [.num 2, .num 1] false
  cases h1
  have := (List.pairwise_cons.mp h2).1 (.num 1) (by simp) 2 1 rfl rfl
  simp at this

/- The texts 10, 07 and 7: sorted by their numbers, not as texts, and "07" stays before "7". -/
example : ∃ r, attributeSort [.num 3] (some [.text "10".toList, .text "07".toList, .text "7".toList]) false = .ok (r, [.num 3]) ∧
    r.Perm [.text "10".toList, .text "07".toList, .text "7".toList] ∧ Ordered false r ∧
    r.filter (fun m => m.value = some 7) = [.text "07".toList, .text "7".toList] := by
  obtain ⟨r, h1, h2, h3, h4⟩ := C274_list_partial (self := [.num 3]) (l := [.text "10".toList, .text "07".toList, .text "7".toList])
    (reverse := false) (by simp) (.inr ⟨⟨_, rfl⟩, by decide +kernel⟩)
  exact ⟨r, h1, h2, h3, (h4 7).trans (by decide +kernel)⟩

example : (∀ m ∈ [Member.num 3, .num 1, .num (-2)], isNum m = true) := by decide

example : attributeSort [] (some [.num 1, .text "1".toList]) true = .error .typeError ∧
    attributeSort [] (some [.text "1".toList, .text "x".toList]) true = .error .valueError := by decide +kernel

end Range

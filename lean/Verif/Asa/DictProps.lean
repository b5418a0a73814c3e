import Verif.Asa.Lemmas

/-! # C110: the dictionaries of an ASA configuration -/

namespace Asa

open Py Conf Query Re Cisco

variable {o : Opts} {lines : List Str} {P : Parsed}

theorem namesLoop_eq (P : Parsed) (f : Nat → Str × Str) (l : List Nat) (d : List (Str × Str))
    (h : ∀ i ∈ l, Spec.NameLine (P.h i).text (f i).2 (f i).1) : namesLoop P l d = .ok (putAll d (l.map f)) := by
  induction l generalizing d with
  | nil => rfl
  | cons i l ih =>
    obtain ⟨q, h1, h2, h3⟩ := (names_det (P.h i).text ([], [])).2 _ _ (h i (by simp))
    rw [namesLoop, typed_det is_names (by decide) (by decide) h1 h2, typed_det is_names (by decide) (by decide) h1 h3]
    exact ih _ (fun j hj => h j (by simp [hj]))

theorem groupsLoop_eq (P : Parsed) (f : Nat → Str) (l : List Nat) (d : List (Str × Nat))
    (h : ∀ i ∈ l, Spec.GroupLine (P.h i).text (f i)) : groupsLoop P l d = .ok (putAll d (l.map (fun i => (f i, i)))) := by
  induction l generalizing d with
  | nil => rfl
  | cons i l ih =>
    obtain ⟨q, h1, h2⟩ := (next_det (words_of' (by decide)) (P.h i).text).2 _ (h i (by simp))
    rw [groupsLoop, typed_det is_objNet (by decide) (by decide) h1 h2]
    exact ih _ (fun j hj => h j (by simp [hj]))

theorem aclLoop_ok (P : Parsed) (f : Nat → Str) (l : List Nat) (d : List (Str × List Nat)) (hd : (d.map Prod.fst).Nodup)
    (h : ∀ i ∈ l, Spec.AclLine (P.h i).text (f i)) :
    ∃ e, aclLoop P l d = .ok e ∧ (e.map Prod.fst).Nodup ∧
      ∀ k, e.lookup k = if (∃ i ∈ l, f i = k) then some ((d.lookup k).getD [] ++ l.filter (fun i => f i = k)) else d.lookup k := by
  induction l generalizing d with
  | nil => exact ⟨d, rfl, hd, fun k => by simp⟩
  | cons i l ih =>
    obtain ⟨q, h1, h2⟩ := (next_det (words_of' (by decide)) (P.h i).text).2 _ (h i (by simp))
    obtain ⟨e, e1, e2, e3⟩ := ih (put d (f i) ((d.lookup (f i)).getD [] ++ [i])) (keys_put hd _ _) (fun j hj => h j (by simp [hj]))
    refine ⟨e, ?_, e2, ?_⟩
    · rw [aclLoop, typed_det is_objAcl (by decide) (by decide) h1 h2]
      exact e1
    · intro k
      rw [e3, lookup_put]
      by_cases hk : f i = k
      · rw [if_pos hk.symm, if_pos (c := ∃ j ∈ i :: l, f j = k) ⟨i, by simp, hk⟩, List.filter_cons_of_pos (by simpa using hk)]
        split
        · simp [hk]
        · rename_i hno
          have : l.filter (fun j => f j = k) = [] := by
            rw [List.filter_eq_nil_iff]
            intro j hj hjk
            exact hno ⟨j, hj, by simpa using hjk⟩
          simp [hk, this]
      · rw [if_neg (c := k = f i) (fun e => hk e.symm), List.filter_cons_of_neg (by simpa using hk)]
        have : (∃ j ∈ i :: l, f j = k) ↔ ∃ j ∈ l, f j = k := by simp [hk]
        simp only [this]

/-- A choice of what each line says. -/
theorem choose_names (l : List Nat) (h : ∀ i ∈ l, ∃ k v, Spec.NameLine (P.h i).text v k) :
    ∃ f : Nat → Str × Str, ∀ i ∈ l, Spec.NameLine (P.h i).text (f i).2 (f i).1 := by
  classical
  refine ⟨fun i => if h : ∃ q : Str × Str, Spec.NameLine (P.h i).text q.2 q.1 then h.choose else ([], []), fun i hi => ?_⟩
  obtain ⟨k, v, hv⟩ := h i hi
  have he : ∃ q : Str × Str, Spec.NameLine (P.h i).text q.2 q.1 := ⟨(k, v), hv⟩
  simp only [dif_pos he]
  exact he.choose_spec

theorem choose_next {ws : List String} (l : List Nat) (h : ∀ i ∈ l, ∃ k, Cisco.Spec.Next ws (P.h i).text k) :
    ∃ f : Nat → Str, ∀ i ∈ l, Cisco.Spec.Next ws (P.h i).text (f i) := by
  classical
  refine ⟨fun i => if h : ∃ k, Cisco.Spec.Next ws (P.h i).text k then h.choose else [], fun i hi => ?_⟩
  have he := h i hi
  simp only [dif_pos he]
  exact he.choose_spec

theorem name_unique {t a n a' n' : Str} (h : Spec.NameLine t a n) (h' : Spec.NameLine t a' n') : n = n' ∧ a = a' := by
  obtain ⟨_, more, e⟩ := h
  obtain ⟨_, more', e'⟩ := h'
  have := List.append_cancel_left (e.symm.trans e')
  simp only [List.cons.injEq] at this
  exact ⟨this.2.1, this.1⟩

theorem next_unique {ws : List String} {t v v' : Str} (h : Cisco.Spec.Next ws t v) (h' : Cisco.Spec.Next ws t v') : v = v' := by
  obtain ⟨more, e⟩ := h
  obtain ⟨more', e'⟩ := h'
  exact (List.cons.inj (List.append_cancel_left (e.symm.trans e'))).1

/-! ## C110 -/

/-- C110: `names` maps a name to the address on the last `name` line with this name; it has no
other keys. -/
theorem C110_names (h : parse o lines = .ok P) :
    ∃ d, names .asa P = .ok d ∧ (d.map Prod.fst).Nodup ∧ ∀ n,
      (d.lookup n = none ↔ ∀ i ∈ P.list, ∀ a, ¬ Spec.NameLine (P.h i).text a n) ∧
      ∀ a, d.lookup n = some a ↔
        ∃ i, Spec.Last P (fun i => ∃ a, Spec.NameLine (P.h i).text a n) i ∧ Spec.NameLine (P.h i).text a n := by
  have ht := tree_of_parse h
  have hmem : ∀ i, i ∈ P.list.filter (fun i => (namesP.det (P.h i).text []).isSome) ↔
      i ∈ P.list ∧ ∃ k v, Spec.NameLine (P.h i).text v k := by
    intro i
    rw [List.mem_filter]
    refine and_congr_right fun _ => ?_
    rw [Option.isSome_iff_exists]
    constructor
    · rintro ⟨q, hq⟩
      obtain ⟨a, n, h1, _⟩ := (names_det _ _).1 hq
      exact ⟨n, a, h1⟩
    · rintro ⟨n, a, hv⟩
      obtain ⟨q, hq, _⟩ := (names_det _ ([], [])).2 _ _ hv
      exact ⟨q, hq⟩
  obtain ⟨f, hf⟩ := choose_names _ (fun i hi => ((hmem i).mp hi).2)
  have he : names .asa P = .ok (putAll [] ((P.list.filter (fun i => (namesP.det (P.h i).text []).isSome)).map f)) := by
    rw [names, if_neg (by decide), find_det is_names]
    exact namesLoop_eq P f _ [] hf
  refine ⟨_, he, keys_putAll _ (d := []) (by simp), fun n => ?_⟩
  · rw [lookup_putAll]
    simp only [List.lookup_nil, Option.or_none]
    exact lookup_last ht (filter_ordered (list_ordered ht) _) (S := fun i k v => Spec.NameLine (P.h i).text v k) hmem hf
      (fun i k v k' v' h h' => name_unique h h') n

/-- C110: `object_group_network` maps a name to the last line `object-group network` with this
name; it has no other keys. -/
theorem C110_groups (h : parse o lines = .ok P) :
    ∃ d, objectGroupNetwork .asa P = .ok d ∧ (d.map Prod.fst).Nodup ∧ ∀ g,
      (d.lookup g = none ↔ ∀ i ∈ P.list, ¬ Spec.GroupLine (P.h i).text g) ∧
      ∀ i, d.lookup g = some i ↔ Spec.Last P (fun i => Spec.GroupLine (P.h i).text g) i := by
  have ht := tree_of_parse h
  have hmem : ∀ i, i ∈ P.list.filter (fun i => ((nextP (Cisco.Spec.wd ["object-group", "network"])).det (P.h i).text []).isSome) ↔
      i ∈ P.list ∧ ∃ k v, Spec.GroupLine (P.h i).text k ∧ v = i := by
    intro i
    rw [List.mem_filter]
    refine and_congr_right fun _ => ?_
    rw [Option.isSome_iff_exists]
    constructor
    · rintro ⟨q, hq⟩
      obtain ⟨g, h1, _⟩ := (next_det (words_of' (by decide)) _).1 q hq
      exact ⟨g, i, h1, rfl⟩
    · rintro ⟨g, _, hv, _⟩
      obtain ⟨q, hq, _⟩ := (next_det (words_of' (by decide)) _).2 _ hv
      exact ⟨q, hq⟩
  obtain ⟨f, hf⟩ := choose_next (ws := ["object-group", "network"]) _
    (fun i hi => by obtain ⟨k, _, hk, _⟩ := ((hmem i).mp hi).2; exact ⟨k, hk⟩)
  have he : objectGroupNetwork .asa P = .ok (putAll [] ((P.list.filter
      (fun i => ((nextP (Cisco.Spec.wd ["object-group", "network"])).det (P.h i).text []).isSome)).map (fun i => (f i, i)))) := by
    rw [objectGroupNetwork, if_neg (by decide), find_det is_objNet]
    exact groupsLoop_eq P f _ [] hf
  refine ⟨_, he, keys_putAll _ (d := []) (by simp), fun g => ?_⟩
  · rw [lookup_putAll]
    simp only [List.lookup_nil, Option.or_none]
    have key := lookup_last ht (filter_ordered (list_ordered ht) _) (S := fun i k v => Spec.GroupLine (P.h i).text k ∧ v = i) hmem
      (f := fun i => (f i, i)) (fun i hi => ⟨hf i hi, rfl⟩)
      (fun i k v k' v' h h' => ⟨next_unique h.1 h'.1, h.2.trans h'.2.symm⟩) g
    refine ⟨key.1.trans ?_, fun i => (key.2 i).trans ?_⟩
    · exact ⟨fun h i hi hg => h i hi i ⟨hg, rfl⟩, fun h i hi v hv => h i hi hv.1⟩
    · constructor
      · rintro ⟨j, ⟨h1, h2, h3⟩, h4, rfl⟩
        exact ⟨h1, h4, fun k hk hkg => h3 k hk ⟨k, hkg, rfl⟩⟩
      · rintro ⟨h1, h2, h3⟩
        exact ⟨i, ⟨h1, ⟨i, h2, rfl⟩, fun k hk ⟨_, hkg, _⟩ => h3 k hk hkg⟩, h2, rfl⟩

/-- C110: `access_list` maps a name to all the lines of the access list, in the order of the
configuration; it has no other keys. -/
theorem C110_access_list (h : parse o lines = .ok P) :
    ∃ d, accessList .asa P = .ok d ∧ (d.map Prod.fst).Nodup ∧ ∀ g,
      (d.lookup g = none ↔ ∀ i ∈ P.list, ¬ Spec.AclLine (P.h i).text g) ∧
      ∀ l, d.lookup g = some l → Query.Spec.Ordered P l ∧ ∀ i, i ∈ l ↔ i ∈ P.list ∧ Spec.AclLine (P.h i).text g := by
  have ht := tree_of_parse h
  have hmem : ∀ i, i ∈ P.list.filter (fun i => ((nextP (Cisco.Spec.wd ["access-list"])).det (P.h i).text []).isSome) ↔
      i ∈ P.list ∧ ∃ k, Spec.AclLine (P.h i).text k := by
    intro i
    rw [List.mem_filter]
    refine and_congr_right fun _ => ?_
    rw [Option.isSome_iff_exists]
    constructor
    · rintro ⟨q, hq⟩
      obtain ⟨g, h1, _⟩ := (next_det (words_of' (by decide)) _).1 q hq
      exact ⟨g, h1⟩
    · rintro ⟨g, hv⟩
      obtain ⟨q, hq, _⟩ := (next_det (words_of' (by decide)) _).2 _ hv
      exact ⟨q, hq⟩
  have hord := filter_ordered (list_ordered ht) (fun i => ((nextP (Cisco.Spec.wd ["access-list"])).det (P.h i).text []).isSome)
  obtain ⟨f, hf⟩ := choose_next (ws := ["access-list"]) _ (fun i hi => ((hmem i).mp hi).2)
  obtain ⟨e, e1, e2, e3⟩ := aclLoop_ok P f _ [] (by simp) hf
  refine ⟨e, ?_, e2, fun g => ⟨?_, fun l hl => ?_⟩⟩
  · rw [accessList, if_neg (by decide), find_det is_objAcl]
    exact e1
  · rw [e3]
    split
    · rename_i hx
      obtain ⟨i, hi, rfl⟩ := hx
      constructor
      · intro h; cases h
      · intro h; exact absurd (hf i hi) (h i ((hmem i).mp hi).1)
    · rename_i hx
      refine ⟨fun _ i hi hg => hx ?_, fun _ => rfl⟩
      have hil := (hmem i).mpr ⟨hi, g, hg⟩
      exact ⟨i, hil, next_unique (hf i hil) hg⟩
  · rw [e3] at hl
    split at hl
    · simp only [List.lookup_nil, Option.getD_none, List.nil_append, Option.some.injEq] at hl
      subst hl
      refine ⟨filter_ordered hord _, fun i => ?_⟩
      rw [List.mem_filter, decide_eq_true_eq]
      constructor
      · rintro ⟨hi, rfl⟩
        exact ⟨((hmem i).mp hi).1, hf i hi⟩
      · rintro ⟨hi, hg⟩
        have hil := (hmem i).mpr ⟨hi, g, hg⟩
        exact ⟨hil, next_unique (hf i hil) hg⟩
    · cases hl

/-- C110: the attributes exist only with `syntax="asa"`. -/
theorem C110_refused (P : Parsed) {s : Conf.Syntax} (hs : s ≠ .asa) :
    names s P = .error .requirement ∧ objectGroupNetwork s P = .error .requirement ∧ accessList s P = .error .requirement := by
  refine ⟨?_, ?_, ?_⟩
  · rw [names, if_pos hs]
  · rw [objectGroupNetwork, if_pos hs]
  · rw [accessList, if_pos hs]

/-- A configuration with two lines for one name and for one group. -/
def exDict : List Str := ["name 10.0.0.1 web".toList, "name 10.0.0.2 dns".toList, "name 10.0.0.9 web".toList,
  "object-group network A".toList, " network-object host web".toList, "object-group network A".toList,
  "access-list in extended permit ip any any".toList, "access-list out extended deny ip any any".toList,
  "access-list in extended deny ip any any".toList]

example : ((parse { syn := .asa } exDict).toOption.bind (fun P => (names .asa P).toOption)) =
    some [("web".toList, "10.0.0.9".toList), ("dns".toList, "10.0.0.2".toList)] := by decide +kernel

example : ((parse { syn := .asa } exDict).toOption.bind (fun P => (objectGroupNetwork .asa P).toOption)) =
    some [("A".toList, 5)] := by decide +kernel

example : ((parse { syn := .asa } exDict).toOption.bind (fun P => (accessList .asa P).toOption)) =
    some [("in".toList, [6, 8]), ("out".toList, [7])] := by decide +kernel

end Asa

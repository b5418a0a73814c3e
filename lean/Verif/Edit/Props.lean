import Verif.Edit.Insert

/-! # C37 – C42: the edits

`Spec.Reach o C P`: the configuration `P` was parsed and then changed by any sequence of
successful edits; `C` says what `re` makes of a text used as a regular expression. -/

namespace Edit

open Py Conf Query

/-- A regular expression without special characters. -/
def lit (x : String) : Rx :=
  { lit := x.toList, find := fun t => if isInfix x.toList t then some x.toList else none }

/-- `re` on texts without special characters. -/
def plainC : Compile := fun t => some { lit := t, find := fun u => if isInfix t u then some t else none }

/-! ## C37 -/

/-- C37: when line numbers are positions, the whole family of a listed object is still
listed and no text in it starts with a digit, `delete()` removes exactly the family, and
the rest is renumbered. -/
theorem C37_delete_partial {o : Opts} {C : Compile} {P : Parsed} (hr : Spec.Reach o C P)
    (hn : Spec.Numbered P) {i : Nat} (hown : (P.h i).owned = true)
    (hfam : ∀ x, Spec.Fam P i x → x ∈ P.list) (hd : Spec.NoDigits P (Spec.Fam P i)) :
    ∃ P', delete P i true = .ok P' ∧ Spec.Removed P P' (Spec.Fam P i) := by
  obtain ⟨P', h1, h2, _⟩ := delete_ok (wf_reach hr) hn hown hfam (keys_of hn hfam hd)
  exact ⟨P', h1, h2⟩

theorem numbered_parse {o : Opts} {lines : List Str} {P : Parsed} (h : parse o lines = .ok P)
    (hb : Spec.NoBlank o (Conf.Spec.input o lines)) : Spec.Numbered P :=
  (history (C := fun _ => none) (.parse h hb)).2

theorem owned_parse {o : Opts} {lines : List Str} {P : Parsed} (h : parse o lines = .ok P) {i : Nat}
    (hi : i ∈ P.list) : (P.h i).owned = true := by
  rw [parse] at h
  exact (attrs h ((mem_list h).mp hi).1).2.2.2.2

theorem fam_parse {o : Opts} {lines : List Str} {P : Parsed} (h : parse o lines = .ok P) {i x : Nat}
    (hi : i ∈ P.list) (hx : Spec.Fam P i x) : x ∈ P.list := by
  rcases hx with hx | hx
  · rw [hx]; exact hi
  · exact (desc_lt (tree_of_parse h) hi hx).1

/-- C37 right after parsing: when no blank line was dropped, any object whose family has
no text with a leading digit can be deleted, and exactly its family goes. -/
theorem C37_parse_partial {o : Opts} {lines : List Str} {P : Parsed} (h : parse o lines = .ok P)
    (hb : Spec.NoBlank o (Conf.Spec.input o lines)) {i : Nat} (hi : i ∈ P.list)
    (hd : Spec.NoDigits P (Spec.Fam P i)) :
    ∃ P', delete P i true = .ok P' ∧ Spec.Removed P P' (Spec.Fam P i) :=
  C37_delete_partial (C := fun _ => none) (.parse h) (numbered_parse h hb) (owned_parse h hi)
    (fun _ hx => fam_parse h hi hx) hd

/-- C37 for `delete(recurse=False)`: only the object itself goes. -/
theorem C37_single {P : Parsed} (hn : Spec.Numbered P) {i : Nat} (hi : i ∈ P.list)
    (hown : (P.h i).owned = true) :
    ∃ P', delete P i false = .ok P' ∧ Spec.Removed P P' (· = i) := by
  obtain ⟨p, hp⟩ := List.mem_iff_getElem?.mp hi
  have hnum := hn p i hp
  have hlt : p < P.list.length := (List.getElem?_eq_some_iff.mp hp).1
  have hnd := numbered_nodup hn
  have hf := eraseIdx_eq_filter hnd hp
  have hg : P.list.getD p 0 = i := by rw [List.getD_eq_getElem?_getD, hp]; rfl
  refine ⟨reassign { P with list := P.list.eraseIdx p }, ?_, ?_, ?_, ?_, ?_⟩
  · rw [delete, hown, if_neg (by simp), if_neg (by simp), hnum, pyIndex_nat hlt]
    dsimp only
    rw [hg, if_pos rfl]
  · exact List.eraseIdx_sublist ..
  · intro x
    show x ∈ P.list.eraseIdx p ↔ _
    rw [hf, List.mem_filter]
    simp
  · exact fun x => renumber_same _ 0 P.h x
  · exact numbered_reassign (List.Nodup.sublist (List.eraseIdx_sublist ..) hnd)

/-- A deletion in a configuration with a nested family. -/
example : ∃ P P', parse {} [s "a", s "interface b", s " ip x", s "  y", s "c"] = .ok P ∧
    Spec.NoBlank {} (Conf.Spec.input {} [s "a", s "interface b", s " ip x", s "  y", s "c"]) ∧
    delete P 1 true = .ok P' ∧ P'.texts = [s "a", s "c"] ∧ (P'.h 4).linenum = 1 := by
  refine ⟨_, _, rfl, Or.inr ?_, rfl, by decide, by decide⟩
  intro t ht hb
  have : ∀ t ∈ Conf.Spec.input {} [s "a", s "interface b", s " ip x", s "  y", s "c"], strip t ≠ [] := by decide
  exact this t ht ((blank_strip_nil t).mpr hb)

/-- C37 does not hold as stated: a line of blanks before the object is dropped after the
lines were numbered, and then the wrong line is deleted. -/
theorem C37_gap_fails : ∃ P P', parse {} [s "a", s " ", s "b", s "c"] = .ok P ∧
    P.texts = [s "a", s "b", s "c"] ∧ (P.h 2).text = s "b" ∧ 2 ∈ P.list ∧
    delete P 2 true = .ok P' ∧ P'.texts = [s "a", s "b"] :=
  ⟨_, _, rfl, by decide, by decide, by decide, rfl, by decide⟩

/-- C37 does not hold as stated: a parent still refers to a deleted child, so deleting
the parent afterwards takes an unrelated line with it. -/
theorem C37_stale_fails : ∃ P P' P'', parse {} [s "interface a", s " x", s "b", s "c"] = .ok P ∧
    delete P 1 true = .ok P' ∧ P'.texts = [s "interface a", s "b", s "c"] ∧
    delete P' 0 true = .ok P'' ∧ P''.texts = [s "c"] :=
  ⟨_, _, _, rfl, rfl, by decide, rfl, by decide⟩

/-- C37 does not hold as stated: a line that was inserted cannot be deleted until the
next commit. -/
theorem C37_new_fails : ∃ P P', parse {} [s "a", s "b"] = .ok P ∧
    listInsertAfter {} P (lit "a") (s "n") = .ok P' ∧ P'.texts = [s "a", s "n", s "b"] ∧
    2 ∈ P'.list ∧ delete P' 2 true = .error .attributeError :=
  ⟨_, _, rfl, rfl, by decide, by decide, rfl⟩

/-! ## C38 -/

theorem deleteEach_ok {is : List Nat} {P : Parsed} (hw : Wf P) (hn : Spec.Numbered P) (hnd : is.Nodup)
    (hown : ∀ i ∈ is, (P.h i).owned = true) (hfam : ∀ i ∈ is, ∀ x, Spec.Fam P i x → x ∈ P.list)
    (hd : ∀ i ∈ is, Spec.NoDigits P (Spec.Fam P i))
    (hdis : ∀ i ∈ is, ∀ j ∈ is, i ≠ j → ∀ x, Spec.Fam P i x → ¬ Spec.Fam P j x) :
    ∃ P', deleteEach is P = .ok P' ∧ Spec.Removed P P' (fun x => ∃ i ∈ is, Spec.Fam P i x) := by
  induction is generalizing P with
  | nil => exact ⟨P, rfl, List.Sublist.refl _, by simp, same_refl P, hn⟩
  | cons i is ih =>
    rw [List.nodup_cons] at hnd
    have hk := keys_of hn (hfam i (by simp)) (hd i (by simp))
    obtain ⟨Q, hQ, ⟨s1, m1, o1, n1⟩, hnn⟩ := delete_ok hw hn (hown i (by simp)) (hfam i (by simp)) hk
    have hwQ : Wf Q := st_delete (wf_stable {}) hw hQ
    obtain ⟨P', hP', s2, m2, o2, n2⟩ := ih hwQ n1 hnd.2
      (fun j hj => by rw [same_owned o1]; exact hown j (by simp [hj]))
      (fun j hj x hx => by
        have hx := (same_fam o1).mp hx
        rw [m1]
        refine ⟨hfam j (by simp [hj]) x hx, ?_⟩
        exact hdis j (by simp [hj]) i (by simp) (by rintro rfl; exact hnd.1 hj) x hx)
      (fun j hj x hx c hc => by
        rw [same_text o1] at hc
        exact hd j (by simp [hj]) x ((same_fam o1).mp hx) c hc)
      (fun j hj k hk hjk x hx hx' =>
        hdis j (by simp [hj]) k (by simp [hk]) hjk x ((same_fam o1).mp hx) ((same_fam o1).mp hx'))
    refine ⟨P', ?_, s2.trans s1, ?_, same_trans o1 o2, n2⟩
    · rw [deleteEach, hQ]; exact hP'
    · intro x
      rw [m2, m1]
      constructor
      · rintro ⟨⟨h1, h2⟩, h3⟩
        refine ⟨h1, ?_⟩
        rintro ⟨j, hj, hx⟩
        rcases List.mem_cons.mp hj with e | e
        · rw [e] at hx; exact h2 hx
        · exact h3 ⟨j, e, (same_fam o1).mpr hx⟩
      · rintro ⟨h1, h2⟩
        refine ⟨⟨h1, fun hx => h2 ⟨i, by simp, hx⟩⟩, ?_⟩
        rintro ⟨j, hj, hx⟩
        exact h2 ⟨j, by simp [hj], (same_fam o1).mp hx⟩

/-- C38: when line numbers are positions and no line belongs to the families of two
matching lines, `delete_lines` removes exactly the lines that match or descend from a
matching line. -/
theorem C38_delete_lines_partial {o : Opts} {C : Compile} {P : Parsed} (hr : Spec.Reach o C P)
    (hn : Spec.Numbered P) (rx : Rx)
    (hown : ∀ i ∈ P.list, Spec.hits rx (P.h i).text = true → (P.h i).owned = true)
    (hfam : ∀ i ∈ P.list, Spec.hits rx (P.h i).text = true → ∀ x, Spec.Fam P i x → x ∈ P.list)
    (hd : ∀ i ∈ P.list, Spec.hits rx (P.h i).text = true → Spec.NoDigits P (Spec.Fam P i))
    (hdis : ∀ i ∈ P.list, Spec.hits rx (P.h i).text = true → ∀ j ∈ P.list,
      Spec.hits rx (P.h j).text = true → i ≠ j → ∀ x, Spec.Fam P i x → ¬ Spec.Fam P j x) :
    ∃ P', deleteLines P rx = .ok P' ∧ Spec.Removed P P'
      (fun x => ∃ i ∈ P.list, Spec.hits rx (P.h i).text = true ∧ Spec.Fam P i x) := by
  have hm : ∀ i, i ∈ (findObjects P rx).reverse ↔ i ∈ P.list ∧ Spec.hits rx (P.h i).text = true := by
    intro i
    rw [List.mem_reverse, findObjects, List.mem_filter]; exact Iff.rfl
  have hnd : (findObjects P rx).reverse.Nodup := by
    exact List.pairwise_reverse.mpr (((numbered_nodup hn).filter _).imp (fun h => h.symm))
  obtain ⟨P', h1, s1, m1, o1, n1⟩ := deleteEach_ok (is := (findObjects P rx).reverse) (wf_reach hr) hn hnd
    (fun i hi => hown i ((hm i).mp hi).1 ((hm i).mp hi).2)
    (fun i hi => hfam i ((hm i).mp hi).1 ((hm i).mp hi).2)
    (fun i hi => hd i ((hm i).mp hi).1 ((hm i).mp hi).2)
    (fun i hi j hj => hdis i ((hm i).mp hi).1 ((hm i).mp hi).2 j ((hm j).mp hj).1 ((hm j).mp hj).2)
  refine ⟨P', h1, s1, ?_, o1, n1⟩
  intro x
  rw [m1]
  refine and_congr Iff.rfl (not_congr ?_)
  constructor
  · rintro ⟨i, hi, hx⟩; exact ⟨i, ((hm i).mp hi).1, ((hm i).mp hi).2, hx⟩
  · rintro ⟨i, h1, h2, hx⟩; exact ⟨i, (hm i).mpr ⟨h1, h2⟩, hx⟩

/-- C38 right after parsing. -/
theorem C38_parse_partial {o : Opts} {lines : List Str} {P : Parsed} (h : parse o lines = .ok P)
    (hb : Spec.NoBlank o (Conf.Spec.input o lines)) (rx : Rx)
    (hd : ∀ i ∈ P.list, Spec.hits rx (P.h i).text = true → Spec.NoDigits P (Spec.Fam P i))
    (hdis : ∀ i ∈ P.list, Spec.hits rx (P.h i).text = true → ∀ j ∈ P.list,
      Spec.hits rx (P.h j).text = true → i ≠ j → ∀ x, Spec.Fam P i x → ¬ Spec.Fam P j x) :
    ∃ P', deleteLines P rx = .ok P' ∧ Spec.Removed P P'
      (fun x => ∃ i ∈ P.list, Spec.hits rx (P.h i).text = true ∧ Spec.Fam P i x) :=
  C38_delete_lines_partial (C := fun _ => none) (.parse h) (numbered_parse h hb) rx
    (fun _ hi _ => owned_parse h hi) (fun _ hi _ _ hx => fam_parse h hi hx) hd hdis

/-- Two families are deleted, one of them nested. -/
example : ∃ P P', parse {} [s "interface a", s " x", s "  y", s "b", s "interface c", s " z"] = .ok P ∧
    deleteLines P (lit "interface") = .ok P' ∧ P'.texts = [s "b"] ∧
    P.list.filter (fun i => Spec.hits (lit "interface") (P.h i).text) = [0, 4] ∧
    allChildren P 0 = [1, 2] ∧ allChildren P 4 = [5] :=
  ⟨_, _, rfl, rfl, by decide, by decide, by decide, by decide⟩

/-- C38 does not hold as stated: when a matching line is below another one, an unrelated
line is deleted. -/
theorem C38_nested_fails : ∃ P P', parse {} [s "interface foo", s " description foo", s "hostname x"] = .ok P ∧
    deleteLines P (lit "foo") = .ok P' ∧ P'.texts = [] :=
  ⟨_, _, rfl, rfl, by decide⟩

/-! ## C39 -/

theorem not_blankNew {o : Opts} {new : Str} (hb : Spec.NoBlank o [new]) : ¬ blankNew o new = true := by
  rw [blankNew, Bool.and_eq_true, List.isEmpty_iff]
  rintro ⟨h1, h2⟩
  rcases hb with hb | hb
  · rw [hb] at h2; cases h2
  · exact hb new (by simp) ((blank_strip_nil new).mp h1)

theorem blankNew_of {o : Opts} {new : Str} (hb : ¬ Spec.NoBlank o [new]) : blankNew o new = true := by
  cases h : blankNew o new with
  | true => rfl
  | false =>
    exfalso
    apply hb
    refine noBlank_of_keep ?_
    intro t ht
    rw [List.mem_singleton] at ht
    subst ht
    exact good_of_blankNew (solid_stable o) (by rw [h]; simp)

/-- C39: `ConfigObjs.insert_before` puts the new line directly before each matching line
and changes nothing else; it refuses an empty expression and a blank line that would be
ignored. -/
theorem C39_before {o : Opts} {C : Compile} {P : Parsed} (hr : Spec.Reach o C P) (rx : Rx) (new : Str) :
    (¬ Spec.NoBlank o [new] → listInsertBefore o P rx new = .error .invalidParameters) ∧
    (Spec.NoBlank o [new] → rx.lit = [] → listInsertBefore o P rx new = .error .valueError) ∧
    (Spec.NoBlank o [new] → rx.lit ≠ [] → ∃ P', listInsertBefore o P rx new = .ok P' ∧
      P'.texts = P.texts.flatMap (fun t => if Spec.hits rx t then [rstrip new, t] else [t]) ∧
      P'.list.filter (· != P.n) = P.list ∧
      ∀ x ∈ P.list, { P'.h x with linenum := (P.h x).linenum } = P.h x) := by
  have hw := wf_reach hr
  refine ⟨fun hb => ?_, fun hb hl => ?_, fun hb hl => ?_⟩
  · rw [listInsertBefore, if_pos (blankNew_of hb)]
  · rw [listInsertBefore, if_neg (not_blankNew hb), if_pos hl]
  · refine ⟨putNew o P new (matchIdx P rx), ?_, putBefore_texts o hw new rx, ?_, ?_⟩
    · rw [listInsertBefore, if_neg (not_blankNew hb), if_neg hl]
    · rw [putBefore_list]
      have key : ∀ l : List Nat, (∀ a ∈ l, a < P.n) →
          (l.flatMap (fun a => if Spec.hits rx (P.h a).text then [P.n, a] else [a])).filter (· != P.n) = l := by
        intro l hl
        induction l with
        | nil => rfl
        | cons a l ih =>
          have ha := hl a (by simp)
          have hne : (a != P.n) = true := by simp; omega
          rw [List.flatMap_cons, List.filter_append, ih (fun b hb => hl b (by simp [hb]))]
          split <;> simp [hne]
      exact key P.list hw.list
    · intro x hx
      have hlt := hw.list x hx
      have := putNew_h o P new (matchIdx P rx) x
      rw [upd, if_neg (by omega)] at this
      exact this

/-- C39: `ConfigObjs.insert_after` puts the new line directly after each matching line and
changes nothing else; it refuses an empty expression and a blank line that would be
ignored. -/
theorem C39_after {o : Opts} {C : Compile} {P : Parsed} (hr : Spec.Reach o C P) (rx : Rx) (new : Str) :
    (¬ Spec.NoBlank o [new] → listInsertAfter o P rx new = .error .invalidParameters) ∧
    (Spec.NoBlank o [new] → rx.lit = [] → listInsertAfter o P rx new = .error .valueError) ∧
    (Spec.NoBlank o [new] → rx.lit ≠ [] → ∃ P', listInsertAfter o P rx new = .ok P' ∧
      P'.texts = P.texts.flatMap (fun t => if Spec.hits rx t then [t, rstrip new] else [t]) ∧
      P'.list.filter (· != P.n) = P.list ∧
      ∀ x ∈ P.list, { P'.h x with linenum := (P.h x).linenum } = P.h x) := by
  have hw := wf_reach hr
  refine ⟨fun hb => ?_, fun hb hl => ?_, fun hb hl => ?_⟩
  · rw [listInsertAfter, if_pos (blankNew_of hb)]
  · rw [listInsertAfter, if_neg (not_blankNew hb), if_pos hl]
  · refine ⟨putNew o P new ((matchIdx P rx).map (· + 1)), ?_, putAfter_texts o hw new rx, ?_, ?_⟩
    · rw [listInsertAfter, if_neg (not_blankNew hb), if_neg hl]
    · rw [putAfter_list]
      have key : ∀ l : List Nat, (∀ a ∈ l, a < P.n) →
          (l.flatMap (fun a => if Spec.hits rx (P.h a).text then [a, P.n] else [a])).filter (· != P.n) = l := by
        intro l hl
        induction l with
        | nil => rfl
        | cons a l ih =>
          have ha := hl a (by simp)
          have hne : (a != P.n) = true := by simp; omega
          rw [List.flatMap_cons, List.filter_append, ih (fun b hb => hl b (by simp [hb]))]
          split <;> simp [hne]
      exact key P.list hw.list
    · intro x hx
      have hlt := hw.list x hx
      have := putNew_h o P new ((matchIdx P rx).map (· + 1)) x
      rw [upd, if_neg (by omega)] at this
      exact this

example : ∃ P P', parse {} [s "a", s "b", s "a2"] = .ok P ∧ (lit "a").lit ≠ [] ∧
    listInsertBefore {} P (lit "a") (s "n ") = .ok P' ∧
    P'.texts = [s "n", s "a", s "b", s "n", s "a2"] :=
  ⟨_, _, rfl, by decide, rfl, by decide⟩

theorem indentOk_of {P : Parsed} (h : Spec.Indents P) {i : Nat} (hi : i ∈ P.list) : indentOk (P.h i) = true := by
  rw [indentOk, h i hi, beq_iff_eq, lstrip]
  have : (P.h i).text.length =
      ((P.h i).text.takeWhile isSpace).length + ((P.h i).text.dropWhile isSpace).length := by
    rw [← List.length_append, List.takeWhile_append_dropWhile]
  omega

theorem indents_parse {o : Opts} {lines : List Str} {P : Parsed} (h : parse o lines = .ok P) : Spec.Indents P := by
  intro i hi
  rw [parse] at h
  have hlt := ((mem_list h).mp hi).1
  obtain ⟨h1, h2, _⟩ := attrs h hlt
  rw [h1, h2]
  show (rstrip _).length - (lstrip (rstrip _)).length = _
  have : (rstrip (lineAt (preFilter o lines) i)).length =
      ((rstrip (lineAt (preFilter o lines) i)).takeWhile isSpace).length +
      ((rstrip (lineAt (preFilter o lines) i)).dropWhile isSpace).length := by
    rw [← List.length_append, List.takeWhile_append_dropWhile]
  show _ = ((rstrip (lineAt (preFilter o lines) i)).takeWhile isSpace).length
  rw [lstrip]; omega

theorem replicate_snoc (n : Nat) (x : Str) (l : List Str) :
    List.replicate n x ++ x :: l = List.replicate (n + 1) x ++ l := by
  rw [List.replicate_succ', List.append_assoc]; rfl

/-- What repeated insertion does to one line's block, before. -/
theorem flat_before (rx : Rx) {new : Str} (hnew : Spec.hits rx new = false) (m : Nat) (ts : List Str) :
    (ts.flatMap (fun t => if Spec.hits rx t then List.replicate m new ++ [t] else [t])).flatMap
      (fun t => if Spec.hits rx t then [new, t] else [t]) =
    ts.flatMap (fun t => if Spec.hits rx t then List.replicate (m + 1) new ++ [t] else [t]) := by
  have hrep : ∀ m, (List.replicate m new).flatMap (fun t => if Spec.hits rx t then [new, t] else [t]) =
      List.replicate m new := by
    intro m
    induction m with
    | zero => rfl
    | succ m ih => rw [List.replicate_succ, List.flatMap_cons, ih, hnew]; rfl
  induction ts with
  | nil => rfl
  | cons t ts ih =>
    rw [List.flatMap_cons, List.flatMap_append, ih, List.flatMap_cons]
    congr 1
    cases ht : Spec.hits rx t with
    | false => simp [ht]
    | true =>
      rw [if_pos rfl, if_pos rfl, List.flatMap_append, hrep, List.flatMap_cons, ht, if_pos rfl,
        List.flatMap_nil, List.append_nil]
      exact replicate_snoc m new [t]

theorem flat_after (rx : Rx) {new : Str} (hnew : Spec.hits rx new = false) (m : Nat) (ts : List Str) :
    (ts.flatMap (fun t => if Spec.hits rx t then t :: List.replicate m new else [t])).flatMap
      (fun t => if Spec.hits rx t then [t, new] else [t]) =
    ts.flatMap (fun t => if Spec.hits rx t then t :: List.replicate (m + 1) new else [t]) := by
  have hrep : ∀ m, (List.replicate m new).flatMap (fun t => if Spec.hits rx t then [t, new] else [t]) =
      List.replicate m new := by
    intro m
    induction m with
    | zero => rfl
    | succ m ih => rw [List.replicate_succ, List.flatMap_cons, ih, hnew]; rfl
  induction ts with
  | nil => rfl
  | cons t ts ih =>
    rw [List.flatMap_cons, List.flatMap_append, ih, List.flatMap_cons]
    congr 1
    cases ht : Spec.hits rx t with
    | false => simp [ht]
    | true =>
      rw [if_pos rfl, if_pos rfl, List.flatMap_cons, hrep, ht, if_pos rfl, List.replicate_succ]
      rfl

/-- The objects found do not change while new ones are inserted. -/
theorem insertEach_texts {ins : Parsed → Except Err Parsed} {f : List Str → List Str}
    (hw : ∀ P P', Wf P → ins P = .ok P' → Wf P')
    (hok : ∀ P, Wf P → ∃ P', ins P = .ok P' ∧ P'.texts = f P.texts ∧ P.n ≤ P'.n ∧
      ∀ x < P.n, (P'.h x).text = (P.h x).text ∧ (P'.h x).indent = (P.h x).indent)
    {is : List Nat} {P : Parsed} (hP : Wf P) (hi : ∀ i ∈ is, i < P.n ∧ indentOk (P.h i) = true) :
    ∃ P', insertEach ins is P = .ok P' ∧ P'.texts = Nat.repeat f is.length P.texts := by
  induction is generalizing P with
  | nil => exact ⟨P, rfl, rfl⟩
  | cons i is ih =>
    obtain ⟨Q, hQ, ht, hle, hx⟩ := hok P hP
    obtain ⟨P', h1, h2⟩ := ih (P := Q) (hw _ _ hP hQ) (by
      intro j hj
      obtain ⟨h1, h2⟩ := hi j (by simp [hj])
      refine ⟨by omega, ?_⟩
      rw [indentOk, (hx j h1).1, (hx j h1).2]; exact h2)
    refine ⟨P', ?_, ?_⟩
    · rw [insertEach, if_pos (hi i (by simp)).2, hQ]; exact h1
    · rw [h2, ht, List.length_cons]
      have comm : ∀ n (a : List Str), Nat.repeat f n (f a) = f (Nat.repeat f n a) := by
        intro n
        induction n with
        | zero => intro a; rfl
        | succ n ihn => intro a; show f (Nat.repeat f n (f a)) = _; rw [ihn a]; rfl
      exact comm _ _

theorem putNew_keep (o : Opts) (P : Parsed) (new : Str) (idx : List Nat) :
    P.n ≤ (putNew o P new idx).n ∧ ∀ x < P.n, ((putNew o P new idx).h x).text = (P.h x).text ∧
      ((putNew o P new idx).h x).indent = (P.h x).indent := by
  refine ⟨Nat.le_succ _, fun x hx => ?_⟩
  have h := putNew_h o P new idx x
  rw [upd, if_neg (by omega)] at h
  exact ⟨by have := congrArg Obj.text h; exact this, by have := congrArg Obj.indent h; exact this⟩

/-- C39: what `CiscoConfParse.insert_before` really does: it puts as many copies before
each match of the expression as `find_objects` found lines.  (`found` is the expression
of `find_objects`, the same as `rx` unless `exactmatch` is used.  The new line is assumed
not to match itself, and `new_val_indent` not to be used.) -/
theorem C39_insert_before_partial {o : Opts} {C : Compile} {P : Parsed} (hr : Spec.Reach o C P)
    (hin : Spec.Indents P) (found rx : Rx) (new : Str) (hb : Spec.NoBlank o [new]) (hne : new ≠ [])
    (hl : rx.lit ≠ []) (hnew : Spec.hits rx (rstrip new) = false) :
    ∃ P', insertBefore o P found rx new (-1) false = .ok P' ∧
      P'.texts = P.texts.flatMap (fun t =>
        if Spec.hits rx t then
          List.replicate (P.texts.filter (Spec.hits found)).length (rstrip new) ++ [t]
        else [t]) := by
  have hw := wf_reach hr
  have hi : indented new (-1) = new := by rw [indented, if_neg (by omega)]
  obtain ⟨P', h1, h2⟩ := insertEach_texts
    (ins := fun Q => listInsertBefore o Q rx (indented new (-1)))
    (f := fun ts => ts.flatMap (fun t => if Spec.hits rx t then [rstrip new, t] else [t]))
    (fun P P' hP h => st_listBefore (wf_stable o) hP h)
    (fun Q hQ => by
      refine ⟨putNew o Q new (matchIdx Q rx), ?_, putBefore_texts o hQ new rx, putNew_keep o Q new _⟩
      rw [hi, listInsertBefore, if_neg (not_blankNew hb), if_neg hl])
    (is := findObjects P found) hw
    (fun i hm => by
      have hm := (List.mem_filter.mp hm).1
      exact ⟨hw.list i hm, indentOk_of hin hm⟩)
  refine ⟨P', ?_, ?_⟩
  · rw [insertBefore, if_neg (by simp [hl, hne]), h1]; rfl
  · rw [h2, ← findObjects_length]
    generalize (findObjects P found).length = m
    induction m with
    | zero =>
      show P.texts = _
      induction P.texts with
      | nil => rfl
      | cons t ts ih => rw [List.flatMap_cons, ← ih]; split <;> rfl
    | succ m ih =>
      rw [← flat_before rx hnew]
      show (Nat.repeat _ m P.texts).flatMap _ = _
      rw [ih]

/-- C39: what `CiscoConfParse.insert_after` really does. -/
theorem C39_insert_after_partial {o : Opts} {C : Compile} {P : Parsed} (hr : Spec.Reach o C P)
    (hin : Spec.Indents P) (found rx : Rx) (new : Str) (hb : Spec.NoBlank o [new])
    (hl : rx.lit ≠ []) (hnew : Spec.hits rx (rstrip new) = false) :
    ∃ P', insertAfter o P found rx new (-1) false = .ok P' ∧
      P'.texts = P.texts.flatMap (fun t =>
        if Spec.hits rx t then
          t :: List.replicate (P.texts.filter (Spec.hits found)).length (rstrip new)
        else [t]) := by
  have hw := wf_reach hr
  have hi : indented new (-1) = new := by rw [indented, if_neg (by omega)]
  obtain ⟨P', h1, h2⟩ := insertEach_texts
    (ins := fun Q => listInsertAfter o Q rx (indented new (-1)))
    (f := fun ts => ts.flatMap (fun t => if Spec.hits rx t then [t, rstrip new] else [t]))
    (fun P P' hP h => st_listAfter (wf_stable o) hP h)
    (fun Q hQ => by
      refine ⟨putNew o Q new ((matchIdx Q rx).map (· + 1)), ?_, putAfter_texts o hQ new rx,
        putNew_keep o Q new _⟩
      rw [hi, listInsertAfter, if_neg (not_blankNew hb), if_neg hl])
    (is := findObjects P found) hw
    (fun i hm => by
      have hm := (List.mem_filter.mp hm).1
      exact ⟨hw.list i hm, indentOk_of hin hm⟩)
  refine ⟨P', ?_, ?_⟩
  · rw [insertAfter, h1]; rfl
  · rw [h2, ← findObjects_length]
    generalize (findObjects P found).length = m
    induction m with
    | zero =>
      show P.texts = _
      induction P.texts with
      | nil => rfl
      | cons t ts ih => rw [List.flatMap_cons, ← ih]; split <;> rfl
    | succ m ih =>
      rw [← flat_after rx hnew]
      show (Nat.repeat _ m P.texts).flatMap _ = _
      rw [ih]

/-- C39: with exactly one matching line, `CiscoConfParse.insert_before` does what it
says, also when the new line matches the expression itself. -/
theorem C39_insert_before_one_partial {o : Opts} {C : Compile} {P : Parsed} (hr : Spec.Reach o C P)
    (hin : Spec.Indents P) (rx : Rx) (new : Str) (hb : Spec.NoBlank o [new]) (hne : new ≠ [])
    (hl : rx.lit ≠ []) (h1 : (P.texts.filter (Spec.hits rx)).length = 1) :
    ∃ P', insertBefore o P rx rx new (-1) false = .ok P' ∧
      P'.texts = P.texts.flatMap (fun t => if Spec.hits rx t then [rstrip new, t] else [t]) := by
  have hw := wf_reach hr
  have hi : indented new (-1) = new := by rw [indented, if_neg (by omega)]
  rw [← findObjects_length] at h1
  obtain ⟨i, hfi⟩ := List.length_eq_one_iff.mp h1
  have hmi : i ∈ P.list := by
    have : i ∈ findObjects P rx := by rw [hfi]; simp
    exact (List.mem_filter.mp this).1
  refine ⟨putNew o P new (matchIdx P rx), ?_, putBefore_texts o hw new rx⟩
  rw [insertBefore, if_neg (by simp [hl, hne]), hfi, insertEach, if_pos (indentOk_of hin hmi)]
  rw [hi, listInsertBefore, if_neg (not_blankNew hb), if_neg hl]
  rfl

/-- C39: with exactly one matching line, `CiscoConfParse.insert_after` does what it says. -/
theorem C39_insert_after_one_partial {o : Opts} {C : Compile} {P : Parsed} (hr : Spec.Reach o C P)
    (hin : Spec.Indents P) (rx : Rx) (new : Str) (hb : Spec.NoBlank o [new])
    (hl : rx.lit ≠ []) (h1 : (P.texts.filter (Spec.hits rx)).length = 1) :
    ∃ P', insertAfter o P rx rx new (-1) false = .ok P' ∧
      P'.texts = P.texts.flatMap (fun t => if Spec.hits rx t then [t, rstrip new] else [t]) := by
  have hw := wf_reach hr
  have hi : indented new (-1) = new := by rw [indented, if_neg (by omega)]
  rw [← findObjects_length] at h1
  obtain ⟨i, hfi⟩ := List.length_eq_one_iff.mp h1
  have hmi : i ∈ P.list := by
    have : i ∈ findObjects P rx := by rw [hfi]; simp
    exact (List.mem_filter.mp this).1
  refine ⟨putNew o P new ((matchIdx P rx).map (· + 1)), ?_, putAfter_texts o hw new rx⟩
  rw [insertAfter, hfi, insertEach, if_pos (indentOk_of hin hmi)]
  rw [hi, listInsertAfter, if_neg (not_blankNew hb), if_neg hl]
  rfl

/-- C39: with `new_val_indent`, the new line has that many leading blanks instead of its
own. -/
theorem C39_new_indent {o : Opts} {C : Compile} {P : Parsed} (hr : Spec.Reach o C P)
    (hin : Spec.Indents P) (rx : Rx) (new : Str) (k : Nat) (hb : Spec.NoBlank o [lstrip new])
    (hl : rx.lit ≠ []) (h1 : (P.texts.filter (Spec.hits rx)).length = 1) :
    ∃ P', insertAfter o P rx rx new k false = .ok P' ∧
      P'.texts = P.texts.flatMap (fun t => if Spec.hits rx t then
        [t, rstrip (List.replicate k ' ' ++ lstrip new)] else [t]) := by
  have hb' : Spec.NoBlank o [List.replicate k ' ' ++ lstrip new] := by
    rcases hb with hb | hb
    · exact Or.inl hb
    · right
      intro t ht hbl
      rw [List.mem_singleton] at ht
      refine hb (lstrip new) (by simp) ?_
      intro c hc
      exact hbl c (by rw [ht]; simp [hc])
  have hi : indented new k = List.replicate k ' ' ++ lstrip new := by
    rw [indented, if_pos (by omega)]; rfl
  have hm : ∀ Q, insertAfter o P rx rx (List.replicate k ' ' ++ lstrip new) (-1) false = .ok Q →
      insertAfter o P rx rx new k false = .ok Q := by
    intro Q hQ
    rw [insertAfter] at hQ ⊢
    have hi2 : indented (List.replicate k ' ' ++ lstrip new) (-1) = List.replicate k ' ' ++ lstrip new := by
      rw [indented, if_neg (by omega)]
    rw [hi2] at hQ
    rw [hi]; exact hQ
  obtain ⟨P', h2, h3⟩ := C39_insert_after_one_partial hr hin rx _ hb' hl h1
  exact ⟨P', hm P' h2, h3⟩

example : ∃ P P', parse {} [s "interface a", s " x", s "b"] = .ok P ∧
    (P.texts.filter (Spec.hits (lit "interface"))).length = 1 ∧
    insertAfter {} P (lit "interface") (lit "interface") (s "n") 1 false = .ok P' ∧
    P'.texts = [s "interface a", s " n", s " x", s "b"] :=
  ⟨_, _, rfl, by decide, rfl, by decide⟩

/-- C39 does not hold as stated: with two matching lines each gets two copies. -/
theorem C39_twice_fails : ∃ P P', parse {} [s "interface a", s "interface b"] = .ok P ∧
    insertAfter {} P (lit "interface") (lit "interface") (s " shutdown") (-1) false = .ok P' ∧
    P'.texts = [s "interface a", s " shutdown", s " shutdown", s "interface b", s " shutdown", s " shutdown"] :=
  ⟨_, _, rfl, rfl, by decide⟩

/-- C39 does not hold as stated: `exactmatch` decides how often the line is inserted, not
where (here `found` is `^interface a$`). -/
theorem C39_exact_fails : ∃ P P', parse {} [s "interface a", s "interface ab"] = .ok P ∧
    insertBefore {} P { lit := s "^interface a$", find := fun t => if t = s "interface a" then some t else none }
      (lit "interface a") (s "!") (-1) false = .ok P' ∧
    P'.texts = [s "!", s "interface a", s "!", s "interface ab"] :=
  ⟨_, _, rfl, rfl, by decide⟩

end Edit

import Verif.Edit.Props
import Verif.Query.Props

/-! # C234: the order of deletions does not matter -/

namespace Edit

open Py Conf Query

/-- The lines that match one of the expressions do not belong together, and no text in their families starts with a digit. -/
structure Spec.Apart (P : Parsed) (hit : Nat → Prop) : Prop where
  digits : ∀ i ∈ P.list, hit i → NoDigits P (Fam P i)
  disjoint : ∀ i ∈ P.list, hit i → ∀ j ∈ P.list, hit j → i ≠ j → ∀ x, Fam P i x → ¬ Fam P j x

/-- Two lists of the same members, in the order of the same list. -/
theorem sublist_eq {l m k : List Nat} (hk : k.Nodup) (h1 : l.Sublist k) (h2 : m.Sublist k) (h : ∀ x, x ∈ l ↔ x ∈ m) : l = m := by
  induction k generalizing l m with
  | nil => rw [List.sublist_nil.mp h1, List.sublist_nil.mp h2]
  | cons a k ih =>
    rw [List.nodup_cons] at hk
    cases h1 with
    | cons _ h1 =>
      cases h2 with
      | cons _ h2 => exact ih hk.2 h1 h2 h
      | cons_cons _ h2 => exact absurd (h1.subset ((h a).mpr (by simp))) hk.1
    | cons_cons _ h1 =>
      cases h2 with
      | cons _ h2 => exact absurd (h2.subset ((h a).mp (by simp))) hk.1
      | cons_cons _ h2 =>
        rw [ih hk.2 h1 h2 (fun x => ?_)]
        by_cases e : x = a
        · subst e; exact ⟨fun hx => absurd (h1.subset hx) hk.1, fun hx => absurd (h2.subset hx) hk.1⟩
        · have := h x
          simpa [e] using this

section
variable {P : Parsed} {a b c : Rx}

theorem delete_lines_ok (hw : Wf P) (hn : Spec.Numbered P) (rx : Rx)
    (hown : ∀ i ∈ P.list, Spec.hits rx (P.h i).text = true → (P.h i).owned = true)
    (hfam : ∀ i ∈ P.list, Spec.hits rx (P.h i).text = true → ∀ x, Spec.Fam P i x → x ∈ P.list)
    (ha : Spec.Apart P (fun i => Spec.hits rx (P.h i).text = true)) :
    ∃ P', deleteLines P rx = .ok P' ∧ Wf P' ∧ Spec.Removed P P'
      (fun x => ∃ i ∈ P.list, Spec.hits rx (P.h i).text = true ∧ Spec.Fam P i x) := by
  have hm : ∀ i, i ∈ (findObjects P rx).reverse ↔ i ∈ P.list ∧ Spec.hits rx (P.h i).text = true := by
    intro i
    rw [List.mem_reverse, findObjects, List.mem_filter]; exact Iff.rfl
  have hnd : (findObjects P rx).reverse.Nodup :=
    List.pairwise_reverse.mpr (((numbered_nodup hn).filter _).imp (fun h => h.symm))
  obtain ⟨P', h1, s1, m1, o1, n1⟩ := deleteEach_ok (is := (findObjects P rx).reverse) hw hn hnd
    (fun i hi => hown i ((hm i).mp hi).1 ((hm i).mp hi).2)
    (fun i hi => hfam i ((hm i).mp hi).1 ((hm i).mp hi).2)
    (fun i hi => ha.digits i ((hm i).mp hi).1 ((hm i).mp hi).2)
    (fun i hi j hj => ha.disjoint i ((hm i).mp hi).1 ((hm i).mp hi).2 j ((hm j).mp hj).1 ((hm j).mp hj).2)
  have hwf : Wf P' := by
    have key : ∀ (is : List Nat) {P P' : Parsed}, Wf P → deleteEach is P = .ok P' → Wf P' := by
      intro is
      induction is with
      | nil => intro P P' hw h; cases h; exact hw
      | cons i is ih =>
        intro P P' hw h
        rw [deleteEach] at h
        cases hd : delete P i true with
        | error e => rw [hd] at h; cases h
        | ok Q => rw [hd] at h; exact ih (st_delete (wf_stable {}) hw hd) h
    exact key _ hw h1
  refine ⟨P', h1, hwf, s1, ?_, o1, n1⟩
  intro x
  rw [m1]
  refine and_congr Iff.rfl (not_congr ?_)
  constructor
  · rintro ⟨i, hi, hx⟩; exact ⟨i, ((hm i).mp hi).1, ((hm i).mp hi).2, hx⟩
  · rintro ⟨i, h1, h2, hx⟩; exact ⟨i, (hm i).mpr ⟨h1, h2⟩, hx⟩

/-- Delete for one expression, then for another. -/
theorem delete_two (hw : Wf P) (hn : Spec.Numbered P) (hown : ∀ i ∈ P.list, (P.h i).owned = true)
    (hfam : ∀ i ∈ P.list, ∀ x, Spec.Fam P i x → x ∈ P.list)
    (ha : Spec.Apart P (fun i => Spec.hits a (P.h i).text = true ∨ Spec.hits b (P.h i).text = true)) :
    ∃ P' P'', deleteLines P a = .ok P' ∧ deleteLines P' b = .ok P'' ∧ Spec.Removed P P''
      (fun x => ∃ i ∈ P.list, (Spec.hits a (P.h i).text = true ∨ Spec.hits b (P.h i).text = true) ∧ Spec.Fam P i x) := by
  obtain ⟨P', h1, hw', s1, m1, o1, n1⟩ := delete_lines_ok hw hn a (fun i hi _ => hown i hi) (fun i hi _ => hfam i hi)
    ⟨fun i hi h => ha.digits i hi (.inl h), fun i hi h j hj h' => ha.disjoint i hi (.inl h) j hj (.inl h')⟩
  have ht : ∀ i, (P'.h i).text = (P.h i).text := same_text o1
  obtain ⟨P'', h2, _, s2, m2, o2, n2⟩ := delete_lines_ok hw' n1 b
    (fun i hi _ => by rw [same_owned o1]; exact hown i ((m1 i).mp hi).1)
    (fun i hi hb x hx => by
      have hx := (same_fam o1).mp hx
      rw [ht] at hb
      rw [m1] at hi ⊢
      refine ⟨hfam i hi.1 x hx, ?_⟩
      rintro ⟨j, hj, hja, hjx⟩
      by_cases e : i = j
      · subst e; exact hi.2 ⟨i, hj, hja, .inl rfl⟩
      · exact ha.disjoint i hi.1 (.inr hb) j hj (.inl hja) e x hx hjx)
    ⟨fun i hi hb x hx c hc => by
        rw [ht] at hb hc
        exact ha.digits i ((m1 i).mp hi).1 (.inr hb) x ((same_fam o1).mp hx) c hc,
      fun i hi hb j hj hb' hne x hx hx' => by
        rw [ht] at hb hb'
        exact ha.disjoint i ((m1 i).mp hi).1 (.inr hb) j ((m1 j).mp hj).1 (.inr hb') hne x ((same_fam o1).mp hx)
          ((same_fam o1).mp hx')⟩
  refine ⟨P', P'', h1, h2, s2.trans s1, ?_, same_trans o1 o2, n2⟩
  intro x
  rw [m2, m1]
  constructor
  · rintro ⟨⟨g1, g2⟩, g3⟩
    refine ⟨g1, ?_⟩
    rintro ⟨i, hi, hh, hx⟩
    by_cases hA : ∃ j ∈ P.list, Spec.hits a (P.h j).text = true ∧ Spec.Fam P j i
    · obtain ⟨j, hj, hja, hji⟩ := hA
      by_cases e : i = j
      · subst e; exact g2 ⟨i, hi, hja, hx⟩
      · exact ha.disjoint i hi hh j hj (.inl hja) e i (.inl rfl) hji
    · rcases hh with hh | hh
      · exact g2 ⟨i, hi, hh, hx⟩
      · exact g3 ⟨i, (m1 i).mpr ⟨hi, hA⟩, by rw [ht]; exact hh, (same_fam o1).mpr hx⟩
  · rintro ⟨g1, g2⟩
    refine ⟨⟨g1, fun ⟨i, hi, hh, hx⟩ => g2 ⟨i, hi, .inl hh, hx⟩⟩, ?_⟩
    rintro ⟨i, hi, hh, hx⟩
    rw [ht] at hh
    exact g2 ⟨i, ((m1 i).mp hi).1, .inr hh, (same_fam o1).mp hx⟩

theorem removed_same {P' P'' : Parsed} {S T : Nat → Prop} (hn : Spec.Numbered P) (h : Spec.Removed P P' S)
    (h' : Spec.Removed P P'' T) (he : ∀ x, S x ↔ T x) : P'.list = P''.list ∧ P'.texts = P''.texts := by
  obtain ⟨s1, m1, o1, _⟩ := h
  obtain ⟨s2, m2, o2, _⟩ := h'
  have hl := sublist_eq (numbered_nodup hn) s1 s2 (fun x => by rw [m1, m2, he])
  refine ⟨hl, ?_⟩
  rw [Parsed.texts, Parsed.texts, hl]
  exact List.map_congr_left (fun i _ => by rw [same_text o1, same_text o2])

end

/-! ## C234 -/

/-- C234: if no line belongs to the families of two lines that match, deleting the lines that match the one expression and
then those that match the other gives the same as the other way round, and the same as deleting all at once with an
expression that matches what either matches. -/
theorem C234_delete_partial {o : Opts} {lines : List Str} {P : Parsed} (h : parse o lines = .ok P)
    (hb : Spec.NoBlank o (Conf.Spec.input o lines)) {a b c : Rx}
    (ha : Spec.Apart P (fun i => Spec.hits a (P.h i).text = true ∨ Spec.hits b (P.h i).text = true))
    (hc : ∀ t, Spec.hits c t = true ↔ Spec.hits a t = true ∨ Spec.hits b t = true) :
    ∃ A AB B BA C, deleteLines P a = .ok A ∧ deleteLines A b = .ok AB ∧ deleteLines P b = .ok B ∧ deleteLines B a = .ok BA ∧
      deleteLines P c = .ok C ∧ (AB.list = BA.list ∧ AB.texts = BA.texts) ∧ AB.list = C.list ∧ AB.texts = C.texts := by
  have hw : Wf P := wf_reach (C := fun _ => none) (.parse h)
  have hn := numbered_parse h hb
  have hown : ∀ i ∈ P.list, (P.h i).owned = true := fun i hi => owned_parse h hi
  have hfam : ∀ i ∈ P.list, ∀ x, Spec.Fam P i x → x ∈ P.list := fun i hi x hx => fam_parse h hi hx
  have hac : Spec.Apart P (fun i => Spec.hits c (P.h i).text = true) := by
    simp only [hc]; exact ha
  have hba : Spec.Apart P (fun i => Spec.hits b (P.h i).text = true ∨ Spec.hits a (P.h i).text = true) :=
    ⟨fun i hi hh => ha.digits i hi hh.symm, fun i hi hh j hj hh' => ha.disjoint i hi hh.symm j hj hh'.symm⟩
  obtain ⟨A, AB, h1, h2, r1⟩ := delete_two hw hn hown hfam ha
  obtain ⟨B, BA, h3, h4, r2⟩ := delete_two hw hn hown hfam hba
  obtain ⟨C, h5, _, r3⟩ := delete_lines_ok hw hn c (fun i hi _ => hown i hi) (fun i hi _ => hfam i hi) hac
  refine ⟨A, AB, B, BA, C, h1, h2, h3, h4, h5, removed_same hn r1 r2 (fun x => ?_), removed_same hn r1 r3 (fun x => ?_)⟩
  · exact exists_congr (fun i => and_congr Iff.rfl (and_congr Or.comm Iff.rfl))
  · simp only [hc]

/-- C234: deleting the matching lines again changes nothing. -/
theorem C234_again_partial {o : Opts} {lines : List Str} {P : Parsed} (h : parse o lines = .ok P)
    (hb : Spec.NoBlank o (Conf.Spec.input o lines)) {a : Rx} (ha : Spec.Apart P (fun i => Spec.hits a (P.h i).text = true)) :
    ∃ P', deleteLines P a = .ok P' ∧ deleteLines P' a = .ok P' := by
  obtain ⟨P', h1, _, s1, m1, o1, _⟩ := delete_lines_ok (wf_reach (C := fun _ => none) (.parse h)) (numbered_parse h hb) a
    (fun i hi _ => owned_parse h hi) (fun i hi _ x hx => fam_parse h hi hx) ha
  refine ⟨P', h1, ?_⟩
  have : findObjects P' a = [] := by
    rw [findObjects, List.filter_eq_nil_iff]
    intro i hi hh
    have := (m1 i).mp hi
    exact this.2 ⟨i, this.1, by rw [same_text o1] at hh; exact hh, .inl rfl⟩
  rw [deleteLines, this]
  rfl

/-- A check of the hypotheses. -/
theorem apart_of {o : Opts} {lines : List Str} {P : Parsed} (h : parse o lines = .ok P) {hit : Nat → Bool} {p : Nat → Prop}
    (hp : ∀ i ∈ P.list, p i → hit i = true)
    (hk : ∀ i ∈ P.list, ∀ k ∈ (P.h i).children, (P.h k).text.all (fun c => !isDigit c) = true)
    (hd : ∀ i ∈ P.list, hit i = true → ∀ x ∈ i :: allChildren P i, (P.h x).text.all (fun c => !isDigit c) = true)
    (hh : ∀ i ∈ P.list, hit i = true → ∀ j ∈ P.list, hit j = true → i ≠ j →
      ∀ x ∈ i :: allChildren P i, x ∉ j :: allChildren P j) : Spec.Apart P p := by
  have hkid : Query.Spec.KidsNoDigits P := fun i hi k hk' c hc => by
    have := List.all_eq_true.mp (hk i hi k hk') c (List.mem_of_mem_head? hc)
    simpa using this
  have hf : ∀ i ∈ P.list, ∀ x, Spec.Fam P i x ↔ x ∈ i :: allChildren P i := fun i hi x => by
    rw [List.mem_cons, C33_all_children_exact_partial h hkid hi]
    exact Iff.rfl
  refine ⟨fun i hi hpi x hx c hc => ?_, fun i hi hpi j hj hpj hne x hx hx' => ?_⟩
  · have := List.all_eq_true.mp (hd i hi (hp i hi hpi) x ((hf i hi x).mp hx)) c (List.mem_of_mem_head? hc)
    simpa using this
  · exact hh i hi (hp i hi hpi) j hj (hp j hj hpj) hne x ((hf i hi x).mp hx) ((hf j hj x).mp hx')

/-- The hypotheses are met: two blocks, one expression for each. -/
example : ∃ P, parse {} [s "interface a", s " x", s "b", s " y", s "c"] = .ok P ∧
    Spec.NoBlank {} (Conf.Spec.input {} [s "interface a", s " x", s "b", s " y", s "c"]) ∧
    Spec.Apart P (fun i => Spec.hits (lit "interface") (P.h i).text = true ∨ Spec.hits (lit "b") (P.h i).text = true) ∧
    ∃ A AB, deleteLines P (lit "interface") = .ok A ∧ deleteLines A (lit "b") = .ok AB ∧ AB.texts = [s "c"] := by
  refine ⟨_, rfl, .inr ?_, ?_, _, _, rfl, rfl, by decide⟩
  · intro t ht hb
    have : ∀ t ∈ Conf.Spec.input {} [s "interface a", s " x", s "b", s " y", s "c"], ∃ c ∈ t, isSpace c = false := by
      decide +kernel
    obtain ⟨c, hc, h⟩ := this t ht
    rw [hb c hc] at h
    cases h
  · exact apart_of (o := {}) (lines := [s "interface a", s " x", s "b", s " y", s "c"]) (hit := fun i => i == 0 || i == 2) rfl
      (by decide +kernel) (by decide +kernel) (by decide +kernel) (by decide +kernel)

/-- C234 does not hold as stated: if the one expression matches a child of a line that the other matches, the order matters;
one of the orders takes an unrelated line (C37). -/
theorem C234_nested_fails : ∃ P A AB B BA, parse {} [s "interface a", s " x", s "b", s "c"] = .ok P ∧
    deleteLines P (lit "interface") = .ok A ∧ deleteLines A (lit " x") = .ok AB ∧ AB.texts = [s "b", s "c"] ∧
    deleteLines P (lit " x") = .ok B ∧ deleteLines B (lit "interface") = .ok BA ∧ BA.texts = [s "c"] :=
  ⟨_, _, _, _, _, rfl, rfl, rfl, by decide, rfl, rfl, by decide⟩

end Edit

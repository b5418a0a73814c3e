import Verif.Edit.Grow

/-! # C260: insert_before adds a leaf in front of a tree -/

namespace Edit

open Py Conf Query

/-- The trees with the new leaf `t` in front of the tree whose first line has number `i`, at its level; the first of their lines has
number `p`. -/
inductive Spec.Front (t : Str) : Nat → List Spec.Node → Nat → List Spec.Node → Prop
  | here {p k ks} : Spec.Front t p (k :: ks) p (.mk t [] :: k :: ks)
  | after {p k ks i ks'} : Spec.Front t (p + (Spec.nodeTexts k).length) ks i ks' → Spec.Front t p (k :: ks) i (k :: ks')
  | inside {p x kd i kd' ks} : Spec.Front t (p + 1) kd i kd' → Spec.Front t p (.mk x kd :: ks) i (.mk x kd' :: ks)

variable {wd : Nat → Nat} {t : Str}

/-- The new line stands in front of the tree. -/
theorem front_lines {p i : Nat} {ks ks' : List Spec.Node} (h : Spec.Front t p ks i ks') :
    ∀ (d : Nat), ∃ A k B e, Spec.renderAll wd d ks = A ++ (Spec.render wd e k ++ B) ∧
      Spec.renderAll wd d ks' = A ++ (List.replicate (wd e) ' ' ++ t) :: (Spec.render wd e k ++ B) ∧ i = p + A.length ∧
      (∀ u ∈ Spec.nodeTexts k, u ∈ Spec.allTexts ks) ∧ ∀ u ∈ Spec.allTexts ks', u = t ∨ u ∈ Spec.allTexts ks := by
  induction h with
  | @here p k ks =>
    intro d
    refine ⟨[], k, Spec.renderAll wd d ks, d, by rw [Spec.renderAll]; rfl, ?_, rfl,
      fun t ht => by simp [Spec.allTexts, ht], fun u hu => ?_⟩
    · simp [Spec.renderAll, Spec.render]
    · simp only [Spec.allTexts, Spec.nodeTexts, List.mem_append, List.mem_cons, List.not_mem_nil, or_false] at hu ⊢
      exact hu
  | @after p k ks i ks' _ ih =>
    intro d
    obtain ⟨A, k0, B, e, h2, h3, h4, h6, h7⟩ := ih d
    refine ⟨Spec.render wd d k ++ A, k0, B, e, by rw [Spec.renderAll, h2]; simp, by rw [Spec.renderAll, h3]; simp, ?_,
      fun t ht => by simp [Spec.allTexts, h6 t ht], fun u hu => ?_⟩
    · rw [List.length_append, render_length, h4]; omega
    · simp only [Spec.allTexts, List.mem_append] at hu ⊢
      have := h7 u
      grind
  | @inside p x kd i kd' ks _ ih =>
    intro d
    obtain ⟨A, k0, B, e, h2, h3, h4, h6, h7⟩ := ih (d + 1)
    refine ⟨(List.replicate (wd d) ' ' ++ x) :: A, k0, B ++ Spec.renderAll wd d ks, e, by rw [Spec.renderAll, Spec.render, h2]; simp,
      by rw [Spec.renderAll, Spec.render, h3]; simp, by rw [List.length_cons, h4]; omega,
      fun t ht => by simp [Spec.allTexts, Spec.nodeTexts, h6 t ht], fun u hu => ?_⟩
    · simp only [Spec.allTexts, Spec.nodeTexts, List.mem_append, List.mem_cons] at hu ⊢
      have := h7 u
      grind

variable {o : Opts} {P : Parsed}

/-- C260: after `insert_before()` with the indentation of the line and `commit()` the configuration is the trees with the new leaf. -/
theorem C260_before_partial {ks ks' : List Spec.Node} {i : Nat} {C : Compile} {rx : Rx} (hw : ∀ d, wd d < wd (d + 1))
    (hgk : ∀ u ∈ Spec.allTexts ks, Spec.Good o.delims u) (hgt : Spec.Good o.delims t)
    (hpl : Query.Spec.Plain (Spec.renderAll wd 0 ks')) (h : parse o (Spec.renderAll wd 0 ks) = .ok P)
    (hfront : Spec.Front t 0 ks i ks') (hC : C (P.h i).text = some rx) (ho : Spec.Only P rx i) :
    ∃ P' P'', objInsertBefore o C P i (List.replicate (P.h i).indent ' ' ++ t) = .ok P' ∧ atomic o P' = .ok P'' ∧
      P''.texts = Spec.renderAll wd 0 ks' ∧ Spec.ReadsAll wd P'' 0 (Spec.roots P'') ks' := by
  obtain ⟨A, k, B, e, hR, hR', hi, hk, hks⟩ := front_lines (wd := wd) hfront 0
  rw [Nat.zero_add] at hi
  subst hi
  have hg : ∀ u ∈ Spec.allTexts ks', Spec.Good o.delims u := fun u hu => by
    rcases hks u hu with rfl | h1
    · exact hgt
    · exact hgk u h1
  have good : ∀ l ∈ Spec.renderAll wd 0 ks', Conf.Spec.config o.delims l ∧ rstrip l = l := fun l hl => by
    obtain ⟨e, u, _, h2, rfl⟩ := mem_renderAll ks' hl
    exact ⟨(good_line (hg u h2) _).2.2, (good_line (hg u h2) _).2.1⟩
  generalize hL : Spec.renderAll wd 0 ks = lines at *
  generalize hL' : Spec.renderAll wd 0 ks' = lines' at *
  have hmem : ∀ l, l ∈ (List.replicate (wd e) ' ' ++ t) :: lines → l ∈ lines' := fun l hl => by
    rw [hR', List.mem_append, List.mem_cons, List.mem_append]
    rw [hR, List.mem_cons, List.mem_append, List.mem_append] at hl
    grind
  have hb : ∀ l ∈ lines, ¬ Conf.Spec.blank l := fun l hl => (good l (hmem l (by simp [hl]))).1.1
  have hnil : ∀ t ∈ lines, t ≠ [] := fun t ht => by rintro rfl; exact hb [] ht (fun _ hc => by cases hc)
  have hboot := h
  rw [texts_parse hnil] at hboot
  have hlist := list_full hboot (keep_of_noBlank (Or.inr hb))
  have hlen : lines.length = A.length + (Spec.render wd e k).length + B.length := by rw [hR]; simp; omega
  have hpos := render_pos (wd := wd) (d := e) k
  have hiP : A.length ∈ P.list := by rw [hlist]; simp; omega
  have hat0 : lineAt lines A.length = lineAt (Spec.render wd e k ++ B) 0 := by
    have := lineAt_append_right (a := A) (b := Spec.render wd e k ++ B) (x := 0)
    rw [Nat.add_zero] at this
    rw [hR, this]
  have hind : (P.h A.length).indent = wd e := by
    rw [show (P.h A.length).indent = lineIndent (lineAt lines A.length) from (attrs hboot (by omega)).2.1, lineIndent_eq, hat0]
    cases k with
    | mk x kd => exact (good_line (hgk x (hk x (by simp [Spec.nodeTexts]))) _).1
  have htx : ∀ x < lines.length, (P.h x).text = lineAt lines x := fun x hx => by
    rw [show (P.h x).text = rstrip (lineAt lines x) from (attrs hboot hx).1]
    exact (good _ (hmem _ (by simp [at_mem hx]))).2
  have hnew := good _ (hmem (List.replicate (wd e) ' ' ++ t) (by simp))
  obtain ⟨P', h1, h2⟩ := C58_before_partial (C := C) (.parse h) (numbered_parse h (by rw [input_id hnil]; exact Or.inr hb)) hiP
    (owned_parse h hiP) (by rw [htx _ (by omega)]; exact hnil _ (at_mem (by omega))) hC ho (List.replicate (wd e) ' ' ++ t)
    (Or.inr (fun l hl => by rw [List.mem_singleton.mp hl]; exact hnew.1.1))
  rw [hnew.2] at h2
  obtain ⟨Q, hQ⟩ : ∃ Q, parse o lines' = .ok Q := C28_plain o _ hpl.2.2 hpl.2.1
  have hPt : P.texts = lines := by
    rw [Parsed.texts, hlist]
    refine List.ext_getElem (by simp) (fun n h3 h4 => ?_)
    rw [List.getElem_map, List.getElem_range, htx n h4, lineAt, List.getD_eq_getElem?_getD, List.getElem?_eq_getElem h4]; rfl
  have hP't : P'.texts = lines' := by
    obtain ⟨A', B', new, e1, e2, e3, e4, e5, _⟩ := h2
    have hA : A'.length = A.length := by
      have : P.list[A'.length]? = some A.length := by rw [e1]; simp
      rw [hlist] at this
      obtain ⟨_, hh⟩ := List.getElem?_eq_some_iff.mp this
      simpa using hh
    have tx : ∀ l : List Nat, (∀ x ∈ l, x ∈ P.list) → l.map (fun x => (P'.h x).text) = l.map (fun x => (P.h x).text) :=
      fun l hl => List.map_congr_left (fun x hx => by have := congrArg Obj.text (e5 x (hl x hx)); exact this)
    have e6 : A'.map (fun x => (P.h x).text) ++ (A.length :: B').map (fun x => (P.h x).text) = A ++ (Spec.render wd e k ++ B) := by
      rw [← List.map_append, ← hR, ← hPt, Parsed.texts, e1]
    obtain ⟨e7, e8⟩ := List.append_inj e6 (by simp; omega)
    rw [Parsed.texts, e2, List.map_append, List.map_cons, e4, tx A' (fun x hx => by rw [e1]; simp [hx]),
      tx (A.length :: B') (fun x hx => by rw [e1]; exact List.mem_append_right _ hx), e7, e8, hR']
  have hnil' : ∀ u ∈ lines', u ≠ [] := fun u hu => by rintro rfl; exact (good [] hu).1.1 (fun _ hc => by cases hc)
  have hat : atomic o P' = .ok (embed P' Q) := by
    rw [atomic, hP't, ← texts_parse hnil', hQ]; rfl
  have hQt : Q.texts = lines' := by
    have hbQ := hQ
    rw [texts_parse hnil'] at hbQ
    rw [Parsed.texts, list_full hbQ (keep_of_noBlank (Or.inr (fun u hu => (good u hu).1.1)))]
    refine List.ext_getElem (by simp) (fun n h3 h4 => ?_)
    rw [List.getElem_map, List.getElem_range, show (Q.h n).text = rstrip (lineAt lines' n) from (attrs hbQ h4).1,
      (good _ (at_mem h4)).2, lineAt, List.getD_eq_getElem?_getD, List.getElem?_eq_getElem h4]; rfl
  refine ⟨P', _, by rw [hind]; exact h1, hat, (texts_embed P' Q).trans hQt, ?_⟩
  rw [roots_embed]
  subst hL'
  exact readsAll_embed ks' (C256_read_partial hw hg hpl hQ)

/-- ` d` goes in front of ` b`. -/
example : ∃ P P' P'', Spec.renderAll (fun d => d) 0 [.mk (s "a") [.mk (s "b") [.mk (s "c") []]], .mk (s "f") []] =
      [s "a", s " b", s "  c", s "f"] ∧
    Spec.Front (s "d") 0 [.mk (s "a") [.mk (s "b") [.mk (s "c") []]], .mk (s "f") []] 1
      [.mk (s "a") [.mk (s "d") [], .mk (s "b") [.mk (s "c") []]], .mk (s "f") []] ∧
    parse {} [s "a", s " b", s "  c", s "f"] = .ok P ∧ objInsertBefore {} plainC P 1 (s " d") = .ok P' ∧ atomic {} P' = .ok P'' ∧
    P''.texts = [s "a", s " d", s " b", s "  c", s "f"] ∧ Spec.roots P'' = [5, 9] ∧ (P''.h 5).children = [6, 7] ∧ (P''.h 7).children = [8] :=
  ⟨_, _, _, by decide +kernel, .inside .here, rfl, rfl, rfl, by decide +kernel, by decide +kernel, by decide +kernel, by decide +kernel⟩

/-- C260 does not hold for `insert_after()`: the new line takes the children of the line. -/
theorem C260_after_fails : ∃ P P' P'', parse {} [s "a", s " b", s "  c"] = .ok P ∧ objInsertAfter {} plainC P 1 (s " d") = .ok P' ∧
    atomic {} P' = .ok P'' ∧ P''.texts = [s "a", s " b", s " d", s "  c"] ∧ (P''.h 5).children = [] ∧ (P''.h 6).children = [7] :=
  ⟨_, _, _, rfl, rfl, rfl, by decide +kernel, by decide +kernel, by decide +kernel⟩

end Edit

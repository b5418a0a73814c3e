import Verif.Edit.Cut
import Verif.Edit.Last

/-! # C259: append_to_family adds a leaf to the tree -/

namespace Edit

open Py Conf Query

/-- The trees with the new leaf `t`, the last child of the line with number `i`; the first of their lines has number `p`. -/
inductive Spec.Grow (t : Str) : Nat → List Spec.Node → Nat → List Spec.Node → Prop
  | here {p x kd ks} : Spec.Grow t p (.mk x kd :: ks) p (.mk x (kd ++ [.mk t []]) :: ks)
  | after {p k ks i ks'} : Spec.Grow t (p + (Spec.nodeTexts k).length) ks i ks' → Spec.Grow t p (k :: ks) i (k :: ks')
  | inside {p x kd i kd' ks} : Spec.Grow t (p + 1) kd i kd' → Spec.Grow t p (.mk x kd :: ks) i (.mk x kd' :: ks)

variable {wd : Nat → Nat} {t : Str}

theorem renderAll_append : ∀ (a b : List Spec.Node) (d : Nat), Spec.renderAll wd d (a ++ b) = Spec.renderAll wd d a ++ Spec.renderAll wd d b
  | [], b, d => by rw [Spec.renderAll]; rfl
  | k :: a, b, d => by rw [List.cons_append, Spec.renderAll, Spec.renderAll, renderAll_append a b, List.append_assoc]

theorem allTexts_append : ∀ (a b : List Spec.Node), Spec.allTexts (a ++ b) = Spec.allTexts a ++ Spec.allTexts b
  | [], b => by rw [Spec.allTexts]; rfl
  | k :: a, b => by rw [List.cons_append, Spec.allTexts, Spec.allTexts, allTexts_append a b, List.append_assoc]

/-- The new line stands behind the tree it is added to. -/
theorem grow_lines {ds : List Char} (hw : ∀ d, wd d < wd (d + 1)) {p i : Nat} {ks ks' : List Spec.Node} (h : Spec.Grow t p ks i ks') :
    ∀ (d : Nat), (∀ t ∈ Spec.allTexts ks, Spec.Good ds t) → ∃ A k B e, d ≤ e ∧ Spec.renderAll wd d ks = A ++ (Spec.render wd e k ++ B) ∧
      Spec.renderAll wd d ks' = A ++ (Spec.render wd e k ++ (List.replicate (wd (e + 1)) ' ' ++ t) :: B) ∧ i = p + A.length ∧
      (∀ l, B.head? = some l → Conf.Spec.indent l ≤ wd e) ∧
      (∀ u ∈ Spec.nodeTexts k, u ∈ Spec.allTexts ks) ∧ ∀ u ∈ Spec.allTexts ks', u = t ∨ u ∈ Spec.allTexts ks := by
  induction h with
  | @here p x kd ks =>
    intro d hg
    refine ⟨[], .mk x kd, Spec.renderAll wd d ks, d, Nat.le_refl _, by rw [Spec.renderAll]; rfl, ?_, rfl, fun l hl => ?_,
      fun t ht => by simp [Spec.allTexts, ht], fun u hu => ?_⟩
    · rw [Spec.renderAll, Spec.render, renderAll_append, Spec.render]
      simp [Spec.renderAll, Spec.render]
    · exact low_head (ds := ds) (post := []) (by simp) ks (fun t ht => hg t (by simp [Spec.allTexts, ht])) l (by simpa using hl)
    · simp only [Spec.allTexts, Spec.nodeTexts, allTexts_append, List.mem_append, List.mem_cons, List.append_nil] at hu ⊢
      grind
  | @after p k ks i ks' _ ih =>
    intro d hg
    obtain ⟨A, k0, B, e, h1, h2, h3, h4, h5, h6, h7⟩ := ih d (fun t ht => hg t (by simp [Spec.allTexts, ht]))
    refine ⟨Spec.render wd d k ++ A, k0, B, e, h1, by rw [Spec.renderAll, h2]; simp, by rw [Spec.renderAll, h3]; simp, ?_, h5,
      fun t ht => by simp [Spec.allTexts, h6 t ht], fun u hu => ?_⟩
    · rw [List.length_append, render_length, h4]; omega
    · simp only [Spec.allTexts, List.mem_append] at hu ⊢
      have := h7 u
      grind
  | @inside p x kd i kd' ks _ ih =>
    intro d hg
    obtain ⟨A, k0, B, e, h1, h2, h3, h4, h5, h6, h7⟩ := ih (d + 1) (fun t ht => hg t (by simp [Spec.allTexts, Spec.nodeTexts, ht]))
    refine ⟨(List.replicate (wd d) ' ' ++ x) :: A, k0, B ++ Spec.renderAll wd d ks, e, by omega, by rw [Spec.renderAll, Spec.render, h2]; simp,
      by rw [Spec.renderAll, Spec.render, h3]; simp, by rw [List.length_cons, h4]; omega, fun l hl => ?_,
      fun t ht => by simp [Spec.allTexts, Spec.nodeTexts, h6 t ht], fun u hu => ?_⟩
    · cases B with
      | nil =>
        have := low_head (ds := ds) (wd := wd) (d := d) (post := []) (by simp) ks (fun t ht => hg t (by simp [Spec.allTexts, ht])) l (by simpa using hl)
        exact Nat.le_trans this (wd_mono hw (by omega))
      | cons b B => exact h5 l (by simpa using hl)
    · simp only [Spec.allTexts, Spec.nodeTexts, List.mem_append, List.mem_cons] at hu ⊢
      have := h7 u
      grind

variable {o : Opts} {P : Parsed}

/-- C259: after `append_to_family(t, auto_indent=True)` and `commit()` the configuration is the trees with the new leaf. -/
theorem C259_append_partial {ks ks' : List Spec.Node} {i j w : Nat} {C : Compile} {rx : Rx} (hw0 : 0 < w)
    (hgk : ∀ u ∈ Spec.allTexts ks, Spec.Good o.delims u) (hgt : Spec.Good o.delims t)
    (hpl : Query.Spec.Plain (Spec.renderAll (fun d => w * d) 0 ks'))
    (h : parse o (Spec.renderAll (fun d => w * d) 0 ks) = .ok P) (hd : Spec.NoDigits P (Spec.Fam P i))
    (hgrow : Spec.Grow t 0 ks i ks') (hj : Spec.LastOf P i j) (hC : C (P.h j).text = some rx) (ho : Spec.Only P rx j) :
    ∃ P' P'', appendToFamily o C P i t (-1) w true = .ok P' ∧ atomic o P' = .ok P'' ∧
      P''.texts = Spec.renderAll (fun d => w * d) 0 ks' ∧ Spec.ReadsAll (fun d => w * d) P'' 0 (Spec.roots P'') ks' := by
  have hw : ∀ d, (fun d => w * d) d < (fun d => w * d) (d + 1) := fun d => by
    show w * d < w * (d + 1); rw [Nat.mul_succ]; omega
  obtain ⟨A, k, B, e, _, hR, hR', hi, hlow, hk, hks⟩ := grow_lines (ds := o.delims) (wd := fun d => w * d) hw hgrow 0 hgk
  rw [Nat.zero_add] at hi
  subst hi
  have hg : ∀ u ∈ Spec.allTexts ks', Spec.Good o.delims u := fun u hu => by
    rcases hks u hu with rfl | h1
    · exact hgt
    · exact hgk u h1
  have good : ∀ l ∈ Spec.renderAll (fun d => w * d) 0 ks', Conf.Spec.config o.delims l ∧ rstrip l = l := fun l hl => by
    obtain ⟨e, u, _, h2, rfl⟩ := mem_renderAll ks' hl
    exact ⟨(good_line (hg u h2) _).2.2, (good_line (hg u h2) _).2.1⟩
  generalize hL : Spec.renderAll (fun d => w * d) 0 ks = lines at *
  generalize hL' : Spec.renderAll (fun d => w * d) 0 ks' = lines' at *
  have hmem : ∀ l, l ∈ (List.replicate (w * (e + 1)) ' ' ++ t) :: lines → l ∈ lines' := fun l hl => by
    rw [hR', List.mem_append, List.mem_append, List.mem_cons]
    rw [hR, List.mem_cons, List.mem_append, List.mem_append] at hl
    grind
  have hpl0 : Query.Spec.Plain ((List.replicate (w * (e + 1)) ' ' ++ t) :: lines) :=
    ⟨fun l hl => hpl.1 l (hmem l hl), fun l hl => hpl.2.1 l (hmem l hl), fun l hl => hpl.2.2 l (hmem l hl)⟩
  have hplL : Query.Spec.Plain lines :=
    ⟨fun l hl => hpl0.1 l (by simp [hl]), fun l hl => hpl0.2.1 l (by simp [hl]), fun l hl => hpl0.2.2 l (by simp [hl])⟩
  have hcfg : ∀ l ∈ lines, Conf.Spec.config o.delims l := fun l hl => (good l (hmem l (by simp [hl]))).1
  have hb : ∀ l ∈ lines, ¬ Conf.Spec.blank l := fun l hl => (hcfg l hl).1
  have hnil : ∀ t ∈ lines, t ≠ [] := fun t ht => by rintro rfl; exact hb [] ht (fun _ hc => by cases hc)
  have hboot := h
  rw [texts_parse hnil] at hboot
  have hlist := list_full hboot (keep_of_noBlank (Or.inr hb))
  have hlen : lines.length = A.length + (Spec.render (fun d => w * d) e k).length + B.length := by rw [hR]; simp; omega
  have hpos := render_pos (wd := fun d => w * d) (d := e) k
  have hiP : A.length ∈ P.list := by rw [hlist]; simp; omega
  have hfam := fam_node h hplL hw hcfg k (pre := A) (post := B) (d := e) hR (fun t ht => hgk t (hk t ht)) hlow
  have hjx : j + 1 = A.length + (Spec.render (fun d => w * d) e k).length := by
    have hnum : ∀ x ∈ P.list, (P.h x).linenum = x := fun x hx => by exact_mod_cast (tree_of_parse h).num x hx
    rcases hj with ⟨h1, rfl⟩ | ⟨h1, h2⟩
    · rcases Nat.eq_or_lt_of_le hpos with h3 | h3
      · omega
      · rcases (hfam (A.length + 1)).mpr (by omega) with h4 | h4
        · omega
        · exact absurd h4 (h1 _)
    · have h3 := (hfam j).mp (.inr h1)
      rcases (hfam (A.length + (Spec.render (fun d => w * d) e k).length - 1)).mpr (by omega) with h4 | h4
      · have := (desc_lt (tree_of_parse h) hiP h1).2
        omega
      · have h5 := h2 _ h4
        rw [hnum _ (desc_lt (tree_of_parse h) hiP h4).1, hnum _ (desc_lt (tree_of_parse h) hiP h1).1] at h5
        omega
  have hind : (P.h A.length).indent = w * e := by
    rw [show (P.h A.length).indent = lineIndent (lineAt lines A.length) from (attrs hboot (by omega)).2.1, lineIndent_eq, hR]
    have := lineAt_append_right (a := A) (b := Spec.render (fun d => w * d) e k ++ B) (x := 0)
    rw [Nat.add_zero] at this
    rw [this]
    cases k with
    | mk x kd => exact (good_line (hgk x (hk x (by simp [Spec.nodeTexts]))) _).1
  have hnew := good _ (hmem (List.replicate (w * (e + 1)) ' ' ++ t) (by simp))
  have hlt : lstrip t = t := by
    obtain ⟨c, r, rfl, h1, _⟩ := hgt
    exact lstrip_of_head (fun a ha => by cases ha; exact h1)
  obtain ⟨P', h1, h2⟩ := C40_append_partial (C := C) (.parse h) (numbered_parse h (by rw [input_id hnil]; exact Or.inr hb)) (owned_parse h hiP)
    (fun _ hx => fam_parse h hiP hx) hd hj hC ho t (-1) w true (List.replicate (w * (e + 1)) ' ' ++ t)
    (by rw [if_pos rfl, hind, hlt, Nat.mul_succ]) (Or.inr (fun l hl => by rw [List.mem_singleton.mp hl]; exact hnew.1.1))
  rw [hnew.2] at h2
  obtain ⟨Q, hQ⟩ : ∃ Q, parse o lines' = .ok Q := C28_plain o _ hpl.2.2 hpl.2.1
  have hPt : P.texts = lines := by
    rw [Parsed.texts, hlist]
    refine List.ext_getElem (by simp) (fun n h3 h4 => ?_)
    rw [List.getElem_map, List.getElem_range, show (P.h n).text = rstrip (lineAt lines n) from (attrs hboot h4).1,
      (good _ (hmem _ (by simp [at_mem h4]))).2, lineAt, List.getD_eq_getElem?_getD, List.getElem?_eq_getElem h4]; rfl
  have hP't : P'.texts = lines' := by
    obtain ⟨A', B', new, e1, e2, e3, e4, e5, _⟩ := h2
    have hA : A'.length = j := by
      have : P.list[A'.length]? = some j := by rw [e1]; simp
      rw [hlist] at this
      obtain ⟨_, hh⟩ := List.getElem?_eq_some_iff.mp this
      simpa using hh
    have tx : ∀ l : List Nat, (∀ x ∈ l, x ∈ P.list) → l.map (fun x => (P'.h x).text) = l.map (fun x => (P.h x).text) :=
      fun l hl => List.map_congr_left (fun x hx => by have := congrArg Obj.text (e5 x (hl x hx)); exact this)
    have e6 : (A' ++ [j]).map (fun x => (P.h x).text) ++ B'.map (fun x => (P.h x).text) =
        (A ++ Spec.render (fun d => w * d) e k) ++ B := by
      rw [← List.map_append, List.append_assoc, List.append_assoc, ← hR, ← hPt, Parsed.texts, e1]; rfl
    obtain ⟨e7, e8⟩ := List.append_inj e6 (by simp; omega)
    rw [Parsed.texts, e2, show A' ++ j :: new :: B' = (A' ++ [j]) ++ new :: B' by simp, List.map_append, List.map_cons, e4,
      tx (A' ++ [j]) (fun x hx => by rw [e1]; simp at hx ⊢; exact hx.imp id .inl), tx B' (fun x hx => by rw [e1]; simp [hx]), e7, e8, hR']
    simp
  have hnil' : ∀ u ∈ lines', u ≠ [] := fun u hu => by rintro rfl; exact (good [] hu).1.1 (fun _ hc => by cases hc)
  have hat : atomic o P' = .ok (embed P' Q) := by
    rw [atomic, hP't, ← texts_parse hnil', hQ]; rfl
  have hQt : Q.texts = lines' := by
    have hbQ := hQ
    rw [texts_parse hnil'] at hbQ
    rw [Parsed.texts, list_full hbQ (keep_of_noBlank (Or.inr (fun u hu => (good u hu).1.1)))]
    refine List.ext_getElem (by simp) (fun n h3 h4 => ?_)
    rw [List.getElem_map, List.getElem_range, show (Q.h n).text = rstrip (lineAt lines' n) from (attrs hbQ h4).1,
      (good _ (at_mem h4)).2, lineAt, List.getD_eq_getElem?_getD, List.getElem?_eq_getElem h4]; rfl
  refine ⟨P', _, h1, hat, (texts_embed P' Q).trans hQt, ?_⟩
  rw [roots_embed]
  subst hL'
  exact readsAll_embed ks' (C256_read_partial hw hg hpl hQ)

/-- ` d` becomes the last child of `a`. -/
example : ∃ P P' P'', Spec.renderAll (fun d => 1 * d) 0 [.mk (s "a") [.mk (s "b") [.mk (s "c") []]], .mk (s "f") []] =
      [s "a", s " b", s "  c", s "f"] ∧
    Spec.Grow (s "d") 0 [.mk (s "a") [.mk (s "b") [.mk (s "c") []]], .mk (s "f") []] 0
      [.mk (s "a") [.mk (s "b") [.mk (s "c") []], .mk (s "d") []], .mk (s "f") []] ∧
    parse {} [s "a", s " b", s "  c", s "f"] = .ok P ∧ appendToFamily {} plainC P 0 (s "d") (-1) 1 true = .ok P' ∧ atomic {} P' = .ok P'' ∧
    P''.texts = [s "a", s " b", s "  c", s " d", s "f"] ∧ Spec.roots P'' = [5, 9] ∧ (P''.h 5).children = [6, 8] :=
  ⟨_, _, _, by decide +kernel, .here, rfl, rfl, rfl, by decide +kernel, by decide +kernel, by decide +kernel⟩

/-- C259 needs that the text of the last line of the family occurs once: else the new line is added to both trees. -/
theorem C259_twice_fails : ∃ P P' P'', parse {} [s "a", s " b", s "c", s " b"] = .ok P ∧
    appendToFamily {} plainC P 0 (s "d") (-1) 1 true = .ok P' ∧ atomic {} P' = .ok P'' ∧
    P''.texts = [s "a", s " b", s " d", s "c", s " b", s " d"] :=
  ⟨_, _, _, rfl, rfl, rfl, by decide +kernel⟩

end Edit

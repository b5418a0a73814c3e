import Verif.Edit.Cut
import Verif.Query.Walk

/-! # C264: obj.ioscfg is the written subtree of the object -/

namespace Edit

open Py Conf Query

/-- The tree `k` stands at depth `e` and its first line has number `i`, among trees at depth `d` whose first line has number `p`. -/
inductive Spec.Place : Nat → Nat → List Spec.Node → Nat → Nat → Spec.Node → Prop
  | here {p d k ks} : Spec.Place p d (k :: ks) p d k
  | after {p d k ks i e x} : Spec.Place (p + (Spec.nodeTexts k).length) d ks i e x → Spec.Place p d (k :: ks) i e x
  | inside {p d t kd ks i e x} : Spec.Place (p + 1) (d + 1) kd i e x → Spec.Place p d (.mk t kd :: ks) i e x

variable {wd : Nat → Nat}

/-- The lines of the tree stand together, and the lines that follow are not deeper. -/
theorem place_lines {ds : List Char} (hw : ∀ d, wd d < wd (d + 1)) {p d i e : Nat} {ks : List Spec.Node} {k : Spec.Node}
    (h : Spec.Place p d ks i e k) (hg : ∀ t ∈ Spec.allTexts ks, Spec.Good ds t) : d ≤ e ∧ ∃ A B,
      Spec.renderAll wd d ks = A ++ (Spec.render wd e k ++ B) ∧ i = p + A.length ∧
      (∀ l, B.head? = some l → Conf.Spec.indent l ≤ wd e) ∧ ∀ t ∈ Spec.nodeTexts k, t ∈ Spec.allTexts ks := by
  induction h with
  | @here p d k ks =>
    refine ⟨Nat.le_refl _, [], Spec.renderAll wd d ks, by rw [Spec.renderAll]; rfl, rfl, fun l hl => ?_,
      fun t ht => by simp [Spec.allTexts, ht]⟩
    exact low_head (ds := ds) (post := []) (by simp) ks (fun t ht => hg t (by simp [Spec.allTexts, ht])) l (by simpa using hl)
  | @after p d k ks i e x _ ih =>
    obtain ⟨h1, A, B, h2, h4, h5, h6⟩ := ih (fun t ht => hg t (by simp [Spec.allTexts, ht]))
    refine ⟨h1, Spec.render wd d k ++ A, B, by rw [Spec.renderAll, h2]; simp, ?_, h5, fun t ht => by simp [Spec.allTexts, h6 t ht]⟩
    rw [List.length_append, render_length, h4]; omega
  | @inside p d t0 kd ks i e x _ ih =>
    obtain ⟨h1, A, B, h2, h4, h5, h6⟩ := ih (fun t ht => hg t (by simp [Spec.allTexts, Spec.nodeTexts, ht]))
    refine ⟨by omega, (List.replicate (wd d) ' ' ++ t0) :: A, B ++ Spec.renderAll wd d ks, by rw [Spec.renderAll, Spec.render, h2]; simp,
      by rw [List.length_cons, h4]; omega, fun l hl => ?_, fun t ht => by simp [Spec.allTexts, Spec.nodeTexts, h6 t ht]⟩
    cases B with
    | nil =>
      have := low_head (ds := ds) (wd := wd) (d := d) (post := []) (by simp) ks (fun t ht => hg t (by simp [Spec.allTexts, ht])) l (by simpa using hl)
      exact Nat.le_trans this (wd_mono hw (by omega))
    | cons b B => exact h5 l (by simpa using hl)

mutual
/-- Written deeper down is written with wider indentations. -/
theorem render_shift (e : Nat) : ∀ (k : Spec.Node) (d : Nat), Spec.render (fun n => wd (n + e)) d k = Spec.render wd (d + e) k
  | .mk t ks, d => by rw [Spec.render, Spec.render, renderAll_shift e ks, show d + 1 + e = d + e + 1 by omega]
theorem renderAll_shift (e : Nat) : ∀ (ks : List Spec.Node) (d : Nat), Spec.renderAll (fun n => wd (n + e)) d ks = Spec.renderAll wd (d + e) ks
  | [], d => by rw [Spec.renderAll, Spec.renderAll]
  | k :: ks, d => by rw [Spec.renderAll, Spec.renderAll, render_shift e k, renderAll_shift e ks]
end

variable {o : Opts} {P P' : Parsed}

/-- C264: `obj.ioscfg` has the lines of the subtree of the object as they were written. -/
theorem C264_subtree_partial {ks : List Spec.Node} {i e : Nat} {k : Spec.Node} (hw : ∀ d, wd d < wd (d + 1))
    (hg : ∀ t ∈ Spec.allTexts ks, Spec.Good o.delims t) (hpl : Query.Spec.Plain (Spec.renderAll wd 0 ks))
    (h : parse o (Spec.renderAll wd 0 ks) = .ok P) (hk : Spec.Place 0 0 ks i e k) : objIoscfg P i = Spec.render wd e k := by
  obtain ⟨_, A, B, hR, hi, hlow, hks⟩ := place_lines (ds := o.delims) hw hk hg
  rw [Nat.zero_add] at hi
  subst hi
  have hcfg : ∀ l ∈ Spec.renderAll wd 0 ks, Conf.Spec.config o.delims l := fun l hl => by
    obtain ⟨e, t, _, h2, rfl⟩ := mem_renderAll ks hl
    exact (good_line (hg t h2) _).2.2
  have hrs : ∀ l ∈ Spec.renderAll wd 0 ks, rstrip l = l := fun l hl => by
    obtain ⟨e, t, _, h2, rfl⟩ := mem_renderAll ks hl
    exact (good_line (hg t h2) _).2.1
  have hfam := fam_node h hpl hw hcfg k (pre := A) (post := B) (d := e) hR (fun t ht => hg t (hks t ht)) hlow
  have s := Query.walk_setup h hpl hcfg
  generalize hL : Spec.renderAll wd 0 ks = lines at *
  have hnil : ∀ t ∈ lines, t ≠ [] := fun t ht => by rintro rfl; exact (hcfg [] ht).1 (fun _ hc => by cases hc)
  have hboot := h
  rw [texts_parse hnil] at hboot
  have hlen : lines.length = A.length + (Spec.render wd e k).length + B.length := by rw [hR]; simp; omega
  have hpos := render_pos (wd := wd) (d := e) k
  have hiP : A.length ∈ P.list := (s.mem _).mpr (by omega)
  have hT : ∀ x < lines.length, (P.h x).text = lineAt lines x := fun x hx => by
    rw [show (P.h x).text = rstrip (lineAt lines x) from (attrs hboot hx).1]
    exact hrs _ (at_mem hx)
  have hwalk : A.length :: allChildren P A.length = List.range' A.length (Spec.render wd e k).length := by
    refine increasing_ext (Query.walk_inc s hiP) List.pairwise_lt_range' (fun x => ?_)
    rw [List.mem_cons, (s.all _ hiP).2, List.mem_range'_1, ← hfam x]
    rfl
  have e1 : objIoscfg P A.length = (A.length :: allChildren P A.length).map (fun j => (P.h j).text) := rfl
  rw [e1, hwalk]
  refine List.ext_getElem? (fun n => ?_)
  rw [List.getElem?_map]
  by_cases hn : n < (Spec.render wd e k).length
  · rw [List.getElem?_range' hn, Option.map_some, hT _ (by omega), hR, Nat.one_mul, lineAt_append_right, lineAt_append_left hn, lineAt,
      List.getD_eq_getElem?_getD, List.getElem?_eq_getElem hn]; rfl
  · rw [List.getElem?_eq_none (by simp; omega), List.getElem?_eq_none (by omega)]; rfl

/-- C264: read on its own, `obj.ioscfg` is the subtree again. -/
theorem C264_again_partial {ks : List Spec.Node} {i e : Nat} {k : Spec.Node} (hw : ∀ d, wd d < wd (d + 1))
    (hg : ∀ t ∈ Spec.allTexts ks, Spec.Good o.delims t) (hpl : Query.Spec.Plain (Spec.renderAll wd 0 ks))
    (h : parse o (Spec.renderAll wd 0 ks) = .ok P) (hk : Spec.Place 0 0 ks i e k) :
    ∃ P', parse o (objIoscfg P i) = .ok P' ∧ Spec.ReadsAll (fun n => wd (n + e)) P' 0 (Spec.roots P') [k] := by
  obtain ⟨_, A, B, hR, hi, hlow, hks⟩ := place_lines (ds := o.delims) hw hk hg
  have hio := C264_subtree_partial hw hg hpl h hk
  have e1 : objIoscfg P i = Spec.renderAll (fun n => wd (n + e)) 0 [k] := by
    rw [hio, renderAll_shift, Nat.zero_add, Spec.renderAll, Spec.renderAll, List.append_nil]
  have hsub : ∀ l ∈ objIoscfg P i, l ∈ Spec.renderAll wd 0 ks := fun l hl => by
    rw [hio] at hl; rw [hR]; simp [hl]
  have hpl' : Query.Spec.Plain (objIoscfg P i) :=
    ⟨fun l hl => hpl.1 l (hsub l hl), fun l hl => hpl.2.1 l (hsub l hl), fun l hl => hpl.2.2 l (hsub l hl)⟩
  obtain ⟨P', hP'⟩ : ∃ P', parse o (objIoscfg P i) = .ok P' := C28_plain o _ hpl'.2.2 hpl'.2.1
  refine ⟨P', hP', ?_⟩
  rw [e1] at hP' hpl'
  exact C256_read_partial (fun d => by have := hw (d + e); rwa [show d + e + 1 = d + 1 + e by omega] at this)
    (fun t ht => hg t (hks t (by simpa [Spec.allTexts] using ht))) hpl' hP'

/-- The subtree of ` b`. -/
example : ∃ P P', Spec.renderAll (fun d => d) 0 [.mk (s "a") [.mk (s "b") [.mk (s "c") []], .mk (s "d") []], .mk (s "f") []] =
      [s "a", s " b", s "  c", s " d", s "f"] ∧
    Spec.Place 0 0 [.mk (s "a") [.mk (s "b") [.mk (s "c") []], .mk (s "d") []], .mk (s "f") []] 1 1 (.mk (s "b") [.mk (s "c") []]) ∧
    parse {} [s "a", s " b", s "  c", s " d", s "f"] = .ok P ∧ objIoscfg P 1 = [s " b", s "  c"] ∧
    parse {} [s " b", s "  c"] = .ok P' ∧ (P'.h 0).children = [1] :=
  ⟨_, _, by decide +kernel, .inside .here, rfl, by decide +kernel, rfl, by decide +kernel⟩

/-- C264 does not hold with a comment inside: the comment is left out. -/
theorem C264_comment_fails : ∃ P, parse {} [s "a", s " b", s "!", s " c"] = .ok P ∧ objIoscfg P 0 = [s "a", s " b", s " c"] :=
  ⟨_, rfl, by decide +kernel⟩

end Edit

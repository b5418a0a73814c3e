import Verif.Edit.Written
import Verif.Edit.Prune

/-! # C258: deleting an object takes its subtree out of the tree -/

namespace Edit

open Py Conf Query

/-- The trees without the subtree whose first line has number `i`; the first of their lines has number `p`. -/
inductive Spec.Cut : Nat → List Spec.Node → Nat → List Spec.Node → Prop
  | here {p k ks} : Spec.Cut p (k :: ks) p ks
  | after {p k ks i ks'} : Spec.Cut (p + (Spec.nodeTexts k).length) ks i ks' → Spec.Cut p (k :: ks) i (k :: ks')
  | inside {p t ds i ds' ks} : Spec.Cut (p + 1) ds i ds' → Spec.Cut p (.mk t ds :: ks) i (.mk t ds' :: ks)

variable {wd : Nat → Nat}

mutual
theorem render_length : ∀ (k : Spec.Node) (d : Nat), (Spec.render wd d k).length = (Spec.nodeTexts k).length
  | .mk t ks, d => by rw [Spec.render, Spec.nodeTexts, List.length_cons, List.length_cons, renderAll_length ks]
theorem renderAll_length : ∀ (ks : List Spec.Node) (d : Nat), (Spec.renderAll wd d ks).length = (Spec.allTexts ks).length
  | [], d => by rw [Spec.renderAll, Spec.allTexts]
  | k :: ks, d => by rw [Spec.renderAll, Spec.allTexts, List.length_append, List.length_append, render_length k, renderAll_length ks]
end

/-- What is cut off is a tree among the lines, and the lines that follow it are not deeper. -/
theorem cut_lines {ds : List Char} (hw : ∀ d, wd d < wd (d + 1)) {p i : Nat} {ks ks' : List Spec.Node} (h : Spec.Cut p ks i ks') :
    ∀ (d : Nat), (∀ t ∈ Spec.allTexts ks, Spec.Good ds t) → ∃ A k B e, d ≤ e ∧ Spec.renderAll wd d ks = A ++ (Spec.render wd e k ++ B) ∧
      Spec.renderAll wd d ks' = A ++ B ∧ i = p + A.length ∧ (∀ l, B.head? = some l → Conf.Spec.indent l ≤ wd e) ∧
      (∀ t ∈ Spec.nodeTexts k, t ∈ Spec.allTexts ks) ∧ ∀ t ∈ Spec.allTexts ks', t ∈ Spec.allTexts ks := by
  induction h with
  | @here p k ks =>
    intro d hg
    refine ⟨[], k, Spec.renderAll wd d ks, d, Nat.le_refl _, by rw [Spec.renderAll]; rfl, rfl, rfl, fun l hl => ?_,
      fun t ht => by simp [Spec.allTexts, ht], fun t ht => by simp [Spec.allTexts, ht]⟩
    exact low_head (ds := ds) (post := []) (by simp) ks (fun t ht => hg t (by simp [Spec.allTexts, ht])) l (by simpa using hl)
  | @after p k ks i ks' _ ih =>
    intro d hg
    obtain ⟨A, k0, B, e, h1, h2, h3, h4, h5, h6, h7⟩ := ih d (fun t ht => hg t (by simp [Spec.allTexts, ht]))
    refine ⟨Spec.render wd d k ++ A, k0, B, e, h1, by rw [Spec.renderAll, h2]; simp, by rw [Spec.renderAll, h3]; simp, ?_, h5,
      fun t ht => by simp [Spec.allTexts, h6 t ht], fun t ht => ?_⟩
    · rw [List.length_append, render_length, h4]; omega
    · rw [Spec.allTexts, List.mem_append] at ht ⊢
      exact ht.imp id (h7 t)
  | @inside p t0 kd i kd' ks _ ih =>
    intro d hg
    obtain ⟨A, k0, B, e, h1, h2, h3, h4, h5, h6, h7⟩ := ih (d + 1) (fun t ht => hg t (by simp [Spec.allTexts, Spec.nodeTexts, ht]))
    refine ⟨(List.replicate (wd d) ' ' ++ t0) :: A, k0, B ++ Spec.renderAll wd d ks, e, by omega, by rw [Spec.renderAll, Spec.render, h2]; simp,
      by rw [Spec.renderAll, Spec.render, h3]; simp, by rw [List.length_cons, h4]; omega, fun l hl => ?_,
      fun t ht => by simp [Spec.allTexts, Spec.nodeTexts, h6 t ht], fun t ht => ?_⟩
    · cases B with
      | nil =>
        have := low_head (ds := ds) (wd := wd) (d := d) (post := []) (by simp) ks (fun t ht => hg t (by simp [Spec.allTexts, ht])) l (by simpa using hl)
        exact Nat.le_trans this (wd_mono hw (by omega))
      | cons b B => exact h5 l (by simpa using hl)
    · rw [Spec.allTexts, Spec.nodeTexts, List.mem_append, List.mem_cons] at ht ⊢
      exact ht.imp (fun h => h.imp id (h7 t)) id

variable {o : Opts} {lines : List Str} {P P' P'' : Parsed}

mutual
theorem fam_node (h : parse o lines = .ok P) (hpl : Query.Spec.Plain lines) (hw : ∀ d, wd d < wd (d + 1))
    (hcfg : ∀ l ∈ lines, Conf.Spec.config o.delims l) : ∀ (k : Spec.Node) {pre post : List Str} {d : Nat},
    lines = pre ++ (Spec.render wd d k ++ post) → (∀ t ∈ Spec.nodeTexts k, Spec.Good o.delims t) →
    (∀ l, post.head? = some l → Conf.Spec.indent l ≤ wd d) → ∀ x, Spec.Fam P pre.length x ↔
      pre.length ≤ x ∧ x < pre.length + (Spec.render wd d k).length
  | .mk t ks, pre, post, d, hl, hg, hlow, x => by
    obtain ⟨_, h2⟩ := kids_of h hpl hw hcfg hl hg hlow
    have ih := fam_all h hpl hw hcfg ks (pre := pre ++ [List.replicate (wd d) ' ' ++ t]) (post := post) (d := d + 1)
      (by rw [hl, Spec.render]; simp) (fun t' ht => hg t' (by simp [Spec.nodeTexts, ht]))
      (fun l hp => Nat.le_trans (hlow l hp) (Nat.le_of_lt (hw d))) x
    rw [show (pre ++ [List.replicate (wd d) ' ' ++ t]).length = pre.length + 1 by simp, ← h2] at ih
    rw [Spec.render, List.length_cons]
    constructor
    · rintro (rfl | hd)
      · omega
      · have : ∃ c ∈ (P.h pre.length).children, Spec.Fam P c x := by
          cases hd with
          | child hc => exact ⟨_, hc, .inl rfl⟩
          | step hc hd => exact ⟨_, hc, .inr hd⟩
        have := ih.mp this
        omega
    · rintro ⟨h3, h4⟩
      rcases Nat.eq_or_lt_of_le h3 with h5 | h5
      · exact .inl h5.symm
      · obtain ⟨c, hc, hf⟩ := ih.mpr (by omega)
        refine .inr ?_
        rcases hf with rfl | hf
        · exact .child hc
        · exact .step hc hf
theorem fam_all (h : parse o lines = .ok P) (hpl : Query.Spec.Plain lines) (hw : ∀ d, wd d < wd (d + 1))
    (hcfg : ∀ l ∈ lines, Conf.Spec.config o.delims l) : ∀ (ks : List Spec.Node) {pre post : List Str} {d : Nat},
    lines = pre ++ (Spec.renderAll wd d ks ++ post) → (∀ t ∈ Spec.allTexts ks, Spec.Good o.delims t) →
    (∀ l, post.head? = some l → Conf.Spec.indent l ≤ wd d) → ∀ x, (∃ c ∈ starts wd d pre.length ks, Spec.Fam P c x) ↔
      pre.length ≤ x ∧ x < pre.length + (Spec.renderAll wd d ks).length
  | [], _, _, _, _, _, _, x => by
    simp only [starts, Spec.renderAll, List.length_nil, List.not_mem_nil, false_and, exists_false, false_iff]; omega
  | k :: ks, pre, post, d, hl, hg, hlow, x => by
    have hgk : ∀ t ∈ Spec.allTexts ks, Spec.Good o.delims t := fun t' ht => hg t' (by simp [Spec.allTexts, ht])
    rw [Spec.renderAll] at hl
    have i1 := fam_node h hpl hw hcfg k (pre := pre) (post := Spec.renderAll wd d ks ++ post) (d := d) (by rw [hl]; simp)
        (fun t' ht => hg t' (by simp [Spec.allTexts, ht])) (low_head hlow ks hgk) x
    have i2 := fam_all h hpl hw hcfg ks (pre := pre ++ Spec.render wd d k) (post := post) (d := d) (by rw [hl]; simp) hgk hlow x
    rw [List.length_append] at i2
    rw [starts, Spec.renderAll, List.length_append]
    constructor
    · rintro ⟨c, hc, hf⟩
      rw [List.mem_cons] at hc
      rcases hc with rfl | hc
      · have := i1.mp hf; omega
      · have := i2.mp ⟨c, hc, hf⟩; omega
    · rintro ⟨h3, h4⟩
      by_cases h5 : x < pre.length + (Spec.render wd d k).length
      · exact ⟨pre.length, by simp, i1.mpr ⟨h3, h5⟩⟩
      · obtain ⟨c, hc, hf⟩ := i2.mpr (by omega)
        exact ⟨c, by simp [hc], hf⟩
end

mutual
theorem reads_embed {P Q : Parsed} : ∀ (k : Spec.Node) {d i : Nat}, Spec.Reads wd Q d i k → Spec.Reads wd (embed P Q) d (i + P.n) k
  | .mk t ks, d, i, h => by
    rw [Spec.Reads] at h ⊢
    have e : (embed P Q).h (i + P.n) = moveObj P.n (Q.h i) := by simp [embed]; intro h; omega
    rw [e]
    exact ⟨h.1, readsAll_embed ks h.2⟩
theorem readsAll_embed {P Q : Parsed} : ∀ (ks : List Spec.Node) {d : Nat} {l : List Nat}, Spec.ReadsAll wd Q d l ks →
    Spec.ReadsAll wd (embed P Q) d (l.map (· + P.n)) ks
  | [], d, l, h => by
    rw [Spec.ReadsAll] at h ⊢; rw [h]; rfl
  | k :: ks, d, l, h => by
    simp only [Spec.ReadsAll] at h ⊢
    obtain ⟨i, r, rfl, h1, h2⟩ := h
    exact ⟨_, _, rfl, reads_embed k h1, readsAll_embed ks h2⟩
end

theorem roots_embed (P Q : Parsed) : Spec.roots (embed P Q) = (Spec.roots Q).map (· + P.n) := by
  rw [Spec.roots, Spec.roots]
  show (Q.list.map (· + P.n)).filter _ = _
  rw [List.filter_map]
  congr 1
  refine List.filter_congr (fun i _ => ?_)
  have e : (embed P Q).h (i + P.n) = moveObj P.n (Q.h i) := by simp [embed]; intro h; omega
  simp only [Function.comp_apply, e, moveObj, Nat.add_right_cancel_iff]

/-- C258: after `delete()` of a line and `commit()` the configuration is the trees without the one of this line. -/
theorem C258_delete_partial {ks ks' : List Spec.Node} {i : Nat} (hw : ∀ d, wd d < wd (d + 1))
    (hg : ∀ t ∈ Spec.allTexts ks, Spec.Good o.delims t) (hpl : Query.Spec.Plain (Spec.renderAll wd 0 ks))
    (h : parse o (Spec.renderAll wd 0 ks) = .ok P) (hd : Spec.NoDigits P (Spec.Fam P i)) (hcut : Spec.Cut 0 ks i ks') :
    ∃ P' P'', delete P i true = .ok P' ∧ P'.texts = Spec.renderAll wd 0 ks' ∧ atomic o P' = .ok P'' ∧
      Spec.ReadsAll wd P'' 0 (Spec.roots P'') ks' := by
  obtain ⟨A, k, B, e, _, hR, hR', hi, hlow, hk, hks⟩ := cut_lines (ds := o.delims) hw hcut 0 hg
  rw [Nat.zero_add] at hi
  subst hi
  have hcfg : ∀ l ∈ Spec.renderAll wd 0 ks, Conf.Spec.config o.delims l := fun l hl => by
    obtain ⟨e, t, _, h2, rfl⟩ := mem_renderAll ks hl
    exact (good_line (hg t h2) _).2.2
  have hrs : ∀ l ∈ Spec.renderAll wd 0 ks, rstrip l = l := fun l hl => by
    obtain ⟨e, t, _, h2, rfl⟩ := mem_renderAll ks hl
    exact (good_line (hg t h2) _).2.1
  have hfam := fam_node h hpl hw hcfg k (pre := A) (post := B) (d := e) hR (fun t ht => hg t (hk t ht)) hlow
  have hpl' : Query.Spec.Plain (Spec.renderAll wd 0 ks') := by
    have hsub : ∀ l ∈ Spec.renderAll wd 0 ks', l ∈ Spec.renderAll wd 0 ks := fun l hl => by
      rw [hR'] at hl; rw [hR]; simp at hl ⊢; exact hl.imp id .inr
    exact ⟨fun l hl => hpl.1 l (hsub l hl), fun l hl => hpl.2.1 l (hsub l hl), fun l hl => hpl.2.2 l (hsub l hl)⟩
  generalize hL : Spec.renderAll wd 0 ks = lines at *
  have hb : ∀ l ∈ lines, ¬ Conf.Spec.blank l := fun l hl => (hcfg l hl).1
  have hnil : ∀ t ∈ lines, t ≠ [] := fun t ht => by rintro rfl; exact hb [] ht (fun _ hc => by cases hc)
  have hboot := h
  rw [texts_parse hnil] at hboot
  have hlist := list_full hboot (keep_of_noBlank (Or.inr hb))
  have hlen : lines.length = A.length + (Spec.render wd e k).length + B.length := by rw [hR]; simp; omega
  have hpos := render_pos (wd := wd) (d := e) k
  have hiP : A.length ∈ P.list := by rw [hlist]; simp; omega
  obtain ⟨P', hdel, hsub, hmem, hsame, _⟩ := C37_parse_partial h (by rw [input_id hnil]; exact Or.inr hb) hiP hd
  have hl' : P'.list = List.range A.length ++ List.range' (A.length + (Spec.render wd e k).length) B.length := by
    refine increasing_ext (List.Pairwise.sublist hsub (by rw [hlist]; exact List.pairwise_lt_range)) ?_ (fun x => ?_)
    · show List.Pairwise _ _
      rw [List.pairwise_append]
      refine ⟨List.pairwise_lt_range, List.pairwise_lt_range', fun a ha b hb => ?_⟩
      simp at ha hb; omega
    · rw [hmem, hfam, hlist, List.mem_append]
      simp only [List.mem_range, List.mem_range'_1]
      omega
  have htx : P'.texts = A ++ B := by
    have hT : ∀ x < lines.length, (P'.h x).text = lineAt lines x := fun x hx => by
      have e1 : (P'.h x).text = (P.h x).text := by have := congrArg Obj.text (hsame x); exact this
      rw [e1, show (P.h x).text = rstrip (lineAt lines x) from (attrs hboot hx).1]
      exact hrs _ (at_mem hx)
    rw [Parsed.texts, hl', List.map_append]
    congr 1
    · refine List.ext_getElem? (fun n => ?_)
      rw [List.getElem?_map]
      by_cases hn : n < A.length
      · rw [List.getElem?_range hn, Option.map_some, hT n (by omega), hR, lineAt_append_left hn, lineAt, List.getD_eq_getElem?_getD,
          List.getElem?_eq_getElem hn]; rfl
      · rw [List.getElem?_eq_none (by simp; omega), List.getElem?_eq_none (by omega)]; rfl
    · refine List.ext_getElem? (fun n => ?_)
      rw [List.getElem?_map]
      by_cases hn : n < B.length
      · rw [List.getElem?_range' hn, Option.map_some, hT _ (by omega), hR, show A.length + (Spec.render wd e k).length + 1 * n =
          A.length + ((Spec.render wd e k).length + n) by omega, lineAt_append_right, lineAt_append_right, lineAt, List.getD_eq_getElem?_getD,
          List.getElem?_eq_getElem hn]; rfl
      · rw [List.getElem?_eq_none (by simp; omega), List.getElem?_eq_none (by omega)]; rfl
  have hnb' : ∀ t ∈ A ++ B, t ≠ [] := fun t ht => hnil t (by rw [hR]; simp at ht ⊢; exact ht.imp id .inr)
  obtain ⟨Q, hQ⟩ : ∃ Q, parse o (A ++ B) = .ok Q := by
    rw [← hR']
    exact C28_plain o _ hpl'.2.2 hpl'.2.1
  have hat : atomic o P' = .ok (embed P' Q) := by
    rw [atomic, htx, ← texts_parse hnb', hQ]; rfl
  refine ⟨P', _, hdel, htx.trans hR'.symm, hat, ?_⟩
  rw [roots_embed]
  refine readsAll_embed ks' (C256_read_partial hw (fun t ht => hg t (hks t ht)) hpl' (by rw [hR']; exact hQ))

/-- `  b` with its child is deleted. -/
example : ∃ P P' P'', Spec.renderAll (fun d => 2 * d) 0 [.mk (s "a") [.mk (s "b") [.mk (s "c") []], .mk (s "e") []], .mk (s "f") []] =
      [s "a", s "  b", s "    c", s "  e", s "f"] ∧
    Spec.Cut 0 [.mk (s "a") [.mk (s "b") [.mk (s "c") []], .mk (s "e") []], .mk (s "f") []] 1 [.mk (s "a") [.mk (s "e") []], .mk (s "f") []] ∧
    parse {} [s "a", s "  b", s "    c", s "  e", s "f"] = .ok P ∧ delete P 1 true = .ok P' ∧ atomic {} P' = .ok P'' ∧
    P''.texts = [s "a", s "  e", s "f"] ∧ Spec.roots P'' = [5, 7] ∧ (P''.h 5).children = [6] :=
  ⟨_, _, _, by decide +kernel, .inside .here, rfl, rfl, rfl, by decide +kernel, by decide +kernel, by decide +kernel⟩

/-- C258 does not hold for `delete(recurse=False)`: the children are then below another line. -/
theorem C258_recurse_fails : ∃ P P' P'', parse {} [s "a", s " b", s "  c", s " d", s "  e"] = .ok P ∧ delete P 3 false = .ok P' ∧
    atomic {} P' = .ok P'' ∧ P''.texts = [s "a", s " b", s "  c", s "  e"] ∧ Spec.roots P'' = [5] ∧ (P''.h 5).children = [6] ∧
    (P''.h 6).children = [7, 8] :=
  ⟨_, _, _, rfl, rfl, rfl, by decide +kernel, by decide +kernel, by decide +kernel, by decide +kernel⟩

end Edit

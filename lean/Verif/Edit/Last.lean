import Verif.Edit.Reshape
import Verif.Edit.Raise

/-! # C255: lines appended one after another are the last children, in this order -/

namespace Edit.Spec

open Py Conf

/-- `lines'` are the lines after these steps, for each text of `ts`: read the lines, put the text behind the last line of
the family of line `i`, `commit()`. -/
inductive Appended (o : Opts) (i : Nat) : List Str → List Str → List Str → Prop
  | nil {lines} : Appended o i lines [] lines
  | cons {lines lines' t ts P P' P'' j} : parse o lines = .ok P → LastOf P i j → PutAfter P P' j t →
      atomic o P' = .ok P'' → Appended o i P''.texts ts lines' → Appended o i lines (t :: ts) lines'

/-- The texts of the children. -/
def childTexts (P : Parsed) (i : Nat) : List Str := (P.h i).children.map (fun c => (P.h c).text)

end Edit.Spec

namespace Edit

open Py Conf Query

variable {o : Opts} {lines : List Str} {P P' P'' : Parsed} {i j : Nat} {t : Str}

/-- The step of C255, for the configuration that is read from the lines after the commit. -/
theorem append_step (h : parse o lines = .ok P) (hpl : Query.Spec.Plain (t :: lines))
    (hc : ∀ l ∈ t :: lines, ¬ Conf.Spec.blank l ∧ rstrip l = l) (hcfg : ∀ l ∈ t :: lines, Conf.Spec.config o.delims l)
    (hi : i < lines.length) (hj : Spec.LastOf P i j) (hput : Spec.PutAfter P P' j t) (hat : atomic o P' = .ok P'')
    (hin : Conf.Spec.indent (lineAt lines i) < Conf.Spec.indent t)
    (hk : ∀ c ∈ (P.h i).children, Conf.Spec.indent t ≤ Conf.Spec.indent (lineAt lines c)) :
    ∃ S, parse o P''.texts = .ok S ∧ P'' = embed P' S ∧ P''.texts.length = lines.length + 1 ∧
      (∀ l ∈ P''.texts, l ∈ t :: lines) ∧ lineAt P''.texts i = lineAt lines i ∧ lineAt P''.texts (j + 1) = t ∧
      (∀ c ∈ (P.h i).children, lineAt P''.texts c = lineAt lines c) ∧
      (S.h i).children = (P.h i).children ++ [j + 1] := by
  have hcl : ∀ l ∈ lines, ¬ Conf.Spec.blank l ∧ rstrip l = l := fun l hl => hc l (by simp [hl])
  have hnil : ∀ t ∈ lines, t ≠ [] := fun t ht => by rintro rfl; exact (hcl [] ht).1 (fun _ hc => by cases hc)
  have hpl0 : Query.Spec.Plain lines :=
    ⟨fun l hl => hpl.1 l (by simp [hl]), fun l hl => hpl.2.1 l (by simp [hl]), fun l hl => hpl.2.2 l (by simp [hl])⟩
  have hcf : ∀ x < lines.length, Conf.Spec.config o.delims (lineAt lines x) := fun x hx => hcfg _ (by simp [at_mem hx])
  have tree := tree_of_parse h
  obtain ⟨S, T, hSp, hS, hP'', hlen, hjl, put, hpl', hmem', hSl, hl⟩ := put_setup h hpl hc hput hat
  have hPm : ∀ x, x ∈ P.list ↔ x < lines.length := fun x => by rw [hl]; simp
  have hSm : ∀ x, x ∈ S.list ↔ x < lines.length + 1 := fun x => by rw [hSl]; simp
  have hkd : ∀ d, Query.Spec.Desc P i d → Conf.Spec.indent t ≤ Conf.Spec.indent (lineAt lines d) := by
    intro d hd
    cases hd with
    | child hc => exact hk d hc
    | step hc hd =>
      have := desc_indent h hpl0 hnil (tree.kids _ ((hPm i).mpr hi) _ hc).1 hd
      have := hk _ hc
      omega
  obtain ⟨w, g1, _, g3, _, g5⟩ := C250_put h hpl hc hi (hcf i hi) hj hput hat (hcfg t (by simp)) hin (fun d hd _ => hkd d hd)
  subst hP''
  have hw : w = P'.n := by
    have e : S.list.map (· + P'.n) = (List.range (lines.length + 1)).map (w + ·) := g1
    rw [hSl, List.range_succ_eq_map] at e
    simp at e
    exact e.1.symm
  subst hw
  have hTx : (embed P' S).texts = T := by
    rw [texts_embed, Parsed.texts, hSl]
    refine List.ext_getElem (by simp [hlen]) (fun k h1 h2 => ?_)
    rw [List.getElem_map, List.getElem_range, show (S.h k).text = rstrip (lineAt T k) from (attrs hS h2).1,
      (hc _ (hmem' _ (at_mem h2))).2, lineAt, List.getD_eq_getElem?_getD, List.getElem?_eq_getElem h2]; rfl
  have par : ∀ x < lines.length, (S.h (Spec.moved j x)).parent = Spec.moved j (P.h x).parent := by
    intro x hx
    have := (g5 x hx (hcf x hx)).2
    rw [Nat.add_comm P'.n (Spec.moved j x), embed_new] at this
    have e : (S.h (Spec.moved j x)).parent + P'.n = P'.n + Spec.moved j (P.h x).parent := this
    omega
  have parn : (S.h (j + 1)).parent = i := by
    rw [Nat.add_comm P'.n (j + 1), embed_new] at g3
    have e : (S.h (j + 1)).parent + P'.n = P'.n + i := g3
    omega
  have hij : i ≤ j := by
    rcases hj with ⟨_, e⟩ | ⟨hd, _⟩
    · omega
    · have := (desc_lt tree ((hPm i).mpr hi) hd).2; omega
  have kid : ∀ c ∈ (P.h i).children, c ≤ j := by
    intro c hc
    rcases hj with ⟨hno, _⟩ | ⟨_, hm⟩
    · exact absurd (.child hc) (hno c)
    · have := hm c (.child hc)
      rw [tree.num c (tree.kids _ ((hPm i).mpr hi) _ hc).1, tree.num j ((hPm j).mpr hjl)] at this
      omega
  refine ⟨S, by rw [hTx]; exact hSp, rfl, by rw [hTx]; exact hlen, by rw [hTx]; exact hmem', by rw [hTx]; exact put.lo i hij,
    by rw [hTx]; exact put.new, fun c hc => by rw [hTx]; exact put.lo c (kid c hc), ?_⟩
  have a := C22_agree_partial h hpl0.1 hpl0.2.1 hpl0.2.2 ((hPm i).mpr hi)
  have a' := C22_agree_partial hSp hpl'.1 hpl'.2.1 hpl'.2.2 ((hSm i).mpr (by omega))
  refine increasing_ext a'.1 ?_ (fun c => ?_)
  · show ((P.h i).children ++ [j + 1]).Pairwise (· < ·)
    rw [List.pairwise_append]
    exact ⟨a.1, by simp, fun x hx y hy => by simp at hy; have := kid x hx; omega⟩
  rw [a'.2, List.mem_append, List.mem_singleton, hSm]
  constructor
  · rintro ⟨h1, h2, h3⟩
    by_cases hcj : c = j + 1
    · exact .inr hcj
    · obtain ⟨x, rfl, hx⟩ : ∃ x, c = Spec.moved j x ∧ x < lines.length := by
        by_cases h4 : c ≤ j
        · exact ⟨c, by rw [Spec.moved, if_pos h4], by omega⟩
        · exact ⟨c - 1, by rw [Spec.moved, if_neg (by omega)]; omega, by omega⟩
      rw [par x hx] at h2
      have hxp : (P.h x).parent = i := by
        rw [Spec.moved] at h2; split at h2 <;> omega
      have hxi : x ≠ i := by
        rintro rfl; exact h3 (by rw [Spec.moved, if_pos hij])
      have hm := (a.2 x).mpr ⟨(hPm x).mpr hx, hxp, hxi⟩
      left
      rw [Spec.moved, if_pos (kid x hm)]
      exact hm
  · rintro (hm | rfl)
    · have hcj := kid c hm
      obtain ⟨h1, h2, h3⟩ := (a.2 c).mp hm
      have := par c ((hPm c).mp h1)
      rw [Spec.moved, if_pos hcj, h2, Spec.moved, if_pos hij] at this
      exact ⟨by have := (hPm c).mp h1; omega, this, h3⟩
    · exact ⟨by omega, parn, by omega⟩

/-- C255: the line that is put behind the family of line `i` and has the depth of its children, or less, is after
`commit()` the last child of line `i`; the other children are those it had. -/
theorem C255_last_partial (h : parse o lines = .ok P) (hpl : Query.Spec.Plain (t :: lines))
    (hc : ∀ l ∈ t :: lines, ¬ Conf.Spec.blank l ∧ rstrip l = l) (hcfg : ∀ l ∈ t :: lines, Conf.Spec.config o.delims l)
    (hi : i < lines.length) (hj : Spec.LastOf P i j) (hput : Spec.PutAfter P P' j t) (hat : atomic o P' = .ok P'')
    (hin : Conf.Spec.indent (lineAt lines i) < Conf.Spec.indent t)
    (hk : ∀ c ∈ (P.h i).children, Conf.Spec.indent t ≤ Conf.Spec.indent (lineAt lines c)) :
    ∃ w, P''.list[0]? = some w ∧ (P''.h (w + (j + 1))).text = t ∧
      (P''.h (w + i)).children = (P.h i).children.map (w + ·) ++ [w + (j + 1)] := by
  obtain ⟨S, hS, rfl, hlen, hmem, _, ht, _, hch⟩ := append_step h hpl hc hcfg hi hj hput hat hin hk
  have hnb : ∀ l ∈ (embed P' S).texts, ¬ Conf.Spec.blank l := fun l hl => (hc l (hmem l hl)).1
  have hnil : ∀ l ∈ (embed P' S).texts, l ≠ [] := fun t ht => by rintro rfl; exact hnb [] ht (fun _ hc => by cases hc)
  have hboot := hS
  rw [texts_parse hnil] at hboot
  have hl := list_full hboot (keep_of_noBlank (Or.inr hnb))
  have hjl : j + 1 < (embed P' S).texts.length := by
    have hjP : j ∈ P.list := by obtain ⟨A, B, _, e, _⟩ := hput; rw [e]; simp
    have hb : ∀ l ∈ lines, ¬ Conf.Spec.blank l := fun l hl => (hc l (by simp [hl])).1
    have hnil : ∀ t ∈ lines, t ≠ [] := fun t ht => by rintro rfl; exact hb [] ht (fun _ hc => by cases hc)
    have hboot := h
    rw [texts_parse hnil] at hboot
    rw [list_full hboot (keep_of_noBlank (Or.inr hb))] at hjP
    rw [hlen]; simp at hjP; omega
  refine ⟨P'.n, ?_, ?_, ?_⟩
  · show (S.list.map (· + P'.n))[0]? = _
    rw [hl, hlen, List.getElem?_map, List.getElem?_range (by omega)]; simp
  · rw [Nat.add_comm, embed_new]
    show (S.h (j + 1)).text = t
    rw [show (S.h (j + 1)).text = rstrip (lineAt (embed P' S).texts (j + 1)) from (attrs hboot hjl).1, ht]
    exact (hc t (by simp)).2
  · rw [Nat.add_comm P'.n i, embed_new]
    show (S.h i).children.map (· + P'.n) = _
    rw [hch, List.map_append, Nat.add_comm P'.n (j + 1)]
    simp [Nat.add_comm]

/-- C255: texts of one depth are appended to the family of line `i`, one after another: in the end its children are
those it had and then these texts, in their order. -/
theorem C255_history_partial {ts lines' : List Str} {d : Nat} (hap : Spec.Appended o i lines ts lines')
    (h : parse o lines = .ok P) (hpl : Query.Spec.Plain (ts ++ lines))
    (hc : ∀ l ∈ ts ++ lines, ¬ Conf.Spec.blank l ∧ rstrip l = l) (hcfg : ∀ l ∈ ts ++ lines, Conf.Spec.config o.delims l)
    (hi : i < lines.length) (hd : ∀ t ∈ ts, Conf.Spec.indent t = d) (hin : Conf.Spec.indent (lineAt lines i) < d)
    (hk : ∀ c ∈ (P.h i).children, d ≤ Conf.Spec.indent (lineAt lines c)) :
    ∃ Q, parse o lines' = .ok Q ∧ Spec.childTexts Q i = Spec.childTexts P i ++ ts := by
  induction hap generalizing P with
  | nil => exact ⟨P, h, by simp⟩
  | @cons lines lines' t ts P0 P' P'' j h0 hj hput hat _ ih =>
    have e : P = P0 := by cases h.symm.trans h0; rfl
    subst e
    have hsub : ∀ l ∈ t :: lines, l ∈ t :: ts ++ lines := fun l hl => by
      simp only [List.cons_append, List.mem_cons, List.mem_append] at hl ⊢
      rcases hl with hl | hl <;> simp [hl]
    have hpl1 : Query.Spec.Plain (t :: lines) :=
      ⟨fun l hl => hpl.1 l (hsub l hl), fun l hl => hpl.2.1 l (hsub l hl), fun l hl => hpl.2.2 l (hsub l hl)⟩
    have htd := hd t (by simp)
    obtain ⟨S, hS, _, hlen, hmem, hti, htj, htc, hch⟩ := append_step h hpl1 (fun l hl => hc l (hsub l hl))
      (fun l hl => hcfg l (hsub l hl)) hi hj hput hat (by omega) (fun c hc => by rw [htd]; exact hk c hc)
    have hsub' : ∀ l ∈ ts ++ P''.texts, l ∈ t :: ts ++ lines := fun l hl => by
      rcases List.mem_append.mp hl with hl | hl
      · simp [hl]
      · exact hsub l (hmem l hl)
    obtain ⟨Q, hQ, hQt⟩ := ih hS
      ⟨fun l hl => hpl.1 l (hsub' l hl), fun l hl => hpl.2.1 l (hsub' l hl), fun l hl => hpl.2.2 l (hsub' l hl)⟩
      (fun l hl => hc l (hsub' l hl)) (fun l hl => hcfg l (hsub' l hl)) (by omega) (fun t ht => hd t (by simp [ht]))
      (by rw [hti]; exact hin) (fun c hm => by
        rw [hch, List.mem_append, List.mem_singleton] at hm
        rcases hm with hm | rfl
        · rw [htc c hm]; exact hk c hm
        · rw [htj, htd]; exact Nat.le_refl _)
    refine ⟨Q, hQ, ?_⟩
    have hnb : ∀ l ∈ P''.texts, ¬ Conf.Spec.blank l := fun l hl => (hc l (hsub l (hmem l hl))).1
    have hnil : ∀ l ∈ P''.texts, l ≠ [] := fun t ht => by rintro rfl; exact hnb [] ht (fun _ hc => by cases hc)
    have hbS := hS
    rw [texts_parse hnil] at hbS
    have hb : ∀ l ∈ lines, ¬ Conf.Spec.blank l := fun l hl => (hc l (by simp [hl])).1
    have hnil0 : ∀ t ∈ lines, t ≠ [] := fun t ht => by rintro rfl; exact hb [] ht (fun _ hc => by cases hc)
    have hbP := h
    rw [texts_parse hnil0] at hbP
    have hlP := list_full hbP (keep_of_noBlank (Or.inr hb))
    have hjl : j < lines.length := by
      have hjP : j ∈ P.list := by obtain ⟨A, B, _, e, _⟩ := hput; rw [e]; simp
      rw [hlP] at hjP; simpa using hjP
    have htS : ∀ x < lines.length + 1, (S.h x).text = lineAt P''.texts x := by
      intro x hx
      rw [show (S.h x).text = rstrip (lineAt P''.texts x) from (attrs hbS (by omega)).1]
      exact (hc _ (hsub _ (hmem _ (at_mem (by omega))))).2
    have htP : ∀ x < lines.length, (P.h x).text = lineAt lines x := by
      intro x hx
      rw [show (P.h x).text = rstrip (lineAt lines x) from (attrs hbP hx).1]
      exact (hc _ (hsub _ (by simp [at_mem hx]))).2
    rw [hQt, Spec.childTexts, hch, List.map_append, List.map_singleton, htS (j + 1) (by omega), htj, Spec.childTexts]
    rw [List.append_assoc, List.singleton_append]
    congr 1
    refine List.map_congr_left (fun c hm => ?_)
    have hcl : c < lines.length := by
      have := ((tree_of_parse h).kids i (by rw [hlP]; simpa using hi) c hm).1
      rw [hlP] at this; simpa using this
    rw [htS c (by omega), htP c hcl, htc c hm]

/-- ` b` and then ` c` are appended to `a`. -/
example : ∃ P0 P1 P2 P3 P4, parse {} [s "a", s " x", s "  y", s "z"] = .ok P0 ∧ listInsertAfter {} P0 (lit "y") (s " b") = .ok P1 ∧
    atomic {} P1 = .ok P2 ∧ P2.texts = [s "a", s " x", s "  y", s " b", s "z"] ∧
    parse {} [s "a", s " x", s "  y", s " b", s "z"] = .ok P3 ∧ Spec.childTexts P3 0 = [s " x", s " b"] ∧
    listInsertAfter {} P3 (lit "b") (s " c") = .ok P4 ∧ P4.texts = [s "a", s " x", s "  y", s " b", s " c", s "z"] :=
  ⟨_, _, _, _, _, rfl, rfl, rfl, by decide +kernel, rfl, by decide +kernel, rfl, by decide +kernel⟩

/-- C255 needs the condition on the depth: a deeper line becomes a child of the last child. -/
theorem C255_depth_fails : ∃ P P' P'', parse {} [s "a", s " x"] = .ok P ∧ listInsertAfter {} P (lit "x") (s "  b") = .ok P' ∧
    atomic {} P' = .ok P'' ∧ P''.list = [3, 4, 5] ∧ (P''.h 3).children = [4] ∧ (P''.h 4).children = [5] :=
  ⟨_, _, _, rfl, rfl, rfl, by decide +kernel, by decide +kernel, by decide +kernel⟩

end Edit

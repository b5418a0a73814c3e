import Verif.Edit.Child
import Verif.Conf.Reparse

/-! # C253: only the indentation and being a comment decide the tree -/

namespace Edit.Spec

open Py Conf

/-- Line by line the two configurations have the same indentation and comments at the same places. -/
def SameShape (ds : List Char) (lines lines' : List Str) : Prop :=
  lines'.length = lines.length ∧ ∀ i < lines.length,
    Conf.Spec.indent (lineAt lines' i) = Conf.Spec.indent (lineAt lines i) ∧
    (Conf.Spec.comment ds (lineAt lines' i) ↔ Conf.Spec.comment ds (lineAt lines i))

end Edit.Spec

namespace Edit

open Py Conf Query

variable {o : Opts} {lines lines' : List Str} {P P' P'' Q : Parsed}

theorem shape_nearest {ds : List Char} (hs : Spec.SameShape ds lines lines') (hb : ∀ l ∈ lines, ¬ Conf.Spec.blank l)
    (hb' : ∀ l ∈ lines', ¬ Conf.Spec.blank l) {i p : Nat} (hi : i < lines.length) :
    Conf.Spec.Nearest ds (lineAt lines') i p ↔ Conf.Spec.Nearest ds (lineAt lines) i p := by
  have hcfg : ∀ q < lines.length, (Conf.Spec.config ds (lineAt lines' q) ↔ Conf.Spec.config ds (lineAt lines q)) := by
    intro q hq
    exact and_congr ⟨fun _ => hb _ (at_mem hq), fun _ => hb' _ (at_mem (by rw [hs.1]; exact hq))⟩ (not_congr (hs.2 q hq).2)
  constructor
  · rintro ⟨h1, h2, h3, h4⟩
    have hp : p < lines.length := by omega
    rw [(hs.2 p hp).1, (hs.2 i hi).1] at h3
    refine ⟨h1, (hcfg p hp).mp h2, h3, fun q h5 h6 h7 => ?_⟩
    have := h4 q h5 h6 ((hcfg q (by omega)).mpr h7)
    rwa [(hs.2 q (by omega)).1, (hs.2 i hi).1] at this
  · rintro ⟨h1, h2, h3, h4⟩
    have hp : p < lines.length := by omega
    refine ⟨h1, (hcfg p hp).mpr h2, by rw [(hs.2 p hp).1, (hs.2 i hi).1]; exact h3, fun q h5 h6 h7 => ?_⟩
    rw [(hs.2 q (by omega)).1, (hs.2 i hi).1]
    exact h4 q h5 h6 ((hcfg q (by omega)).mp h7)

theorem shape_rule {ds : List Char} (hs : Spec.SameShape ds lines lines') (hb : ∀ l ∈ lines, ¬ Conf.Spec.blank l)
    (hb' : ∀ l ∈ lines', ¬ Conf.Spec.blank l) {i p : Nat} (hi : i < lines.length) :
    Conf.Spec.ParentRule ds (lineAt lines') i p ↔ Conf.Spec.ParentRule ds (lineAt lines) i p := by
  have hu : Conf.Spec.Unattached ds (lineAt lines') i ↔ Conf.Spec.Unattached ds (lineAt lines) i := by
    rw [Conf.Spec.Unattached, Conf.Spec.Unattached, (hs.2 i hi).2, (hs.2 i hi).1, (hs.2 (i - 1) (by omega)).1]
  rw [Conf.Spec.ParentRule, Conf.Spec.ParentRule, hu]
  simp only [shape_nearest hs hb hb' hi]

/-- C253: two configurations with the same indentation and comments at the same places have the same list, the same
parents and the same children. -/
theorem C253_parse_partial (h : parse o lines = .ok P) (h' : parse o lines' = .ok Q) (hpl : Query.Spec.Plain lines)
    (hpl' : Query.Spec.Plain lines') (hb : ∀ l ∈ lines, ¬ Conf.Spec.blank l) (hb' : ∀ l ∈ lines', ¬ Conf.Spec.blank l)
    (hs : Spec.SameShape o.delims lines lines') :
    Q.list = P.list ∧ ∀ i ∈ P.list, (Q.h i).parent = (P.h i).parent ∧ (Q.h i).children = (P.h i).children := by
  have hnil : ∀ t ∈ lines, t ≠ [] := fun t ht => by rintro rfl; exact hb [] ht (fun _ hc => by cases hc)
  have hnil' : ∀ t ∈ lines', t ≠ [] := fun t ht => by rintro rfl; exact hb' [] ht (fun _ hc => by cases hc)
  have hboot := h
  rw [texts_parse hnil] at hboot
  have hboot' := h'
  rw [texts_parse hnil'] at hboot'
  have hl := list_full hboot (keep_of_noBlank (Or.inr hb))
  have hl' := list_full hboot' (keep_of_noBlank (Or.inr hb'))
  have hll : Q.list = P.list := by rw [hl, hl', hs.1]
  have hpar : ∀ i ∈ P.list, (Q.h i).parent = (P.h i).parent := by
    intro i hi
    have hlt : i < lines.length := by rw [hl] at hi; simpa using hi
    have r := C21_indent h hpl.1 hpl.2.1 hpl.2.2 hi (P.h i).parent
    have r' := C21_indent h' hpl'.1 hpl'.2.1 hpl'.2.2 (hll ▸ hi) (P.h i).parent
    rw [input_id hnil] at r
    rw [input_id hnil', shape_rule hs hb hb' hlt] at r'
    exact r'.mpr (r.mp rfl)
  refine ⟨hll, fun i hi => ⟨hpar i hi, ?_⟩⟩
  have a := C22_agree_partial h hpl.1 hpl.2.1 hpl.2.2 hi
  have a' := C22_agree_partial h' hpl'.1 hpl'.2.1 hpl'.2.2 (hll ▸ hi)
  refine increasing_ext a'.1 a.1 (fun c => ?_)
  rw [a.2, a'.2, hll]
  exact ⟨fun ⟨h1, h2, h3⟩ => ⟨h1, by rw [← hpar c h1]; exact h2, h3⟩, fun ⟨h1, h2, h3⟩ => ⟨h1, by rw [hpar c h1]; exact h2, h3⟩⟩

/-- C253: texts are replaced, and `commit()` is called.  If each new text has the indentation of the old one and is a
comment exactly if the old one was, all lines have the parents and the children they had. -/
theorem C253_replaced_partial {D : Nat → Prop} {sub : Str → Str} (h : parse o lines = .ok P) (hpl : Query.Spec.Plain lines)
    (hc : ∀ l ∈ lines, ¬ Conf.Spec.blank l ∧ rstrip l = l) (hr : Spec.Replaced o P P' D sub)
    (hpl' : ∀ l ∈ lines, Query.Spec.Plain [sub l]) (hb' : ∀ l ∈ lines, ¬ Conf.Spec.blank (sub l))
    (hs : ∀ l ∈ lines, Conf.Spec.indent (sub l) = Conf.Spec.indent l ∧
      (Conf.Spec.comment o.delims (sub l) ↔ Conf.Spec.comment o.delims l))
    (hat : atomic o P' = .ok P'') :
    ∃ w, P''.list = P.list.map (w + ·) ∧ ∀ x ∈ P.list, (P''.h (w + x)).parent = w + (P.h x).parent ∧
      (P''.h (w + x)).children = (P.h x).children.map (w + ·) ∧
      (D x → (P''.h (w + x)).text = rstrip (sub (P.h x).text)) ∧ (¬ D x → (P''.h (w + x)).text = (P.h x).text) := by
  have hnil : ∀ t ∈ lines, t ≠ [] := fun t ht => by rintro rfl; exact (hc [] ht).1 (fun _ hc => by cases hc)
  have hb : ∀ t ∈ lines, ¬ Conf.Spec.blank t := fun t ht => (hc t ht).1
  have hboot := h
  rw [texts_parse hnil] at hboot
  have hl := list_full hboot (keep_of_noBlank (Or.inr hb))
  have hlt : ∀ x ∈ P.list, x < lines.length := fun x hx => by rw [hl] at hx; simpa using hx
  have htext : ∀ x < lines.length, (P.h x).text = lineAt lines x := by
    intro x hx
    rw [show (P.h x).text = rstrip (lineAt lines x) from (attrs hboot hx).1]
    exact (hc _ (at_mem hx)).2
  obtain ⟨r1, r2, r3⟩ := hr
  have hnew : ∀ x < lines.length, (D x → (P'.h x).text = sub (lineAt lines x)) ∧ (¬ D x → (P'.h x).text = lineAt lines x) := by
    intro x hx
    refine ⟨fun hd => ?_, fun hd => by rw [r2 x hd]; exact htext x hx⟩
    obtain ⟨c, h1, _⟩ := r3 x hd
    rw [h1, ← htext x hx]
  have hlen : P'.texts.length = lines.length := by rw [Parsed.texts, r1, hl]; simp
  have hT : ∀ x < lines.length, lineAt P'.texts x = (P'.h x).text := by
    intro x hx
    rw [lineAt, Parsed.texts, r1, hl, List.getD_eq_getElem?_getD, List.getElem?_map, List.getElem?_range hx]; rfl
  have hline : ∀ l ∈ P'.texts, ∃ m ∈ lines, l = m ∨ l = sub m := by
    intro l hl'
    rw [Parsed.texts, r1] at hl'
    obtain ⟨x, hx, rfl⟩ := List.mem_map.mp hl'
    refine ⟨_, at_mem (hlt x hx), ?_⟩
    by_cases hd : D x
    · exact .inr ((hnew x (hlt x hx)).1 hd)
    · exact .inl ((hnew x (hlt x hx)).2 hd)
  have hbT : ∀ l ∈ P'.texts, ¬ Conf.Spec.blank l := by
    intro l hl'
    obtain ⟨m, hm, rfl | rfl⟩ := hline l hl'
    · exact hb _ hm
    · exact hb' _ hm
  have hplT : Query.Spec.Plain P'.texts := by
    refine ⟨fun l hl' => ?_, fun l hl' => ?_, fun l hl' => ?_⟩ <;> obtain ⟨m, hm, rfl | rfl⟩ := hline l hl'
    · exact hpl.1 _ hm
    · exact (hpl' m hm).1 _ (by simp)
    · exact hpl.2.1 _ hm
    · exact (hpl' m hm).2.1 _ (by simp)
    · exact hpl.2.2 _ hm
    · exact (hpl' m hm).2.2 _ (by simp)
  have hsh : Spec.SameShape o.delims lines P'.texts := by
    refine ⟨hlen, fun i hi => ?_⟩
    rw [hT i hi]
    by_cases hd : D i
    · rw [(hnew i hi).1 hd]; exact hs _ (at_mem hi)
    · rw [(hnew i hi).2 hd]; exact ⟨rfl, Iff.rfl⟩
  have hnilT : ∀ t ∈ P'.texts, t ≠ [] := fun t ht => by rintro rfl; exact hbT [] ht (fun _ hc => by cases hc)
  obtain ⟨S, hS, rfl⟩ := atomic_shape hat
  have hSp : parse o P'.texts = .ok S := by rw [texts_parse hnilT]; exact hS
  obtain ⟨g1, g2⟩ := C253_parse_partial h hSp hpl hplT hb hbT hsh
  refine ⟨P'.n, ?_, fun x hx => ?_⟩
  · show S.list.map (· + P'.n) = _
    rw [g1]; exact List.map_congr_left (fun x _ => Nat.add_comm _ _)
  obtain ⟨g3, g4⟩ := g2 x hx
  have hxl := hlt x hx
  have e : (S.h x).text = rstrip (P'.h x).text := by
    rw [show (S.h x).text = rstrip (lineAt P'.texts x) from (attrs hS (by rw [hlen]; exact hxl)).1, hT x hxl]
  rw [Nat.add_comm P'.n x, embed_new]
  refine ⟨?_, ?_, fun hd => ?_, fun hd => ?_⟩
  · show (S.h x).parent + P'.n = _
    rw [g3, Nat.add_comm]
  · show (S.h x).children.map (· + P'.n) = _
    rw [g4]; exact List.map_congr_left (fun x _ => Nat.add_comm _ _)
  · show (S.h x).text = _
    rw [e, (hnew x hxl).1 hd, htext x hxl]
  · show (S.h x).text = _
    rw [e, (hnew x hxl).2 hd, htext x hxl, (hc _ (at_mem hxl)).2]

/-- C253: `replace_lines()` with a replacement that keeps the indentation. -/
theorem C253_replace_lines_partial {found : Rx} {sub : Str → Str} {excl : Option Rx} {atom : Bool} (h : parse o lines = .ok P)
    (hpl : Query.Spec.Plain lines) (hc : ∀ l ∈ lines, ¬ Conf.Spec.blank l ∧ rstrip l = l) (hf : o.factory = false ∨ atom = false)
    (hpl' : ∀ l ∈ lines, Query.Spec.Plain [sub l]) (hb' : ∀ l ∈ lines, ¬ Conf.Spec.blank (sub l))
    (hs : ∀ l ∈ lines, Conf.Spec.indent (sub l) = Conf.Spec.indent l ∧
      (Conf.Spec.comment o.delims (sub l) ↔ Conf.Spec.comment o.delims l))
    (hrep : replaceLines o P found sub excl atom = .ok P') (hat : atomic o P' = .ok P'') :
    ∃ w, P''.list = P.list.map (w + ·) ∧ ∀ x ∈ P.list, (P''.h (w + x)).parent = w + (P.h x).parent ∧
      (P''.h (w + x)).children = (P.h x).children.map (w + ·) := by
  have hnil : ∀ t ∈ lines, t ≠ [] := fun t ht => by rintro rfl; exact (hc [] ht).1 (fun _ hc => by cases hc)
  have hboot := h
  rw [texts_parse hnil] at hboot
  have hl := list_full hboot (keep_of_noBlank (Or.inr (fun l hl => (hc l hl).1)))
  obtain ⟨R, h1, h2⟩ := C42_replace_partial (o := o) (numbered_parse h (by rw [input_id hnil]; exact Or.inr (fun l hl => (hc l hl).1)))
    found sub excl atom hf (fun t ht _ _ => by
      rw [Parsed.texts, hl] at ht
      obtain ⟨x, hx, rfl⟩ := List.mem_map.mp ht
      have hxl : x < lines.length := by simpa using hx
      rw [show (P.h x).text = rstrip (lineAt lines x) from (attrs hboot hxl).1, (hc _ (at_mem hxl)).2]
      exact hb' _ (at_mem hxl))
  cases h1.symm.trans hrep
  obtain ⟨w, h3, h4⟩ := C253_replaced_partial h hpl hc h2 hpl' hb' hs hat
  exact ⟨w, h3, fun x hx => ⟨(h4 x hx).1, (h4 x hx).2.1⟩⟩

/-- `x` becomes `z` at the same depth: the tree is the same. -/
example : ∃ P P' P'', parse {} [s "a", s " x", s "  b", s " c"] = .ok P ∧
    replaceLines {} P (lit "x") (fun t => t.map (fun c => if c = 'x' then 'z' else c)) none false = .ok P' ∧
    atomic {} P' = .ok P'' ∧ P''.texts = [s "a", s " z", s "  b", s " c"] ∧
    P.list.map (fun x => (P.h x).parent) = [0, 0, 1, 0] ∧ P''.list = [4, 5, 6, 7] ∧
    P''.list.map (fun x => (P''.h x).parent) = [4, 4, 5, 4] :=
  ⟨_, _, _, rfl, rfl, rfl, by decide +kernel, by decide +kernel, by decide +kernel, by decide +kernel⟩

/-- C253 needs the condition: when a line becomes a comment, its children go to another line. -/
theorem C253_comment_fails : ∃ P P' P'', parse {} [s "a", s " x", s "  b"] = .ok P ∧
    replaceLines {} P (lit "x") (fun _ => s " !") none false = .ok P' ∧ atomic {} P' = .ok P'' ∧
    P''.texts = [s "a", s " !", s "  b"] ∧ (P.h 2).parent = 1 ∧ P''.list = [3, 4, 5] ∧ (P''.h 5).parent = 3 :=
  ⟨_, _, _, rfl, rfl, rfl, by decide +kernel, by decide +kernel, by decide +kernel, by decide +kernel⟩

end Edit

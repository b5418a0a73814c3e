import Verif.Conf.FileLemmas
import Verif.Conf.Props

/-! # Properties of committing, saving and reading again (C27, C49) -/

namespace Conf

open Py

/-! ## C27 -/

/-- C27: committing a configuration that was parsed never fails. -/
theorem C27_succeeds {o : Opts} {lines : List Str} {P : Parsed} (h : parse o lines = .ok P) :
    ∃ P', commit o P = .ok P' := by
  rw [parse, input_eq] at h
  exact reparse_ok h rfl (by rw [texts_length]; exact Nat.le_refl _)

theorem macro_hyp {l : List Str} (h2 : ∀ t ∈ l, rstrip t ≠ "macro name".toList) (j : Nat)
    (hm : "macro name ".toList <+: lineAt l j) : "macro name ".toList <+: rstrip (lineAt l j) := by
  refine macro_rstrip ?_ hm
  rcases Nat.lt_or_ge j l.length with hj | hj
  · rw [lineAt, List.getD_eq_getElem?_getD, List.getElem?_eq_getElem hj]
    exact h2 _ (List.getElem_mem hj)
  · rw [lineAt, List.getD_eq_getElem?_getD, List.getElem?_eq_none hj]
    intro hc; cases hc

/-- C27: committing changes no text and drops no line (unless a macro has no name). -/
theorem C27_texts_partial {o : Opts} {lines : List Str} {P P' : Parsed} (h : parse o lines = .ok P)
    (h2 : ∀ l ∈ lines, rstrip l ≠ "macro name".toList) (h' : commit o P = .ok P') :
    P'.texts = P.texts := by
  rw [parse, input_eq] at h
  refine commit_texts h (macro_hyp fun t ht => h2 t ?_) h'
  obtain ⟨k, hk, rfl⟩ := List.getElem_of_mem ht
  have := input_mem o lines k hk
  rwa [lineAt, List.getD_eq_getElem?_getD, List.getElem?_eq_getElem hk] at this

/-- C27: a second commit gives back exactly the objects of the first. -/
theorem C27_stable_partial {o : Opts} {lines : List Str} {P P' : Parsed} (h : parse o lines = .ok P)
    (h2 : ∀ l ∈ lines, rstrip l ≠ "macro name".toList) (h' : commit o P = .ok P') :
    commit o P' = .ok P' := by
  have ht := C27_texts_partial h h2 h'
  rw [commit] at h' ⊢
  rw [ht, h']

/-- C27: when no comment stands directly below a dropped line, the committed tree is
the tree before: line `k` of the list has the same parent and the same children, in the
same order, where `P.list[k]` names line `k` before and `k` names it afterwards. -/
theorem C27_tree_partial {o : Opts} {lines : List Str} {P P' : Parsed} (h : parse o lines = .ok P)
    (h2 : ∀ l ∈ lines, rstrip l ≠ "macro name".toList)
    (hc : ∀ j, j + 1 < (Spec.input o lines).length →
      Spec.comment o.delims (lineAt (Spec.input o lines) (j + 1)) →
      Spec.blank (lineAt (Spec.input o lines) j) → j ∈ P.list)
    (h' : commit o P = .ok P') :
    P'.list = List.range P.list.length ∧
    ∀ k < P.list.length,
      P.list.getD (P'.h k).parent 0 = (P.h (P.list.getD k 0)).parent ∧
      (P'.h k).children.map (fun i => P.list.getD i 0) = (P.h (P.list.getD k 0)).children := by
  rw [parse, input_eq] at h
  have hm := macro_hyp (l := Spec.input o lines) fun t ht => h2 t (by
    obtain ⟨k, hk, rfl⟩ := List.getElem_of_mem ht
    have := input_mem o lines k hk
    rwa [lineAt, List.getD_eq_getElem?_getD, List.getElem?_eq_getElem hk] at this)
  have hc' : ∀ j, Spec.comment o.delims (lineAt (Spec.input o lines) (j + 1)) →
      j ∈ P.list ∨ (Spec.input o lines).length ≤ j := by
    intro j hj
    rcases Nat.lt_or_ge (j + 1) (Spec.input o lines).length with h1 | h1
    · left
      by_cases hb : Spec.blank (lineAt (Spec.input o lines) j)
      · exact hc j h1 hj hb
      · exact (mem_list h).mpr ⟨by omega, Or.inr (Or.inl hb)⟩
    · exfalso
      obtain ⟨ws, c, r, ht, _⟩ := hj
      rw [lineAt, List.getD_eq_getElem?_getD, List.getElem?_eq_none h1] at ht
      simp at ht
  exact ⟨commit_list h hm h', fun k hk =>
    ⟨commit_parent h hm hc' h' hk, commit_children h hm hc' h' hk⟩⟩

/-- A parse that drops a line (number 1) and keeps a banner with a blank line. -/
example : ∃ P, parse {} [s "interface a", s "  ", s " x", s "! c", s "banner motd ^", s " ", s "^"] = .ok P ∧
    P.list = [0, 2, 3, 4, 5, 6] ∧ ∃ P', commit {} P = .ok P' ∧ (P'.h 1).parent = 0 :=
  ⟨_, rfl, by decide, _, rfl, by decide⟩

/-! ## C49 -/

theorem head_not_blank {o : Opts} {lines : List Str} {P : Parsed} (h : bootstrap o lines = .ok P)
    (ho : o.ignoreBlank = true) : P.texts.head? ≠ some [] := by
  rw [texts_eq h]
  have hinc := list_increasing h
  have hmem := fun {j} => mem_list h (j := j)
  cases hl : P.list with
  | nil => simp
  | cons a l =>
    rw [hl] at hinc hmem
    rw [List.map_cons, List.head?_cons]
    intro hc
    have hbl : Spec.blank (lineAt lines a) := by
      rw [← blank_rstrip_iff, Option.some.inj hc]; intro c hc; simp at hc
    rw [Spec.Increasing, List.pairwise_cons] at hinc
    have hno : ∀ p, p < a → ¬ Spec.blank (lineAt lines p) → False := by
      intro p hp hb
      have h1 := hmem.mp (List.mem_cons_self (a := a) (l := l))
      rcases List.mem_cons.mp (hmem.mpr ⟨by omega, Or.inr (Or.inl hb)⟩) with h2 | h2
      · omega
      · have := hinc.1 p h2; omega
    rcases (hmem.mp (List.mem_cons_self (a := a) (l := l))).2 with h1 | h1 | ⟨p, hp⟩ | ⟨p, hp⟩
    · rw [ho] at h1; cases h1
    · exact h1 hbl
    · obtain ⟨_, hp1, d, ⟨hh, _⟩, _⟩ := hp
      refine hno p hp1 ?_
      rw [← blank_rstrip_iff]
      exact not_blank_of_bannerHead hh
    · exact hno p hp.2.1 (not_blank_macro hp.2.2.1)

theorem filter_index (f : Str → Bool) (l : List Str) :
    ((List.range l.length).filter (fun i => f (lineAt l i))).map (lineAt l) = l.filter f := by
  have : l = (List.range l.length).map (lineAt l) := by
    refine List.ext_getElem (by simp) ?_
    intro i h1 h2
    simp [lineAt, h1]
  conv => rhs; rw [this, List.filter_map]
  rfl

theorem lineAt_snoc (l : List Str) : lineAt (l ++ [[]]) = lineAt l := by
  funext i
  rw [lineAt, lineAt, List.getD_eq_getElem?_getD, List.getD_eq_getElem?_getD]
  rcases Nat.lt_trichotomy i l.length with h | h | h
  · rw [List.getElem?_append_left h]
  · rw [h, List.getElem?_append_right (Nat.le_refl _), Nat.sub_self, List.getElem?_eq_none (Nat.le_refl _)]
    rfl
  · rw [List.getElem?_eq_none (by simp; omega), List.getElem?_eq_none (by omega)]

theorem load_eq {o : Opts} {lines : List Str} {P : Parsed} (h : parse o lines = .ok P)
    (hl : ∀ t ∈ P.texts, Spec.oneLine t) :
    load o (save P) = bootstrap o (Spec.input o P.texts ++ [[]]) := by
  rw [parse] at h
  rw [load, save, read_save hl (head_not_blank h)]

/-- C49: a saved configuration can be read again, and no line that is not blank is
lost, changed, added or moved. -/
theorem C49_no_loss {o : Opts} {lines : List Str} {P : Parsed} (h : parse o lines = .ok P)
    (hl : ∀ t ∈ P.texts, Spec.oneLine t) :
    ∃ P', load o (save P) = .ok P' ∧
      P'.texts.filter (fun t => !(strip t).isEmpty) = P.texts.filter (fun t => !(strip t).isEmpty) := by
  obtain ⟨P1, h1⟩ := C27_succeeds h
  rw [load_eq h hl]
  rw [commit] at h1
  have hr : ∀ t ∈ P.texts, rstrip t = t := by
    rw [parse] at h
    rw [texts_eq h]
    intro t ht
    obtain ⟨i, _, rfl⟩ := List.mem_map.mp ht
    exact rstrip_rstrip _
  have hok : ∃ P', bootstrap o (Spec.input o P.texts ++ [[]]) = .ok P' := by
    rw [Spec.input]
    split
    · have hlm := filter_index (fun t => decide (t ≠ [])) P.texts
      generalize hI : (List.range P.texts.length).filter (fun i => decide (lineAt P.texts i ≠ [])) = I at hlm
      have hlen : (P.texts.filter (fun t => decide (t ≠ []))).length = I.length := by
        rw [← hlm, List.length_map]
      have hmap : I.map (fun i => rstrip (lineAt P.texts i)) = I.map (lineAt P.texts) := by
        refine List.map_congr_left (fun i hi => ?_)
        rw [← hI, List.mem_filter, List.mem_range] at hi
        refine hr _ ?_
        rw [lineAt, List.getD_eq_getElem?_getD, List.getElem?_eq_getElem hi.1]
        exact List.getElem_mem hi.1
      have hinc : Spec.Increasing I := by rw [← hI]; exact pairwise_range_filter _ _
      have hlt : ∀ i ∈ I, i < P.texts.length := by
        intro i hi
        rw [← hI, List.mem_filter, List.mem_range] at hi
        exact hi.1
      have S := thin_gen (lines := P.texts) (M := P.texts.filter (fun t => decide (t ≠ [])) ++ [[]])
        hinc hlt (by rw [lineAt_snoc, hmap, hlm]) (by
          intro j hj hn
          have : lineAt P.texts j = [] := by
            by_cases he : lineAt P.texts j = []
            · exact he
            · exact absurd (by rw [← hI, List.mem_filter, List.mem_range]; exact ⟨hj, by simpa using he⟩) hn
          rw [this]; intro c hc; simp at hc)
      refine reparse_gen h1 S ?_
      rintro j hj (hk | hk)
      · have := (getD_countP hinc hk).1
        rw [rank, List.length_append, hlen]
        omega
      · omega
    · rw [parse] at h
      refine reparse_ok h (lineAt_snoc _) ?_
      rw [List.length_append, texts_length]; omega
  obtain ⟨P', h'⟩ := hok
  refine ⟨P', h', ?_⟩
  rw [bootstrap_no_loss h', List.filter_append]
  have e1 : ([[]] : List Str).filter (fun t => !(strip t).isEmpty) = [] := by decide
  have e2 : (Spec.input o P.texts).filter (fun t => !(strip t).isEmpty) =
      P.texts.filter (fun t => !(strip t).isEmpty) := by
    rw [Spec.input]
    split
    · rw [List.filter_filter]
      refine List.filter_congr ?_
      intro l _
      cases l <;> simp [strip, rstrip, lstrip]
    · rfl
  rw [e1, e2, List.append_nil]
  conv => rhs; rw [← List.map_id (P.texts.filter _)]
  refine List.map_congr_left (fun t ht => ?_)
  exact hr t (List.mem_filter.mp ht).1

theorem reload_texts {o : Opts} {lines : List Str} {P P' : Parsed} (h : bootstrap o lines = .ok P)
    (h' : bootstrap o (P.texts ++ [[]]) = .ok P') (ho : o.ignoreBlank = true)
    (hk : ∀ k < P.list.length, k ∈ P'.list)
    (hend : ∀ p, ¬ Spec.banners o.syn (lineAt P.texts) P.texts.length p) : P'.texts = P.texts := by
  have hlist : P'.list = List.range P.list.length := by
    refine increasing_ext (list_increasing h') List.pairwise_lt_range (fun k => ?_)
    rw [List.mem_range]
    refine ⟨fun hm => ?_, hk k⟩
    obtain ⟨h1, h2⟩ := (mem_list h').mp hm
    rw [List.length_append, texts_length, List.length_singleton] at h1
    rw [lineAt_snoc] at h2
    rcases Nat.lt_or_ge k P.list.length with h3 | h3
    · exact h3
    · exfalso
      have hkm : k = P.texts.length := by rw [texts_length]; omega
      subst hkm
      rcases h2 with h2 | h2 | ⟨p, hp⟩ | ⟨p, hp⟩
      · rw [ho] at h2; cases h2
      · refine h2 ?_
        rw [lineAt, List.getD_eq_getElem?_getD, List.getElem?_eq_none (Nat.le_refl _)]
        intro c hc; simp at hc
      · exact hend p hp
      · obtain ⟨hs, hp1, hp2, hp3⟩ := hp
        obtain ⟨P1, hP1⟩ := reparse_ok h rfl (by rw [texts_length]; exact Nat.le_refl _)
        obtain ⟨e, he⟩ := bootstrap_isError o P.texts
          (Or.inr ⟨hs, p, hp1, hp2, fun i hi1 hi2 => hp3 i hi1 hi2⟩)
        rw [hP1] at he; cases he
  rw [texts_eq h', hlist, lineAt_snoc]
  refine List.ext_getElem (by rw [List.length_map, List.length_range, texts_length]) ?_
  intro i h1 h2
  rw [List.getElem_map, List.getElem_range, rstrip_texts h, lineAt, List.getD_eq_getElem?_getD,
    List.getElem?_eq_getElem h2, Option.getD_some]

/-- C49: with `ignore_blank_lines=True`, when no blank line was kept and the last line
is not inside a banner that is still open, the lines read back are the lines saved. -/
theorem C49_exact_partial {o : Opts} {lines : List Str} {P : Parsed} (h : parse o lines = .ok P)
    (hl : ∀ t ∈ P.texts, Spec.oneLine t) (ho : o.ignoreBlank = true) (hne : ∀ t ∈ P.texts, ¬ Spec.blank t)
    (hend : ∀ p, ¬ Spec.banners o.syn (lineAt P.texts) P.texts.length p) :
    ∃ P', load o (save P) = .ok P' ∧ P'.texts = P.texts := by
  obtain ⟨P', h', _⟩ := C49_no_loss h hl
  refine ⟨P', h', ?_⟩
  rw [load_eq h hl] at h'
  have hin : Spec.input o P.texts = P.texts := by
    rw [Spec.input]
    split
    · rw [List.filter_eq_self]
      intro t ht
      simp only [decide_eq_true_eq]
      rintro rfl
      exact hne [] ht (fun c hc => by simp at hc)
    · rfl
  rw [hin] at h'
  rw [parse] at h
  refine reload_texts h h' ho (fun k hk => ?_) hend
  rw [← texts_length] at hk
  rw [mem_list h', lineAt_snoc, List.length_append]
  refine ⟨by omega, Or.inr (Or.inl ?_)⟩
  rw [lineAt, List.getD_eq_getElem?_getD, List.getElem?_eq_getElem hk]
  exact hne _ (List.getElem_mem hk)

/-- C49: with `factory=True` blank lines inside banners are read back too. -/
theorem C49_factory_partial {o : Opts} {lines : List Str} {P : Parsed} (h : parse o lines = .ok P)
    (hl : ∀ t ∈ P.texts, Spec.oneLine t) (ho : o.ignoreBlank = true) (hf : o.factory = true)
    (h2 : ∀ l ∈ lines, rstrip l ≠ "macro name".toList)
    (hend : ∀ p, ¬ Spec.banners o.syn (lineAt P.texts) P.texts.length p) :
    ∃ P', load o (save P) = .ok P' ∧ P'.texts = P.texts := by
  obtain ⟨P', h', _⟩ := C49_no_loss h hl
  refine ⟨P', h', ?_⟩
  rw [load_eq h hl] at h'
  have hin : ∀ l, Spec.input o l = l := fun l => by rw [Spec.input, if_neg (by simp [hf])]
  rw [hin] at h'
  rw [parse, input_eq, hin] at h
  exact reload_texts h h' ho
    (fun k hk => reparse_keeps h (macro_hyp h2) (lineAt_snoc _)
      (by rw [List.length_append, texts_length]; omega) h' hk) hend

/-- C49: with `ignore_blank_lines=False` every line is read back, and one empty line is
added at the end. -/
theorem C49_keep {o : Opts} {lines : List Str} {P : Parsed} (h : parse o lines = .ok P)
    (hl : ∀ t ∈ P.texts, Spec.oneLine t) (ho : o.ignoreBlank = false) :
    ∃ P', load o (save P) = .ok P' ∧ P'.texts = P.texts ++ [[]] := by
  obtain ⟨P', h', _⟩ := C49_no_loss h hl
  refine ⟨P', h', ?_⟩
  rw [load_eq h hl] at h'
  have hin : ∀ l, Spec.input o l = l := fun l => by rw [Spec.input, if_neg (by simp [ho])]
  have hr : ∀ t ∈ P.texts, rstrip t = t := by
    rw [parse] at h
    rw [texts_eq h]
    intro t ht
    obtain ⟨i, _, rfl⟩ := List.mem_map.mp ht
    exact rstrip_rstrip _
  rw [hin] at h'
  have hp : parse o (P.texts ++ [[]]) = .ok P' := by rw [parse, input_eq, hin, h']
  rw [C20_keep_all hp ho, List.map_append]
  congr 1
  conv => rhs; rw [← List.map_id P.texts]
  exact List.map_congr_left hr

/-- C49: the lines read back hang together as after a commit: every line has the parent
that it has when the configuration is committed. -/
theorem C49_tree_partial {o : Opts} {lines : List Str} {P P1 P' : Parsed} (h : parse o lines = .ok P)
    (hl : ∀ t ∈ P.texts, Spec.oneLine t) (hne : o.ignoreBlank = false ∨ ∀ t ∈ P.texts, t ≠ [])
    (h1 : commit o P = .ok P1) (h' : load o (save P) = .ok P') (k : Nat) (hk : k < P.texts.length) :
    (P'.h k).parent = (P1.h k).parent := by
  rw [load_eq h hl] at h'
  have hin : Spec.input o P.texts = P.texts := by
    rw [Spec.input]
    split
    · rename_i hb
      rcases hne with hne | hne
      · rw [hb.1] at hne; cases hne
      · rw [List.filter_eq_self]
        intro t ht
        simpa using hne t ht
    · rfl
  rw [hin] at h'
  have a := parent_spec h' (j := k) (by rw [List.length_append]; omega)
  rw [lineAt_snoc] at a
  exact parent_unique a (parent_spec h1 hk)

/-- Every line followed by the terminator `e`. -/
def Spec.withEnds (e : Str) (ts : List Str) : Str := ts.flatMap (fun t => t ++ e)

/-- C49: the line terminators of the file (`\n`, `\r\n` or `\r`) make no difference. -/
theorem C49_terminators (o : Opts) (e : Str) (he : e = ['\n'] ∨ e = ['\r', '\n'] ∨ e = ['\r'])
    (ts : List Str) (hl : ∀ t ∈ ts, Spec.oneLine t) :
    load o (Spec.withEnds e ts) = load o (Spec.withEnds ['\n'] ts) := by
  have key : ∀ e, (e = ['\n'] ∨ e = ['\r', '\n'] ∨ e = ['\r']) →
      universal (Spec.withEnds e ts) = saveText ts := by
    intro e he
    induction ts with
    | nil => rfl
    | cons t ts ih =>
      have hih := ih (fun u hu => hl u (by simp [hu]))
      rw [Spec.withEnds, List.flatMap_cons, List.append_assoc,
        universal_append (hl t (by simp)).2, saveText_cons, ← hih]
      congr 1
      rcases he with rfl | rfl | rfl
      · rfl
      · rfl
      · -- a lone `\r`: the next line does not start with `\n`
        have : ∀ r, r.head? ≠ some '\n' → universal ('\r' :: r) = '\n' :: universal r := by
          intro r hr
          cases r with
          | nil => rfl
          | cons c r =>
            rw [universal]
            intro r' hc
            exact hr (by rw [(List.cons.inj hc).1]; rfl)
        refine this _ ?_
        cases ts with
        | nil => simp
        | cons u us =>
          have hu := (hl u (by simp)).1
          cases u with
          | nil => simp
          | cons c u =>
            simp only [List.flatMap_cons, List.cons_append]
            intro hc
            exact hu (by rw [Option.some.inj hc]; simp)
  rw [load, load, readLines, readLines, key e he, key ['\n'] (Or.inl rfl)]

/-- C49 does not hold as stated: with `ignore_blank_lines=False` the configuration grows
by an empty line each time it is saved and read. -/
theorem C49_grow_fails :
    ∃ P P', parse { ignoreBlank := false } [s "a"] = .ok P ∧
      load { ignoreBlank := false } (save P) = .ok P' ∧ P'.texts = [s "a", []] :=
  ⟨_, _, rfl, rfl, by decide⟩

/-- C49 does not hold as stated: a blank line inside a banner is lost. -/
theorem C49_banner_fails :
    ∃ P P', parse {} [s "banner motd ^", s " ", s "x", s "^"] = .ok P ∧
      load {} (save P) = .ok P' ∧ P.texts = [s "banner motd ^", [], s "x", s "^"] ∧
      P'.texts = [s "banner motd ^", s "x", s "^"] :=
  ⟨_, _, rfl, rfl, by decide, by decide⟩

/-- C49 does not hold as stated: a banner that is not closed gets an empty line. -/
theorem C49_open_fails :
    ∃ P P', parse {} [s "banner motd ^", s "x"] = .ok P ∧
      load {} (save P) = .ok P' ∧ P'.texts = [s "banner motd ^", s "x", []] :=
  ⟨_, _, rfl, rfl, by decide⟩

/-- C49 does not hold as stated: a text with a carriage return inside is split. -/
theorem C49_return_fails :
    ∃ P P', parse {} [s "description a\rb"] = .ok P ∧
      load {} (save P) = .ok P' ∧ P'.texts = [s "description a", s "b"] :=
  ⟨_, _, rfl, rfl, by decide⟩

/-- The hypotheses of the exact round trip hold here. -/
example : ∃ P P', parse {} [s "interface a ", s "", s " shutdown", s "!", s "banner motd ^x^"] = .ok P ∧
    load {} (save P) = .ok P' ∧ P'.texts = P.texts ∧ P.texts.length = 4 :=
  ⟨_, _, rfl, rfl, by decide, by decide⟩

end Conf

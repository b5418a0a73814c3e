import Verif.Edit.Props

/-! # C40 – C42 and C57 – C61: insertion next to an object, replacement, commit -/

namespace Edit

open Py Conf Query

/-! ## C40 -/

theorem flat_one (p : Nat → Bool) (f : Nat → List Nat) {A B : List Nat} {j : Nat}
    (hf : ∀ x, p x = false → f x = [x]) (hnd : (A ++ j :: B).Nodup)
    (hp : ∀ x ∈ A ++ j :: B, p x = true ↔ x = j) :
    (A ++ j :: B).flatMap f = A ++ f j ++ B := by
  have side : ∀ l : List Nat, (∀ x ∈ l, x ∈ A ++ j :: B ∧ x ≠ j) → l.flatMap f = l := by
    intro l hl
    induction l with
    | nil => rfl
    | cons x l ih =>
      obtain ⟨h1, h2⟩ := hl x (by simp)
      have : p x = false := by
        cases hx : p x with
        | false => rfl
        | true => exact absurd ((hp x h1).mp hx) h2
      rw [List.flatMap_cons, hf x this, ih (fun y hy => hl y (by simp [hy]))]; rfl
  rw [List.nodup_append, List.nodup_cons] at hnd
  obtain ⟨_, ⟨h2, _⟩, h3⟩ := hnd
  rw [List.flatMap_append, List.flatMap_cons, side A, side B, List.append_assoc]
  · intro x hx
    exact ⟨by simp [hx], by rintro rfl; exact h2 hx⟩
  · intro x hx
    exact ⟨by simp [hx], h3 x hx j (by simp)⟩

theorem putNew_same {o : Opts} {P : Parsed} (hw : Wf P) (new : Str) (idx : List Nat) :
    ∀ x ∈ P.list, { (putNew o P new idx).h x with linenum := (P.h x).linenum } = P.h x := by
  intro x hx
  have hlt := hw.list x hx
  have := putNew_h o P new idx x
  rw [upd, if_neg (by omega)] at this
  exact this

theorem length_idx {P : Parsed} {rx : Rx} {j : Nat} (hnd : P.list.Nodup) (ho : Spec.Only P rx j) :
    (matchIdx P rx).length ≤ 1 := by
  rw [matchIdx_length]
  show (P.texts.filter (Spec.hits rx)).length ≤ 1
  have : ∀ l : List Nat, l.Nodup → (∀ x ∈ l, x ∈ P.list) →
      ((l.map (fun i => (P.h i).text)).filter (Spec.hits rx)).length ≤ 1 ∧
      (j ∉ l → (l.map (fun i => (P.h i).text)).filter (Spec.hits rx) = []) := by
    intro l hl hm
    induction l with
    | nil => exact ⟨Nat.zero_le _, fun _ => rfl⟩
    | cons a l ih =>
      rw [List.nodup_cons] at hl
      obtain ⟨h1, h2⟩ := ih hl.2 (fun x hx => hm x (by simp [hx]))
      rw [List.map_cons, List.filter_cons]
      by_cases ha : a = j
      · rw [h2 (by rw [← ha]; exact hl.1)]
        exact ⟨by split <;> simp, fun hj => absurd (by simp [ha]) hj⟩
      · have : ¬ Spec.hits rx (P.h a).text = true := fun h => ha ((ho a (hm a (by simp))).mp h)
        rw [if_neg this]
        exact ⟨h1, fun hj => h2 (fun h => hj (by simp [h]))⟩
  exact (this P.list hnd (fun _ h => h)).1

theorem putAfter_only {o : Opts} {P : Parsed} (hw : Wf P) (hn : Spec.Numbered P) {rx : Rx} {j : Nat}
    (hj : j ∈ P.list) (ho : Spec.Only P rx j) (new : Str) :
    Spec.PutAfter P (putNew o P new ((matchIdx P rx).map (· + 1))) j (rstrip new) := by
  obtain ⟨A, B, hAB⟩ := List.append_of_mem hj
  have hnd := numbered_nodup hn
  have hlt := hw.list j hj
  refine ⟨A, B, P.n, hAB, ?_, ?_, putNew_text_new o P new _, putNew_same hw new _, ?_⟩
  · rw [putAfter_list, hAB]
    rw [flat_one (fun x => Spec.hits rx (P.h x).text) _ (fun x hx => by
        show (if Spec.hits rx (P.h x).text = true then _ else _) = _
        rw [if_neg (by rw [hx]; simp)]) (by rw [← hAB]; exact hnd)
      (fun x hx => ho x (by rw [hAB]; exact hx))]
    have : Spec.hits rx (P.h j).text = true := (ho j hj).mpr rfl
    show A ++ (if Spec.hits rx (P.h j).text = true then [j, P.n] else [j]) ++ B = _
    rw [if_pos this]; simp
  · intro h
    exact absurd (hw.list _ h) (by omega)
  · refine numbered_putNew hw hnd ?_
    rw [List.length_map]
    exact length_idx hnd ho

theorem putBefore_only {o : Opts} {P : Parsed} (hw : Wf P) (hn : Spec.Numbered P) {rx : Rx} {j : Nat}
    (hj : j ∈ P.list) (ho : Spec.Only P rx j) (new : Str) :
    Spec.PutBefore P (putNew o P new (matchIdx P rx)) j (rstrip new) := by
  obtain ⟨A, B, hAB⟩ := List.append_of_mem hj
  have hnd := numbered_nodup hn
  refine ⟨A, B, P.n, hAB, ?_, ?_, putNew_text_new o P new _, putNew_same hw new _, ?_⟩
  · rw [putBefore_list, hAB]
    rw [flat_one (fun x => Spec.hits rx (P.h x).text) _ (fun x hx => by
        show (if Spec.hits rx (P.h x).text = true then _ else _) = _
        rw [if_neg (by rw [hx]; simp)]) (by rw [← hAB]; exact hnd)
      (fun x hx => ho x (by rw [hAB]; exact hx))]
    have : Spec.hits rx (P.h j).text = true := (ho j hj).mpr rfl
    show A ++ (if Spec.hits rx (P.h j).text = true then [P.n, j] else [j]) ++ B = _
    rw [if_pos this]; simp
  · intro h
    exact absurd (hw.list _ h) (by omega)
  · exact numbered_putNew hw hnd (length_idx hnd ho)

theorem last_unique {P : Parsed} (hn : Spec.Numbered P) {i a b : Nat}
    (hm : ∀ x, Query.Spec.Desc P i x → x ∈ P.list) (ha : Spec.LastOf P i a) (hb : Spec.LastOf P i b) :
    a = b := by
  rcases ha with ⟨h1, h2⟩ | ⟨h1, h2⟩ <;> rcases hb with ⟨h3, h4⟩ | ⟨h3, h4⟩
  · rw [h2, h4]
  · exact absurd h3 (h1 _)
  · exact absurd h1 (h3 _)
  · have e := Int.le_antisymm (h4 a h1) (h2 b h3)
    exact numbered_inj hn (hm a h1) (hm b h3) e

theorem familyLast_last {P : Parsed} (hw : Wf P) {i : Nat} (hi : i < P.n)
    (hk : Keys P (Query.Spec.Desc P i)) : Spec.LastOf P i (familyLast P i) := by
  have hm := fun x => mem_allChildren' (x := x) hw hi hk
  have hs : (allChildren P i).Pairwise (fun a b => (P.h a).linenum ≤ (P.h b).linenum) := by
    rw [allChildren]
    cases P.n with
    | zero => exact List.Pairwise.nil
    | succ n => exact sort_sorted _ _
  rw [familyLast]
  cases hl : allChildren P i with
  | nil =>
    refine Or.inl ⟨fun x hx => ?_, rfl⟩
    have := (hm x).mpr hx
    rw [hl] at this; cases this
  | cons a as =>
    right
    have hgl : (a :: as).getLastD i = (a :: as).getLast (by simp) := by
      rw [List.getLastD_eq_getLast?, List.getLast?_eq_some_getLast (by simp)]; rfl
    rw [hgl]
    refine ⟨(hm _).mp (by rw [hl]; exact List.getLast_mem _), fun x hx => ?_⟩
    have hx := (hm x).mpr hx
    rw [hl] at hx hs
    rw [← List.dropLast_concat_getLast (l := a :: as) (by simp), List.mem_append] at hx
    rw [← List.dropLast_concat_getLast (l := a :: as) (by simp), List.pairwise_append] at hs
    rcases hx with hx | hx
    · exact hs.2.2 x hx _ (by simp)
    · rw [List.mem_singleton] at hx
      rw [hx]; exact Int.le_refl _

/-- C40: when line numbers are positions, the family is listed, no text in it starts with
a digit, and the text of the last line of the family, as a regular expression, matches
only that line, then `append_to_family` puts the new line directly after the family:
indented `auto_indent_width` (or `indent`) deeper than the object, or as it is. -/
theorem C40_append_partial {o : Opts} {C : Compile} {P : Parsed} (hr : Spec.Reach o C P)
    (hn : Spec.Numbered P) {i j : Nat} (hown : (P.h i).owned = true)
    (hfam : ∀ x, Spec.Fam P i x → x ∈ P.list) (hd : Spec.NoDigits P (Spec.Fam P i))
    (hj : Spec.LastOf P i j) {rx : Rx} (hC : C (P.h j).text = some rx) (ho : Spec.Only P rx j)
    (new : Str) (indent : Int) (width : Nat) (auto : Bool) (t : Str)
    (ht : t = if auto then List.replicate ((P.h i).indent + width) ' ' ++ lstrip new
      else if 0 < indent then List.replicate ((P.h i).indent + indent.toNat) ' ' ++ lstrip new
      else new)
    (hb : Spec.NoBlank o [t]) :
    ∃ P', appendToFamily o C P i new indent width auto = .ok P' ∧ Spec.PutAfter P P' j (rstrip t) := by
  have hw := wf_reach hr
  have hi := hfam i (Or.inl rfl)
  have hk : Keys P (Query.Spec.Desc P i) := fun a b ha hb =>
    keys_of hn hfam hd a b (Or.inr ha) (Or.inr hb)
  have hlast := familyLast_last hw (hw.list i hi) hk
  have hjj : familyLast P i = j := last_unique hn (fun x hx => hfam x (Or.inr hx)) hlast hj
  have hjl : j ∈ P.list := by rw [← hjj]; exact hfam _ (familyLast_fam P i)
  have htt : familyText (P.h i) new indent width auto = t := by rw [ht]; rfl
  refine ⟨putNew o P t ((matchIdx P rx).map (· + 1)), ?_, putAfter_only hw hn hjl ho t⟩
  rw [appendToFamily, if_neg (by rw [hown]; simp), hjj, htt, listInsertAfterObj,
    if_neg (not_blankNew hb), hC]

example : ∃ P P', parse {} [s "interface a", s " x", s "interface b", s " z"] = .ok P ∧
    (∃ rx, plainC (P.h 1).text = some rx ∧ P.list.filter (fun x => Spec.hits rx (P.h x).text) = [1]) ∧
    allChildren P 0 = [1] ∧
    appendToFamily {} plainC P 0 (s "y") (-1) 1 true = .ok P' ∧
    P'.texts = [s "interface a", s " x", s " y", s "interface b", s " z"] :=
  ⟨_, _, rfl, ⟨_, rfl, by decide⟩, by decide, rfl, by decide⟩

/-- C40 does not hold as stated: the line goes after *every* line whose text matches the
text of the last child. -/
theorem C40_fails : ∃ P P', parse {} [s "interface a", s " shutdown", s "interface b", s " shutdown"] = .ok P ∧
    appendToFamily {} plainC P 0 (s " mtu 9000") (-1) 1 false = .ok P' ∧
    P'.texts = [s "interface a", s " shutdown", s " mtu 9000", s "interface b", s " shutdown", s " mtu 9000"] :=
  ⟨_, _, rfl, rfl, by decide⟩

/-! ## C41 -/

/-- C41: after any history of edits, each of which inserts a new line at one place at
most (or re-parses) and no blank line, starting from a parse that dropped no blank line,
line numbers are positions. -/
theorem C41_history_partial {o : Opts} {C : Compile} {P : Parsed} (h : Spec.History o C P) :
    ∀ (k i : Nat), P.list[k]? = some i → (P.h i).linenum = k := (history h).2

/-- C41: and no object is listed twice. -/
theorem C41_nodup_partial {o : Opts} {C : Compile} {P : Parsed} (h : Spec.History o C P) :
    P.list.Nodup := numbered_nodup (history h).2

/-- A history with a deletion and an insertion. -/
example : ∃ P P' P'' : Parsed, parse {} [s "interface a", s " x", s "b"] = .ok P ∧
    Spec.Careful {} plainC P (.delete 1 true) ∧
    (Op.delete 1 true).run {} plainC P = .ok P' ∧
    Spec.Careful {} plainC P' (.listInsertAfter (lit "b") (s "n")) ∧
    (Op.listInsertAfter (lit "b") (s "n")).run {} plainC P' = .ok P'' ∧
    P''.list = [0, 2, 3] ∧ P''.list.map (fun i => (P''.h i).linenum) = [0, 1, 2] :=
  ⟨_, _, _, rfl, trivial, rfl, by show _ ≤ _; decide, rfl, by decide, by decide⟩

/-- C41 does not hold as stated: the same new object is put at every matching place. -/
theorem C41_alias_fails : ∃ P P', parse {} [s "a", s "a"] = .ok P ∧
    listInsertBefore {} P (lit "a") (s "n") = .ok P' ∧ P'.list = [2, 0, 2, 1] ∧
    P'.list.map (fun i => (P'.h i).linenum) = [2, 1, 2, 3] :=
  ⟨_, _, rfl, rfl, by decide, by decide⟩

/-! ## C42 -/

theorem blank_strip {t : Str} (h : ¬ Conf.Spec.blank t) : (strip t).isEmpty = false := by
  cases hs : (strip t).isEmpty with
  | false => rfl
  | true => exact absurd ((blank_strip_nil t).mp (List.isEmpty_iff.mp hs)) h

theorem isCommentText_iff (ds : List Char) (t : Str) :
    isCommentText ds t = true ↔ Conf.Spec.comment ds t := by
  rw [← comment_iff]
  have h := head?_lstrip_rstrip t
  rw [isCommentText.eq_def, isCommentText.eq_def ds (rstrip t)]
  cases h1 : lstrip t with
  | nil =>
    cases h2 : lstrip (rstrip t) with
    | nil => exact Iff.rfl
    | cons b _ => rw [h1, h2] at h; cases h
  | cons a _ =>
    cases h2 : lstrip (rstrip t) with
    | nil => rw [h1, h2] at h; cases h
    | cons b _ =>
      rw [h1, h2] at h
      rw [Option.some.inj h]

theorem replaceEach_ok {o : Opts} {pick : Str → Bool} {sub : Str → Str} {is : List Nat} {P : Parsed}
    (hnd : is.Nodup) (hs : ∀ i ∈ is, pick (P.h i).text = true → ¬ Conf.Spec.blank (sub (P.h i).text)) :
    ∃ P', replaceEach o pick sub is P = .ok P' ∧ P'.n = P.n ∧
      Spec.Replaced o P P' (fun x => x ∈ is ∧ pick (P.h x).text = true) sub := by
  induction is generalizing P with
  | nil => exact ⟨P, rfl, rfl, rfl, fun _ _ => rfl, fun x hx => absurd hx.1 (by simp)⟩
  | cons i is ih =>
    rw [List.nodup_cons] at hnd
    rw [replaceEach]
    cases hp : pick (P.h i).text with
    | false =>
      rw [if_neg (by simp)]
      obtain ⟨P', h1, hn, h2, h3, h4⟩ := ih hnd.2 (fun j hj => hs j (by simp [hj]))
      refine ⟨P', h1, hn, h2, fun x hx => h3 x (fun h => hx ⟨by simp [h.1], h.2⟩), fun x hx => h4 x ⟨?_, hx.2⟩⟩
      rcases List.mem_cons.mp hx.1 with e | e
      · rw [e, hp] at hx; simp at hx
      · exact e
    | true =>
      rw [if_pos rfl, reSub]
      rw [if_neg (by rw [blank_strip (hs i (by simp) hp)]; simp)]
      have hne : ∀ x, x ≠ i → (upd P.h i (fun b => { b with
          text := sub (P.h i).text, isComment := isCommentText o.delims (sub (P.h i).text) })) x = P.h x := by
        intro x hx; rw [upd, if_neg hx]
      have hmem : ∀ x ∈ is, x ≠ i := by rintro x hx rfl; exact hnd.1 hx
      obtain ⟨P', h1, hn, h2, h3, h4⟩ := ih (P := { P with h := upd P.h i (fun b => { b with
          text := sub (P.h i).text, isComment := isCommentText o.delims (sub (P.h i).text) }) }) hnd.2
        (fun j hj => by
          dsimp only
          rw [hne j (hmem j hj)]
          exact hs j (by simp [hj]))
      dsimp only at h2 h3 h4
      refine ⟨P', h1, hn, h2, ?_, ?_⟩
      · intro x hx
        have hxi : x ≠ i := by rintro rfl; exact hx ⟨by simp, hp⟩
        rw [h3 x (fun h => hx ⟨by simp [h.1], by rw [hne x hxi] at h; exact h.2⟩), hne x hxi]
      · intro x hx
        by_cases hxi : x = i
        · subst hxi
          rw [h3 x (fun h => hnd.1 h.1), upd, if_pos rfl]
          exact ⟨_, rfl, isCommentText_iff _ _⟩
        · have := h4 x ⟨by rcases List.mem_cons.mp hx.1 with e | e; exact absurd e hxi; exact e,
            by rw [hne x hxi]; exact hx.2⟩
          rw [hne x hxi] at this
          exact this

theorem notExcluded_iff (excl : Option Rx) (t : Str) :
    notExcluded excl t = true ↔ ¬ Spec.excluded excl t := by
  cases excl with
  | none => simp [notExcluded, Spec.excluded]
  | some e =>
    have : e.search t = Spec.hits e t := rfl
    simp [notExcluded, Spec.excluded, this]

/-- C42: when no replacement gives a blank line, `replace_lines` replaces the text of
exactly the listed lines that match and are not excluded, and changes nothing else.
(`factory` with `atomic` re-parses afterwards, see C59.) -/
theorem C42_replace_partial {o : Opts} {P : Parsed} (hn : Spec.Numbered P) (found : Rx) (sub : Str → Str)
    (excl : Option Rx) (atom : Bool) (hf : o.factory = false ∨ atom = false)
    (hs : ∀ t ∈ P.texts, Spec.hits found t = true → ¬ Spec.excluded excl t → ¬ Conf.Spec.blank (sub t)) :
    ∃ P', replaceLines o P found sub excl atom = .ok P' ∧
      Spec.Replaced o P P' (fun x => x ∈ P.list ∧ Spec.hits found (P.h x).text = true ∧
        ¬ Spec.excluded excl (P.h x).text) sub := by
  have hm : ∀ i, i ∈ findObjects P found ↔ i ∈ P.list ∧ Spec.hits found (P.h i).text = true := by
    intro i; rw [findObjects, List.mem_filter]; exact Iff.rfl
  obtain ⟨P', h1, _, h2, h3, h4⟩ := replaceEach_ok (o := o) (pick := notExcluded excl) (sub := sub)
    (is := findObjects P found) (P := P) ((numbered_nodup hn).filter _)
    (fun i hi hp => hs _ (List.mem_map.mpr ⟨i, ((hm i).mp hi).1, rfl⟩) ((hm i).mp hi).2
      ((notExcluded_iff _ _).mp hp))
  refine ⟨P', ?_, h2, ?_, ?_⟩
  · rw [replaceLines, h1]
    show finish o atom P' = _
    rw [finish, if_neg]
    rintro ⟨h5, h6⟩
    rcases hf with hf | hf
    · rw [hf] at h5; cases h5
    · rw [hf] at h6; cases h6
  · intro x hx
    refine h3 x (fun h => hx ⟨((hm x).mp h.1).1, ((hm x).mp h.1).2, (notExcluded_iff _ _).mp h.2⟩)
  · intro x hx
    exact h4 x ⟨(hm x).mpr ⟨hx.1, hx.2.1⟩, (notExcluded_iff _ _).mpr hx.2.2⟩

/-- Two lines match, one of them is excluded. -/
example : ∃ P P', parse {} [s "a", s "ab", s "c"] = .ok P ∧
    replaceLines {} P (lit "a") (fun t => s "x" ++ t) (some (lit "b")) false = .ok P' ∧
    P'.texts = [s "xa", s "ab", s "c"] := ⟨_, _, rfl, rfl, by decide⟩

/-- C42 does not hold as stated: a replacement that leaves nothing deletes the line with
all its children, although those do not match. -/
theorem C42_blank_fails : ∃ P P', parse {} [s "interface a", s " x", s "b"] = .ok P ∧
    replaceLines {} P (lit "interface a") (fun _ => []) none false = .ok P' ∧ P'.texts = [s "b"] :=
  ⟨_, _, rfl, rfl, by decide⟩

/-- C42 does not hold as stated: the indent attribute is not updated. -/
theorem C42_indent_fails : ∃ P P', parse {} [s "a"] = .ok P ∧
    replaceLines {} P (lit "a") (fun t => s "  " ++ t) none false = .ok P' ∧
    (P'.h 0).text = s "  a" ∧ (P'.h 0).indent = 0 := ⟨_, _, rfl, rfl, by decide, by decide⟩

/-! ## C57: append_line and prepend_line -/

theorem head_pyInsert (l : List Nat) (x : Nat) : pyInsert l 0 x = x :: l := rfl

/-- C57: `prepend_line` adds the line as the first one (without `factory`). -/
theorem C57_prepend {o : Opts} {C : Compile} {P : Parsed} (hr : Spec.Reach o C P)
    (ho : o.factory = false) (new : Str) :
    ∃ P', prependLine o P new = .ok P' ∧ P'.texts = rstrip new :: P.texts ∧
      ∃ i, P'.list = i :: P.list ∧ ∀ x ∈ P.list, { P'.h x with linenum := (P.h x).linenum } = P.h x := by
  have hw := wf_reach hr
  have hx : ∀ x ∈ P.list, { renumber 0 (P.n :: P.list) (upd P.h P.n (fun _ => newObj o new P.n)) x with
      linenum := (P.h x).linenum } = P.h x := by
    intro x hx
    have hlt := hw.list x hx
    have := renumber_same (P.n :: P.list) 0 (upd P.h P.n (fun _ => newObj o new P.n)) x
    rw [upd, if_neg (by omega)] at this
    exact this
  refine ⟨_, by rw [prependLine, insertAt, if_neg (by rw [ho]; simp)], ?_, P.n, rfl, hx⟩
  show (P.n :: P.list).map (fun i =>
    (renumber 0 (P.n :: P.list) (upd P.h P.n (fun _ => newObj o new P.n)) i).text) = _
  rw [List.map_cons]
  congr 1
  · have := renumber_same (P.n :: P.list) 0 (upd P.h P.n (fun _ => newObj o new P.n)) P.n
    have := congrArg Obj.text this
    rw [upd, if_pos rfl] at this
    exact this
  · refine List.map_congr_left (fun x h => ?_)
    have := congrArg Obj.text (hx x h)
    exact this

/-- C57 does not hold as stated: with `factory`, `prepend_line` always fails. -/
theorem C57_factory_fails (o : Opts) (P : Parsed) (new : Str) (h : o.factory = true) :
    prependLine o P new = .error .typeError := by
  rw [prependLine, insertAt, if_pos h]

/-- C57 does not hold as stated: `append_line` never adds the given text. -/
theorem C57_append_fails : ∃ P P', parse {} [s "a"] = .ok P ∧
    appendLine {} P (s "b") = .ok P' ∧ P'.texts = [s "a", s "__undefined__"] :=
  ⟨_, _, rfl, rfl, by decide⟩

/-- What `append_line` does instead, whatever the argument. -/
theorem C57_append_any (o : Opts) (P : Parsed) (a b : Str) (ha : Spec.NoBlank o [a])
    (hb : Spec.NoBlank o [b]) : appendLine o P a = appendLine o P b := by
  rw [appendLine, appendLine, if_neg (not_blankNew ha), if_neg (not_blankNew hb)]

example : ∃ P P', parse {} [s "a"] = .ok P ∧ prependLine {} P (s "b ") = .ok P' ∧
    P'.texts = [s "b", s "a"] := ⟨_, _, rfl, rfl, by decide⟩

/-! ## C58: insertion next to an object -/

/-- C58: when the text of the object, as a regular expression, matches only that line,
`obj.insert_before` puts the new line directly before it. -/
theorem C58_before_partial {o : Opts} {C : Compile} {P : Parsed} (hr : Spec.Reach o C P)
    (hn : Spec.Numbered P) {i : Nat} (hi : i ∈ P.list) (hown : (P.h i).owned = true)
    (ht : (P.h i).text ≠ []) {rx : Rx} (hC : C (P.h i).text = some rx) (ho : Spec.Only P rx i)
    (new : Str) (hb : Spec.NoBlank o [new]) :
    ∃ P', objInsertBefore o C P i new = .ok P' ∧ Spec.PutBefore P P' i (rstrip new) := by
  refine ⟨_, ?_, putBefore_only (o := o) (wf_reach hr) hn hi ho new⟩
  rw [objInsertBefore, if_neg (by rw [hown]; simp), if_neg (not_blankNew hb), if_neg ht, hC]

/-- C58: the same for `obj.insert_after`. -/
theorem C58_after_partial {o : Opts} {C : Compile} {P : Parsed} (hr : Spec.Reach o C P)
    (hn : Spec.Numbered P) {i : Nat} (hi : i ∈ P.list) (hown : (P.h i).owned = true)
    (ht : (P.h i).text ≠ []) {rx : Rx} (hC : C (P.h i).text = some rx) (ho : Spec.Only P rx i)
    (new : Str) (hb : Spec.NoBlank o [new]) :
    ∃ P', objInsertAfter o C P i new = .ok P' ∧ Spec.PutAfter P P' i (rstrip new) := by
  refine ⟨_, ?_, putAfter_only (o := o) (wf_reach hr) hn hi ho new⟩
  rw [objInsertAfter, if_neg (by rw [hown]; simp), if_neg (not_blankNew hb), if_neg ht, hC]

example : ∃ P P', parse {} [s "a", s "b", s "c"] = .ok P ∧
    (∃ rx, plainC (P.h 1).text = some rx ∧ P.list.filter (fun x => Spec.hits rx (P.h x).text) = [1]) ∧
    objInsertAfter {} plainC P 1 (s "n") = .ok P' ∧ P'.texts = [s "a", s "b", s "n", s "c"] :=
  ⟨_, _, rfl, ⟨_, rfl, by decide⟩, rfl, by decide⟩

/-- C58 does not hold as stated: the line also goes next to other lines that contain the
text. -/
theorem C58_other_fails : ∃ P P', parse {} [s "vlan 1", s "vlan 10"] = .ok P ∧
    objInsertAfter {} plainC P 0 (s " name x") = .ok P' ∧
    P'.texts = [s "vlan 1", s " name x", s "vlan 10", s " name x"] :=
  ⟨_, _, rfl, rfl, by decide⟩

/-- C58 does not hold as stated: `insert_after_child` with two such lines puts the new
line twice after each of them. -/
theorem C58_child_fails : ∃ P P', parse {} [s "interface a", s " x", s "interface b", s " x"] = .ok P ∧
    insertAfterChild {} plainC P (lit "interface") (lit "x") none (s " n") false = .ok P' ∧
    P'.texts = [s "interface a", s " x", s " n", s " n", s "interface b", s " x", s " n", s " n"] :=
  ⟨_, _, rfl, rfl, by decide⟩

/-! ## C59: commit -/

/-- C59: whatever edits were made, `commit` makes the configuration what a parse of its
current lines gives: numbered lines, each with the parent that the rules give it. -/
theorem C59_commit_partial {o : Opts} {P P' : Parsed} (h : atomic o P = .ok P') (hb : Spec.NoBlank o P.texts) :
    P'.texts = P.texts.map rstrip ∧ Spec.Numbered P' ∧ Spec.Indents P' ∧
    (∀ i ∈ P'.list, (P'.h i).owned = true) ∧
    ∃ k, P'.list = (List.range P.texts.length).map (· + k) ∧
      ∀ j < P.texts.length, ∃ p, (P'.h (j + k)).parent = p + k ∧
        Conf.Spec.Parent o (lineAt P.texts) j p := by
  obtain ⟨Q, hQ, rfl⟩ := atomic_shape h
  have hk := keep_of_noBlank hb
  have hl := list_full hQ hk
  refine ⟨?_, numbered_embed hQ hk, ?_, ?_, P.n, ?_, ?_⟩
  · show (Q.list.map (· + P.n)).map (fun i => ((embed P Q).h i).text) = _
    rw [hl, List.map_map]
    refine List.ext_getElem (by simp) (fun j h1 h2 => ?_)
    rw [List.length_map, List.length_range] at h1
    rw [List.getElem_map, List.getElem_range, List.getElem_map]
    show ((embed P Q).h (j + P.n)).text = _
    rw [embed_new]
    show (Q.h j).text = _
    rw [(attrs hQ h1).1]
    show rstrip (lineAt P.texts j) = _
    rw [lineAt, List.getD_eq_getElem?_getD, List.getElem?_eq_getElem h1]; rfl
  · intro i hi
    obtain ⟨j, hj, rfl⟩ := List.mem_map.mp hi
    have hlt := ((mem_list hQ).mp hj).1
    rw [embed_new]
    show (Q.h j).indent = ((Q.h j).text.takeWhile isSpace).length
    obtain ⟨h1, h2, _⟩ := attrs hQ hlt
    rw [h1, h2]
    show (rstrip _).length - (lstrip (rstrip _)).length = ((rstrip (lineAt P.texts j)).takeWhile isSpace).length
    have : (rstrip (lineAt P.texts j)).length =
        ((rstrip (lineAt P.texts j)).takeWhile isSpace).length +
        ((rstrip (lineAt P.texts j)).dropWhile isSpace).length := by
      rw [← List.length_append, List.takeWhile_append_dropWhile]
    rw [lstrip]; omega
  · intro i hi
    obtain ⟨j, hj, rfl⟩ := List.mem_map.mp hi
    rw [embed_new]
    exact (attrs hQ ((mem_list hQ).mp hj).1).2.2.2.2
  · show Q.list.map (· + P.n) = _
    rw [hl]
  · intro j hj
    refine ⟨(Q.h j).parent, ?_, parent_spec hQ hj⟩
    rw [embed_new]; rfl

/-- C59: `commit` succeeds unless a closing brace has no partner or an ios macro has no
end. -/
theorem C59_ok (o : Opts) (P : Parsed) (h1 : ∀ l ∈ P.texts, ¬ Conf.Spec.closes l)
    (h2 : ∀ l ∈ P.texts, ¬ "macro name ".toList <+: l) (hb : ∀ l ∈ P.texts, l ≠ []) :
    ∃ P', atomic o P = .ok P' := by
  obtain ⟨Q, hQ⟩ := C28_plain o P.texts h1 h2
  have : Conf.Spec.input o P.texts = P.texts := by
    rw [Conf.Spec.input]
    split
    · rw [List.filter_eq_self]
      intro l hl
      exact decide_eq_true (hb l hl)
    · rfl
  rw [parse, input_eq, this] at hQ
  exact ⟨embed P Q, by rw [atomic, hQ]; rfl⟩

/-- C59 does not hold as stated: `commit` drops a line that an edit made blank. -/
theorem C59_blank_fails : ∃ P P' P'', parse {} [s "a", s "b"] = .ok P ∧
    insertAt {} P 1 (s " ") = .ok P' ∧ P'.texts = [s "a", [], s "b"] ∧
    atomic {} P' = .ok P'' ∧ P''.texts = [s "a", s "b"] :=
  ⟨_, _, _, rfl, rfl, by decide, rfl, by decide⟩

/-- A line is inserted, and commit makes it a child. -/
example : ∃ P P' P'', parse {} [s "interface a", s "b"] = .ok P ∧
    listInsertAfter {} P (lit "interface") (s " n") = .ok P' ∧ (P'.h 0).children = [] ∧
    atomic {} P' = .ok P'' ∧ P''.list = [3, 4, 5] ∧ (P''.h 3).children = [4] ∧ (P''.h 4).parent = 3 :=
  ⟨_, _, _, rfl, rfl, by decide, rfl, by decide, by decide, by decide⟩

/-! ## C60: replace_children -/

/-- The objects other than their texts. -/
theorem replaced_children {o : Opts} {P P' : Parsed} {S : Nat → Prop} {sub : Str → Str}
    (h : Spec.Replaced o P P' S sub) (x : Nat) : (P'.h x).children = (P.h x).children := by
  by_cases hx : S x
  · obtain ⟨c, h1, _⟩ := h.2.2 x hx
    rw [h1]
  · rw [h.2.1 x hx]

theorem replaceParents_ok {o : Opts} {child : Rx} {sub : Str → Str} {ps : List Nat} {P : Parsed}
    (hnd : (ps.flatMap (fun p => (P.h p).children)).Nodup)
    (hs : ∀ t, Spec.hits child t = true → ¬ Conf.Spec.blank (sub t)) :
    ∃ P', replaceParents o (fun Q i => (Q.h i).children) child sub none ps P = .ok P' ∧
      Spec.Replaced o P P' (fun x => (∃ p ∈ ps, x ∈ (P.h p).children) ∧
        Spec.hits child (P.h x).text = true) sub := by
  induction ps generalizing P with
  | nil => exact ⟨P, rfl, rfl, fun _ _ => rfl, fun x hx => by obtain ⟨⟨p, hp, _⟩, _⟩ := hx; cases hp⟩
  | cons p ps ih =>
    rw [List.flatMap_cons, List.nodup_append] at hnd
    obtain ⟨n1, n2, n3⟩ := hnd
    have hpick : ∀ t, (notExcluded none t && child.search t) = Spec.hits child t := fun t => by
      rw [notExcluded]; rfl
    obtain ⟨Q, hQ, _, hR⟩ := replaceEach_ok (o := o) (pick := fun t => notExcluded none t && child.search t)
      (sub := sub) (P := P) n1 (fun i hi hp => hs _ (by rw [← hpick]; exact hp))
    have hch := replaced_children hR
    obtain ⟨r1, r2, r3⟩ := hR
    obtain ⟨P', hP', t1, t2, t3⟩ := ih (P := Q) (by
      rw [show (fun p => (Q.h p).children) = (fun p => (P.h p).children) from funext hch]; exact n2)
    rw [replaceParents]
    have hne : notExcluded none (P.h p).text = true := rfl
    rw [if_pos hne, hQ]
    have hout : ∀ x, x ∉ (P.h p).children → Q.h x = P.h x := fun x hx => r2 x (fun h => hx h.1)
    refine ⟨P', hP', t1.trans r1, ?_, ?_⟩
    · intro x hx
      by_cases hxp : x ∈ (P.h p).children
      · have hh : ¬ Spec.hits child (P.h x).text = true := fun h => hx ⟨⟨p, by simp, hxp⟩, h⟩
        rw [t2 x (by
          rintro ⟨⟨q, hq, hxq⟩, _⟩
          rw [hch] at hxq
          exact n3 x hxp x (List.mem_flatMap.mpr ⟨q, hq, hxq⟩) rfl)]
        exact r2 x (fun h => hh (by rw [← hpick]; exact h.2))
      · rw [t2 x, hout x hxp]
        rintro ⟨⟨q, hq, hxq⟩, hh⟩
        rw [hch] at hxq
        rw [hout x hxp] at hh
        exact hx ⟨⟨q, by simp [hq], hxq⟩, hh⟩
    · rintro x ⟨⟨q, hq, hxq⟩, hh⟩
      by_cases hxp : x ∈ (P.h p).children
      · have hx : Q.h x = P'.h x := (t2 x (by
          rintro ⟨⟨q, hq, hxq⟩, _⟩
          rw [hch] at hxq
          exact n3 x hxp x (List.mem_flatMap.mpr ⟨q, hq, hxq⟩) rfl)).symm
        rw [← hx]
        exact r3 x ⟨hxp, by rw [hpick]; exact hh⟩
      · have hqs : q ∈ ps := by
          rcases List.mem_cons.mp hq with e | e
          · rw [e] at hxq; exact absurd hxq hxp
          · exact e
        have := t3 x ⟨⟨q, hqs, by rw [hch]; exact hxq⟩, by rw [hout x hxp]; exact hh⟩
        rw [hout x hxp] at this
        exact this

/-- C60: without `excludespec`, and when no replacement gives a blank line and no line is
a child of two matching parents, `replace_children` replaces the text of exactly the
matching children of matching parents, and changes nothing else. -/
theorem C60_replace_children_partial {o : Opts} {P : Parsed} (parent child : Rx) (sub : Str → Str)
    (atom : Bool) (hf : o.factory = false ∨ atom = false)
    (hnd : ((P.list.filter (fun p => Spec.hits parent (P.h p).text)).flatMap
      (fun p => (P.h p).children)).Nodup)
    (hs : ∀ t, Spec.hits child t = true → ¬ Conf.Spec.blank (sub t)) :
    ∃ P', replaceChildren o P parent child sub none atom = .ok P' ∧
      Spec.Replaced o P P' (fun x =>
        (∃ p ∈ P.list, Spec.hits parent (P.h p).text = true ∧ x ∈ (P.h p).children) ∧
        Spec.hits child (P.h x).text = true) sub := by
  obtain ⟨P', h1, h2, h3, h4⟩ := replaceParents_ok (o := o) (child := child) (sub := sub)
    (ps := findObjects P parent) (P := P) hnd hs
  have hm : ∀ x, (∃ p ∈ findObjects P parent, x ∈ (P.h p).children) ↔
      (∃ p ∈ P.list, Spec.hits parent (P.h p).text = true ∧ x ∈ (P.h p).children) := by
    intro x
    constructor
    · rintro ⟨p, hp, hx⟩
      have := List.mem_filter.mp hp
      exact ⟨p, this.1, this.2, hx⟩
    · rintro ⟨p, hp, hh, hx⟩
      exact ⟨p, List.mem_filter.mpr ⟨hp, hh⟩, hx⟩
  refine ⟨P', ?_, h2, fun x hx => h3 x (fun h => hx ⟨(hm x).mp h.1, h.2⟩),
    fun x hx => h4 x ⟨(hm x).mpr hx.1, hx.2⟩⟩
  rw [replaceChildren, h1]
  show finish o atom P' = _
  rw [finish, if_neg]
  rintro ⟨h5, h6⟩
  rcases hf with hf | hf
  · rw [hf] at h5; cases h5
  · rw [hf] at h6; cases h6

example : ∃ P P', parse {} [s "interface a", s " x", s " y", s "b", s " x"] = .ok P ∧
    replaceChildren {} P (lit "interface") (lit "x") (fun _ => s " z") none false = .ok P' ∧
    P'.texts = [s "interface a", s " z", s " y", s "b", s " x"] := ⟨_, _, rfl, rfl, by decide⟩

/-- C60 does not hold as stated: `replace_all_children` reaches children and
grandchildren only. -/
theorem C60_depth_fails : ∃ P P', parse {} [s "a", s " bx", s "  cx", s "   dx"] = .ok P ∧
    allChildren P 0 = [1, 2, 3] ∧
    replaceAllChildren {} P (lit "a") (lit "x") (fun t => t ++ s "!") none false = .ok P' ∧
    P'.texts = [s "a", s " bx!", s "  cx!", s "   dx"] := ⟨_, _, rfl, by decide, rfl, by decide⟩

/-! ## C61: delete_children_matching -/

/-- C61: when line numbers are positions, the families of the matching children are
disjoint, listed and have no text with a leading digit, `delete_children_matching`
removes exactly those families. -/
theorem C61_delete_children_partial {o : Opts} {C : Compile} {P : Parsed} (hr : Spec.Reach o C P)
    (hn : Spec.Numbered P) {i : Nat} (hown : (P.h i).owned = true) (rx : Rx)
    (hnorm : Query.Spec.Normal rx) (hnd : (P.h i).children.Nodup)
    (hown' : ∀ c ∈ (P.h i).children, Spec.hits rx (P.h c).text = true → (P.h c).owned = true)
    (hfam : ∀ c ∈ (P.h i).children, Spec.hits rx (P.h c).text = true → ∀ x, Spec.Fam P c x → x ∈ P.list)
    (hd : ∀ c ∈ (P.h i).children, Spec.hits rx (P.h c).text = true → Spec.NoDigits P (Spec.Fam P c))
    (hdis : ∀ c ∈ (P.h i).children, Spec.hits rx (P.h c).text = true → ∀ e ∈ (P.h i).children,
      Spec.hits rx (P.h e).text = true → c ≠ e → ∀ x, Spec.Fam P c x → ¬ Spec.Fam P e x) :
    ∃ P', deleteChildrenMatching P i rx = .ok P' ∧ Spec.Removed P P' (fun x =>
      ∃ c ∈ (P.h i).children, Spec.hits rx (P.h c).text = true ∧ Spec.Fam P c x) := by
  have hm : ∀ c, c ∈ (P.h i).children.filter (fun c => reSearch rx (P.h c).text) ↔
      c ∈ (P.h i).children ∧ Spec.hits rx (P.h c).text = true := by
    intro c
    rw [List.mem_filter]
    refine and_congr Iff.rfl ?_
    rw [reSearch_iff]
    constructor
    · rintro ⟨_, h | ⟨g, h⟩⟩
      · obtain ⟨g, h⟩ := hnorm.1 _ h
        rw [Spec.hits, h]; rfl
      · rw [Spec.hits, h]; rfl
    · intro h
      obtain ⟨g, hg⟩ := Option.isSome_iff_exists.mp h
      obtain ⟨h1, h2⟩ := hnorm.2 _ g hg
      refine ⟨fun e => h1 ?_, Or.inr ⟨g, hg⟩⟩
      rw [e] at h2
      exact List.infix_nil.mp h2
  obtain ⟨P', h1, s1, m1, o1, n1⟩ := deleteEach_ok
    (is := (P.h i).children.filter (fun c => reSearch rx (P.h c).text)) (wf_reach hr) hn (hnd.filter _)
    (fun c hc => hown' c ((hm c).mp hc).1 ((hm c).mp hc).2)
    (fun c hc => hfam c ((hm c).mp hc).1 ((hm c).mp hc).2)
    (fun c hc => hd c ((hm c).mp hc).1 ((hm c).mp hc).2)
    (fun c hc e he => hdis c ((hm c).mp hc).1 ((hm c).mp hc).2 e ((hm e).mp he).1 ((hm e).mp he).2)
  refine ⟨P', by rw [deleteChildrenMatching, if_neg (by rw [hown]; simp)]; exact h1, s1, ?_, o1, n1⟩
  intro x
  rw [m1]
  refine and_congr Iff.rfl (not_congr ?_)
  constructor
  · rintro ⟨c, hc, hx⟩; exact ⟨c, ((hm c).mp hc).1, ((hm c).mp hc).2, hx⟩
  · rintro ⟨c, h1, h2, hx⟩; exact ⟨c, (hm c).mpr ⟨h1, h2⟩, hx⟩

example : ∃ P P', parse {} [s "interface a", s " x", s "  y", s " z", s "b"] = .ok P ∧
    (P.h 0).children = [1, 3] ∧ deleteChildrenMatching P 0 (lit "x") = .ok P' ∧
    P'.texts = [s "interface a", s " z", s "b"] := ⟨_, _, rfl, by decide, rfl, by decide⟩

/-- The expression of the example is as the theorem asks. -/
example : Query.Spec.Normal (lit "x") := by
  constructor
  · intro t h
    exact ⟨_, if_pos ((isInfix_iff _ _).mpr h)⟩
  · intro t g h
    have h : (if isInfix "x".toList t then some "x".toList else none) = some g := h
    by_cases hi : isInfix "x".toList t = true
    · rw [if_pos hi] at h
      rw [← Option.some.inj h]
      exact ⟨by decide, (isInfix_iff _ _).mp hi⟩
    · rw [if_neg hi] at h; cases h

end Edit

import Verif.Edit.Block

/-! # C222: an insertion or a deletion can be undone -/

namespace Edit.Spec

open Py Conf

/-- `Q` has the lines of `P`, which are `lines`, with the same children and descendants. -/
def Same (lines : List Str) (P Q : Parsed) : Prop :=
  Q.texts = lines ∧ ∃ w, (∀ k < lines.length, Q.list[k]? = some (w + k)) ∧ Query.Spec.Alike Q w P 0 lines.length

end Edit.Spec

namespace Edit

open Py Conf Query

variable {o : Opts} {P P' P'' : Parsed} {lines : List Str}

theorem alike_self (h : bootstrap o lines = .ok P) : Query.Spec.Alike P 0 P 0 lines.length := by
  obtain ⟨_, _, hn, _, _⟩ := bootstrap_ok h
  have hw := wf_bootstrap h
  have kids : ∀ i < lines.length, ∀ c ∈ (P.h i).children, c < lines.length := fun i hi c hc => by
    rw [← hn]; exact (hw.kids i (by omega) c hc).2
  intro k hk
  rw [Nat.zero_add]
  refine ⟨rfl, ⟨(P.h k).children, kids k hk, by simp, by simp⟩, allChildren P k, fun a ha => ?_, by simp, by simp⟩
  have hd := allAux_sound P.n k ha
  clear ha
  induction hd with
  | child hc => exact kids _ hk _ hc
  | step hc _ ih => exact ih (kids _ hk _ hc)

theorem remove_one {l X Y : List Nat} {v : Nat} (hs : l.Sublist (X ++ v :: Y)) (hn : (X ++ v :: Y).Nodup)
    (hm : ∀ x, x ∈ l ↔ x ∈ X ++ v :: Y ∧ x ≠ v) : l = X ++ Y := by
  obtain ⟨p, hp⟩ : ∃ p : Nat → Bool, ∀ x, p x = true ↔ x ≠ v := ⟨fun x => decide (x ≠ v), fun x => by simp⟩
  have hpv : ¬ p v = true := by rw [hp]; simp
  have e : (X ++ v :: Y).filter p = X ++ Y := by
    have hd2 := List.nodup_append.mp hn
    have hd3 := List.nodup_cons.mp hd2.2.1
    rw [List.filter_append, List.filter_cons_of_neg hpv,
      List.filter_eq_self.mpr (fun x hx => (hp x).mpr (hd2.2.2 x hx v (by simp))),
      List.filter_eq_self.mpr (fun x hx => (hp x).mpr (fun e => hd3.1 (e ▸ hx)))]
  have e' : l.filter p = l := List.filter_eq_self.mpr (fun x hx => (hp x).mpr ((hm x).mp hx).2)
  have hs' := hs.filter p
  rw [e, e'] at hs'
  refine sublist_full hs' (e ▸ List.Pairwise.filter _ hn) (fun x hx => (hm x).mpr ?_)
  rw [← e, List.mem_filter] at hx
  exact ⟨hx.1, (hp x).mp hx.2⟩

/-- Committing the lines of `P` gives `P`. -/
theorem restored (h : parse o lines = .ok P) (hc : ∀ l ∈ lines, ¬ Conf.Spec.blank l ∧ rstrip l = l) {Q : Parsed}
    (ht : Q.texts = lines) : ∃ R, atomic o Q = .ok R ∧ Spec.Same lines P R := by
  have hnil : ∀ t ∈ lines, t ≠ [] := fun t ht => by rintro rfl; exact (hc [] ht).1 (fun _ hc => by cases hc)
  have hnb : ∀ t ∈ lines, ¬ Conf.Spec.blank t := fun t ht => (hc t ht).1
  have hboot := h
  rw [texts_parse hnil] at hboot
  have hl := list_full hboot (keep_of_noBlank (Or.inr hnb))
  have hn : P.n = lines.length := by obtain ⟨_, _, hn, _, _⟩ := bootstrap_ok hboot; exact hn
  have hat : atomic o Q = .ok (embed Q P) := by rw [atomic, ht, hboot]; rfl
  refine ⟨_, hat, ?_, Q.n, fun k hk => ?_, alike_embed (wf_bootstrap hboot) (by omega) (alike_self hboot)⟩
  · rw [(C59_commit_partial hat (by rw [ht]; exact Or.inr hnb)).1, ht]
    exact (List.map_congr_left (fun t ht => (hc t ht).2)).trans (List.map_id' _)
  · show (P.list.map (· + Q.n))[k]? = _
    rw [hl, List.getElem?_map, List.getElem?_range hk]
    simp; omega

/-- A comment has no children, and neither has a line followed by a configuration line that is not deeper, or by none. -/
theorem leaf_of_next (h : parse o lines = .ok P) (hpl : Query.Spec.Plain lines)
    (hc : ∀ l ∈ lines, ¬ Conf.Spec.blank l ∧ rstrip l = l) {m : Nat} (hm : m < lines.length)
    (hnext : ¬ Conf.Spec.config o.delims (lineAt lines m) ∨ ∀ u, lines[m + 1]? = some u →
      Conf.Spec.config o.delims u ∧ Conf.Spec.indent u ≤ Conf.Spec.indent (lineAt lines m)) : (P.h m).children = [] := by
  have hnil : ∀ t ∈ lines, t ≠ [] := fun t ht => by rintro rfl; exact (hc [] ht).1 (fun _ hc => by cases hc)
  have hnb : ∀ t ∈ lines, ¬ Conf.Spec.blank t := fun t ht => (hc t ht).1
  have hboot := h
  rw [texts_parse hnil] at hboot
  have hl := list_full hboot (keep_of_noBlank (Or.inr hnb))
  have hmP : m ∈ P.list := by rw [hl]; simpa using hm
  rw [List.eq_nil_iff_forall_not_mem]
  intro x hx
  have hn := child_nearest h hpl hmP hx
  rw [input_id hnil] at hn
  have hxl : x < lines.length := by
    have := ((tree_of_parse h).kids m hmP x hx).1
    rw [hl] at this; simpa using this
  obtain ⟨h1, h0, h2, h3⟩ := hn
  have hu := (hnext.resolve_left (fun hh => hh h0)) (lineAt lines (m + 1)) (by
    rw [lineAt, List.getD_eq_getElem?_getD, List.getElem?_eq_getElem (by omega)]; rfl)
  by_cases e : x = m + 1
  · subst e; have := hu.2; omega
  · have := h3 (m + 1) (by omega) (by omega) hu.1
    have := hu.2
    omega

/-- C222: a new line that is put behind a line can be taken away again: after both are committed the configuration is what it
was. The new line must be a comment, or come before a configuration line that is not deeper, or be the last. -/
theorem C222_insert_partial {C : Compile} {j : Nat} {t : Str} (h : parse o lines = .ok P) (hpl : Query.Spec.Plain (t :: lines))
    (hc : ∀ l ∈ t :: lines, ¬ Conf.Spec.blank l ∧ rstrip l = l) (hr : Spec.Reach o C P')
    (hput : Spec.PutAfter P P' j t) (hat : atomic o P' = .ok P'')
    (hnext : ¬ Conf.Spec.config o.delims t ∨ ∀ u, lines[j + 1]? = some u →
      Conf.Spec.config o.delims u ∧ Conf.Spec.indent u ≤ Conf.Spec.indent t)
    (hd : ∀ c, t.head? = some c → isDigit c = false) :
    ∃ v Q R, P''.list[j + 1]? = some v ∧ (P''.h v).text = t ∧ delete P'' v true = .ok Q ∧ atomic o Q = .ok R ∧ Spec.Same lines P R := by
  have hcl : ∀ l ∈ lines, ¬ Conf.Spec.blank l ∧ rstrip l = l := fun l hl => hc l (by simp [hl])
  have hnil : ∀ t ∈ lines, t ≠ [] := fun t ht => by rintro rfl; exact (hcl [] ht).1 (fun _ hc => by cases hc)
  have hnb : ∀ t ∈ lines, ¬ Conf.Spec.blank t := fun t ht => (hcl t ht).1
  have hboot := h
  rw [texts_parse hnil] at hboot
  have hl := list_full hboot (keep_of_noBlank (Or.inr hnb))
  have htext : ∀ x < lines.length, (P.h x).text = lineAt lines x := by
    intro x hx
    rw [show (P.h x).text = rstrip (lineAt lines x) from (attrs hboot hx).1]
    exact (hcl _ (at_mem hx)).2
  have hPt : P.texts = lines := by
    rw [Parsed.texts, hl]
    refine List.ext_getElem (by simp) (fun k h1 h2 => ?_)
    rw [List.getElem_map, List.getElem_range, htext k h2, lineAt, List.getD_eq_getElem?_getD, List.getElem?_eq_getElem h2]; rfl
  obtain ⟨A, B, new, e1, e2, e3, e4, e5, _⟩ := hput
  have hA : A.length = j := by
    have : P.list[A.length]? = some j := by rw [e1]; simp
    rw [hl] at this
    obtain ⟨_, hh⟩ := List.getElem?_eq_some_iff.mp this
    simpa using hh
  have tx : ∀ l : List Nat, (∀ x ∈ l, x ∈ P.list) → l.map (fun x => (P'.h x).text) = l.map (fun x => (P.h x).text) :=
    fun l hl => List.map_congr_left (fun x hx => by have := congrArg Obj.text (e5 x (hl x hx)); exact this)
  -- the lines after the insertion
  obtain ⟨a, ea⟩ : ∃ a, a = (A ++ [j]).map (fun x => (P.h x).text) := ⟨_, rfl⟩
  obtain ⟨b, eb⟩ : ∃ b, b = B.map (fun x => (P.h x).text) := ⟨_, rfl⟩
  have hab : lines = a ++ b := by
    rw [← hPt, Parsed.texts, e1, ea, eb, ← List.map_append]; simp
  have halen : a.length = j + 1 := by rw [ea]; simp [hA]
  have hP't : P'.texts = a ++ t :: b := by
    rw [Parsed.texts, e2, List.append_cons, List.map_append, List.map_cons, e4, ea, eb, tx, tx]
    · intro x hx; rw [e1]; simp [hx]
    · intro x hx
      rw [e1]
      rcases List.mem_append.mp hx with hx | hx
      · simp [hx]
      · simp at hx; simp [hx]
  have hmem' : ∀ l ∈ a ++ t :: b, l ∈ t :: lines := by
    intro l hl
    rw [hab]
    simp only [List.mem_append, List.mem_cons] at hl ⊢
    rcases hl with hl | hl | hl <;> simp [hl]
  have hc' : ∀ l ∈ a ++ t :: b, ¬ Conf.Spec.blank l ∧ rstrip l = l := fun l hl => hc l (hmem' l hl)
  have hnil' : ∀ t' ∈ a ++ t :: b, t' ≠ [] := fun t ht => by rintro rfl; exact (hc' [] ht).1 (fun _ hc => by cases hc)
  have hnb' : ∀ t' ∈ a ++ t :: b, ¬ Conf.Spec.blank t' := fun t ht => (hc' t ht).1
  have hpl' : Query.Spec.Plain (a ++ t :: b) :=
    ⟨fun l hl => hpl.1 l (hmem' l hl), fun l hl => hpl.2.1 l (hmem' l hl), fun l hl => hpl.2.2 l (hmem' l hl)⟩
  obtain ⟨S, hS, rfl⟩ := atomic_shape hat
  rw [hP't] at hS
  have hSp : parse o (a ++ t :: b) = .ok S := by rw [texts_parse hnil']; exact hS
  have hSl := list_full hS (keep_of_noBlank (Or.inr hnb'))
  have hlt : j + 1 < (a ++ t :: b).length := by simp; omega
  have hline : lineAt (a ++ t :: b) (j + 1) = t := by
    rw [lineAt, List.getD_eq_getElem?_getD, ← halen]; simp
  have hkids : (S.h (j + 1)).children = [] := by
    refine leaf_of_next hSp hpl' hc' hlt ?_
    rw [hline]
    refine hnext.imp id (fun hnext u hu => hnext u ?_)
    rw [List.getElem?_append_right (by omega), show j + 1 + 1 - a.length = 1 by omega, List.getElem?_cons_succ] at hu
    rw [hab, List.getElem?_append_right (by omega), show j + 1 - a.length = 0 by omega]; exact hu
  -- the new object
  have hv : (embed P' S).h (j + 1 + P'.n) = moveObj P'.n (S.h (j + 1)) := embed_new _ _ _
  have hvt : ((embed P' S).h (j + 1 + P'.n)).text = t := by
    rw [hv]
    show (S.h (j + 1)).text = t
    rw [show (S.h (j + 1)).text = rstrip (lineAt (a ++ t :: b) (j + 1)) from (attrs hS hlt).1, hline]
    exact (hc t (by simp)).2
  have hvk : ((embed P' S).h (j + 1 + P'.n)).children = [] := by
    rw [hv]; show ((S.h (j + 1)).children.map _) = []; rw [hkids]; rfl
  have hfam : ∀ x, Spec.Fam (embed P' S) (j + 1 + P'.n) x ↔ x = j + 1 + P'.n := by
    intro x
    refine ⟨?_, Or.inl⟩
    rintro (hx | hx)
    · exact hx
    · cases hx with
      | child hx => rw [hvk] at hx; cases hx
      | step hx _ => rw [hvk] at hx; cases hx
  have hlist : (embed P' S).list = (List.range (a ++ t :: b).length).map (· + P'.n) := by
    show S.list.map (· + P'.n) = _; rw [hSl]
  have hcom := C59_commit_partial hat (by rw [hP't]; exact Or.inr hnb')
  have hvl : (embed P' S).list[j + 1]? = some (j + 1 + P'.n) := by
    rw [hlist, List.getElem?_map, List.getElem?_range hlt]; rfl
  have hvm : j + 1 + P'.n ∈ (embed P' S).list := List.mem_of_getElem? hvl
  obtain ⟨Q, hQ, hsub, hmem, hsame, _⟩ := C37_delete_partial (hr.edit .commit hat) hcom.2.1 (hcom.2.2.2.1 _ hvm)
    (fun x hx => by rw [(hfam x).mp hx]; exact hvm)
    (fun x hx c hc => by rw [(hfam x).mp hx, hvt] at hc; exact hd c hc)
  -- what is left
  have hQt : Q.texts = lines := by
    have hnd : (embed P' S).list.Nodup := by
      rw [hlist]
      exact List.Pairwise.map _ (fun a b hab => by omega) List.nodup_range
    have htx : ∀ x, (Q.h x).text = ((embed P' S).h x).text := fun x => by have := congrArg Obj.text (hsame x); exact this
    have hEt : (embed P' S).texts = a ++ t :: b := by
      rw [hcom.1, hP't]
      exact (List.map_congr_left (fun t ht => (hc' t ht).2)).trans (List.map_id' _)
    obtain ⟨X, Y, e6, e7⟩ : ∃ X Y, (embed P' S).list = X ++ (j + 1 + P'.n) :: Y ∧ X.length = j + 1 := by
      refine ⟨(embed P' S).list.take (j + 1), (embed P' S).list.drop (j + 2), ?_, ?_⟩
      · obtain ⟨hx1, hx2⟩ := List.getElem?_eq_some_iff.mp hvl
        rw [← hx2, ← List.drop_eq_getElem_cons hx1, List.take_append_drop]
      · rw [List.length_take, hlist]; simp; omega
    rw [e6] at hnd
    have hQl : Q.list = X ++ Y := by
      rw [e6] at hsub
      refine remove_one hsub hnd (fun x => ?_)
      rw [hmem, hfam, e6]
    rw [Parsed.texts, e6, List.map_append, List.map_cons] at hEt
    have hinj := List.append_inj hEt (by rw [List.length_map]; omega)
    have hinj2 := (List.cons.inj hinj.2).2
    rw [Parsed.texts, hQl, List.map_congr_left (fun x _ => htx x), List.map_append, hinj.1, hinj2, hab]
  obtain ⟨R, hR, hsm⟩ := restored h hcl hQt
  exact ⟨_, Q, R, hvl, hvt, hQ, hR, hsm⟩

/-- C222: a line without children that was deleted can be put back behind the line before it: after both are committed the
configuration is what it was. -/
theorem C222_delete_partial {i : Nat} {t : Str} (h : parse o lines = .ok P) (hpl : Query.Spec.Plain lines)
    (hc : ∀ l ∈ lines, ¬ Conf.Spec.blank l ∧ rstrip l = l) (ht : lines[i + 1]? = some t)
    (hk : (P.h (i + 1)).children = []) (hd : ∀ c, t.head? = some c → isDigit c = false) :
    ∃ P' P'' w, delete P (i + 1) true = .ok P' ∧ atomic o P' = .ok P'' ∧ P''.list[i]? = some w ∧
      ∀ Q, Spec.PutAfter P'' Q w t → ∃ R, atomic o Q = .ok R ∧ Spec.Same lines P R := by
  have hnil : ∀ t ∈ lines, t ≠ [] := fun t ht => by rintro rfl; exact (hc [] ht).1 (fun _ hc => by cases hc)
  have hnb : ∀ t ∈ lines, ¬ Conf.Spec.blank t := fun t ht => (hc t ht).1
  have hboot := h
  rw [texts_parse hnil] at hboot
  have hl := list_full hboot (keep_of_noBlank (Or.inr hnb))
  have htext : ∀ x < lines.length, (P.h x).text = lineAt lines x := by
    intro x hx
    rw [show (P.h x).text = rstrip (lineAt lines x) from (attrs hboot hx).1]
    exact (hc _ (at_mem hx)).2
  obtain ⟨hlt, hti⟩ := List.getElem?_eq_some_iff.mp ht
  have hline : lineAt lines (i + 1) = t := by rw [lineAt, List.getD_eq_getElem?_getD, ht]; rfl
  have hi : i + 1 ∈ P.list := by rw [hl]; simpa using hlt
  have hfam : ∀ x, Spec.Fam P (i + 1) x ↔ x = i + 1 := by
    intro x
    refine ⟨?_, Or.inl⟩
    rintro (hx | hx)
    · exact hx
    · cases hx with
      | child hx => rw [hk] at hx; cases hx
      | step hx _ => rw [hk] at hx; cases hx
  obtain ⟨P', hdel, hsub, hmem, hsame, _⟩ := C37_parse_partial h (by rw [input_id hnil]; exact Or.inr hnb) hi
    (fun x hx c hc => by rw [(hfam x).mp hx, htext _ hlt, hline] at hc; exact hd c hc)
  have hr : P.list = List.range' 0 (i + 1) ++ (i + 1) :: List.range' (i + 2) (lines.length - (i + 2)) := by
    have e1 : (i + 1) :: List.range' (i + 2) (lines.length - (i + 2)) = List.range' (i + 1) (lines.length - (i + 2) + 1) := by
      rw [List.range'_succ]
    have e2 := List.range'_append_1 (s := 0) (m := i + 1) (n := lines.length - (i + 2) + 1)
    rw [Nat.zero_add] at e2
    rw [hl, List.range_eq_range', e1, e2]
    congr 1; omega
  have hnd : P.list.Nodup := by rw [hl]; exact List.nodup_range
  have hP'l : P'.list = List.range' 0 (i + 1) ++ List.range' (i + 2) (lines.length - (i + 2)) := by
    rw [hr] at hsub hnd
    refine remove_one hsub hnd (fun x => ?_)
    rw [hmem, hfam, hr]
  have htx : ∀ x, (P'.h x).text = (P.h x).text := fun x => by have := congrArg Obj.text (hsame x); exact this
  have hseg : ∀ a n, a + n ≤ lines.length → (List.range' a n).map (fun x => (P.h x).text) = (lines.drop a).take n := by
    intro a n han
    refine List.ext_getElem (by simp; omega) (fun k h1 h2 => ?_)
    rw [List.getElem_map, List.getElem_range', Nat.one_mul, htext _ (by simp at h1; omega), List.getElem_take, List.getElem_drop,
      lineAt, List.getD_eq_getElem?_getD, List.getElem?_eq_getElem (by simp at h1; omega)]; rfl
  obtain ⟨a, ea⟩ : ∃ a, a = lines.take (i + 1) := ⟨_, rfl⟩
  obtain ⟨b, eb⟩ : ∃ b, b = lines.drop (i + 2) := ⟨_, rfl⟩
  have halen : a.length = i + 1 := by rw [ea, List.length_take]; omega
  have hab : lines = a ++ t :: b := by
    rw [ea, eb, ← hti, ← List.drop_eq_getElem_cons hlt, List.take_append_drop]
  have hP't : P'.texts = a ++ b := by
    rw [Parsed.texts, hP'l, List.map_congr_left (fun x _ => htx x), List.map_append, hseg _ _ (by omega), hseg _ _ (by omega),
      List.drop_zero, ea, eb, List.take_of_length_le (l := lines.drop (i + 2)) (by rw [List.length_drop]; omega)]
  have hmem' : ∀ l ∈ a ++ b, l ∈ lines := by
    intro l hl
    rw [hab]
    simp only [List.mem_append, List.mem_cons] at hl ⊢
    rcases hl with hl | hl <;> simp [hl]
  obtain ⟨P'', hat⟩ := C59_ok o P' (fun l hl => hpl.2.2 l (hmem' l (hP't ▸ hl))) (fun l hl => hpl.2.1 l (hmem' l (hP't ▸ hl)))
    (fun l hl => hnil l (hmem' l (hP't ▸ hl)))
  have hcom := C59_commit_partial hat (by rw [hP't]; exact Or.inr (fun l hl => hnb l (hmem' l hl)))
  have hEt : P''.texts = a ++ b := by
    rw [hcom.1, hP't]
    exact (List.map_congr_left (fun t ht => (hc t (hmem' t ht)).2)).trans (List.map_id' _)
  obtain ⟨k, hkl, _⟩ := hcom.2.2.2.2
  have hnd'' : P''.list.Nodup := by
    rw [hkl]
    exact List.Pairwise.map _ (fun a b hab => by omega) List.nodup_range
  have hw : P''.list[i]? = some (i + k) := by
    rw [hkl, List.getElem?_map, List.getElem?_range (by rw [hP't, List.length_append]; omega)]; rfl
  refine ⟨P', P'', i + k, hdel, hat, hw, ?_⟩
  rintro Q ⟨A, B, new, e1, e2, e3, e4, e5, _⟩
  have hA : A.length = i := by
    have h1 : P''.list[A.length]? = some (i + k) := by rw [e1]; simp
    rw [hkl, List.getElem?_map] at h1
    obtain ⟨x, hx, hx'⟩ := Option.map_eq_some_iff.mp h1
    obtain ⟨_, hx''⟩ := List.getElem?_eq_some_iff.mp hx
    simp at hx''
    omega
  have tx : ∀ l : List Nat, (∀ x ∈ l, x ∈ P''.list) → l.map (fun x => (Q.h x).text) = l.map (fun x => (P''.h x).text) :=
    fun l hl => List.map_congr_left (fun x hx => by have := congrArg Obj.text (e5 x (hl x hx)); exact this)
  rw [Parsed.texts, e1, List.append_cons, List.map_append] at hEt
  have hinj := List.append_inj hEt (by simp; omega)
  refine restored h hc ?_
  rw [Parsed.texts, e2, List.append_cons, List.map_append, List.map_cons, e4, tx, tx, hinj.1, hinj.2, hab]
  · intro x hx; rw [e1]; simp [hx]
  · intro x hx
    rw [e1]
    rcases List.mem_append.mp hx with hx | hx
    · simp [hx]
    · simp at hx; simp [hx]

/-! ## Examples -/

/-- A line is put in and taken away. -/
example : ∃ P P' P'' Q R, parse {} [s "interface a", s " mtu 9000", s "interface b"] = .ok P ∧
    objInsertAfter {} plainC P 0 (s " shutdown") = .ok P' ∧ atomic {} P' = .ok P'' ∧
    P''.texts = [s "interface a", s " shutdown", s " mtu 9000", s "interface b"] ∧ P''.list[1]? = some 5 ∧
    delete P'' 5 true = .ok Q ∧ atomic {} Q = .ok R ∧ R.texts = [s "interface a", s " mtu 9000", s "interface b"] :=
  ⟨_, _, _, _, _, rfl, rfl, rfl, by decide +kernel, by decide +kernel, rfl, rfl, by decide +kernel⟩

example : Conf.Spec.indent (s " mtu 9000") ≤ Conf.Spec.indent (s " shutdown") := by decide +kernel

/-- The same with a comment, before a deeper line and among comments. -/
example : ∃ P P' P'' Q R, parse {} [s "! top", s "interface a", s " mtu 9000"] = .ok P ∧
    objInsertAfter {} plainC P 1 (s "! note") = .ok P' ∧ atomic {} P' = .ok P'' ∧
    P''.texts = [s "! top", s "interface a", s "! note", s " mtu 9000"] ∧ P''.list[2]? = some 6 ∧
    delete P'' 6 true = .ok Q ∧ atomic {} Q = .ok R ∧ R.texts = [s "! top", s "interface a", s " mtu 9000"] :=
  ⟨_, _, _, _, _, rfl, rfl, rfl, by decide +kernel, by decide +kernel, rfl, rfl, by decide +kernel⟩

/-- A line is taken away and put back. -/
example : ∃ P P' P'' Q R, parse {} [s "interface a", s " mtu 9000", s "interface b"] = .ok P ∧ (P.h 1).children = [] ∧
    delete P 1 true = .ok P' ∧ atomic {} P' = .ok P'' ∧ P''.list[0]? = some 3 ∧
    objInsertAfter {} plainC P'' 3 (s " mtu 9000") = .ok Q ∧ atomic {} Q = .ok R ∧
    R.texts = [s "interface a", s " mtu 9000", s "interface b"] :=
  ⟨_, _, _, _, _, rfl, by decide +kernel, rfl, rfl, by decide +kernel, rfl, rfl, by decide +kernel⟩

/-- C222 does not hold as stated: a new line that comes before a deeper line becomes its parent, and takes it along when it is
deleted. -/
theorem C222_adopt_fails : ∃ P P' P'' Q R, parse {} [s "a", s " b", s "  c"] = .ok P ∧
    objInsertAfter {} plainC P 1 (s " x") = .ok P' ∧ atomic {} P' = .ok P'' ∧
    P''.texts = [s "a", s " b", s " x", s "  c"] ∧ P''.list[2]? = some 6 ∧ delete P'' 6 true = .ok Q ∧ atomic {} Q = .ok R ∧
    R.texts = [s "a", s " b"] :=
  ⟨_, _, _, _, _, rfl, rfl, rfl, by decide +kernel, by decide +kernel, rfl, rfl, by decide +kernel⟩

end Edit

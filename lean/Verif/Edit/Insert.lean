import Verif.Edit.Inv

/-! # Lemmas about insertions and line numbers -/

namespace Edit

open Py Conf Query

/-! ## Inserting at all matching positions -/

theorem pyInsert_nat {l : List Nat} {k x : Nat} : pyInsert l (k : Int) x = l.take k ++ x :: l.drop k := by
  rw [pyInsert]
  have : ¬ ((k : Int) < 0) := by omega
  simp [this]

theorem ins_before (p : Nat → Bool) (x : Nat) (l pre : List Nat) :
    (((List.range' pre.length l.length).filter (fun k => p ((pre ++ l).getD k 0))).reverse).foldl
        (fun l (k : Nat) => pyInsert l k x) (pre ++ l)
      = pre ++ l.flatMap (fun a => if p a then [x, a] else [a]) := by
  induction l generalizing pre with
  | nil => simp
  | cons a l ih =>
    have ih := ih (pre ++ [a])
    rw [List.append_assoc, List.singleton_append] at ih
    rw [List.length_append, List.length_singleton] at ih
    rw [List.length_cons, List.range'_succ]
    have hg : (pre ++ a :: l).getD pre.length 0 = a := by simp
    rw [List.filter_cons, hg]
    cases hp : p a with
    | false =>
      rw [if_neg (by simp), ih]
      simp [hp]
    | true =>
      rw [if_pos rfl, List.reverse_cons, List.foldl_append, ih]
      simp only [List.foldl_cons, List.foldl_nil]
      rw [pyInsert_nat]
      simp [hp]

theorem ins_after (p : Nat → Bool) (x : Nat) (l pre : List Nat) :
    ((((List.range' pre.length l.length).filter (fun k => p ((pre ++ l).getD k 0))).map (· + 1)).reverse).foldl
        (fun l (k : Nat) => pyInsert l k x) (pre ++ l)
      = pre ++ l.flatMap (fun a => if p a then [a, x] else [a]) := by
  induction l generalizing pre with
  | nil => simp
  | cons a l ih =>
    have ih := ih (pre ++ [a])
    rw [List.append_assoc, List.singleton_append] at ih
    rw [List.length_append, List.length_singleton] at ih
    rw [List.length_cons, List.range'_succ]
    have hg : (pre ++ a :: l).getD pre.length 0 = a := by simp
    rw [List.filter_cons, hg]
    cases hp : p a with
    | false =>
      rw [if_neg (by simp), ih]
      simp [hp]
    | true =>
      rw [if_pos rfl, List.map_cons, List.reverse_cons, List.foldl_append, ih]
      simp only [List.foldl_cons, List.foldl_nil]
      rw [pyInsert_nat]
      have hlen : pre.length + 1 = (pre ++ [a]).length := by simp
      rw [hlen, List.take_left, List.drop_left]
      simp [hp]

theorem putBefore_list (o : Opts) (P : Parsed) (new : Str) (rx : Rx) :
    (putNew o P new (matchIdx P rx)).list =
      P.list.flatMap (fun a => if Spec.hits rx (P.h a).text then [P.n, a] else [a]) := by
  have := ins_before (fun a => rx.search (P.h a).text) P.n P.list []
  rw [List.nil_append, List.nil_append, List.length_nil] at this
  rw [← List.range_eq_range'] at this
  exact this

theorem putAfter_list (o : Opts) (P : Parsed) (new : Str) (rx : Rx) :
    (putNew o P new ((matchIdx P rx).map (· + 1))).list =
      P.list.flatMap (fun a => if Spec.hits rx (P.h a).text then [a, P.n] else [a]) := by
  have := ins_after (fun a => rx.search (P.h a).text) P.n P.list []
  rw [List.nil_append, List.nil_append, List.length_nil] at this
  rw [← List.range_eq_range'] at this
  exact this

theorem putNew_h (o : Opts) (P : Parsed) (new : Str) (idx : List Nat) (x : Nat) :
    { (putNew o P new idx).h x with linenum := (upd P.h P.n (fun _ => newObj o new P.n) x).linenum }
      = upd P.h P.n (fun _ => newObj o new P.n) x :=
  renumber_same _ 0 (upd P.h P.n (fun _ => newObj o new P.n)) x

theorem putNew_text_old (o : Opts) {P : Parsed} (new : Str) (idx : List Nat) {x : Nat} (hx : x < P.n) :
    ((putNew o P new idx).h x).text = (P.h x).text := by
  have := congrArg Obj.text (putNew_h o P new idx x)
  rw [upd, if_neg (by omega)] at this
  exact this

theorem putNew_text_new (o : Opts) (P : Parsed) (new : Str) (idx : List Nat) :
    ((putNew o P new idx).h P.n).text = rstrip new := by
  have := congrArg Obj.text (putNew_h o P new idx P.n)
  rw [upd, if_pos rfl] at this
  exact this

theorem putBefore_texts (o : Opts) {P : Parsed} (hw : Wf P) (new : Str) (rx : Rx) :
    (putNew o P new (matchIdx P rx)).texts =
      P.texts.flatMap (fun t => if Spec.hits rx t then [rstrip new, t] else [t]) := by
  rw [Parsed.texts, putBefore_list, List.map_flatMap, Parsed.texts, List.flatMap_map]
  rw [List.flatMap_def, List.flatMap_def]
  congr 1
  refine List.map_congr_left ?_
  intro a ha
  have h1 := putNew_text_old o new (matchIdx P rx) (hw.list a ha)
  have h2 := putNew_text_new o P new (matchIdx P rx)
  split <;> simp [h1, h2]

theorem putAfter_texts (o : Opts) {P : Parsed} (hw : Wf P) (new : Str) (rx : Rx) :
    (putNew o P new ((matchIdx P rx).map (· + 1))).texts =
      P.texts.flatMap (fun t => if Spec.hits rx t then [t, rstrip new] else [t]) := by
  rw [Parsed.texts, putAfter_list, List.map_flatMap, Parsed.texts, List.flatMap_map]
  rw [List.flatMap_def, List.flatMap_def]
  congr 1
  refine List.map_congr_left ?_
  intro a ha
  have h1 := putNew_text_old o new ((matchIdx P rx).map (· + 1)) (hw.list a ha)
  have h2 := putNew_text_new o P new ((matchIdx P rx).map (· + 1))
  split <;> simp [h1, h2]

/-! ## Line numbers after an insertion at one place -/

theorem matchIdx_length (P : Parsed) (rx : Rx) :
    (matchIdx P rx).length = (P.texts.filter (Spec.hits rx)).length := by
  have h1 : (List.range P.list.length).map (fun k => P.list.getD k 0) = P.list := by
    refine List.ext_getElem (by simp) ?_
    intro i h1 h2
    simp at h1
    simp [h1]
  have h2 : (matchIdx P rx).map (fun k => P.list.getD k 0) =
      P.list.filter (fun i => rx.search (P.h i).text) := by
    conv => rhs; rw [← h1]
    rw [List.filter_map]; rfl
  have h3 : P.texts.filter (Spec.hits rx) =
      (P.list.filter (fun i => rx.search (P.h i).text)).map (fun i => (P.h i).text) := by
    rw [Parsed.texts, List.filter_map]; rfl
  rw [h3, List.length_map, ← h2, List.length_map]

theorem pyInsert_perm (l : List Nat) (k : Int) (x : Nat) : (pyInsert l k x).Perm (x :: l) := by
  rw [pyInsert]
  generalize (if k < 0 then (k + l.length).toNat else k.toNat) = j
  have := List.perm_middle (a := x) (l₁ := l.take j) (l₂ := l.drop j)
  rwa [List.take_append_drop] at this

theorem nodup_pyInsert {l : List Nat} (hl : l.Nodup) {x : Nat} (hx : x ∉ l) (k : Int) :
    (pyInsert l k x).Nodup := by
  rw [(pyInsert_perm l k x).nodup_iff, List.nodup_cons]
  exact ⟨hx, hl⟩

theorem numbered_putNew {o : Opts} {P : Parsed} (hw : Wf P) (hn : P.list.Nodup) {new : Str} {idx : List Nat}
    (hi : idx.length ≤ 1) : Spec.Numbered (putNew o P new idx) := by
  refine numbered_reassign ?_
  match idx, hi with
  | [], _ => exact hn
  | [k], _ =>
    exact nodup_pyInsert hn (fun h => Nat.lt_irrefl _ (hw.list _ h)) k

/-! ## Histories -/

/-- The texts that survive a commit. -/
def Keep (o : Opts) (t : Str) : Prop := o.ignoreBlank = false ∨ strip t ≠ []

/-- Well-formed, and a commit drops nothing. -/
def Solid (o : Opts) (P : Parsed) : Prop := Wf P ∧ ∀ i ∈ P.list, Keep o (P.h i).text

theorem keep_rstrip {o : Opts} {t : Str} (h : Keep o t) : Keep o (rstrip t) := by
  rcases h with h | h
  · exact Or.inl h
  · right; rw [strip, rstrip_rstrip]; exact h

theorem noBlank_of_keep {o : Opts} {l : List Str} (h : ∀ t ∈ l, Keep o t) : Spec.NoBlank o l := by
  by_cases hb : o.ignoreBlank = false
  · exact Or.inl hb
  · right
    intro t ht hbl
    rcases h t ht with h | h
    · exact hb h
    · exact h ((blank_strip_nil t).mpr hbl)

theorem keep_of_noBlank {o : Opts} {l : List Str} (h : Spec.NoBlank o l) : ∀ t ∈ l, Keep o t := by
  intro t ht
  rcases h with h | h
  · exact Or.inl h
  · exact Or.inr (fun he => h t ht ((blank_strip_nil t).mp he))

theorem list_full {o : Opts} {lines : List Str} {Q : Parsed} (h : bootstrap o lines = .ok Q)
    (hk : ∀ t ∈ lines, Keep o t) : Q.list = List.range lines.length := by
  obtain ⟨_, _, _, hl, _⟩ := bootstrap_ok h
  rw [hl, List.filter_eq_self]
  intro i hi
  rw [List.mem_range] at hi
  rw [keepLine_iff h hi]
  have hm : lineAt lines i ∈ lines := by
    rw [lineAt, List.getD_eq_getElem?_getD, List.getElem?_eq_getElem hi]
    exact List.getElem_mem hi
  rcases hk _ hm with h1 | h1
  · exact Or.inl h1
  · exact Or.inr (Or.inl (fun hb => h1 ((blank_strip_nil _).mpr hb)))

theorem keep_bootstrap {o : Opts} {lines : List Str} {Q : Parsed} (h : bootstrap o lines = .ok Q)
    (hk : ∀ t ∈ lines, Keep o t) : ∀ i ∈ Q.list, Keep o (Q.h i).text := by
  intro i hi
  have hlt := ((mem_list h).mp hi).1
  rw [(attrs h hlt).1]
  refine keep_rstrip (hk _ ?_)
  rw [lineAt, List.getD_eq_getElem?_getD, List.getElem?_eq_getElem hlt]
  exact List.getElem_mem hlt

theorem embed_new (P Q : Parsed) (j : Nat) : (embed P Q).h (j + P.n) = moveObj P.n (Q.h j) := by
  show (if j + P.n < P.n then _ else _) = _
  rw [if_neg (by omega), Nat.add_sub_cancel]

theorem embed_old (P Q : Parsed) {j : Nat} (h : j < P.n) : (embed P Q).h j = P.h j := by
  show (if j < P.n then _ else _) = _
  rw [if_pos h]

theorem numbered_embed {o : Opts} {P Q : Parsed} {lines : List Str} (h : bootstrap o lines = .ok Q)
    (hk : ∀ t ∈ lines, Keep o t) : Spec.Numbered (embed P Q) := by
  intro k i hi
  have hi : (Q.list.map (· + P.n))[k]? = some i := hi
  rw [list_full h hk, List.getElem?_map] at hi
  by_cases hlt : k < lines.length
  · rw [List.getElem?_range hlt] at hi
    have hi : k + P.n = i := Option.some.inj hi
    rw [← hi, embed_new]
    show (Q.h k).linenum = k
    rw [(attrs h hlt).2.2.2.1]; rfl
  · rw [List.getElem?_eq_none (by simp; omega)] at hi
    cases hi

theorem solid_stable (o : Opts) : Stable o (Keep o) (Solid o) where
  ok := fun _ h => h
  drop := fun P l h hl => ⟨(wf_stable o).drop P l h.1 hl, fun i hi => h.2 i (hl.subset hi)⟩
  renum := fun P h => ⟨wf_reassign h.1, fun i hi => by
    rw [same_text (same_reassign P)]; exact h.2 i hi⟩
  add := by
    intro P o' new l h hg hl
    refine ⟨(wf_stable o).add P o' new l h.1 trivial hl, ?_⟩
    intro i hi
    show Keep o (upd P.h P.n (fun _ => newObj o' new P.n) i).text
    rw [upd]
    split
    · exact keep_rstrip hg
    · rename_i hne
      rcases hl i hi with h1 | h1
      · exact h.2 i h1
      · exact absurd h1 hne
  text := by
    intro P i t c h hg hb
    refine ⟨(wf_stable o).text P i t c h.1 trivial hb, ?_⟩
    intro j hj
    show Keep o (upd P.h i (fun b => { b with text := t, isComment := c }) j).text
    rw [upd]
    split
    · exact hg
    · exact h.2 j hj
  parse := by
    intro P Q h hq
    refine ⟨(wf_stable o).parse P Q h.1 hq, ?_⟩
    intro i hi
    have hi : i ∈ Q.list.map (· + P.n) := hi
    obtain ⟨j, hj, e⟩ := List.mem_map.mp hi
    rw [← e, embed_new]
    refine keep_bootstrap hq ?_ j hj
    intro t ht
    obtain ⟨k, hk, e⟩ := List.mem_map.mp ht
    rw [← e]; exact h.2 k hk

theorem keep_texts {o : Opts} {P : Parsed} (h : Solid o P) : ∀ t ∈ P.texts, Keep o t := by
  intro t ht
  obtain ⟨i, hi, e⟩ := List.mem_map.mp ht
  rw [← e]; exact h.2 i hi

theorem num_atomic {o : Opts} {P P' : Parsed} (hs : Solid o P) (h : atomic o P = .ok P') :
    Spec.Numbered P' := by
  obtain ⟨Q, hq, e⟩ := atomic_shape h
  rw [e]; exact numbered_embed hq (keep_texts hs)

theorem num_delete {P P' : Parsed} {i : Nat} {r : Bool} (hn : Spec.Numbered P)
    (h : delete P i r = .ok P') : Spec.Numbered P' := by
  obtain ⟨l, hl, e⟩ := delete_shape h
  rw [e]
  exact numbered_reassign (List.Nodup.sublist hl (numbered_nodup hn))

theorem num_deleteEach {is : List Nat} {P P' : Parsed} (hn : Spec.Numbered P)
    (h : deleteEach is P = .ok P') : Spec.Numbered P' := by
  induction is generalizing P with
  | nil => rw [deleteEach] at h; cases h; exact hn
  | cons i is ih =>
    rw [deleteEach] at h
    cases hd : delete P i true with
    | error e => rw [hd] at h; cases h
    | ok Q => rw [hd] at h; exact ih (num_delete hn hd) h

theorem num_reSub {o : Opts} {P P' : Parsed} {i : Nat} {sub : Str → Str} (hn : Spec.Numbered P)
    (h : reSub o P i sub = .ok P') : Spec.Numbered P' := by
  rw [reSub] at h
  split at h
  · exact num_delete hn h
  · cases h
    intro k j hj
    have := hn k j hj
    rw [← this]
    show (upd P.h i _ j).linenum = _
    rw [upd]
    split
    · rename_i e; rw [e]
    · rfl

theorem num_replaceEach {o : Opts} {pick : Str → Bool} {sub : Str → Str} {is : List Nat} {P P' : Parsed}
    (hi : Spec.Numbered P) (h : replaceEach o pick sub is P = .ok P') : Spec.Numbered P' := by
  induction is generalizing P with
  | nil => rw [replaceEach] at h; cases h; exact hi
  | cons i is ih =>
    rw [replaceEach] at h
    split at h
    · cases hd : reSub o P i sub with
      | error e => rw [hd] at h; cases h
      | ok Q => rw [hd] at h; exact ih (num_reSub hi hd) h
    · exact ih hi h

theorem num_replaceParents {o : Opts} {kids : Parsed → Nat → List Nat} {child : Rx} {sub : Str → Str}
    {excl : Option Rx} {ps : List Nat} {P P' : Parsed} (hi : Spec.Numbered P)
    (h : replaceParents o kids child sub excl ps P = .ok P') : Spec.Numbered P' := by
  induction ps generalizing P with
  | nil => rw [replaceParents] at h; cases h; exact hi
  | cons p ps ih =>
    rw [replaceParents] at h
    split at h
    · cases hd : replaceEach o (fun t => notExcluded excl t && child.search t) sub (kids P p) P with
      | error e => rw [hd] at h; cases h
      | ok Q => rw [hd] at h; exact ih (num_replaceEach hi hd) h
    · exact ih hi h

theorem num_finish {o : Opts} {a : Bool} {P P' : Parsed} (hs : Solid o P) (hi : Spec.Numbered P)
    (h : finish o a P = .ok P') : Spec.Numbered P' := by
  rw [finish] at h
  split at h
  · exact num_atomic hs h
  · cases h; exact hi

/-- Inserting as often as there are objects found, when there is at most one. -/
theorem insertEach_le_one {ins : Parsed → Except Err Parsed} {is : List Nat} {P P' : Parsed}
    (hl : is.length ≤ 1) (h : insertEach ins is P = .ok P') : P' = P ∨ ins P = .ok P' := by
  match is, hl with
  | [], _ => rw [insertEach] at h; cases h; exact Or.inl rfl
  | [i], _ =>
    rw [insertEach] at h
    split at h
    · cases hd : ins P with
      | error e => rw [hd] at h; cases h
      | ok Q => rw [hd] at h; have h : Except.ok Q = Except.ok P' := h; cases h; exact Or.inr rfl
    · cases h

theorem findObjects_length (P : Parsed) (rx : Rx) :
    (findObjects P rx).length = (P.texts.filter (Spec.hits rx)).length := by
  have h3 : P.texts.filter (Spec.hits rx) =
      (P.list.filter (fun i => rx.search (P.h i).text)).map (fun i => (P.h i).text) := by
    rw [Parsed.texts, List.filter_map]; rfl
  rw [h3, List.length_map]; rfl

theorem listBefore_eq {o : Opts} {P P' : Parsed} {rx : Rx} {new : Str}
    (h : listInsertBefore o P rx new = .ok P') : P' = putNew o P new (matchIdx P rx) := by
  rw [listInsertBefore] at h
  split at h
  · cases h
  · split at h
    · cases h
    · cases h; rfl

theorem listAfter_eq {o : Opts} {P P' : Parsed} {rx : Rx} {new : Str}
    (h : listInsertAfter o P rx new = .ok P') : P' = putNew o P new ((matchIdx P rx).map (· + 1)) := by
  rw [listInsertAfter] at h
  split at h
  · cases h
  · split at h
    · cases h
    · cases h; rfl

theorem afterObj_eq {o : Opts} {C : Compile} {P P' : Parsed} {i : Nat} {new : Str}
    (h : listInsertAfterObj o C P i new = .ok P') :
    (∃ rx, C (P.h i).text = some rx ∧ P' = putNew o P new ((matchIdx P rx).map (· + 1))) ∨
    P' = putNew o P new [] := by
  rw [listInsertAfterObj] at h
  split at h
  · cases h
  · split at h
    · rename_i rx hc
      cases h; exact Or.inl ⟨rx, hc, rfl⟩
    · split at h
      · cases h; exact Or.inr rfl
      · cases h

theorem objBefore_eq {o : Opts} {C : Compile} {P P' : Parsed} {i : Nat} {new : Str}
    (h : objInsertBefore o C P i new = .ok P') :
    (∃ rx, C (P.h i).text = some rx ∧ P' = putNew o P new (matchIdx P rx)) ∨
    P' = putNew o P new [] := by
  rw [objInsertBefore] at h
  split at h
  · cases h
  · split at h
    · cases h
    · split at h
      · cases h
      · split at h
        · rename_i rx hc
          cases h; exact Or.inl ⟨rx, hc, rfl⟩
        · split at h
          · cases h; exact Or.inr rfl
          · cases h

theorem objAfter_eq {o : Opts} {C : Compile} {P P' : Parsed} {i : Nat} {new : Str}
    (h : objInsertAfter o C P i new = .ok P') :
    (∃ rx, C (P.h i).text = some rx ∧ P' = putNew o P new ((matchIdx P rx).map (· + 1))) ∨
    P' = putNew o P new [] := by
  rw [objInsertAfter] at h
  split at h
  · cases h
  · split at h
    · cases h
    · split at h
      · cases h
      · split at h
        · rename_i rx hc
          cases h; exact Or.inl ⟨rx, hc, rfl⟩
        · split at h
          · cases h; exact Or.inr rfl
          · cases h

theorem familyLast_fam (P : Parsed) (i : Nat) : Spec.Fam P i (familyLast P i) := by
  rw [familyLast]
  cases hl : allChildren P i with
  | nil => exact Or.inl rfl
  | cons a as =>
    right
    rw [List.getLastD_cons]
    refine allAux_sound P.n i ?_
    show _ ∈ allChildren P i
    rw [hl]
    exact List.getLastD_mem_cons ..

theorem num_run {o : Opts} {C : Compile} {op : Op} {P P' : Parsed} (hs : Solid o P)
    (hn : Spec.Numbered P) (hc : Spec.Careful o C P op) (h : op.run o C P = .ok P') :
    Spec.Numbered P' := by
  have kn : ∀ {i : Nat} {r : Except Err Parsed}, known P i r = .ok P' → r = .ok P' := by
    intro i r h
    rw [known] at h
    split at h
    · exact h
    · cases h
  have hnd := numbered_nodup hn
  have p1 : ∀ {rx : Rx} {new : Str}, Spec.AtMostOne P rx → Spec.Numbered (putNew o P new (matchIdx P rx)) := by
    intro rx new ha
    refine numbered_putNew hs.1 hnd ?_
    rw [matchIdx_length]; exact ha
  have p2 : ∀ {rx : Rx} {new : Str}, Spec.AtMostOne P rx →
      Spec.Numbered (putNew o P new ((matchIdx P rx).map (· + 1))) := by
    intro rx new ha
    refine numbered_putNew hs.1 hnd ?_
    rw [List.length_map, matchIdx_length]; exact ha
  have p0 : ∀ {new : Str}, Spec.Numbered (putNew o P new []) := numbered_putNew hs.1 hnd (by simp)
  have hins : ∀ {k : Int} {new : Str}, insertAt o P k new = .ok P' → Spec.Numbered P' := by
    intro k new h
    rw [insertAt] at h
    split at h
    · cases h
    · cases h
      exact numbered_reassign (nodup_pyInsert hnd (fun h => Nat.lt_irrefl _ (hs.1.list _ h)) k)
  have S := solid_stable o
  cases op with
  | delete i r => exact num_delete hn (kn h)
  | deleteLines rx => exact num_deleteEach hn h
  | deleteChildrenMatching i rx =>
    have h := kn h
    rw [deleteChildrenMatching] at h
    split at h
    · cases h
    · exact num_deleteEach hn h
  | delItem k =>
    have h : delItem o P k = .ok P' := h
    rw [delItem] at h
    cases hd : delAt P.list k with
    | error e => rw [hd] at h; cases h
    | ok l => rw [hd] at h; exact num_atomic (S.drop _ _ hs (delAt_sub hd)) h
  | listInsertBefore rx new => rw [listBefore_eq h]; exact p1 hc
  | listInsertAfter rx new => rw [listAfter_eq h]; exact p2 hc
  | insertBefore f rx new k a =>
    have h : insertBefore o P f rx new k a = .ok P' := h
    rw [insertBefore] at h
    split at h
    · cases h
    · cases hd : insertEach (fun Q => listInsertBefore o Q rx (indented new k)) (findObjects P f) P with
      | error e => rw [hd] at h; cases h
      | ok Q =>
        rw [hd] at h
        have hq : Solid o Q := inv_insertEach (fun P P' h1 h2 => st_listBefore S h1 h2) hs hd
        cases a with
        | true => exact num_atomic hq h
        | false =>
          cases h
          rcases hc with hc | ⟨h1, h2⟩
          · cases hc
          · rcases insertEach_le_one (by rw [findObjects_length]; exact h1) hd with e | e
            · rw [e]; exact hn
            · rw [listBefore_eq e]; exact p1 h2
  | insertAfter f rx new k a =>
    have h : insertAfter o P f rx new k a = .ok P' := h
    rw [insertAfter] at h
    cases hd : insertEach (fun Q => listInsertAfter o Q rx (indented new k)) (findObjects P f) P with
    | error e => rw [hd] at h; cases h
    | ok Q =>
      rw [hd] at h
      have hq : Solid o Q := inv_insertEach (fun P P' h1 h2 => st_listAfter S h1 h2) hs hd
      cases a with
      | true => exact num_atomic hq h
      | false =>
        cases h
        rcases hc with hc | ⟨h1, h2⟩
        · cases hc
        · rcases insertEach_le_one (by rw [findObjects_length]; exact h1) hd with e | e
          · rw [e]; exact hn
          · rw [listAfter_eq e]; exact p2 h2
  | objInsertBefore i new =>
    rcases objBefore_eq (kn h) with ⟨rx, hx, e⟩ | e
    · rw [e]; exact p1 (hc rx hx)
    · rw [e]; exact p0
  | objInsertAfter i new =>
    rcases objAfter_eq (kn h) with ⟨rx, hx, e⟩ | e
    · rw [e]; exact p2 (hc rx hx)
    · rw [e]; exact p0
  | appendToFamily i s k w a =>
    have h := kn h
    rw [appendToFamily] at h
    split at h
    · cases h
    · rcases afterObj_eq h with ⟨rx, hx, e⟩ | e
      · rw [e]; exact p2 (hc _ (familyLast_fam P i) rx hx)
      · rw [e]; exact p0
  | insertAt k new => exact hins h
  | prependLine new => exact hins h
  | appendLine new =>
    have h : appendLine o P new = .ok P' := h
    rw [appendLine] at h
    split at h
    · cases h
    · refine num_atomic (S.add P {} defaultText _ hs (S.ok _ (Or.inr (by decide))) ?_) h
      intro x hx
      rcases List.mem_append.mp hx with h | h
      · exact Or.inl h
      · exact Or.inr (List.mem_singleton.mp h)
  | insertAfterChild p c e new a => exact hc.elim
  | reSub i sub => exact num_reSub hn (kn h)
  | replaceLines f sub e a =>
    have h : replaceLines o P f sub e a = .ok P' := h
    rw [replaceLines] at h
    cases hd : replaceEach o (notExcluded e) sub (findObjects P f) P with
    | error e => rw [hd] at h; cases h
    | ok Q => rw [hd] at h; exact num_finish (st_replaceEach S hs hd) (num_replaceEach hn hd) h
  | replaceChildren p c sub e a =>
    have h : replaceChildren o P p c sub e a = .ok P' := h
    rw [replaceChildren] at h
    cases hd : replaceParents o (fun Q i => (Q.h i).children) c sub e (findObjects P p) P with
    | error e => rw [hd] at h; cases h
    | ok Q => rw [hd] at h; exact num_finish (st_replaceParents S hs hd) (num_replaceParents hn hd) h
  | replaceAllChildren p c sub e a =>
    have h : replaceAllChildren o P p c sub e a = .ok P' := h
    rw [replaceAllChildren] at h
    cases hd : replaceParents o twoLevels c sub e (findObjects P p) P with
    | error e => rw [hd] at h; cases h
    | ok Q => rw [hd] at h; exact num_finish (st_replaceParents S hs hd) (num_replaceParents hn hd) h
  | commit => exact num_atomic hs h

theorem history {o : Opts} {C : Compile} {P : Parsed} (h : Spec.History o C P) :
    Solid o P ∧ Spec.Numbered P := by
  induction h with
  | @parse lines P h hb =>
    have hk := keep_of_noBlank hb
    have hbs := h
    rw [parse, input_eq] at hbs
    refine ⟨⟨wf_parse h, keep_bootstrap hbs hk⟩, ?_⟩
    intro k i hi
    rw [list_full hbs hk] at hi
    by_cases hlt : k < (Conf.Spec.input o lines).length
    · rw [List.getElem?_range hlt] at hi
      have hi : k = i := Option.some.inj hi
      rw [← hi, (attrs hbs hlt).2.2.2.1]; rfl
    · rw [List.getElem?_eq_none (by simp; omega)] at hi
      cases hi
  | edit op _ hc h ih =>
    refine ⟨st_run (solid_stable o) ih.1 ?_ h, num_run ih.1 ih.2 hc h⟩
    cases op <;> first | trivial | exact keep_of_noBlank hc _ (by simp)

end Edit

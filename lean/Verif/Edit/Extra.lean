import Verif.Edit.More

/-! # More about C57, C58, C60, and C62: list operations -/

namespace Edit

open Py Conf Query

/-! ## C57 -/

/-- What `append_line` does instead of adding its argument: it commits the lines with
`__undefined__` at the end. -/
theorem C57_append_effect {o : Opts} {P P' : Parsed} {C : Compile} (hr : Spec.Reach o C P) {new : Str}
    (h : appendLine o P new = .ok P') (hb : Spec.NoBlank o P.texts) :
    P'.texts = (P.texts.map rstrip) ++ ["__undefined__".toList] := by
  have hw := wf_reach hr
  rw [appendLine] at h
  split at h
  · cases h
  · have ht : Parsed.texts (Parsed.mk (upd P.h P.n (fun _ => newObj {} defaultText P.n)) (P.n + 1)
        (P.list ++ [P.n])) = P.texts ++ ["__undefined__".toList] := by
      show (P.list ++ [P.n]).map (fun i => (upd P.h P.n (fun _ => newObj {} defaultText P.n) i).text) = _
      rw [List.map_append]
      congr 1
      · refine List.map_congr_left (fun x hx => ?_)
        rw [upd, if_neg (by have := hw.list x hx; omega)]
      · rw [List.map_cons, upd, if_pos rfl]; rfl
    have hb' : Spec.NoBlank o (P.texts ++ ["__undefined__".toList]) := by
      rcases hb with hb | hb
      · exact Or.inl hb
      · right
        intro t ht
        rcases List.mem_append.mp ht with h | h
        · exact hb t h
        · rw [List.mem_singleton] at h
          rw [h]
          intro hbl
          exact absurd ((blank_strip_nil _).mpr hbl) (by decide)
    have := (C59_commit_partial h (by rw [ht]; exact hb')).1
    rw [this, ht, List.map_append]
    rfl

example : ∃ P P', parse {} [s "a", s " b"] = .ok P ∧ appendLine {} P (s "c") = .ok P' ∧
    P'.texts = [s "a", s " b", s "__undefined__"] := ⟨_, _, rfl, rfl, by decide⟩

/-! ## C58: insert_after_child -/

theorem kids_none {o : Opts} {C : Compile} {child : Rx} {excl : Option Rx} {new : Str} {a : Bool}
    {cs : List Nat} {P : Parsed}
    (h : ∀ c ∈ cs, ¬ (Spec.hits child (P.h c).text = true ∧ ¬ Spec.excluded excl (P.h c).text)) :
    insertAfterKids o C child excl new a cs P = .ok P := by
  induction cs with
  | nil => rfl
  | cons c cs ih =>
    have ih := ih (fun d hd => h d (by simp [hd]))
    have hc := h c (by simp)
    rw [insertAfterKids]
    split
    · exact ih
    · rename_i hx
      rw [if_neg, ih]
      intro hh
      refine hc ⟨hh, (notExcluded_iff _ _).mp ?_⟩
      cases hne : notExcluded excl (P.h c).text with
      | true => rfl
      | false => rw [hne] at hx; exact absurd rfl hx

/-- C58: when one parent matches and one of its children, and the text of that child as a
regular expression matches only that line, `insert_after_child` puts the new line
directly after it. -/
theorem C58_child_partial {o : Opts} {C : Compile} {P : Parsed} (hr : Spec.Reach o C P)
    (hn : Spec.Numbered P) {p c : Nat} {parent child : Rx} {excl : Option Rx}
    (hp : p ∈ P.list) (hop : Spec.Only P parent p) (hxp : ¬ Spec.excluded excl (P.h p).text)
    (hc : c ∈ (P.h p).children) (hcl : c ∈ P.list) (hnd : (P.h p).children.Nodup)
    (hch : ∀ e ∈ (P.h p).children,
      (Spec.hits child (P.h e).text = true ∧ ¬ Spec.excluded excl (P.h e).text) ↔ e = c)
    {rx : Rx} (hC : C (P.h c).text = some rx) (hoc : Spec.Only P rx c)
    (new : Str) (hb : Spec.NoBlank o [new]) :
    ∃ P', insertAfterChild o C P parent child excl new false = .ok P' ∧
      Spec.PutAfter P P' c (rstrip new) := by
  have hw := wf_reach hr
  have hfind : findObjects P parent = [p] := by
    obtain ⟨A, B, hAB⟩ := List.append_of_mem hp
    have hnl := numbered_nodup hn
    rw [findObjects, hAB, List.filter_append, List.filter_cons]
    rw [hAB, List.nodup_append, List.nodup_cons] at hnl
    obtain ⟨_, ⟨h2, _⟩, h3⟩ := hnl
    have hh : parent.search (P.h p).text = true := (hop p hp).mpr rfl
    rw [if_pos hh]
    have nil : ∀ l : List Nat, (∀ x ∈ l, x ∈ P.list ∧ x ≠ p) →
        l.filter (fun i => parent.search (P.h i).text) = [] := by
      intro l hl
      rw [List.filter_eq_nil_iff]
      intro x hx hs
      exact (hl x hx).2 ((hop x (hl x hx).1).mp hs)
    rw [nil A (fun x hx => ⟨by rw [hAB]; simp [hx], h3 x hx p (by simp)⟩),
      nil B (fun x hx => ⟨by rw [hAB]; simp [hx], by rintro rfl; exact h2 hx⟩)]
    rfl
  obtain ⟨A, B, hAB⟩ := List.append_of_mem hc
  rw [hAB, List.nodup_append, List.nodup_cons] at hnd
  obtain ⟨_, ⟨h2, _⟩, h3⟩ := hnd
  refine ⟨_, ?_, putAfter_only (o := o) hw hn hcl hoc new⟩
  have hne : notExcluded excl (P.h p).text = true := (notExcluded_iff _ _).mpr hxp
  obtain ⟨hh, hxc⟩ := (hch c hc).mpr rfl
  have hnc : notExcluded excl (P.h c).text = true := (notExcluded_iff _ _).mpr hxc
  have hkids : insertAfterKids o C child excl new false (A ++ c :: B) P =
      .ok (putNew o P new ((matchIdx P rx).map (· + 1))) := by
    have hA : ∀ x ∈ A, ¬ (Spec.hits child (P.h x).text = true ∧ ¬ Spec.excluded excl (P.h x).text) := by
      intro x hx h
      exact h3 x hx c (by simp) ((hch x (by rw [hAB]; simp [hx])).mp h)
    have skip : ∀ A : List Nat, (∀ x ∈ A, ¬ (Spec.hits child (P.h x).text = true ∧
        ¬ Spec.excluded excl (P.h x).text)) →
        insertAfterKids o C child excl new false (A ++ c :: B) P =
          insertAfterKids o C child excl new false (c :: B) P := by
      intro A hA
      induction A with
      | nil => rfl
      | cons a A ih =>
        have ih := ih (fun x hx => hA x (by simp [hx]))
        rw [List.cons_append, insertAfterKids]
        split
        · exact ih
        · rename_i hx
          rw [if_neg, ih]
          intro hs
          refine hA a (by simp) ⟨hs, (notExcluded_iff _ _).mp ?_⟩
          cases hne : notExcluded excl (P.h a).text with
          | true => rfl
          | false => rw [hne] at hx; exact absurd rfl hx
    rw [skip A hA, insertAfterKids, if_neg (by rw [hnc]; simp), if_pos (c := child.search (P.h c).text = true) hh, listInsertAfterObj,
      if_neg (not_blankNew hb), hC]
    show insertAfterKids o C child excl new false B (putNew o P new ((matchIdx P rx).map (· + 1))) = _
    refine kids_none (fun x hx h => ?_)
    have hxl : x < P.n := (hw.kids p (hw.list p hp) x (by rw [hAB]; simp [hx])).2
    rw [putNew_text_old o new _ hxl] at h
    have := (hch x (by rw [hAB]; simp [hx])).mp h
    rw [this] at hx
    exact h2 hx
  rw [insertAfterChild, hfind, insertAfterChildren, if_neg (by rw [hne]; simp), hAB, hkids]
  rfl

example : ∃ P P', parse {} [s "interface a", s " x", s " y", s "b", s " z"] = .ok P ∧
    insertAfterChild {} plainC P (lit "interface") (lit "x") (some (lit "q")) (s " n") false = .ok P' ∧
    P'.texts = [s "interface a", s " x", s " n", s " y", s "b", s " z"] :=
  ⟨_, _, rfl, rfl, by decide⟩

/-! ## C60 -/

/-- Apart from texts, comments and the objects outside the set, nothing changed. -/
structure Touched (P Q : Parsed) (S : Nat → Prop) : Prop where
  list : Q.list = P.list
  kids : ∀ x, (Q.h x).children = (P.h x).children
  only : ∀ x, Q.h x ≠ P.h x → S x

theorem reSub_touched {o : Opts} {sub : Str → Str} {i : Nat} {P Q : Parsed} {S : Nat → Prop}
    (hs : ¬ Conf.Spec.blank (sub (P.h i).text)) (hi : S i) (h : reSub o P i sub = .ok Q) :
    Touched P Q S := by
  rw [reSub, if_neg (by rw [blank_strip hs]; simp)] at h
  cases h
  refine ⟨rfl, ?_, ?_⟩
  · intro x
    show (upd _ _ _ x).children = _
    rw [upd]
    split
    · rename_i e; rw [e]
    · rfl
  · intro x hx
    by_cases e : x = i
    · rw [e]; exact hi
    · exfalso
      exact hx (if_neg e)

theorem replaceEach_touched {o : Opts} {pick : Str → Bool} {sub : Str → Str} {is : List Nat}
    {P₀ P Q : Parsed} {R : Nat → Prop} (hR : ∀ i ∈ is, R i)
    (hs : ∀ t, pick t = true → ¬ Conf.Spec.blank (sub t))
    (h0 : Touched P₀ P (fun x => R x ∧ pick (P₀.h x).text = true))
    (h : replaceEach o pick sub is P = .ok Q) :
    Touched P₀ Q (fun x => R x ∧ pick (P₀.h x).text = true) := by
  induction is generalizing P with
  | nil => cases h; exact h0
  | cons i is ih =>
    rw [replaceEach] at h
    split at h
    · rename_i hp
      cases h1 : reSub o P i sub with
      | error e => rw [h1] at h; cases h
      | ok P1 =>
        rw [h1] at h
        refine ih (fun j hj => hR j (by simp [hj])) ?_ h
        have t1 := reSub_touched (S := (· = i)) (hs _ hp) rfl h1
        refine ⟨t1.list.trans h0.list, fun x => (t1.kids x).trans (h0.kids x), fun x hx => ?_⟩
        by_cases e1 : P1.h x = P.h x
        · exact h0.only x (by rw [← e1]; exact hx)
        · have e2 := t1.only x e1
          subst e2
          by_cases e3 : P.h x = P₀.h x
          · exact ⟨hR x (by simp), by rw [← e3]; exact hp⟩
          · exact h0.only x e3
    · exact ih (fun j hj => hR j (by simp [hj])) h0 h

theorem replaceParents_touched {o : Opts} {kids : Parsed → Nat → List Nat} {child : Rx} {sub : Str → Str}
    {excl : Option Rx} {ps : List Nat} {P₀ P Q : Parsed} {R : Nat → Prop}
    (hk : ∀ P1, (∀ x, (P1.h x).children = (P₀.h x).children) → ∀ p ∈ ps, ∀ x ∈ kids P1 p, R x)
    (hs : ∀ t, Spec.hits child t = true → ¬ Conf.Spec.blank (sub t))
    (h0 : Touched P₀ P (fun x => R x ∧ (notExcluded excl (P₀.h x).text && child.search (P₀.h x).text) = true))
    (h : replaceParents o kids child sub excl ps P = .ok Q) :
    Touched P₀ Q (fun x => R x ∧ (notExcluded excl (P₀.h x).text && child.search (P₀.h x).text) = true) := by
  induction ps generalizing P with
  | nil => cases h; exact h0
  | cons p ps ih =>
    have hk' := fun P1 h1 q hq => hk P1 h1 q (List.mem_cons_of_mem p hq)
    rw [replaceParents] at h
    split at h
    · cases h1 : replaceEach o (fun t => notExcluded excl t && child.search t) sub (kids P p) P with
      | error e => rw [h1] at h; cases h
      | ok P1 =>
        rw [h1] at h
        refine ih hk' (replaceEach_touched (pick := fun t => notExcluded excl t && child.search t)
          (hk P h0.kids p (by simp)) (fun t ht => hs t ?_) h0 h1) h
        rw [Bool.and_eq_true] at ht
        exact ht.2
    · exact ih hk' h0 h

theorem touched_spec {P Q : Parsed} {R : Nat → Prop} {child : Rx} {excl : Option Rx}
    (h : Touched P Q (fun x => R x ∧ (notExcluded excl (P.h x).text && child.search (P.h x).text) = true))
    {x : Nat} (hx : Q.h x ≠ P.h x) :
    R x ∧ Spec.hits child (P.h x).text = true ∧ ¬ Spec.excluded excl (P.h x).text := by
  obtain ⟨h1, h2⟩ := h.only x hx
  rw [Bool.and_eq_true] at h2
  exact ⟨h1, h2.2, (notExcluded_iff _ _).mp h2.1⟩

theorem finish_id {o : Opts} {atom : Bool} (hf : o.factory = false ∨ atom = false) (P : Parsed) :
    finish o atom P = .ok P := by
  rw [finish, if_neg]
  rintro ⟨h5, h6⟩
  rcases hf with hf | hf
  · rw [hf] at h5; cases h5
  · rw [hf] at h6; cases h6

/-- C60, nothing else changes: whatever families overlap, and with `excludespec`, a
successful `replace_children` with replacements that are never blank changes only
matching, not excluded children of matching parents. -/
theorem C60_children_sound {o : Opts} {P P' : Parsed} {parent child : Rx} {sub : Str → Str}
    {excl : Option Rx} {atom : Bool} (hf : o.factory = false ∨ atom = false)
    (hs : ∀ t, Spec.hits child t = true → ¬ Conf.Spec.blank (sub t))
    (h : replaceChildren o P parent child sub excl atom = .ok P') :
    P'.list = P.list ∧ ∀ x, P'.h x ≠ P.h x →
      (∃ p ∈ P.list, Spec.hits parent (P.h p).text = true ∧ x ∈ (P.h p).children) ∧
      Spec.hits child (P.h x).text = true ∧ ¬ Spec.excluded excl (P.h x).text := by
  rw [replaceChildren] at h
  cases h1 : replaceParents o (fun Q i => (Q.h i).children) child sub excl (findObjects P parent) P with
  | error e => rw [h1] at h; cases h
  | ok Q =>
    rw [h1] at h
    have h : finish o atom Q = .ok P' := h
    rw [finish_id hf] at h
    cases h
    have ht := replaceParents_touched (P₀ := P)
      (R := fun x => ∃ p ∈ P.list, Spec.hits parent (P.h p).text = true ∧ x ∈ (P.h p).children)
      (fun P1 hc p hp x hx => by
        have hp := List.mem_filter.mp hp
        have hx : x ∈ (P1.h p).children := hx
        rw [hc] at hx
        exact ⟨p, hp.1, hp.2, hx⟩) hs
      ⟨rfl, fun _ => rfl, fun x hx => absurd rfl hx⟩ h1
    exact ⟨ht.list, fun x hx => touched_spec ht hx⟩

/-- C60 for `replace_all_children`, nothing else changes: only matching, not excluded
children and grandchildren of matching parents. -/
theorem C60_all_children_sound {o : Opts} {P P' : Parsed} {parent child : Rx} {sub : Str → Str}
    {excl : Option Rx} {atom : Bool} (hf : o.factory = false ∨ atom = false)
    (hs : ∀ t, Spec.hits child t = true → ¬ Conf.Spec.blank (sub t))
    (h : replaceAllChildren o P parent child sub excl atom = .ok P') :
    P'.list = P.list ∧ ∀ x, P'.h x ≠ P.h x →
      (∃ p ∈ P.list, Spec.hits parent (P.h p).text = true ∧
        (x ∈ (P.h p).children ∨ ∃ c ∈ (P.h p).children, x ∈ (P.h c).children)) ∧
      Spec.hits child (P.h x).text = true ∧ ¬ Spec.excluded excl (P.h x).text := by
  rw [replaceAllChildren] at h
  cases h1 : replaceParents o twoLevels child sub excl (findObjects P parent) P with
  | error e => rw [h1] at h; cases h
  | ok Q =>
    rw [h1] at h
    have h : finish o atom Q = .ok P' := h
    rw [finish_id hf] at h
    cases h
    have ht := replaceParents_touched (P₀ := P)
      (R := fun x => ∃ p ∈ P.list, Spec.hits parent (P.h p).text = true ∧
        (x ∈ (P.h p).children ∨ ∃ c ∈ (P.h p).children, x ∈ (P.h c).children))
      (fun P1 hc p hp x hx => by
        have hp := List.mem_filter.mp hp
        rw [twoLevels, mem_sortObjs] at hx
        have hx := mem_of_mem_set hx
        rw [List.mem_append, List.mem_flatMap, hc] at hx
        refine ⟨p, hp.1, hp.2, ?_⟩
        rcases hx with hx | ⟨c, h1, h2⟩
        · exact Or.inl hx
        · rw [hc] at h2
          exact Or.inr ⟨c, h1, h2⟩) hs
      ⟨rfl, fun _ => rfl, fun x hx => absurd rfl hx⟩ h1
    exact ⟨ht.list, fun x hx => touched_spec ht hx⟩

theorem replaceParents_excl {o : Opts} {child : Rx} {sub : Str → Str} {excl : Option Rx} {ps : List Nat}
    {P : Parsed} (hnd : (ps.flatMap (fun p => (P.h p).children)).Nodup)
    (hsep : ∀ p ∈ ps, ∀ q ∈ ps, p ∉ (P.h q).children)
    (hs : ∀ t, Spec.hits child t = true → ¬ Conf.Spec.blank (sub t)) :
    ∃ P', replaceParents o (fun Q i => (Q.h i).children) child sub excl ps P = .ok P' ∧
      Spec.Replaced o P P' (fun x =>
        (∃ p ∈ ps, ¬ Spec.excluded excl (P.h p).text ∧ x ∈ (P.h p).children) ∧
        ¬ Spec.excluded excl (P.h x).text ∧ Spec.hits child (P.h x).text = true) sub := by
  induction ps generalizing P with
  | nil => exact ⟨P, rfl, rfl, fun _ _ => rfl, fun x hx => by obtain ⟨⟨p, hp, _⟩, _⟩ := hx; cases hp⟩
  | cons p ps ih =>
    rw [List.flatMap_cons, List.nodup_append] at hnd
    obtain ⟨n1, n2, n3⟩ := hnd
    have hpick : ∀ t, (notExcluded excl t && child.search t) = true ↔
        (¬ Spec.excluded excl t ∧ Spec.hits child t = true) := fun t => by
      rw [Bool.and_eq_true, notExcluded_iff]; exact Iff.rfl
    have hsep' : ∀ q ∈ ps, ∀ r ∈ ps, q ∉ (P.h r).children :=
      fun q hq r hr => hsep q (by simp [hq]) r (by simp [hr])
    rw [replaceParents]
    by_cases hex : Spec.excluded excl (P.h p).text
    · have : ¬ notExcluded excl (P.h p).text = true := by rw [notExcluded_iff]; exact fun h => h hex
      rw [if_neg this]
      obtain ⟨P', hP', t1, t2, t3⟩ := ih n2 hsep'
      refine ⟨P', hP', t1, fun x hx => t2 x ?_, fun x hx => t3 x ?_⟩
      · rintro ⟨⟨q, hq, h⟩, h'⟩
        exact hx ⟨⟨q, by simp [hq], h⟩, h'⟩
      · obtain ⟨⟨q, hq, h1, h2⟩, h'⟩ := hx
        rcases List.mem_cons.mp hq with e | e
        · rw [e] at h1; exact absurd hex h1
        · exact ⟨⟨q, e, h1, h2⟩, h'⟩
    · have : notExcluded excl (P.h p).text = true := by rw [notExcluded_iff]; exact hex
      rw [if_pos this]
      obtain ⟨Q, hQ, _, hR⟩ := replaceEach_ok (o := o) (pick := fun t => notExcluded excl t && child.search t)
        (sub := sub) (P := P) n1 (fun i hi hp => hs _ ((hpick _).mp hp).2)
      have hch := replaced_children hR
      obtain ⟨r1, r2, r3⟩ := hR
      have hout : ∀ x, x ∉ (P.h p).children → Q.h x = P.h x := fun x hx => r2 x (fun h => hx h.1)
      have hps : ∀ q ∈ ps, Q.h q = P.h q := fun q hq => hout q (hsep q (by simp [hq]) p (by simp))
      obtain ⟨P', hP', t1, t2, t3⟩ := ih (P := Q)
        (by rw [show (fun p => (Q.h p).children) = (fun p => (P.h p).children) from funext hch]; exact n2)
        (fun q hq r hr => by rw [hch]; exact hsep' q hq r hr)
      rw [hQ]
      refine ⟨P', hP', t1.trans r1, ?_, ?_⟩
      · intro x hx
        by_cases hxp : x ∈ (P.h p).children
        · rw [t2 x (by
            rintro ⟨⟨q, hq, _, hxq⟩, _⟩
            rw [hch] at hxq
            exact n3 x hxp x (List.mem_flatMap.mpr ⟨q, hq, hxq⟩) rfl)]
          exact r2 x (fun h => hx ⟨⟨p, by simp, hex, hxp⟩, (hpick _).mp h.2⟩)
        · rw [t2 x, hout x hxp]
          rintro ⟨⟨q, hq, hqx, hxq⟩, hh⟩
          rw [hch] at hxq
          rw [hps q hq] at hqx
          rw [hout x hxp] at hh
          exact hx ⟨⟨q, by simp [hq], hqx, hxq⟩, hh⟩
      · rintro x ⟨⟨q, hq, hqx, hxq⟩, hh⟩
        by_cases hxp : x ∈ (P.h p).children
        · have hx : Q.h x = P'.h x := (t2 x (by
            rintro ⟨⟨q, hq, _, hxq⟩, _⟩
            rw [hch] at hxq
            exact n3 x hxp x (List.mem_flatMap.mpr ⟨q, hq, hxq⟩) rfl)).symm
          rw [← hx]
          exact r3 x ⟨hxp, (hpick _).mpr hh⟩
        · have hqs : q ∈ ps := by
            rcases List.mem_cons.mp hq with e | e
            · rw [e] at hxq; exact absurd hxq hxp
            · exact e
          have := t3 x ⟨⟨q, hqs, by rw [hps q hqs]; exact hqx, by rw [hch]; exact hxq⟩,
            by rw [hout x hxp]; exact hh⟩
          rw [hout x hxp] at this
          exact this

/-- C60 with `excludespec`, when no matching parent is a child of a matching parent. -/
theorem C60_exclude_partial {o : Opts} {P : Parsed} (parent child : Rx) (sub : Str → Str)
    (excl : Option Rx) (atom : Bool) (hf : o.factory = false ∨ atom = false)
    (hnd : ((P.list.filter (fun p => Spec.hits parent (P.h p).text)).flatMap
      (fun p => (P.h p).children)).Nodup)
    (hsep : ∀ p ∈ P.list, Spec.hits parent (P.h p).text = true → ∀ q ∈ P.list,
      Spec.hits parent (P.h q).text = true → p ∉ (P.h q).children)
    (hs : ∀ t, Spec.hits child t = true → ¬ Conf.Spec.blank (sub t)) :
    ∃ P', replaceChildren o P parent child sub excl atom = .ok P' ∧
      Spec.Replaced o P P' (fun x =>
        (∃ p ∈ P.list, Spec.hits parent (P.h p).text = true ∧ ¬ Spec.excluded excl (P.h p).text ∧
          x ∈ (P.h p).children) ∧
        ¬ Spec.excluded excl (P.h x).text ∧ Spec.hits child (P.h x).text = true) sub := by
  have hmem : ∀ p, p ∈ findObjects P parent ↔ p ∈ P.list ∧ Spec.hits parent (P.h p).text = true := by
    intro p; rw [findObjects, List.mem_filter]; exact Iff.rfl
  obtain ⟨P', h1, h2, h3, h4⟩ := replaceParents_excl (o := o) (child := child) (sub := sub) (excl := excl)
    (ps := findObjects P parent) (P := P) hnd
    (fun p hp q hq => hsep p ((hmem p).mp hp).1 ((hmem p).mp hp).2 q ((hmem q).mp hq).1 ((hmem q).mp hq).2) hs
  refine ⟨P', ?_, h2, fun x hx => h3 x ?_, fun x hx => h4 x ?_⟩
  · rw [replaceChildren, h1]
    exact finish_id hf P'
  · rintro ⟨⟨p, hp, h⟩, h'⟩
    exact hx ⟨⟨p, ((hmem p).mp hp).1, ((hmem p).mp hp).2, h⟩, h'⟩
  · obtain ⟨⟨p, hp, hh, h⟩, h'⟩ := hx
    exact ⟨⟨p, (hmem p).mpr ⟨hp, hh⟩, h⟩, h'⟩

example : ∃ P P', parse {} [s "interface a", s " x", s " xq", s "interface b q", s " x"] = .ok P ∧
    replaceChildren {} P (lit "interface") (lit "x") (fun _ => s " z") (some (lit "q")) false = .ok P' ∧
    P'.texts = [s "interface a", s " z", s " xq", s "interface b q", s " x"] := ⟨_, _, rfl, rfl, by decide⟩

/-! ## C62: list operations -/

theorem texts_eraseIdx (P : Parsed) (j : Nat) :
    Parsed.texts { P with list := P.list.eraseIdx j } = P.texts.eraseIdx j := by
  show (P.list.eraseIdx j).map _ = (P.list.map _).eraseIdx j
  generalize P.list = l
  induction l generalizing j with
  | nil => rfl
  | cons a l ih =>
    cases j with
    | zero => rfl
    | succ j => rw [List.map_cons, List.eraseIdx_cons_succ, List.eraseIdx_cons_succ, List.map_cons, ih]

/-- C62: `del objs[k]` takes line `k` (counted from the end when negative) out and
re-parses. -/
theorem C62_delitem_partial {o : Opts} {P P' : Parsed} {k : Int} (h : delItem o P k = .ok P')
    (hb : Spec.NoBlank o P.texts) :
    ∃ j < P.texts.length, (k = j ∨ k = (j : Int) - P.texts.length) ∧
      P'.texts = (P.texts.eraseIdx j).map rstrip ∧ Spec.Numbered P' := by
  rw [delItem] at h
  have hlen : P.texts.length = P.list.length := List.length_map ..
  cases hd : delAt P.list k with
  | error e => rw [hd] at h; cases h
  | ok l =>
    rw [hd] at h
    have h : atomic o { P with list := l } = .ok P' := h
    rw [delAt.eq_def, pyIndex] at hd
    have key : ∃ j < P.list.length, (k = j ∨ k = (j : Int) - P.list.length) ∧ l = P.list.eraseIdx j := by
      by_cases h1 : 0 ≤ k ∧ k < P.list.length
      · rw [if_pos h1] at hd
        cases hd
        exact ⟨k.toNat, by omega, Or.inl (by omega), rfl⟩
      · rw [if_neg h1] at hd
        by_cases h2 : k < 0 ∧ 0 ≤ k + P.list.length
        · rw [if_pos h2] at hd
          cases hd
          exact ⟨(k + P.list.length).toNat, by omega, Or.inr (by omega), rfl⟩
        · rw [if_neg h2] at hd; cases hd
    obtain ⟨j, hj, hk, hl⟩ := key
    have hb' : Spec.NoBlank o (P.texts.eraseIdx j) := by
      rcases hb with hb | hb
      · exact Or.inl hb
      · exact Or.inr (fun t ht => hb t (List.mem_of_mem_eraseIdx ht))
    rw [hl] at h
    have hc := C59_commit_partial h (by rw [texts_eraseIdx]; exact hb')
    rw [hlen]
    refine ⟨j, hj, hk, ?_, hc.2.1⟩
    rw [hc.1, texts_eraseIdx]

/-- C62: it fails exactly when there is no such line or the rest cannot be parsed. -/
theorem C62_delitem_index (o : Opts) (P : Parsed) (k : Int)
    (h : k < -(P.texts.length : Int) ∨ (P.texts.length : Int) ≤ k) : delItem o P k = .error .indexError := by
  have hlen : P.texts.length = P.list.length := List.length_map ..
  rw [hlen] at h
  rw [delItem, delAt.eq_def, pyIndex, if_neg (by omega), if_neg (by omega)]
  rfl

/-- C62: `objs.insert(k, t)` makes `t` line `k` (without `factory`); like for every python
list a `k` beyond the end means the end, and a negative one counts from the end. -/
theorem C62_insert_partial {o : Opts} {C : Compile} {P : Parsed} (hr : Spec.Reach o C P) (ho : o.factory = false)
    (k : Int) (new : Str) :
    ∃ (P' : Parsed) (j : Nat), insertAt o P k new = .ok P' ∧
      (0 ≤ k ∧ k ≤ P.texts.length → k = j) ∧ ((P.texts.length : Int) < k → j = P.texts.length) ∧
      (k < 0 ∧ 0 ≤ k + P.texts.length → k + P.texts.length = j) ∧ (k + P.texts.length < 0 → j = 0) ∧
      P'.texts = P.texts.take j ++ rstrip new :: P.texts.drop j ∧
      (Spec.Numbered P → Spec.Numbered P') := by
  have hw := wf_reach hr
  have hlen : P.texts.length = P.list.length := List.length_map ..
  have hx : ∀ l, ∀ x ∈ P.list, (renumber 0 l (upd P.h P.n (fun _ => newObj o new P.n)) x).text = (P.h x).text := by
    intro l x hx
    have hlt := hw.list x hx
    have := renumber_same l 0 (upd P.h P.n (fun _ => newObj o new P.n)) x
    have := congrArg Obj.text this
    rw [upd, if_neg (by omega)] at this
    exact this
  have hnew : ∀ l, (renumber 0 l (upd P.h P.n (fun _ => newObj o new P.n)) P.n).text = rstrip new := by
    intro l
    have := renumber_same l 0 (upd P.h P.n (fun _ => newObj o new P.n)) P.n
    have := congrArg Obj.text this
    rw [upd, if_pos rfl] at this
    exact this
  have htake : ∀ m, P.texts.take m = (P.list.take m).map (fun i => (P.h i).text) := fun m => List.map_take.symm
  have hdrop : ∀ m, P.texts.drop m = (P.list.drop m).map (fun i => (P.h i).text) := fun m => List.map_drop.symm
  have hm1 : ∀ l (m : Nat), (P.list.take m).map (fun i =>
      (renumber 0 l (upd P.h P.n (fun _ => newObj o new P.n)) i).text) = P.texts.take m := by
    intro l m
    rw [htake]
    exact List.map_congr_left (fun x h => hx l x (List.mem_of_mem_take h))
  have hm2 : ∀ l (m : Nat), (P.list.drop m).map (fun i =>
      (renumber 0 l (upd P.h P.n (fun _ => newObj o new P.n)) i).text) = P.texts.drop m := by
    intro l m
    rw [hdrop]
    exact List.map_congr_left (fun x h => hx l x (List.mem_of_mem_drop h))
  let m := if k < 0 then (k + P.list.length).toNat else k.toNat
  refine ⟨_, min m P.texts.length, by rw [insertAt, if_neg (by rw [ho]; simp)], ?_, ?_, ?_, ?_, ?_, ?_⟩
  · intro h; rw [hlen] at h ⊢; show k = ((min (if k < 0 then _ else _) _ : Nat) : Int)
    rw [if_neg (by omega)]; omega
  · intro h; rw [hlen] at h ⊢; show min (if k < 0 then _ else _) _ = _
    rw [if_neg (by omega)]; omega
  · intro h; rw [hlen] at h ⊢; show _ = ((min (if k < 0 then _ else _) _ : Nat) : Int)
    rw [if_pos h.1]; omega
  · intro h; rw [hlen] at h ⊢; show min (if k < 0 then _ else _) _ = _
    rw [if_pos (by omega)]; omega
  · show (pyInsert P.list k P.n).map (fun i =>
      (renumber 0 (pyInsert P.list k P.n) (upd P.h P.n (fun _ => newObj o new P.n)) i).text) = _
    show (P.list.take m ++ P.n :: P.list.drop m).map _ = _
    rw [List.map_append, List.map_cons, hm1, hm2, hnew]
    by_cases hmm : m ≤ P.texts.length
    · rw [Nat.min_eq_left hmm]
    · rw [Nat.min_eq_right (by omega), List.take_of_length_le (by omega), List.drop_of_length_le (by omega),
        List.take_of_length_le (Nat.le_refl _), List.drop_of_length_le (Nat.le_refl _)]
  · intro hn
    refine numbered_reassign ?_
    show (pyInsert P.list k P.n).Nodup
    exact nodup_pyInsert (numbered_nodup hn) (fun h => absurd (hw.list _ h) (by omega)) k

example : ∃ P P', parse {} [s "a", s "b", s "c"] = .ok P ∧ insertAt {} P (-1) (s "n") = .ok P' ∧
    P'.texts = [s "a", s "b", s "n", s "c"] := ⟨_, _, rfl, rfl, by decide⟩

example : ∃ P P', parse {} [s "a", s " b", s "  c"] = .ok P ∧ delItem {} P (-2) = .ok P' ∧
    P'.texts = [s "a", s "  c"] ∧ (P'.h 4).parent = 3 := ⟨_, _, rfl, rfl, by decide, by decide⟩

/-- C62 does not hold as stated: with `factory`, `insert` always fails. -/
theorem C62_factory_fails (o : Opts) (P : Parsed) (k : Int) (new : Str) (h : o.factory = true) :
    insertAt o P k new = .error .typeError := by
  rw [insertAt, if_pos h]

/-- C62 does not hold as stated: a deletion also drops the blank lines that an edit left. -/
theorem C62_blank_fails : ∃ P P' P'', parse {} [s "a", s "b"] = .ok P ∧
    insertAt {} P 1 (s " ") = .ok P' ∧ P'.texts = [s "a", [], s "b"] ∧
    delItem {} P' 0 = .ok P'' ∧ P''.texts = [s "b"] :=
  ⟨_, _, _, rfl, rfl, by decide, rfl, by decide⟩

end Edit

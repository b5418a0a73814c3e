import Verif.Conf.Final

/-! # Lemmas: the tree a successful parse returns -/

namespace Conf

open Py

theorem input_eq (o : Opts) (lines : List Str) : preFilter o lines = Spec.input o lines := by
  rw [preFilter, Spec.input]
  split
  · congr 1
    funext l
    cases l <;> rfl
  · rfl

section
variable {o : Opts} {lines : List Str} {P : Parsed}

/-- The attributes parsing never changes. -/
theorem attrs (h : bootstrap o lines = .ok P) {j : Nat} (hj : j < lines.length) :
    Same (P.h j) (mkObj o (lineAt lines j) j) := by
  obtain ⟨hb, hB, _, _, hobj⟩ := bootstrap_ok h
  rw [hobj j]
  by_cases hc : Spec.closes (lineAt lines j)
  · obtain ⟨p, _, h2⟩ := hB.close j hj hc
    rw [h2]
    exact ⟨rfl, rfl, rfl, rfl, rfl⟩
  · rw [hB.other j hj hc]
    exact ⟨rfl, rfl, rfl, rfl, rfl⟩

/-- The children of every line. -/
theorem children_eq (h : bootstrap o lines = .ok P) {j : Nat} (hj : j < lines.length) :
    (P.h j).children = kids o (lineAt lines) lines.length j ++
      (if j ∈ banners o lines then bodyOf (fun k => rstrip (lineAt lines k)) lines.length j else []) ++
      (if j ∈ macros o lines then macroOf (fun k => rstrip (lineAt lines k)) lines.length j else []) := by
  obtain ⟨hb, hB, _, _, hobj⟩ := bootstrap_ok h
  rw [hobj j]
  dsimp only
  congr 2
  by_cases hc : Spec.closes (lineAt lines j)
  · obtain ⟨p, _, h2⟩ := hB.close j hj hc
    rw [h2]
  · rw [hB.other j hj hc]

theorem macroOwner_some {j p : Nat} (hj : j < lines.length)
    (h : macroOwner (fun k => rstrip (lineAt lines k)) lines.length (macros o lines) j = some p) :
    Spec.Last (Spec.macros o.syn (lineAt lines) j) p := by
  obtain ⟨h1, h2, h3⟩ := find?_reverse_max (macros_sorted o lines) h
  rw [decide_eq_true_eq] at h1
  obtain ⟨m1, m2, m3⟩ := (mem_macros o lines p).mp h2
  refine ⟨⟨m1, ((mem_macroOf _ _ _ _ m3).mp h1).1⟩, ?_⟩
  rintro q ⟨_, hq⟩
  have hql : q < lines.length := Nat.lt_trans hq.1 hj
  refine h3 q ((mem_macros o lines q).mpr ⟨m1, hql, hq.2.1⟩) ?_
  rw [decide_eq_true_eq, mem_macroOf _ _ _ _ hq.2.1]
  exact ⟨hq, hj⟩

theorem macroOwner_none {j : Nat} (hj : j < lines.length)
    (h : macroOwner (fun k => rstrip (lineAt lines k)) lines.length (macros o lines) j = none) (q : Nat) :
    ¬ Spec.macros o.syn (lineAt lines) j q := by
  rintro ⟨h0, hq⟩
  rw [macroOwner, List.find?_eq_none] at h
  have hql : q < lines.length := Nat.lt_trans hq.1 hj
  have := h q (by rw [List.mem_reverse, mem_macros]; exact ⟨h0, hql, hq.2.1⟩)
  apply this
  rw [decide_eq_true_eq, mem_macroOf _ _ _ _ hq.2.1]
  exact ⟨hq, hj⟩

theorem bannerOwner_some {j p : Nat} (hj : j < lines.length)
    (h : bannerOwner (fun k => rstrip (lineAt lines k)) lines.length (banners o lines) j = some p) :
    Spec.Last (Spec.banners o.syn (lineAt lines) j) p := by
  obtain ⟨h1, h2, h3⟩ := find?_reverse_max (banners_sorted o lines) h
  rw [decide_eq_true_eq] at h1
  obtain ⟨m1, m2, m3⟩ := (mem_banners o lines p).mp h2
  refine ⟨⟨m1, ((mem_bodyOf _ _ _ _ m3).mp h1).1⟩, ?_⟩
  rintro q ⟨_, hq⟩
  have hql : q < lines.length := Nat.lt_trans hq.1 hj
  refine h3 q ((mem_banners o lines q).mpr ⟨m1, hql, isBanner_of_in hq⟩) ?_
  rw [decide_eq_true_eq, mem_bodyOf _ _ _ _ (isBanner_of_in hq)]
  exact ⟨hq, hj⟩

theorem bannerOwner_none {j : Nat} (hj : j < lines.length)
    (h : bannerOwner (fun k => rstrip (lineAt lines k)) lines.length (banners o lines) j = none) (q : Nat) :
    ¬ Spec.banners o.syn (lineAt lines) j q := by
  rintro ⟨h0, hq⟩
  rw [bannerOwner, List.find?_eq_none] at h
  have hql : q < lines.length := Nat.lt_trans hq.1 hj
  have := h q (by rw [List.mem_reverse, mem_banners]; exact ⟨h0, hql, isBanner_of_in hq⟩)
  apply this
  rw [decide_eq_true_eq, mem_bodyOf _ _ _ _ (isBanner_of_in hq)]
  exact ⟨hq, hj⟩

/-- The parent of every line. -/
theorem parent_spec (h : bootstrap o lines = .ok P) {j : Nat} (hj : j < lines.length) :
    Spec.Parent o (lineAt lines) j (P.h j).parent := by
  obtain ⟨hb, hB, _, _, hobj⟩ := bootstrap_ok h
  rw [hobj j]
  dsimp only
  cases hm : macroOwner (fun k => rstrip (lineAt lines k)) lines.length (macros o lines) j with
  | some p => exact Or.inl (macroOwner_some hj hm)
  | none =>
    have hm' := macroOwner_none hj hm
    cases hbn : bannerOwner (fun k => rstrip (lineAt lines k)) lines.length (banners o lines) j with
    | some p => exact Or.inr (Or.inl ⟨hm', bannerOwner_some hj hbn⟩)
    | none =>
      have hb' := bannerOwner_none hj hbn
      by_cases hc : Spec.closes (lineAt lines j)
      · obtain ⟨p, h1, h2⟩ := hB.close j hj hc
        have : (hb j).parent = p := by rw [h2]
        simp only [Option.getD_none]
        rw [this]
        exact Or.inr (Or.inr (Or.inl ⟨hm', hb', hc, h1⟩))
      · have : (hb j).parent = sp o (lineAt lines) j := by rw [hB.other j hj hc]
        simp only [Option.getD_none]
        rw [this]
        exact Or.inr (Or.inr (Or.inr ⟨hm', hb', hc, sp_rule o _ j⟩))

theorem last_unique {R : Nat → Prop} {p q : Nat} (hp : Spec.Last R p) (hq : Spec.Last R q) : p = q :=
  Nat.le_antisymm (hq.2 p hp.1) (hp.2 q hq.1)

theorem parent_unique {L : Nat → Str} {i p q : Nat} (hp : Spec.Parent o L i p) (hq : Spec.Parent o L i q) :
    p = q := by
  rcases hp with hp | ⟨p1, hp⟩ | ⟨p1, p2, p3, hp⟩ | ⟨p1, p2, p3, hp⟩ <;>
    rcases hq with hq | ⟨q1, hq⟩ | ⟨q1, q2, q3, hq⟩ | ⟨q1, q2, q3, hq⟩
  · exact last_unique hp hq
  · exact absurd hp.1 (q1 p)
  · exact absurd hp.1 (q1 p)
  · exact absurd hp.1 (q1 p)
  · exact absurd hq.1 (p1 q)
  · exact last_unique hp hq
  · exact absurd hp.1 (q2 p)
  · exact absurd hp.1 (q2 p)
  · exact absurd hq.1 (p1 q)
  · exact absurd hq.1 (p2 q)
  · exact matches_unique hp hq
  · exact absurd p3 q3
  · exact absurd hq.1 (p1 q)
  · exact absurd hq.1 (p2 q)
  · exact absurd q3 p3
  · exact rule_unique hp hq

theorem parent_le {L : Nat → Str} {i p : Nat} (h : Spec.Parent o L i p) : p ≤ i := by
  rcases h with h | ⟨_, h⟩ | ⟨_, _, _, h⟩ | ⟨_, _, _, h⟩
  · exact Nat.le_of_lt h.1.2.1
  · exact Nat.le_of_lt h.1.2.1
  · exact Nat.le_of_lt h.1
  · rcases h with ⟨_, h⟩ | ⟨_, h⟩
    · exact Nat.le_of_lt h.1
    · exact Nat.le_of_eq h

theorem mem_kids {j i n : Nat} {L : Nat → Str} :
    j ∈ kids o L n i ↔ j < n ∧ j ≠ i ∧ Spec.ParentRule o.delims L j i := by
  rw [kids, List.mem_filter, List.mem_range, Bool.and_eq_true, beq_iff_eq, bne_iff_ne]
  constructor
  · rintro ⟨h1, h2, h3⟩
    exact ⟨h1, h3, h2 ▸ sp_rule o L j⟩
  · rintro ⟨h1, h2, h3⟩
    exact ⟨h1, rule_unique (sp_rule o L j) h3, h2⟩

theorem kids_increasing (L : Nat → Str) (n i : Nat) : Spec.Increasing (kids o L n i) :=
  pairwise_range_filter _ _

theorem takeThrough_increasing (f : Nat → Bool) (a m : Nat) :
    Spec.Increasing (takeThrough f (List.range' a m)) :=
  List.Pairwise.sublist (takeThrough_sublist f _) List.pairwise_lt_range'

/-- The three parts of the children of a line. -/
theorem children_spec (h : bootstrap o lines = .ok P) {j : Nat} (hj : j < lines.length) :
    ∃ A B C, (P.h j).children = A ++ B ++ C ∧
      (Spec.Increasing A ∧ ∀ i, i ∈ A ↔ i < lines.length ∧ i ≠ j ∧
        Spec.ParentRule o.delims (lineAt lines) i j) ∧
      (Spec.Increasing B ∧ ∀ i, i ∈ B ↔ i < lines.length ∧ Spec.banners o.syn (lineAt lines) i j) ∧
      (Spec.Increasing C ∧ ∀ i, i ∈ C ↔ i < lines.length ∧ Spec.macros o.syn (lineAt lines) i j) := by
  refine ⟨_, _, _, children_eq h hj, ⟨kids_increasing _ _ _, fun i => mem_kids⟩, ?_, ?_⟩
  · split
    · rename_i hb
      obtain ⟨h1, h2, h3⟩ := (mem_banners o lines j).mp hb
      refine ⟨?_, ?_⟩
      · rw [bodyOf]
        split
        · exact List.Pairwise.nil
        · split
          · exact List.Pairwise.nil
          · exact takeThrough_increasing _ _ _
      · intro i
        rw [mem_bodyOf _ _ _ _ h3]
        constructor
        · rintro ⟨a, b⟩; exact ⟨b, h1, a⟩
        · rintro ⟨a, _, b⟩; exact ⟨b, a⟩
    · rename_i hb
      refine ⟨List.Pairwise.nil, fun i => ?_⟩
      constructor
      · intro hi; simp at hi
      · rintro ⟨h1, h2, h3⟩
        exact absurd ((mem_banners o lines j).mpr ⟨h2, hj, isBanner_of_in h3⟩) hb
  · split
    · rename_i hb
      obtain ⟨h1, h2, h3⟩ := (mem_macros o lines j).mp hb
      refine ⟨takeThrough_increasing _ _ _, ?_⟩
      intro i
      rw [mem_macroOf _ _ _ _ h3]
      constructor
      · rintro ⟨a, b⟩; exact ⟨b, h1, a⟩
      · rintro ⟨a, _, b⟩; exact ⟨b, a⟩
    · rename_i hb
      refine ⟨List.Pairwise.nil, fun i => ?_⟩
      constructor
      · intro hi; simp at hi
      · rintro ⟨h1, h2, h3⟩
        exact absurd ((mem_macros o lines j).mpr ⟨h2, hj, h3.2.1⟩) hb

theorem rule_lt {L : Nat → Str} {i p : Nat} (h : Spec.ParentRule o.delims L i p) (hne : i ≠ p) : p < i := by
  rcases h with ⟨_, h⟩ | ⟨_, h⟩
  · exact h.1
  · exact absurd h.symm hne

theorem children_range (h : bootstrap o lines = .ok P) {j i : Nat} (hj : j < lines.length)
    (hi : i ∈ (P.h j).children) : j < i ∧ i < lines.length := by
  obtain ⟨A, B, C, he, ⟨_, hA⟩, ⟨_, hB⟩, ⟨_, hC⟩⟩ := children_spec h hj
  rw [he, List.mem_append, List.mem_append, hA, hB, hC] at hi
  rcases hi with (⟨h1, h2, h3⟩ | ⟨h1, _, h3⟩) | ⟨h1, _, h3⟩
  · exact ⟨rule_lt h3 h2, h1⟩
  · exact ⟨h3.1, h1⟩
  · exact ⟨h3.1, h1⟩

/-! ## Which lines are kept -/

theorem blank_strip_iff (t : Str) : (strip (rstrip t)).isEmpty = true ↔ Spec.blank t := by
  rw [List.isEmpty_iff, strip, rstrip_rstrip]
  constructor
  · intro h
    have hb := (lstrip_nil_iff _).mp h
    obtain ⟨ws, hs, hw⟩ := rstrip_eq_append t
    intro c hc
    rw [hs, List.mem_append] at hc
    rcases hc with hc | hc
    · exact hb c hc
    · exact hw c hc
  · intro h
    rw [lstrip_nil_iff]
    intro c hc
    refine h c ?_
    obtain ⟨ws, hs, hw⟩ := rstrip_eq_append t
    rw [hs, List.mem_append]; exact Or.inl hc

theorem not_blank_of_bannerHead {t : Str} {d : Char} (h : Spec.BannerHead t d) : ¬ Spec.blank t := by
  obtain ⟨sets, c, word, ws, rest, ht, _, _, _, _, _, _, hd, _⟩ := h
  intro hb
  have := hb d (by rw [ht]; simp)
  rw [hd] at this; cases this

theorem eatSets_subset (f : Nat) (s : Str) {x : Char} (hx : x ∈ eatSets f s) : x ∈ s := by
  obtain ⟨sets, _, h2⟩ := eatSets_spec f s
  rw [h2, List.mem_append]; exact Or.inr hx

theorem not_blank_of_isBanner {t : Str} (h : isBanner t = true) : ¬ Spec.blank t := by
  intro hb
  rw [isBanner, Bool.or_eq_true] at h
  rcases h with h | h
  · split at h
    · rename_i c r he
      have := hb 'b' (eatSets_subset t.length t (by rw [he]; simp))
      exact absurd this (by decide)
    · cases h
  · rw [isInfix_iff] at h
    have := hb 'a' (h.subset (by decide))
    exact absurd this (by decide)

theorem blank_rstrip_iff (t : Str) : Spec.blank (rstrip t) ↔ Spec.blank t := by
  rw [← blank_strip_iff, ← blank_strip_iff, rstrip_rstrip]

theorem not_blank_macro {t : Str} (h : "macro name ".toList <+: t) : ¬ Spec.blank t := by
  intro hb
  have := hb 'm' (h.subset (by decide))
  exact absurd this (by decide)

theorem keepLine_iff (h : bootstrap o lines = .ok P) {j : Nat} (hj : j < lines.length) :
    keepLine o (P.h j) = true ↔ o.ignoreBlank = false ∨ ¬ Spec.blank (lineAt lines j) ∨
      (∃ p, Spec.banners o.syn (lineAt lines) j p) ∨ (∃ p, Spec.macros o.syn (lineAt lines) j p) := by
  have htext : (P.h j).text = rstrip (lineAt lines j) := (attrs h hj).1
  rw [keepLine, Bool.or_eq_true, Bool.or_eq_true, Bool.not_eq_true', Bool.not_eq_true', htext]
  have hbl : (strip (rstrip (lineAt lines j))).isEmpty = false ↔ ¬ Spec.blank (lineAt lines j) := by
    rw [← blank_strip_iff]; simp
  rw [hbl, or_assoc]
  refine or_congr Iff.rfl ?_
  by_cases hblank : Spec.blank (lineAt lines j)
  · have e1 : ¬ ¬ Spec.blank (lineAt lines j) := fun hn => hn hblank
    simp only [e1, false_or]
    obtain ⟨hb, hB, _, _, hobj⟩ := bootstrap_ok h
    have hb0 : (hb j).blankKeep = false := by
      by_cases hc : Spec.closes (lineAt lines j)
      · obtain ⟨p, _, h2⟩ := hB.close j hj hc
        rw [h2]; rfl
      · rw [hB.other j hj hc]; rfl
    have hk : (P.h j).blankKeep = ((banners o lines).any (fun p =>
          innerOf (fun k => rstrip (lineAt lines k)) lines.length p j) ||
        (macros o lines).any (fun p =>
          decide (j ∈ macroOf (fun k => rstrip (lineAt lines k)) lines.length p))) := by
      rw [hobj j]
      dsimp only
      have n1 : ¬ j ∈ banners o lines := by
        rw [mem_banners]
        rintro ⟨_, _, hh⟩
        exact not_blank_of_isBanner hh ((blank_rstrip_iff _).mpr hblank)
      have n2 : ¬ j ∈ macros o lines := by
        rw [mem_macros]
        rintro ⟨_, _, hh⟩
        exact not_blank_macro hh hblank
      simp [hb0, n1, n2]
    rw [hk, Bool.or_eq_true, List.any_eq_true, List.any_eq_true]
    refine or_congr ?_ ?_
    · constructor
      · rintro ⟨p, hp, hin⟩
        obtain ⟨m1, m2, m3⟩ := (mem_banners o lines p).mp hp
        rw [innerOf, Bool.and_eq_true, decide_eq_true_eq, mem_bodyOf _ _ _ _ m3] at hin
        exact ⟨p, m1, hin.1.1⟩
      · rintro ⟨p, m1, hin⟩
        have m3 := isBanner_of_in hin
        refine ⟨p, (mem_banners o lines p).mpr ⟨m1, Nat.lt_trans hin.1 hj, m3⟩, ?_⟩
        rw [innerOf, Bool.and_eq_true, decide_eq_true_eq, mem_bodyOf _ _ _ _ m3]
        refine ⟨⟨hin, hj⟩, ?_⟩
        obtain ⟨_, d, ⟨hh, _⟩, _⟩ := hin
        rw [((bannerHead_iff _ _).mpr hh).2]
        dsimp only
        have hsp := bannerHead_not_space hh
        rw [Bool.not_eq_true', decide_eq_false_iff_not, mem_strip_iff hsp, mem_rstrip_iff hsp]
        intro hd
        rw [hblank d hd] at hsp; cases hsp
    · constructor
      · rintro ⟨p, hp, hin⟩
        obtain ⟨m1, m2, m3⟩ := (mem_macros o lines p).mp hp
        rw [decide_eq_true_eq, mem_macroOf _ _ _ _ m3] at hin
        exact ⟨p, m1, hin.1⟩
      · rintro ⟨p, m1, hin⟩
        refine ⟨p, (mem_macros o lines p).mpr ⟨m1, Nat.lt_trans hin.1 hj, hin.2.1⟩, ?_⟩
        rw [decide_eq_true_eq, mem_macroOf _ _ _ _ hin.2.1]
        exact ⟨hin, hj⟩
  · simp [hblank]

theorem mem_list (h : bootstrap o lines = .ok P) {j : Nat} :
    j ∈ P.list ↔ j < lines.length ∧ (o.ignoreBlank = false ∨ ¬ Spec.blank (lineAt lines j) ∨
      (∃ p, Spec.banners o.syn (lineAt lines) j p) ∨ (∃ p, Spec.macros o.syn (lineAt lines) j p)) := by
  obtain ⟨_, _, _, hl, _⟩ := bootstrap_ok h
  rw [hl, List.mem_filter, List.mem_range]
  constructor
  · rintro ⟨h1, h2⟩; exact ⟨h1, (keepLine_iff h h1).mp h2⟩
  · rintro ⟨h1, h2⟩; exact ⟨h1, (keepLine_iff h h1).mpr h2⟩

theorem list_increasing (h : bootstrap o lines = .ok P) : Spec.Increasing P.list := by
  obtain ⟨_, _, _, hl, _⟩ := bootstrap_ok h
  rw [hl]; exact pairwise_range_filter _ _

theorem texts_eq (h : bootstrap o lines = .ok P) :
    P.texts = P.list.map (fun i => rstrip (lineAt lines i)) := by
  rw [Parsed.texts]
  refine List.map_congr_left ?_
  intro i hi
  exact (attrs h ((mem_list h).mp hi).1).1

theorem indent_blank {t : Str} (h : Spec.blank t) : Spec.indent t = 0 := by
  rw [Spec.indent]
  have : rstrip t = [] := by
    have h2 := (blank_strip_iff t).mpr h
    rw [List.isEmpty_iff, strip, rstrip_rstrip, lstrip_nil_iff] at h2
    cases hr : rstrip t with
    | nil => rfl
    | cons x xs =>
      exfalso
      have hne : rstrip t ≠ [] := by rw [hr]; simp
      have hl := getLast?_rstrip t _ (List.getLast?_eq_some_getLast hne)
      rw [h2 _ (List.getLast_mem hne)] at hl
      cases hl
  rw [this]; rfl

/-- Every child is one of the listed lines. -/
theorem children_listed (h : bootstrap o lines = .ok P) {j i : Nat} (hj : j < lines.length)
    (hi : i ∈ (P.h j).children) : i ∈ P.list := by
  obtain ⟨A, B, C, he, ⟨_, hA⟩, ⟨_, hB⟩, ⟨_, hC⟩⟩ := children_spec h hj
  rw [he, List.mem_append, List.mem_append, hA, hB, hC] at hi
  rw [mem_list h]
  rcases hi with (⟨h1, h2, h3⟩ | ⟨h1, h3⟩) | ⟨h1, h3⟩
  · refine ⟨h1, Or.inr (Or.inl ?_)⟩
    intro hb
    rcases h3 with ⟨_, h3⟩ | ⟨_, h3⟩
    · have := h3.2.2.1
      rw [indent_blank hb] at this
      omega
    · exact h2 h3.symm
  · exact ⟨h1, Or.inr (Or.inr (Or.inl ⟨j, h3⟩))⟩
  · exact ⟨h1, Or.inr (Or.inr (Or.inr ⟨j, h3⟩))⟩

theorem opens_not_blank {t : Str} (h : Spec.opens t) : ¬ Spec.blank t := by
  obtain ⟨pre, ws, ht, _⟩ := h
  intro hb
  have := hb '{' (by rw [ht]; simp)
  exact absurd this (by decide)

/-- The parent of a listed line is listed. -/
theorem parent_listed (h : bootstrap o lines = .ok P) {i : Nat} (hi : i ∈ P.list) :
    (P.h i).parent ∈ P.list := by
  obtain ⟨hil, _⟩ := (mem_list h).mp hi
  have hp := parent_spec h hil
  generalize (P.h i).parent = p at hp
  have hle := parent_le hp
  rcases hp with hp | ⟨_, hp⟩ | ⟨_, _, _, hp⟩ | ⟨_, _, _, hp⟩
  · rw [mem_list h]
    exact ⟨by omega, Or.inr (Or.inl (not_blank_macro hp.1.2.2.1))⟩
  · rw [mem_list h]
    refine ⟨by omega, Or.inr (Or.inl ?_)⟩
    obtain ⟨_, d, ⟨hh, _⟩, _⟩ := hp.1.2
    rw [← blank_rstrip_iff]
    exact not_blank_of_bannerHead hh
  · rw [mem_list h]
    exact ⟨by omega, Or.inr (Or.inl (opens_not_blank hp.2.1))⟩
  · rcases hp with ⟨_, hp⟩ | ⟨_, hp⟩
    · rw [mem_list h]
      exact ⟨by omega, Or.inr (Or.inl hp.2.1.1)⟩
    · rw [hp]; exact hi

end

/-! ## Parsing again -/

theorem step_rstrip (o : Opts) (s : BS) (t : Str) : step o s (rstrip t) = step o s t := by
  have : mkObj o (rstrip t) s.n = mkObj o t s.n := by
    rw [mkObj, mkObj, lineText, lineText, lineIndent, lineIndent, rstrip_rstrip]
  rw [step, step, this]

theorem indentPass_rstrip (o : Opts) (lines : List Str) :
    indentPass o (lines.map rstrip) = indentPass o lines := by
  rw [indentPass, indentPass]
  generalize bs0 = s
  induction lines generalizing s with
  | nil => rfl
  | cons t ts ih => rw [List.map_cons, List.foldl_cons, List.foldl_cons, step_rstrip]; exact ih _

theorem lineAt_map (f : Str → Str) (hf : f [] = []) (lines : List Str) (i : Nat) :
    lineAt (lines.map f) i = f (lineAt lines i) := by
  rw [lineAt, lineAt, List.getD_eq_getElem?_getD, List.getD_eq_getElem?_getD, List.getElem?_map]
  cases lines[i]? with
  | none => simp [hf]
  | some x => rfl

theorem bootstrap_rstrip (o : Opts) (lines : List Str)
    (hm : ∀ l ∈ lines, "macro name ".toList <+: l → "macro name ".toList <+: rstrip l) :
    bootstrap o (lines.map rstrip) = bootstrap o lines := by
  have : macroLines (lines.map rstrip) = macroLines lines := by
    rw [macroLines, macroLines, List.length_map]
    refine List.filter_congr ?_
    intro i hi
    rw [List.mem_range] at hi
    rw [Bool.eq_iff_iff, List.isPrefixOf_iff_prefix, List.isPrefixOf_iff_prefix]
    have e := lineAt_map rstrip rfl lines i
    rw [lineAt, lineAt] at e
    rw [e]
    constructor
    · intro h
      obtain ⟨ws, hs, _⟩ := rstrip_eq_append (lines.getD i [])
      rw [hs]
      exact h.trans (List.prefix_append _ _)
    · intro h
      refine hm _ ?_ h
      rw [List.getD_eq_getElem?_getD, List.getElem?_eq_getElem hi]
      exact List.getElem_mem hi
  rw [bootstrap, bootstrap, indentPass_rstrip, this]

/-- Cutting trailing blanks keeps the start of a macro, unless it has no name. -/
theorem macro_rstrip {l : Str} (h2 : rstrip l ≠ "macro name".toList)
    (hm : "macro name ".toList <+: l) : "macro name ".toList <+: rstrip l := by
  obtain ⟨r, hr⟩ := hm
  obtain ⟨ws, hs, hw⟩ := rstrip_eq_append l
  have hne : rstrip l ≠ [] := by
    intro he
    have : ∀ c ∈ l, isSpace c = true := by rw [hs, he]; simpa using hw
    exact absurd (this 'm' (by rw [← hr]; simp)) (by decide)
  by_cases hlen : (rstrip l).length ≤ 10
  · exfalso
    have hp1 : rstrip l <+: l := ⟨ws, hs.symm⟩
    have hp2 : "macro name".toList <+: l := ⟨' ' :: r, by rw [← hr]; rfl⟩
    have hpre : rstrip l <+: "macro name".toList := List.prefix_of_prefix_length_le hp1 hp2 hlen
    -- the rest of "macro name " would be blanks
    obtain ⟨u, hu⟩ := hpre
    have : u ++ ' ' :: r = ws := by
      have e : rstrip l ++ (u ++ ' ' :: r) = rstrip l ++ ws := by
        rw [← hs, ← List.append_assoc, hu, ← hr]; rfl
      exact List.append_cancel_left e
    have hus : ∀ c ∈ u, isSpace c = true := fun c hc => hw c (by rw [← this]; simp [hc])
    cases u with
    | nil => exact h2 (by rw [← hu]; simp)
    | cons x xs =>
      have hlast : ("macro name".toList).getLast? = some 'e' := by decide
      rw [← hu, List.getLast?_append] at hlast
      cases hg : (x :: xs).getLast? with
      | none => simp at hg
      | some y =>
        rw [hg] at hlast
        simp only [Option.some_or, Option.some.injEq] at hlast
        have := hus y (List.mem_of_getLast? hg)
        rw [hlast] at this
        exact absurd this (by decide)
  · have hp1 : rstrip l <+: l := ⟨ws, hs.symm⟩
    have hp2 : "macro name ".toList <+: l := ⟨r, hr⟩
    exact List.prefix_of_prefix_length_le hp2 hp1 (by
      have : ("macro name ".toList).length = 11 := by decide
      omega)

/-- No line that is not blank is lost. -/
theorem bootstrap_no_loss {o : Opts} {inp : List Str} {P : Parsed} (h : bootstrap o inp = .ok P) :
    P.texts.filter (fun t => !(strip t).isEmpty) =
      (inp.filter (fun t => !(strip t).isEmpty)).map rstrip := by
  rw [texts_eq h, List.filter_map]
  have hs : ∀ t : Str, (strip (rstrip t)).isEmpty = (strip t).isEmpty := by
    intro t; rw [strip, strip, rstrip_rstrip]
  have e1 : P.list.filter ((fun t => !(strip t).isEmpty) ∘ (fun i => rstrip (lineAt inp i))) =
      (List.range inp.length).filter (fun i => !(strip (lineAt inp i)).isEmpty) := by
    obtain ⟨_, _, _, hl, _⟩ := bootstrap_ok h
    rw [hl, List.filter_filter]
    refine List.filter_congr ?_
    intro i hi
    rw [List.mem_range] at hi
    rw [Bool.eq_iff_iff, Bool.and_eq_true, keepLine_iff h hi]
    simp only [Function.comp, hs]
    constructor
    · rintro ⟨h1, h2⟩; exact h1
    · intro h1
      refine ⟨h1, Or.inr (Or.inl ?_)⟩
      rw [← blank_strip_iff, hs]
      simpa using h1
  rw [e1]
  have e2 : ∀ l : List Str, (l.filter (fun t => !(strip t).isEmpty)).map rstrip =
      ((List.range l.length).filter (fun i => !(strip (lineAt l i)).isEmpty)).map
        (fun i => rstrip (lineAt l i)) := by
    intro l
    have : l = (List.range l.length).map (lineAt l) := by
      refine List.ext_getElem (by simp) ?_
      intro i h1 h2
      simp [lineAt, h1]
    conv => lhs; rw [this, List.filter_map, List.map_map]
    rfl
  rw [e2]

end Conf

import Verif.Conf.Tree

/-! # Taking blank lines out of a configuration

`L` is the text before, `K` the text after some blank lines are taken out (and trailing
blanks are cut).  `ψ j` is the number of lines kept below `j`. -/

namespace Conf

open Py

/-- `K` is `L` without the lines that are not kept. -/
structure Thin (L K : Nat → Str) (keep : Nat → Prop) (ψ : Nat → Nat) : Prop where
  zero : ψ 0 = 0
  stepKeep : ∀ j, keep j → ψ (j + 1) = ψ j + 1
  stepDrop : ∀ j, ¬ keep j → ψ (j + 1) = ψ j
  surj : ∀ k, ∃ j, keep j ∧ ψ j = k
  text : ∀ j, keep j → K (ψ j) = rstrip (L j)
  drop : ∀ j, ¬ keep j → Spec.blank (L j)

namespace Thin

variable {L K : Nat → Str} {keep : Nat → Prop} {ψ : Nat → Nat} (S : Thin L K keep ψ)
include S

theorem step_le (j : Nat) : ψ j ≤ ψ (j + 1) := by
  by_cases h : keep j
  · rw [S.stepKeep j h]; omega
  · rw [S.stepDrop j h]; exact Nat.le_refl _

theorem mono {a b : Nat} (h : a ≤ b) : ψ a ≤ ψ b := by
  induction b with
  | zero => rw [Nat.le_zero.mp h]; exact Nat.le_refl _
  | succ b ih =>
    rcases Nat.lt_or_ge a (b + 1) with h1 | h1
    · exact Nat.le_trans (ih (by omega)) (S.step_le b)
    · rw [show a = b + 1 by omega]; exact Nat.le_refl _

theorem strict {a b : Nat} (ha : keep a) (h : a < b) : ψ a < ψ b := by
  have := S.mono (show a + 1 ≤ b from h)
  rw [S.stepKeep a ha] at this
  omega

theorem lt_of {a b : Nat} (h : ψ a < ψ b) : a < b := by
  rcases Nat.lt_or_ge a b with h1 | h1
  · exact h1
  · have := S.mono h1; omega

theorem inj {a b : Nat} (ha : keep a) (hb : keep b) (h : ψ a = ψ b) : a = b := by
  rcases Nat.lt_trichotomy a b with h1 | h1 | h1
  · have := S.strict ha h1; omega
  · exact h1
  · have := S.strict hb h1; omega

theorem keep_of {j : Nat} (h : ¬ Spec.blank (L j)) : keep j :=
  Classical.byContradiction fun hn => h (S.drop j hn)

/-! ## Banners and macros -/

theorem banner_iff {p i : Nat} (hp : keep p) :
    Spec.InBanner K (ψ p) (ψ i) ↔ Spec.InBanner L p i := by
  have ht : rstrip (K (ψ p)) = rstrip (L p) := by rw [S.text p hp, rstrip_rstrip]
  rw [Spec.InBanner, Spec.InBanner, ht]
  constructor
  · rintro ⟨h1, d, h2, h3⟩
    refine ⟨S.lt_of h1, d, h2, fun q q1 q2 hd => ?_⟩
    have hds := bannerHead_not_space h2.1
    have hq : keep q := S.keep_of (fun hb => by rw [hb d hd] at hds; cases hds)
    refine h3 (ψ q) (S.strict hp q1) (S.strict hq q2) ?_
    rw [S.text q hq, mem_rstrip_iff hds]
    exact hd
  · rintro ⟨h1, d, h2, h3⟩
    refine ⟨S.strict hp h1, d, h2, fun q q1 q2 hd => ?_⟩
    obtain ⟨q', hq, rfl⟩ := S.surj q
    rw [S.text q' hq, mem_rstrip_iff (bannerHead_not_space h2.1)] at hd
    exact h3 q' (S.lt_of q1) (S.lt_of q2) hd

theorem banner_head {p i : Nat} (h : Spec.InBanner L p i) : keep p := by
  obtain ⟨_, d, ⟨hh, _⟩, _⟩ := h
  refine S.keep_of ?_
  rw [← blank_rstrip_iff]
  exact not_blank_of_bannerHead hh

theorem banners_iff {syn : Syntax} {p i : Nat} (hp : keep p) :
    Spec.banners syn K (ψ i) (ψ p) ↔ Spec.banners syn L i p := by
  rw [Spec.banners, Spec.banners, S.banner_iff hp]

theorem banners_no {syn : Syntax} {i : Nat} :
    (∀ q, ¬ Spec.banners syn K (ψ i) q) ↔ (∀ q, ¬ Spec.banners syn L i q) := by
  constructor
  · intro h q hq
    exact h (ψ q) ((S.banners_iff (S.banner_head hq.2)).mpr hq)
  · intro h q hq
    obtain ⟨q', hq', rfl⟩ := S.surj q
    exact h q' ((S.banners_iff hq').mp hq)

theorem banners_last {syn : Syntax} {p i : Nat} (hp : keep p) :
    Spec.Last (Spec.banners syn K (ψ i)) (ψ p) ↔ Spec.Last (Spec.banners syn L i) p := by
  constructor
  · rintro ⟨h1, h2⟩
    refine ⟨(S.banners_iff hp).mp h1, fun q hq => ?_⟩
    have hk := S.banner_head hq.2
    have := h2 (ψ q) ((S.banners_iff hk).mpr hq)
    rcases Nat.lt_or_ge p q with h3 | h3
    · have := S.strict hp h3; omega
    · exact h3
  · rintro ⟨h1, h2⟩
    refine ⟨(S.banners_iff hp).mpr h1, fun q hq => ?_⟩
    obtain ⟨q', hq', rfl⟩ := S.surj q
    exact S.mono (h2 q' ((S.banners_iff hq').mp hq))

theorem macro_iff (hm : ∀ j, "macro name ".toList <+: L j → "macro name ".toList <+: rstrip (L j))
    {p i : Nat} (hp : keep p) : Spec.InMacro K (ψ p) (ψ i) ↔ Spec.InMacro L p i := by
  rw [Spec.InMacro, Spec.InMacro, S.text p hp]
  constructor
  · rintro ⟨h1, h2, h3⟩
    have h2' : "macro name ".toList <+: L p := by
      obtain ⟨ws, hw, _⟩ := rstrip_eq_append (L p)
      rw [hw]
      exact h2.trans (List.prefix_append _ _)
    refine ⟨S.lt_of h1, h2', fun q q1 q2 hd => ?_⟩
    have hq : keep q := S.keep_of (fun hb => by
      rw [← blank_rstrip_iff, hd] at hb
      exact absurd (hb '@' (by decide)) (by decide))
    refine h3 (ψ q) (S.strict hp q1) (S.strict hq q2) ?_
    rw [Spec.atLine, S.text q hq, rstrip_rstrip]
    exact hd
  · rintro ⟨h1, h2, h3⟩
    refine ⟨S.strict hp h1, hm p h2, fun q q1 q2 hd => ?_⟩
    obtain ⟨q', hq, rfl⟩ := S.surj q
    rw [Spec.atLine, S.text q' hq, rstrip_rstrip] at hd
    exact h3 q' (S.lt_of q1) (S.lt_of q2) hd

theorem macro_head {p i : Nat} (h : Spec.InMacro L p i) : keep p := S.keep_of (not_blank_macro h.2.1)

variable (hm : ∀ j, "macro name ".toList <+: L j → "macro name ".toList <+: rstrip (L j))
include hm

theorem macros_iff {syn : Syntax} {p i : Nat} (hp : keep p) :
    Spec.macros syn K (ψ i) (ψ p) ↔ Spec.macros syn L i p := by
  rw [Spec.macros, Spec.macros, S.macro_iff hm hp]

theorem macros_no {syn : Syntax} {i : Nat} :
    (∀ q, ¬ Spec.macros syn K (ψ i) q) ↔ (∀ q, ¬ Spec.macros syn L i q) := by
  constructor
  · intro h q hq
    exact h (ψ q) ((S.macros_iff hm (S.macro_head hq.2)).mpr hq)
  · intro h q hq
    obtain ⟨q', hq', rfl⟩ := S.surj q
    exact h q' ((S.macros_iff hm hq').mp hq)

theorem macros_last {syn : Syntax} {p i : Nat} (hp : keep p) :
    Spec.Last (Spec.macros syn K (ψ i)) (ψ p) ↔ Spec.Last (Spec.macros syn L i) p := by
  constructor
  · rintro ⟨h1, h2⟩
    refine ⟨(S.macros_iff hm hp).mp h1, fun q hq => ?_⟩
    have hk := S.macro_head hq.2
    have := h2 (ψ q) ((S.macros_iff hm hk).mpr hq)
    rcases Nat.lt_or_ge p q with h3 | h3
    · have := S.strict hp h3; omega
    · exact h3
  · rintro ⟨h1, h2⟩
    refine ⟨(S.macros_iff hm hp).mpr h1, fun q hq => ?_⟩
    obtain ⟨q', hq', rfl⟩ := S.surj q
    exact S.mono (h2 q' ((S.macros_iff hm hq').mp hq))

omit hm

/-! ## Braces -/

omit S in
theorem closes_rstrip (t : Str) : Spec.closes (rstrip t) ↔ Spec.closes t := by
  rw [← closesBrace_iff, ← closesBrace_iff]
  have h1 : opensBrace (rstrip t) = opensBrace t := by rw [opensBrace, opensBrace, rstrip_rstrip]
  have h2 : closesBrace (rstrip t) = closesBrace t := by
    rw [closesBrace, closesBrace, strip, strip, rstrip_rstrip]
  rw [h1, h2]

omit S in
theorem closes_not_blank {t : Str} (h : Spec.closes t) : ¬ Spec.blank t := by
  obtain ⟨⟨ws, r, ht, _⟩, _⟩ := h
  intro hb
  exact absurd (hb '}' (by rw [ht]; simp)) (by decide)

theorem balanced {a b : Nat} (h : Spec.Balanced L a b) : Spec.Balanced K (ψ a) (ψ b) := by
  induction h with
  | nil => exact .nil
  | @plain a k _ h1 h2 ih =>
    by_cases hk : keep k
    · rw [S.stepKeep k hk]
      refine .plain ih ?_ ?_
      · rw [S.text k hk, opens_rstrip]; exact h1
      · rw [S.text k hk, closes_rstrip]; exact h2
    · rw [S.stepDrop k hk]; exact ih
  | @block a p k _ h1 _ h2 ih1 ih2 =>
    have hp := S.keep_of (opens_not_blank h1)
    have hk := S.keep_of (closes_not_blank h2)
    rw [S.stepKeep k hk]
    rw [S.stepKeep p hp] at ih2
    refine .block ih1 ?_ ih2 ?_
    · rw [S.text p hp, opens_rstrip]; exact h1
    · rw [S.text k hk, closes_rstrip]; exact h2

theorem matches_to {p i : Nat} (h : Spec.Matches L p i) : Spec.Matches K (ψ p) (ψ i) := by
  obtain ⟨h1, h2, h3, h4⟩ := h
  have hp := S.keep_of (opens_not_blank h2)
  have hi := S.keep_of (closes_not_blank h3)
  have hb := S.balanced h4
  rw [S.stepKeep p hp] at hb
  refine ⟨S.strict hp h1, ?_, ?_, hb⟩
  · rw [S.text p hp, opens_rstrip]; exact h2
  · rw [S.text i hi, closes_rstrip]; exact h3

/-! ## Indentation -/

omit S in
theorem indent_rstrip (t : Str) : Spec.indent (rstrip t) = Spec.indent t := by
  rw [Spec.indent, Spec.indent, rstrip_rstrip]

omit S in
theorem comment_rstrip_iff (ds : List Char) (t : Str) :
    Spec.comment ds (rstrip t) ↔ Spec.comment ds t := by
  rw [← comment_iff, ← comment_iff, rstrip_rstrip]

omit S in
theorem config_rstrip (ds : List Char) (t : Str) : Spec.config ds (rstrip t) ↔ Spec.config ds t := by
  rw [Spec.config, Spec.config, blank_rstrip_iff, comment_rstrip_iff]

theorem nearest_iff {ds : List Char} {p i : Nat} (hp : keep p) (hi : keep i) :
    Spec.Nearest ds K (ψ i) (ψ p) ↔ Spec.Nearest ds L i p := by
  rw [Spec.Nearest, Spec.Nearest, S.text p hp, S.text i hi, config_rstrip, indent_rstrip, indent_rstrip]
  constructor
  · rintro ⟨h1, h2, h3, h4⟩
    refine ⟨S.lt_of h1, h2, h3, fun q q1 q2 hq => ?_⟩
    have hk := S.keep_of hq.1
    have := h4 (ψ q) (S.strict hp q1) (S.strict hk q2) (by rw [S.text q hk, config_rstrip]; exact hq)
    rw [S.text q hk, indent_rstrip] at this
    exact this
  · rintro ⟨h1, h2, h3, h4⟩
    refine ⟨S.strict hp h1, h2, h3, fun q q1 q2 hq => ?_⟩
    obtain ⟨q', hk, rfl⟩ := S.surj q
    rw [S.text q' hk, config_rstrip] at hq
    rw [S.text q' hk, indent_rstrip]
    exact h4 q' (S.lt_of q1) (S.lt_of q2) hq

theorem nearest_no {ds : List Char} {i : Nat} (hi : keep i) :
    (∀ q, ¬ Spec.Nearest ds K (ψ i) q) ↔ (∀ q, ¬ Spec.Nearest ds L i q) := by
  constructor
  · intro h q hq
    exact h (ψ q) ((S.nearest_iff (S.keep_of hq.2.1.1) hi).mpr hq)
  · intro h q hq
    obtain ⟨q', hq', rfl⟩ := S.surj q
    exact h q' ((S.nearest_iff hq' hi).mp hq)

/-- No comment stands directly below a line that is taken out. -/
theorem unattached_iff {ds : List Char} {i : Nat}
    (hc : ∀ j, Spec.comment ds (L (j + 1)) → keep j) (hi : keep i) :
    Spec.Unattached ds K (ψ i) ↔ Spec.Unattached ds L i := by
  rw [Spec.Unattached, Spec.Unattached, S.text i hi, comment_rstrip_iff, indent_rstrip]
  refine and_congr_right (fun hcm => ?_)
  cases i with
  | zero => rw [S.zero]; simp
  | succ j =>
    have hk := hc j hcm
    rw [S.stepKeep j hk, Nat.add_sub_cancel, Nat.add_sub_cancel, S.text j hk, indent_rstrip]
    simp

theorem rule_iff {ds : List Char} {p i : Nat}
    (hc : ∀ j, Spec.comment ds (L (j + 1)) → keep j) (hp : keep p) (hi : keep i) :
    Spec.ParentRule ds K (ψ i) (ψ p) ↔ Spec.ParentRule ds L i p := by
  rw [Spec.ParentRule, Spec.ParentRule, S.unattached_iff hc hi, S.nearest_iff hp hi, S.nearest_no hi]
  have : ψ p = ψ i ↔ p = i := ⟨S.inj hp hi, fun h => by rw [h]⟩
  rw [this]

/-- The parents are the same lines as before. -/
theorem parent {o : Opts} {p i : Nat} (hc : ∀ j, Spec.comment o.delims (L (j + 1)) → keep j)
    (hm : ∀ j, "macro name ".toList <+: L j → "macro name ".toList <+: rstrip (L j))
    (hp : keep p) (hi : keep i) (h : Spec.Parent o L i p) : Spec.Parent o K (ψ i) (ψ p) := by
  have hcl : Spec.closes (K (ψ i)) ↔ Spec.closes (L i) := by rw [S.text i hi, closes_rstrip]
  rw [Spec.Parent, S.macros_last hm hp, S.macros_no hm, S.banners_last hp, S.banners_no, hcl,
    S.rule_iff hc hp hi]
  rcases h with h | h | ⟨h1, h2, h3, h4⟩ | h
  · exact Or.inl h
  · exact Or.inr (Or.inl h)
  · exact Or.inr (Or.inr (Or.inl ⟨h1, h2, h3, S.matches_to h4⟩))
  · exact Or.inr (Or.inr (Or.inr h))

end Thin

/-! ## The lines a parse keeps -/

/-- The number of kept lines below `j`. -/
def rank (l : List Nat) (n j : Nat) : Nat := l.countP (fun i => decide (i < j)) + (j - n)

theorem countP_succ {l : List Nat} (hl : Spec.Increasing l) (j : Nat) :
    l.countP (fun i => decide (i < j + 1)) =
      l.countP (fun i => decide (i < j)) + (if j ∈ l then 1 else 0) := by
  induction l with
  | nil => simp
  | cons a l ih =>
    rw [Spec.Increasing, List.pairwise_cons] at hl
    rw [List.countP_cons, List.countP_cons, ih hl.2]
    rcases Nat.lt_trichotomy a j with h | h | h
    · have h1 : ¬ j = a := by omega
      have h2 : decide (a < j + 1) = true := by simp; omega
      have h3 : decide (a < j) = true := by simp; omega
      have h4 : (j ∈ a :: l) ↔ j ∈ l := by simp [h1]
      rw [if_pos h2, if_pos h3]
      simp only [h4]
      omega
    · subst h
      have : a ∉ l := fun hm => Nat.lt_irrefl _ (hl.1 a hm)
      simp [this]
    · have h1 : j ∉ a :: l := fun hm => by
        rcases List.mem_cons.mp hm with hm | hm
        · omega
        · have := hl.1 j hm; omega
      have h1' : j ∉ l := fun hm => h1 (List.mem_cons_of_mem _ hm)
      have h2 : ¬ decide (a < j + 1) = true := by simp; omega
      have h3 : ¬ decide (a < j) = true := by simp; omega
      rw [if_neg h1, if_neg h1', if_neg h2, if_neg h3]

theorem getD_countP {l : List Nat} (hl : Spec.Increasing l) {j : Nat} (hj : j ∈ l) :
    l.countP (fun i => decide (i < j)) < l.length ∧
      l.getD (l.countP (fun i => decide (i < j))) 0 = j := by
  induction l with
  | nil => simp at hj
  | cons a l ih =>
    rw [Spec.Increasing, List.pairwise_cons] at hl
    rw [List.countP_cons]
    rcases List.mem_cons.mp hj with rfl | hj'
    · have : l.countP (fun i => decide (i < j)) = 0 := by
        rw [List.countP_eq_zero]
        intro i hi
        have := hl.1 i hi
        simp; omega
      rw [this]; simp
    · have h1 := ih hl.2 hj'
      have h2 := hl.1 j hj'
      simp only [h2, decide_true, if_true, List.length_cons, List.getD_cons_succ]
      exact ⟨by omega, h1.2⟩

theorem countP_getD {l : List Nat} (hl : Spec.Increasing l) {k : Nat} (hk : k < l.length) :
    l.countP (fun i => decide (i < l.getD k 0)) = k := by
  have hmem : l.getD k 0 ∈ l := by
    rw [List.getD_eq_getElem?_getD, List.getElem?_eq_getElem hk]; exact List.getElem_mem hk
  obtain ⟨h1, h2⟩ := getD_countP hl hmem
  generalize l.countP (fun i => decide (i < l.getD k 0)) = c at h1 h2
  rw [List.getD_eq_getElem?_getD, List.getD_eq_getElem?_getD, List.getElem?_eq_getElem h1,
    List.getElem?_eq_getElem hk, Option.getD_some, Option.getD_some] at h2
  rcases Nat.lt_trichotomy c k with h | h | h
  · have := List.pairwise_iff_getElem.mp hl c k h1 hk h; omega
  · exact h
  · have := List.pairwise_iff_getElem.mp hl k c hk h1 h; omega

theorem countP_full {l : List Nat} {n : Nat} (hn : ∀ i ∈ l, i < n) {j : Nat} (hj : n ≤ j) :
    l.countP (fun i => decide (i < j)) = l.length := by
  rw [List.countP_eq_length]
  intro i hi
  have := hn i hi
  simp; omega

/-- The lines numbered by `l`, as a thinning. -/
theorem thin_gen {lines M : List Str} {l : List Nat} (hinc : Spec.Increasing l)
    (hlt : ∀ i ∈ l, i < lines.length) (hM : lineAt M = lineAt (l.map (fun i => rstrip (lineAt lines i))))
    (hdrop : ∀ j < lines.length, j ∉ l → Spec.blank (lineAt lines j)) :
    Thin (lineAt lines) (lineAt M) (fun j => j ∈ l ∨ lines.length ≤ j) (rank l lines.length) := by
  rw [hM]
  refine ⟨?_, ?_, ?_, ?_, ?_, ?_⟩
  · rw [rank]
    have : l.countP (fun i => decide (i < 0)) = 0 := by
      rw [List.countP_eq_zero]; intro i _; simp
    rw [this]; simp
  · rintro j hj
    rw [rank, rank, countP_succ hinc]
    by_cases hm : j ∈ l
    · have := hlt j hm
      rw [if_pos hm]; omega
    · rw [if_neg hm]
      rcases hj with hj | hj
      · exact absurd hj hm
      · omega
  · intro j hj
    have h1 : j ∉ l := fun hm => hj (Or.inl hm)
    have h2 : ¬ lines.length ≤ j := fun hm => hj (Or.inr hm)
    rw [rank, rank, countP_succ hinc, if_neg h1]
    omega
  · intro k
    rcases Nat.lt_or_ge k l.length with hk | hk
    · have hmem : l.getD k 0 ∈ l := by
        rw [List.getD_eq_getElem?_getD, List.getElem?_eq_getElem hk]; exact List.getElem_mem hk
      refine ⟨l.getD k 0, Or.inl hmem, ?_⟩
      rw [rank, countP_getD hinc hk]
      have := hlt _ hmem
      omega
    · refine ⟨lines.length + (k - l.length), Or.inr (by omega), ?_⟩
      rw [rank, countP_full hlt (by omega)]
      omega
  · rintro j (hj | hj)
    · obtain ⟨h1, h2⟩ := getD_countP hinc hj
      have h3 := hlt j hj
      have hr : rank l lines.length j = l.countP (fun i => decide (i < j)) := by
        rw [rank]; omega
      rw [hr]
      generalize l.countP (fun i => decide (i < j)) = c at h1 h2
      rw [lineAt, List.getD_eq_getElem?_getD, List.getElem?_map, List.getElem?_eq_getElem h1]
      rw [List.getD_eq_getElem?_getD, List.getElem?_eq_getElem h1, Option.getD_some] at h2
      simp [h2]
    · rw [rank, countP_full hlt hj, lineAt, lineAt, List.getD_eq_getElem?_getD,
        List.getD_eq_getElem?_getD, List.getElem?_eq_none (by rw [List.length_map]; omega),
        List.getElem?_eq_none (by omega)]
      rfl
  · intro j hj
    have h1 : j ∉ l := fun hm => hj (Or.inl hm)
    have h2 : ¬ lines.length ≤ j := fun hm => hj (Or.inr hm)
    exact hdrop j (by omega) h1

/-- What a parse keeps, as a thinning of its input. -/
theorem thin_of {o : Opts} {lines : List Str} {P : Parsed} (h : bootstrap o lines = .ok P) :
    Thin (lineAt lines) (lineAt P.texts) (fun j => j ∈ P.list ∨ lines.length ≤ j)
      (rank P.list lines.length) := by
  refine thin_gen (list_increasing h) (fun i hi => ((mem_list h).mp hi).1) (by rw [texts_eq h]) ?_
  intro j hj hn
  by_cases hb : Spec.blank (lineAt lines j)
  · exact hb
  · exact absurd ((mem_list h).mpr ⟨hj, Or.inr (Or.inl hb)⟩) hn

end Conf

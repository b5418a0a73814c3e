import Verif.Diff.Spec
import Verif.Query.Lemmas
import Verif.Misc.Lemmas

/-! # The texts that `HDiff` compares -/

namespace Diff

open Py Conf Query

theorem splitWs_blank {ws : Str} (h : ∀ c ∈ ws, isSpace c = true) : splitWs ws = [] := by
  have := splitWs_spaces ws [] h
  rw [List.append_nil] at this
  rw [this]; rfl

theorem splitWs_word_rest {w : Str} (h : IsWord w) {rest : Str}
    (hr : ∀ c, rest.head? = some c → isSpace c = true) : splitWs (w ++ rest) = w :: splitWs rest := by
  cases rest with
  | nil => rw [List.append_nil, splitWs_word h]; rfl
  | cons x r =>
    have hx := hr x rfl
    rw [splitWs_word_space h hx]
    have := splitWs_spaces [x] r (by intro c hc; rw [List.mem_singleton.mp hc]; exact hx)
    rw [List.singleton_append] at this
    rw [this]

theorem words_eq {t : Str} {l : List Str} (h : Spec.Words t l) : splitWs t = l := by
  induction h with
  | nil hw => exact splitWs_blank hw
  | cons hw h1 h2 h3 _ ih =>
    rw [List.append_assoc, splitWs_spaces _ _ hw, splitWs_word_rest ⟨h1, h2⟩ h3, ih]

/-- A text is blanks, then a word (or nothing), then the rest. -/
theorem word_split (t : Str) : (∀ c ∈ t, isSpace c = true) ∨
    ∃ ws w rest, t = ws ++ w ++ rest ∧ (∀ c ∈ ws, isSpace c = true) ∧ IsWord w ∧
      (∀ c, rest.head? = some c → isSpace c = true) := by
  have h1 := List.takeWhile_append_dropWhile (p := isSpace) (l := t)
  cases hd : t.dropWhile isSpace with
  | nil =>
    left
    rw [hd, List.append_nil] at h1
    intro c hc
    rw [← h1] at hc
    exact of_mem_takeWhile hc
  | cons x r =>
    right
    have hx : isSpace x = false := by
      have := List.head?_dropWhile_not isSpace t
      rw [hd] at this
      simpa using this
    have h2 := List.takeWhile_append_dropWhile (p := fun c => !isSpace c) (l := x :: r)
    refine ⟨t.takeWhile isSpace, (x :: r).takeWhile (fun c => !isSpace c),
      (x :: r).dropWhile (fun c => !isSpace c), ?_, fun c hc => of_mem_takeWhile hc, ⟨?_, ?_⟩, ?_⟩
    · rw [List.append_assoc, h2, ← hd, h1]
    · rw [List.takeWhile_cons, hx]; simp
    · intro c hc
      have := of_mem_takeWhile hc
      simpa using this
    · intro c hc
      have := List.head?_dropWhile_not (fun c => !isSpace c) (x :: r)
      rw [hc] at this
      simpa using this

theorem words_of : ∀ (n : Nat) (t : Str), t.length ≤ n → Spec.Words t (splitWs t)
  | 0, t, h => by
    have : t = [] := List.eq_nil_of_length_eq_zero (by omega)
    subst this
    exact .nil (fun c hc => by simp at hc)
  | n + 1, t, h => by
    rcases word_split t with hb | ⟨ws, w, rest, rfl, h1, h2, h3⟩
    · rw [splitWs_blank hb]; exact .nil hb
    · rw [List.append_assoc, splitWs_spaces _ _ h1, splitWs_word_rest h2 h3, ← List.append_assoc]
      refine .cons h1 h2.1 h2.2 h3 (words_of n rest ?_)
      have : w.length ≠ 0 := fun h => h2.1 (List.eq_nil_of_length_eq_zero h)
      simp only [List.length_append] at h
      omega

theorem words_iff (t : Str) (l : List Str) : Spec.Words t l ↔ l = splitWs t :=
  ⟨fun h => (words_eq h).symm, fun h => h ▸ words_of _ t (Nat.le_refl _)⟩

theorem join_ne_nil {l : List Str} (hl : l ≠ []) (h : ∀ w ∈ l, IsWord w) : join [' '] l ≠ [] := by
  cases l with
  | nil => exact absurd rfl hl
  | cons w l =>
    have := (h w (by simp)).1
    cases l with
    | nil => rw [join]; exact this
    | cons v l => rw [join]; simp

theorem join_last : ∀ {l : List Str}, (∀ w ∈ l, IsWord w) → ∀ c, (join [' '] l).getLast? = some c →
    isSpace c = false
  | [], _, c, hc => by simp [join] at hc
  | [w], h, c, hc => by
    rw [join] at hc
    exact (h w (by simp)).2 c (List.mem_of_getLast? hc)
  | w :: v :: l, h, c, hc => by
    rw [join, List.getLast?_append] at hc
    have hne := join_ne_nil (l := v :: l) (by simp) (fun u hu => h u (List.mem_cons_of_mem _ hu))
    cases hg : (join [' '] (v :: l)).getLast? with
    | none => exact absurd (List.getLast?_eq_none_iff.mp hg) hne
    | some d =>
      rw [hg] at hc
      simp only [Option.some_or, Option.some.injEq] at hc
      rw [← hc]
      exact join_last (fun u hu => h u (List.mem_cons_of_mem _ hu)) d hg

/-- The first character is the same. -/
theorem join_splitWs_head {s : Str} (hs : ∀ c, s.head? = some c → isSpace c = false) :
    (join [' '] (splitWs s)).head? = s.head? := by
  rcases word_split s with hb | ⟨ws, w, rest, rfl, h1, h2, h3⟩
  · cases s with
    | nil => rfl
    | cons c r =>
      have := hs c rfl
      rw [hb c (by simp)] at this; cases this
  · have hws : ws = [] := by
      cases ws with
      | nil => rfl
      | cons c r =>
        have := hs c rfl
        rw [h1 c (by simp)] at this; cases this
    subst hws
    rw [List.nil_append, splitWs_word_rest h2 h3]
    cases w with
    | nil => exact absurd rfl h2.1
    | cons c w =>
      cases splitWs rest with
      | nil => rfl
      | cons v l => rfl

/-- The normal form of a text without trailing blanks. -/
def norm (t : Str) : Str := spaces (Conf.Spec.indent t) ++ join [' '] (splitWs t)

theorem norm_iff (t u : Str) : Spec.Norm t u ↔ u = norm t := by
  rw [Spec.Norm, norm]
  constructor
  · rintro ⟨l, h1, h2⟩
    rw [h2, (words_iff t l).mp h1]; rfl
  · intro h
    exact ⟨_, (words_iff t _).mpr rfl, h⟩

theorem spaces_space (n : Nat) : ∀ c ∈ spaces n, isSpace c = true := by
  intro c hc
  rw [List.eq_of_mem_replicate hc]; decide

theorem indent_nil : Conf.Spec.indent [] = 0 := rfl

theorem splitWs_strip {t : Str} (ht : rstrip t = t) : splitWs (strip t) = splitWs t := by
  rw [strip, ht, splitWs_lstrip]

section
variable {t : Str} (ht : rstrip t = t)
include ht

/-- No words, or the normal form ends with a word. -/
theorem norm_cases : norm t = [] ∨ (splitWs t ≠ [] ∧ rstrip (norm t) = norm t) := by
  by_cases h : splitWs t = []
  · left
    have hb : Conf.Spec.blank t := by
      have := words_of _ t (Nat.le_refl _)
      rw [h] at this
      cases this with
      | nil hb => exact hb
    rw [norm, h, Conf.indent_blank hb]; rfl
  · right
    refine ⟨h, ?_⟩
    have hw := splitWs_words t
    refine rstrip_of_last (fun c hc => ?_)
    rw [norm, List.getLast?_append] at hc
    cases hg : (join [' '] (splitWs t)).getLast? with
    | none => exact absurd (List.getLast?_eq_none_iff.mp hg) (join_ne_nil h hw)
    | some d =>
      rw [hg] at hc
      simp only [Option.some_or, Option.some.injEq] at hc
      rw [← hc]
      exact join_last hw d hg

theorem norm_rstrip : rstrip (norm t) = norm t := by
  rcases norm_cases ht with h | h
  · rw [h]; rfl
  · exact h.2

omit ht in
theorem lstrip_norm : lstrip (norm t) = join [' '] (splitWs t) := by
  rw [norm]
  refine lstrip_pre (spaces_space _) ?_
  exact Misc.join_head (splitWs_words t)

theorem norm_indent : lineIndent (norm t) = Conf.Spec.indent t := by
  rw [lineIndent, norm_rstrip ht, lstrip_norm, norm, List.length_append, spaces,
    List.length_replicate]
  omega

theorem norm_words : splitWs (strip (norm t)) = splitWs t := by
  rw [strip, norm_rstrip ht, lstrip_norm, splitWs_join _ (splitWs_words t)]

omit ht in
theorem norm_head : (lstrip (norm t)).head? = (lstrip t).head? := by
  rw [lstrip_norm, ← splitWs_lstrip]
  refine join_splitWs_head (fun c hc => ?_)
  have := List.head?_dropWhile_not isSpace t
  rw [lstrip] at hc
  rw [hc] at this
  simpa using this

omit ht in
theorem norm_comment (ds : List Char) : isCommentText ds (norm t) = isCommentText ds t := by
  have h := norm_head (t := t)
  rw [isCommentText, isCommentText]
  cases h1 : lstrip (norm t) with
  | nil =>
    cases h2 : lstrip t with
    | nil => rfl
    | cons c r => rw [h1, h2] at h; cases h
  | cons d s =>
    cases h2 : lstrip t with
    | nil => rw [h1, h2] at h; cases h
    | cons c r =>
      rw [h1, h2] at h
      simp only [List.head?_cons, Option.some.injEq] at h
      rw [h]

/-- The first character of the normal form is a blank or the first character. -/
theorem norm_first {c : Char} (hc : (norm t).head? = some c) :
    isSpace c = true ∨ t.head? = some c := by
  by_cases h0 : Conf.Spec.indent t = 0
  · right
    have h1 := norm_head (t := t)
    have hls : lstrip t = t := by
      rw [lstrip]
      cases t with
      | nil => rfl
      | cons x r =>
        rw [Conf.Spec.indent, ht, List.takeWhile_cons] at h0
        split at h0
        · simp at h0
        · rename_i hx
          rw [List.dropWhile_cons, if_neg hx]
    rw [lstrip_norm] at h1
    rw [norm, h0] at hc
    rw [← hls, ← h1]
    simpa [spaces] using hc
  · left
    rw [norm] at hc
    cases hk : Conf.Spec.indent t with
    | zero => exact absurd hk h0
    | succ k =>
      rw [hk] at hc
      simp only [spaces, List.replicate_succ, List.cons_append, List.head?_cons, Option.some.injEq] at hc
      rw [← hc]; decide

end

end Diff

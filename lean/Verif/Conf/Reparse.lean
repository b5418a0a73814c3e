import Verif.Conf.Thin

/-! # Parsing the kept lines again -/

namespace Conf

open Py

section
variable {o : Opts} {lines : List Str} {P : Parsed} (h : bootstrap o lines = .ok P)
include h

theorem rank_lt {j : Nat} (hj : j ∈ P.list) : rank P.list lines.length j < P.list.length := by
  have h1 := (getD_countP (list_increasing h) hj).1
  have h2 := ((mem_list h).mp hj).1
  rw [rank]; omega

theorem rank_getD {k : Nat} (hk : k < P.list.length) :
    P.list.getD k 0 ∈ P.list ∧ rank P.list lines.length (P.list.getD k 0) = k := by
  have hmem : P.list.getD k 0 ∈ P.list := by
    rw [List.getD_eq_getElem?_getD, List.getElem?_eq_getElem hk]; exact List.getElem_mem hk
  refine ⟨hmem, ?_⟩
  have := ((mem_list h).mp hmem).1
  rw [rank, countP_getD (list_increasing h) hk]; omega

theorem getD_rank {j : Nat} (hj : j ∈ P.list) : P.list.getD (rank P.list lines.length j) 0 = j := by
  have h1 := (getD_countP (list_increasing h) hj).2
  have h2 := ((mem_list h).mp hj).1
  rw [rank, show j - lines.length = 0 by omega, Nat.add_zero]; exact h1

omit h in
theorem texts_length : P.texts.length = P.list.length := by rw [Parsed.texts, List.length_map]

/-- Taking blank lines out of a text that parses leaves a text that parses. -/
theorem reparse_gen {M : List Str} {keep : Nat → Prop} {ψ : Nat → Nat}
    (S : Thin (lineAt lines) (lineAt M) keep ψ)
    (hlen : ∀ j, j < lines.length → keep j → ψ j < M.length) : ∃ P', bootstrap o M = .ok P' := by
  cases hb : bootstrap o M with
  | ok P' => exact ⟨P', rfl⟩
  | error e =>
    exfalso
    rcases bootstrap_error hb with ⟨_, j, hj, hc, hn⟩ | ⟨_, ho, p, hp, hmac, hn⟩
    · obtain ⟨i, hi, rfl⟩ := S.surj j
      rw [S.text i hi, Thin.closes_rstrip] at hc
      by_cases hex : ∃ p, Spec.Matches (lineAt lines) p i
      · obtain ⟨p, hp⟩ := hex
        exact hn _ (S.matches_to hp)
      · have hi' : i < lines.length := by
          rcases Nat.lt_or_ge i lines.length with h1 | h1
          · exact h1
          · refine absurd ?_ (Thin.closes_not_blank hc)
            rw [lineAt, List.getD_eq_getElem?_getD, List.getElem?_eq_none h1]
            intro c hc; simp at hc
        obtain ⟨e, he⟩ := bootstrap_isError o lines (Or.inl ⟨i, hi', hc, fun p hp => hex ⟨p, hp⟩⟩)
        rw [h] at he; cases he
    · obtain ⟨i, hi, rfl⟩ := S.surj p
      rw [S.text i hi] at hmac
      have hmac' : "macro name ".toList <+: lineAt lines i := by
        obtain ⟨ws, hw, _⟩ := rstrip_eq_append (lineAt lines i)
        rw [hw]
        exact hmac.trans (List.prefix_append _ _)
      by_cases hex : ∃ q, i < q ∧ q < lines.length ∧ Spec.atLine (lineAt lines q)
      · obtain ⟨q, q1, q2, q3⟩ := hex
        have hq : keep q := S.keep_of (fun hbl => by
          rw [← blank_rstrip_iff, q3] at hbl
          exact absurd (hbl '@' (by decide)) (by decide))
        refine hn _ (S.strict hi q1) (hlen q q2 hq) ?_
        rw [Spec.atLine, S.text q hq, rstrip_rstrip]
        exact q3
      · have hi' : i < lines.length := by
          rcases Nat.lt_or_ge i lines.length with h1 | h1
          · exact h1
          · refine absurd ?_ (not_blank_macro hmac')
            rw [lineAt, List.getD_eq_getElem?_getD, List.getElem?_eq_none h1]
            intro c hc; simp at hc
        obtain ⟨e, he⟩ := bootstrap_isError o lines
          (Or.inr ⟨ho, i, hi', hmac', fun q h1 h2 h3 => hex ⟨q, h1, h2, h3⟩⟩)
        rw [h] at he; cases he

/-- Any text that only adds empty lines at the end of the kept lines parses. -/
theorem reparse_ok {M : List Str} (hM : lineAt M = lineAt P.texts) (hlen : P.list.length ≤ M.length) :
    ∃ P', bootstrap o M = .ok P' := by
  have S := thin_of h
  rw [← hM] at S
  refine reparse_gen h S ?_
  rintro j hj (hk | hk)
  · exact Nat.lt_of_lt_of_le (rank_lt h hk) hlen
  · omega

variable (hm : ∀ j, "macro name ".toList <+: lineAt lines j → "macro name ".toList <+: rstrip (lineAt lines j))
include hm

/-- Every kept line is kept again. -/
theorem reparse_keeps {M : List Str} (hM : lineAt M = lineAt P.texts) (hlen : P.list.length ≤ M.length)
    {P' : Parsed} (h' : bootstrap o M = .ok P') {k : Nat} (hk : k < P.list.length) : k ∈ P'.list := by
  have S := thin_of h
  obtain ⟨h1, h2⟩ := rank_getD h hk
  rw [mem_list h', hM]
  refine ⟨by omega, ?_⟩
  have h3 := ((mem_list h).mp h1).2
  generalize P.list.getD k 0 = j at h1 h2 h3
  subst h2
  rcases h3 with h3 | h3 | ⟨p, hp⟩ | ⟨p, hp⟩
  · exact Or.inl h3
  · refine Or.inr (Or.inl ?_)
    rw [S.text j (Or.inl h1), blank_rstrip_iff]
    exact h3
  · exact Or.inr (Or.inr (Or.inl ⟨_, (S.banners_iff (S.banner_head hp.2)).mpr hp⟩))
  · exact Or.inr (Or.inr (Or.inr ⟨_, (S.macros_iff hm (S.macro_head hp.2)).mpr hp⟩))

omit hm

theorem rstrip_texts {k : Nat} : rstrip (lineAt P.texts k) = lineAt P.texts k := by
  rw [lineAt, texts_eq h, List.getD_eq_getElem?_getD, List.getElem?_map]
  cases P.list[k]? with
  | none => rfl
  | some i => simp only [Option.map_some, Option.getD_some]; exact rstrip_rstrip _

include hm

/-- A commit keeps every line. -/
theorem commit_list {P' : Parsed} (h' : bootstrap o P.texts = .ok P') :
    P'.list = List.range P.list.length := by
  obtain ⟨_, _, _, hl, _⟩ := bootstrap_ok h'
  rw [texts_length] at hl
  rw [hl, List.filter_eq_self]
  intro i hi
  have := reparse_keeps h hm rfl (by rw [texts_length]; exact Nat.le_refl _) h' (List.mem_range.mp hi)
  rw [hl] at this
  exact (List.mem_filter.mp this).2

theorem commit_texts {P' : Parsed} (h' : bootstrap o P.texts = .ok P') : P'.texts = P.texts := by
  rw [texts_eq h', commit_list h hm h']
  refine List.ext_getElem (by rw [List.length_map, List.length_range, texts_length]) ?_
  intro i h1 h2
  rw [List.getElem_map, List.getElem_range, rstrip_texts h, lineAt, List.getD_eq_getElem?_getD,
    List.getElem?_eq_getElem h2, Option.getD_some]

variable (hc : ∀ j, Spec.comment o.delims (lineAt lines (j + 1)) → j ∈ P.list ∨ lines.length ≤ j)
include hc

theorem commit_parent {P' : Parsed} (h' : bootstrap o P.texts = .ok P') {k : Nat} (hk : k < P.list.length) :
    P.list.getD (P'.h k).parent 0 = (P.h (P.list.getD k 0)).parent := by
  have S := thin_of h
  obtain ⟨h1, h2⟩ := rank_getD h hk
  generalize P.list.getD k 0 = j at h1 h2
  subst h2
  have hp := parent_listed h h1
  have h3 := S.parent hc hm (Or.inl hp) (Or.inl h1) (parent_spec h ((mem_list h).mp h1).1)
  have h4 := parent_spec h' (j := rank P.list lines.length j) (by rw [texts_length]; exact hk)
  rw [parent_unique h4 h3, getD_rank h hp]

omit h hm hc in
theorem increasing_ext {a b : List Nat} (ha : Spec.Increasing a) (hb : Spec.Increasing b)
    (hab : ∀ i, i ∈ a ↔ i ∈ b) : a = b := by
  induction a generalizing b with
  | nil =>
    cases b with
    | nil => rfl
    | cons y b => exact absurd ((hab y).mpr (by simp)) (by simp)
  | cons x a ih =>
    cases b with
    | nil => exact absurd ((hab x).mp (by simp)) (by simp)
    | cons y b =>
      rw [Spec.Increasing, List.pairwise_cons] at ha hb
      have hxy : x = y := by
        rcases List.mem_cons.mp ((hab x).mp (by simp)) with h1 | h1
        · exact h1
        · rcases List.mem_cons.mp ((hab y).mpr (by simp)) with h2 | h2
          · exact h2.symm
          · have := hb.1 x h1; have := ha.1 y h2; omega
      subst hxy
      congr 1
      refine ih ha.2 hb.2 (fun i => ?_)
      constructor
      · intro hi
        rcases List.mem_cons.mp ((hab i).mp (by simp [hi])) with h1 | h1
        · have := ha.1 i hi; omega
        · exact h1
      · intro hi
        rcases List.mem_cons.mp ((hab i).mpr (by simp [hi])) with h1 | h1
        · have := hb.1 i hi; omega
        · exact h1

omit hm hc in
theorem part_eq {A A' : List Nat} (hA : Spec.Increasing A) (hA' : Spec.Increasing A')
    (hl : ∀ i ∈ A, i ∈ P.list)
    (hiff : ∀ i ∈ P.list, rank P.list lines.length i ∈ A' ↔ i ∈ A) (hr : ∀ k ∈ A', k < P.list.length) :
    A'.map (fun k => P.list.getD k 0) = A := by
  have hinc := list_increasing h
  refine increasing_ext ?_ hA (fun i => ?_)
  · rw [Spec.Increasing, List.pairwise_map]
    refine List.Pairwise.imp_of_mem ?_ hA'
    intro a b ha hb hab
    have h1 := hr a ha
    have h2 := hr b hb
    rw [List.getD_eq_getElem?_getD, List.getD_eq_getElem?_getD, List.getElem?_eq_getElem h1,
      List.getElem?_eq_getElem h2]
    exact List.pairwise_iff_getElem.mp hinc a b h1 h2 hab
  · rw [List.mem_map]
    constructor
    · rintro ⟨k, hk, rfl⟩
      obtain ⟨h1, h2⟩ := rank_getD h (hr k hk)
      exact (hiff _ h1).mp (by rw [h2]; exact hk)
    · intro hi
      have hi' := hl i hi
      exact ⟨_, (hiff i hi').mpr hi, getD_rank h hi'⟩

theorem commit_children {P' : Parsed} (h' : bootstrap o P.texts = .ok P') {k : Nat}
    (hk : k < P.list.length) :
    (P'.h k).children.map (fun i => P.list.getD i 0) = (P.h (P.list.getD k 0)).children := by
  have S := thin_of h
  obtain ⟨h1, h2⟩ := rank_getD h hk
  generalize P.list.getD k 0 = j at h1 h2
  subst h2
  have hj := ((mem_list h).mp h1).1
  have hlist := fun {i} => children_listed h (i := i) hj
  have hjm : rank P.list lines.length j < P.texts.length := by rw [texts_length]; exact hk
  have hrange := fun {i} => children_range h' (i := i) hjm
  obtain ⟨A, B, C, he, ⟨iA, hA⟩, ⟨iB, hB⟩, ⟨iC, hC⟩⟩ := children_spec h hj
  obtain ⟨A', B', C', he', ⟨iA', hA'⟩, ⟨iB', hB'⟩, ⟨iC', hC'⟩⟩ := children_spec h' hjm
  rw [he', he, List.map_append, List.map_append]
  rw [he] at hlist
  rw [he', texts_length] at hrange
  have hlt : ∀ i ∈ P.list, rank P.list lines.length i < P.texts.length := fun i hi => by
    rw [texts_length]; exact rank_lt h hi
  congr 1
  · congr 1
    · refine part_eq h iA iA' (fun i hi => hlist (by simp [hi])) (fun i hi => ?_)
        (fun i hi => (hrange (by simp [hi])).2)
      rw [hA', hA, S.rule_iff hc (Or.inl h1) (Or.inl hi)]
      have hne : rank P.list lines.length i = rank P.list lines.length j ↔ i = j :=
        ⟨S.inj (Or.inl hi) (Or.inl h1), fun hij => by rw [hij]⟩
      rw [Ne, Ne, hne]
      have := hlt i hi
      have := ((mem_list h).mp hi).1
      constructor
      · rintro ⟨_, h3⟩; exact ⟨by assumption, h3⟩
      · rintro ⟨_, h3⟩; exact ⟨by assumption, h3⟩
    · refine part_eq h iB iB' (fun i hi => hlist (by simp [hi])) (fun i hi => ?_)
        (fun i hi => (hrange (by simp [hi])).2)
      rw [hB', hB, S.banners_iff (Or.inl h1)]
      have := hlt i hi
      have := ((mem_list h).mp hi).1
      constructor
      · rintro ⟨_, h3⟩; exact ⟨by assumption, h3⟩
      · rintro ⟨_, h3⟩; exact ⟨by assumption, h3⟩
  · refine part_eq h iC iC' (fun i hi => hlist (by simp [hi])) (fun i hi => ?_)
      (fun i hi => (hrange (by simp [hi])).2)
    rw [hC', hC, S.macros_iff hm (Or.inl h1)]
    have := hlt i hi
    have := ((mem_list h).mp hi).1
    constructor
    · rintro ⟨_, h3⟩; exact ⟨by assumption, h3⟩
    · rintro ⟨_, h3⟩; exact ⟨by assumption, h3⟩

end

end Conf

import Verif.Conf.Braces

/-! # Lemmas: banner and macro lines in terms of the text, and the objects a parse returns -/

namespace Conf

open Py

/-! ## Banner heads -/

theorem eatSets_spec : ∀ (f : Nat) (s : Str), ∃ sets, Spec.Sets sets ∧ s = sets ++ eatSets f s
  | 0, s => ⟨[], .nil, rfl⟩
  | f + 1, s => by
    rw [eatSets.eq_def]
    dsimp only
    split
    · rename_i c r
      split
      · rename_i hc
        obtain ⟨sets, h1, h2⟩ := eatSets_spec f (lstrip r)
        have hsplit := List.takeWhile_append_dropWhile (p := isSpace) (l := r)
        refine ⟨"set".toList ++ (c :: r.takeWhile isSpace) ++ sets,
          .cons (by simp) ?_ h1, ?_⟩
        · intro x hx
          rcases List.mem_cons.mp hx with hx | hx
          · rw [hx]; exact hc
          · exact of_mem_takeWhile hx
        · rw [List.append_assoc, ← h2, lstrip]
          show 's' :: 'e' :: 't' :: c :: r = 's' :: 'e' :: 't' :: c ::
            (r.takeWhile isSpace ++ r.dropWhile isSpace)
          rw [hsplit]
      · exact ⟨[], .nil, rfl⟩
    · exact ⟨[], .nil, rfl⟩

theorem sets_head {sets : Str} (h : Spec.Sets sets) (rest : Str) :
    ∀ a, (sets ++ 'b' :: rest).head? = some a → isSpace a = false := by
  cases h with
  | nil => intro a ha; simp at ha; rw [← ha]; decide
  | cons => intro a ha; simp at ha; rw [← ha]; decide

theorem eatSets_of {sets : Str} (h : Spec.Sets sets) : ∀ (f : Nat) (rest : Str),
    (sets ++ 'b' :: rest).length ≤ f → eatSets f (sets ++ 'b' :: rest) = 'b' :: rest := by
  induction h with
  | nil =>
    intro f rest hf
    cases f with
    | zero => simp at hf
    | succ f => simp [eatSets]
  | @cons ws sets hne hws hs ih =>
    intro f rest hf
    cases f with
    | zero => simp at hf
    | succ f =>
      cases ws with
      | nil => exact absurd rfl hne
      | cons c ws =>
        have hc : isSpace c = true := hws c (by simp)
        have e : "set".toList ++ (c :: ws) ++ sets ++ 'b' :: rest =
            's' :: 'e' :: 't' :: c :: (ws ++ (sets ++ 'b' :: rest)) := by simp
        rw [e, eatSets, if_pos hc, lstrip_pre (fun x hx => hws x (by simp [hx])) (sets_head hs rest)]
        refine ih f rest ?_
        rw [e] at hf
        simp at hf ⊢
        omega

theorem isWordChar_iff (c : Char) : isWordChar c = true ↔ Spec.wordChar c := by
  simp [isWordChar, Spec.wordChar, or_assoc]

theorem wordChar_not_space {c : Char} (h : isWordChar c = true) : isSpace c = false := by
  rw [isWordChar_iff] at h
  rcases h with h | h | h
  · exact isLetter_not_space h
  · exact isDigit_not_space h
  · subst h; decide

theorem isInfix_iff (t s : Str) : isInfix t s = true ↔ t <:+: s := by
  induction s with
  | nil => simp [isInfix]
  | cons x xs ih =>
    rw [isInfix, Bool.or_eq_true, ih, List.isPrefixOf_iff_prefix, List.infix_cons_iff]

theorem takeWhile_append_stop {α : Type _} {p : α → Bool} {a : List α} {c : α} {r : List α}
    (ha : ∀ x ∈ a, p x = true) (hc : p c = false) :
    (a ++ c :: r).takeWhile p = a ∧ (a ++ c :: r).dropWhile p = c :: r := by
  induction a with
  | nil => simp [hc]
  | cons x xs ih =>
    obtain ⟨h1, h2⟩ := ih (fun y hy => ha y (by simp [hy]))
    simp [ha x (by simp), h1, h2]

theorem prefix_word {ty word : Str} {c : Char} {r : Str} (hty : ∀ x ∈ ty, isWordChar x = true)
    (hc : isWordChar c = false) : ty <+: word ++ c :: r ↔ ty <+: word := by
  induction ty generalizing word with
  | nil => simp
  | cons x xs ih =>
    cases word with
    | nil =>
      simp only [List.nil_append, List.cons_prefix_cons, List.prefix_nil, List.cons_ne_nil, iff_false]
      rintro ⟨rfl, _⟩
      rw [hty x (by simp)] at hc
      cases hc
    | cons y ys =>
      simp only [List.cons_append, List.cons_prefix_cons]
      rw [ih (fun z hz => hty z (by simp [hz]))]

theorem bannerTypes_word : ∀ ty ∈ bannerTypes, ∀ x ∈ ty, isWordChar x = true := by decide

theorem bannerHead_iff (t : Str) (d : Char) :
    (isBanner t = true ∧ bannerDelim t = some d) ↔ Spec.BannerHead t d := by
  have hty : ∀ w : Str, (∃ ty ∈ ["login", "motd", "incoming", "exec", "telnet", "lcd"],
      ty.toList <+: w) ↔ bannerTypes.any (fun b => b.isPrefixOf w) = true := by
    intro w
    simp only [bannerTypes, List.any_cons, List.any_nil, Bool.or_eq_true, List.isPrefixOf_iff_prefix]
    simp
  have hsp_word : ∀ c, isSpace c = true → isWordChar c = false := by
    intro c hc
    cases h : isWordChar c with
    | false => rfl
    | true => rw [wordChar_not_space h] at hc; cases hc
  constructor
  · rintro ⟨h1, h2⟩
    obtain ⟨sets, hs, ht⟩ := eatSets_spec t.length t
    rw [bannerDelim] at h2
    rw [isBanner, Bool.or_eq_true, isInfix_iff] at h1
    split at h2
    · rename_i c r hb
      rw [hb] at h1 ht
      split at h2
      · rename_i hc
        dsimp only at h2 h1
        split at h2
        · cases h2
        · rename_i hw
          cases hr : r.dropWhile isWordChar with
          | nil => rw [hr] at h2; cases h2
          | cons c' r'' =>
            rw [hr] at h2
            dsimp only at h2
            split at h2
            · rename_i hc'
              have hsplit := List.takeWhile_append_dropWhile (p := isWordChar) (l := r)
              rw [hr] at hsplit
              have hsplit2 := List.takeWhile_append_dropWhile (p := isSpace) (l := r'')
              cases hl : lstrip r'' with
              | nil => rw [hl] at h2; cases h2
              | cons d' rest =>
                rw [hl] at h2
                simp only [List.head?_cons, Option.some.injEq] at h2
                subst h2
                have hd := head?_lstrip r'' d' (by rw [hl]; rfl)
                rw [lstrip] at hl
                rw [hl] at hsplit2
                refine ⟨sets, c, r.takeWhile isWordChar, c' :: r''.takeWhile isSpace, rest, ?_, hs, hc, hw,
                  ?_, by simp, ?_, hd, ?_⟩
                · conv => lhs; rw [ht, ← hsplit, ← hsplit2]
                  simp
                · intro x hx
                  rw [← isWordChar_iff]
                  exact of_mem_takeWhile hx
                · intro x hx
                  rcases List.mem_cons.mp hx with hx | hx
                  · rw [hx]; exact hc'
                  · exact of_mem_takeWhile hx
                · rcases h1 with h1 | h1
                  · left
                    have h1 : (isSpace c && bannerTypes.any (fun b => b.isPrefixOf (lstrip r))) = true := h1
                    rw [Bool.and_eq_true] at h1
                    rw [hty]
                    have hlr : lstrip r = r := by
                      refine lstrip_of_head ?_
                      intro a ha
                      cases htw : r.takeWhile isWordChar with
                      | nil => exact absurd htw hw
                      | cons y ys =>
                        rw [htw] at hsplit
                        rw [← hsplit] at ha
                        simp only [List.cons_append, List.head?_cons, Option.some.injEq] at ha
                        rw [← ha]
                        exact wordChar_not_space (of_mem_takeWhile (l := r) (by rw [htw]; simp))
                    have h1' := h1.2
                    rw [hlr, ← hsplit] at h1'
                    rw [List.any_eq_true] at h1' ⊢
                    obtain ⟨ty, hm, hp⟩ := h1'
                    refine ⟨ty, hm, ?_⟩
                    rw [List.isPrefixOf_iff_prefix, prefix_word (bannerTypes_word ty hm)
                      (hsp_word c' hc')] at hp
                    rwa [List.isPrefixOf_iff_prefix]
                  · exact Or.inr h1
            · cases h2
      · cases h2
    · cases h2
  · rintro ⟨sets, c, word, ws, rest, ht, hs, hc, hwne, hw, hwsne, hws, hd, hor⟩
    cases ws with
    | nil => exact absurd rfl hwsne
    | cons c' ws =>
      have hc' : isSpace c' = true := hws c' (by simp)
      have ht' : t = sets ++ 'b' :: ("anner".toList ++ c :: (word ++ c' :: (ws ++ d :: rest))) := by
        rw [ht]; simp
      have he : eatSets t.length t = 'b' :: 'a' :: 'n' :: 'n' :: 'e' :: 'r' :: c ::
          (word ++ c' :: (ws ++ d :: rest)) := by
        conv => lhs; rw [ht']
        rw [eatSets_of hs _ _ (Nat.le_refl _)]
        rfl
      have hw' : ∀ x ∈ word, isWordChar x = true := fun x hx => (isWordChar_iff x).mpr (hw x hx)
      obtain ⟨htw, hdw⟩ := takeWhile_append_stop (r := ws ++ d :: rest) hw' (hsp_word c' hc')
      have hlr : lstrip (word ++ c' :: (ws ++ d :: rest)) = word ++ c' :: (ws ++ d :: rest) := by
        refine lstrip_of_head ?_
        intro a ha
        cases word with
        | nil => exact absurd rfl hwne
        | cons y ys =>
          simp only [List.cons_append, List.head?_cons, Option.some.injEq] at ha
          rw [← ha]; exact wordChar_not_space (hw' y (by simp))
      refine ⟨?_, ?_⟩
      · rw [isBanner, he, Bool.or_eq_true, isInfix_iff]
        rcases hor with h | h
        · left
          rw [hty] at h
          show (isSpace c && bannerTypes.any (fun b => b.isPrefixOf
            (lstrip (word ++ c' :: (ws ++ d :: rest))))) = true
          rw [Bool.and_eq_true, hlr]
          refine ⟨hc, ?_⟩
          rw [List.any_eq_true] at h ⊢
          obtain ⟨ty, hm, hp⟩ := h
          refine ⟨ty, hm, ?_⟩
          rw [List.isPrefixOf_iff_prefix] at hp ⊢
          exact hp.trans (List.prefix_append _ _)
        · exact Or.inr h
      · rw [bannerDelim, he]
        show (if isSpace c = true then
          if (word ++ c' :: (ws ++ d :: rest)).takeWhile isWordChar = [] then none
          else match (word ++ c' :: (ws ++ d :: rest)).dropWhile isWordChar with
            | c' :: r'' => if isSpace c' then (lstrip r'').head? else none
            | [] => none
          else none) = some d
        rw [if_pos hc, htw, hdw, if_neg hwne]
        dsimp only
        rw [if_pos hc', lstrip_pre (fun x hx => hws x (by simp [hx]))
          (by intro a ha; simp at ha; rwa [← ha])]
        rfl

theorem splitOn_length (d : Char) (t : Str) : (splitOn d t).length = t.count d + 1 := by
  induction t with
  | nil => simp [splitOn]
  | cons x xs ih =>
    rw [splitOn]
    split
    · rename_i h; subst h
      simp [ih]
    · rename_i h
      rw [List.count_cons]
      have hx : (x == d) = false := by simpa using h
      simp only [hx, Bool.false_eq_true, if_false]
      cases hs : splitOn d xs with
      | nil => rw [hs] at ih; simp at ih
      | cons a b => rw [hs] at ih; simpa using ih

theorem closedOnLine_false (d : Char) (t : Str) : closedOnLine d t = false ↔ t.count d ≤ 1 := by
  rw [closedOnLine, splitOn_length]
  simp

theorem mem_rstrip_iff {d : Char} (hd : isSpace d = false) (t : Str) : d ∈ rstrip t ↔ d ∈ t := by
  obtain ⟨ws, hs, hw⟩ := rstrip_eq_append t
  constructor
  · intro h; rw [hs, List.mem_append]; exact Or.inl h
  · intro h
    rw [hs, List.mem_append] at h
    rcases h with h | h
    · exact h
    · rw [hw d h] at hd; cases hd

theorem mem_lstrip_iff {d : Char} (hd : isSpace d = false) (t : Str) : d ∈ lstrip t ↔ d ∈ t := by
  have hsplit := List.takeWhile_append_dropWhile (p := isSpace) (l := t)
  constructor
  · intro h; rw [← hsplit, List.mem_append]; exact Or.inr h
  · intro h
    rw [← hsplit, List.mem_append] at h
    rcases h with h | h
    · rw [of_mem_takeWhile h] at hd; cases hd
    · exact h

theorem mem_strip_iff {d : Char} (hd : isSpace d = false) (t : Str) : d ∈ strip t ↔ d ∈ t := by
  rw [strip, mem_lstrip_iff hd, mem_rstrip_iff hd]

theorem bannerHead_not_space {t : Str} {d : Char} (h : Spec.BannerHead t d) : isSpace d = false := by
  obtain ⟨_, _, _, _, _, _, _, _, _, _, _, _, hd, _⟩ := h
  exact hd

/-- The body of a banner line, in terms of the text. -/
theorem mem_bodyOf (L : Nat → Str) (n p i : Nat) (hb : isBanner (rstrip (L p)) = true) :
    i ∈ bodyOf (fun k => rstrip (L k)) n p ↔ Spec.InBanner L p i ∧ i < n := by
  rw [bodyOf]
  constructor
  · intro h
    cases hd : bannerDelim (rstrip (L p)) with
    | none => rw [hd] at h; simp at h
    | some d =>
      rw [hd] at h
      dsimp only at h
      split at h
      · simp at h
      · rename_i hcl
        have hh := (bannerHead_iff _ _).mp ⟨hb, hd⟩
        have hsp := bannerHead_not_space hh
        rw [mem_takeThrough_range] at h
        refine ⟨⟨by omega, d, ⟨hh, ?_⟩, ?_⟩, by omega⟩
        · rw [← closedOnLine_false]; simpa using hcl
        · intro q h1 h2
          have := h.2.2 q (by omega) h2
          rw [decide_eq_false_iff_not, mem_strip_iff hsp, mem_rstrip_iff hsp] at this
          exact this
  · rintro ⟨⟨h1, d, ⟨hh, hcl⟩, hq⟩, hn⟩
    have hsp := bannerHead_not_space hh
    rw [((bannerHead_iff _ _).mpr hh).2]
    dsimp only
    rw [if_neg (by rw [(closedOnLine_false _ _).mpr hcl]; simp), mem_takeThrough_range]
    refine ⟨by omega, by omega, ?_⟩
    intro q h1 h2
    rw [decide_eq_false_iff_not, mem_strip_iff hsp, mem_rstrip_iff hsp]
    exact hq q (by omega) h2

theorem isBanner_of_in {L : Nat → Str} {p i : Nat} (h : Spec.InBanner L p i) :
    isBanner (rstrip (L p)) = true := by
  obtain ⟨_, d, ⟨hh, _⟩, _⟩ := h
  exact ((bannerHead_iff _ _).mpr hh).1

theorem mem_macroOf (L : Nat → Str) (n p i : Nat) (hm : "macro name ".toList <+: L p) :
    i ∈ macroOf (fun k => rstrip (L k)) n p ↔ Spec.InMacro L p i ∧ i < n := by
  rw [macroOf, mem_takeThrough_range]
  constructor
  · rintro ⟨h1, h2, h3⟩
    refine ⟨⟨by omega, hm, ?_⟩, by omega⟩
    intro q h4 h5
    have := h3 q (by omega) h5
    rw [decide_eq_false_iff_not, rstrip_rstrip] at this
    exact this
  · rintro ⟨⟨h1, _, h3⟩, h2⟩
    refine ⟨by omega, by omega, ?_⟩
    intro q h4 h5
    rw [decide_eq_false_iff_not, rstrip_rstrip]
    exact h3 q (by omega) h5

/-! ## The largest of a sorted list -/

theorem find?_reverse_max {f : Nat → Bool} : ∀ {l : List Nat} {a : Nat}, l.Pairwise (· < ·) →
    l.reverse.find? f = some a → f a = true ∧ a ∈ l ∧ ∀ q ∈ l, f q = true → q ≤ a
  | [], a, _, h => by simp at h
  | x :: l, a, hp, h => by
    rw [find?_reverse_cons] at h
    cases hl : l.reverse.find? f with
    | some b =>
      rw [hl] at h
      simp only [Option.some_or, Option.some.injEq] at h
      subst h
      obtain ⟨h1, h2, h3⟩ := find?_reverse_max (List.pairwise_cons.mp hp).2 hl
      refine ⟨h1, List.mem_cons_of_mem _ h2, ?_⟩
      intro q hq hf
      rcases List.mem_cons.mp hq with hq | hq
      · subst hq
        exact Nat.le_of_lt ((List.pairwise_cons.mp hp).1 b h2)
      · exact h3 q hq hf
    | none =>
      rw [hl] at h
      simp only [Option.none_or] at h
      split at h
      · rename_i hf
        simp only [Option.some.injEq] at h
        subst h
        refine ⟨hf, by simp, ?_⟩
        intro q hq hfq
        rcases List.mem_cons.mp hq with hq | hq
        · omega
        · rw [List.find?_eq_none] at hl
          exact absurd hfq (hl q (by simpa using hq))
      · cases h

/-! ## Text of every object -/

theorem addChild_text (h : Heap) (i p j : Nat) : (addChild h i p j).text = (h j).text := by
  rw [addChild]
  split
  · rfl
  · refine And.left (b := _) (show Same _ _ from ?_)
    refine same_upd2 ?_ ?_ j <;> exact fun b => ⟨rfl, rfl, rfl, rfl, rfl⟩

theorem step_text (o : Opts) (s : BS) (t : Str) (j : Nat) (hj : j ≠ s.n) :
    ((step o s t).h j).text = (s.h j).text := by
  have hu : ((upd s.h s.n (fun _ => mkObj o t s.n)) j).text = (s.h j).text := by rw [upd_ne _ _ hj]
  rw [step]
  dsimp only
  split
  · split
    · rw [addChild_text, hu]
    · split
      · rw [addChild_text, hu]
      · exact hu
  · exact hu

theorem indentPass_text_ge (o : Opts) (lines : List Str) (j : Nat) (hj : lines.length ≤ j) :
    ((indentPass o lines).h j).text = [] := by
  have : ∀ (ls : List Str) (s : BS), s.n + ls.length ≤ j → ((ls.foldl (step o) s).h j).text = (s.h j).text := by
    intro ls
    induction ls with
    | nil => intro s _; rfl
    | cons t ts ih =>
      intro s hs
      simp only [List.length_cons] at hs
      rw [List.foldl_cons, ih _ (by rw [step_n]; omega), step_text o s t j (by omega)]
  rw [indentPass, this lines bs0 (by simp [bs0]; omega)]
  rfl

theorem indentPass_text (o : Opts) (lines : List Str) (j : Nat) :
    ((indentPass o lines).h j).text = rstrip (lineAt lines j) := by
  by_cases hj : j < lines.length
  · rw [(indentPass_inv o lines).obj j (by rw [indentPass_n]; exact hj)]
    rfl
  · rw [indentPass_text_ge o lines j (by omega), lineAt, List.getD_eq_getElem?_getD,
      List.getElem?_eq_none (by omega)]
    rfl

/-! ## The whole parse -/

/-- The macro lines the parser looks at. -/
def macros (o : Opts) (lines : List Str) : List Nat := if o.syn = .ios then macroLines lines else []

/-- The banner lines the parser looks at. -/
def banners (o : Opts) (lines : List Str) : List Nat :=
  if o.syn = .junos then [] else bannerLines (fun k => rstrip (lineAt lines k)) lines.length

theorem pairwise_range_filter (n : Nat) (f : Nat → Bool) : ((List.range n).filter f).Pairwise (· < ·) :=
  List.Pairwise.filter f List.pairwise_lt_range

theorem macros_sorted (o : Opts) (lines : List Str) : (macros o lines).Pairwise (· < ·) := by
  rw [macros]; split
  · exact pairwise_range_filter _ _
  · exact List.Pairwise.nil

theorem banners_sorted (o : Opts) (lines : List Str) : (banners o lines).Pairwise (· < ·) := by
  rw [banners]; split
  · exact List.Pairwise.nil
  · exact pairwise_range_filter _ _

theorem nodup_of_sorted {l : List Nat} (h : l.Pairwise (· < ·)) : l.Nodup :=
  h.imp (fun hab => Nat.ne_of_lt hab)

theorem mem_macros (o : Opts) (lines : List Str) (p : Nat) :
    p ∈ macros o lines ↔ o.syn = .ios ∧ p < lines.length ∧ "macro name ".toList <+: lineAt lines p := by
  rw [macros]
  split
  · rename_i h
    rw [macroLines, List.mem_filter, List.mem_range, List.isPrefixOf_iff_prefix]
    simp [h, lineAt]
  · rename_i h; simp [h]

theorem mem_banners (o : Opts) (lines : List Str) (p : Nat) :
    p ∈ banners o lines ↔ o.syn ≠ .junos ∧ p < lines.length ∧ isBanner (rstrip (lineAt lines p)) = true := by
  rw [banners]
  split
  · rename_i h; simp [h]
  · rename_i h
    rw [bannerLines, List.mem_filter, List.mem_range]
    simp [h]

/-- The heap after the closing-brace pass. -/
structure BraceHeap (o : Opts) (lines : List Str) (h : Heap) : Prop where
  text : ∀ j, (h j).text = rstrip (lineAt lines j)
  close : ∀ j, j < lines.length → Spec.closes (lineAt lines j) → ∃ p, Spec.Matches (lineAt lines) p j ∧
    h j = { mkObj o (lineAt lines j) j with parent := p
                                            children := kids o (lineAt lines) lines.length j
                                            childIndent := (h j).childIndent }
  other : ∀ j, j < lines.length → ¬ Spec.closes (lineAt lines j) →
    h j = { mkObj o (lineAt lines j) j with parent := sp o (lineAt lines) j
                                            children := kids o (lineAt lines) lines.length j
                                            childIndent := (h j).childIndent }

theorem brace_heap (o : Opts) (lines : List Str) :
    (∀ h, bracePass (List.range (indentPass o lines).n) [] (indentPass o lines).h = .ok h →
      BraceHeap o lines h) ∧
    (∀ e, bracePass (List.range (indentPass o lines).n) [] (indentPass o lines).h = .error e →
      e = .valueError ∧ ∃ j, j < lines.length ∧ Spec.closes (lineAt lines j) ∧
        ∀ p, ¬ Spec.Matches (lineAt lines) p j) := by
  have hs := bracePass_spec (L := lineAt lines) (indentPass o lines).n 0 [] (indentPass o lines).h
    (fun i _ _ => indentPass_text o lines i) Spec.Balanced.nil
  rw [← List.range_eq_range'] at hs
  have hn := indentPass_n o lines
  have hobj := (indentPass_inv o lines).obj
  refine ⟨fun h he => ?_, fun e he => ?_⟩
  · obtain ⟨a1, a2⟩ := hs.1 h he
    refine ⟨fun j => ?_, fun j hj hc => ?_, fun j hj hc => ?_⟩
    · by_cases hc : 0 ≤ j ∧ j < 0 + (indentPass o lines).n ∧ Spec.closes (lineAt lines j)
      · obtain ⟨p, _, h2⟩ := a1 j hc.1 hc.2.1 hc.2.2
        rw [h2]; exact indentPass_text o lines j
      · rw [a2 j hc]; exact indentPass_text o lines j
    · obtain ⟨p, h1, h2⟩ := a1 j (by omega) (by omega) hc
      refine ⟨p, h1, ?_⟩
      have := hobj j (by omega)
      rw [h2, this, hn]
    · have h2 := a2 j (fun hh => hc hh.2.2)
      have := hobj j (by omega)
      rw [h2, this, hn]
  · obtain ⟨a1, j, b1, b2, b3, b4⟩ := hs.2 e he
    exact ⟨a1, j, by omega, b3, b4⟩

/-- The objects a successful parse returns. -/
theorem bootstrap_ok {o : Opts} {lines : List Str} {P : Parsed} (h : bootstrap o lines = .ok P) :
    ∃ hb, BraceHeap o lines hb ∧ P.n = lines.length ∧
    P.list = (List.range lines.length).filter (fun i => keepLine o (P.h i)) ∧
    ∀ j, P.h j =
      { hb j with
        parent := (macroOwner (fun k => rstrip (lineAt lines k)) lines.length (macros o lines) j).getD
          ((bannerOwner (fun k => rstrip (lineAt lines k)) lines.length (banners o lines) j).getD
            (hb j).parent)
        children := (hb j).children ++
          (if j ∈ banners o lines then bodyOf (fun k => rstrip (lineAt lines k)) lines.length j else []) ++
          (if j ∈ macros o lines then macroOf (fun k => rstrip (lineAt lines k)) lines.length j else [])
        childIndent := (P.h j).childIndent
        blankKeep := (hb j).blankKeep || decide (j ∈ banners o lines) ||
          (banners o lines).any (fun p => innerOf (fun k => rstrip (lineAt lines k)) lines.length p j) ||
          decide (j ∈ macros o lines) ||
          (macros o lines).any (fun p => decide (j ∈ macroOf (fun k => rstrip (lineAt lines k)) lines.length p)) } := by
  rw [bootstrap] at h
  dsimp only at h
  have hbr := brace_heap o lines
  rw [indentPass_n] at hbr h
  cases h1 : bracePass (List.range lines.length) [] (indentPass o lines).h with
  | error e => rw [h1] at h; cases h
  | ok hb =>
    rw [h1] at h
    refine ⟨hb, hbr.1 hb h1, ?_⟩
    have hT := (hbr.1 hb h1).text
    by_cases hj : o.syn = .junos
    · have e : (Except.ok (ε := Err) { h := hb, n := lines.length, list := (List.range lines.length).filter (fun i => keepLine o (hb i)) }) = .ok P := by
        simpa [hj, bind, Except.bind] using h
      simp only [Except.ok.injEq] at e
      subst e
      refine ⟨rfl, rfl, fun j => ?_⟩
      have e1 : macros o lines = [] := by rw [macros, if_neg (by rw [hj]; decide)]
      have e2 : banners o lines = [] := by rw [banners, if_pos hj]
      rw [e1, e2]
      simp [macroOwner, bannerOwner]
    · have hbs := bannerPass_spec (fun k => rstrip (lineAt lines k)) lines.length hb hT
      have hbanners : bannerLines (fun k => rstrip (lineAt lines k)) lines.length = banners o lines := by
        rw [banners, if_neg hj]
      rw [hbanners] at hbs
      cases h2 : macroPass lines.length (macros o lines) (bannerPass lines.length hb) with
      | error e =>
        exfalso
        rw [macros] at h2
        simp only [bind, Except.bind] at h
        rw [if_neg hj, h2] at h
        cases h
      | ok h' =>
        have h2' := h2
        rw [macros] at h2
        simp only [bind, Except.bind] at h
        rw [if_neg hj, h2] at h
        simp only [Except.ok.injEq] at h
        subst h
        refine ⟨rfl, rfl, fun j => ?_⟩
        have hT2 : ∀ i, (bannerPass lines.length hb i).text = rstrip (lineAt lines i) := by
          intro i; rw [hbs i]; exact hT i
        have := macroPass_ok (fun k => rstrip (lineAt lines k)) lines.length (macros o lines) _ _
          (nodup_of_sorted (macros_sorted o lines)) hT2 h2' j
        dsimp only
        rw [this, hbs j]
        dsimp only
        congr 1
        · split <;> split <;> simp

/-- When a parse fails. -/
theorem bootstrap_error {o : Opts} {lines : List Str} {e : Err} (h : bootstrap o lines = .error e) :
    (e = .valueError ∧ ∃ j, j < lines.length ∧ Spec.closes (lineAt lines j) ∧
        ∀ p, ¬ Spec.Matches (lineAt lines) p j) ∨
    (e = .indexError ∧ o.syn = .ios ∧ ∃ p, p < lines.length ∧ "macro name ".toList <+: lineAt lines p ∧
      ∀ i, p < i → i < lines.length → ¬ Spec.atLine (lineAt lines i)) := by
  rw [bootstrap] at h
  dsimp only at h
  have hbr := brace_heap o lines
  rw [indentPass_n] at hbr h
  cases h1 : bracePass (List.range lines.length) [] (indentPass o lines).h with
  | error e' =>
    rw [h1] at h
    simp only [bind, Except.bind, Except.error.injEq] at h
    subst h
    exact Or.inl (hbr.2 e' h1)
  | ok hb =>
    rw [h1] at h
    simp only [bind, Except.bind] at h
    by_cases hj : o.syn = .junos
    · rw [if_pos hj] at h; cases h
    · rw [if_neg hj] at h
      have hT := (hbr.1 hb h1).text
      have hT2 : ∀ i, (bannerPass lines.length hb i).text = rstrip (lineAt lines i) := by
        intro i; rw [bannerPass_spec _ _ hb hT i]; exact hT i
      have hok := macroPass_isOk (fun k => rstrip (lineAt lines k)) lines.length (macros o lines)
        (bannerPass lines.length hb) (nodup_of_sorted (macros_sorted o lines)) hT2
      have hmac : macroPass lines.length (if o.syn = .ios then macroLines lines else [])
          (bannerPass lines.length hb) = macroPass lines.length (macros o lines)
          (bannerPass lines.length hb) := by rw [macros]
      rw [hmac] at h
      cases h2 : macroPass lines.length (macros o lines) (bannerPass lines.length hb) with
      | ok h' => rw [h2] at h; cases h
      | error e' =>
        rw [h2] at h
        simp only [Except.error.injEq] at h
        subst h
        right
        have hne : ¬ ∃ h', macroPass lines.length (macros o lines) (bannerPass lines.length hb) = .ok h' := by
          rintro ⟨h', hh⟩; rw [h2] at hh; cases hh
        have he := hok.2 hne
        rw [h2] at he
        simp only [Except.error.injEq] at he
        rw [hok.1] at hne
        simp only [Classical.not_forall] at hne
        obtain ⟨p, hp, hno⟩ := hne
        rw [mem_macros] at hp
        refine ⟨he, hp.1, p, hp.2.1, hp.2.2, fun i h1 h2 h3 => hno ⟨i, h1, h2, ?_⟩⟩
        rw [rstrip_rstrip]; exact h3

/-- An unmatched closing line or an unended macro makes the parse fail. -/
theorem bootstrap_isError (o : Opts) (lines : List Str)
    (h : (∃ j, j < lines.length ∧ Spec.closes (lineAt lines j) ∧ ∀ p, ¬ Spec.Matches (lineAt lines) p j) ∨
      (o.syn = .ios ∧ ∃ p, p < lines.length ∧ "macro name ".toList <+: lineAt lines p ∧
        ∀ i, p < i → i < lines.length → ¬ Spec.atLine (lineAt lines i))) :
    ∃ e, bootstrap o lines = .error e := by
  cases hb : bootstrap o lines with
  | error e => exact ⟨e, rfl⟩
  | ok P =>
    exfalso
    rcases h with ⟨j, hj, hc, hm⟩ | ⟨ho, p, hp, hm, hat⟩
    · obtain ⟨hb', h1, _⟩ := bootstrap_ok hb
      obtain ⟨p, hp, _⟩ := h1.close j hj hc
      exact hm p hp
    · rw [bootstrap] at hb
      dsimp only at hb
      have hbr := brace_heap o lines
      rw [indentPass_n] at hbr hb
      cases h1 : bracePass (List.range lines.length) [] (indentPass o lines).h with
      | error e => rw [h1] at hb; cases hb
      | ok hh =>
        rw [h1] at hb
        simp only [bind, Except.bind] at hb
        rw [if_neg (by rw [ho]; decide)] at hb
        have hT := (hbr.1 hh h1).text
        have hT2 : ∀ i, (bannerPass lines.length hh i).text = rstrip (lineAt lines i) := by
          intro i; rw [bannerPass_spec _ _ hh hT i]; exact hT i
        have hok := macroPass_isOk (fun k => rstrip (lineAt lines k)) lines.length (macros o lines)
          (bannerPass lines.length hh) (nodup_of_sorted (macros_sorted o lines)) hT2
        have hmac : macroPass lines.length (if o.syn = .ios then macroLines lines else [])
            (bannerPass lines.length hh) = macroPass lines.length (macros o lines)
            (bannerPass lines.length hh) := by rw [macros]
        rw [hmac] at hb
        cases h2 : macroPass lines.length (macros o lines) (bannerPass lines.length hh) with
        | error e => rw [h2] at hb; cases hb
        | ok h' =>
          obtain ⟨i, i1, i2, i3⟩ := hok.1.mp ⟨h', h2⟩ p ((mem_macros o lines p).mpr ⟨ho, hp, hm⟩)
          rw [rstrip_rstrip] at i3
          exact hat i i1 i2 i3

end Conf

import Verif.Py

/-! # Facts about the Python built-ins of `Verif.Py` -/

namespace Py

/-! ## digits -/

theorem toNat_digitChar {n : Nat} (h : n < 10) : (digitChar n).toNat = 48 + n := by
  have : n = 0 ∨ n = 1 ∨ n = 2 ∨ n = 3 ∨ n = 4 ∨ n = 5 ∨ n = 6 ∨ n = 7 ∨ n = 8 ∨ n = 9 := by omega
  rcases this with h | h | h | h | h | h | h | h | h | h <;> subst h <;> decide

theorem isDigit_digitChar {n : Nat} (h : n < 10) : isDigit (digitChar n) = true := by
  simp only [isDigit, toNat_digitChar h, Bool.and_eq_true, decide_eq_true_eq]; omega

theorem digitVal_digitChar {n : Nat} (h : n < 10) : digitVal (digitChar n) = n := by
  simp only [digitVal, toNat_digitChar h]; omega

theorem natVal_append_single (s : Str) (c : Char) :
    natVal (s ++ [c]) = 10 * natVal s + digitVal c := by
  simp [natVal, List.foldl_append]

theorem natStrAux_spec : ∀ (f n : Nat), n < f →
    natStrAux f n ≠ [] ∧ (∀ c ∈ natStrAux f n, isDigit c = true) ∧ natVal (natStrAux f n) = n := by
  intro f
  induction f with
  | zero => intro n h; omega
  | succ f ih =>
    intro n h
    unfold natStrAux
    by_cases h10 : n < 10
    · simp only [h10, if_true]
      refine ⟨by simp, ?_, ?_⟩
      · intro c hc; simp only [List.mem_singleton] at hc; subst hc; exact isDigit_digitChar h10
      · simp [natVal, digitVal_digitChar h10]
    · simp only [h10, if_false]
      have hlt : n / 10 < f := by omega
      obtain ⟨_, h2, h3⟩ := ih (n / 10) hlt
      have hm : n % 10 < 10 := Nat.mod_lt _ (by omega)
      refine ⟨by simp, ?_, ?_⟩
      · intro c hc
        rcases List.mem_append.1 hc with hc | hc
        · exact h2 c hc
        · simp only [List.mem_singleton] at hc; subst hc; exact isDigit_digitChar hm
      · rw [natVal_append_single, h3, digitVal_digitChar hm]; omega

theorem natStr_ne_nil (n : Nat) : natStr n ≠ [] := (natStrAux_spec (n + 1) n (by omega)).1
theorem natStr_digits (n : Nat) : ∀ c ∈ natStr n, isDigit c = true :=
  (natStrAux_spec (n + 1) n (by omega)).2.1
theorem natVal_natStr (n : Nat) : natVal (natStr n) = n :=
  (natStrAux_spec (n + 1) n (by omega)).2.2

theorem allDigits_natStr (n : Nat) : allDigits (natStr n) = true := by
  simp only [allDigits, Bool.and_eq_true, List.all_eq_true]
  refine ⟨?_, natStr_digits n⟩
  have := natStr_ne_nil n
  cases h : natStr n with
  | nil => exact absurd h this
  | cons a b => rfl

theorem natStr_inj {m n : Nat} (h : natStr m = natStr n) : m = n := by
  rw [← natVal_natStr m, ← natVal_natStr n, h]

/-- Fuel beyond the value does not matter. -/
theorem natStrAux_fuel : ∀ (f g n : Nat), n < f → n < g → natStrAux f n = natStrAux g n := by
  intro f
  induction f with
  | zero => intro g n h; omega
  | succ f ih =>
    intro g n hf hg
    cases g with
    | zero => omega
    | succ g =>
      unfold natStrAux
      by_cases h10 : n < 10
      · simp [h10]
      · simp only [h10, if_false]; rw [ih g (n / 10) (by omega) (by omega)]

theorem natStr_lt10 {n : Nat} (h : n < 10) : natStr n = [digitChar n] := by
  simp [natStr, natStrAux, h]

theorem natStr_ge10 {n : Nat} (h : 10 ≤ n) : natStr n = natStr (n / 10) ++ [digitChar (n % 10)] := by
  have : ¬ n < 10 := by omega
  rw [natStr, natStrAux, if_neg this, natStr,
    natStrAux_fuel n (n / 10 + 1) (n / 10) (by omega) (by omega)]

/-- No leading zero: the first character is `0` only for `0` itself. -/
theorem natStr_head (n : Nat) (hn : n ≠ 0) : (natStr n).head? ≠ some '0' := by
  induction n using Nat.strongRecOn with
  | ind n ih =>
    by_cases h : n < 10
    · rw [natStr_lt10 h]
      intro hc
      simp only [List.head?_cons, Option.some.injEq] at hc
      have := congrArg Char.toNat hc
      rw [toNat_digitChar h] at this
      have h0 : ('0' : Char).toNat = 48 := by decide
      omega
    · rw [natStr_ge10 (by omega)]
      have := ih (n / 10) (by omega) (by omega)
      cases hs : natStr (n / 10) with
      | nil => exact absurd hs (natStr_ne_nil _)
      | cons a b => rw [hs] at this; simpa using this

/-! ## characters -/

theorem isDigit_not_space {c : Char} (h : isDigit c = true) : isSpace c = false := by
  simp only [isDigit, Bool.and_eq_true, decide_eq_true_eq] at h
  have h1 := h.1; have h2 := h.2
  simp only [isSpace, Bool.or_eq_false_iff, Bool.and_eq_false_iff, decide_eq_false_iff_not,
    beq_eq_false_iff_ne]
  omega

theorem isDigit_ne {c d : Char} (h : isDigit c = true) (hd : isDigit d = false) : c ≠ d := by
  intro e; subst e; rw [h] at hd; cases hd

theorem isLetter_not_space {c : Char} (h : isLetter c = true) : isSpace c = false := by
  simp only [isLetter, Bool.or_eq_true, Bool.and_eq_true, decide_eq_true_eq] at h
  simp only [isSpace, Bool.or_eq_false_iff, Bool.and_eq_false_iff, decide_eq_false_iff_not,
    beq_eq_false_iff_ne]
  omega

theorem isLetter_not_digit {c : Char} (h : isLetter c = true) : isDigit c = false := by
  simp only [isLetter, Bool.or_eq_true, Bool.and_eq_true, decide_eq_true_eq] at h
  simp only [isDigit, Bool.and_eq_false_iff, decide_eq_false_iff_not]
  omega

/-! ## strip -/

theorem dropWhile_of_head {α : Type _} {p : α → Bool} {l : List α}
    (h : ∀ a, l.head? = some a → p a = false) : l.dropWhile p = l := by
  cases l with
  | nil => rfl
  | cons a t => simp [List.dropWhile, h a rfl]

theorem lstrip_of_head {s : Str} (h : ∀ a, s.head? = some a → isSpace a = false) : lstrip s = s :=
  dropWhile_of_head h

theorem rstrip_of_last {s : Str} (h : ∀ a, s.getLast? = some a → isSpace a = false) :
    rstrip s = s := by
  unfold rstrip
  rw [dropWhile_of_head, List.reverse_reverse]
  intro a ha
  rw [List.head?_reverse] at ha
  exact h a ha

theorem strip_of_ends {s : Str} (h1 : ∀ a, s.head? = some a → isSpace a = false)
    (h2 : ∀ a, s.getLast? = some a → isSpace a = false) : strip s = s := by
  unfold strip; rw [rstrip_of_last h2, lstrip_of_head h1]

theorem strip_of_noSpace {s : Str} (h : ∀ a ∈ s, isSpace a = false) : strip s = s := by
  apply strip_of_ends
  · intro a ha; exact h a (List.mem_of_head? ha)
  · intro a ha; exact h a (List.mem_of_getLast? ha)

theorem head?_dropWhile_not {α : Type _} (p : α → Bool) (l : List α) :
    ∀ a, (l.dropWhile p).head? = some a → p a = false := by
  induction l with
  | nil => intro a h; simp at h
  | cons x xs ih =>
    intro a h
    rw [List.dropWhile_cons] at h
    split at h
    · exact ih a h
    · simp only [List.head?_cons, Option.some.injEq] at h; subst h; simp_all

theorem getLast?_rstrip (s : Str) : ∀ a, (rstrip s).getLast? = some a → isSpace a = false := by
  intro a h
  unfold rstrip at h
  rw [List.getLast?_reverse] at h
  exact head?_dropWhile_not _ _ a h

theorem head?_lstrip (s : Str) : ∀ a, (lstrip s).head? = some a → isSpace a = false :=
  head?_dropWhile_not _ _

theorem rstrip_rstrip (s : Str) : rstrip (rstrip s) = rstrip s :=
  rstrip_of_last (getLast?_rstrip s)

theorem lstrip_lstrip (s : Str) : lstrip (lstrip s) = lstrip s :=
  lstrip_of_head (head?_lstrip s)

theorem lstrip_suffix (s : Str) : lstrip s <:+ s := List.dropWhile_suffix _

theorem rstrip_prefix (s : Str) : rstrip s <+: s := by
  unfold rstrip
  have := List.dropWhile_suffix (l := s.reverse) isSpace
  have h := List.reverse_prefix.2 this
  simpa using h

theorem getLast?_suffix {α : Type _} {l m : List α} (h : l <:+ m) (hl : l ≠ []) :
    l.getLast? = m.getLast? := by
  obtain ⟨t, rfl⟩ := h
  rw [List.getLast?_append]
  cases hx : l.getLast? with
  | none => exact absurd (List.getLast?_eq_none_iff.1 hx) hl
  | some a => rfl

theorem strip_getLast (s : Str) : ∀ a, (strip s).getLast? = some a → isSpace a = false := by
  intro a h
  have hne : strip s ≠ [] := by intro e; rw [e] at h; simp at h
  rw [strip, getLast?_suffix (lstrip_suffix _) hne] at h
  exact getLast?_rstrip s a h

theorem strip_strip (s : Str) : strip (strip s) = strip s :=
  strip_of_ends (fun a h => head?_lstrip _ a h) (strip_getLast s)

theorem rstrip_strip (s : Str) : rstrip (strip s) = strip s := rstrip_of_last (strip_getLast s)

/-! ## int -/

theorem splitOn_no (c : Char) : ∀ (s : Str), c ∉ s → splitOn c s = [s] := by
  intro s
  induction s with
  | nil => intro _; rfl
  | cons x xs ih =>
    intro h
    simp only [List.mem_cons, not_or] at h
    unfold splitOn
    rw [if_neg (fun e => h.1 e.symm), ih h.2]

theorem splitOn_append (c : Char) (s t : Str) (h : c ∉ s) :
    splitOn c (s ++ c :: t) = s :: splitOn c t := by
  induction s with
  | nil => simp [splitOn]
  | cons x xs ih =>
    simp only [List.mem_cons, not_or] at h
    rw [List.cons_append, splitOn, if_neg (fun e => h.1 e.symm), ih h.2]

theorem splitOn_ne_nil (c : Char) (s : Str) : splitOn c s ≠ [] := by
  cases s with
  | nil => simp [splitOn]
  | cons x xs =>
    unfold splitOn
    split
    · simp
    · split <;> simp

/-- Splitting a join gives the parts back when no part contains the separator. -/
theorem splitOn_join (c : Char) : ∀ (ps : List Str), ps ≠ [] → (∀ p ∈ ps, c ∉ p) →
    splitOn c (join [c] ps) = ps := by
  intro ps
  induction ps with
  | nil => intro h; exact absurd rfl h
  | cons p qs ih =>
    intro _ h
    cases qs with
    | nil => simpa [join] using splitOn_no c p (h p (by simp))
    | cons q qs =>
      have h1 : join [c] (p :: q :: qs) = p ++ c :: join [c] (q :: qs) := by simp [join]
      rw [h1, splitOn_append c p _ (h p (by simp)), ih (by simp) (fun r hr => h r (by simp [hr]))]

theorem allDigits_mem {s : Str} (h : allDigits s = true) : ∀ c ∈ s, isDigit c = true := by
  simp only [allDigits, Bool.and_eq_true, List.all_eq_true] at h; exact h.2

theorem allDigits_ne_nil {s : Str} (h : allDigits s = true) : s ≠ [] := by
  intro e; subst e; simp [allDigits] at h

theorem unsignedLit_digits {s : Str} (h : allDigits s = true) : unsignedLit s = some (natVal s) := by
  have hu : '_' ∉ s := fun hm => by
    have := allDigits_mem h _ hm
    exact absurd this (by decide)
  simp [unsignedLit, splitOn_no _ _ hu, h]

theorem pyInt_digits {s : Str} (h : allDigits s = true) : pyInt s = .ok (natVal s : Int) := by
  have hs : strip s = s := strip_of_noSpace (fun a ha => isDigit_not_space (allDigits_mem h a ha))
  unfold pyInt
  rw [hs]
  cases s with
  | nil => exact absurd rfl (allDigits_ne_nil h)
  | cons c cs =>
    have hc : isDigit c = true := allDigits_mem h c (by simp)
    have h1 : c ≠ '-' := isDigit_ne hc (by decide)
    have h2 : c ≠ '+' := isDigit_ne hc (by decide)
    simp only [h1, h2, if_false, unsignedLit_digits h]

theorem pyInt_natStr (n : Nat) : pyInt (natStr n) = .ok (n : Int) := by
  rw [pyInt_digits (allDigits_natStr n), natVal_natStr]

/-! ## sorting and duplicates -/

theorem mem_insertBy {α : Type _} {le : α → α → Bool} {a x : α} {l : List α} :
    x ∈ insertBy le a l ↔ x = a ∨ x ∈ l := by
  induction l with
  | nil => simp [insertBy]
  | cons b bs ih =>
    unfold insertBy
    split
    · simp
    · simp only [List.mem_cons, ih]
      constructor
      · rintro (h | h | h) <;> simp [h]
      · rintro (h | h | h) <;> simp [h]

theorem mem_sortBy {α : Type _} {le : α → α → Bool} {x : α} {l : List α} :
    x ∈ sortBy le l ↔ x ∈ l := by
  induction l with
  | nil => simp [sortBy]
  | cons b bs ih => simp [sortBy, mem_insertBy, ih]

theorem insertBy_perm {α : Type _} (le : α → α → Bool) (a : α) (l : List α) :
    (insertBy le a l).Perm (a :: l) := by
  induction l with
  | nil => exact List.Perm.refl _
  | cons b bs ih =>
    unfold insertBy
    split
    · exact List.Perm.refl _
    · exact (ih.cons b).trans (List.Perm.swap a b bs)

theorem sortBy_perm {α : Type _} (le : α → α → Bool) (l : List α) : (sortBy le l).Perm l := by
  induction l with
  | nil => exact List.Perm.refl _
  | cons b bs ih => exact (insertBy_perm le b _).trans (ih.cons b)

theorem length_sortBy {α : Type _} (le : α → α → Bool) (l : List α) :
    (sortBy le l).length = l.length := (sortBy_perm le l).length_eq

theorem insertBy_sorted {α : Type _} {le : α → α → Bool}
    (tot : ∀ a b, le a b = true ∨ le b a = true)
    (tr : ∀ a b c, le a b = true → le b c = true → le a c = true) (a : α) (l : List α)
    (h : l.Pairwise (fun x y => le x y = true)) :
    (insertBy le a l).Pairwise (fun x y => le x y = true) := by
  induction l with
  | nil => simp [insertBy]
  | cons b bs ih =>
    rw [List.pairwise_cons] at h
    unfold insertBy
    by_cases hab : le a b = true
    · rw [if_pos hab, List.pairwise_cons]
      refine ⟨?_, List.pairwise_cons.2 h⟩
      intro x hx
      rcases List.mem_cons.1 hx with hx | hx
      · subst hx; exact hab
      · exact tr _ _ _ hab (h.1 x hx)
    · rw [if_neg hab, List.pairwise_cons]
      refine ⟨?_, ih h.2⟩
      intro x hx
      rcases mem_insertBy.1 hx with hx | hx
      · subst hx; exact (tot x b).resolve_left hab
      · exact h.1 x hx

theorem sortBy_sorted {α : Type _} {le : α → α → Bool}
    (tot : ∀ a b, le a b = true ∨ le b a = true)
    (tr : ∀ a b c, le a b = true → le b c = true → le a c = true) (l : List α) :
    (sortBy le l).Pairwise (fun x y => le x y = true) := by
  induction l with
  | nil => simp [sortBy]
  | cons b bs ih => exact insertBy_sorted tot tr b _ ih

/-- A list that is already in order is unchanged by the stable sort. -/
theorem sortBy_of_sorted {α : Type _} {le : α → α → Bool} {l : List α}
    (h : l.Pairwise (fun x y => le x y = true)) : sortBy le l = l := by
  induction l with
  | nil => rfl
  | cons b bs ih =>
    rw [List.pairwise_cons] at h
    rw [sortBy, ih h.2]
    cases bs with
    | nil => rfl
    | cons c cs => rw [insertBy, if_pos (h.1 c (by simp))]

theorem dedupBy_subset {α : Type _} {eq : α → α → Bool} {l : List α} :
    ∀ x, x ∈ dedupBy eq l → x ∈ l := by
  induction l with
  | nil => intro x h; simp [dedupBy] at h
  | cons a as ih =>
    intro x h
    simp only [dedupBy, List.mem_cons, List.mem_filter] at h
    rcases h with h | h
    · simp [h]
    · exact List.mem_cons_of_mem _ (ih x h.1)

theorem mem_dedupBy_of_eq {α : Type _} {eq : α → α → Bool}
    (heq : ∀ a b, eq a b = true ↔ a = b) {l : List α} {x : α} : x ∈ dedupBy eq l ↔ x ∈ l := by
  constructor
  · exact dedupBy_subset x
  · induction l with
    | nil => simp
    | cons a as ih =>
      intro h
      simp only [dedupBy, List.mem_cons, List.mem_filter]
      by_cases hxa : x = a
      · exact Or.inl hxa
      · rcases List.mem_cons.1 h with h | h
        · exact absurd h hxa
        · refine Or.inr ⟨ih h, ?_⟩
          have : eq a x ≠ true := fun e => hxa ((heq a x).1 e).symm
          simp [this]

theorem nodup_dedupBy_of_eq {α : Type _} {eq : α → α → Bool}
    (heq : ∀ a b, eq a b = true ↔ a = b) {l : List α} : (dedupBy eq l).Nodup := by
  induction l with
  | nil => simp [dedupBy]
  | cons a as ih =>
    rw [dedupBy, List.nodup_cons]
    refine ⟨?_, List.Nodup.sublist List.filter_sublist ih⟩
    intro h
    have := (List.mem_filter.1 h).2
    simp [(heq a a).2 rfl] at this

/-- Two strictly increasing lists with the same members are equal. -/
theorem eq_of_sorted_mem {l m : List Nat} (hl : l.Pairwise (· < ·)) (hm : m.Pairwise (· < ·))
    (h : ∀ x, x ∈ l ↔ x ∈ m) : l = m := by
  induction l generalizing m with
  | nil =>
    cases m with
    | nil => rfl
    | cons b bs => exact absurd ((h b).2 (by simp)) (by simp)
  | cons a as ih =>
    cases m with
    | nil => exact absurd ((h a).1 (by simp)) (by simp)
    | cons b bs =>
      rw [List.pairwise_cons] at hl hm
      have hab : a = b := by
        rcases List.mem_cons.1 ((h a).1 (by simp)) with h1 | h1
        · exact h1
        · rcases List.mem_cons.1 ((h b).2 (by simp)) with h2 | h2
          · exact h2.symm
          · have := hl.1 b h2; have := hm.1 a h1; omega
      subst hab
      rw [ih hl.2 hm.2]
      intro x
      constructor
      · intro hx
        rcases List.mem_cons.1 ((h x).1 (List.mem_cons_of_mem _ hx)) with h1 | h1
        · subst h1; have := hl.1 x hx; omega
        · exact h1
      · intro hx
        rcases List.mem_cons.1 ((h x).2 (List.mem_cons_of_mem _ hx)) with h1 | h1
        · subst h1; have := hm.1 x hx; omega
        · exact h1

/-! ### `split()` -/

/-- Non-empty and without whitespace. -/
def IsWord (w : Str) : Prop := w ≠ [] ∧ ∀ c ∈ w, isSpace c = false

theorem splitWsAux_word (w s acc : Str) (h : ∀ c ∈ w, isSpace c = false) :
    splitWsAux (w ++ s) acc = splitWsAux s (w.reverse ++ acc) := by
  induction w generalizing acc with
  | nil => rfl
  | cons x xs ih =>
    have hx := h x (by simp)
    rw [List.cons_append, splitWsAux, if_neg (by simp [hx]), ih _ (fun c hc => h c (by simp [hc]))]
    simp

theorem splitWs_spaces (p s : Str) (h : ∀ c ∈ p, isSpace c = true) :
    splitWs (p ++ s) = splitWs s := by
  unfold splitWs
  induction p with
  | nil => rfl
  | cons x xs ih =>
    rw [List.cons_append, splitWsAux, if_pos (h x (by simp))]
    simpa using ih (fun c hc => h c (by simp [hc]))

theorem splitWs_word {w : Str} (h : IsWord w) : splitWs w = [w] := by
  have := splitWsAux_word w [] [] h.2
  simp only [List.append_nil] at this
  rw [splitWs, this, splitWsAux]
  simp [h.1]

theorem splitWs_word_space {w : Str} (h : IsWord w) {x : Char} (hx : isSpace x = true) (s : Str) :
    splitWs (w ++ x :: s) = w :: splitWs s := by
  rw [splitWs, splitWsAux_word _ _ _ h.2, splitWsAux, if_pos hx]
  simp [h.1, splitWs]

theorem splitWsAux_words (s acc : Str) (ha : ∀ c ∈ acc, isSpace c = false) :
    ∀ w ∈ splitWsAux s acc, IsWord w := by
  induction s generalizing acc with
  | nil =>
    intro w hw
    rw [splitWsAux] at hw
    split at hw
    · simp at hw
    · rename_i hne
      rw [List.mem_singleton.mp hw]
      refine ⟨by simpa using hne, fun c hc => ha c (by simpa using hc)⟩
  | cons x xs ih =>
    intro w hw
    rw [splitWsAux] at hw
    split at hw
    · split at hw
      · exact ih [] (by simp) w hw
      · rename_i hne
        rcases List.mem_cons.mp hw with h | h
        · rw [h]
          exact ⟨by simpa using hne, fun c hc => ha c (by simpa using hc)⟩
        · exact ih [] (by simp) w h
    · rename_i hx
      refine ih (x :: acc) ?_ w hw
      intro c hc
      rcases List.mem_cons.mp hc with h | h
      · rw [h]; simpa using hx
      · exact ha c h

theorem splitWs_words (s : Str) : ∀ w ∈ splitWs s, IsWord w := splitWsAux_words s [] (by simp)

theorem splitWs_join : ∀ (ws : List Str), (∀ w ∈ ws, IsWord w) →
    splitWs (join [' '] ws) = ws
  | [], _ => rfl
  | [w], h => by rw [join, splitWs_word (h w (by simp))]
  | w :: v :: ws, h => by
    rw [join, List.append_assoc, List.singleton_append,
      splitWs_word_space (h w (by simp)) (by decide),
      splitWs_join (v :: ws) (fun u hu => h u (by simp [hu]))]

theorem isInfix_of_head {t s : Str} {c : Char} (h : t.head? = some c) (hc : c ∉ s) :
    isInfix t s = false := by
  cases t with
  | nil => simp at h
  | cons d ds =>
    simp only [List.head?_cons, Option.some.injEq] at h
    subst h
    induction s with
    | nil => rfl
    | cons x xs ih =>
      simp only [List.mem_cons, not_or] at hc
      simp [isInfix, ih hc.2, List.isPrefixOf, hc.1]

theorem of_mem_takeWhile {α : Type _} {p : α → Bool} : ∀ {l : List α} {a : α},
    a ∈ l.takeWhile p → p a = true
  | x :: xs, a, h => by
    rw [List.takeWhile_cons] at h
    split at h
    · rename_i hx
      rcases List.mem_cons.mp h with h | h
      · rw [h]; exact hx
      · exact of_mem_takeWhile h
    · simp at h

theorem splitWs_lstrip (s : Str) : splitWs (lstrip s) = splitWs s := by
  conv => rhs; rw [← List.takeWhile_append_dropWhile (p := isSpace) (l := s)]
  rw [splitWs_spaces _ _ (fun c hc => of_mem_takeWhile hc)]
  rfl

/-- The first word of a string that starts with a non-blank. -/
theorem splitWs_cons_ne_nil {c : Char} (hc : isSpace c = false) (s : Str) :
    splitWs (c :: s) ≠ [] := by
  intro h
  have h1 : ∀ (s acc : Str), acc ≠ [] → splitWsAux s acc ≠ [] := by
    intro s
    induction s with
    | nil => intro acc ha; simp [splitWsAux, ha]
    | cons x xs ih =>
      intro acc ha
      rw [splitWsAux]
      split
      · simp [ha]
      · exact ih _ (by simp)
  rw [splitWs, splitWsAux, if_neg (by simp [hc])] at h
  exact h1 _ _ (by simp) h

end Py

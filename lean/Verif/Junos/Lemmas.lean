import Verif.Junos.Spec
import Verif.Conf.Tree

/-! # Lemmas about the brace conversion -/

namespace Junos

open Py Conf

theorem strip_pad {w1 m w3 : Str} (h1 : Spec.White w1) (h3 : Spec.White w3)
    (hh : ∀ c, m.head? = some c → isSpace c = false) (hl : ∀ c, m.getLast? = some c → isSpace c = false)
    (hne : m ≠ []) : strip (w1 ++ m ++ w3) = m := by
  rw [strip, rstrip_append_spaces _ _ h3, rstrip_of_last, lstrip_pre h1 hh]
  intro c hc
  rw [List.getLast?_append] at hc
  have hx := List.getLast?_eq_some_getLast hne
  rw [hx] at hc
  simp at hc
  exact hl c (by rw [hx, ← hc])

theorem strip_white {w : Str} (h : Spec.White w) : strip w = [] := (blank_strip_nil w).mpr h

theorem dropWhile_rep (c : Char) (k : Nat) (r : Str) (hr : ∀ x, r.head? = some x → x ≠ c) :
    (List.replicate k c ++ r).dropWhile (· == c) = r := by
  induction k with
  | zero =>
    cases r with
    | nil => rfl
    | cons x xs => simp [hr x rfl]
  | succ k ih => simpa [List.replicate_succ, List.dropWhile_cons] using ih

theorem dropWhile_self (c : Char) (r : Str) (hr : ∀ x, r.head? = some x → x ≠ c) :
    r.dropWhile (· == c) = r := dropWhile_rep c 0 r hr

theorem head_append {a b : Str} (hne : a ≠ []) : (a ++ b).head? = a.head? := by
  cases a with
  | nil => exact absurd rfl hne
  | cons x xs => rfl

theorem last_append {a b : Str} (hne : b ≠ []) : (a ++ b).getLast? = b.getLast? := by
  rw [List.getLast?_append]
  have hx := List.getLast?_eq_some_getLast hne
  rw [hx]; rfl

/-- The text of `splitLine` when the semicolons and braces are behind a text. -/
theorem splitLine_text (t w : Str) (k : Nat) (b : Bool) (ht : Spec.Text t) (hw : Spec.White w)
    (hb : b = true → k = 0) :
    splitLine (t ++ w ++ (if b then ['{'] else []) ++ List.replicate k ';') = (false, t ++ w, b) := by
  have e1 : ∀ r : Str, (t ++ r).dropWhile (· == '}') = t ++ r := fun r =>
    dropWhile_self _ _ (by rw [head_append ht.ne]; exact fun x hx => (ht.head x hx).2.1)
  have e2 : ∀ r : Str, (t ++ r).head? ≠ some '}' := fun r h => by
    rw [head_append ht.ne] at h; exact (ht.head _ h).2.1 rfl
  have e3 : ∀ x, (t ++ w).reverse.head? = some x → x ≠ '{' ∧ x ≠ ';' := by
    intro x hx
    rw [List.head?_reverse, List.getLast?_append] at hx
    cases hg : w.getLast? with
    | none => rw [hg] at hx; exact (ht.last x hx).2
    | some y =>
      rw [hg] at hx
      simp at hx
      have := hw y (List.mem_of_getLast? hg)
      rw [hx] at this
      exact ⟨fun e => by rw [e] at this; exact absurd this (by decide),
        fun e => by rw [e] at this; exact absurd this (by decide)⟩
  unfold splitLine
  rw [List.append_assoc, List.append_assoc, e1]
  simp only [e2, decide_false]
  rw [← List.append_assoc, List.reverse_append, List.reverse_append, List.reverse_replicate]
  cases b with
  | true =>
    have hk := hb rfl
    subst hk
    simp only [if_true, List.replicate_zero, List.nil_append, List.reverse_singleton, List.singleton_append]
    rw [List.dropWhile_cons, if_neg (by decide)]
    simp only [List.head?_cons, decide_true]
    rw [List.dropWhile_cons, if_pos (by decide),
      dropWhile_self _ _ (fun x hx => (e3 x hx).1), List.reverse_reverse]
  | false =>
    simp only [Bool.false_eq_true, if_false, List.reverse_nil, List.append_nil]
    rw [dropWhile_rep _ _ _ (fun x hx => (e3 x hx).2), dropWhile_self _ _ (fun x hx => (e3 x hx).1),
      List.reverse_reverse]
    have : (t ++ w).reverse.head? ≠ some '{' := fun h => (e3 _ h).1 rfl
    rw [decide_eq_false this]

theorem isNote_not {t : Str} (h : t.head? ≠ some '#') : isNote t = false := by
  simp [isNote, h]

theorem emptyBraces_some {s r : Str} (h : emptyBraces s = some r) :
    ∃ a w b, s = a ++ '{' :: w ++ '}' :: b ∧ Spec.White w := by
  unfold emptyBraces at h
  have pre : ∀ x : Str, ∃ w, x = w ++ lstrip x ∧ Spec.White w := by
    intro x
    refine ⟨x.takeWhile isSpace, ?_, fun c hc => ?_⟩
    · rw [lstrip, List.takeWhile_append_dropWhile]
    · exact of_mem_takeWhile hc
  obtain ⟨a, ha, _⟩ := pre s
  split at h
  · cases h
  · rename_i c r1 h1
    split at h
    · rename_i hc
      obtain ⟨w, hw, hw'⟩ := pre r1
      split at h
      · cases h
      · rename_i d r2 h2
        split at h
        · rename_i hd
          refine ⟨a, w, r2, ?_, hw'⟩
          rw [ha, h1, hc, hw, h2, hd]
          simp
        · cases h
    · cases h

theorem dropEmptyAux_self : ∀ (f : Nat) (t : Str), Spec.NoEmpty t → dropEmptyAux f t = t := by
  intro f
  induction f with
  | zero => intro t _; rfl
  | succ f ih =>
    intro t h
    rw [dropEmptyAux]
    cases he : emptyBraces t with
    | some r => exact absurd (emptyBraces_some he) h
    | none =>
      dsimp only
      rw [ih (t.drop 1), List.take_append_drop]
      rintro ⟨a, w, b, e, hw⟩
      refine h ⟨t.take 1 ++ a, w, b, ?_, hw⟩
      rw [List.append_assoc, List.append_assoc, ← List.append_assoc a, ← e, List.take_append_drop]

theorem text_strip {t w w' : Str} (ht : Spec.Text t) (hw : Spec.White w) (hw' : Spec.White w') :
    strip (w ++ t ++ w') = t :=
  strip_pad hw hw' (fun c hc => (ht.head c hc).1) (fun c hc => (ht.last c hc).1) ht.ne

theorem text_strip' {t w' : Str} (ht : Spec.Text t) (hw' : Spec.White w') :
    strip (t ++ w') = t := by
  have := text_strip (w := []) ht (fun _ h => by cases h) hw'
  simpa using this

theorem white_append {a b : Str} (ha : Spec.White a) (hb : Spec.White b) : Spec.White (a ++ b) := by
  intro c hc
  rcases List.mem_append.mp hc with h | h
  · exact ha c h
  · exact hb c h

theorem lineBraces_leaf {t l : Str} (h : Spec.LeafLine t l) : lineBraces l = (0, 0, t) := by
  obtain ⟨ht, hn, w1, w2, w3, k, rfl, h1, h2, h3⟩ := h
  have hs : ∃ w k', strip (w1 ++ t ++ w2 ++ List.replicate k ';' ++ w3) = t ++ w ++ List.replicate k' ';' ∧
      Spec.White w := by
    cases k with
    | zero =>
      refine ⟨[], 0, ?_, fun _ h => by cases h⟩
      rw [List.replicate_zero, List.append_nil, List.append_assoc, text_strip ht h1 (white_append h2 h3)]
      simp
    | succ k =>
      refine ⟨w2, k + 1, ?_, h2⟩
      rw [List.append_assoc w1, List.append_assoc w1]
      refine strip_pad h1 h3 ?_ ?_ ?_
      · rw [List.append_assoc, head_append ht.ne]; exact fun c hc => (ht.head c hc).1
      · intro c hc
        rw [last_append (by simp)] at hc
        have := List.mem_of_getLast? hc
        rw [List.eq_of_mem_replicate this]; decide
      · simp [ht.ne]
  obtain ⟨w, k', hs, hw⟩ := hs
  unfold lineBraces
  dsimp only
  rw [hs]
  have hsp := splitLine_text t w k' false ht hw (by simp)
  simp only [Bool.false_eq_true, if_false, List.append_nil] at hsp
  rw [hsp, isNote_not]
  · simp only [Bool.false_eq_true, if_false, Bool.and_false, and_true]
    rw [if_pos (by simp [ht.ne]), text_strip' ht hw, dropEmpty, dropEmptyAux_self _ _ hn]
  · rw [List.append_assoc, head_append ht.ne]; exact fun h => (ht.head _ h).2.2 rfl

theorem emptyBraces_exact {s r : Str} (h : emptyBraces s = some r) :
    ∃ a w b, s = a ++ '{' :: (w ++ '}' :: b) ∧ Spec.White a ∧ Spec.White w := by
  unfold emptyBraces at h
  have pre : ∀ x : Str, ∃ w, x = w ++ lstrip x ∧ Spec.White w := by
    intro x
    refine ⟨x.takeWhile isSpace, ?_, fun c hc => ?_⟩
    · rw [lstrip, List.takeWhile_append_dropWhile]
    · exact of_mem_takeWhile hc
  obtain ⟨a, ha, hsp⟩ := pre s
  split at h
  · cases h
  · rename_i c r1 h1
    split at h
    · rename_i hc
      obtain ⟨w, hw, hw'⟩ := pre r1
      split at h
      · cases h
      · rename_i d r2 h2
        split at h
        · rename_i hd
          refine ⟨a, w, r2, ?_, hsp, hw'⟩
          rw [ha, h1, hc, hw, h2, hd]
        · cases h
    · cases h

theorem first_of {a a' : Str} {c c' : Char} {r r' : Str} (ha : Spec.White a) (ha' : Spec.White a')
    (hc : isSpace c = false) (hc' : isSpace c' = false) (e : a ++ c :: r = a' ++ c' :: r') :
    a = a' ∧ c = c' ∧ r = r' := by
  induction a generalizing a' with
  | nil =>
    cases a' with
    | nil => simp at e; exact ⟨rfl, e⟩
    | cons x a' =>
      simp at e
      rw [e.1, ha' x (by simp)] at hc; cases hc
  | cons x a ih =>
    cases a' with
    | nil =>
      simp at e
      rw [← e.1, ha x (by simp)] at hc'; cases hc'
    | cons y a' =>
      simp at e
      obtain ⟨h1, h2, h3⟩ := ih (fun c hc => ha c (by simp [hc])) (fun c hc => ha' c (by simp [hc])) e.2
      exact ⟨by rw [e.1, h1], h2, h3⟩

/-- White characters, then the first other one. -/
theorem white_split (x : Str) : Spec.White x ∨ ∃ a c r, x = a ++ c :: r ∧ Spec.White a ∧ isSpace c = false := by
  induction x with
  | nil => exact Or.inl (fun _ h => by cases h)
  | cons c x ih =>
    by_cases hc : isSpace c = true
    · rcases ih with h | ⟨a, d, r, rfl, h1, h2⟩
      · refine Or.inl (fun y hy => ?_)
        rcases List.mem_cons.mp hy with rfl | hy
        · exact hc
        · exact h y hy
      · refine Or.inr ⟨c :: a, d, r, rfl, fun y hy => ?_, h2⟩
        rcases List.mem_cons.mp hy with rfl | hy
        · exact hc
        · exact h1 y hy
    · exact Or.inr ⟨[], c, x, rfl, fun _ h => (by cases h), by simpa using hc⟩

theorem emptyBraces_inside {t w2 w r : Str} (hn : Spec.NoEmpty t)
    (hl : ∀ c, t.getLast? = some c → isSpace c = false) (hne : t ≠ [])
    (h2 : Spec.White w2)
    (h : emptyBraces (t ++ (w2 ++ '{' :: (w ++ ['}']))) = some r) : False := by
  obtain ⟨a, u, b, e, ha, hu⟩ := emptyBraces_exact h
  rcases white_split t with ht | ⟨a1, c1, r1, rfl, h3, h4⟩
  · have hx := List.getLast?_eq_some_getLast hne
    have := hl _ hx
    rw [ht _ (List.getLast_mem hne)] at this; cases this
  · rw [List.append_assoc, List.cons_append] at e
    obtain ⟨e1, e2, e3⟩ := first_of h3 ha h4 (by decide) e
    subst e2
    rcases white_split r1 with hr | ⟨a2, c2, r2, rfl, h5, h6⟩
    · have e4 : (r1 ++ w2) ++ '{' :: (w ++ ['}']) = u ++ '}' :: b := by rw [← e3, List.append_assoc]
      have := (first_of (white_append hr h2) hu (by decide) (by decide) e4).2.1
      exact absurd this (by decide)
    · rw [List.append_assoc, List.cons_append] at e3
      obtain ⟨e5, e6, e7⟩ := first_of h5 hu h6 (by decide) e3
      refine hn ⟨a1, a2, r2, ?_, h5⟩
      rw [e6]; simp

theorem lstrip_white {w x : Str} (h : Spec.White w) : lstrip (w ++ x) = lstrip x := by
  induction w with
  | nil => rfl
  | cons c w ih =>
    rw [List.cons_append, lstrip, List.dropWhile_cons, if_pos (h c (by simp))]
    exact ih (fun y hy => h y (by simp [hy]))

theorem emptyBraces_here {w2 w : Str} (h2 : Spec.White w2) (hw : Spec.White w) :
    emptyBraces (w2 ++ '{' :: (w ++ ['}'])) = some [] := by
  unfold emptyBraces
  rw [lstrip_white h2, lstrip_of_head (s := '{' :: (w ++ ['}'])) (by intro a ha; simp at ha; rw [← ha]; decide)]
  dsimp only
  rw [if_pos rfl, lstrip_white hw, lstrip_of_head (s := ['}']) (by intro a ha; simp at ha; rw [← ha]; decide)]
  dsimp only
  rw [if_pos rfl]; rfl

theorem dropEmptyAux_empty {w2 w : Str} (h2 : Spec.White w2) (hw : Spec.White w) : ∀ (t : Str) (f : Nat),
    t.length < f → Spec.NoEmpty t → (∀ c, t.getLast? = some c → isSpace c = false) →
    dropEmptyAux f (t ++ (w2 ++ '{' :: (w ++ ['}']))) = t
  | [], f + 1, _, _, _ => by
    rw [dropEmptyAux, List.nil_append, emptyBraces_here h2 hw]
    dsimp only
    refine dropEmptyAux_self f [] ?_
    rintro ⟨a, w, b, e, _⟩
    simp at e
  | c :: t, f + 1, hf, hn, hl => by
    rw [dropEmptyAux]
    cases he : emptyBraces (c :: t ++ (w2 ++ '{' :: (w ++ ['}']))) with
    | some r => exact (emptyBraces_inside hn hl (by simp) h2 he).elim
    | none =>
      dsimp only
      rw [List.cons_append]
      simp only [List.take_succ_cons, List.take_zero, List.drop_succ_cons, List.drop_zero]
      rw [dropEmptyAux_empty h2 hw t f (by simp at hf; omega), List.singleton_append]
      · rintro ⟨a, w, b, e, hw⟩
        exact hn ⟨c :: a, w, b, by rw [e]; rfl, hw⟩
      · intro x hx
        refine hl x ?_
        cases t with
        | nil => cases hx
        | cons y t => rw [List.getLast?_cons_cons]; exact hx

theorem lineBraces_empty {t l : Str} (h : Spec.EmptyLine t l) : lineBraces l = (0, 0, t) := by
  obtain ⟨ht, hn, w1, w2, w, w3, k, rfl, h1, h2, hw, h3⟩ := h
  generalize hm : t ++ (w2 ++ '{' :: (w ++ ['}'])) = m
  have hmne : m ≠ [] := by rw [← hm]; simp [ht.ne]
  have hmh : m.head? = t.head? := by rw [← hm, head_append ht.ne]
  have hml : m.getLast? = some '}' := by
    rw [← hm, last_append (by simp), last_append (by simp), ← List.cons_append, List.getLast?_concat]
  have hs : strip (w1 ++ m ++ List.replicate k ';' ++ w3) = m ++ List.replicate k ';' := by
    rw [List.append_assoc w1]
    refine strip_pad h1 h3 ?_ ?_ (by simp [hmne])
    · rw [head_append hmne, hmh]; exact fun c hc => (ht.head c hc).1
    · intro c hc
      cases k with
      | zero => rw [List.replicate_zero, List.append_nil, hml] at hc; cases hc; decide
      | succ k =>
        rw [last_append (by simp)] at hc
        rw [List.eq_of_mem_replicate (List.mem_of_getLast? hc)]; decide
  have hsp : splitLine (m ++ List.replicate k ';') = (false, m, false) := by
    unfold splitLine
    dsimp only
    rw [dropWhile_self '}' _ (by rw [head_append hmne, hmh]; exact fun x hx => (ht.head x hx).2.1),
      List.reverse_append, List.reverse_replicate,
      dropWhile_rep _ _ _ (by rw [List.head?_reverse, hml]; intro x hx; cases hx; decide),
      dropWhile_self '{' _ (by rw [List.head?_reverse, hml]; intro x hx; cases hx; decide),
      List.reverse_reverse, List.head?_reverse, hml, head_append hmne, hmh]
    have : t.head? ≠ some '}' := fun h => (ht.head _ h).2.1 rfl
    rw [decide_eq_false this]; rfl
  have hms : strip m = m := strip_of_ends (by rw [hmh]; exact fun c hc => (ht.head c hc).1)
    (by rw [hml]; intro c hc; cases hc; decide)
  unfold lineBraces
  dsimp only
  rw [hs, hsp, isNote_not]
  · simp only [Bool.false_eq_true, if_false, Bool.and_false, and_true]
    rw [if_pos hmne, hms, dropEmpty, ← hm,
      dropEmptyAux_empty h2 hw t _ (by simp; omega) hn (fun c hc => (ht.last c hc).1)]
  · rw [head_append hmne, hmh]; exact fun h => (ht.head _ h).2.2 rfl

theorem lineBraces_open {t l : Str} (h : Spec.OpenLine t l) :
    ∃ w, Spec.White w ∧ lineBraces l = (0, 1, t ++ w) := by
  obtain ⟨ht, w1, w2, w3, rfl, h1, h2, h3⟩ := h
  refine ⟨w2, h2, ?_⟩
  have hs : strip (w1 ++ t ++ w2 ++ '{' :: w3) = t ++ w2 ++ ['{'] := by
    have e : w1 ++ t ++ w2 ++ '{' :: w3 = w1 ++ (t ++ w2 ++ ['{']) ++ w3 := by simp
    rw [e]
    refine strip_pad h1 h3 ?_ ?_ (by simp)
    · rw [List.append_assoc, head_append ht.ne]; exact fun c hc => (ht.head c hc).1
    · intro c hc
      simp at hc
      rw [← hc]; decide
  unfold lineBraces
  dsimp only
  have hsp := splitLine_text t w2 0 true ht h2 (by simp)
  simp only [if_true, List.replicate_zero, List.append_nil] at hsp
  rw [hs, hsp, isNote_not]
  · simp
  · rw [List.append_assoc, head_append ht.ne]; exact fun h => (ht.head _ h).2.2 rfl

theorem lineBraces_alt {t l : Str} (h : Spec.AltLine t l) :
    ∃ w w', Spec.White w ∧ Spec.White w' ∧ lineBraces l = (-1, 0, w ++ t ++ w') := by
  obtain ⟨ht, w1, w, w2, w3, rfl, h1, hw, h2, h3⟩ := h
  refine ⟨w, w2, hw, h2, ?_⟩
  have hs : strip (w1 ++ '}' :: w ++ t ++ w2 ++ '{' :: w3) = '}' :: (w ++ t ++ w2 ++ ['{']) := by
    have e : w1 ++ '}' :: w ++ t ++ w2 ++ '{' :: w3 = w1 ++ ('}' :: (w ++ t ++ w2 ++ ['{'])) ++ w3 := by simp
    rw [e]
    refine strip_pad h1 h3 ?_ ?_ (by simp)
    · intro c hc; simp at hc; rw [← hc]; decide
    · intro c hc
      rw [← List.cons_append, List.getLast?_concat] at hc
      simp at hc
      rw [← hc]; decide
  have hd : (w ++ t ++ w2 ++ ['{']).dropWhile (· == '}') = w ++ t ++ w2 ++ ['{'] := by
    refine dropWhile_self _ _ (fun x hx => ?_)
    cases w with
    | nil =>
      rw [List.nil_append, List.append_assoc, head_append ht.ne] at hx
      exact (ht.head x hx).2.1
    | cons y ys =>
      simp at hx
      have := hw y (by simp)
      rw [hx] at this
      exact fun e => by rw [e] at this; exact absurd this (by decide)
  have e3 : ∀ x, (w ++ t ++ w2).reverse.head? = some x → x ≠ '{' := by
    intro x hx
    rw [List.head?_reverse] at hx
    cases w2 with
    | nil => rw [List.append_nil, last_append ht.ne] at hx; exact (ht.last x hx).2.1
    | cons y ys =>
      rw [last_append (by simp)] at hx
      have := h2 x (List.mem_of_getLast? hx)
      exact fun e => by rw [e] at this; exact absurd this (by decide)
  have hsp : splitLine ('}' :: (w ++ t ++ w2 ++ ['{'])) = (true, w ++ t ++ w2, true) := by
    unfold splitLine
    rw [List.dropWhile_cons, if_pos (by decide), hd, List.reverse_append, List.reverse_singleton,
      List.singleton_append]
    rw [List.dropWhile_cons (x := '{'), if_neg (by decide)]
    simp only [List.head?_cons, decide_true]
    rw [List.dropWhile_cons, if_pos (by decide), dropWhile_self _ _ e3, List.reverse_reverse]
  unfold lineBraces
  dsimp only
  rw [hs, hsp, isNote_not (by simp)]
  simp

theorem lineBraces_close {l : Str} (h : Spec.CloseLine l) : lineBraces l = (-1, -1, []) := by
  obtain ⟨w1, w3, k, rfl, h1, h3⟩ := h
  have hs : strip (w1 ++ '}' :: List.replicate k ';' ++ w3) = '}' :: List.replicate k ';' := by
    refine strip_pad h1 h3 ?_ ?_ (by simp)
    · intro c hc; simp at hc; rw [← hc]; decide
    · intro c hc
      have := List.mem_of_getLast? hc
      rcases List.mem_cons.mp this with h | h
      · rw [h]; decide
      · rw [List.eq_of_mem_replicate h]; decide
  have hsp : splitLine ('}' :: List.replicate k ';') = (true, [], false) := by
    unfold splitLine
    dsimp only
    rw [List.dropWhile_cons, if_pos (by decide), dropWhile_self '}' _ ?_, List.reverse_replicate]
    · have := dropWhile_rep ';' k [] (fun x hx => by cases hx)
      rw [List.append_nil] at this
      rw [this]; rfl
    · intro x hx
      have := List.mem_of_mem_head? hx
      rw [List.eq_of_mem_replicate this]; decide
  unfold lineBraces
  dsimp only
  rw [hs, hsp, isNote_not (by simp)]
  simp

theorem lineBraces_note {t l : Str} (h : Spec.NoteLine t l) :
    lineBraces l = (0, 0, t) ∧ strip t = t ∧ t ≠ [] := by
  obtain ⟨w1, w3, k, u, rfl, h1, h3, rfl, hu, hl⟩ := h
  have hh : ∀ c, (List.replicate (k + 1) '#' ++ u).head? = some c → isSpace c = false := by
    intro c hc; simp [List.replicate_succ] at hc; rw [← hc]; decide
  have hlast : ∀ c, (List.replicate (k + 1) '#' ++ u).getLast? = some c → isSpace c = false := by
    intro c hc
    cases u with
    | nil =>
      rw [List.append_nil] at hc
      rw [List.eq_of_mem_replicate (List.mem_of_getLast? hc)]; decide
    | cons y ys => rw [last_append (by simp)] at hc; exact hl c hc
  have hne : List.replicate (k + 1) '#' ++ u ≠ [] := by simp
  refine ⟨?_, strip_of_ends hh hlast, hne⟩
  unfold lineBraces
  dsimp only
  rw [strip_pad h1 h3 hh hlast hne]
  have : isNote (List.replicate (k + 1) '#' ++ u) = true := by
    unfold isNote
    rw [dropWhile_rep _ _ _ (fun x hx e => hu (by rw [← e]; exact List.mem_of_mem_head? hx))]
    have : u.contains '#' = false := by simpa using hu
    rw [this, List.replicate_succ]
    rfl
  rw [this]; rfl

theorem lineBraces_white {l : Str} (h : Spec.White l) : lineBraces l = (0, 0, []) := by
  unfold lineBraces
  dsimp only
  rw [strip_white h]
  rfl

/-- The change of depth over some lines. -/
def shift (ls : List Str) : Int := (ls.map (fun l => (lineBraces l).2.1)).sum

theorem convertGo_append (o : Int) : ∀ (a b : List Str),
    convertGo o (a ++ b) = convertGo o a ++ convertGo (o + shift a) b
  | [], b => by simp [convertGo, shift]
  | l :: a, b => by
    rw [List.cons_append, convertGo, convertGo]
    dsimp only
    rw [convertGo_append _ a b]
    simp only [shift, List.map_cons, List.sum_cons, List.cons_append]
    rw [Int.add_assoc]

theorem convertGo_cons (o : Int) (l : Str) (ls : List Str) {a b : Int} {t : Str}
    (h : lineBraces l = (a, b, t)) :
    convertGo o (l :: ls) = (spaces (4 * (o + a)).toNat ++ strip t) :: convertGo (o + b) ls := by
  rw [convertGo, h]

theorem at_eq (d : Nat) (x : Int) (hx : x = d) (t : Str) :
    spaces (4 * x).toNat ++ t = Spec.at_ d t := by
  subst hx
  have : (4 * (d : Int)).toNat = 4 * d := by omega
  rw [this]; rfl

theorem shift_cons {l : Str} {ls : List Str} {a b : Int} {t : Str} (h : lineBraces l = (a, b, t)) :
    shift (l :: ls) = b + shift ls := by simp [shift, h]

theorem shift_append (a b : List Str) : shift (a ++ b) = shift a + shift b := by
  simp [shift, List.sum_append]

mutual
theorem convertGo_doc : ∀ (doc : Spec.Doc) (ls : List Str) (d : Nat), Spec.Written doc ls →
    convertGo d ls = doc.lines d ∧ shift ls = 0
  | .nil, ls, d, h => by cases h; exact ⟨rfl, rfl⟩
  | .leaf t r, ls, d, h => by
    cases h with
    | leaf h1 h2 =>
      obtain ⟨e1, e2⟩ := convertGo_doc r _ d h2
      have hb := lineBraces_leaf h1
      have hs : strip t = t := strip_of_ends (fun c hc => (h1.1.head c hc).1) (fun c hc => (h1.1.last c hc).1)
      rw [convertGo_cons _ _ _ hb, shift_cons hb, e2, Int.add_zero, e1, hs, at_eq d _ rfl, Spec.Doc.lines]
      exact ⟨rfl, rfl⟩
    | empty h1 h2 =>
      obtain ⟨e1, e2⟩ := convertGo_doc r _ d h2
      have hb := lineBraces_empty h1
      have hs : strip t = t := strip_of_ends (fun c hc => (h1.1.head c hc).1) (fun c hc => (h1.1.last c hc).1)
      rw [convertGo_cons _ _ _ hb, shift_cons hb, e2, Int.add_zero, e1, hs, at_eq d _ rfl, Spec.Doc.lines]
      exact ⟨rfl, rfl⟩
  | .note t r, ls, d, h => by
    cases h with
    | note h1 h2 =>
      obtain ⟨e1, e2⟩ := convertGo_doc r _ d h2
      obtain ⟨hb, hs, _⟩ := lineBraces_note h1
      rw [convertGo_cons _ _ _ hb, shift_cons hb, e2, Int.add_zero, e1, hs, at_eq d _ rfl, Spec.Doc.lines]
      exact ⟨rfl, rfl⟩
  | .gap r, ls, d, h => by
    cases h with
    | gap h1 h2 =>
      obtain ⟨e1, e2⟩ := convertGo_doc r _ d h2
      have hb := lineBraces_white h1
      rw [convertGo_cons _ _ _ hb, shift_cons hb, e2, Int.add_zero, e1, at_eq d _ rfl, Spec.Doc.lines]
      exact ⟨rfl, rfl⟩
  | .block t b a r, ls, d, h => by
    cases h with
    | @block _ l _ lb _ la _ ls h1 h2 h3 h4 =>
      obtain ⟨e1, e2⟩ := convertGo_doc b _ (d + 1) h2
      obtain ⟨f1, f2⟩ := convertGo_alts a _ d h3
      obtain ⟨g1, g2⟩ := convertGo_doc r _ d h4
      obtain ⟨w, hw, hb⟩ := lineBraces_open h1
      rw [convertGo_cons _ _ _ hb, shift_cons hb, text_strip' h1.1 hw, at_eq d _ (by omega), Spec.Doc.lines,
        convertGo_append, convertGo_append, shift_append, shift_append, e2, f2, g2]
      have e1' : convertGo ((d : Int) + 1) lb = b.lines (d + 1) := by rw [← e1]; rfl
      have f1' : convertGo ((d : Int) + 1 + 0) la = a.lines d := by rw [← f1, Int.add_zero]
      have g1' : convertGo ((d : Int) + 1 + 0 + -1) ls = r.lines d := by rw [← g1]; congr 1; omega
      rw [e1', f1', g1']
      exact ⟨rfl, rfl⟩
theorem convertGo_alts : ∀ (a : Spec.Alts) (ls : List Str) (d : Nat), Spec.WrittenAlts a ls →
    convertGo ((d : Int) + 1) ls = a.lines d ∧ shift ls = -1
  | .done, ls, d, h => by
    cases h with
    | done h1 =>
      have hb := lineBraces_close h1
      rw [convertGo_cons _ _ _ hb, shift_cons hb, at_eq d _ (by omega), Spec.Alts.lines]
      exact ⟨rfl, rfl⟩
  | .alt t b a, ls, d, h => by
    cases h with
    | @alt _ l _ lb _ la h1 h2 h3 =>
      obtain ⟨e1, e2⟩ := convertGo_doc b _ (d + 1) h2
      obtain ⟨f1, f2⟩ := convertGo_alts a _ d h3
      obtain ⟨w, w', hw, hw', hb⟩ := lineBraces_alt h1
      rw [convertGo_cons _ _ _ hb, shift_cons hb, text_strip h1.1 hw hw', at_eq d _ (by omega), Spec.Alts.lines,
        convertGo_append, shift_append, e2, f2]
      have e1' : convertGo ((d : Int) + 1 + 0) lb = b.lines (d + 1) := by rw [← e1]; rfl
      have f1' : convertGo ((d : Int) + 1 + 0 + 0) la = a.lines d := by rw [← f1, Int.add_zero, Int.add_zero]
      rw [e1', f1']
      exact ⟨rfl, rfl⟩
end

end Junos

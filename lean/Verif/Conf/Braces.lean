import Verif.Conf.Passes

/-! # Lemmas about the closing-brace pass -/

namespace Conf

open Py

theorem getLast?_eq_append {α : Type _} {l : List α} {a : α} (h : l.getLast? = some a) :
    ∃ pre, l = pre ++ [a] := by
  refine ⟨l.dropLast, ?_⟩
  have hne : l ≠ [] := by rintro rfl; simp at h
  rw [List.getLast?_eq_some_getLast hne] at h
  simp only [Option.some.injEq] at h
  rw [← h, List.dropLast_concat_getLast]

theorem rstrip_append_spaces (s ws : Str) (hw : ∀ c ∈ ws, isSpace c = true) :
    rstrip (s ++ ws) = rstrip s := by
  rw [rstrip, rstrip, List.reverse_append]
  congr 1
  have : ∀ (p q : Str), (∀ c ∈ p, isSpace c = true) → (p ++ q).dropWhile isSpace = q.dropWhile isSpace := by
    intro p q hp
    induction p with
    | nil => rfl
    | cons x xs ih =>
      rw [List.cons_append, List.dropWhile_cons, if_pos (hp x (by simp))]
      exact ih (fun c hc => hp c (by simp [hc]))
  exact this _ _ (fun c hc => hw c (by simpa using hc))

theorem rstrip_append_char (s : Str) (c : Char) (hc : isSpace c = false) :
    rstrip (s ++ [c]) = s ++ [c] := by
  refine rstrip_of_last ?_
  intro a ha
  simp at ha
  rwa [← ha]

theorem opensBrace_iff (t : Str) : opensBrace t = true ↔ Spec.opens t := by
  rw [opensBrace, beq_iff_eq]
  constructor
  · intro h
    obtain ⟨pre, hp⟩ := getLast?_eq_append h
    obtain ⟨ws, hs, hw⟩ := rstrip_eq_append t
    refine ⟨pre, ws, ?_, hw⟩
    rw [hp] at hs
    rw [hs]
    simp
  · rintro ⟨pre, ws, rfl, hw⟩
    have : pre ++ '{' :: ws = (pre ++ ['{']) ++ ws := by simp
    rw [this, rstrip_append_spaces _ _ hw, rstrip_append_char _ _ (by decide)]
    simp

theorem lstrip_pre {p s : Str} (hp : ∀ c ∈ p, isSpace c = true)
    (hs : ∀ a, s.head? = some a → isSpace a = false) : lstrip (p ++ s) = s := by
  induction p with
  | nil => exact lstrip_of_head hs
  | cons x xs ih =>
    rw [List.cons_append, lstrip, List.dropWhile_cons, if_pos (hp x (by simp))]
    exact ih (fun c hc => hp c (by simp [hc]))

/-- The first character after the indentation of a text, whether or not it was
right-stripped. -/
theorem head?_lstrip_rstrip (s : Str) : (lstrip (rstrip s)).head? = (lstrip s).head? := by
  obtain ⟨ws, hs, hw⟩ := rstrip_eq_append s
  have hsplit := List.takeWhile_append_dropWhile (p := isSpace) (l := rstrip s)
  cases hr : lstrip (rstrip s) with
  | nil =>
    have hb := (lstrip_nil_iff _).mp hr
    have : lstrip s = [] := by
      rw [lstrip_nil_iff]
      intro c hc
      rw [hs, List.mem_append] at hc
      rcases hc with hc | hc
      · exact hb c hc
      · exact hw c hc
    rw [this]
  | cons d r =>
    have hd : isSpace d = false := head?_lstrip (rstrip s) d (by rw [hr]; rfl)
    have hs2 : s = (rstrip s).takeWhile isSpace ++ (d :: (r ++ ws)) := by
      rw [lstrip] at hr
      rw [hr] at hsplit
      conv => lhs; rw [hs, ← hsplit]
      simp
    have : lstrip s = d :: (r ++ ws) := by
      conv => lhs; rw [hs2]
      refine lstrip_pre (fun x hx => of_mem_takeWhile hx) ?_
      intro a ha
      simp only [List.head?_cons, Option.some.injEq] at ha
      rwa [← ha]
    rw [this]; rfl

theorem closesBrace_iff (t : Str) : (opensBrace t = false ∧ closesBrace t = true) ↔ Spec.closes t := by
  have h1 : opensBrace t = false ↔ ¬ Spec.opens t := by
    rw [← opensBrace_iff]; simp
  have h2 : closesBrace t = true ↔
      ∃ ws rest, t = ws ++ '}' :: rest ∧ ∀ c ∈ ws, isSpace c = true := by
    rw [closesBrace, beq_iff_eq, strip, head?_lstrip_rstrip]
    constructor
    · intro h
      have hsplit := List.takeWhile_append_dropWhile (p := isSpace) (l := t)
      cases hl : lstrip t with
      | nil => rw [hl] at h; simp at h
      | cons d r =>
        rw [hl] at h
        simp only [List.head?_cons, Option.some.injEq] at h
        subst h
        refine ⟨t.takeWhile isSpace, r, ?_, fun c hc => of_mem_takeWhile hc⟩
        rw [lstrip] at hl
        rw [← hl, hsplit]
    · rintro ⟨ws, rest, rfl, hw⟩
      rw [lstrip_pre hw (by intro a ha; simp at ha; rw [← ha]; decide)]
      rfl
  rw [h1, h2, Spec.closes, and_comm]

/-! ## Depth -/

/-- +1 for an opening line, -1 for a closing line. -/
def braceDelta (t : Str) : Int := if opensBrace t then 1 else if closesBrace t then -1 else 0

/-- Sum of the deltas of lines `a .. b-1`. -/
def depth (L : Nat → Str) (a : Nat) : Nat → Int
  | 0 => 0
  | b + 1 => if a ≤ b then depth L a b + braceDelta (L b) else 0

theorem depth_self (L : Nat → Str) (a : Nat) : depth L a a = 0 := by
  cases a with
  | zero => rfl
  | succ a => rw [depth, if_neg (by omega)]

theorem depth_split (L : Nat → Str) {a b : Nat} (hab : a ≤ b) : ∀ c, b ≤ c →
    depth L a c = depth L a b + depth L b c
  | 0, h => by
    have : b = 0 := by omega
    subst this
    simp [depth]
  | c + 1, h => by
    by_cases hbc : b = c + 1
    · rw [hbc, depth_self]; omega
    · rw [depth, if_pos (by omega), depth_split L hab c (by omega), depth, if_pos (by omega)]
      omega

theorem delta_open {t : Str} (h : Spec.opens t) : braceDelta t = 1 := by
  rw [braceDelta, if_pos ((opensBrace_iff t).mpr h)]

theorem delta_close {t : Str} (h : Spec.closes t) : braceDelta t = -1 := by
  have := (closesBrace_iff t).mpr h
  rw [braceDelta, if_neg (by simp [this.1]), if_pos this.2]

theorem delta_plain {t : Str} (h1 : ¬ Spec.opens t) (h2 : ¬ Spec.closes t) : braceDelta t = 0 := by
  have h1' : opensBrace t = false := by
    rw [← opensBrace_iff] at h1; simpa using h1
  rw [braceDelta, if_neg (by simp [h1']), if_neg]
  intro hc
  exact h2 ((closesBrace_iff t).mp ⟨h1', hc⟩)

theorem balanced_le {L : Nat → Str} {a b : Nat} (h : Spec.Balanced L a b) : a ≤ b := by
  induction h with
  | nil => omega
  | plain => omega
  | block => omega

theorem balanced_depth {L : Nat → Str} {a b : Nat} (h : Spec.Balanced L a b) :
    depth L a b = 0 ∧ ∀ q, a ≤ q → q ≤ b → 0 ≤ depth L a q := by
  induction h with
  | @nil a =>
    refine ⟨depth_self L a, fun q h1 h2 => ?_⟩
    have : q = a := by omega
    rw [this, depth_self]; omega
  | @plain a k hb h1 h2 ih =>
    have hle := balanced_le hb
    have : depth L a (k + 1) = 0 := by
      rw [depth, if_pos hle, ih.1, delta_plain h1 h2]; rfl
    refine ⟨this, fun q hq1 hq2 => ?_⟩
    by_cases hqk : q = k + 1
    · rw [hqk, this]; omega
    · exact ih.2 q hq1 (by omega)
  | @block a p k hb1 ho hb2 hc ih1 ih2 =>
    have hle1 := balanced_le hb1
    have hle2 := balanced_le hb2
    have hp1 : depth L a (p + 1) = 1 := by
      rw [depth, if_pos hle1, ih1.1, delta_open ho]; rfl
    have hk : depth L a k = 1 := by
      rw [depth_split L (show a ≤ p + 1 by omega) k hle2, hp1, ih2.1]; rfl
    have hk1 : depth L a (k + 1) = 0 := by
      rw [depth, if_pos (by omega), hk, delta_close hc]; rfl
    refine ⟨hk1, fun q hq1 hq2 => ?_⟩
    by_cases h1 : q ≤ p
    · exact ih1.2 q hq1 h1
    · by_cases h2 : q ≤ k
      · rw [depth_split L (show a ≤ p + 1 by omega) q (by omega), hp1]
        have := ih2.2 q (by omega) h2
        omega
      · have : q = k + 1 := by omega
        rw [this, hk1]; omega

/-- A closing line closes one block only. -/
theorem matches_unique {L : Nat → Str} {p q i : Nat} (hp : Spec.Matches L p i)
    (hq : Spec.Matches L q i) : p = q := by
  have key : ∀ p q, p < q → Spec.Matches L p i → Spec.Matches L q i → False := by
    intro p q hlt hp hq
    have d1 := balanced_depth hp.2.2.2
    have d2 := balanced_depth hq.2.2.2
    have h1 := d1.2 q (by omega) (by have := hq.1; omega)
    have h2 : depth L (p + 1) (q + 1) = depth L (p + 1) q + 1 := by
      rw [depth, if_pos (by omega), delta_open hq.2.1]
    have h3 := depth_split L (show p + 1 ≤ q + 1 by omega) i (by have := hq.1; omega)
    rw [d1.1, d2.1, h2] at h3
    omega
  rcases Nat.lt_trichotomy p q with h | h | h
  · exact (key p q h hp hq).elim
  · exact h
  · exact (key q p h hq hp).elim

/-- Nothing is left open before a balanced start, so a line there closes nothing. -/
theorem no_match_of_balanced {L : Nat → Str} {i : Nat} (hb : Spec.Balanced L 0 i) (p : Nat) :
    ¬ Spec.Matches L p i := by
  intro hp
  have d1 := balanced_depth hb
  have d2 := balanced_depth hp.2.2.2
  have h1 := d1.2 p (by omega) (by have := hp.1; omega)
  have h2 : depth L 0 (p + 1) = depth L 0 p + 1 := by
    rw [depth, if_pos (by omega), delta_open hp.2.1]
  have h3 := depth_split L (show 0 ≤ p + 1 by omega) i (by have := hp.1; omega)
  rw [d1.1, d2.1, h2] at h3
  omega

/-! ## The stack -/

/-- The stack of open blocks before line `k`. -/
def Chain (L : Nat → Str) : Nat → List Nat → Prop
  | k, [] => Spec.Balanced L 0 k
  | k, p :: rest => p < k ∧ Spec.opens (L p) ∧ Spec.Balanced L (p + 1) k ∧ Chain L p rest

theorem chain_plain {L : Nat → Str} {k : Nat} {st : List Nat} (h : Chain L k st)
    (h1 : ¬ Spec.opens (L k)) (h2 : ¬ Spec.closes (L k)) : Chain L (k + 1) st := by
  cases st with
  | nil => exact Spec.Balanced.plain h h1 h2
  | cons p rest => exact ⟨by have := h.1; omega, h.2.1, .plain h.2.2.1 h1 h2, h.2.2.2⟩

theorem chain_open {L : Nat → Str} {k : Nat} {st : List Nat} (h : Chain L k st)
    (h1 : Spec.opens (L k)) : Chain L (k + 1) (k :: st) :=
  ⟨by omega, h1, .nil, h⟩

theorem chain_close {L : Nat → Str} {k p : Nat} {st : List Nat} (h : Chain L k (p :: st))
    (h1 : Spec.closes (L k)) : Chain L (k + 1) st ∧ Spec.Matches L p k := by
  obtain ⟨hpk, ho, hb, hc⟩ := h
  refine ⟨?_, hpk, ho, h1, hb⟩
  cases st with
  | nil => exact Spec.Balanced.block hc ho hb h1
  | cons q rest => exact ⟨by have := hc.1; omega, hc.2.1, .block hc.2.2.1 ho hb h1, hc.2.2.2⟩

theorem opens_rstrip (t : Str) : Spec.opens (rstrip t) ↔ Spec.opens t := by
  rw [← opensBrace_iff, ← opensBrace_iff, opensBrace, opensBrace, rstrip_rstrip]

theorem bracePass_cons (i : Nat) (todo stack : List Nat) (h : Heap) :
    bracePass (i :: todo) stack h =
      if opensBrace (h i).text then bracePass todo (i :: stack) h
      else if closesBrace (h i).text then
        match stack with
        | p :: stack' => bracePass todo stack' (upd h i (fun b => { b with parent := p }))
        | [] => .error .valueError
      else bracePass todo stack h := by
  cases stack <;> simp only [bracePass]

theorem bracePass_spec {L : Nat → Str} : ∀ (m k : Nat) (st : List Nat) (h : Heap),
    (∀ i, k ≤ i → i < k + m → (h i).text = rstrip (L i)) → Chain L k st →
    (∀ h', bracePass (List.range' k m) st h = .ok h' →
      (∀ j, k ≤ j → j < k + m → Spec.closes (L j) →
        ∃ p, Spec.Matches L p j ∧ h' j = { h j with parent := p }) ∧
      (∀ j, ¬ (k ≤ j ∧ j < k + m ∧ Spec.closes (L j)) → h' j = h j)) ∧
    (∀ e, bracePass (List.range' k m) st h = .error e → e = .valueError ∧
      ∃ j, k ≤ j ∧ j < k + m ∧ Spec.closes (L j) ∧ ∀ p, ¬ Spec.Matches L p j)
  | 0, k, st, h, _, _ => by
    refine ⟨fun h' he => ?_, fun e he => ?_⟩
    · simp only [List.range'_zero, bracePass, Except.ok.injEq] at he
      subst he
      exact ⟨fun j h1 h2 => by omega, fun j _ => rfl⟩
    · simp [bracePass] at he
  | m + 1, k, st, h, hT, hc => by
    have htk : (h k).text = rstrip (L k) := hT k (by omega) (by omega)
    have hopen : opensBrace (h k).text = true ↔ Spec.opens (L k) := by
      rw [htk, opensBrace_iff, opens_rstrip]
    have hclose : (opensBrace (h k).text = false ∧ closesBrace (h k).text = true) ↔ Spec.closes (L k) := by
      rw [← closesBrace_iff, htk, opensBrace, opensBrace, closesBrace, closesBrace, rstrip_rstrip,
        strip, strip, rstrip_rstrip]
    rw [List.range'_succ, bracePass_cons]
    by_cases ho : opensBrace (h k).text = true
    · rw [if_pos ho]
      have hop := hopen.mp ho
      have hncl : ¬ Spec.closes (L k) := fun hcl => hcl.2 hop
      have ih := bracePass_spec m (k + 1) (k :: st) h (fun i h1 h2 => hT i (by omega) (by omega))
        (chain_open hc hop)
      refine ⟨fun h' he => ?_, fun e he => ?_⟩
      · obtain ⟨a1, a2⟩ := ih.1 h' he
        refine ⟨fun j h1 h2 h3 => ?_, fun j hj => ?_⟩
        · have : j ≠ k := by rintro rfl; exact hncl h3
          exact a1 j (by omega) (by omega) h3
        · exact a2 j (fun ⟨h1, h2, h3⟩ => hj ⟨by omega, by omega, h3⟩)
      · obtain ⟨a1, j, b1, b2, b3⟩ := ih.2 e he
        exact ⟨a1, j, by omega, by omega, b3⟩
    · rw [if_neg ho]
      have ho' : opensBrace (h k).text = false := by simpa using ho
      by_cases hcb : closesBrace (h k).text = true
      · rw [if_pos hcb]
        have hcl := hclose.mp ⟨ho', hcb⟩
        cases st with
        | nil =>
          refine ⟨fun h' he => by simp at he, fun e he => ?_⟩
          simp only [Except.error.injEq] at he
          exact ⟨he.symm, k, by omega, by omega, hcl, no_match_of_balanced hc⟩
        | cons p st' =>
          obtain ⟨hch, hm⟩ := chain_close hc hcl
          have ih := bracePass_spec m (k + 1) st' (upd h k (fun b => { b with parent := p }))
            (fun i h1 h2 => by rw [upd_ne _ _ (by omega)]; exact hT i (by omega) (by omega)) hch
          refine ⟨fun h' he => ?_, fun e he => ?_⟩
          · obtain ⟨a1, a2⟩ := ih.1 h' he
            refine ⟨fun j h1 h2 h3 => ?_, fun j hj => ?_⟩
            · by_cases hjk : j = k
              · subst hjk
                refine ⟨p, hm, ?_⟩
                rw [a2 j (by omega), upd_same]
              · obtain ⟨q, hq1, hq2⟩ := a1 j (by omega) (by omega) h3
                refine ⟨q, hq1, ?_⟩
                rw [hq2, upd_ne _ _ hjk]
            · have hjk : j ≠ k := by rintro rfl; exact hj ⟨by omega, by omega, hcl⟩
              rw [a2 j (fun ⟨h1, h2, h3⟩ => hj ⟨by omega, by omega, h3⟩), upd_ne _ _ hjk]
          · obtain ⟨a1, j, b1, b2, b3⟩ := ih.2 e he
            exact ⟨a1, j, by omega, by omega, b3⟩
      · rw [if_neg hcb]
        have hnop : ¬ Spec.opens (L k) := fun hh => ho (hopen.mpr hh)
        have hncl : ¬ Spec.closes (L k) := fun hh => hcb (hclose.mpr hh).2
        have ih := bracePass_spec m (k + 1) st h (fun i h1 h2 => hT i (by omega) (by omega))
          (chain_plain hc hnop hncl)
        refine ⟨fun h' he => ?_, fun e he => ?_⟩
        · obtain ⟨a1, a2⟩ := ih.1 h' he
          refine ⟨fun j h1 h2 h3 => ?_, fun j hj => ?_⟩
          · have : j ≠ k := by rintro rfl; exact hncl h3
            exact a1 j (by omega) (by omega) h3
          · exact a2 j (fun ⟨h1, h2, h3⟩ => hj ⟨by omega, by omega, h3⟩)
        · obtain ⟨a1, j, b1, b2, b3⟩ := ih.2 e he
          exact ⟨a1, j, by omega, by omega, b3⟩

end Conf

import Verif.PyLemmas
import Verif.Conf.Spec

/-! # Lemmas about the indentation pass -/

namespace Conf

open Py

@[simp] theorem upd_same (h : Heap) (i : Nat) (f : Obj → Obj) : upd h i f i = f (h i) := by
  simp [upd]

theorem upd_ne (h : Heap) {i j : Nat} (f : Obj → Obj) (hij : j ≠ i) : upd h i f j = h j := by
  simp [upd, hij]

/-! ## The text tests agree with the specification -/

theorem lineIndent_eq (t : Str) : lineIndent t = Spec.indent t := by
  have := congrArg List.length (List.takeWhile_append_dropWhile (p := isSpace) (l := rstrip t))
  rw [List.length_append] at this
  simp only [lineIndent, lstrip, Spec.indent]
  omega

theorem lstrip_nil_iff (s : Str) : lstrip s = [] ↔ ∀ c ∈ s, isSpace c = true := by
  rw [lstrip]
  induction s with
  | nil => simp
  | cons x xs ih =>
    rw [List.dropWhile_cons]
    by_cases hx : isSpace x = true
    · rw [if_pos hx, ih]; simp [hx]
    · rw [if_neg hx]; simp [hx]

theorem rstrip_eq_append (s : Str) : ∃ ws, s = rstrip s ++ ws ∧ ∀ c ∈ ws, isSpace c = true := by
  refine ⟨(s.reverse.takeWhile isSpace).reverse, ?_, ?_⟩
  · have h := List.takeWhile_append_dropWhile (p := isSpace) (l := s.reverse)
    have h2 := congrArg List.reverse h
    rw [List.reverse_append, List.reverse_reverse] at h2
    exact h2.symm
  · intro c hc
    rw [List.mem_reverse] at hc
    exact of_mem_takeWhile hc

theorem blank_rstrip (s : Str) : Spec.blank (rstrip s) ↔ Spec.blank s := by
  obtain ⟨ws, hs, hw⟩ := rstrip_eq_append s
  constructor
  · intro h c hc
    rw [hs, List.mem_append] at hc
    rcases hc with hc | hc
    · exact h c hc
    · exact hw c hc
  · intro h c hc
    exact h c ((rstrip_prefix s).subset hc)

theorem blank_strip_nil (s : Str) : strip s = [] ↔ Spec.blank s := by
  rw [strip, lstrip_nil_iff]
  exact blank_rstrip s

theorem blank_iff (s : Str) : (strip (rstrip s)).isEmpty = true ↔ Spec.blank s := by
  rw [List.isEmpty_iff, blank_strip_nil, blank_rstrip]

theorem comment_iff (ds : List Char) (s : Str) :
    isCommentText ds (rstrip s) = true ↔ Spec.comment ds s := by
  obtain ⟨ws, hs, hw⟩ := rstrip_eq_append s
  have hsplit := List.takeWhile_append_dropWhile (p := isSpace) (l := rstrip s)
  rw [isCommentText]
  constructor
  · intro h
    cases hl : lstrip (rstrip s) with
    | nil => simp [hl] at h
    | cons c r =>
      simp only [hl, List.contains_iff_mem] at h
      refine ⟨(rstrip s).takeWhile isSpace, c, r ++ ws, ?_, fun x hx => of_mem_takeWhile hx,
        head?_lstrip (rstrip s) c (by rw [hl]; rfl), h⟩
      rw [lstrip] at hl
      rw [hl] at hsplit
      conv => lhs; rw [hs, ← hsplit]
      simp
  · rintro ⟨ws', c, rest, ht, hws, hc, hd⟩
    have hl : (lstrip s).head? = some c := by
      have : lstrip s = c :: rest := by
        rw [ht]
        clear ht
        induction ws' with
        | nil => rw [List.nil_append, lstrip, List.dropWhile_cons, if_neg (by simp [hc])]
        | cons x xs ih =>
          rw [List.cons_append, lstrip, List.dropWhile_cons, if_pos (hws x (by simp))]
          exact ih (fun y hy => hws y (by simp [hy]))
      rw [this]; rfl
    have hl2 : (lstrip (rstrip s)).head? = some c := by
      cases hr : lstrip (rstrip s) with
      | nil =>
        exfalso
        have hb := (lstrip_nil_iff _).mp hr
        have hb' : ∀ x ∈ s, isSpace x = true := by
          intro x hx
          rw [hs, List.mem_append] at hx
          rcases hx with hx | hx
          · exact hb x hx
          · exact hw x hx
        have := hb' c (by rw [ht]; simp)
        simp [hc] at this
      | cons d r =>
        have hd' : isSpace d = false := head?_lstrip (rstrip s) d (by rw [hr]; rfl)
        have hs2 : s = (rstrip s).takeWhile isSpace ++ d :: (r ++ ws) := by
          rw [lstrip] at hr
          rw [hr] at hsplit
          conv => lhs; rw [hs, ← hsplit]
          simp
        have : lstrip s = d :: (r ++ ws) := by
          have hpre : ∀ (p : Str), (∀ x ∈ p, isSpace x = true) →
              lstrip (p ++ d :: (r ++ ws)) = d :: (r ++ ws) := by
            intro p hp
            induction p with
            | nil => rw [List.nil_append, lstrip, List.dropWhile_cons, if_neg (by simp [hd'])]
            | cons x xs ih =>
              rw [List.cons_append, lstrip, List.dropWhile_cons, if_pos (hp x (by simp))]
              exact ih (fun y hy => hp y (by simp [hy]))
          conv => lhs; rw [hs2]
          exact hpre _ (fun x hx => of_mem_takeWhile hx)
        rw [this] at hl
        simpa using hl
    cases hr : lstrip (rstrip s) with
    | nil => rw [hr] at hl2; simp at hl2
    | cons d r =>
      rw [hr] at hl2
      simp only [List.head?_cons, Option.some.injEq] at hl2
      simp only [List.contains_iff_mem, hl2]
      exact hd

/-- The parser's "is a config line" test on the text. -/
def cfgText (o : Opts) (t : Str) : Bool :=
  !(strip (lineText t)).isEmpty && !isCommentText o.delims (lineText t)

theorem cfgText_iff (o : Opts) (t : Str) : cfgText o t = true ↔ Spec.config o.delims t := by
  rw [cfgText, Spec.config, Bool.and_eq_true, Bool.not_eq_true', Bool.not_eq_true',
    ← blank_iff, ← comment_iff, lineText]
  simp

theorem mkObj_isConfig (o : Opts) (t : Str) (i : Nat) : (mkObj o t i).isConfig = cfgText o t := rfl

/-! ## The parent function -/

/-- Walk back over the text lines. -/
def nearest (o : Opts) (L : Nat → Str) (ind : Nat) : Nat → Option Nat
  | 0 => none
  | k + 1 =>
    if lineIndent (L k) < ind ∧ cfgText o (L k) = true then some k else nearest o L ind k

/-- The parent the indentation pass computes. -/
def sp (o : Opts) (L : Nat → Str) (i : Nat) : Nat :=
  if lineIndent (L i) = 0 then i
  else match nearest o L (lineIndent (L i)) i with
    | none => i
    | some p =>
      if isCommentText o.delims (lineText (L i)) = true ∧ lineIndent (L (i - 1)) > lineIndent (L i)
      then i else p

/-- The children, in order, among the first `n` lines. -/
def kids (o : Opts) (L : Nat → Str) (n i : Nat) : List Nat :=
  (List.range n).filter (fun j => sp o L j == i && j != i)

theorem nearest_spec {o : Opts} {L : Nat → Str} {ind k p : Nat} :
    nearest o L ind k = some p ↔
      p < k ∧ lineIndent (L p) < ind ∧ cfgText o (L p) = true ∧
      ∀ q, p < q → q < k → cfgText o (L q) = true → ind ≤ lineIndent (L q) := by
  induction k with
  | zero => simp [nearest]
  | succ k ih =>
    rw [nearest]
    split
    · rename_i h
      simp only [Option.some.injEq]
      constructor
      · rintro rfl
        exact ⟨by omega, h.1, h.2, fun q h1 h2 => by omega⟩
      · rintro ⟨h1, h2, h3, h4⟩
        by_cases hpk : p = k
        · exact hpk.symm
        · have := h4 k (by omega) (by omega) h.2
          omega
    · rename_i h
      rw [ih]
      constructor
      · rintro ⟨h1, h2, h3, h4⟩
        refine ⟨by omega, h2, h3, fun q hq1 hq2 hc => ?_⟩
        by_cases hqk : q = k
        · subst hqk
          have : ¬ lineIndent (L q) < ind := fun hlt => h ⟨hlt, hc⟩
          omega
        · exact h4 q hq1 (by omega) hc
      · rintro ⟨h1, h2, h3, h4⟩
        have hpk : p ≠ k := by
          rintro rfl
          exact h ⟨h2, h3⟩
        exact ⟨by omega, h2, h3, fun q hq1 hq2 => h4 q hq1 (by omega)⟩

theorem nearest_none {o : Opts} {L : Nat → Str} {ind k : Nat} (h : nearest o L ind k = none) (q : Nat)
    (hq : q < k) : ¬ (lineIndent (L q) < ind ∧ cfgText o (L q) = true) := by
  induction k with
  | zero => omega
  | succ k ih =>
    rw [nearest] at h
    split at h
    · simp at h
    · rename_i h1
      by_cases hqk : q = k
      · rw [hqk]; exact h1
      · exact ih h (by omega)

theorem sp_le (o : Opts) (L : Nat → Str) (i : Nat) : sp o L i ≤ i := by
  rw [sp]
  split
  · omega
  · split
    · omega
    · rename_i p hp
      split
      · omega
      · exact Nat.le_of_lt (nearest_spec.mp hp).1

/-- The computed parent obeys the rule. -/
theorem sp_rule (o : Opts) (L : Nat → Str) (i : Nat) :
    Spec.ParentRule o.delims L i (sp o L i) := by
  have hnear : ∀ p, Spec.Nearest o.delims L i p ↔ nearest o L (lineIndent (L i)) i = some p := by
    intro p
    rw [nearest_spec, Spec.Nearest]
    simp only [lineIndent_eq, cfgText_iff]
    constructor
    · rintro ⟨a, b, c, d⟩; exact ⟨a, c, b, d⟩
    · rintro ⟨a, b, c, d⟩; exact ⟨a, c, b, d⟩
  have hun : (isCommentText o.delims (lineText (L i)) = true ∧
      lineIndent (L (i - 1)) > lineIndent (L i)) → 0 < i → Spec.Unattached o.delims L i := by
    rintro ⟨h1, h2⟩ h3
    refine ⟨(comment_iff _ _).mp h1, h3, ?_⟩
    rw [← lineIndent_eq, ← lineIndent_eq]; exact h2
  rw [Spec.ParentRule]
  simp only [hnear]
  rw [sp]
  split
  · rename_i h0
    right
    refine ⟨.inr (fun q hq => ?_), rfl⟩
    have := (nearest_spec.mp hq).2.1
    omega
  · split
    · rename_i hn
      right
      exact ⟨.inr (fun q hq => by rw [hn] at hq; simp at hq), rfl⟩
    · rename_i p hp
      have hpi := (nearest_spec.mp hp).1
      split
      · rename_i hu
        right
        exact ⟨.inl (hun hu (by omega)), rfl⟩
      · rename_i hu
        left
        refine ⟨fun h => hu ?_, hp⟩
        obtain ⟨h1, h2, h3⟩ := h
        rw [← lineIndent_eq, ← lineIndent_eq] at h3
        exact ⟨(comment_iff _ _).mpr h1, h3⟩

/-- The rule determines the parent. -/
theorem rule_unique {ds : List Char} {L : Nat → Str} {i p q : Nat} (hp : Spec.ParentRule ds L i p)
    (hq : Spec.ParentRule ds L i q) : p = q := by
  have hu : ∀ a b, Spec.Nearest ds L i a → Spec.Nearest ds L i b → a = b := by
    intro a b ha hb
    obtain ⟨a1, a2, a3, a4⟩ := ha
    obtain ⟨b1, b2, b3, b4⟩ := hb
    rcases Nat.lt_trichotomy a b with h | h | h
    · have := a4 b h b1 b2; omega
    · exact h
    · have := b4 a h a1 a2; omega
  rcases hp with ⟨h1, h2⟩ | ⟨h1, h2⟩ <;> rcases hq with ⟨h3, h4⟩ | ⟨h3, h4⟩
  · exact hu p q h2 h4
  · rcases h3 with h3 | h3
    · exact absurd h3 h1
    · exact absurd h2 (h3 p)
  · rcases h1 with h1 | h1
    · exact absurd h1 h3
    · exact absurd h4 (h1 q)
  · rw [h2, h4]

/-! ## The loop invariant -/

/-- What the loop has built after `s.n` lines. -/
structure Inv (o : Opts) (L : Nat → Str) (s : BS) : Prop where
  obj : ∀ i, i < s.n → s.h i = { mkObj o (L i) i with
    parent := sp o L i, children := kids o L s.n i, childIndent := (s.h i).childIndent }
  cache : ∀ k p, (k, p) ∈ s.cache → 0 < k ∧ k ≤ s.maxIndent ∧ nearest o L k s.n = some p

theorem lookup_mem {d : List (Nat × Nat)} {k v : Nat} (h : d.lookup k = some v) : (k, v) ∈ d := by
  induction d with
  | nil => simp at h
  | cons e es ih =>
    obtain ⟨a, b⟩ := e
    rw [List.lookup_cons] at h
    split at h
    · rename_i hk
      simp only [beq_iff_eq] at hk
      simp only [Option.some.injEq] at h
      simp [hk, h]
    · exact List.mem_cons_of_mem _ (ih h)

theorem walkBack_eq {o : Opts} {L : Nat → Str} {h : Heap} {ind : Nat} :
    ∀ k, (∀ i, i < k → (h i).indent = lineIndent (L i) ∧ (h i).isConfig = cfgText o (L i)) →
      walkBack h ind k = nearest o L ind k
  | 0, _ => rfl
  | k + 1, hk => by
    rw [walkBack, nearest, (hk k (by omega)).1, (hk k (by omega)).2,
      walkBack_eq k (fun i hi => hk i (by omega))]

theorem kids_succ (o : Opts) (L : Nat → Str) (n i : Nat) :
    kids o L (n + 1) i = kids o L n i ++ (if sp o L n == i && n != i then [n] else []) := by
  rw [kids, List.range_succ, List.filter_append, kids, List.filter_cons, List.filter_nil]

theorem kids_self (o : Opts) (L : Nat → Str) (n : Nat) : kids o L n n = [] := by
  rw [kids, List.filter_eq_nil_iff]
  intro j hj
  rw [List.mem_range] at hj
  have := sp_le o L j
  simp
  intro h; omega

theorem inv_bs0 (o : Opts) (L : Nat → Str) : Inv o L bs0 :=
  ⟨fun i hi => by simp [bs0] at hi, fun k p h => by simp [bs0] at h⟩

/-- The object of line `n` after the indentation pass step, and the others. -/
theorem inv_step {o : Opts} {L : Nat → Str} {s : BS} (hi : Inv o L s) :
    Inv o L (step o s (L s.n)) := by
  have hattr : ∀ i, i < s.n → (s.h i).indent = lineIndent (L i) ∧
      (s.h i).isConfig = cfgText o (L i) := by
    intro i h
    rw [hi.obj i h]
    exact ⟨rfl, rfl⟩
  -- the heap with the new object
  generalize hg : upd s.h s.n (fun _ => mkObj o (L s.n) s.n) = g
  have gn : g s.n = mkObj o (L s.n) s.n := by rw [← hg]; simp
  have gi : ∀ i, i ≠ s.n → g i = s.h i := by intro i h; rw [← hg, upd_ne _ _ h]
  have gattr : ∀ i, i < s.n → (g i).indent = lineIndent (L i) ∧
      (g i).isConfig = cfgText o (L i) := by
    intro i h; rw [gi i (by omega)]; exact hattr i h
  -- heap after linking to `p`, the nearest
  have hlink : ∀ p, lineIndent (L s.n) ≠ 0 → nearest o L (lineIndent (L s.n)) s.n = some p →
      ∀ i, i < s.n + 1 → addChild g s.n p i = { mkObj o (L i) i with
        parent := sp o L i, children := kids o L (s.n + 1) i,
        childIndent := (addChild g s.n p i).childIndent } := by
    intro p h0 hp i hin
    have hpn := (nearest_spec.mp hp).1
    have hsp : sp o L s.n = if isCommentText o.delims (lineText (L s.n)) = true ∧
        lineIndent (L (s.n - 1)) > lineIndent (L s.n) then s.n else p := by
      rw [sp, if_neg h0, hp]
    have hc : (g s.n).isComment = isCommentText o.delims (lineText (L s.n)) := by rw [gn]; rfl
    have hind : (g s.n).indent = lineIndent (L s.n) := by rw [gn]; rfl
    have hprev : (g (s.n - 1)).indent = lineIndent (L (s.n - 1)) := (gattr (s.n - 1) (by omega)).1
    rw [addChild, hc, hind, hprev]
    by_cases hcond : isCommentText o.delims (lineText (L s.n)) = true ∧
        lineIndent (L (s.n - 1)) > lineIndent (L s.n)
    · rw [if_pos hcond] at hsp ⊢
      rw [kids_succ, hsp]
      by_cases hin' : i = s.n
      · subst hin'
        rw [gn, kids_self]
        simp [mkObj, hsp]
      · rw [gi i hin', hi.obj i (by omega)]
        have : (s.n == i && s.n != i) = false := by simp
        simp [this]
    · rw [if_neg hcond] at hsp ⊢
      rw [kids_succ, hsp]
      by_cases hin' : i = s.n
      · subst hin'
        have : (p == s.n && s.n != s.n) = false := by simp
        rw [upd_same, upd_ne _ _ (by omega), gn, kids_self]
        simp [mkObj, hsp]
      · rw [upd_ne _ _ hin']
        by_cases hip : i = p
        · subst hip
          have : (i == i && s.n != i) = true := by simp; omega
          rw [upd_same, gi i hin', hi.obj i (by omega)]
          simp only [this, if_true]
        · have : (p == i && s.n != i) = false := by
            simp
            intro h; omega
          rw [upd_ne _ _ hip, gi i hin', hi.obj i (by omega)]
          simp [this]
  -- heap without a link
  have hnolink : sp o L s.n = s.n → ∀ i, i < s.n + 1 → g i = { mkObj o (L i) i with
        parent := sp o L i, children := kids o L (s.n + 1) i, childIndent := (g i).childIndent } := by
    intro hsp i hin
    rw [kids_succ, hsp]
    have : (s.n == i && s.n != i) = false := by
      by_cases h : s.n = i <;> simp [h]
    simp only [this, Bool.false_eq_true, if_false, List.append_nil]
    by_cases hin' : i = s.n
    · subst hin'
      rw [gn, kids_self]
      simp [mkObj, hsp]
    · rw [gi i hin']; exact hi.obj i (by omega)
  -- what the cache lookup and the walk back find
  have hmc : ∀ p, (maintainCache s.cache (lineIndent (L s.n)) s.maxIndent (cfgText o (L s.n))).2 = some p →
      nearest o L (lineIndent (L s.n)) s.n = some p := by
    intro p h
    rw [maintainCache] at h
    split at h
    · simp at h
    · exact (hi.cache _ _ (lookup_mem h)).2.2
  have hwb : walkBack g (lineIndent (L s.n)) s.n = nearest o L (lineIndent (L s.n)) s.n :=
    walkBack_eq s.n gattr
  -- surviving cache entries stay right
  have hmc2 : ∀ k p,
      (k, p) ∈ (maintainCache s.cache (lineIndent (L s.n)) s.maxIndent (cfgText o (L s.n))).1 →
      (k, p) ∈ s.cache ∧ ¬ (lineIndent (L s.n) < k ∧ cfgText o (L s.n) = true) ∧
      (lineIndent (L s.n) = 0 ∧ cfgText o (L s.n) = true → False) := by
    intro k p h
    rw [maintainCache] at h
    split at h
    · rename_i hc
      simp only [List.mem_filter, decide_eq_true_eq] at h
      have := (hi.cache k p h.1).1
      exact ⟨h.1, by omega, by omega⟩
    · rename_i hc
      simp only at h
      have := hi.cache k p h
      refine ⟨h, ?_, ?_⟩
      · rintro ⟨h1, h2⟩; exact hc ⟨by omega, h2⟩
      · rintro ⟨h1, h2⟩; exact hc ⟨by omega, h2⟩
  have hstep : ∀ k, nearest o L k (s.n + 1) =
      if lineIndent (L s.n) < k ∧ cfgText o (L s.n) = true then some s.n else nearest o L k s.n :=
    fun k => rfl
  have hmax : ∀ k, k ≤ s.maxIndent → (lineIndent (L s.n) = 0 ∧ cfgText o (L s.n) = true → False) →
      k ≤ (step o s (L s.n)).maxIndent := by
    intro k hk hc
    have : (step o s (L s.n)).maxIndent =
      if lineIndent (L s.n) = 0 ∧ cfgText o (L s.n) = true then 0
      else if lineIndent (L s.n) > s.maxIndent then lineIndent (L s.n) else s.maxIndent := rfl
    rw [this, if_neg hc]
    split <;> omega
  have hmaxn : 0 < lineIndent (L s.n) → lineIndent (L s.n) ≤ (step o s (L s.n)).maxIndent := by
    intro h0
    have : (step o s (L s.n)).maxIndent =
      if lineIndent (L s.n) = 0 ∧ cfgText o (L s.n) = true then 0
      else if lineIndent (L s.n) > s.maxIndent then lineIndent (L s.n) else s.maxIndent := rfl
    rw [this, if_neg (by omega)]
    split <;> omega
  have hold : ∀ k p,
      (k, p) ∈ (maintainCache s.cache (lineIndent (L s.n)) s.maxIndent (cfgText o (L s.n))).1 →
      0 < k ∧ k ≤ (step o s (L s.n)).maxIndent ∧ nearest o L k (s.n + 1) = some p := by
    intro k p h
    obtain ⟨h1, h2, h3⟩ := hmc2 k p h
    have h4 := hi.cache k p h1
    exact ⟨h4.1, hmax k h4.2.1 h3, by rw [hstep, if_neg h2]; exact h4.2.2⟩
  -- unfold the step
  have hn1 : (step o s (L s.n)).n = s.n + 1 := rfl
  have hres : ((step o s (L s.n)).cache, (step o s (L s.n)).h) =
      (if lineIndent (L s.n) > 0 then
        match (maintainCache s.cache (lineIndent (L s.n)) s.maxIndent (cfgText o (L s.n))).2 with
        | some p => ((maintainCache s.cache (lineIndent (L s.n)) s.maxIndent (cfgText o (L s.n))).1,
            addChild g s.n p)
        | none =>
          match walkBack g (lineIndent (L s.n)) s.n with
          | some p => (dictSet (maintainCache s.cache (lineIndent (L s.n)) s.maxIndent
              (cfgText o (L s.n))).1 (lineIndent (L s.n)) p, addChild g s.n p)
          | none => ((maintainCache s.cache (lineIndent (L s.n)) s.maxIndent (cfgText o (L s.n))).1, g)
      else ((maintainCache s.cache (lineIndent (L s.n)) s.maxIndent (cfgText o (L s.n))).1, g)) := by
    rw [← hg]; rfl
  constructor
  · rw [hn1]
    split at hres
    · rename_i h0
      split at hres
      · rename_i p hp
        have hh := (Prod.ext_iff.mp hres).2
        dsimp only at hh
        rw [hh]
        exact hlink p (by omega) (hmc p hp)
      · rename_i hp
        rw [hwb] at hres
        split at hres
        · rename_i p hp2
          have hh := (Prod.ext_iff.mp hres).2
          dsimp only at hh
          rw [hh]
          exact hlink p (by omega) hp2
        · rename_i hp2
          have hh := (Prod.ext_iff.mp hres).2
          dsimp only at hh
          rw [hh]
          exact hnolink (by rw [sp, if_neg (by omega), hp2])
    · rename_i h0
      have hh := (Prod.ext_iff.mp hres).2
      dsimp only at hh
      rw [hh]
      exact hnolink (by rw [sp, if_pos (by omega)])
  · rw [hn1]
    intro k p hkp
    split at hres
    · rename_i h0
      split at hres
      · rename_i p' hp
        have hh := (Prod.ext_iff.mp hres).1
        dsimp only at hh
        rw [hh] at hkp
        exact hold k p hkp
      · rename_i hp
        rw [hwb] at hres
        split at hres
        · rename_i p' hp2
          have hh := (Prod.ext_iff.mp hres).1
          dsimp only at hh
          rw [hh] at hkp
          simp only [dictSet, List.mem_cons, Prod.mk.injEq, List.mem_filter] at hkp
          rcases hkp with ⟨rfl, rfl⟩ | ⟨h1, _⟩
          · refine ⟨h0, hmaxn h0, ?_⟩
            rw [hstep, if_neg (by omega)]; exact hp2
          · exact hold k p h1
        · have hh := (Prod.ext_iff.mp hres).1
          dsimp only at hh
          rw [hh] at hkp
          exact hold k p hkp
    · have hh := (Prod.ext_iff.mp hres).1
      dsimp only at hh
      rw [hh] at hkp
      exact hold k p hkp

theorem step_n (o : Opts) (s : BS) (t : Str) : (step o s t).n = s.n + 1 := rfl

theorem indentPass_take (o : Opts) (lines : List Str) : ∀ k, k ≤ lines.length →
    Inv o (lineAt lines) (indentPass o (lines.take k)) ∧ (indentPass o (lines.take k)).n = k
  | 0, _ => by
    rw [List.take_zero]
    exact ⟨inv_bs0 _ _, rfl⟩
  | k + 1, hk => by
    obtain ⟨h1, h2⟩ := indentPass_take o lines k (by omega)
    have ht : lines.take (k + 1) = lines.take k ++ [lineAt lines k] := by
      rw [List.take_succ_eq_append_getElem (by omega)]
      simp [lineAt, List.getElem?_eq_getElem (show k < lines.length by omega)]
    have hp : indentPass o (lines.take (k + 1)) = step o (indentPass o (lines.take k)) (lineAt lines k) := by
      rw [ht, indentPass, List.foldl_append]; rfl
    rw [hp]
    have := inv_step h1
    rw [h2] at this
    exact ⟨this, by rw [step_n, h2]⟩

theorem indentPass_n (o : Opts) (lines : List Str) : (indentPass o lines).n = lines.length := by
  have := (indentPass_take o lines lines.length (Nat.le_refl _)).2
  rwa [List.take_length] at this

theorem indentPass_inv (o : Opts) (lines : List Str) : Inv o (lineAt lines) (indentPass o lines) := by
  have := (indentPass_take o lines lines.length (Nat.le_refl _)).1
  rwa [List.take_length] at this

end Conf

import Verif.Re.Hit
import Verif.Re.Shapes
import Verif.Conf.Final

/-! # Expressions that are not anchored: the first place that matches -/

namespace Re

open Py Conf

/-- The first end of the text at which `f` gives something. -/
def firstAt {β : Type} (f : Str → Option β) : Str → Option β
  | [] => f []
  | x :: s => (f (x :: s)).or (firstAt f s)

variable {β : Type} {f : Str → Option β}

theorem search_firstAt (r : Rgx) (n : Nat) : ∀ (s : Str) (k : Nat),
    (searchFrom n r k s).map Found.caps = firstAt (fun u => (run n r u []).head?.map Prod.snd) s
  | [], k => by
    rw [searchFrom, firstAt]
    cases run n r [] [] <;> rfl
  | x :: s, k => by
    rw [searchFrom, firstAt, ← search_firstAt r n s (k + 1)]
    cases run n r (x :: s) [] <;> rfl

theorem firstAt_none {s : Str} : firstAt f s = none ↔ ∀ u, u <:+ s → f u = none := by
  induction s with
  | nil =>
    rw [firstAt]
    constructor
    · intro h u hu; rw [List.suffix_nil.mp hu]; exact h
    · intro h; exact h [] (List.suffix_refl _)
  | cons x s ih =>
    rw [firstAt, Option.or_eq_none_iff, ih]
    constructor
    · rintro ⟨h1, h2⟩ u hu
      rcases List.suffix_cons_iff.mp hu with rfl | h
      · exact h1
      · exact h2 u h
    · intro h
      exact ⟨h _ (List.suffix_refl _), fun u hu => h u (hu.trans (List.suffix_cons _ _))⟩

theorem firstAt_congr {g : Str → Option β} {s : Str} (h : ∀ u, u <:+ s → f u = g u) : firstAt f s = firstAt g s := by
  induction s with
  | nil => exact h [] (List.suffix_refl _)
  | cons x s ih =>
    rw [firstAt, firstAt, h _ (List.suffix_refl _), ih (fun u hu => h u (hu.trans (List.suffix_cons _ _)))]

/-- Nothing at the beginning. -/
theorem firstAt_append {v s : Str} (h : ∀ u, u <:+ v → u ≠ [] → f (u ++ s) = none) : firstAt f (v ++ s) = firstAt f s := by
  induction v with
  | nil => rfl
  | cons x v ih =>
    rw [List.cons_append, firstAt, ← List.cons_append, h _ (List.suffix_refl _) (by simp), Option.none_or]
    exact ih (fun u hu => h u (hu.trans (List.suffix_cons _ _)))

theorem firstAt_lstrip (h : ∀ x s, isSpace x = true → f (x :: s) = none) (s : Str) : firstAt f s = firstAt f (lstrip s) := by
  induction s with
  | nil => rfl
  | cons x s ih =>
    by_cases hx : isSpace x = true
    · rw [firstAt, h x s hx, Option.none_or, ih]
      rw [show lstrip (x :: s) = lstrip s from List.dropWhile_cons_of_pos hx]
    · rw [show lstrip (x :: s) = x :: s from List.dropWhile_cons_of_neg hx]

theorem firstAt_here {s : Str} {b : β} (h : f s = some b) : firstAt f s = some b := by
  cases s with
  | nil => exact h
  | cons x s => rw [firstAt, h]; rfl

theorem firstAt_some {s : Str} {b : β} (h : firstAt f s = some b) : ∃ u, u <:+ s ∧ f u = some b := by
  induction s with
  | nil => exact ⟨[], List.suffix_refl _, h⟩
  | cons x s ih =>
    rw [firstAt] at h
    cases hx : f (x :: s) with
    | some b' => rw [hx] at h; cases h; exact ⟨_, List.suffix_refl _, hx⟩
    | none =>
      rw [hx] at h
      obtain ⟨u, h1, h2⟩ := ih h
      exact ⟨u, h1.trans (List.suffix_cons _ _), h2⟩

/-- `.*?` tries what follows at every place, from left to right. -/
theorem run_lazy (n : Nat) {κ : Kont} (c : Caps) : ∀ (m : Nat) {s : Str}, '\n' ∉ s → s.length ≤ m →
    ((runStar false (run n (.cls K.any.cls)) m s c).flatMap κ).head? = firstAt (fun u => (κ (u, c)).head?) s
  | 0, s, _, h => by
    have : s = [] := List.length_eq_zero_iff.mp (by omega)
    subst this
    simp [runStar, firstAt]
  | m + 1, [], _, _ => by simp [runStar, run, firstAt]
  | m + 1, x :: s, hs, h => by
    have hs' : '\n' ∉ s := fun h => hs (by simp [h])
    have ih := run_lazy n (κ := κ) c m (s := s) hs' (by simpa using h)
    have hx : K.any.has x = true := by
      have : x ≠ '\n' := fun e => hs (by simp [e])
      simp [K.has, this]
    rw [runStar, if_neg (by simp), run, K.cls_has, if_pos hx, firstAt, ← ih]
    simp only [List.flatMap_cons, List.flatMap_nil, List.append_nil, if_pos (show s.length < (x :: s).length by simp),
      List.head?_append]

/-- `\s+` before something that passes over blanks. -/
theorem run_blanks (n : Nat) {κ : Kont} (c : Caps) {F : Str → Option (Str × Caps)} {N : Str → Prop}
    (hκ : ∀ s, N s → (κ (s, c)).head? = F s) (hN : ∀ x s, N (x :: s) → N s)
    (hF : ∀ x s, isSpace x = true → F (x :: s) = F s) : ∀ (m : Nat) (s : Str), N s → s.length ≤ m →
    ((runStar true (run n (.cls K.space.cls)) m s c).flatMap κ).head? = F (lstrip s)
  | 0, s, hs, h => by
    have : s = [] := List.length_eq_zero_iff.mp (by omega)
    subst this
    simp [runStar, hκ _ hs]; rfl
  | m + 1, [], hs, _ => by simp [runStar, run, hκ _ hs]; rfl
  | m + 1, x :: s, hs, h => by
    have ih := run_blanks n c hκ hN hF m s (hN x s hs) (by simpa using h)
    rw [runStar, if_pos rfl, run, K.cls_has]
    by_cases hx : isSpace x = true
    · have e : lstrip (x :: s) = lstrip s := List.dropWhile_cons_of_pos hx
      have hF' : ∀ s, F s = F (lstrip s) := by
        intro s
        induction s with
        | nil => rfl
        | cons y s ih =>
          by_cases hy : isSpace y = true
          · rw [hF y s hy, ih, show lstrip (y :: s) = lstrip s from List.dropWhile_cons_of_pos hy]
          · rw [show lstrip (y :: s) = y :: s from List.dropWhile_cons_of_neg hy]
      rw [if_pos (show K.space.has x = true from hx), e]
      simp only [List.flatMap_cons, List.flatMap_nil, List.append_nil, if_pos (show s.length < (x :: s).length by simp),
        List.flatMap_append, List.head?_append, ih, hκ _ hs]
      rw [hF x s hx, ← hF', Option.or_self]
    · rw [if_neg (by simpa [K.has] using hx), show lstrip (x :: s) = x :: s from List.dropWhile_cons_of_neg hx]
      simp [hκ _ hs]

/-- `key\s+.*?` and then `p`. -/
def afterL (key : Str) (p : Prog) : List Rgx :=
  (str key .done).toL ++ (.seq (.cls K.space.cls) (.star true (.cls K.space.cls))) :: .star false (.cls K.any.cls) :: p.toL

/-- The first place behind `key` where `p` matches. -/
def afterDet (key : Str) (p : Prog) (s : Str) : Option Caps :=
  if key <+: s then
    match s.drop key.length with
    | [] => none
    | x :: r => if isSpace x then (firstAt (fun u => p.det u []) (lstrip r)).map Prod.snd else none
  else none

theorem wf_str (w : Str) (f : K → Bool) (t : Bool) : (str w .done).wf f t = true := by
  induction w with
  | nil => rfl
  | cons x w ih => exact ih

theorem run_afterL (n : Nat) {key : Str} {p : Prog} (hp : p.wf (fun _ => false) true = true)
    (hb : ∀ x s c, isSpace x = true → p.det (x :: s) c = none) {s : Str} (hs : '\n' ∉ s) :
    (run n (seqs (afterL key p)) s []).head?.map Prod.snd = afterDet key p s := by
  rw [afterL, run_seqs_append, (str key .done).det_spec n (fun _ => false) false _ s [] (wf_str key _ _) (fun _ h => by cases h)
    (fun h => by cases h), det_str, afterDet]
  by_cases h : key <+: s
  · rw [if_pos h, if_pos h, Prog.det, Option.bind_some]
    have hd : '\n' ∉ s.drop key.length := fun hh => hs (List.mem_of_mem_drop hh)
    cases hk : s.drop key.length with
    | nil => rw [run_seqs_cons', run]; rfl
    | cons x r =>
      rw [hk] at hd
      rw [run_seqs_cons', run, run, K.cls_has]
      by_cases hx : isSpace x = true
      · rw [if_pos (show K.space.has x = true from hx)]
        show Option.map _ _ = if isSpace x = true then _ else _
        rw [if_pos hx]
        congr 1
        simp only [List.flatMap_cons, List.flatMap_nil, List.append_nil]
        rw [run]
        refine run_blanks n [] (F := firstAt (fun u => p.det u [])) (N := fun s => '\n' ∉ s) ?_ ?_ ?_ _ r
          (fun hh => hd (by simp [hh])) (Nat.le_refl _)
        · intro u hu
          show (run n (seqs (.star false (.cls K.any.cls) :: p.toL)) u []).head? = _
          rw [run_seqs_cons', run, run_lazy n [] _ hu (Nat.le_refl _)]
          exact firstAt_congr (fun v _ => head_prog n hp v [])
        · intro y u hu hh; exact hu (by simp [hh])
        · intro y u hy; rw [firstAt, hb y u [] hy, Option.none_or]
      · rw [if_neg (show ¬ K.space.has x = true from hx)]
        show Option.map _ _ = if isSpace x = true then _ else _
        rw [if_neg hx]
        rfl
  · rw [if_neg h, if_neg h]
    rfl

/-- `key\s+.*?p`, anywhere in a line. -/
theorem search_afterL {key : Str} {p : Prog} (hp : p.wf (fun _ => false) true = true)
    (hb : ∀ x s c, isSpace x = true → p.det (x :: s) c = none) (g : Nat) (names : List (Str × Nat)) {t : Str} (ht : '\n' ∉ t) :
    (search ⟨seqs (afterL key p), g, names⟩ t).map Found.caps = firstAt (afterDet key p) t := by
  rw [search, search_firstAt]
  exact firstAt_congr (fun u hu => run_afterL _ hp hb (fun hh => ht (hu.subset hh)))

/-- An expression that is not anchored, anywhere in a line. -/
theorem search_free {p : Prog} (hp : p.wf (fun _ => false) true = true) (g : Nat) (names : List (Str × Nat)) (t : Str) :
    (search ⟨seqs p.toL, g, names⟩ t).map Found.caps = firstAt (fun u => (p.det u []).map Prod.snd) t := by
  rw [search, search_firstAt]
  exact firstAt_congr (fun u _ => by rw [head_prog _ hp])

end Re

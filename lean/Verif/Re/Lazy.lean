import Verif.Re.Lang

/-! # The first match where there is a choice

`Re/Hit.lean` with what follows given as a function, and rules for repetition. -/

namespace Re

open Py

/-- The first match at the beginning of `s` that what follows accepts leaves `q`. -/
def HitK (n : Nat) (r : Rgx) (κ : Str × Caps → List (Str × Caps)) (s : Str) (c : Caps) (q : Str × Caps) : Prop :=
  ((run n r s c).flatMap κ).head? = some q

theorem hit_iff (n : Nat) (r : Rgx) (s : Str) (c : Caps) (q : Str × Caps) :
    Hit n r s c q ↔ HitK n r (fun p => [p]) s c q := by
  rw [Hit, HitK, List.flatMap_singleton']

theorem hit_cons_iff (n : Nat) (a : Rgx) (l : List Rgx) (s : Str) (c : Caps) (q : Str × Caps) :
    Hit n (seqs (a :: l)) s c q ↔ HitK n a (fun p => run n (seqs l) p.1 p.2) s c q := by
  rw [Hit, HitK, run_seqs_cons']

theorem hitk_seq (n : Nat) (a b : Rgx) (κ : Str × Caps → List (Str × Caps)) (s : Str) (c : Caps) (q : Str × Caps) :
    HitK n (.seq a b) κ s c q ↔ HitK n a (fun p => (run n b p.1 p.2).flatMap κ) s c q := by
  rw [HitK, HitK, run, List.flatMap_assoc]

theorem hitk_grp (n k : Nat) (a : Rgx) (κ : Str × Caps → List (Str × Caps)) (s : Str) (c : Caps) (q : Str × Caps) :
    HitK n (.grp k a) κ s c q ↔ HitK n a (fun p => κ (p.1, (k, s.take (s.length - p.1.length)) :: p.2)) s c q := by
  rw [HitK, HitK, run, List.flatMap_map]

/-- The first choice is accepted. -/
theorem hitk_first {n : Nat} {a : Rgx} {κ : Str × Caps → List (Str × Caps)} {s : Str} {c : Caps} {p q : Str × Caps}
    (h1 : Hit n a s c p) (h2 : (κ p).head? = some q) : HitK n a κ s c q := head_flatMap h1 h2

theorem runStar_nil (g : Bool) (f : Str → Caps → List (Str × Caps)) (m : Nat) (c : Caps) : runStar g f m [] c = [([], c)] := by
  cases m with
  | zero => rfl
  | succ m =>
    rw [runStar]
    have : (f [] c).flatMap (fun p => if p.1.length < ([] : Str).length then runStar g f m p.1 p.2 else []) = [] := by
      rw [List.flatMap_eq_nil_iff]
      intro p _
      rw [if_neg (by simp)]
    simp only [this]
    cases g <;> rfl

theorem runStar_fuel (g : Bool) (f : Str → Caps → List (Str × Caps)) (m k : Nat) (s : Str) (c : Caps) (h : s.length ≤ m)
    (hk : s.length ≤ k) : runStar g f m s c = runStar g f k s c := by
  induction m generalizing s c k with
  | zero => rw [List.length_eq_zero_iff.mp (Nat.le_zero.mp h), runStar_nil, runStar_nil]
  | succ m ih =>
    cases s with
    | nil => rw [runStar_nil, runStar_nil]
    | cons x s =>
      cases k with
      | zero => simp at hk
      | succ k =>
        rw [runStar, runStar]
        have : (fun p : Str × Caps => if p.1.length < (x :: s).length then runStar g f m p.1 p.2 else []) =
            (fun p : Str × Caps => if p.1.length < (x :: s).length then runStar g f k p.1 p.2 else []) := by
          funext p
          by_cases hp : p.1.length < (x :: s).length
          · rw [if_pos hp, if_pos hp]
            rw [List.length_cons] at hp h hk
            exact ih k p.1 p.2 (by omega) (by omega)
          · rw [if_neg hp, if_neg hp]
        simp only [this]

/-- `a*` stops where `a` does not match. -/
theorem hit_star_stop {n : Nat} {a : Rgx} {s : Str} {c : Caps} (h : Miss n a s c) : Hit n (.star true a) s c (s, c) := by
  rw [Hit, run]
  cases s with
  | nil => rfl
  | cons x s => rw [List.length_cons, runStar, h]; rfl

/-- `a*` goes on after the first match of `a`. -/
theorem hit_star_step {n : Nat} {a : Rgx} {s : Str} {c : Caps} {p q : Str × Caps} (h1 : Hit n a s c p)
    (hl : p.1.length < s.length) (h2 : Hit n (.star true a) p.1 p.2 q) : Hit n (.star true a) s c q := by
  rw [Hit, run] at h2 ⊢
  cases s with
  | nil => simp at hl
  | cons x s =>
    rw [List.length_cons, runStar]
    simp only [if_true, List.head?_append]
    rw [head_flatMap h1 (b := q)]
    · rfl
    · rw [if_pos hl]
      rw [List.length_cons] at hl
      rw [runStar_fuel _ _ _ p.1.length _ _ (by omega) (Nat.le_refl _)]
      exact h2

/-- `k*` for a class, as far as possible. -/
theorem hit_star_cls (n : Nat) (k : Cls) (s : Str) (c : Caps) : Hit n (.star true (.cls k)) s c (s.dropWhile k.has, c) := by
  induction s with
  | nil => exact hit_star_stop rfl
  | cons x s ih =>
    by_cases h : k.has x = true
    · rw [List.dropWhile_cons_of_pos h]
      refine hit_star_step (p := (s, c)) ?_ (by simp) ih
      rw [Hit, run, if_pos h]; rfl
    · rw [List.dropWhile_cons_of_neg h]
      refine hit_star_stop ?_
      rw [Miss, run, if_neg h]

/-- `k+` for a class, as far as possible. -/
theorem hit_plus_cls (n : Nat) (k : Cls) {x : Char} (s : Str) (c : Caps) (h : k.has x = true) :
    Hit n (.seq (.cls k) (.star true (.cls k))) (x :: s) c (s.dropWhile k.has, c) := by
  rw [Hit, run]
  refine head_flatMap (a := (s, c)) ?_ (hit_star_cls n k s c)
  rw [run, if_pos h]; rfl

/-- `k*?`: the shortest that what follows accepts. -/
theorem hitk_lazy {n : Nat} {k : Cls} {κ : Str × Caps → List (Str × Caps)} (w : Str) {r : Str} {c : Caps} {q : Str × Caps}
    (hw : ∀ x ∈ w, k.has x = true) (hr : (κ (r, c)).head? = some q)
    (hm : ∀ w' x w'', w = w' ++ x :: w'' → κ (x :: w'' ++ r, c) = []) :
    HitK n (.star false (.cls k)) κ (w ++ r) c q := by
  rw [HitK, run]
  have key : ∀ m, (w ++ r).length ≤ m → ((runStar false (run n (.cls k)) m (w ++ r) c).flatMap κ).head? = some q := by
    induction w with
    | nil =>
      intro m _
      cases m with
      | zero => simpa [runStar] using hr
      | succ m =>
        rw [runStar]
        simp only [Bool.false_eq_true, if_false, List.flatMap_cons, List.head?_append, List.nil_append, hr]
        rfl
    | cons x w ih =>
      intro m hl
      cases m with
      | zero => simp at hl
      | succ m =>
        rw [runStar]
        simp only [Bool.false_eq_true, if_false, List.flatMap_cons, List.head?_append]
        rw [hm [] x w rfl]
        rw [List.cons_append, run, if_pos (hw x (by simp))]
        simp only [List.flatMap_cons, List.flatMap_nil, List.append_nil]
        rw [if_pos (by simp)]
        rw [ih (fun y hy => hw y (by simp [hy])) (fun w' y w'' he => hm (x :: w') y w'' (by rw [he]; rfl)) m (by simpa using hl)]
        rfl
  exact key _ (Nat.le_refl _)

/-- A match at the beginning is what the search finds. -/
theorem search_here {r : Rgx} {t : Str} {q : Str × Caps} (h : Hit t.length r t [] q) (g : Nat) (names : List (Str × Nat)) :
    search ⟨r, g, names⟩ t = some ⟨t.take (t.length - q.1.length), 0, q.2⟩ := by
  rw [search]
  rw [Hit] at h
  cases t with
  | nil =>
    rw [searchFrom]
    cases hr : run ([] : Str).length r [] [] with
    | nil => rw [hr] at h; cases h
    | cons p l => rw [hr] at h; cases h; rw [List.take_nil]
  | cons a s =>
    rw [searchFrom]
    cases hr : run (a :: s).length r (a :: s) [] with
    | nil => rw [hr] at h; cases h
    | cons p l => rw [hr] at h; cases h; rfl

theorem miss_iff (n : Nat) (r : Rgx) (s : Str) (c : Caps) : Miss n r s c ↔ ∀ v, ¬ Lang n r s v := by
  have := run_ne_nil n r s c
  rw [Miss]
  constructor
  · intro h v hv
    exact (this.mpr ⟨v, hv⟩) h
  · intro h
    exact Classical.byContradiction fun hn => by
      obtain ⟨v, hv⟩ := this.mp hn
      exact h v hv

end Re

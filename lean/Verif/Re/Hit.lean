import Verif.Re.Words

/-! # The first match, step by step

Rules for showing what an expression matches when no backtracking happens on the way. -/

namespace Re

open Py

/-- The first match at the beginning of `s` leaves `q`. -/
def Hit (n : Nat) (r : Rgx) (s : Str) (c : Caps) (q : Str × Caps) : Prop := (run n r s c).head? = some q

/-- No match at the beginning of `s`. -/
def Miss (n : Nat) (r : Rgx) (s : Str) (c : Caps) : Prop := run n r s c = []

theorem head_flatMap {α β : Type} {l : List α} {f : α → List β} {a : α} {b : β} (h1 : l.head? = some a)
    (h2 : (f a).head? = some b) : (l.flatMap f).head? = some b := by
  cases l with
  | nil => cases h1
  | cons x l => cases h1; rw [List.flatMap_cons, List.head?_append, h2]; rfl

theorem run_seqs_cons' (n : Nat) (a : Rgx) (l : List Rgx) (s : Str) (c : Caps) :
    run n (seqs (a :: l)) s c = (run n a s c).flatMap (fun p => run n (seqs l) p.1 p.2) := by
  have := run_seqs_cons n a l s c (fun q => [q])
  simpa only [List.flatMap_singleton'] using this

theorem hit_nil (n : Nat) (s : Str) (c : Caps) : Hit n (seqs []) s c (s, c) := rfl

theorem hit_cons {n : Nat} {a : Rgx} {l : List Rgx} {s : Str} {c : Caps} {q q' : Str × Caps} (h1 : Hit n a s c q)
    (h2 : Hit n (seqs l) q.1 q.2 q') : Hit n (seqs (a :: l)) s c q' := by
  rw [Hit, run_seqs_cons']
  exact head_flatMap h1 h2

theorem run_seqs_append (n : Nat) (l l' : List Rgx) (s : Str) (c : Caps) :
    run n (seqs (l ++ l')) s c = (run n (seqs l) s c).flatMap (fun p => run n (seqs l') p.1 p.2) := by
  induction l generalizing s c with
  | nil => simp [seqs, run]
  | cons a l ih =>
    rw [List.cons_append, run_seqs_cons', run_seqs_cons', List.flatMap_assoc]
    congr 1
    funext p
    exact ih _ _

theorem hit_append {n : Nat} {l l' : List Rgx} {s : Str} {c : Caps} {q q' : Str × Caps} (h1 : Hit n (seqs l) s c q)
    (h2 : Hit n (seqs l') q.1 q.2 q') : Hit n (seqs (l ++ l')) s c q' := by
  rw [Hit, run_seqs_append]
  exact head_flatMap h1 h2

theorem head_prog (n : Nat) {p : Prog} (hw : p.wf (fun _ => false) true = true) (s : Str) (c : Caps) :
    (run n (seqs p.toL) s c).head? = p.det s c := by
  have := p.det_spec n (fun _ => false) true (fun q => [q]) s c hw (fun _ h => by cases h) (fun _ _ h => by cases h)
  rw [List.flatMap_singleton'] at this
  rw [this]
  cases p.det s c <;> rfl

theorem hit_prog (n : Nat) {p : Prog} (hw : p.wf (fun _ => false) true = true) {s : Str} {c : Caps} {q : Str × Caps}
    (h : p.det s c = some q) : Hit n (seqs p.toL) s c q := by
  rw [Hit, head_prog n hw, h]

theorem miss_prog (n : Nat) {p : Prog} (hw : p.wf (fun _ => false) true = true) {s : Str} {c : Caps}
    (h : p.det s c = none) : Miss n (seqs p.toL) s c := by
  rw [Miss, ← List.head?_eq_none_iff, head_prog n hw, h]

theorem hit_opt {n : Nat} {a : Rgx} {s : Str} {c : Caps} {q : Str × Caps} (h : Hit n a s c q) :
    Hit n (.opt true a) s c q := by
  rw [Hit, run, if_pos rfl, List.head?_append, h]; rfl

theorem miss_opt {n : Nat} {a : Rgx} {s : Str} {c : Caps} (h : Miss n a s c) : Hit n (.opt true a) s c (s, c) := by
  rw [Hit, run, if_pos rfl, h]; rfl

theorem hit_grp {n k : Nat} {a : Rgx} {s : Str} {c : Caps} {q : Str × Caps} (h : Hit n a s c q) :
    Hit n (.grp k a) s c (q.1, (k, s.take (s.length - q.1.length)) :: q.2) := by
  rw [Hit, run, List.head?_map, h]; rfl

theorem hit_cls {n : Nat} {k : K} {x : Char} {s : Str} {c : Caps} (h : k.has x = true) : Hit n (.cls k.cls) (x :: s) c (s, c) := by
  rw [Hit, run, K.cls_has, if_pos h]; rfl

theorem search_bol_run (l : List Rgx) (g : Nat) (names : List (Str × Nat)) (t : Str) :
    search ⟨seqs (.bol :: l), g, names⟩ t =
      (run t.length (seqs l) t []).head?.map (fun q => ⟨t.take (t.length - q.1.length), 0, q.2⟩) := by
  have hr : run t.length (seqs (.bol :: l)) t [] = run t.length (seqs l) t [] := by
    rw [run_seqs_cons', run, if_pos rfl, List.flatMap_singleton]
  rw [search]
  cases t with
  | nil =>
    rw [searchFrom, hr]
    cases run ([] : Str).length (seqs l) [] [] with
    | nil => rfl
    | cons q l => rw [List.head?_cons, Option.map_some, List.take_nil]
  | cons a s =>
    rw [searchFrom, hr]
    cases run (a :: s).length (seqs l) (a :: s) [] with
    | nil => exact searchFrom_bol _ _ _ _ (by simp)
    | cons q l => rfl

theorem search_hit {l : List Rgx} {t : Str} {q : Str × Caps} (h : Hit t.length (seqs l) t [] q) (g : Nat)
    (names : List (Str × Nat)) :
    search ⟨seqs (.bol :: l), g, names⟩ t = some ⟨t.take (t.length - q.1.length), 0, q.2⟩ := by
  rw [search_bol_run, h]; rfl

/-- What comes next is a blank, or nothing. -/
def Stop (r : Str) : Prop := r = [] ∨ ∃ r', r = ' ' :: r'

theorem stop_head {r : Str} (h : Stop r) : ∀ c, r.head? = some c → isSpace c = true := by
  rcases h with rfl | ⟨r', rfl⟩
  · simp
  · intro c hc; cases hc; decide

/-- A word of the class is read up to its end. -/
theorem drop_word {k : K} (hk : k.has ' ' = false) {w r : Str} (hw : ∀ c ∈ w, k.has c = true) (hr : Stop r) :
    (w ++ r).dropWhile k.has = r := by
  induction w with
  | nil =>
    rcases hr with rfl | ⟨r', rfl⟩
    · rfl
    · rw [List.nil_append, List.dropWhile_cons_of_neg (by simp [hk])]
  | cons x w ih =>
    rw [List.cons_append, List.dropWhile_cons_of_pos (hw x (by simp))]
    exact ih (fun c hc => hw c (by simp [hc]))

/-- One blank is read. -/
theorem det_blank (p : Prog) {x : Char} (hx : isSpace x = false) (s : Str) (c : Caps) :
    (Prog.plus .space p).det (' ' :: x :: s) c = p.det (x :: s) c := by
  rw [plus_cons, if_pos (by decide), List.dropWhile_cons_of_neg (by simpa [K.has] using hx)]

/-- A word of the class behind `(k+)`. -/
theorem det_grp_word (g : Nat) {k : K} (hk : k.has ' ' = false) {w r : Str} (hw : ∀ c ∈ w, k.has c = true) (hne : w ≠ [])
    (hr : Stop r) (c : Caps) : (Prog.grp g (.plus k .done) .done).det (w ++ r) c = some (r, (g, w) :: c) := by
  obtain ⟨x, w', rfl⟩ := List.exists_cons_of_ne_nil hne
  rw [Prog.det, List.cons_append, plus_cons, if_pos (hw x (by simp)), drop_word hk (fun c hc => hw c (by simp [hc])) hr,
    Prog.det]
  simp only [Prog.det, ← List.cons_append]
  congr 3
  rw [List.length_append, Nat.add_sub_cancel, List.take_left]

end Re

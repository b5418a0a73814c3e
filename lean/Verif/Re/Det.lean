import Verif.Re.Match

/-! # Expressions that can be matched without backtracking

Most expressions in the code are sequences in which a repeated class is followed by
something that cannot begin with a character of that class.  For these, matching is
reading from left to right (`Prog.det`); `Prog.first_spec` proves that this is what the
backtracking matcher finds. -/

namespace Re

open Py

/-- The classes in use: `\s`, `\d`, `\S`, `.`, a character, `[A-Za-z\-]`, `[^\/]`. -/
inductive K where
  | space | digit | nonspace | any
  | chr (c : Char)
  | letter | notSlash
  deriving DecidableEq, Repr

/-- The class as a set. -/
def K.cls : K → Cls
  | space => ⟨[.space], false, false⟩
  | digit => ⟨[.digit], false, false⟩
  | nonspace => ⟨[.nonspace], false, false⟩
  | any => ⟨[.chr '\n'], true, false⟩
  | chr a => ⟨[.chr a], false, false⟩
  | letter => ⟨[.range 'A' 'Z', .range 'a' 'z', .chr '-'], false, false⟩
  | notSlash => ⟨[.chr '/'], true, false⟩

/-- The members of the class. -/
def K.has : K → Char → Bool
  | space, c => isSpace c
  | digit, c => isDigit c
  | nonspace, c => !isSpace c
  | any, c => c != '\n'
  | chr a, c => c == a
  | letter, c => isLetter c || c == '-'
  | notSlash, c => c != '/'

theorem K.cls_has (k : K) (c : Char) : k.cls.has c = k.has c := by
  cases k <;> simp [K.cls, K.has, Cls.has, Item.has, bne, isLetter, Bool.or_assoc]

/-- No character is in both. -/
def K.disj : K → K → Bool
  | chr a, l => !l.has a
  | k, chr b => !k.has b
  | space, digit => true
  | space, nonspace => true
  | space, letter => true
  | digit, space => true
  | digit, letter => true
  | nonspace, space => true
  | letter, space => true
  | letter, digit => true
  | _, _ => false

theorem digit_not_space {c : Char} (h : isDigit c = true) : isSpace c = false := by
  simp only [isDigit, Bool.and_eq_true, decide_eq_true_eq] at h
  simp only [isSpace, Bool.or_eq_false_iff, Bool.and_eq_false_iff, decide_eq_false_iff_not, beq_eq_false_iff_ne]
  omega

theorem letter_toNat {c : Char} (h : (isLetter c || c == '-') = true) :
    (65 ≤ c.toNat ∧ c.toNat ≤ 90) ∨ (97 ≤ c.toNat ∧ c.toNat ≤ 122) ∨ c.toNat = 45 := by
  rw [Bool.or_eq_true, beq_iff_eq] at h
  rcases h with h | rfl
  · simp only [isLetter, Bool.or_eq_true, Bool.and_eq_true, decide_eq_true_eq] at h
    omega
  · decide

theorem letter_not_space {c : Char} (h : (isLetter c || c == '-') = true) : isSpace c = false := by
  have := letter_toNat h
  simp only [isSpace, Bool.or_eq_false_iff, Bool.and_eq_false_iff, decide_eq_false_iff_not, beq_eq_false_iff_ne]
  omega

theorem letter_not_digit {c : Char} (h : (isLetter c || c == '-') = true) : isDigit c = false := by
  have := letter_toNat h
  simp only [isDigit, Bool.and_eq_false_iff, decide_eq_false_iff_not]
  omega

theorem K.disj_spec {k l : K} (h : k.disj l = true) {c : Char} (hk : k.has c = true) : l.has c = false := by
  have no {a b : Bool} (i : b = true → a = false) (h : a = true) : b = false :=
    Bool.eq_false_iff.mpr fun hb => by rw [i hb] at h; cases h
  by_cases e : ∃ a, k = .chr a
  · obtain ⟨a, rfl⟩ := e
    have : c = a := by simpa [K.has] using hk
    subst this
    simpa [K.disj] using h
  · by_cases e' : ∃ b, l = .chr b
    · obtain ⟨b, rfl⟩ := e'
      have hb : k.has b = false := by
        cases k <;> first | simpa [K.disj] using h | exact absurd ⟨_, rfl⟩ e
      show (c == b) = false
      rw [beq_eq_false_iff_ne]
      rintro rfl
      rw [hb] at hk; cases hk
    · cases k <;> cases l <;>
        first
        | exact absurd ⟨_, rfl⟩ e
        | exact absurd ⟨_, rfl⟩ e'
        | (simp [K.disj] at h; done)
        | skip
      all_goals simp only [K.has] at hk ⊢
      · exact no digit_not_space hk
      · rw [hk]; rfl
      · exact no letter_not_space hk
      · exact digit_not_space hk
      · exact no letter_not_digit hk
      · simpa using hk
      · exact letter_not_space hk
      · exact letter_not_digit hk

/-- A sequence. -/
inductive Prog where
  | done
  | one (k : K) (next : Prog)
  | star (k : K) (next : Prog)
  | plus (k : K) (next : Prog)
  | grp (i : Nat) (body next : Prog)
  /-- `(body)*` -/
  | loop (i : Nat) (body next : Prog)
  | eol (next : Prog)
  /-- `\s*$` -/
  | spEol

/-- A single character. -/
abbrev Prog.chr (c : Char) (p : Prog) : Prog := .one (.chr c) p

/-- The factors of the expression. -/
def Prog.toL : Prog → List Rgx
  | done => []
  | one k p => .cls k.cls :: p.toL
  | star k p => .star true (.cls k.cls) :: p.toL
  | plus k p => .seq (.cls k.cls) (.star true (.cls k.cls)) :: p.toL
  | grp i b p => .grp i (seqs b.toL) :: p.toL
  | loop i b p => .star true (.grp i (seqs b.toL)) :: p.toL
  | eol p => .eol :: p.toL
  | spEol => [.star true (.cls K.space.cls), .eol]

/-- The body of a loop as long as it matches. -/
def loopDet (d : Str → Caps → Option (Str × Caps)) (i : Nat) : Nat → Str → Caps → Str × Caps
  | 0, s, c => (s, c)
  | m + 1, s, c =>
    match d s c with
    | none => (s, c)
    | some q => loopDet d i m q.1 ((i, s.take (s.length - q.1.length)) :: q.2)

/-- Reading from left to right. -/
def Prog.det : Prog → Str → Caps → Option (Str × Caps)
  | done, s, c => some (s, c)
  | one k p, s, c =>
    match s with
    | [] => none
    | x :: s' => if k.has x then p.det s' c else none
  | star k p, s, c => p.det (s.dropWhile k.has) c
  | plus k p, s, c =>
    match s with
    | [] => none
    | x :: s' => if k.has x then p.det (s'.dropWhile k.has) c else none
  | grp i b p, s, c =>
    match b.det s c with
    | none => none
    | some q => p.det q.1 ((i, s.take (s.length - q.1.length)) :: q.2)
  | loop i b p, s, c =>
    let q := loopDet b.det i s.length s c
    p.det q.1 q.2
  | eol p, s, c => if s = [] ∨ s = ['\n'] then p.det s c else none
  | spEol, s, c => if s.all isSpace then some ([], c) else none

/-- Cannot match at a character of class `k`; `f` says the same of what follows. -/
def Prog.fails (f : K → Bool) (k : K) : Prog → Bool
  | done => f k
  | one l _ => k.disj l
  | star l p => k.disj l && p.fails f k
  | plus l _ => k.disj l
  | grp _ b p => b.fails (fun k => p.fails f k) k
  | loop _ b p => b.fails (fun _ => false) k && p.fails f k
  | eol _ => !k.has '\n'
  | spEol => k.disj .space

/-- Matches everywhere; `t` says the same of what follows. -/
def Prog.total (t : Bool) : Prog → Bool
  | done => t
  | star _ p => p.total t
  | grp _ b p => b.total (p.total t)
  | _ => false

/-- The class of the first character. -/
def Prog.first : Prog → Option K
  | one k _ => some k
  | plus k _ => some k
  | _ => none

/-- No backtracking is needed. -/
def Prog.wf (f : K → Bool) (t : Bool) : Prog → Bool
  | done => true
  | one _ p => p.wf f t
  | star k p => (p.fails f k || p.total t) && p.wf f t
  | plus k p => (p.fails f k || p.total t) && p.wf f t
  | grp _ b p => b.wf (fun k => p.fails f k) (p.total t) && p.wf f t
  | loop _ b p =>
    b.first.any (fun k => p.fails f k) &&
    b.wf (fun k => b.fails (fun _ => false) k && p.fails f k) false && p.wf f t
  | eol p => p.wf f t
  | spEol => t

abbrev Kont := Str × Caps → List (Str × Caps)

theorem run_seqs_cons (n : Nat) (a : Rgx) (l : List Rgx) (s : Str) (c : Caps) (κ : Kont) :
    (run n (seqs (a :: l)) s c).flatMap κ =
      (run n a s c).flatMap (fun p => (run n (seqs l) p.1 p.2).flatMap κ) := by
  cases l with
  | nil => simp [seqs, run]
  | cons b l => simp [seqs, run, List.flatMap_assoc]

/-- The first character is in the class. -/
def HeadIn (k : K) (s : Str) : Prop := ∃ x s', s = x :: s' ∧ k.has x = true

/-- `k*` tries the longest first. -/
theorem runStar_cls (n : Nat) (k : K) (κ : Kont) (c : Caps) : ∀ (s : Str) (m : Nat), s.length ≤ m →
    ((∀ s', HeadIn k s' → κ (s', c) = []) →
      (runStar true (run n (.cls k.cls)) m s c).flatMap κ = κ (s.dropWhile k.has, c)) ∧
    ((∀ q, κ q ≠ []) → ((runStar true (run n (.cls k.cls)) m s c).flatMap κ).head? =
      (κ (s.dropWhile k.has, c)).head?)
  | [], m, _ => by cases m <;> simp [runStar, run]
  | x :: s, 0, h => by simp at h
  | x :: s, m + 1, h => by
    have ih := runStar_cls n k κ c s m (by simpa using h)
    by_cases hx : k.has x = true
    · have e : (runStar true (run n (.cls k.cls)) (m + 1) (x :: s) c) =
          runStar true (run n (.cls k.cls)) m s c ++ [(x :: s, c)] := by
        rw [runStar]
        simp [run, K.cls_has, hx]
      rw [e, List.flatMap_append, List.dropWhile_cons_of_pos hx]
      refine ⟨fun hf => ?_, fun ht => ?_⟩
      · rw [ih.1 hf]
        simp [hf (x :: s) ⟨x, s, rfl, hx⟩]
      · rw [List.head?_append, ih.2 ht]
        cases hk : κ (s.dropWhile k.has, c) with
        | nil => exact absurd hk (ht _)
        | cons a l => rfl
    · have e : (runStar true (run n (.cls k.cls)) (m + 1) (x :: s) c) = [(x :: s, c)] := by
        rw [runStar]
        simp [run, K.cls_has, hx]
      rw [e, List.dropWhile_cons_of_neg hx]
      simp

theorem run_star (n : Nat) (k : K) (κ : Kont) (s : Str) (c : Caps) :
    ((∀ s', HeadIn k s' → κ (s', c) = []) →
      (run n (.star true (.cls k.cls)) s c).flatMap κ = κ (s.dropWhile k.has, c)) ∧
    ((∀ q, κ q ≠ []) → ((run n (.star true (.cls k.cls)) s c).flatMap κ).head? =
      (κ (s.dropWhile k.has, c)).head?) := runStar_cls n k κ c s s.length (Nat.le_refl _)

/-- `k*` can match nothing. -/
theorem runStar_ne_nil (n : Nat) (k : K) (κ : Kont) (c : Caps) (s : Str) (hκ : ∀ q, κ q ≠ []) :
    (run n (.star true (.cls k.cls)) s c).flatMap κ ≠ [] := by
  intro h
  have := (run_star n k κ s c).2 hκ
  rw [h] at this
  cases hk : κ (s.dropWhile k.has, c) with
  | nil => exact hκ _ hk
  | cons a l => rw [hk] at this; cases this

/-- All the matches end in suffixes of the text. -/
theorem dropWhile_of_not {k : K} {s : Str} (h : ¬ HeadIn k s) : s.dropWhile k.has = s := by
  cases s with
  | nil => rfl
  | cons x s =>
    by_cases hx : k.has x = true
    · exact absurd ⟨x, s, rfl, hx⟩ h
    · rw [List.dropWhile_cons_of_neg hx]

theorem runStar_all (n : Nat) (c : Caps) : ∀ (s : Str) (m : Nat), s.length ≤ m → s.all isSpace = true →
    ∃ l, runStar true (run n (.cls K.space.cls)) m s c = ([], c) :: l
  | [], m, _, _ => by cases m <;> exact ⟨[], by simp [runStar, run]⟩
  | x :: s, 0, h, _ => by simp at h
  | x :: s, m + 1, h, ha => by
    rw [List.all_cons, Bool.and_eq_true] at ha
    obtain ⟨l, hl⟩ := runStar_all n c s m (by simpa using h) ha.2
    have hx : K.space.has x = true := ha.1
    have e : (runStar true (run n (.cls K.space.cls)) (m + 1) (x :: s) c) =
        runStar true (run n (.cls K.space.cls)) m s c ++ [(x :: s, c)] := by
      rw [runStar]
      simp [run, K.cls_has, hx]
    exact ⟨l ++ [(x :: s, c)], by rw [e, hl]; rfl⟩

theorem spEol_run (n : Nat) (κ : Kont) (s : Str) (c : Caps) :
    ((run n (seqs Prog.spEol.toL) s c).flatMap κ).head? =
      if s.all isSpace then
        ((run n (.star true (.cls K.space.cls)) s c).flatMap
          (fun p => (run n .eol p.1 p.2).flatMap κ)).head? else none := by
  have e : (run n (seqs Prog.spEol.toL) s c).flatMap κ =
      (run n (.star true (.cls K.space.cls)) s c).flatMap (fun p => (run n .eol p.1 p.2).flatMap κ) := by
    rw [Prog.toL, run_seqs_cons]
    simp [seqs]
  rw [e]
  split
  · rfl
  · rename_i h
    have : ∀ (s : Str) (m : Nat), s.all isSpace = false →
        (runStar true (run n (.cls K.space.cls)) m s c).flatMap (fun p => (run n .eol p.1 p.2).flatMap κ) = [] := by
      have stop : ∀ (s : Str), s.all isSpace = false → (run n .eol s c).flatMap κ = [] := by
        intro s h
        rw [run, if_neg, List.flatMap_nil]
        rintro (rfl | rfl)
        · cases h
        · exact absurd h (by decide)
      intro s m
      induction m generalizing s with
      | zero => intro h; simp [runStar, stop s h]
      | succ m ih =>
        intro h
        rw [runStar, if_pos rfl, List.flatMap_append]
        refine List.append_eq_nil_iff.mpr ⟨?_, by simp [stop s h]⟩
        cases s with
        | nil => cases h
        | cons x s =>
          rw [run, K.cls_has]
          by_cases hx : K.space.has x = true
          · have hs : s.all isSpace = false := by
              rw [List.all_cons, show isSpace x = true from hx] at h
              exact h
            rw [if_pos hx]
            simp [ih s hs]
          · rw [if_neg hx]; rfl
    have h := Bool.eq_false_iff.mpr h
    have hh := this s s.length h
    rw [run, hh]
    rfl

theorem Prog.fails_spec (n : Nat) (p : Prog) : ∀ (f : K → Bool) (k : K) (κ : Kont) (s : Str) (c : Caps),
    p.fails f k = true → (∀ c, f k = true → κ (s, c) = []) → HeadIn k s →
    (run n (seqs p.toL) s c).flatMap κ = [] := by
  induction p with
  | done => intro f k κ s c h hf hs; simp [toL, seqs, run, hf _ h]
  | one l p ih =>
    rintro f k κ s c h hf ⟨x, s', rfl, hx⟩
    rw [toL, run_seqs_cons, run, K.cls_has, K.disj_spec h hx]; rfl
  | plus l p ih =>
    rintro f k κ s c h hf ⟨x, s', rfl, hx⟩
    rw [toL, run_seqs_cons, run, run, K.cls_has, K.disj_spec h hx]; rfl
  | star l p ih =>
    rintro f k κ s c h hf hs
    rw [fails, Bool.and_eq_true] at h
    obtain ⟨x, s', rfl, hx⟩ := hs
    rw [toL, run_seqs_cons, run, List.length_cons, runStar]
    have : (run n (.cls l.cls) (x :: s') c) = [] := by rw [run, K.cls_has, K.disj_spec h.1 hx]; rfl
    rw [this]
    simp only [List.flatMap_nil, if_true, List.nil_append, List.flatMap_singleton]
    exact ih f k κ _ c h.2 hf ⟨x, s', rfl, hx⟩
  | grp i b p ihb ihp =>
    intro f k κ s c h hf hs
    rw [toL, run_seqs_cons, run, List.flatMap_map]
    exact ihb _ k (fun q => (run n (seqs p.toL) q.1 ((i, s.take (s.length - q.1.length)) :: q.2)).flatMap κ) s c h
      (fun c' hp => ihp f k κ s _ hp hf hs) hs
  | loop i b p ihb ihp =>
    intro f k κ s c h hf hs
    rw [fails, Bool.and_eq_true] at h
    rw [toL, run_seqs_cons]
    have : run n (.grp i (seqs b.toL)) s c = [] := by
      have := ihb (fun _ => false) k (fun q => [q]) s c h.1 (fun _ h => by cases h) hs
      rw [List.flatMap_singleton'] at this
      rw [run, this]; rfl
    obtain ⟨x, s', rfl, hx⟩ := hs
    rw [run, List.length_cons, runStar, this]
    simp only [List.flatMap_nil, if_true, List.nil_append, List.flatMap_singleton]
    exact ihp f k κ _ c h.2 hf ⟨x, s', rfl, hx⟩
  | eol p ih =>
    rintro f k κ s c h hf ⟨x, s', rfl, hx⟩
    rw [toL, run_seqs_cons, run, if_neg, List.flatMap_nil]
    rintro (e | e)
    · cases e
    · obtain ⟨rfl, _⟩ := List.cons.inj e
      rw [fails, hx] at h; cases h
  | spEol =>
    rintro f k κ s c h hf ⟨x, s', rfl, hx⟩
    have := spEol_run n κ (x :: s') c
    have hsp := K.disj_spec h hx
    rw [List.all_cons, show isSpace x = false from hsp] at this
    simpa using this

theorem Prog.total_spec (n : Nat) (p : Prog) : ∀ (t : Bool) (κ : Kont) (s : Str) (c : Caps),
    p.total t = true → (t = true → ∀ q, κ q ≠ []) → (run n (seqs p.toL) s c).flatMap κ ≠ [] := by
  induction p with
  | done => intro t κ s c h ht; simpa [toL, seqs, run] using ht h (s, c)
  | star l p ih =>
    intro t κ s c h ht
    rw [toL, run_seqs_cons]
    exact runStar_ne_nil n l _ c s (fun q => ih t κ q.1 q.2 h ht)
  | grp i b p ihb ihp =>
    intro t κ s c h ht
    rw [toL, run_seqs_cons, run, List.flatMap_map]
    exact ihb _ (fun q => (run n (seqs p.toL) q.1 ((i, s.take (s.length - q.1.length)) :: q.2)).flatMap κ) s c h
      (fun hp q => ihp t κ _ _ hp ht)
  | loop _ _ _ _ _ => intro t κ s c h; cases h
  | one _ _ _ => intro t κ s c h; cases h
  | plus _ _ _ => intro t κ s c h; cases h
  | eol _ _ => intro t κ s c h; cases h
  | spEol => intro t κ s c h; cases h

theorem loopDet_length {d : Str → Caps → Option (Str × Caps)}
    (h : ∀ s c q, d s c = some q → q.1.length ≤ s.length) (i : Nat) :
    ∀ (m : Nat) (s : Str) (c : Caps), (loopDet d i m s c).1.length ≤ s.length
  | 0, s, c => Nat.le_refl _
  | m + 1, s, c => by
    rw [loopDet]
    cases hd : d s c with
    | none => exact Nat.le_refl _
    | some q => exact Nat.le_trans (loopDet_length h i m _ _) (h s c q hd)

theorem length_dropWhile_le (p : Char → Bool) (s : Str) : (s.dropWhile p).length ≤ s.length :=
  (List.dropWhile_sublist p).length_le

theorem Prog.det_length (p : Prog) : ∀ (s : Str) (c : Caps) (q : Str × Caps), p.det s c = some q →
    q.1.length ≤ s.length := by
  induction p with
  | done => intro s c q h; rw [det] at h; cases h; exact Nat.le_refl _
  | one k p ih =>
    intro s c q h
    rw [det.eq_def] at h
    cases s with
    | nil => cases h
    | cons x s =>
      simp only at h
      split at h
      · exact Nat.le_succ_of_le (ih _ _ _ h)
      · cases h
  | star k p ih =>
    intro s c q h
    exact Nat.le_trans (ih _ _ _ h) (length_dropWhile_le _ s)
  | plus k p ih =>
    intro s c q h
    rw [det.eq_def] at h
    cases s with
    | nil => cases h
    | cons x s =>
      simp only at h
      split at h
      · exact Nat.le_succ_of_le (Nat.le_trans (ih _ _ _ h) (length_dropWhile_le _ s))
      · cases h
  | grp i b p ihb ihp =>
    intro s c q h
    rw [det] at h
    cases hb : b.det s c with
    | none => rw [hb] at h; cases h
    | some r =>
      rw [hb] at h
      exact Nat.le_trans (ihp _ _ _ h) (ihb _ _ _ hb)
  | loop i b p ihb ihp =>
    intro s c q h
    exact Nat.le_trans (ihp _ _ _ h) (loopDet_length ihb i _ _ _)
  | eol p ih =>
    intro s c q h
    rw [det] at h
    split at h
    · exact ih _ _ _ h
    · cases h
  | spEol =>
    intro s c q h
    rw [det] at h
    split at h
    · cases h; exact Nat.zero_le _
    · cases h

/-- A sequence with a first class reads a character of it. -/
theorem Prog.first_spec {p : Prog} {k : K} (h : p.first = some k) {s : Str} {c : Caps} {q : Str × Caps}
    (hd : p.det s c = some q) : HeadIn k s ∧ q.1.length < s.length := by
  cases p with
  | one l p =>
    cases h
    rw [det.eq_def] at hd
    cases s with
    | nil => cases hd
    | cons x s =>
      simp only at hd
      split at hd
      · rename_i hx
        exact ⟨⟨x, s, rfl, hx⟩, Nat.lt_succ_of_le (det_length p _ _ _ hd)⟩
      · cases hd
  | plus l p =>
    cases h
    rw [det.eq_def] at hd
    cases s with
    | nil => cases hd
    | cons x s =>
      simp only at hd
      split at hd
      · rename_i hx
        exact ⟨⟨x, s, rfl, hx⟩,
          Nat.lt_succ_of_le (Nat.le_trans (det_length p _ _ _ hd) (length_dropWhile_le _ s))⟩
      · cases hd
  | _ => cases h

/-- The first match is what reading from left to right gives. -/
theorem Prog.det_spec (n : Nat) (p : Prog) : ∀ (f : K → Bool) (t : Bool) (κ : Kont) (s : Str) (c : Caps),
    p.wf f t = true →
    (∀ k, f k = true → ∀ s' c', HeadIn k s' → κ (s', c') = []) → (t = true → ∀ q, κ q ≠ []) →
    ((run n (seqs p.toL) s c).flatMap κ).head? = (p.det s c).bind (fun q => (κ q).head?) := by
  induction p with
  | done => intro f t κ s c _ _ _; simp [toL, seqs, run, det]
  | one k p ih =>
    intro f t κ s c hw hf ht
    rw [toL, run_seqs_cons, det.eq_def]
    cases s with
    | nil => rfl
    | cons x s =>
      rw [run, K.cls_has]
      by_cases hx : k.has x = true
      · simp only [if_pos hx, List.flatMap_singleton]
        exact ih f t κ s c hw hf ht
      · simp only [if_neg hx]
        rfl
  | star k p ih =>
    intro f t κ s c hw hf ht
    rw [wf, Bool.and_eq_true, Bool.or_eq_true] at hw
    rw [toL, run_seqs_cons, det]
    rw [← ih f t κ _ c hw.2 hf ht]
    rcases hw.1 with h | h
    · rw [(run_star n k _ s c).1 (fun s' hs => fails_spec n p f k κ s' c h (fun c' hk => hf k hk s' c' hs) hs)]
    · rw [(run_star n k _ s c).2 (fun q => total_spec n p t κ q.1 q.2 h ht)]
  | plus k p ih =>
    intro f t κ s c hw hf ht
    rw [wf, Bool.and_eq_true, Bool.or_eq_true] at hw
    rw [toL, run_seqs_cons, det.eq_def]
    cases s with
    | nil => rfl
    | cons x s =>
      rw [run, run, K.cls_has]
      by_cases hx : k.has x = true
      · simp only [if_pos hx, List.flatMap_singleton]
        rw [← ih f t κ _ c hw.2 hf ht]
        rcases hw.1 with h | h
        · rw [(run_star n k _ s c).1 (fun s' hs => fails_spec n p f k κ s' c h (fun c' hk => hf k hk s' c' hs) hs)]
        · rw [(run_star n k _ s c).2 (fun q => total_spec n p t κ q.1 q.2 h ht)]
      · simp only [if_neg hx]
        rfl
  | grp i b p ihb ihp =>
    intro f t κ s c hw hf ht
    rw [wf, Bool.and_eq_true] at hw
    rw [toL, run_seqs_cons, run, List.flatMap_map, det]
    have := ihb _ _ (fun q => (run n (seqs p.toL) q.1 ((i, s.take (s.length - q.1.length)) :: q.2)).flatMap κ) s c hw.1
      (fun k hk s' c' hs => fails_spec n p f k κ s' _ hk (fun c'' hk => hf k hk s' c'' hs) hs)
      (fun hp q => total_spec n p t κ _ _ hp ht)
    refine this.trans ?_
    cases b.det s c with
    | none => rfl
    | some q => exact ihp f t κ _ _ hw.2 hf ht
  | loop i b p ihb ihp =>
    intro f t κ s c hw hf ht
    rw [wf, Bool.and_eq_true, Bool.and_eq_true] at hw
    obtain ⟨⟨h1, h2⟩, h3⟩ := hw
    obtain ⟨k, hk, hpk⟩ : ∃ k, b.first = some k ∧ p.fails f k = true := by
      cases hb : b.first with
      | none => rw [hb] at h1; cases h1
      | some k => rw [hb] at h1; exact ⟨k, rfl, h1⟩
    rw [toL, run_seqs_cons, det, run]
    let κ' : Kont := fun q => (run n (seqs p.toL) q.1 q.2).flatMap κ
    have hκ : ∀ k, p.fails f k = true → ∀ s' c', HeadIn k s' → κ' (s', c') = [] := fun k hp s' c' hs =>
      fails_spec n p f k κ s' c' hp (fun c'' hk => hf k hk s' c'' hs) hs
    have key : ∀ (m : Nat) (s : Str) (c : Caps), s.length ≤ m →
        ((runStar true (run n (.grp i (seqs b.toL))) m s c).flatMap κ').head? =
          (κ' (loopDet b.det i m s c)).head? := by
      intro m
      induction m with
      | zero => intro s c _; simp [runStar, loopDet]
      | succ m ih =>
        intro s c hm
        rw [runStar, if_pos rfl, List.flatMap_append, List.flatMap_singleton, List.flatMap_assoc, run,
          List.flatMap_map, loopDet]
        have hb := ihb _ _ (fun q => (if q.1.length < s.length then
          runStar true (run n (.grp i (seqs b.toL))) m q.1 ((i, s.take (s.length - q.1.length)) :: q.2) else []).flatMap κ')
          s c h2 (by
            intro k' hk' s' c' hs
            rw [Bool.and_eq_true] at hk'
            have he : ∀ c'', run n (.grp i (seqs b.toL)) s' c'' = [] := by
              intro c''
              have := fails_spec n b (fun _ => false) k' (fun q => [q]) s' c'' hk'.1 (fun _ h => by cases h) hs
              rw [List.flatMap_singleton'] at this
              rw [run, this]; rfl
            simp only
            split
            · cases m with
              | zero => simp [runStar, hκ k' hk'.2 s' _ hs]
              | succ m => simp [runStar, he, hκ k' hk'.2 s' _ hs]
            · rfl) (fun h => by cases h)
        cases hd : b.det s c with
        | none =>
          rw [hd] at hb
          have := List.head?_eq_none_iff.mp hb
          rw [this]
          rfl
        | some q =>
          rw [hd] at hb
          obtain ⟨hh, hl⟩ := first_spec hk hd
          rw [hκ k hpk s c hh, List.append_nil]
          refine hb.trans ?_
          simp only [Option.bind_some, if_pos hl]
          exact ih _ _ (by omega)
    refine (key s.length s c (Nat.le_refl _)).trans ?_
    exact ihp f t κ _ _ h3 hf ht
  | eol p ih =>
    intro f t κ s c hw hf ht
    rw [toL, run_seqs_cons, run, det]
    by_cases hs : s = [] ∨ s = ['\n']
    · rw [if_pos hs, if_pos hs, List.flatMap_singleton]
      exact ih f t κ s c hw hf ht
    · rw [if_neg hs, if_neg hs]; rfl
  | spEol =>
    intro f t κ s c hw hf ht
    rw [spEol_run, det]
    by_cases hs : s.all isSpace = true
    · rw [if_pos hs, if_pos hs]
      obtain ⟨l, hl⟩ := runStar_all n c s s.length (Nat.le_refl _) hs
      rw [run, hl, List.flatMap_cons]
      have : (run n .eol [] c).flatMap κ = κ ([], c) := by simp [run]
      rw [this, List.head?_append]
      cases hk : κ ([], c) with
      | nil => exact absurd hk (ht hw _)
      | cons a l => simp [hk]
    · rw [if_neg hs, if_neg hs]; rfl

end Re

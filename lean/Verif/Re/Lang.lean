import Verif.Re.Hit

/-! # What an expression can read

`Lang n r u v`: the expression can read the text `u` up to `v`; the order in which the
matcher tries is left out.  `lang_run` proves that the matcher finds a match exactly if there
is one. -/

namespace Re

open Py

/-- Steps that read something, any number of them. -/
inductive Steps (R : Str → Str → Prop) : Str → Str → Prop where
  | nil (u : Str) : Steps R u u
  | cons {u w v : Str} : R u w → w.length < u.length → Steps R w v → Steps R u v

/-- The expression can read `u` up to `v`, in a text of length `n`. -/
def Lang (n : Nat) : Rgx → Str → Str → Prop
  | .eps, u, v => u = v
  | .cls k, u, v => ∃ a, u = a :: v ∧ k.has a = true
  | .seq a b, u, v => ∃ w, Lang n a u w ∧ Lang n b w v
  | .alt a b, u, v => Lang n a u v ∨ Lang n b u v
  | .star _ a, u, v => Steps (Lang n a) u v
  | .opt _ a, u, v => u = v ∨ Lang n a u v
  | .grp _ a, u, v => Lang n a u v
  | .bol, u, v => u = v ∧ u.length = n
  | .eol, u, v => u = v ∧ (u = [] ∨ u = ['\n'])
  | .nla a, u, v => u = v ∧ ∀ w, ¬ Lang n a u w

theorem steps_runStar {R : Str → Str → Prop} {g : Bool} {f : Str → Caps → List (Str × Caps)}
    (H : ∀ u c v, (∃ d, (v, d) ∈ f u c) ↔ R u v) (m : Nat) (u : Str) (c : Caps) (v : Str) (hm : u.length ≤ m) :
    (∃ d, (v, d) ∈ runStar g f m u c) ↔ Steps R u v := by
  induction m generalizing u c with
  | zero =>
    have hu : u = [] := List.length_eq_zero_iff.mp (by omega)
    subst hu
    rw [runStar]
    constructor
    · rintro ⟨d, hd⟩
      rw [List.mem_singleton, Prod.mk.injEq] at hd
      rw [hd.1]; exact .nil _
    · intro h
      cases h with
      | nil => exact ⟨c, by simp⟩
      | cons _ h2 _ => simp at h2
  | succ m ih =>
    have key : (∃ d, (v, d) ∈ runStar g f (m + 1) u c) ↔
        v = u ∨ ∃ d, (v, d) ∈ (f u c).flatMap (fun p => if p.1.length < u.length then runStar g f m p.1 p.2 else []) := by
      rw [runStar]
      cases g with
      | true =>
        simp only [if_true, List.mem_append, List.mem_singleton, Prod.mk.injEq]
        constructor
        · rintro ⟨d, h | h⟩
          · exact Or.inr ⟨d, h⟩
          · exact Or.inl h.1
        · rintro (h | ⟨d, h⟩)
          · exact ⟨c, Or.inr ⟨h, rfl⟩⟩
          · exact ⟨d, Or.inl h⟩
      | false =>
        simp only [Bool.false_eq_true, if_false, List.mem_cons, Prod.mk.injEq]
        constructor
        · rintro ⟨d, h | h⟩
          · exact Or.inl h.1
          · exact Or.inr ⟨d, h⟩
        · rintro (h | ⟨d, h⟩)
          · exact ⟨c, Or.inl ⟨h, rfl⟩⟩
          · exact ⟨d, Or.inr h⟩
    rw [key]
    constructor
    · rintro (rfl | ⟨d, h⟩)
      · exact .nil _
      · obtain ⟨⟨w, e⟩, hw, hv⟩ := List.mem_flatMap.mp h
        by_cases hl : w.length < u.length
        · rw [if_pos hl] at hv
          exact .cons ((H u c w).mp ⟨e, hw⟩) hl ((ih w e (by omega)).mp ⟨d, hv⟩)
        · rw [if_neg hl] at hv; cases hv
    · intro h
      cases h with
      | nil => exact Or.inl rfl
      | @cons _ w _ h1 h2 h3 =>
        obtain ⟨e, he⟩ := (H u c w).mpr h1
        obtain ⟨d, hd⟩ := (ih w e (by omega)).mpr h3
        refine Or.inr ⟨d, List.mem_flatMap.mpr ⟨(w, e), he, ?_⟩⟩
        rw [if_pos h2]; exact hd

/-- The matcher finds what the expression can read. -/
theorem lang_run (n : Nat) (r : Rgx) : ∀ (u : Str) (c : Caps) (v : Str), (∃ d, (v, d) ∈ run n r u c) ↔ Lang n r u v := by
  induction r with
  | eps =>
    intro u c v
    rw [run, Lang]
    simp [eq_comm]
  | cls k =>
    intro u c v
    rw [run.eq_def, Lang]
    cases u with
    | nil => simp
    | cons a u =>
      dsimp only
      by_cases h : k.has a = true
      · rw [if_pos h]
        constructor
        · rintro ⟨d, hd⟩
          rw [List.mem_singleton, Prod.mk.injEq] at hd
          exact ⟨a, by rw [hd.1], h⟩
        · rintro ⟨b, hb, _⟩
          cases hb
          exact ⟨c, by simp⟩
      · rw [if_neg h]
        constructor
        · rintro ⟨d, hd⟩; cases hd
        · rintro ⟨b, hb, h'⟩
          cases hb
          exact absurd h' h
  | seq a b iha ihb =>
    intro u c v
    rw [run, Lang]
    constructor
    · rintro ⟨d, hd⟩
      obtain ⟨⟨w, e⟩, hw, hv⟩ := List.mem_flatMap.mp hd
      exact ⟨w, (iha u c w).mp ⟨e, hw⟩, (ihb w e v).mp ⟨d, hv⟩⟩
    · rintro ⟨w, h1, h2⟩
      obtain ⟨e, he⟩ := (iha u c w).mpr h1
      obtain ⟨d, hd⟩ := (ihb w e v).mpr h2
      exact ⟨d, List.mem_flatMap.mpr ⟨(w, e), he, hd⟩⟩
  | alt a b iha ihb =>
    intro u c v
    rw [run, Lang, ← iha u c v, ← ihb u c v]
    simp only [List.mem_append, exists_or]
  | star g a ih =>
    intro u c v
    rw [run, Lang]
    exact steps_runStar ih _ _ _ _ (Nat.le_refl _)
  | opt g a ih =>
    intro u c v
    rw [run, Lang, ← ih u c v]
    cases g with
    | true =>
      simp only [if_true, List.mem_append, List.mem_singleton, Prod.mk.injEq]
      constructor
      · rintro ⟨d, h | h⟩
        · exact Or.inr ⟨d, h⟩
        · exact Or.inl h.1.symm
      · rintro (h | ⟨d, h⟩)
        · exact ⟨c, Or.inr ⟨h.symm, rfl⟩⟩
        · exact ⟨d, Or.inl h⟩
    | false =>
      simp only [Bool.false_eq_true, if_false, List.mem_cons, Prod.mk.injEq]
      constructor
      · rintro ⟨d, h | h⟩
        · exact Or.inl h.1.symm
        · exact Or.inr ⟨d, h⟩
      · rintro (h | ⟨d, h⟩)
        · exact ⟨c, Or.inl ⟨h.symm, rfl⟩⟩
        · exact ⟨d, Or.inr h⟩
  | grp k a ih =>
    intro u c v
    rw [run, Lang, ← ih u c v]
    constructor
    · rintro ⟨d, hd⟩
      obtain ⟨p, hp, e⟩ := List.mem_map.mp hd
      rw [Prod.mk.injEq] at e
      exact ⟨p.2, by rw [← e.1]; exact hp⟩
    · rintro ⟨d, hd⟩
      exact ⟨_, List.mem_map.mpr ⟨(v, d), hd, rfl⟩⟩
  | bol =>
    intro u c v
    rw [run, Lang]
    by_cases h : u.length = n
    · rw [if_pos h]; simp [h, eq_comm]
    · rw [if_neg h]; simp [h]
  | eol =>
    intro u c v
    rw [run, Lang]
    by_cases h : u = [] ∨ u = ['\n']
    · rw [if_pos h]; simp [h, eq_comm]
    · rw [if_neg h]; simp [h]
  | nla a ih =>
    intro u c v
    rw [run, Lang]
    have : (run n a u c).isEmpty = true ↔ ∀ w, ¬ Lang n a u w := by
      rw [List.isEmpty_iff]
      constructor
      · intro h w hw
        obtain ⟨d, hd⟩ := (ih u c w).mpr hw
        rw [h] at hd; cases hd
      · intro h
        cases hr : run n a u c with
        | nil => rfl
        | cons p l => exact absurd ((ih u c p.1).mp ⟨p.2, by rw [hr]; simp⟩) (h p.1)
    by_cases h : (run n a u c).isEmpty = true
    · rw [if_pos h]; rw [this] at h; simp [h, eq_comm]
    · rw [if_neg h]; rw [this] at h; simp [h]

theorem run_ne_nil (n : Nat) (r : Rgx) (u : Str) (c : Caps) : run n r u c ≠ [] ↔ ∃ v, Lang n r u v := by
  constructor
  · intro h
    obtain ⟨p, l, hp⟩ := List.exists_cons_of_ne_nil h
    exact ⟨p.1, (lang_run n r u c p.1).mp ⟨p.2, by rw [hp]; simp⟩⟩
  · rintro ⟨v, hv⟩
    obtain ⟨d, hd⟩ := (lang_run n r u c v).mpr hv
    exact List.ne_nil_of_mem hd

/-! ## Rules -/

theorem lang_nil (n : Nat) (u v : Str) : Lang n (seqs []) u v ↔ u = v := Iff.rfl

theorem lang_cons (n : Nat) (a : Rgx) (l : List Rgx) (u v : Str) :
    Lang n (seqs (a :: l)) u v ↔ ∃ w, Lang n a u w ∧ Lang n (seqs l) w v := by
  rw [← lang_run n _ u [], run_seqs_cons']
  constructor
  · rintro ⟨d, hd⟩
    obtain ⟨⟨w, e⟩, hw, hv⟩ := List.mem_flatMap.mp hd
    exact ⟨w, (lang_run n a u [] w).mp ⟨e, hw⟩, (lang_run n _ w e v).mp ⟨d, hv⟩⟩
  · rintro ⟨w, h1, h2⟩
    obtain ⟨e, he⟩ := (lang_run n a u [] w).mpr h1
    obtain ⟨d, hd⟩ := (lang_run n (seqs l) w e v).mpr h2
    exact ⟨d, List.mem_flatMap.mpr ⟨(w, e), he, hd⟩⟩

theorem lang_append (n : Nat) (l l' : List Rgx) (u v : Str) :
    Lang n (seqs (l ++ l')) u v ↔ ∃ w, Lang n (seqs l) u w ∧ Lang n (seqs l') w v := by
  induction l generalizing u with
  | nil => simp [lang_nil]
  | cons a l ih =>
    rw [List.cons_append, lang_cons]
    constructor
    · rintro ⟨w, h1, h2⟩
      obtain ⟨x, h3, h4⟩ := (ih w).mp h2
      exact ⟨x, (lang_cons n a l u x).mpr ⟨w, h1, h3⟩, h4⟩
    · rintro ⟨x, h1, h2⟩
      obtain ⟨w, h3, h4⟩ := (lang_cons n a l u x).mp h1
      exact ⟨w, h3, (ih w).mpr ⟨x, h4, h2⟩⟩

theorem lang_cls (n : Nat) (k : K) (u v : Str) : Lang n (.cls k.cls) u v ↔ ∃ a, u = a :: v ∧ k.has a = true := by
  rw [Lang]; simp only [K.cls_has]

theorem lang_star (n : Nat) (g : Bool) (k : Cls) (u v : Str) :
    Lang n (.star g (.cls k)) u v ↔ ∃ w, u = w ++ v ∧ ∀ c ∈ w, k.has c = true := by
  rw [Lang]
  constructor
  · intro h
    induction h with
    | nil u => exact ⟨[], rfl, by simp⟩
    | cons h1 h2 _ ih =>
      obtain ⟨a, rfl, ha⟩ := h1
      obtain ⟨w, rfl, hw⟩ := ih
      exact ⟨a :: w, rfl, by
        intro c hc
        rcases List.mem_cons.mp hc with rfl | hc
        · exact ha
        · exact hw c hc⟩
  · rintro ⟨w, rfl, hw⟩
    induction w with
    | nil => exact .nil _
    | cons a w ih =>
      refine .cons (w := w ++ v) ⟨a, rfl, hw a (by simp)⟩ (by simp) (ih (fun c hc => hw c (by simp [hc])))

/-- `k*` -/
theorem lang_star' (n : Nat) (g : Bool) (k : K) (u v : Str) :
    Lang n (.star g (.cls k.cls)) u v ↔ ∃ w, u = w ++ v ∧ ∀ c ∈ w, k.has c = true := by
  rw [lang_star]; simp only [K.cls_has]

/-- `k+` -/
theorem lang_plus (n : Nat) (g : Bool) (k : K) (u v : Str) :
    Lang n (.seq (.cls k.cls) (.star g (.cls k.cls))) u v ↔ ∃ w, u = w ++ v ∧ w ≠ [] ∧ ∀ c ∈ w, k.has c = true := by
  rw [Lang]
  simp only [lang_cls, lang_star']
  constructor
  · rintro ⟨_, ⟨a, rfl, ha⟩, w, rfl, hw⟩
    refine ⟨a :: w, rfl, by simp, ?_⟩
    intro c hc
    rcases List.mem_cons.mp hc with rfl | hc
    · exact ha
    · exact hw c hc
  · rintro ⟨w, rfl, hne, hw⟩
    obtain ⟨a, w', rfl⟩ := List.exists_cons_of_ne_nil hne
    exact ⟨w' ++ v, ⟨a, rfl, hw a (by simp)⟩, w', rfl, fun c hc => hw c (by simp [hc])⟩

/-- A literal text. -/
theorem lang_str (n : Nat) (w : Str) (p : Prog) (u v : Str) :
    Lang n (seqs (str w p).toL) u v ↔ ∃ r, u = w ++ r ∧ Lang n (seqs p.toL) r v := by
  induction w generalizing u with
  | nil => simp [str]
  | cons x w ih =>
    rw [show str (x :: w) p = .one (.chr x) (str w p) from rfl, Prog.toL, lang_cons]
    simp only [ih, lang_cls, K.has, beq_iff_eq]
    constructor
    · rintro ⟨_, ⟨a, rfl, rfl⟩, r, rfl, h⟩
      exact ⟨r, rfl, h⟩
    · rintro ⟨r, rfl, h⟩
      exact ⟨w ++ r, ⟨x, rfl, rfl⟩, r, rfl, h⟩

/-- Search for an expression that begins with `^`. -/
theorem search_lang (l : List Rgx) (g : Nat) (names : List (Str × Nat)) (t : Str) :
    (search ⟨seqs (.bol :: l), g, names⟩ t).isSome = true ↔ ∃ v, Lang t.length (seqs l) t v := by
  rw [search_bol_run, Option.isSome_map, ← run_ne_nil t.length _ t []]
  cases run t.length (seqs l) t [] <;> simp

end Re

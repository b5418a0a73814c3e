import Verif.Cisco.Attr

/-! # The ends of the expressions, by the words that are left -/

namespace Cisco

open Py Conf Query Re

/-- The number with which a word starts, in digits. -/
def Spec.Leads (w a : Str) : Prop :=
  ∃ u, w = a ++ u ∧ Spec.Digits a ∧ ∀ c, u.head? = some c → isDigit c = false

/-- What is left of the expression matches where the words that are left satisfy `T`, and
group `g` then holds what `T` says. -/
structure Tail (p : Prog) (g : Nat) (T : List Str → Str → Prop) : Prop where
  nil : ∀ c, p.det [] c = none
  fwd : ∀ r c q, lstrip r = r → Line r → p.det r c = some q → ∃ a, T (splitWs r) a ∧ q.2.lookup g = some a
  ex : ∀ r c a, lstrip r = r → Line r → T (splitWs r) a → ∃ q, p.det r c = some q

theorem split_cons {r : Str} (h0 : lstrip r = r) (h : r ≠ []) :
    ∃ v rest, r = v ++ rest ∧ IsWord v ∧ (∀ c, rest.head? = some c → isSpace c = true) ∧
      splitWs r = v :: splitWs rest := by
  obtain ⟨e1, e2, e3⟩ := split_word h0 h
  exact ⟨_, _, e1, e2, e3, splitWs_cons h0 h⟩

theorem allDigits_iff {v : Str} (hv : IsWord v) : v.all isDigit = true ↔ Spec.Digits v := by
  rw [List.all_eq_true]
  exact ⟨fun h => ⟨hv.1, h⟩, fun h => h.2⟩

/-- `(\S+)`. -/
theorem tail_next (g : Nat) : Tail (.grp g (.plus .nonspace .done) .done) g (fun ws a => ∃ more, ws = a :: more) := by
  refine ⟨grp_plus_nil _ _ _, ?_, ?_⟩
  · intro r c q h0 _ h
    obtain ⟨v, vs, h1, h2⟩ := (det_word h0 _ _ _ _).mp h
    rw [Prog.det] at h2
    cases h2
    exact ⟨v, ⟨vs, h1⟩, by simp⟩
  · rintro r c a h0 _ ⟨more, h⟩
    exact ⟨_, (det_word h0 _ _ _ _).mpr ⟨a, more, h, rfl⟩⟩

/-- `(\S+)\s+post\s*$`. -/
theorem tail_value (g : Nat) {k : K} (hk : k.wordy) (sp : Bool) {post : List Str} (hp : ∀ w ∈ post, IsWord w) :
    Tail (.grp g (.plus k .done) (ends sp post)) g (fun ws a => ws = a :: post ∧ a.all k.has = true) := by
  refine ⟨grp_plus_nil _ _ _, ?_, ?_⟩
  · intro r c q h0 hl h
    obtain ⟨v, h1, h2, rfl⟩ := (det_value hp hk g sp h0 hl c q).mp h
    exact ⟨v, ⟨h1, h2⟩, by simp⟩
  · rintro r c a h0 hl ⟨h1, h2⟩
    exact ⟨_, (det_value hp hk g sp h0 hl c _).mpr ⟨a, h1, h2, rfl⟩⟩

theorem prefix_first {w v rest : Str} (hw : IsWord w) (hv : IsWord v)
    (hr : ∀ c, rest.head? = some c → isSpace c = true) : w <+: v ++ rest ↔ w <+: v := by
  constructor
  · intro h
    refine List.prefix_of_prefix_length_le h (List.prefix_append _ _) ?_
    rcases Nat.lt_or_ge v.length w.length with hlt | hge
    · exfalso
      obtain ⟨u, hu⟩ := List.prefix_of_prefix_length_le (List.prefix_append v rest) h (Nat.le_of_lt hlt)
      cases u with
      | nil => rw [← hu] at hlt; simp at hlt
      | cons a u =>
        obtain ⟨z, hz⟩ := h
        have e5 : rest = a :: u ++ z := by
          refine List.append_cancel_left (as := v) ?_
          rw [← hz, ← hu]; simp
        have h1 := hr a (by rw [e5]; rfl)
        have h2 := hw.2 a (by rw [← hu]; simp)
        rw [h1] at h2; cases h2
    · exact hge
  · rintro ⟨u, rfl⟩
    exact ⟨u ++ rest, by simp⟩

/-- `(word)`, open at the end. -/
theorem tail_begin (g : Nat) {w : Str} (hw : IsWord w) :
    Tail (.grp g (str w .done) .done) g (fun ws a => a = w ∧ ∃ v more, ws = v :: more ∧ w <+: v) := by
  have hd : ∀ r c q, (Prog.grp g (str w .done) .done).det r c = some q ↔ w <+: r ∧ q = (r.drop w.length, (g, w) :: c) := by
    intro r c q
    rw [det_grp g _ _ (free_str w _ rfl)]
    constructor
    · rintro ⟨x, s, rfl, h2, h3⟩
      rw [det_str] at h2
      split at h2
      · rename_i hp
        rw [Prog.det] at h2 h3
        cases h3
        simp only [Option.some.injEq, Prod.mk.injEq, and_true] at h2
        obtain ⟨u, hu⟩ := hp
        have e1 : u = s := by rw [← h2, ← hu, List.drop_left]
        subst e1
        have : x = w := List.append_cancel_right hu.symm
        subst this
        exact ⟨List.prefix_append _ _, by rw [List.drop_left]⟩
      · cases h2
    · rintro ⟨⟨u, rfl⟩, rfl⟩
      refine ⟨w, u, rfl, ?_, ?_⟩
      · rw [det_str, if_pos (List.prefix_append _ _), List.drop_left]; rfl
      · rw [List.drop_left]; rfl
  refine ⟨?_, ?_, ?_⟩
  · intro c
    cases h : (Prog.grp g (str w .done) .done).det [] c with
    | none => rfl
    | some q => exact absurd (List.prefix_nil.mp ((hd _ _ _).mp h).1) hw.1
  · intro r c q h0 _ h
    obtain ⟨h1, rfl⟩ := (hd _ _ _).mp h
    have hne : r ≠ [] := by rintro rfl; exact hw.1 (List.prefix_nil.mp h1)
    obtain ⟨v, rest, e1, e2, e3, e4⟩ := split_cons h0 hne
    rw [e1, prefix_first hw e2 e3] at h1
    exact ⟨w, ⟨rfl, v, _, e4, h1⟩, by simp⟩
  · rintro r c a h0 _ ⟨rfl, v, more, h1, h2⟩
    have hne : r ≠ [] := by rintro rfl; cases h1
    obtain ⟨v', rest, e1, e2, e3, e4⟩ := split_cons h0 hne
    rw [e4] at h1
    obtain ⟨rfl, -⟩ := List.cons.inj h1
    exact ⟨_, (hd _ _ _).mpr ⟨by rw [e1, prefix_first hw e2 e3]; exact h2, rfl⟩⟩

theorem after_begin_num (g : Nat) {w : Str} {x : Char} {u : Str} (hw : w = x :: u) (hx : isDigit x = false) :
    After (.grp g (str w .done) .done) (fun v => v.all isDigit = true) := by
  have h := after_str_num (w := w) .done hw hx
  refine ⟨fun c => ?_, fun v rest c a1 a2 a3 => ?_⟩
  · rw [Prog.det, h.nil]
  · rw [Prog.det, h.word v rest c a1 a2 a3]

/-- `(\d+)`, open at the end: the number with which a word starts. -/
theorem tail_lead (g : Nat) :
    Tail (.grp g (.plus .digit .done) .done) g (fun ws a => ∃ w more, ws = w :: more ∧ Spec.Leads w a) := by
  have hd : ∀ r c q, (Prog.grp g (.plus .digit .done) .done).det r c = some q ↔
      ∃ a s, r = a ++ s ∧ Run a ∧ (∀ x, s.head? = some x → isDigit x = false) ∧ q = (s, (g, a) :: c) := by
    intro r c q
    rw [det_grp g _ _ rfl]
    constructor
    · rintro ⟨x, s, h1, h2, h3⟩
      rw [Prog.det] at h3
      cases h3
      obtain ⟨a, s', e1, e2, e3, e4⟩ := (det_run _ _ _ _).mp h2
      rw [Prog.det] at e4
      cases e4
      have : x = a := List.append_cancel_right (h1.symm.trans e1)
      subst this
      exact ⟨x, s, h1, e2, e3, rfl⟩
    · rintro ⟨a, s, h1, h2, h3, rfl⟩
      exact ⟨a, s, h1, (det_run _ _ _ _).mpr ⟨a, s, h1, h2, h3, rfl⟩, rfl⟩
  have hsp : ∀ {x : Char}, isSpace x = true → isDigit x = false := by
    intro x hx
    cases h : isDigit x with
    | false => rfl
    | true => rw [digit_not_space h] at hx; cases hx
  refine ⟨grp_plus_nil _ _ _, ?_, ?_⟩
  · intro r c q h0 _ h
    obtain ⟨a, s, h1, h2, h3, rfl⟩ := (hd _ _ _).mp h
    have hne : r ≠ [] := by rintro rfl; exact h2.1 (List.append_eq_nil_iff.mp h1.symm).1
    obtain ⟨v, rest, e1, e2, e3, e4⟩ := split_cons h0 hne
    have haw : IsWord a := ⟨h2.1, fun x hx => digit_not_space (h2.2 x hx)⟩
    have hpre : a <+: v := (prefix_first haw e2 e3).mp (by rw [← e1, h1]; exact List.prefix_append _ _)
    obtain ⟨u, hu⟩ := hpre
    refine ⟨a, ⟨v, _, e4, u, hu.symm, h2, ?_⟩, by simp⟩
    intro x hx
    apply h3
    have : s = u ++ rest := by
      refine List.append_cancel_left (as := a) ?_
      rw [← h1, e1, ← hu]; simp
    rw [this, List.head?_append, hx]; rfl
  · rintro r c a h0 _ ⟨w, more, h1, u, h2, h3, h4⟩
    have hne : r ≠ [] := by rintro rfl; cases h1
    obtain ⟨v, rest, e1, e2, e3, e4⟩ := split_cons h0 hne
    rw [e4] at h1
    obtain ⟨rfl, -⟩ := List.cons.inj h1
    refine ⟨_, (hd _ _ _).mpr ⟨a, u ++ rest, by rw [e1, h2]; simp, h3, ?_, rfl⟩⟩
    intro x hx
    cases u with
    | nil => exact hsp (e3 x (by simpa using hx))
    | cons y u => exact h4 x (by simpa using hx)

/-- A word, then more. -/
theorem tail_skip {p : Prog} {g : Nat} {T : List Str → Str → Prop} (h : Tail p g T) :
    Tail (.plus .nonspace (.plus .space p)) g (fun ws a => ∃ v more, ws = v :: more ∧ T more a) := by
  have hd : ∀ {v rest : Str}, IsWord v → (∀ c, rest.head? = some c → isSpace c = true) → ∀ c,
      (Prog.plus .nonspace (.plus .space p)).det (v ++ rest) c = if rest = [] then none else p.det (lstrip rest) c := by
    intro v rest hv hr c
    cases v with
    | nil => exact absurd rfl hv.1
    | cons x v =>
      rw [List.cons_append, plus_cons, if_pos (by simp [K.has, hv.2 x (by simp)]),
        List.dropWhile_append_of_pos (p := K.nonspace.has) (fun y hy => by simp [K.has, hv.2 y (by simp [hy])])]
      have : rest.dropWhile K.nonspace.has = rest := by
        cases rest with
        | nil => rfl
        | cons y s => rw [List.dropWhile_cons_of_neg (by simp [K.has, hr y rfl])]
      rw [this, det_sp _ hr]
  refine ⟨fun _ => rfl, ?_, ?_⟩
  · intro r c q h0 hl hq
    have hne : r ≠ [] := by rintro rfl; cases hq
    obtain ⟨v, rest, e1, e2, e3, e4⟩ := split_cons h0 hne
    rw [e1, hd e2 e3] at hq
    split at hq
    · cases hq
    · have hl' : Line (lstrip rest) := line_suffix ((lstrip_suffix _).trans ⟨v, e1.symm⟩) hl
      obtain ⟨a, h1, h2⟩ := h.fwd _ _ _ (lstrip_lstrip rest) hl' hq
      rw [splitWs_lstrip] at h1
      exact ⟨a, ⟨v, _, e4, h1⟩, h2⟩
  · rintro r c a h0 hl ⟨v, more, h1, h2⟩
    have hne : r ≠ [] := by rintro rfl; cases h1
    obtain ⟨v', rest, e1, e2, e3, e4⟩ := split_cons h0 hne
    rw [e4] at h1
    obtain ⟨rfl, rfl⟩ := List.cons.inj h1
    have hl' : Line (lstrip rest) := line_suffix ((lstrip_suffix _).trans ⟨v', e1.symm⟩) hl
    rw [← splitWs_lstrip] at h2
    obtain ⟨q, hq⟩ := h.ex _ c a (lstrip_lstrip rest) hl' h2
    refine ⟨q, ?_⟩
    rw [e1, hd e2 e3, if_neg]
    · exact hq
    · rintro rfl
      rw [show lstrip ([] : Str) = [] from rfl, h.nil] at hq
      cases hq

/-- A number, then more. -/
theorem tail_num {p : Prog} {g : Nat} {T : List Str → Str → Prop} (h : Tail p g T) :
    Tail (.plus .digit (.plus .space p)) g (fun ws a => ∃ v more, ws = v :: more ∧ Spec.Digits v ∧ T more a) := by
  have hd : ∀ {v rest : Str}, IsWord v → (∀ c, rest.head? = some c → isSpace c = true) → ∀ c,
      (Prog.plus .digit (.plus .space p)).det (v ++ rest) c =
        if v.all isDigit = true then (if rest = [] then none else p.det (lstrip rest) c) else none := by
    intro v rest hv hr c
    rw [det_digits hv hr _ (sp_nonspace _), det_sp _ hr]
  refine ⟨fun _ => rfl, ?_, ?_⟩
  · intro r c q h0 hl hq
    have hne : r ≠ [] := by rintro rfl; cases hq
    obtain ⟨v, rest, e1, e2, e3, e4⟩ := split_cons h0 hne
    rw [e1, hd e2 e3] at hq
    split at hq
    · rename_i hv
      split at hq
      · cases hq
      · have hl' : Line (lstrip rest) := line_suffix ((lstrip_suffix _).trans ⟨v, e1.symm⟩) hl
        obtain ⟨a, h1, h2⟩ := h.fwd _ _ _ (lstrip_lstrip rest) hl' hq
        rw [splitWs_lstrip] at h1
        exact ⟨a, ⟨v, _, e4, (allDigits_iff e2).mp hv, h1⟩, h2⟩
    · cases hq
  · rintro r c a h0 hl ⟨v, more, h1, hv, h2⟩
    have hne : r ≠ [] := by rintro rfl; cases h1
    obtain ⟨v', rest, e1, e2, e3, e4⟩ := split_cons h0 hne
    rw [e4] at h1
    obtain ⟨rfl, rfl⟩ := List.cons.inj h1
    have hl' : Line (lstrip rest) := line_suffix ((lstrip_suffix _).trans ⟨v', e1.symm⟩) hl
    rw [← splitWs_lstrip] at h2
    obtain ⟨q, hq⟩ := h.ex _ c a (lstrip_lstrip rest) hl' h2
    refine ⟨q, ?_⟩
    rw [e1, hd e2 e3, if_pos ((allDigits_iff e2).mpr hv), if_neg]
    · exact hq
    · rintro rfl
      rw [show lstrip ([] : Str) = [] from rfl, h.nil] at hq
      cases hq

/-- The same without touching group `g`. -/
structure Ends (g : Nat) (p : Prog) (M : List Str → Prop) : Prop where
  nil : ∀ c, p.det [] c = none
  fwd : ∀ r c q, lstrip r = r → Line r → p.det r c = some q → M (splitWs r) ∧ q.2.lookup g = c.lookup g
  ex : ∀ r c, lstrip r = r → Line r → M (splitWs r) → ∃ q, p.det r c = some q

/-- `\d+`, open at the end. -/
theorem ends_lead (g : Nat) : Ends g (.plus .digit .done) (fun ws => ∃ w more a, ws = w :: more ∧ Spec.Leads w a) := by
  have h := tail_lead 1
  have hd : ∀ r c q, (Prog.plus .digit .done).det r c = some q →
      (Prog.grp 1 (.plus .digit .done) .done).det r c = some (q.1, (1, r.take (r.length - q.1.length)) :: q.2) := by
    intro r c q hq
    rw [Prog.det, hq]
    rfl
  refine ⟨fun _ => rfl, ?_, ?_⟩
  · intro r c q h0 hl hq
    obtain ⟨a, ⟨w, more, h1, h2⟩, -⟩ := h.fwd r c _ h0 hl (hd r c q hq)
    exact ⟨⟨w, more, a, h1, h2⟩, by
      rw [(append_det _ .done (show (Prog.plus .digit .done).free = true from rfl) r c c).2 q hq]⟩
  · rintro r c h0 hl ⟨w, more, a, h1, h2⟩
    obtain ⟨q, hq⟩ := h.ex r c a h0 hl ⟨w, more, h1, h2⟩
    rw [Prog.det] at hq
    cases hx : (Prog.plus .digit .done).det r c with
    | none => rw [hx] at hq; cases hq
    | some x => exact ⟨x, rfl⟩

/-- A captured word of some kind, and blanks behind it. -/
theorem tail_cap {p b : Prog} {g : Nat} {M : List Str → Prop} {R : Str → Prop} (h : Ends g p M)
    (hn : ∀ c, b.det [] c = none)
    (hd : ∀ {v rest : Str}, IsWord v → (∀ c, rest.head? = some c → isSpace c = true) → ∀ c q,
      (Prog.grp g b (.plus .space p)).det (v ++ rest) c = some q ↔
        R v ∧ rest ≠ [] ∧ p.det (lstrip rest) ((g, v) :: c) = some q) :
    Tail (.grp g b (.plus .space p)) g (fun ws a => R a ∧ ∃ more, ws = a :: more ∧ M more) := by
  have hnil : ∀ c, (Prog.grp g b (.plus .space p)).det [] c = none := by
    intro c; rw [Prog.det, hn]
  refine ⟨hnil, ?_, ?_⟩
  · intro r c q h0 hl hq
    have hne : r ≠ [] := by rintro rfl; rw [hnil] at hq; cases hq
    obtain ⟨v, rest, e1, e2, e3, e4⟩ := split_cons h0 hne
    rw [e1, hd e2 e3] at hq
    obtain ⟨hv, hrest, hq⟩ := hq
    have hl' : Line (lstrip rest) := line_suffix ((lstrip_suffix _).trans ⟨v, e1.symm⟩) hl
    obtain ⟨h1, h2⟩ := h.fwd _ _ _ (lstrip_lstrip rest) hl' hq
    rw [splitWs_lstrip] at h1
    refine ⟨v, ⟨hv, _, e4, h1⟩, ?_⟩
    rw [h2]; simp
  · rintro r c a h0 hl ⟨hv, more, h1, h2⟩
    have hne : r ≠ [] := by rintro rfl; cases h1
    obtain ⟨v', rest, e1, e2, e3, e4⟩ := split_cons h0 hne
    rw [e4] at h1
    obtain ⟨rfl, rfl⟩ := List.cons.inj h1
    have hl' : Line (lstrip rest) := line_suffix ((lstrip_suffix _).trans ⟨v', e1.symm⟩) hl
    rw [← splitWs_lstrip] at h2
    obtain ⟨q, hq⟩ := h.ex _ ((g, v') :: c) (lstrip_lstrip rest) hl' h2
    refine ⟨q, ?_⟩
    rw [e1, hd e2 e3]
    refine ⟨hv, ?_, hq⟩
    rintro rfl
    rw [show lstrip ([] : Str) = [] from rfl, h.nil] at hq
    cases hq

/-- `\S+`, open at the end. -/
theorem ends_word (g : Nat) : Ends g (.plus .nonspace .done) (fun ws => ∃ w more, ws = w :: more) := by
  have hd : ∀ (x : Char) (s : Str) c, isSpace x = false →
      (Prog.plus .nonspace .done).det (x :: s) c = some (s.dropWhile K.nonspace.has, c) := by
    intro x s c hx
    rw [plus_cons, if_pos (by simp [K.has, hx]), Prog.det]
  have hh : ∀ (x : Char) (s : Str), lstrip (x :: s) = x :: s → isSpace x = false := fun x s h0 =>
    head?_lstrip (x :: s) x (by rw [h0]; rfl)
  refine ⟨fun _ => rfl, ?_, ?_⟩
  · intro r c q h0 hl hq
    cases r with
    | nil => cases hq
    | cons x s =>
      rw [hd x s c (hh x s h0)] at hq
      cases hq
      exact ⟨⟨_, _, splitWs_cons h0 (by simp)⟩, rfl⟩
  · rintro r c h0 hl ⟨w, more, h1⟩
    cases r with
    | nil => cases h1
    | cons x s => exact ⟨_, hd x s c (hh x s h0)⟩

/-- `(\S+)`, open at the end, as another group. -/
theorem ends_next {g j : Nat} (hj : g ≠ j) :
    Ends g (.grp j (.plus .nonspace .done) .done) (fun ws => ∃ w more, ws = w :: more) := by
  have h := tail_next j
  refine ⟨h.nil, ?_, ?_⟩
  · intro r c q h0 hl hq
    obtain ⟨v, vs, h1, h2⟩ := (det_word h0 _ _ _ _).mp hq
    rw [Prog.det] at h2
    cases h2
    refine ⟨⟨v, vs, h1⟩, ?_⟩
    rw [List.lookup_cons, beq_false_of_ne hj]
  · rintro r c h0 hl ⟨w, more, h1⟩
    exact h.ex r c w h0 hl ⟨more, h1⟩

/-- A word, then more. -/
theorem ends_cons {g : Nat} {p : Prog} {M : List Str → Prop} (h : Ends g p M) {w : Str} (hw : IsWord w) :
    Ends g (str w (.plus .space p)) (fun ws => ∃ more, ws = w :: more ∧ M more) := by
  have hd : ∀ {r : Str}, lstrip r = r → ∀ c, (str w (.plus .space p)).det r c =
      if (splitWs r).head? = some w then (if r.dropWhile nsp = [] then none else p.det (lstrip (r.dropWhile nsp)) c)
      else none := by
    intro r h0 c
    rw [det_str_word hw h0 _ (sp_nonspace p)]
    by_cases hne : r = []
    · subst hne; rfl
    · rw [det_sp _ (split_word h0 hne).2.2]
  refine ⟨fun c => by rw [hd rfl]; rfl, ?_, ?_⟩
  · intro r c q h0 hl hq
    rw [hd h0] at hq
    have hne : r ≠ [] := by rintro rfl; cases hq
    obtain ⟨e1, e2, e3⟩ := split_word h0 hne
    split at hq
    · rename_i hw'
      split at hq
      · cases hq
      · have hl' : Line (lstrip (r.dropWhile nsp)) := line_suffix ((lstrip_suffix _).trans ⟨_, e1.symm⟩) hl
        obtain ⟨h1, h2⟩ := h.fwd _ _ _ (lstrip_lstrip _) hl' hq
        rw [splitWs_lstrip] at h1
        refine ⟨⟨_, ?_, h1⟩, h2⟩
        rw [splitWs_cons h0 hne] at hw' ⊢
        cases hw'
        rfl
    · cases hq
  · rintro r c h0 hl ⟨more, h1, h2⟩
    have hne : r ≠ [] := by rintro rfl; cases h1
    obtain ⟨e1, e2, e3⟩ := split_word h0 hne
    have h3 := h1
    rw [splitWs_cons h0 hne] at h3
    obtain ⟨-, rfl⟩ := List.cons.inj h3
    have hl' : Line (lstrip (r.dropWhile nsp)) := line_suffix ((lstrip_suffix _).trans ⟨_, e1.symm⟩) hl
    rw [← splitWs_lstrip] at h2
    obtain ⟨q, hq⟩ := h.ex _ c (lstrip_lstrip _) hl' h2
    refine ⟨q, ?_⟩
    rw [hd h0, if_pos (by rw [h1]; rfl), if_neg, hq]
    intro e
    rw [e, show lstrip ([] : Str) = [] from rfl, h.nil] at hq
    cases hq

/-- `(\d+)\s+..`. -/
theorem tail_cap_num {p : Prog} (g : Nat) {M : List Str → Prop} (h : Ends g p M) :
    Tail (.grp g (.plus .digit .done) (.plus .space p)) g
      (fun ws a => Spec.Digits a ∧ ∃ more, ws = a :: more ∧ M more) := by
  refine tail_cap h (fun _ => rfl) ?_
  intro v rest hv hr c q
  rw [det_cap_num hv hr _ _ (sp_nonspace _), det_sp _ hr, ← allDigits_iff hv]
  by_cases h1 : v.all isDigit = true <;> by_cases h2 : rest = [] <;> simp [h1, h2]

/-- `(\S+)\s+..`. -/
theorem tail_cap_word {p : Prog} (g : Nat) {M : List Str → Prop} (h : Ends g p M) :
    Tail (.grp g (.plus .nonspace .done) (.plus .space p)) g (fun ws a => True ∧ ∃ more, ws = a :: more ∧ M more) := by
  refine tail_cap h (fun _ => rfl) ?_
  intro v rest hv hr c q
  rw [det_cap_word hv hr, det_sp _ hr]
  by_cases h2 : rest = [] <;> simp [h2]

/-! ## Dotted quads -/

theorem quad_open (p : Prog) (s : Str) (c : Caps) (q : Str × Caps) :
    (quad p).det s c = some q ↔
      ∃ v r, s = v ++ r ∧ Quad v ∧ (∀ x, r.head? = some x → isDigit x = false) ∧ p.det r c = some q := by
  constructor
  · intro h
    obtain ⟨a, r1, e1, h1, _, h⟩ := (det_run _ _ _ _).mp h
    obtain ⟨s1, rfl, h⟩ := (det_chr _ _ _ _ _).mp h
    obtain ⟨b, r2, rfl, h2, _, h⟩ := (det_run _ _ _ _).mp h
    obtain ⟨s2, rfl, h⟩ := (det_chr _ _ _ _ _).mp h
    obtain ⟨b3, r3, rfl, h3, _, h⟩ := (det_run _ _ _ _).mp h
    obtain ⟨s3, rfl, h⟩ := (det_chr _ _ _ _ _).mp h
    obtain ⟨d, r4, rfl, h4, h5, h⟩ := (det_run _ _ _ _).mp h
    refine ⟨a ++ '.' :: b ++ '.' :: b3 ++ '.' :: d, r4, by rw [e1]; simp, ⟨a, b, b3, d, rfl, ?_⟩, h5, h⟩
    intro s hs
    simp only [List.mem_cons, List.not_mem_nil, or_false] at hs
    rcases hs with rfl | rfl | rfl | rfl
    · exact h1
    · exact h2
    · exact h3
    · exact h4
  · rintro ⟨v, r, rfl, ⟨a, b, b3, d, rfl, hs⟩, hr, h⟩
    have e : a ++ '.' :: b ++ '.' :: b3 ++ '.' :: d ++ r = a ++ '.' :: (b ++ '.' :: (b3 ++ '.' :: (d ++ r))) := by
      simp
    rw [e]
    refine (det_run _ _ _ _).mpr ⟨a, _, rfl, hs a (by simp), run_dot, ?_⟩
    refine (det_chr _ _ _ _ _).mpr ⟨_, rfl, ?_⟩
    refine (det_run _ _ _ _).mpr ⟨b, _, rfl, hs b (by simp), run_dot, ?_⟩
    refine (det_chr _ _ _ _ _).mpr ⟨_, rfl, ?_⟩
    refine (det_run _ _ _ _).mpr ⟨b3, _, rfl, hs b3 (by simp), run_dot, ?_⟩
    refine (det_chr _ _ _ _ _).mpr ⟨_, rfl, ?_⟩
    exact (det_run _ _ _ _).mpr ⟨d, _, rfl, hs d (by simp), hr, h⟩

theorem quad_spec {v : Str} : Quad v ↔ Spec.DottedQuad v := Iff.rfl

theorem space_not_digit {x : Char} (hx : isSpace x = true) : isDigit x = false := by
  cases h : isDigit x with
  | false => rfl
  | true => rw [digit_not_space h] at hx; cases hx

/-- `(quad)` and something that does not match inside a word. -/
theorem det_cap_quad {v rest : Str} (hv : IsWord v) (hr : ∀ c, rest.head? = some c → isSpace c = true) (g : Nat)
    (p : Prog) (hp : ∀ x s c, isSpace x = false → p.det (x :: s) c = none) (c : Caps) (q : Str × Caps) :
    (Prog.grp g (quad .done) p).det (v ++ rest) c = some q ↔ Quad v ∧ p.det rest ((g, v) :: c) = some q := by
  rw [det_grp g _ _ rfl]
  constructor
  · rintro ⟨x, r, h1, h2, h3⟩
    obtain ⟨v', r', e1, e2, e3, e4⟩ := (quad_open _ _ _ _).mp h2
    rw [Prog.det] at e4
    cases e4
    have hx : x = v' := List.append_cancel_right (h1.symm.trans e1)
    subst hx
    have h4 : (quad p).det (v ++ rest) ((g, x) :: c) = some q := (quad_open _ _ _ _).mpr ⟨x, r, h1, e2, e3, h3⟩
    have h5 := (det_quad hv hr p hp _ _).mp h4
    have hr4 : ∀ c, r.head? = some c → isSpace c = true := by
      intro y hy
      cases r with
      | nil => cases hy
      | cons z r4 =>
        cases hy
        cases hz : isSpace y with
        | true => rfl
        | false => rw [hp y r4 _ hz] at h3; cases h3
    have d1 := (prefix_word hv (List.prefix_append v rest) (by rw [List.drop_left]; exact hr)).1
    have d2 := (prefix_word (quad_word e2) (List.prefix_append x r) (by rw [List.drop_left]; exact hr4)).1
    rw [h1, d2] at d1
    subst d1
    exact h5
  · rintro ⟨h1, h2⟩
    refine ⟨v, rest, rfl, (quad_open _ _ _ _).mpr ⟨v, rest, rfl, h1, fun x hx => space_not_digit (hr x hx), rfl⟩, h2⟩

/-- `(quad)\s+..`. -/
theorem tail_cap_quad {p : Prog} (g : Nat) {M : List Str → Prop} (h : Ends g p M) :
    Tail (.grp g (quad .done) (.plus .space p)) g
      (fun ws a => Spec.DottedQuad a ∧ ∃ more, ws = a :: more ∧ M more) := by
  refine tail_cap h (fun _ => rfl) ?_
  intro v rest hv hr c q
  rw [det_cap_quad hv hr _ _ (sp_nonspace _), det_sp _ hr, quad_spec]
  by_cases h2 : rest = [] <;> simp [h2]

/-- `quad\s*$`. -/
theorem ends_quad (g : Nat) (sp : Bool) : Ends g (quad (ends sp [])) (fun ws => ∃ v, ws = [v] ∧ Spec.DottedQuad v) := by
  refine ⟨fun _ => rfl, ?_, ?_⟩
  · intro r c q h0 hl hq
    have hne : r ≠ [] := by rintro rfl; cases hq
    obtain ⟨v, rest, e1, e2, e3, e4⟩ := split_cons h0 hne
    rw [e1, det_quad e2 e3 _ (ends_nonspace sp []),
      det_ends sp (by simp) e3 (line_suffix ⟨v, e1.symm⟩ hl)] at hq
    rw [e4, hq.2.1, hq.2.2]
    exact ⟨⟨v, rfl, hq.1⟩, rfl⟩
  · rintro r c h0 hl ⟨v, h1, h2⟩
    have hne : r ≠ [] := by rintro rfl; cases h1
    obtain ⟨v', rest, e1, e2, e3, e4⟩ := split_cons h0 hne
    rw [e4] at h1
    obtain ⟨rfl, h3⟩ := List.cons.inj h1
    refine ⟨([], c), ?_⟩
    rw [e1, det_quad e2 e3 _ (ends_nonspace sp []), det_ends sp (by simp) e3 (line_suffix ⟨v', e1.symm⟩ hl)]
    exact ⟨h2, h3, rfl⟩

/-- `(quad)\s*$`. -/
theorem tail_quad_end (g : Nat) (sp : Bool) :
    Tail (.grp g (quad .done) (ends sp [])) g (fun ws a => ws = [a] ∧ Spec.DottedQuad a) := by
  refine ⟨fun _ => rfl, ?_, ?_⟩
  · intro r c q h0 hl hq
    have hne : r ≠ [] := by rintro rfl; cases hq
    obtain ⟨v, rest, e1, e2, e3, e4⟩ := split_cons h0 hne
    rw [e1, det_cap_quad e2 e3 _ _ (ends_nonspace sp []),
      det_ends sp (by simp) e3 (line_suffix ⟨v, e1.symm⟩ hl)] at hq
    rw [e4, hq.2.1, hq.2.2]
    exact ⟨v, ⟨rfl, hq.1⟩, by simp⟩
  · rintro r c a h0 hl ⟨h1, h2⟩
    have hne : r ≠ [] := by rintro rfl; cases h1
    obtain ⟨v', rest, e1, e2, e3, e4⟩ := split_cons h0 hne
    rw [e4] at h1
    obtain ⟨rfl, h3⟩ := List.cons.inj h1
    refine ⟨([], (g, v') :: c), ?_⟩
    rw [e1, det_cap_quad e2 e3 _ _ (ends_nonspace sp []), det_ends sp (by simp) e3 (line_suffix ⟨v', e1.symm⟩ hl)]
    exact ⟨h2, h3, rfl⟩

/-- A quad, then more. -/
theorem tail_quad {p : Prog} {g : Nat} {T : List Str → Str → Prop} (h : Tail p g T) :
    Tail (quad (.plus .space p)) g (fun ws a => ∃ v more, ws = v :: more ∧ Spec.DottedQuad v ∧ T more a) := by
  refine ⟨fun _ => rfl, ?_, ?_⟩
  · intro r c q h0 hl hq
    have hne : r ≠ [] := by rintro rfl; cases hq
    obtain ⟨v, rest, e1, e2, e3, e4⟩ := split_cons h0 hne
    rw [e1, det_quad e2 e3 _ (sp_nonspace _), det_sp _ e3] at hq
    obtain ⟨hv, hq⟩ := hq
    split at hq
    · cases hq
    · have hl' : Line (lstrip rest) := line_suffix ((lstrip_suffix _).trans ⟨v, e1.symm⟩) hl
      obtain ⟨a, h1, h2⟩ := h.fwd _ _ _ (lstrip_lstrip rest) hl' hq
      rw [splitWs_lstrip] at h1
      exact ⟨a, ⟨v, _, e4, hv, h1⟩, h2⟩
  · rintro r c a h0 hl ⟨v, more, h1, hv, h2⟩
    have hne : r ≠ [] := by rintro rfl; cases h1
    obtain ⟨v', rest, e1, e2, e3, e4⟩ := split_cons h0 hne
    rw [e4] at h1
    obtain ⟨rfl, rfl⟩ := List.cons.inj h1
    have hl' : Line (lstrip rest) := line_suffix ((lstrip_suffix _).trans ⟨v', e1.symm⟩) hl
    rw [← splitWs_lstrip] at h2
    obtain ⟨q, hq⟩ := h.ex _ c a (lstrip_lstrip rest) hl' h2
    refine ⟨q, ?_⟩
    rw [e1, det_quad e2 e3 _ (sp_nonspace _), det_sp _ e3, if_neg]
    · exact ⟨hv, hq⟩
    · rintro rfl
      rw [show lstrip ([] : Str) = [] from rfl, h.nil] at hq
      cases hq

/-- `(word)\s*$`. -/
theorem tail_exact (g : Nat) {w : Str} (hw : IsWord w) (sp : Bool) :
    Tail (.grp g (str w .done) (ends sp [])) g (fun ws a => ws = [w] ∧ a = w) := by
  have hd : ∀ {r : Str} (c : Caps) q, lstrip r = r → Line r →
      ((Prog.grp g (str w .done) (ends sp [])).det r c = some q ↔ splitWs r = [w] ∧ q = ([], (g, w) :: c)) := by
    intro r c q h0 hl
    by_cases hne : r = []
    · subst hne
      rw [Prog.det, det_str, if_neg (fun h => hw.1 (List.prefix_nil.mp h))]
      constructor
      · intro h; cases h
      · rintro ⟨h, _⟩; cases h
    obtain ⟨v, rest, e1, e2, e3, e4⟩ := split_cons h0 hne
    have hb : (Prog.grp g (str w .done) (ends sp [])).det r c =
        if w <+: r then (ends sp []).det (r.drop w.length) ((g, w) :: c) else none := by
      rw [Prog.det, det_str]
      by_cases hp : w <+: r
      · obtain ⟨u, rfl⟩ := hp
        simp [Prog.det]
      · simp [hp]
    have hs := det_str_word hw h0 (ends sp []) (ends_nonspace sp []) ((g, w) :: c)
    rw [det_str, ← hb] at hs
    have hdw : r.dropWhile nsp = rest := by
      have := (prefix_word e2 (List.prefix_append v rest) (by rw [List.drop_left]; exact e3)).2
      rw [List.drop_left, ← e1] at this
      exact this
    rw [hs, e4, hdw]
    by_cases hvw : v = w
    · subst hvw
      rw [List.head?_cons, if_pos rfl, det_ends sp (by simp) e3 (line_suffix ⟨v, e1.symm⟩ hl)]
      simp
    · rw [if_neg (by simpa using hvw)]
      simp [hvw]
  refine ⟨?_, ?_, ?_⟩
  · intro c
    rw [Prog.det, det_str, if_neg (fun h => hw.1 (List.prefix_nil.mp h))]
  · intro r c q h0 hl hq
    obtain ⟨h1, rfl⟩ := (hd c q h0 hl).mp hq
    exact ⟨w, ⟨h1, rfl⟩, by simp⟩
  · rintro r c a h0 hl ⟨h1, rfl⟩
    exact ⟨_, (hd c _ h0 hl).mpr ⟨h1, rfl⟩⟩

/-! ## Chains with tails -/

/-- `^\s*pre\s+tail`: when it matches and what the group then holds. -/
theorem chain_tail (ind : Bool) {pre : List (Str × Bool)} (hpre : pre.all (fun w => isWord w.1) = true)
    {p : Prog} {g : Nat} {T : List Str → Str → Prop} (hT : Tail p g T) {t : Str} (ht : Line t)
    (hf : Fits pre (lstrip t)) (c : Caps) :
    (∀ q, (lead ind (wordsG pre p)).det t c = some q →
      ∃ more a, (ind = true → Indented t) ∧ splitWs t = pre.map Prod.fst ++ more ∧ T more a ∧ q.2.lookup g = some a) ∧
    (∀ more a, (ind = true → Indented t) → splitWs t = pre.map Prod.fst ++ more → T more a →
      ∃ q, (lead ind (wordsG pre p)).det t c = some q) := by
  have hl : Line (skip pre.length (lstrip t)) := line_suffix ((skip_suffix _ _).trans (lstrip_suffix t)) ht
  have h0 := lstrip_skip pre.length (lstrip_lstrip t)
  have hsk : splitWs (skip pre.length (lstrip t)) = (splitWs t).drop pre.length := by
    rw [splitWs_skip _ (lstrip_lstrip t), splitWs_lstrip]
  constructor
  · intro q hq
    rw [det_chain ind (words_of hpre) p hT.nil hf] at hq
    obtain ⟨h1, h2, h3⟩ := hq
    obtain ⟨a, h4, h5⟩ := hT.fwd _ _ _ h0 hl h3
    rw [hsk] at h4
    refine ⟨_, a, h1, ?_, h4, h5⟩
    conv => lhs; rw [prefix_append_drop h2]
    rw [List.length_map]
  · intro more a h1 h2 h3
    obtain ⟨q, hq⟩ := hT.ex _ c a h0 hl (by
      rw [hsk, h2, ← List.length_map (f := Prod.fst), List.drop_left]; exact h3)
    exact ⟨q, (det_chain ind (words_of hpre) p hT.nil hf c q).mpr ⟨h1, by rw [h2]; exact List.prefix_append _ _, hq⟩⟩

/-- `^\s*pre\s+(\d+\s+)*l\s+tail`. -/
theorem loop_tail {pre : List (Str × Bool)} (i : Nat) {b : Prog} {R : Str → Prop} (hb : Item1 b R)
    {l : List (Str × Bool)} {p : Prog} {g : Nat} {T : List Str → Str → Prop} (hT : Tail p g T)
    (hpre : (pre ++ l).all (fun w => isWord w.1) = true) (ha : After (wordsG l p) R) {t : Str} (ht : Line t)
    (hf : Fits (pre ++ l) (lstrip t)) (c : Caps) :
    (∀ q, (loopProg pre i b l p).det t c = some q →
      ∃ ns x more a, (∀ n ∈ ns, R n) ∧ splitWs t = pre.map Prod.fst ++ ns ++ l.map Prod.fst ++ more ∧ T more a ∧
        (∀ j, j ≠ i → x.lookup j = c.lookup j) ∧ Holds i ns x c ∧ q.2.lookup g = some a ∧
        p.det (skip (pre.length + ns.length + l.length) (lstrip t)) x = some q) ∧
    (∀ ns more a, (∀ n ∈ ns, R n) → splitWs t = pre.map Prod.fst ++ ns ++ l.map Prod.fst ++ more → T more a →
      ∃ q, (loopProg pre i b l p).det t c = some q) := by
  have hw := words_of hpre
  have hw1 : ∀ w ∈ pre, IsWord w.1 := fun w h => hw w (by simp [h])
  have hw2 : ∀ w ∈ l, IsWord w.1 := fun w h => hw w (by simp [h])
  have hl : ∀ n, Line (skip n (lstrip t)) := fun n => line_suffix ((skip_suffix _ _).trans (lstrip_suffix t)) ht
  have h0 := fun n => lstrip_skip n (lstrip_lstrip t)
  have hsk : ∀ n, splitWs (skip n (lstrip t)) = (splitWs t).drop n := fun n => by
    rw [splitWs_skip _ (lstrip_lstrip t), splitWs_lstrip]
  constructor
  · intro q hq
    obtain ⟨ns, x, a1, a2, a3, a4, a5⟩ := loop_chain i hb hw1 hw2 hT.nil hf c q hq
    obtain ⟨a, h4, h5⟩ := hT.fwd _ _ _ (h0 _) (hl _) a5
    rw [hsk] at h4
    refine ⟨ns, x, _, a, a1, ?_, h4, a3, a4, h5, a5⟩
    conv => lhs; rw [prefix_append_drop a2]
    simp [Nat.add_assoc]
  · intro ns more a h1 h2 h3
    refine loop_chain' i hb hw1 hw2 hT.nil ha hf c h1 (by rw [h2]; exact List.prefix_append _ _) ?_
    intro x
    refine hT.ex _ x a (h0 _) (hl _) ?_
    rw [hsk, h2]
    have : pre.length + ns.length + l.length = (pre.map Prod.fst ++ ns ++ l.map Prod.fst).length := by simp [Nat.add_assoc]
    rw [this, List.drop_left]
    exact h3

/-- A typed search with `^\s*pre\s+tail`. -/
theorem tail_attr {α : Type} {o : Opts} {lines : List Str} {P : Parsed} (h : parse o lines = .ok P)
    (hn : ∀ l ∈ lines, '\n' ∉ l) (i : Nat) {rx : String} {ind : Bool} {pre : List (Str × Bool)} {p : Prog} {n g : Nat}
    {names : List (Str × Nat)} {T : List Str → Str → Prop} (hT : Tail p g T)
    (hi : Is rx (lead ind (wordsG pre p)) n names ∧ pre.all (fun w => isWord w.1) = true ∧ g ≠ 0 ∧ g ≤ n)
    (hf : ∀ t ∈ Spec.family P i, Fits pre (lstrip t)) (conv : Option Str → Except Err α) (d : α)
    (hc : ∀ ws v, T ws v → ∃ a, conv (some v) = .ok a) :
    ∃ v, Spec.First (fun t a => (ind = true → Spec.Indented t) ∧
        ∃ more v, splitWs t = pre.map Prod.fst ++ more ∧ T more v ∧ conv (some v) = .ok a) (Spec.family P i) v ∧
      iterTyped P i rx g conv d = .ok (v.getD d) := by
  obtain ⟨hi, hl, h0, hg⟩ := hi
  refine iter_first hi h0 hg conv d P i ?_ ?_
  · intro t ht q hq
    obtain ⟨more, v, h1, h2, h3, h4⟩ := (chain_tail ind hl hT (line_family h hn i t ht) (hf t ht) []).1 q hq
    obtain ⟨a, ha⟩ := hc more v h3
    exact ⟨a, ⟨h1, more, v, h2, h3, ha⟩, by rw [h4]; exact ha⟩
  · rintro t ht a ⟨h1, more, v, h2, h3, -⟩
    exact (chain_tail ind hl hT (line_family h hn i t ht) (hf t ht) []).2 more v h1 h2 h3

/-- The same for a flag. -/
theorem tail_flag {o : Opts} {lines : List Str} {P : Parsed} (h : parse o lines = .ok P)
    (hn : ∀ l ∈ lines, '\n' ∉ l) (i : Nat) {rx : String} {ind : Bool} {pre : List (Str × Bool)} {p : Prog} {n g : Nat}
    {names : List (Str × Nat)} {T : List Str → Str → Prop} (hT : Tail p g T)
    (hi : Is rx (lead ind (wordsG pre p)) n names ∧ pre.all (fun w => isWord w.1) = true ∧ g ≠ 0 ∧ g ≤ n)
    (hf : ∀ t ∈ Spec.family P i, Fits pre (lstrip t)) (hc : ∀ t more v, splitWs t = pre.map Prod.fst ++ more → T more v → v ≠ []) :
    ∃ b, iterTyped P i rx g toBool false = .ok b ∧
      (b = true ↔ ∃ t ∈ Spec.family P i, (ind = true → Spec.Indented t) ∧
        ∃ more v, splitWs t = pre.map Prod.fst ++ more ∧ T more v) := by
  obtain ⟨hi, hl, h0, hg⟩ := hi
  refine iter_flag hi h0 hg P i ?_ ?_
  · intro t ht q hq
    obtain ⟨more, v, h1, h2, h3, h4⟩ := (chain_tail ind hl hT (line_family h hn i t ht) (hf t ht) []).1 q hq
    exact ⟨⟨h1, more, v, h2, h3⟩, v, h4, hc t _ _ h2 h3⟩
  · rintro t ht ⟨h1, more, v, h2, h3⟩
    exact (chain_tail ind hl hT (line_family h hn i t ht) (hf t ht) []).2 more v h1 h2 h3

/-- A typed search with `^\s*standby\s+(\d+\s+)*l\s+tail`. -/
theorem standby_attr {α : Type} {o : Opts} {lines : List Str} {P : Parsed} (h : parse o lines = .ok P)
    (hn : ∀ l ∈ lines, '\n' ∉ l) (i : Nat) {rx : String} {l : List String} {p : Prog} {n : Nat}
    {names : List (Str × Nat)} {T : List Str → Str → Prop} (hT : Tail p 2 T)
    (ha : After (wordsG (gaps true l) p) (fun v => v.all isDigit = true))
    (hi : Is rx (loopProg (gaps true ["standby"]) 1 (.plus .digit (.plus .space .done)) (gaps true l) p) n names ∧
      (gaps true ["standby"] ++ gaps true l).all (fun w => isWord w.1) = true ∧ 2 ≤ n)
    (conv : Option Str → Except Err α) (d : α) (hc : ∀ ws v, T ws v → ∃ a, conv (some v) = .ok a) :
    ∃ v, Spec.First (fun t a => ∃ ns more v, (∀ n ∈ ns, Spec.Digits n) ∧
        splitWs t = "standby".toList :: ns ++ Spec.wd l ++ more ∧ T more v ∧ conv (some v) = .ok a) (Spec.family P i) v ∧
      iterTyped P i rx 2 conv d = .ok (v.getD d) := by
  obtain ⟨hi, hl, hg⟩ := hi
  have hfit : ∀ t : Str, Fits (gaps true ["standby"] ++ gaps true l) (lstrip t) := fun t => .inl (by
    intro w hw
    simp only [gaps, List.mem_append, List.mem_map] at hw
    rcases hw with ⟨_, _, rfl⟩ | ⟨_, _, rfl⟩ <;> rfl)
  refine iter_first hi (by decide) hg conv d P i ?_ ?_
  · intro t ht q hq
    obtain ⟨ns, x, more, v, h1, h2, h3, h4, h5, h6, -⟩ :=
      (loop_tail 1 item_num hT hl ha (line_family h hn i t ht) (hfit t) []).1 q hq
    obtain ⟨a, hca⟩ := hc more v h3
    rw [fst_gaps, fst_gaps] at h2
    refine ⟨a, ⟨ns, more, v, ?_, h2, h3, hca⟩, by rw [h6]; exact hca⟩
    intro m hm
    exact (allDigits_iff (splitWs_words t m (by rw [h2]; simp [hm]))).mp (h1 m hm)
  · rintro t ht a ⟨ns, more, v, h1, h2, h3, -⟩
    refine (loop_tail 1 item_num hT hl ha (line_family h hn i t ht) (hfit t) []).2 ns more v ?_ ?_ h3
    · intro m hm
      exact List.all_eq_true.mpr (h1 m hm).2
    · rw [fst_gaps, fst_gaps]; exact h2

theorem first_congr {α : Type} {S S' : Str → α → Prop} {ts : List Str} {o : Option α}
    (h : ∀ t ∈ ts, ∀ a, S t a ↔ S' t a) (hf : Spec.First S ts o) : Spec.First S' ts o := by
  induction ts with
  | nil => exact hf
  | cons t ts ih =>
    rcases hf with ⟨a, h1, h2⟩ | ⟨h1, h2⟩
    · exact .inl ⟨a, (h t (by simp) a).mp h1, h2⟩
    · exact .inr ⟨fun a ha => h1 a ((h t (by simp) a).mpr ha), ih (fun t ht => h t (by simp [ht])) h2⟩

end Cisco

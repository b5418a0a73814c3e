import Verif.Re.Words

/-! # Shapes of expressions: words, a value, words -/

namespace Re

open Py

/-- `\s+word` some times, then `$` or `\s*$`. -/
def ends (sp : Bool) : List Str → Prog
  | [] => if sp then .spEol else .eol .done
  | w :: l => .plus .space (str w (ends sp l))

theorem ends_nonspace (sp : Bool) (l : List Str) (x : Char) (s : Str) (c : Caps) (h : isSpace x = false) :
    (ends sp l).det (x :: s) c = none := by
  cases l with
  | nil =>
    cases sp
    · exact eol_nonspace x s c h
    · exact spEol_nonspace x s c h
  | cons w l => exact sp_nonspace _ x s c h

theorem suffix_mid {a b c : Str} (h : c <:+ b) : c <:+ a ++ b := h.trans (List.suffix_append a b)

/-- The end of an expression, where a word has just ended. -/
theorem det_ends (sp : Bool) : ∀ {l : List Str}, (∀ w ∈ l, IsWord w) → ∀ {rest : Str},
    (∀ c, rest.head? = some c → isSpace c = true) → Line rest → ∀ (c : Caps) (q : Str × Caps),
    (ends sp l).det rest c = some q ↔ splitWs rest = l ∧ q = ([], c)
  | [], _, rest, _, hl, c, q => by
    cases sp with
    | true =>
      rw [ends, if_pos rfl, det_spEol]
      by_cases h : splitWs rest = []
      · rw [if_pos h]; simp [h, eq_comm]
      · rw [if_neg h]; simp [h]
    | false =>
      have e : (ends false []).det rest c = (Prog.eol .done).det rest c := rfl
      rw [e, det_eol (v := []) hl]
      by_cases h : splitWs rest = []
      · rw [if_pos h, Prog.det]; simp [h, eq_comm]
      · rw [if_neg h]; simp [h]
  | w :: l, hw, rest, hr, hl, c, q => by
    have e : ends sp (w :: l) = .plus .space (str w (ends sp l)) := rfl
    rw [e, det_sp _ hr]
    by_cases h : rest = []
    · rw [if_pos h]
      subst h
      simp [splitWs, splitWsAux]
    · rw [if_neg h, det_str_word (hw w (by simp)) (lstrip_lstrip _) _ (ends_nonspace sp l), splitWs_lstrip]
      by_cases hl0 : lstrip rest = []
      · have : splitWs rest = [] := by rw [← splitWs_lstrip, hl0]; rfl
        rw [this]; simp
      · have hsplit := splitWs_cons (lstrip_lstrip rest) hl0
        rw [splitWs_lstrip] at hsplit
        rw [hsplit, List.head?_cons]
        by_cases hh : (lstrip rest).takeWhile nsp = w
        · rw [if_pos (by rw [hh])]
          have hl' : Line ((lstrip rest).dropWhile nsp) :=
            line_suffix ((List.dropWhile_suffix _).trans (lstrip_suffix _)) hl
          rw [det_ends sp (fun v hv => hw v (by simp [hv])) (split_word (lstrip_lstrip rest) hl0).2.2 hl']
          simp [hh]
        · rw [if_neg (by simpa using hh)]
          simp [hh]

/-- A suffix of a word list. -/
theorem prefix_append_drop {α : Type} {a l : List α} (h : a <+: l) : l = a ++ l.drop a.length := by
  obtain ⟨b, rfl⟩ := h
  rw [List.drop_left]

/-- The classes of which words consist. -/
def K.wordy : K → Prop
  | .nonspace => True
  | .digit => True
  | _ => False

theorem det_cap {k : K} (hk : k.wordy) {v rest : Str} (hv : IsWord v) (hr : ∀ c, rest.head? = some c → isSpace c = true)
    (i : Nat) (p : Prog) (hp : ∀ x s c, isSpace x = false → p.det (x :: s) c = none) (c : Caps) :
    (Prog.grp i (.plus k .done) p).det (v ++ rest) c = if v.all k.has = true then p.det rest ((i, v) :: c) else none := by
  cases k with
  | nonspace =>
    rw [det_cap_word hv hr, if_pos]
    rw [List.all_eq_true]
    intro x hx
    simp [K.has, hv.2 x hx]
  | digit => exact det_cap_num hv hr i p hp c
  | _ => exact hk.elim

theorem grp_plus_nil (i : Nat) (k : K) (p : Prog) (c : Caps) : (Prog.grp i (.plus k .done) p).det [] c = none := rfl

/-- What is left of a line after some words: nothing, or a word and the rest. -/
theorem skip_cases {t : Str} (n : Nat) :
    skip n (lstrip t) = [] ∧ (splitWs t).drop n = [] ∨
    ∃ v rest, skip n (lstrip t) = v ++ rest ∧ IsWord v ∧ (∀ c, rest.head? = some c → isSpace c = true) ∧
      (splitWs t).drop n = v :: splitWs rest ∧ rest <:+ t := by
  have h1 : splitWs (skip n (lstrip t)) = (splitWs t).drop n := by
    rw [splitWs_skip n (lstrip_lstrip t), splitWs_lstrip]
  have h2 := lstrip_skip n (lstrip_lstrip t)
  by_cases h : skip n (lstrip t) = []
  · left
    rw [h] at h1
    exact ⟨h, h1.symm⟩
  · right
    obtain ⟨e1, e2, e3⟩ := split_word h2 h
    refine ⟨_, _, e1, e2, e3, ?_, ?_⟩
    · rw [← h1]
      exact splitWs_cons h2 h
    · exact (List.dropWhile_suffix _).trans ((skip_suffix _ _).trans (lstrip_suffix t))

/-! ## Groups without groups in them -/

/-- No groups, and open at the end. -/
def Prog.free : Prog → Bool
  | done => true
  | one _ p => p.free
  | star _ p => p.free
  | plus _ p => p.free
  | eol p => p.free
  | _ => false

/-- One expression after another (only for `free` ones). -/
def Prog.append : Prog → Prog → Prog
  | one k p, r => .one k (p.append r)
  | star k p, r => .star k (p.append r)
  | plus k p, r => .plus k (p.append r)
  | eol p, r => .eol (p.append r)
  | _, r => r

theorem append_det (b p : Prog) (h : b.free = true) (s : Str) (c c' : Caps) :
    ((b.append p).det s c' = (b.det s c).bind (fun q => p.det q.1 c')) ∧
    (∀ q, b.det s c = some q → q.2 = c) := by
  induction b generalizing s with
  | done => exact ⟨rfl, fun q e => by rw [Prog.det] at e; cases e; rfl⟩
  | one k b ih =>
    cases s with
    | nil => exact ⟨rfl, fun q e => by cases e⟩
    | cons x s =>
      simp only [Prog.append, Prog.det]
      split
      · exact ih h s
      · exact ⟨rfl, fun q e => by cases e⟩
  | star k b ih => exact ih h _
  | plus k b ih =>
    cases s with
    | nil => exact ⟨rfl, fun q e => by cases e⟩
    | cons x s =>
      simp only [Prog.append, Prog.det]
      split
      · exact ih h _
      · exact ⟨rfl, fun q e => by cases e⟩
  | eol b ih =>
    simp only [Prog.append, Prog.det]
    split
    · exact ih h s
    · exact ⟨rfl, fun q e => by cases e⟩
  | grp i b p _ _ => cases h
  | loop i b p _ _ => cases h
  | spEol => cases h

/-- A group matches what its parts match, one after the other. -/
theorem det_grp (i : Nat) (b p : Prog) (h : b.free = true) (s : Str) (c : Caps) (q : Str × Caps) :
    (Prog.grp i b p).det s c = some q ↔
      ∃ x r, s = x ++ r ∧ b.det s c = some (r, c) ∧ p.det r ((i, x) :: c) = some q := by
  have hf := (append_det b p h s c c).2
  rw [Prog.det]
  cases hb : b.det s c with
  | none => simp
  | some r =>
    obtain ⟨r, c'⟩ := r
    have : c' = c := hf _ hb
    subst this
    have hs : ∀ (b : Prog), b.free = true → ∀ (s : Str) c r c', b.det s c = some (r, c') → r <:+ s := by
      intro b hb
      induction b with
      | done => intro s c r c' e; rw [Prog.det] at e; cases e; exact List.suffix_refl _
      | one k b ih =>
        intro s c r c' e
        cases s with
        | nil => cases e
        | cons x s =>
          simp only [Prog.det] at e
          split at e
          · exact (ih hb _ _ _ _ e).trans (List.suffix_cons _ _)
          · cases e
      | star k b ih => intro s c r c' e; exact (ih hb _ _ _ _ e).trans (List.dropWhile_suffix _)
      | plus k b ih =>
        intro s c r c' e
        cases s with
        | nil => cases e
        | cons x s =>
          simp only [Prog.det] at e
          split at e
          · exact ((ih hb _ _ _ _ e).trans (List.dropWhile_suffix _)).trans (List.suffix_cons _ _)
          · cases e
      | eol b ih =>
        intro s c r c' e
        simp only [Prog.det] at e
        split at e
        · exact ih hb _ _ _ _ e
        · cases e
      | _ => cases hb
    obtain ⟨x, hx⟩ := hs b h _ _ _ _ hb
    have e : s.take (s.length - r.length) = x := by
      rw [← hx]
      simp
    simp only [e]
    constructor
    · intro hp
      exact ⟨x, r, hx.symm, rfl, hp⟩
    · rintro ⟨x', r', h1, h2, h3⟩
      simp only [Option.some.injEq, Prod.mk.injEq, and_true] at h2
      subst h2
      have : x' = x := List.append_cancel_right (h1.symm.trans hx.symm)
      rw [this] at h3
      exact h3

/-! ## Single blanks -/

/-- No two blanks one after the other. -/
def NoDouble (t : Str) : Prop := ∀ pre x y post, t = pre ++ x :: y :: post → ¬ (isSpace x = true ∧ isSpace y = true)

/-- Behind the indentation there are no two blanks one after the other. -/
def Tidy (t : Str) : Prop := NoDouble (lstrip t)

theorem NoDouble.suffix {s t : Str} (h : s <:+ t) (ht : NoDouble t) : NoDouble s := by
  obtain ⟨u, rfl⟩ := h
  intro pre x y post e
  exact ht (u ++ pre) x y post (by rw [e, List.append_assoc])

/-- `\s+` or `\s`. -/
def gap (many : Bool) (p : Prog) : Prog := if many then .plus .space p else .one .space p

/-- Words, each with `\s+` or `\s` behind it. -/
def wordsG (l : List (Str × Bool)) (p : Prog) : Prog := l.foldr (fun w p => str w.1 (gap w.2 p)) p

theorem gap_eq {s : Str} (h : NoDouble s) (m : Bool) (p : Prog) (c : Caps) :
    (gap m p).det s c = (Prog.plus .space p).det s c := by
  cases m with
  | true => rfl
  | false =>
    cases s with
    | nil => rfl
    | cons x s =>
      show (if K.space.has x = true then p.det s c else none) = if K.space.has x = true then p.det (s.dropWhile K.space.has) c else none
      by_cases hx : K.space.has x = true
      · rw [if_pos hx, if_pos hx]
        cases s with
        | nil => rfl
        | cons y s =>
          rw [List.dropWhile_cons_of_neg]
          intro hy
          exact h [] x y s rfl ⟨hx, hy⟩
      · rw [if_neg hx, if_neg hx]

theorem wordsG_eq (l : List (Str × Bool)) (p : Prog) : ∀ {s : Str}, NoDouble s → ∀ (c : Caps),
    (wordsG l p).det s c = (words (l.map Prod.fst) p).det s c := by
  induction l with
  | nil => intro s _ c; rfl
  | cons w l ih =>
    intro s h c
    have e1 : wordsG (w :: l) p = str w.1 (gap w.2 (wordsG l p)) := rfl
    have e2 : words ((w :: l).map Prod.fst) p = str w.1 (.plus .space (words (l.map Prod.fst) p)) := rfl
    rw [e1, e2, det_str, det_str]
    split
    · have hd : NoDouble (s.drop w.1.length) := h.suffix (List.drop_suffix _ _)
      rw [gap_eq hd]
      cases hs : s.drop w.1.length with
      | nil => rfl
      | cons x r =>
        rw [plus_cons, plus_cons]
        split
        · refine ih (hd.suffix ?_) c
          rw [hs]
          exact (List.dropWhile_suffix _).trans (List.suffix_cons _ _)
        · rfl
    · rfl

theorem Prog.append_str (w : Str) (b p : Prog) : (str w b).append p = str w (b.append p) := by
  induction w with
  | nil => rfl
  | cons x w ih =>
    show Prog.one _ ((str w b).append p) = Prog.one _ (str w (b.append p))
    rw [ih]

theorem Prog.append_gap (m : Bool) (b p : Prog) : (gap m b).append p = gap m (b.append p) := by
  cases m <;> rfl

theorem Prog.append_wordsG (l : List (Str × Bool)) (b p : Prog) : (wordsG l b).append p = wordsG l (b.append p) := by
  induction l with
  | nil => rfl
  | cons w l ih =>
    show (str w.1 (gap w.2 (wordsG l b))).append p = str w.1 (gap w.2 (wordsG l (b.append p)))
    rw [Prog.append_str, Prog.append_gap, ih]

theorem free_str (w : Str) (b : Prog) (h : b.free = true) : (str w b).free = true := by
  induction w with
  | nil => exact h
  | cons x w ih => exact ih

theorem free_wordsG (l : List (Str × Bool)) (b : Prog) (h : b.free = true) : (wordsG l b).free = true := by
  induction l with
  | nil => exact h
  | cons w l ih =>
    refine free_str _ _ ?_
    cases w.2 <;> exact ih

/-- The text is indented. -/
def Indented (t : Str) : Prop := ∃ x, t.head? = some x ∧ isSpace x = true

/-- `^\s*` or `^\s+`. -/
def lead (ind : Bool) (p : Prog) : Prog := if ind then .plus .space p else .star .space p

/-- The indentation is passed. -/
theorem det_lead' (ind : Bool) (p : Prog) (t : Str) (c : Caps) (q : Str × Caps) :
    (lead ind p).det t c = some q ↔ (ind = true → Indented t) ∧ p.det (lstrip t) c = some q := by
  cases ind with
  | false => simp [lead]; rfl
  | true =>
    cases t with
    | nil => simp [lead, Prog.det, Indented]
    | cons x s =>
      rw [lead, if_pos rfl, plus_cons]
      by_cases hx : isSpace x = true
      · rw [if_pos (show K.space.has x = true from hx)]
        have e : lstrip (x :: s) = s.dropWhile isSpace := by rw [lstrip, List.dropWhile_cons_of_pos hx]
        rw [e]
        simp only [Indented, List.head?_cons, Option.some.injEq, exists_eq_left', hx, true_implies, true_and]
        rfl
      · rw [if_neg (show ¬ K.space.has x = true from hx)]
        simp [Indented, hx]

/-- Where double blanks matter. -/
def Fits (l : List (Str × Bool)) (t : Str) : Prop := (∀ w ∈ l, w.2 = true) ∨ NoDouble t

theorem fits_det {l : List (Str × Bool)} (p : Prog) {t : Str} (h : Fits l t) (c : Caps) :
    (wordsG l p).det t c = (words (l.map Prod.fst) p).det t c := by
  rcases h with h | h
  · have : wordsG l p = words (l.map Prod.fst) p := by
      induction l with
      | nil => rfl
      | cons w l ih =>
        have e1 : wordsG (w :: l) p = str w.1 (gap w.2 (wordsG l p)) := rfl
        rw [e1, h w (by simp), ih (fun v hv => h v (by simp [hv]))]
        rfl
    rw [this]
  · exact wordsG_eq l p h c

/-- Words, then something that needs a character. -/
theorem det_wordsG {l : List (Str × Bool)} (hl : ∀ w ∈ l, IsWord w.1) (p : Prog) (hp : ∀ c, p.det [] c = none)
    {t : Str} (ht : lstrip t = t) (hf : Fits l t) (c : Caps) (q : Str × Caps) :
    (wordsG l p).det t c = some q ↔ l.map Prod.fst <+: splitWs t ∧ p.det (skip l.length t) c = some q := by
  have hl' : ∀ w ∈ l.map Prod.fst, IsWord w := by
    intro w hw
    obtain ⟨v, hv, rfl⟩ := List.mem_map.mp hw
    exact hl v hv
  rw [fits_det p hf, det_words hl' p hp ht, List.length_map]

/-- Words as a group where words begin: `(w\s+w)$`. -/
theorem det_flag {l : List (Str × Bool)} {w : Str} (hl : ∀ w ∈ l, IsWord w.1) (hw : IsWord w)
    (i : Nat) (sp : Bool) {t : Str} (ht : Line t) (h0 : lstrip t = t) (hf : Fits l t) (c : Caps) :
    (∀ q, (Prog.grp i (wordsG l (str w .done)) (ends sp [])).det t c = some q →
      splitWs t = l.map Prod.fst ++ [w] ∧ ∃ x, x ≠ [] ∧ q = ([], (i, x) :: c)) ∧
    (splitWs t = l.map Prod.fst ++ [w] →
      ∃ q, (Prog.grp i (wordsG l (str w .done)) (ends sp [])).det t c = some q) := by
  have hfree : (wordsG l (str w .done)).free = true := free_wordsG l _ (free_str w _ rfl)
  have hnil : ∀ c, (str w (ends sp [])).det [] c = none := by
    intro c
    rw [det_str, if_neg]
    intro h
    exact hw.1 (List.prefix_nil.mp h)
  have hE : ∀ (c' : Caps) q, (wordsG l (str w (ends sp []))).det t c' = some q ↔
      splitWs t = l.map Prod.fst ++ [w] ∧ q = ([], c') := by
    intro c' q
    rw [det_wordsG hl _ hnil h0 hf, det_str_word hw (lstrip_skip _ h0) _ (ends_nonspace sp []),
      splitWs_skip _ h0]
    by_cases hs : skip l.length t = []
    · have h1 := splitWs_skip l.length h0
      rw [hs] at h1
      have h1' : (splitWs t).drop l.length = [] := h1.symm
      rw [h1']
      constructor
      · rintro ⟨_, h⟩; cases h
      · rintro ⟨h, _⟩
        rw [h, List.drop_append_of_le_length (by simp)] at h1'
        simp at h1'
    · have h1 := splitWs_skip l.length h0
      rw [splitWs_cons (lstrip_skip _ h0) hs] at h1
      rw [← h1, List.head?_cons]
      have hr := (split_word (lstrip_skip l.length h0) hs).2.2
      have hline : Line ((skip l.length t).dropWhile nsp) :=
        line_suffix ((List.dropWhile_suffix _).trans (skip_suffix _ _)) ht
      constructor
      · rintro ⟨a, b⟩
        split at b
        · rename_i hh
          rw [det_ends sp (l := []) (by simp) hr hline] at b
          refine ⟨?_, b.2⟩
          rw [prefix_append_drop a, List.length_map, ← h1, b.1]
          simpa using hh
        · cases b
      · rintro ⟨a, b⟩
        have hd : (splitWs t).drop l.length = [w] := by
          rw [a, List.drop_append_of_le_length (by simp)]
          simp
        rw [hd] at h1
        obtain ⟨e1, e2⟩ := List.cons.inj h1
        refine ⟨⟨[w], a.symm⟩, ?_⟩
        rw [if_pos (by rw [e1]), det_ends sp (l := []) (by simp) hr hline]
        exact ⟨e2, b⟩
  have hA : ∀ (c' : Caps), (wordsG l (str w (ends sp []))).det t c' =
      ((wordsG l (str w .done)).det t c).bind (fun q => (ends sp []).det q.1 c') := by
    intro c'
    have := (append_det (wordsG l (str w .done)) (ends sp []) hfree t c c').1
    rw [Prog.append_wordsG, Prog.append_str] at this
    exact this
  constructor
  · intro q h
    rw [det_grp _ _ _ hfree] at h
    obtain ⟨x, r, h1, h2, h3⟩ := h
    have h4 := hA ((i, x) :: c)
    rw [h2] at h4
    have h5 := (hE _ _).mp (h4.trans h3)
    refine ⟨h5.1, x, ?_, h5.2⟩
    rintro rfl
    rw [List.nil_append] at h1
    subst h1
    have h6 : (ends sp []).det t ((i, []) :: c) = some q := h3
    cases t with
    | nil =>
      have := h5.1
      rw [show splitWs ([] : Str) = [] from rfl] at this
      have := congrArg List.length this
      simp at this
    | cons a t =>
      rw [ends_nonspace sp [] a t _ (head?_lstrip (a :: t) a (by rw [h0]; rfl))] at h6
      cases h6
  · intro h
    have h1 := (hE c ([], c)).mpr ⟨h, rfl⟩
    rw [hA c] at h1
    obtain ⟨q, h2, h3⟩ := Option.bind_eq_some_iff.mp h1
    have h4 := hA ((i, t.take (t.length - q.1.length)) :: c)
    rw [(hE _ ([], _)).mpr ⟨h, rfl⟩, h2] at h4
    refine ⟨([], (i, t.take (t.length - q.1.length)) :: c), ?_⟩
    rw [Prog.det, h2]
    have hc : q.2 = c := (append_det _ .done hfree t c c).2 q h2
    simp only
    rw [hc]
    exact h4.symm

/-- `^\s*w\s+w\s+..`. -/
theorem det_chain (ind : Bool) {l : List (Str × Bool)} (hl : ∀ w ∈ l, IsWord w.1) (p : Prog)
    (hp : ∀ c, p.det [] c = none) {t : Str} (hf : Fits l (lstrip t)) (c : Caps) (q : Str × Caps) :
    (lead ind (wordsG l p)).det t c = some q ↔
      (ind = true → Indented t) ∧ l.map Prod.fst <+: splitWs t ∧ p.det (skip l.length (lstrip t)) c = some q := by
  rw [det_lead', det_wordsG hl p hp (lstrip_lstrip t) hf, splitWs_lstrip]

/-- A value and words, where words begin: `(k+)\s+post$`. -/
theorem det_value {post : List Str} (hpost : ∀ w ∈ post, IsWord w) {k : K} (hk : k.wordy) (i : Nat) (sp : Bool)
    {r : Str} (h0 : lstrip r = r) (hr : Line r) (c : Caps) (q : Str × Caps) :
    (Prog.grp i (.plus k .done) (ends sp post)).det r c = some q ↔
      ∃ v, splitWs r = v :: post ∧ v.all k.has = true ∧ q = ([], (i, v) :: c) := by
  by_cases h : r = []
  · subst h
    rw [grp_plus_nil]
    constructor
    · intro h; cases h
    · rintro ⟨v, h, _⟩; cases h
  · obtain ⟨e1, e2, e3⟩ := split_word h0 h
    have e4 := splitWs_cons h0 h
    have hline : Line (r.dropWhile nsp) := line_suffix (List.dropWhile_suffix _) hr
    have : (Prog.grp i (.plus k .done) (ends sp post)).det r c =
        if (r.takeWhile nsp).all k.has = true then (ends sp post).det (r.dropWhile nsp) ((i, r.takeWhile nsp) :: c) else none := by
      have := det_cap hk e2 e3 i (ends sp post) (ends_nonspace sp post) c
      rw [← e1] at this
      exact this
    rw [this, e4]
    constructor
    · intro b
      split at b
      · rename_i hv
        rw [det_ends sp hpost e3 hline] at b
        exact ⟨_, by rw [b.1], hv, b.2⟩
      · cases b
    · rintro ⟨v, h1, h2, h3⟩
      obtain ⟨a, b⟩ := List.cons.inj h1
      rw [a, if_pos h2, det_ends sp hpost e3 hline]
      exact ⟨b, h3⟩

/-- `(\S+)` where words begin, and something behind it. -/
theorem det_word {r : Str} (h0 : lstrip r = r) (i : Nat) (p : Prog) (c : Caps) (q : Str × Caps) :
    (Prog.grp i (.plus .nonspace .done) p).det r c = some q ↔
      ∃ v vs, splitWs r = v :: vs ∧ p.det (r.dropWhile nsp) ((i, v) :: c) = some q := by
  by_cases h : r = []
  · subst h
    rw [grp_plus_nil]
    constructor
    · intro h; cases h
    · rintro ⟨v, vs, h, _⟩; cases h
  · obtain ⟨e1, e2, e3⟩ := split_word h0 h
    have := det_cap_word e2 e3 i p c
    rw [← e1] at this
    rw [this, splitWs_cons h0 h]
    constructor
    · intro h; exact ⟨_, _, rfl, h⟩
    · rintro ⟨v, vs, h1, h2⟩
      rw [(List.cons.inj h1).1]
      exact h2

/-! ## Repeated groups -/

/-- What `(\d+\s+)*` and the like repeat: a word that satisfies `R`, with blanks behind it. -/
structure Item1 (b : Prog) (R : Str → Prop) : Prop where
  nil : ∀ c, b.det [] c = none
  word : ∀ v rest c q, IsWord v → (∀ c, rest.head? = some c → isSpace c = true) →
    (b.det (v ++ rest) c = some q ↔ R v ∧ rest ≠ [] ∧ q = (lstrip rest, c))

/-- What comes behind: it does not match where such a word begins. -/
structure After (p : Prog) (R : Str → Prop) : Prop where
  nil : ∀ c, p.det [] c = none
  word : ∀ v rest c, IsWord v → R v → (∀ c, rest.head? = some c → isSpace c = true) → p.det (v ++ rest) c = none

/-- The group of a loop: what it holds after the words `ns`. -/
def Holds (i : Nat) (ns : List Str) (x c : Caps) : Prop :=
  (ns = [] ∧ x = c) ∨ ∃ n g, ns.getLast? = some n ∧ x.lookup i = some (n ++ g) ∧ ∀ a ∈ g, isSpace a = true

/-- One word of a loop. -/
theorem loop_step {b : Prog} {R : Str → Prop} (hb : Item1 b R) {t : Str} (ht : lstrip t = t) (h : t ≠ [])
    (hR : R (t.takeWhile nsp) ∧ t.dropWhile nsp ≠ []) (c : Caps) :
    b.det t c = some (lstrip (t.dropWhile nsp), c) ∧ (lstrip (t.dropWhile nsp)).length < t.length ∧
    ∃ g, t.take (t.length - (lstrip (t.dropWhile nsp)).length) = t.takeWhile nsp ++ g ∧ ∀ a ∈ g, isSpace a = true := by
  obtain ⟨e1, e2, e3⟩ := split_word ht h
  have hbt := hb.word (t.takeWhile nsp) (t.dropWhile nsp) c (lstrip (t.dropWhile nsp), c) e2 e3
  rw [← e1] at hbt
  refine ⟨hbt.mpr ⟨hR.1, hR.2, rfl⟩, ?_, (t.dropWhile nsp).takeWhile isSpace, ?_, fun a ha => of_mem_takeWhile ha⟩
  · have h1 : (lstrip (t.dropWhile nsp)).length ≤ (t.dropWhile nsp).length := (lstrip_suffix _).length_le
    have h2 := congrArg List.length e1
    rw [List.length_append] at h2
    have h3 := List.length_pos_iff.mpr e2.1
    omega
  · have h1 : t = (t.takeWhile nsp ++ (t.dropWhile nsp).takeWhile isSpace) ++ lstrip (t.dropWhile nsp) := by
      rw [List.append_assoc, lstrip, List.takeWhile_append_dropWhile]
      exact e1
    generalize (t.takeWhile nsp ++ (t.dropWhile nsp).takeWhile isSpace) = u at h1 ⊢
    generalize lstrip (t.dropWhile nsp) = r at h1 ⊢
    subst h1
    simp

theorem loop_stop {b : Prog} {R : Str → Prop} (hb : Item1 b R) {t : Str} (ht : lstrip t = t)
    (hR : t = [] ∨ ¬ (R (t.takeWhile nsp) ∧ t.dropWhile nsp ≠ [])) (c : Caps) : b.det t c = none := by
  by_cases h : t = []
  · rw [h, hb.nil]
  · rcases hR with hR | hR
    · exact absurd hR h
    · obtain ⟨e1, e2, e3⟩ := split_word ht h
      cases hbb : b.det t c with
      | none => rfl
      | some r =>
        have hbt := hb.word (t.takeWhile nsp) (t.dropWhile nsp) c r e2 e3
        rw [← e1] at hbt
        exact absurd ⟨(hbt.mp hbb).1, (hbt.mp hbb).2.1⟩ hR

/-- A match of a loop passes some words. -/
theorem det_loop (i : Nat) {b p : Prog} {R : Str → Prop} (hb : Item1 b R)
    {t : Str} (ht : lstrip t = t) (c : Caps) (q : Str × Caps) (hq : (Prog.loop i b p).det t c = some q) :
    ∃ ns x, (∀ n ∈ ns, R n) ∧ ns <+: splitWs t ∧ (∀ j, j ≠ i → x.lookup j = c.lookup j) ∧ Holds i ns x c ∧
        p.det (skip ns.length t) x = some q := by
  have key : ∀ (m : Nat) (t : Str) (c : Caps), lstrip t = t → t.length ≤ m →
      (p.det (loopDet b.det i m t c).1 (loopDet b.det i m t c).2 = some q →
      ∃ ns x, (∀ n ∈ ns, R n) ∧ ns <+: splitWs t ∧ (∀ j, j ≠ i → x.lookup j = c.lookup j) ∧ Holds i ns x c ∧
        p.det (skip ns.length t) x = some q) := by
    intro m
    induction m with
    | zero =>
      intro t c _ _ h
      exact ⟨[], c, by simp, List.nil_prefix, fun _ _ => rfl, .inl ⟨rfl, rfl⟩, h⟩
    | succ m ih =>
      intro t c ht hm h
      by_cases hR : t ≠ [] ∧ R (t.takeWhile nsp) ∧ t.dropWhile nsp ≠ []
      · obtain ⟨hd, hlen, g, hg, hgs⟩ := loop_step hb ht hR.1 hR.2 c
        simp only [loopDet, hd] at h
        obtain ⟨ns, x, h1, h2, h3, h4, h5⟩ := ih _ _ (lstrip_lstrip _) (by omega) h
        rw [splitWs_lstrip] at h2
        refine ⟨t.takeWhile nsp :: ns, x, ?_, ?_, ?_, .inr ?_, h5⟩
        · intro n hn
          rcases List.mem_cons.mp hn with rfl | hn
          · exact hR.2.1
          · exact h1 n hn
        · rw [splitWs_cons ht hR.1, List.cons_prefix_cons]; exact ⟨rfl, h2⟩
        · intro j hj
          rw [h3 j hj, List.lookup_cons, beq_false_of_ne hj]
        · rcases h4 with ⟨rfl, rfl⟩ | ⟨n, g', a1, a2, a3⟩
          · exact ⟨t.takeWhile nsp, g, rfl, by rw [List.lookup_cons, beq_self_eq_true, hg], hgs⟩
          · refine ⟨n, g', ?_, a2, a3⟩
            rw [List.getLast?_cons, a1]; rfl
      · have hd : b.det t c = none := loop_stop hb ht (by
          by_cases h0 : t = []
          · exact .inl h0
          · exact .inr fun e => hR ⟨h0, e⟩) c
        simp only [loopDet, hd] at h
        exact ⟨[], c, by simp, List.nil_prefix, fun _ _ => rfl, .inl ⟨rfl, rfl⟩, h⟩
  exact key t.length t c ht (Nat.le_refl _) hq

/-- A loop finds a match behind words that satisfy `R`. -/
theorem det_loop' (i : Nat) {b p : Prog} {R : Str → Prop} (hb : Item1 b R) (hp : After p R)
    {t : Str} (ht : lstrip t = t) (c : Caps) {ns : List Str} (hns : ∀ n ∈ ns, R n) (hpre : ns <+: splitWs t)
    (hx : ∀ x, ∃ q, p.det (skip ns.length t) x = some q) : ∃ q, (Prog.loop i b p).det t c = some q := by
  have key : ∀ (m : Nat) (t : Str) (c : Caps) (ns : List Str), lstrip t = t → t.length ≤ m → (∀ n ∈ ns, R n) →
      ns <+: splitWs t → (∀ x, ∃ q, p.det (skip ns.length t) x = some q) →
      ∃ q, p.det (loopDet b.det i m t c).1 (loopDet b.det i m t c).2 = some q := by
    intro m
    induction m with
    | zero =>
      intro t c ns _ hm _ hpre hx
      have : t = [] := List.eq_nil_of_length_eq_zero (by omega)
      subst this
      have : ns = [] := List.prefix_nil.mp hpre
      subst this
      exact hx c
    | succ m ih =>
      intro t c ns ht hm hns hpre hx
      by_cases hR : t ≠ [] ∧ R (t.takeWhile nsp) ∧ t.dropWhile nsp ≠ []
      · obtain ⟨hd, hlen, g, hg, hgs⟩ := loop_step hb ht hR.1 hR.2 c
        simp only [loopDet, hd]
        cases ns with
        | nil =>
          obtain ⟨q, h5⟩ := hx c
          obtain ⟨e1, e2, e3⟩ := split_word ht hR.1
          rw [List.length_nil, skip, e1, hp.word _ _ _ e2 hR.2.1 e3] at h5
          cases h5
        | cons n ns =>
          rw [splitWs_cons ht hR.1, List.cons_prefix_cons] at hpre
          refine ih _ _ ns (lstrip_lstrip _) (by omega) (fun n hn => hns n (by simp [hn])) ?_ hx
          rw [splitWs_lstrip]
          exact hpre.2
      · have hd : b.det t c = none := loop_stop hb ht (by
          by_cases h0 : t = []
          · exact .inl h0
          · exact .inr fun e => hR ⟨h0, e⟩) c
        simp only [loopDet, hd]
        cases ns with
        | nil => exact hx c
        | cons n ns =>
          by_cases h0 : t = []
          · subst h0
            have := List.prefix_nil.mp (show n :: ns <+: [] from hpre)
            cases this
          · rw [splitWs_cons ht h0, List.cons_prefix_cons] at hpre
            have hr : t.dropWhile nsp = [] := Classical.byContradiction fun hne =>
              hR ⟨h0, by rw [← hpre.1]; exact hns n (by simp), hne⟩
            rw [hr] at hpre
            have : ns = [] := List.prefix_nil.mp hpre.2
            subst this
            obtain ⟨q, h5⟩ := hx c
            simp only [List.length_cons, List.length_nil, skip] at h5
            rw [hr, show lstrip ([] : Str) = [] from rfl, hp.nil] at h5
            cases h5
  exact key t.length t c ns ht (Nat.le_refl _) hns hpre hx

/-- `\d+` where a word begins, then something that does not match inside a word. -/
theorem det_digits {v rest : Str} (hv : IsWord v) (hr : ∀ c, rest.head? = some c → isSpace c = true)
    (p : Prog) (hp : ∀ x s c, isSpace x = false → p.det (x :: s) c = none) (c : Caps) :
    (Prog.plus .digit p).det (v ++ rest) c = if v.all isDigit = true then p.det rest c else none := by
  have hrd : rest.dropWhile isDigit = rest := by
    cases rest with
    | nil => rfl
    | cons y s =>
      rw [List.dropWhile_cons_of_neg]
      intro hd
      have := digit_not_space hd
      rw [hr y rfl] at this; cases this
  have hd : ∀ (v : Str), (∀ c ∈ v, isSpace c = false) →
      p.det ((v ++ rest).dropWhile K.digit.has) c = if v.all isDigit = true then p.det rest c else none := by
    intro v
    induction v with
    | nil =>
      intro _
      rw [List.nil_append, show rest.dropWhile K.digit.has = rest from hrd]
      rfl
    | cons a v ih =>
      intro hs
      by_cases ha : isDigit a = true
      · rw [List.cons_append, List.dropWhile_cons_of_pos (show K.digit.has a = true from ha), List.all_cons, ha,
          Bool.true_and]
        exact ih (fun c hc => hs c (by simp [hc]))
      · rw [List.cons_append, List.dropWhile_cons_of_neg (show ¬ K.digit.has a = true from ha),
          hp a _ c (hs a (by simp)), List.all_cons]
        simp [ha]
  cases v with
  | nil => exact absurd rfl hv.1
  | cons x v =>
    rw [List.cons_append, plus_cons, List.all_cons, hd v (fun c hc => hv.2 c (by simp [hc]))]
    show (if isDigit x = true then _ else _) = _
    by_cases hx : isDigit x = true
    · rw [if_pos hx, hx, Bool.true_and]
    · simp [hx]

/-- `\d+\s+`. -/
theorem item_num : Item1 (.plus .digit (.plus .space .done)) (fun v => v.all isDigit = true) := by
  refine ⟨fun _ => rfl, fun v rest c q hv hr => ?_⟩
  rw [det_digits hv hr _ (sp_nonspace _), det_sp _ hr]
  by_cases h1 : v.all isDigit = true <;> by_cases h2 : rest = [] <;> simp [h1, h2, Prog.det, eq_comm]

/-- `word\s+`. -/
theorem item_word {w : Str} (hw : IsWord w) : Item1 (str w (.plus .space .done)) (fun v => v = w) := by
  refine ⟨fun c => ?_, fun v rest c q hv hr => ?_⟩
  · rw [det_str, if_neg]
    intro h
    exact hw.1 (List.prefix_nil.mp h)
  · have h0 : lstrip (v ++ rest) = v ++ rest := by
      cases v with
      | nil => exact absurd rfl hv.1
      | cons x v => rw [List.cons_append, lstrip, List.dropWhile_cons_of_neg (by simp [hv.2 x])]
    rw [det_str_word hw h0 _ (sp_nonspace _), splitWs_word_rest hv hr]
    have hdrop : (v ++ rest).dropWhile nsp = rest := by
      have := (prefix_word hv (List.prefix_append v rest) (by rw [List.drop_left]; exact hr)).2
      rw [this, List.drop_left]
    rw [hdrop, det_sp _ hr]
    by_cases h1 : v = w <;> by_cases h2 : rest = [] <;> simp [h1, h2, Prog.det, eq_comm]
    exact fun e => absurd e.symm h1

/-- A literal does not match where a number begins. -/
theorem after_str_num {w : Str} (p : Prog) {x : Char} {u : Str} (hw : w = x :: u) (hx : isDigit x = false) :
    After (str w p) (fun v => v.all isDigit = true) := by
  subst hw
  refine ⟨fun _ => rfl, fun v rest c hv hR _ => ?_⟩
  rw [det_str, if_neg]
  rintro ⟨s, hs⟩
  cases v with
  | nil => exact hv.1 rfl
  | cons y v =>
    rw [List.cons_append, List.cons_append] at hs
    have := (List.cons.inj hs).1
    rw [List.all_cons, Bool.and_eq_true, ← this, hx] at hR
    exact absurd hR.1 (by simp)

/-- A literal word does not match where another word begins. -/
theorem after_str_word {w u : Str} (p : Prog) {x y : Char} {w' u' : Str} (hw : w = x :: w') (hu : u = y :: u') (hxy : x ≠ y) :
    After (str w p) (fun v => v = u) := by
  subst hw
  refine ⟨fun _ => rfl, fun v rest c hv hR _ => ?_⟩
  rw [det_str, if_neg]
  rintro ⟨s, hs⟩
  rw [hR, hu, List.cons_append, List.cons_append] at hs
  exact hxy (List.cons.inj hs).1

/-! ## Dotted quads -/

/-- Four numbers with dots between them. -/
def Quad (v : Str) : Prop :=
  ∃ a b c d : Str, v = a ++ '.' :: b ++ '.' :: c ++ '.' :: d ∧ (∀ s ∈ [a, b, c, d], s ≠ [] ∧ ∀ x ∈ s, isDigit x = true)

/-- `\d+\.\d+\.\d+\.\d+`. -/
def quad (p : Prog) : Prog :=
  .plus .digit (.chr '.' (.plus .digit (.chr '.' (.plus .digit (.chr '.' (.plus .digit p))))))

/-- A run of digits. -/
def Run (s : Str) : Prop := s ≠ [] ∧ ∀ x ∈ s, isDigit x = true

theorem det_run (p : Prog) (s : Str) (c : Caps) (q : Str × Caps) :
    (Prog.plus .digit p).det s c = some q ↔
      ∃ a r, s = a ++ r ∧ Run a ∧ (∀ x, r.head? = some x → isDigit x = false) ∧ p.det r c = some q := by
  constructor
  · intro h
    cases s with
    | nil => cases h
    | cons x s =>
      rw [plus_cons] at h
      split at h
      · rename_i hx
        refine ⟨x :: s.takeWhile isDigit, s.dropWhile isDigit, ?_, ⟨by simp, ?_⟩, ?_, h⟩
        · rw [List.cons_append, List.takeWhile_append_dropWhile]
        · intro y hy
          rcases List.mem_cons.mp hy with rfl | hy
          · exact hx
          · exact of_mem_takeWhile hy
        · intro y hy
          have := List.head?_dropWhile_not isDigit s
          rw [hy] at this
          simpa using this
      · cases h
  · rintro ⟨a, r, rfl, ⟨h1, h2⟩, h3, h4⟩
    cases a with
    | nil => exact absurd rfl h1
    | cons x a =>
      rw [List.cons_append, plus_cons, if_pos (show K.digit.has x = true from h2 x (by simp)),
        List.dropWhile_append_of_pos (p := K.digit.has) (fun y hy => h2 y (by simp [hy]))]
      have : r.dropWhile K.digit.has = r := by
        cases r with
        | nil => rfl
        | cons y r => rw [List.dropWhile_cons_of_neg]; simp [K.has, h3 y rfl]
      rw [this]
      exact h4

theorem det_chr (x : Char) (p : Prog) (s : Str) (c : Caps) (q : Str × Caps) :
    (Prog.chr x p).det s c = some q ↔ ∃ r, s = x :: r ∧ p.det r c = some q := by
  cases s with
  | nil => simp [Prog.det]
  | cons y s =>
    simp only [Prog.det, K.has, beq_iff_eq]
    by_cases h : y = x
    · simp [h]
    · simp [h]

theorem run_dot {a : Str} : ∀ x, ('.' :: a).head? = some x → isDigit x = false := by
  intro x hx
  rw [List.head?_cons, Option.some.injEq] at hx
  subst hx
  decide

theorem quad_word {v : Str} (h : Quad v) : IsWord v := by
  obtain ⟨a, b, c, d, rfl, h⟩ := h
  have hd : ∀ s ∈ [a, b, c, d], ∀ x ∈ s, isSpace x = false := fun s hs x hx => digit_not_space ((h s hs).2 x hx)
  refine ⟨by simp, ?_⟩
  intro x hx
  simp only [List.mem_append, List.mem_cons] at hx
  have hdot : isSpace '.' = false := by decide
  rcases hx with ((hx | rfl | hx) | rfl | hx) | rfl | hx
  · exact hd a (by simp) x hx
  · exact hdot
  · exact hd b (by simp) x hx
  · exact hdot
  · exact hd c (by simp) x hx
  · exact hdot
  · exact hd d (by simp) x hx

/-- `\d+\.\d+\.\d+\.\d+` where a word begins, then something that does not match inside a
word. -/
theorem det_quad {v rest : Str} (hv : IsWord v) (hr : ∀ c, rest.head? = some c → isSpace c = true)
    (p : Prog) (hp : ∀ x s c, isSpace x = false → p.det (x :: s) c = none) (c : Caps) (q : Str × Caps) :
    (quad p).det (v ++ rest) c = some q ↔ Quad v ∧ p.det rest c = some q := by
  constructor
  · intro h
    obtain ⟨a, r1, e1, h1, _, h⟩ := (det_run _ _ _ _).mp h
    obtain ⟨s1, rfl, h⟩ := (det_chr _ _ _ _ _).mp h
    obtain ⟨b, r2, rfl, h2, _, h⟩ := (det_run _ _ _ _).mp h
    obtain ⟨s2, rfl, h⟩ := (det_chr _ _ _ _ _).mp h
    obtain ⟨b3, r3, rfl, h3, _, h⟩ := (det_run _ _ _ _).mp h
    obtain ⟨s3, rfl, h⟩ := (det_chr _ _ _ _ _).mp h
    obtain ⟨d, r4, rfl, h4, _, h⟩ := (det_run _ _ _ _).mp h
    have hq : Quad (a ++ '.' :: b ++ '.' :: b3 ++ '.' :: d) := by
      refine ⟨a, b, b3, d, rfl, ?_⟩
      intro s hs
      simp only [List.mem_cons, List.not_mem_nil, or_false] at hs
      rcases hs with rfl | rfl | rfl | rfl
      · exact h1
      · exact h2
      · exact h3
      · exact h4
    have hr4 : ∀ c, r4.head? = some c → isSpace c = true := by
      intro y hy
      cases r4 with
      | nil => cases hy
      | cons z r4 =>
        cases hy
        cases hz : isSpace y with
        | true => rfl
        | false => rw [hp y r4 c hz] at h; cases h
    have e2 : v ++ rest = (a ++ '.' :: b ++ '.' :: b3 ++ '.' :: d) ++ r4 := by
      rw [e1]; simp
    have hw := quad_word hq
    have d1 : (v ++ rest).takeWhile nsp = v ∧ (v ++ rest).dropWhile nsp = rest := by
      have := prefix_word hv (List.prefix_append v rest) (by rw [List.drop_left]; exact hr)
      rw [List.drop_left] at this
      exact this
    have d2 := prefix_word hw (List.prefix_append _ r4) (by rw [List.drop_left]; exact hr4)
    rw [List.drop_left, ← e2, d1.1, d1.2] at d2
    rw [d2.1, d2.2]
    exact ⟨hq, h⟩
  · rintro ⟨⟨a, b, b3, d, rfl, hs⟩, h⟩
    have e : a ++ '.' :: b ++ '.' :: b3 ++ '.' :: d ++ rest = a ++ '.' :: (b ++ '.' :: (b3 ++ '.' :: (d ++ rest))) := by
      simp
    rw [e]
    refine (det_run _ _ _ _).mpr ⟨a, _, rfl, hs a (by simp), run_dot, ?_⟩
    refine (det_chr _ _ _ _ _).mpr ⟨_, rfl, ?_⟩
    refine (det_run _ _ _ _).mpr ⟨b, _, rfl, hs b (by simp), run_dot, ?_⟩
    refine (det_chr _ _ _ _ _).mpr ⟨_, rfl, ?_⟩
    refine (det_run _ _ _ _).mpr ⟨b3, _, rfl, hs b3 (by simp), run_dot, ?_⟩
    refine (det_chr _ _ _ _ _).mpr ⟨_, rfl, ?_⟩
    refine (det_run _ _ _ _).mpr ⟨d, _, rfl, hs d (by simp), ?_, h⟩
    intro x hx
    cases hd : isDigit x with
    | false => rfl
    | true =>
      have := digit_not_space hd
      rw [hr x hx] at this; cases this

end Re

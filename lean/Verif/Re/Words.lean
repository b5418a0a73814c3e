import Verif.Re.Det
import Verif.PyLemmas

/-! # Expressions made of words

What `^\s*word\s+word\s+(..)` matches, in terms of the words of the text (`t.split()`). -/

namespace Re

open Py

/-- Without a blank at the end and without a newline: the text of a line. -/
def Line (t : Str) : Prop := '\n' ∉ t ∧ rstrip t = t

/-- Not a blank. -/
abbrev nsp (c : Char) : Bool := !isSpace c

theorem nl_space : isSpace '\n' = true := by decide

/-! ## The search from the beginning -/

theorem searchFrom_bol (n : Nat) (l : List Rgx) : ∀ (k : Nat) (s : Str), s.length < n →
    searchFrom n (seqs (.bol :: l)) k s = none
  | k, [], h => by
    have e : run n (seqs (.bol :: l)) [] [] = [] := by
      have := run_seqs_cons n .bol l [] [] (fun q => [q])
      rw [List.flatMap_singleton'] at this
      rw [this, run, if_neg (by simp at h ⊢; omega)]; rfl
    rw [searchFrom, e]
  | k, a :: s, h => by
    have e : run n (seqs (.bol :: l)) (a :: s) [] = [] := by
      have := run_seqs_cons n .bol l (a :: s) [] (fun q => [q])
      rw [List.flatMap_singleton'] at this
      rw [this, run, if_neg (by omega)]; rfl
    rw [searchFrom, e]
    exact searchFrom_bol n l (k + 1) s (by simp at h; omega)

/-- `re.search` with an expression that starts with `^`. -/
theorem search_bol (p : Prog) (h : p.wf (fun _ => false) true = true) (g : Nat) (names : List (Str × Nat)) (t : Str) :
    search ⟨seqs (.bol :: p.toL), g, names⟩ t =
      (p.det t []).map (fun q => ⟨t.take (t.length - q.1.length), 0, q.2⟩) := by
  have hd := p.det_spec t.length (fun _ => false) true (fun q => [q]) t [] h (fun _ h => by cases h)
    (fun _ _ h => by cases h)
  rw [List.flatMap_singleton'] at hd
  have hr : run t.length (seqs (.bol :: p.toL)) t [] = run t.length (seqs p.toL) t [] := by
    have := run_seqs_cons t.length .bol p.toL t [] (fun q => [q])
    rw [List.flatMap_singleton', run, if_pos rfl, List.flatMap_singleton, List.flatMap_singleton'] at this
    exact this
  have hd' : (run t.length (seqs p.toL) t []).head? = p.det t [] := by
    rw [hd]; cases p.det t [] <;> rfl
  rw [search]
  cases t with
  | nil =>
    rw [searchFrom, hr]
    cases hx : run ([] : Str).length (seqs p.toL) [] [] with
    | nil => rw [hx] at hd'; rw [← hd']; rfl
    | cons q l => rw [hx] at hd'; rw [← hd', List.head?_cons, Option.map_some, List.take_nil]
  | cons a s =>
    rw [searchFrom, hr]
    cases hx : run (a :: s).length (seqs p.toL) (a :: s) [] with
    | nil =>
      rw [hx] at hd'
      rw [← hd']
      exact searchFrom_bol _ _ _ _ (by simp)
    | cons q l => rw [hx] at hd'; rw [← hd']; rfl

/-! ## Words -/

/-- A literal text. -/
def str (w : Str) (p : Prog) : Prog := w.foldr (fun c p => .one (.chr c) p) p

/-- Words, each with blanks behind it. -/
def words (ws : List Str) (p : Prog) : Prog := ws.foldr (fun w p => str w (.plus .space p)) p

theorem det_str (w : Str) (p : Prog) (s : Str) (c : Caps) :
    (str w p).det s c = if w <+: s then p.det (s.drop w.length) c else none := by
  induction w generalizing s with
  | nil => simp [str]
  | cons x w ih =>
    rw [str, List.foldr_cons, Prog.det.eq_def]
    cases s with
    | nil => simp
    | cons y s =>
      simp only [K.has, beq_iff_eq]
      by_cases h : y = x
      · rw [if_pos h]
        refine (ih s).trans ?_
        simp [List.cons_prefix_cons, h]
      · rw [if_neg h, if_neg]
        rw [List.cons_prefix_cons]
        exact fun e => h e.1.symm

theorem plus_cons (k : K) (p : Prog) (x : Char) (s : Str) (c : Caps) :
    (Prog.plus k p).det (x :: s) c = if k.has x = true then p.det (s.dropWhile k.has) c else none := rfl

/-- `\s+` where a word has just ended. -/
theorem det_sp (p : Prog) {rest : Str} (hr : ∀ c, rest.head? = some c → isSpace c = true) (c : Caps) :
    (Prog.plus .space p).det rest c = if rest = [] then none else p.det (lstrip rest) c := by
  cases rest with
  | nil => rfl
  | cons x s =>
    have hx := hr x rfl
    rw [Prog.det.eq_def]
    simp only [K.has, hx, if_true]
    rw [if_neg (by simp), lstrip, List.dropWhile_cons_of_pos hx]
    rfl

/-- The first word and what is behind it, for a text that does not start with a blank. -/
theorem split_word {t : Str} (ht : lstrip t = t) (hne : t ≠ []) :
    t = t.takeWhile nsp ++ t.dropWhile nsp ∧ IsWord (t.takeWhile nsp) ∧
    (∀ c, (t.dropWhile nsp).head? = some c → isSpace c = true) := by
  refine ⟨List.takeWhile_append_dropWhile.symm, ⟨?_, ?_⟩, ?_⟩
  · cases t with
    | nil => exact absurd rfl hne
    | cons x s =>
      have := head?_lstrip (x :: s) x (by rw [ht]; rfl)
      rw [List.takeWhile_cons, nsp, this]
      simp
  · intro c hc
    have := of_mem_takeWhile hc
    simpa [nsp] using this
  · intro c hc
    have := List.head?_dropWhile_not nsp t
    rw [hc] at this
    simpa [nsp] using this

theorem splitWs_blank {ws : Str} (h : ∀ c ∈ ws, isSpace c = true) : splitWs ws = [] := by
  have := splitWs_spaces ws [] h
  rw [List.append_nil] at this
  rw [this]; rfl

theorem splitWs_word_rest {w : Str} (h : IsWord w) {rest : Str}
    (hr : ∀ c, rest.head? = some c → isSpace c = true) : splitWs (w ++ rest) = w :: splitWs rest := by
  cases rest with
  | nil => rw [List.append_nil, splitWs_word h]; rfl
  | cons x r =>
    have hx := hr x rfl
    rw [splitWs_word_space h hx]
    have := splitWs_spaces [x] r (by intro c hc; rw [List.mem_singleton.mp hc]; exact hx)
    rw [List.singleton_append] at this
    rw [this]

theorem splitWs_cons {t : Str} (ht : lstrip t = t) (hne : t ≠ []) :
    splitWs t = t.takeWhile nsp :: splitWs (t.dropWhile nsp) := by
  obtain ⟨h1, h2, h3⟩ := split_word ht hne
  conv => lhs; rw [h1]
  exact splitWs_word_rest h2 h3

theorem splitWs_eq_nil {t : Str} : splitWs t = [] ↔ t.all isSpace = true := by
  constructor
  · intro h
    rw [← splitWs_lstrip] at h
    have : lstrip t = [] := Classical.byContradiction fun hne => by
      rw [splitWs_cons (lstrip_lstrip t) hne] at h
      cases h
    rw [lstrip] at this
    rw [List.all_eq_true]
    have h1 := List.takeWhile_append_dropWhile (p := isSpace) (l := t)
    rw [this, List.append_nil] at h1
    intro x hx
    rw [← h1] at hx
    exact of_mem_takeWhile hx
  · intro h
    rw [List.all_eq_true] at h
    exact splitWs_blank h

/-- A word is a prefix and ends there iff it is the first word. -/
theorem prefix_word {w t : Str} (hw : IsWord w) (h1 : w <+: t) (h2 : ∀ c, (t.drop w.length).head? = some c → isSpace c = true) :
    t.takeWhile nsp = w ∧ t.dropWhile nsp = t.drop w.length := by
  obtain ⟨s, rfl⟩ := h1
  rw [List.drop_left] at h2 ⊢
  have hw' : ∀ c ∈ w, nsp c = true := fun c hc => by simp [nsp, hw.2 c hc]
  have hs : s.takeWhile nsp = [] ∧ s.dropWhile nsp = s := by
    cases s with
    | nil => exact ⟨rfl, rfl⟩
    | cons x s =>
      have hx : nsp x = false := by simp [nsp, h2 x rfl]
      rw [List.takeWhile_cons, List.dropWhile_cons, hx]
      exact ⟨rfl, rfl⟩
  rw [List.takeWhile_append_of_pos hw', List.dropWhile_append_of_pos hw', hs.1, hs.2]
  exact ⟨List.append_nil _, rfl⟩

theorem drop_takeWhile (t : Str) : t.drop (t.takeWhile nsp).length = t.dropWhile nsp := by
  conv => lhs; arg 2; rw [← List.takeWhile_append_dropWhile (p := nsp) (l := t)]
  exact List.drop_left

theorem takeWhile_prefix' (t : Str) : t.takeWhile nsp <+: t :=
  ⟨t.dropWhile nsp, List.takeWhile_append_dropWhile⟩

/-- What is behind the first `n` words, without the blanks before it. -/
def skip : Nat → Str → Str
  | 0, t => t
  | n + 1, t => skip n (lstrip (t.dropWhile nsp))

theorem lstrip_skip : ∀ (n : Nat) {t : Str}, lstrip t = t → lstrip (skip n t) = skip n t
  | 0, _, h => h
  | n + 1, _, _ => lstrip_skip n (lstrip_lstrip _)

theorem skip_suffix : ∀ (n : Nat) (t : Str), skip n t <:+ t
  | 0, t => List.suffix_refl t
  | n + 1, t => (skip_suffix n _).trans ((lstrip_suffix _).trans (List.dropWhile_suffix _))

theorem splitWs_skip : ∀ (n : Nat) {t : Str}, lstrip t = t → splitWs (skip n t) = (splitWs t).drop n
  | 0, _, _ => rfl
  | n + 1, t, h => by
    rw [skip, splitWs_skip n (lstrip_lstrip _), splitWs_lstrip]
    by_cases hne : t = []
    · subst hne; simp [splitWs, splitWsAux]
    · rw [splitWs_cons h hne]; rfl

/-- Words, then something that needs a character. -/
theorem det_words {ws : List Str} (hws : ∀ w ∈ ws, IsWord w) (p : Prog) (hp : ∀ c, p.det [] c = none)
    {t : Str} (ht : lstrip t = t) (c : Caps) (q : Str × Caps) :
    (words ws p).det t c = some q ↔ ws <+: splitWs t ∧ p.det (skip ws.length t) c = some q := by
  induction ws generalizing t with
  | nil => simp [words, skip]
  | cons w ws ih =>
    have hw := hws w (by simp)
    have ih := fun {t} => ih (t := t) (fun v hv => hws v (by simp [hv]))
    have e : words (w :: ws) p = str w (.plus .space (words ws p)) := rfl
    rw [e, det_str]
    have hnil : ∀ c, (words ws p).det [] c = none := by
      intro c
      cases ws with
      | nil => exact hp c
      | cons v ws =>
        show (str v _).det [] c = none
        rw [det_str, if_neg]
        intro h
        exact (hws v (by simp)).1 (List.prefix_nil.mp h)
    have hskip : skip (w :: ws).length t = skip ws.length (lstrip (t.dropWhile nsp)) := rfl
    rw [hskip]
    by_cases h : w <+: t ∧ ∀ c, (t.drop w.length).head? = some c → isSpace c = true
    · obtain ⟨h1, h2⟩ := prefix_word hw h.1 h.2
      have hne : t ≠ [] := by
        rintro rfl
        exact hw.1 (List.prefix_nil.mp h.1)
      rw [if_pos h.1, det_sp _ h.2, ← h2, splitWs_cons ht hne, h1, List.cons_prefix_cons]
      by_cases hr : t.dropWhile nsp = []
      · rw [if_pos hr, hr]
        constructor
        · intro h; cases h
        · rintro ⟨⟨_, hx⟩, hy⟩
          have : ws = [] := List.prefix_nil.mp (by simpa [splitWs, splitWsAux] using hx)
          subst this
          simp only [List.length_nil, skip] at hy
          rw [show lstrip ([] : Str) = [] from rfl, hp] at hy
          cases hy
      · rw [if_neg hr, ih (lstrip_lstrip _), splitWs_lstrip]
        simp
    · constructor
      · intro hd
        split at hd
        · rename_i hpre
          refine absurd ⟨hpre, ?_⟩ h
          intro x hx
          cases hdr : t.drop w.length with
          | nil => rw [hdr] at hx; cases hx
          | cons y s =>
            rw [hdr] at hx hd
            cases hx
            rw [plus_cons] at hd
            split at hd
            · rename_i hsp; exact hsp
            · cases hd
        · cases hd
      · rintro ⟨hpre, _⟩
        refine absurd ?_ h
        have hne : t ≠ [] := by
          rintro rfl
          have := List.prefix_nil.mp (show w :: ws <+: [] from hpre)
          cases this
        rw [splitWs_cons ht hne, List.cons_prefix_cons] at hpre
        rw [hpre.1]
        refine ⟨takeWhile_prefix' t, ?_⟩
        rw [drop_takeWhile]
        exact (split_word ht hne).2.2

/-- `^\s*` and words. -/
theorem det_lead {ws : List Str} (hws : ∀ w ∈ ws, IsWord w) (p : Prog) (hp : ∀ c, p.det [] c = none)
    (t : Str) (c : Caps) (q : Str × Caps) :
    (Prog.star .space (words ws p)).det t c = some q ↔
      ws <+: splitWs t ∧ p.det (skip ws.length (lstrip t)) c = some q := by
  have : (Prog.star .space (words ws p)).det t c = (words ws p).det (lstrip t) c := rfl
  rw [this, det_words hws p hp (lstrip_lstrip t), splitWs_lstrip]

/-- `^\s+` and words: the text must start with a blank. -/
theorem det_lead_plus {ws : List Str} (hws : ∀ w ∈ ws, IsWord w) (p : Prog) (hp : ∀ c, p.det [] c = none)
    (t : Str) (c : Caps) (q : Str × Caps) :
    (Prog.plus .space (words ws p)).det t c = some q ↔
      (∃ x, t.head? = some x ∧ isSpace x = true) ∧
      ws <+: splitWs t ∧ p.det (skip ws.length (lstrip t)) c = some q := by
  cases t with
  | nil => simp [Prog.det]
  | cons x s =>
    rw [plus_cons]
    by_cases hx : isSpace x = true
    · rw [if_pos (show K.space.has x = true from hx)]
      have e : lstrip (x :: s) = s.dropWhile isSpace := by rw [lstrip, List.dropWhile_cons_of_pos hx]
      have h2 : lstrip (s.dropWhile isSpace) = s.dropWhile isSpace := lstrip_lstrip s
      have h3 : splitWs (s.dropWhile isSpace) = splitWs (x :: s) := by rw [← e, splitWs_lstrip]
      have := det_words hws p hp h2 c q
      rw [h3, ← e] at this
      rw [e] at this
      rw [e]
      refine Iff.trans this ?_
      simp [hx]
    · rw [if_neg (show ¬ K.space.has x = true from hx)]
      simp [hx]

/-! ## The ends of the expressions -/

/-- `(\S+)` where a word begins. -/
theorem det_cap_word {v rest : Str} (hv : IsWord v) (hr : ∀ c, rest.head? = some c → isSpace c = true)
    (i : Nat) (p : Prog) (c : Caps) :
    (Prog.grp i (.plus .nonspace .done) p).det (v ++ rest) c = p.det rest ((i, v) :: c) := by
  have h : (Prog.plus .nonspace .done).det (v ++ rest) c = some (rest, c) := by
    cases v with
    | nil => exact absurd rfl hv.1
    | cons x v =>
      have hx : K.nonspace.has x = true := by simp [K.has, hv.2 x (by simp)]
      rw [List.cons_append, Prog.det.eq_def]
      simp only [if_pos hx, Prog.det]
      rw [List.dropWhile_append_of_pos (fun c hc => by simp [K.has, hv.2 c (by simp [hc])])]
      cases rest with
      | nil => rfl
      | cons y s => rw [List.dropWhile_cons_of_neg (by simp [K.has, hr y rfl])]
  rw [Prog.det, h]
  simp

/-- `(\d+)` where a word begins, then something that does not match inside a word. -/
theorem det_cap_num {v rest : Str} (hv : IsWord v) (hr : ∀ c, rest.head? = some c → isSpace c = true)
    (i : Nat) (p : Prog) (hp : ∀ x s c, isSpace x = false → p.det (x :: s) c = none) (c : Caps) :
    (Prog.grp i (.plus .digit .done) p).det (v ++ rest) c =
      if v.all isDigit then p.det rest ((i, v) :: c) else none := by
  have hrd : rest.dropWhile isDigit = rest := by
    cases rest with
    | nil => rfl
    | cons y s =>
      rw [List.dropWhile_cons_of_neg]
      intro hd
      have := digit_not_space hd
      rw [hr y rfl] at this; cases this
  cases v with
  | nil => exact absurd rfl hv.1
  | cons x v =>
    rw [List.cons_append, Prog.det, Prog.det.eq_def]
    by_cases hx : K.digit.has x = true
    · simp only [if_pos hx, Prog.det]
      have hx' : isDigit x = true := hx
      rw [List.all_cons, hx', Bool.true_and]
      by_cases ha : v.all isDigit = true
      · have e : (v ++ rest).dropWhile K.digit.has = rest := by
          rw [List.dropWhile_append_of_pos (p := K.digit.has) (fun c hc => List.all_eq_true.mp ha c hc)]
          exact hrd
        have e2 : (x :: (v ++ rest)).length - rest.length = (x :: v).length := by simp; omega
        rw [if_pos ha, e, e2, ← List.cons_append, List.take_left]
      · rw [if_neg ha]
        have : ∃ y s, (v ++ rest).dropWhile K.digit.has = y :: s ∧ isSpace y = false := by
          have hvs : ∀ c ∈ v, isSpace c = false := fun c hc => hv.2 c (by simp [hc])
          clear hv
          induction v with
          | nil => exact absurd rfl ha
          | cons a v ih =>
            by_cases hd : isDigit a = true
            · rw [List.cons_append, List.dropWhile_cons_of_pos (show K.digit.has a = true from hd)]
              refine ih ?_ (fun c hc => hvs c (by simp [hc]))
              rw [List.all_cons, hd] at ha
              exact ha
            · rw [List.cons_append, List.dropWhile_cons_of_neg (show ¬ K.digit.has a = true from hd)]
              exact ⟨a, v ++ rest, rfl, hvs a (by simp)⟩
        obtain ⟨y, s, h1, h2⟩ := this
        rw [h1, hp y s _ h2]
    · simp only [if_neg hx]
      have hx' : isDigit x = false := by simpa [K.has] using hx
      rw [List.all_cons, hx']
      rfl

theorem eol_nonspace (x : Char) (s : Str) (c : Caps) (h : isSpace x = false) : (Prog.eol .done).det (x :: s) c = none := by
  rw [Prog.det, if_neg]
  rintro (e | e)
  · cases e
  · obtain ⟨rfl, _⟩ := List.cons.inj e
    exact absurd h (by decide)

theorem spEol_nonspace (x : Char) (s : Str) (c : Caps) (h : isSpace x = false) : Prog.spEol.det (x :: s) c = none := by
  rw [Prog.det, if_neg]
  rw [List.all_cons, h]
  simp

theorem sp_nonspace (p : Prog) (x : Char) (s : Str) (c : Caps) (h : isSpace x = false) :
    (Prog.plus .space p).det (x :: s) c = none := by
  rw [Prog.det.eq_def]
  simp only [K.has, h]
  rfl

/-- A suffix of a line. -/
theorem line_suffix {s t : Str} (h : s <:+ t) (ht : Line t) : Line s := by
  refine ⟨fun hn => ht.1 (h.subset hn), rstrip_of_last fun a ha => ?_⟩
  obtain ⟨u, rfl⟩ := h
  refine getLast?_rstrip (u ++ s) a ?_
  rw [ht.2, List.getLast?_append, ha]
  rfl

/-- `$` at the end of a word of a line. -/
theorem det_eol {v rest : Str} (hl : Line (v ++ rest)) (p : Prog) (c : Caps) :
    (Prog.eol p).det rest c = if splitWs rest = [] then p.det [] c else none := by
  rw [Prog.det]
  by_cases h : rest = []
  · subst h; rfl
  · have hlr := line_suffix (List.suffix_append v rest) hl
    have : ¬ rest = ['\n'] := by
      intro e
      exact hlr.1 (by rw [e]; simp)
    rw [if_neg (by simp [h, this]), if_neg]
    intro e
    rw [splitWs_eq_nil, List.all_eq_true] at e
    have hlast := hlr.2
    cases hg : rest.getLast? with
    | none => exact h (List.getLast?_eq_none_iff.mp hg)
    | some a =>
      have h1 := getLast?_rstrip rest a (by rw [hlast]; exact hg)
      rw [e a (List.mem_of_getLast? hg)] at h1
      cases h1

theorem det_spEol (rest : Str) (c : Caps) :
    Prog.spEol.det rest c = if splitWs rest = [] then some ([], c) else none := by
  rw [Prog.det]
  by_cases h : rest.all isSpace = true
  · rw [if_pos h, if_pos (splitWs_eq_nil.mpr h)]
  · rw [if_neg h, if_neg (fun e => h (splitWs_eq_nil.mp e))]

/-- A literal word at a place where words begin, then something that does not match inside
a word. -/
theorem det_str_word {w t : Str} (hw : IsWord w) (ht : lstrip t = t) (p : Prog)
    (hp : ∀ x s c, isSpace x = false → p.det (x :: s) c = none) (c : Caps) :
    (str w p).det t c = if (splitWs t).head? = some w then p.det (t.dropWhile nsp) c else none := by
  rw [det_str]
  by_cases hne : t = []
  · subst hne
    rw [if_neg (fun h => hw.1 (List.prefix_nil.mp h)), if_neg (by simp [splitWs, splitWsAux])]
  · rw [splitWs_cons ht hne, List.head?_cons]
    by_cases h : t.takeWhile nsp = w
    · subst h
      rw [if_pos (takeWhile_prefix' t), if_pos rfl, drop_takeWhile]
    · have hn : ¬ some (t.takeWhile nsp) = some w := by simpa using h
      rw [if_neg hn]
      split
      · rename_i hpre
        cases hd : t.drop w.length with
        | nil => exact absurd (prefix_word hw hpre (fun c hc => by rw [hd] at hc; cases hc)).1 h
        | cons x s =>
          by_cases hx : isSpace x = true
          · exact absurd (prefix_word hw hpre (fun c hc => by rw [hd] at hc; cases hc; exact hx)).1 h
          · exact hp x s c (by simpa using hx)
      · rfl

end Re

import Verif.Re.Lazy
import Verif.Re.Tok
import Verif.Re.Shapes

/-! # Expressions `^\s+word\s+..\s+` with an end that is not deterministic -/

namespace Re

open Py

theorem lang_wordsG (n : Nat) : ∀ {ws : List (Str × Bool)}, (∀ w ∈ ws, IsWord w.1 ∧ w.2 = true) → ∀ {u v : Str}, lstrip u = u →
    Lang n (seqs (wordsG ws .done).toL) u v →
    (∃ x s, v = x :: s ∧ isSpace x = true) ∨ v = [] ∨ (ws.map Prod.fst <+: splitWs u ∧ v = skip ws.length u) := by
  intro ws
  induction ws with
  | nil =>
    intro _ u v _ h
    have h : u = v := (lang_nil n u v).mp h
    exact .inr (.inr ⟨List.nil_prefix, h.symm⟩)
  | cons w ws ih =>
    intro hw u v hu h
    obtain ⟨⟨w, b⟩, rfl, ⟨hw1, hb⟩⟩ : ∃ q, w = q ∧ IsWord q.1 ∧ q.2 = true := ⟨w, rfl, hw w (by simp)⟩
    subst hb
    obtain ⟨r, rfl, h2⟩ := (lang_str n w _ u v).mp h
    change Lang n (seqs (Prog.plus .space (wordsG ws .done)).toL) r v at h2
    rw [Prog.toL, lang_cons] at h2
    obtain ⟨r', h3, h4⟩ := h2
    obtain ⟨s, rfl, hs, hsp⟩ := (lang_plus ..).mp h3
    obtain ⟨x, s, rfl⟩ := List.exists_cons_of_ne_nil hs
    have hsp : ∀ c ∈ x :: s, isSpace c = true := hsp
    have hd : (w ++ (x :: s ++ r')).dropWhile nsp = x :: s ++ r' := by
      rw [List.dropWhile_append_of_pos (p := nsp) (fun c hc => by simp [nsp, hw1.2 c hc]), List.cons_append,
        List.dropWhile_cons_of_neg (by simp [nsp, hsp x (by simp)])]
    have hls : lstrip (x :: s ++ r') = lstrip r' := by
      rw [lstrip, List.dropWhile_append_of_pos (p := isSpace) hsp, ← lstrip]
    have hsk : ∀ k, skip (k + 1) (w ++ (x :: s ++ r')) = skip k (lstrip r') := by
      intro k; rw [skip, hd, hls]
    have hsw : splitWs (w ++ (x :: s ++ r')) = w :: splitWs r' := by
      rw [splitWs_word_rest hw1 (by intro c hc; cases hc; exact hsp _ (by simp)), ← splitWs_lstrip (x :: s ++ r'), hls, splitWs_lstrip]
    by_cases hr : lstrip r' = r'
    · rcases ih (fun w hw' => hw w (by simp [hw'])) hr h4 with h | h | ⟨h5, h6⟩
      · exact .inl h
      · exact .inr (.inl h)
      · refine .inr (.inr ⟨?_, ?_⟩)
        · rw [hsw, List.map_cons]
          exact List.cons_prefix_cons.mpr ⟨rfl, h5⟩
        · rw [h6, List.length_cons, hsk, hr]
    · cases ws with
      | nil =>
        have : r' = v := (lang_nil n r' v).mp h4
        subst this
        cases r' with
        | nil => exact .inr (.inl rfl)
        | cons y r' =>
          refine .inl ⟨y, r', rfl, ?_⟩
          cases hy : isSpace y with
          | true => rfl
          | false => exact absurd (by rw [lstrip, List.dropWhile_cons_of_neg (by simp [hy])]) hr
      | cons w' ws =>
        obtain ⟨r2, rfl, -⟩ := (lang_str n w'.1 _ r' v).mp h4
        obtain ⟨y, w2, e⟩ := List.exists_cons_of_ne_nil (hw w' (by simp)).1.1
        refine absurd ?_ hr
        rw [e, List.cons_append, lstrip, List.dropWhile_cons_of_neg]
        have := (hw w' (by simp)).1.2 y (by rw [e]; simp)
        simp [this]

theorem wordsG_lang (n : Nat) : ∀ {ws : List (Str × Bool)}, (∀ w ∈ ws, IsWord w.1 ∧ w.2 = true) → ∀ {u : Str}, lstrip u = u →
    ws.map Prod.fst <+: splitWs u → skip ws.length u ≠ [] → Lang n (seqs (wordsG ws .done).toL) u (skip ws.length u) := by
  intro ws
  induction ws with
  | nil => intro _ u _ _ _; exact (lang_nil n u u).mpr rfl
  | cons w ws ih =>
    intro hw u hu hp hne
    obtain ⟨⟨w, b⟩, rfl, ⟨hw1, hb⟩⟩ : ∃ q, w = q ∧ IsWord q.1 ∧ q.2 = true := ⟨w, rfl, hw w (by simp)⟩
    subst hb
    have hune : u ≠ [] := by rintro rfl; exact absurd hp (by simp [splitWs, splitWsAux])
    have hc := splitWs_cons hu hune
    rw [hc, List.map_cons] at hp
    obtain ⟨h1, h2⟩ := List.cons_prefix_cons.mp hp
    have hw' : w = u.takeWhile nsp := h1
    rw [List.length_cons, skip] at hne ⊢
    have hsp := List.takeWhile_append_dropWhile (p := nsp) (l := u)
    refine (lang_str n w _ u _).mpr ⟨u.dropWhile nsp, by rw [hw', hsp], ?_⟩
    show Lang n (seqs (Prog.plus .space (wordsG ws .done)).toL) _ _
    rw [Prog.toL, lang_cons]
    refine ⟨lstrip (u.dropWhile nsp), ?_, ih (fun w hw'' => hw w (by simp [hw''])) (lstrip_lstrip _) (by rwa [splitWs_lstrip]) hne⟩
    refine (lang_plus ..).mpr ⟨(u.dropWhile nsp).takeWhile isSpace, ?_, ?_, ?_⟩
    · rw [lstrip, List.takeWhile_append_dropWhile]
    · cases e : u.dropWhile nsp with
      | nil =>
        rw [e] at hne
        exact absurd (by
          rw [show lstrip ([] : Str) = [] from rfl]
          have : ∀ k, skip k ([] : Str) = [] := by
            intro k; induction k with
            | zero => rfl
            | succ k ihk => rw [skip]; exact ihk
          exact this _) hne
      | cons y r =>
        have hy : nsp y = false := by
          have := List.head?_dropWhile_not (p := nsp) u
          rw [e] at this
          simpa using this
        rw [List.takeWhile_cons_of_pos (by simpa [nsp] using hy)]
        simp
    · intro c hc
      exact of_mem_takeWhile hc

/-- The results of the beginning of the expression: a rest that begins with a blank, or the words
behind the first ones. -/
theorem lang_lead (n : Nat) (ind : Bool) {ws : List (Str × Bool)} (hne : ws ≠ []) (hw : ∀ w ∈ ws, IsWord w.1 ∧ w.2 = true) {t v : Str}
    (h : Lang n (seqs (lead ind (wordsG ws .done)).toL) t v) :
    (∃ x s, v = x :: s ∧ isSpace x = true) ∨ v = [] ∨
      ((ind = true → Indented t) ∧ ws.map Prod.fst <+: splitWs t ∧ v = skip ws.length (lstrip t)) := by
  have key : ∀ r s, t = s ++ r → (∀ c ∈ s, isSpace c = true) → (ind = true → s ≠ []) → Lang n (seqs (wordsG ws .done).toL) r v →
      (∃ x s, v = x :: s ∧ isSpace x = true) ∨ v = [] ∨
      ((ind = true → Indented t) ∧ ws.map Prod.fst <+: splitWs t ∧ v = skip ws.length (lstrip t)) := by
    rintro r s rfl hs hi h
    have hr : lstrip r = r := by
      obtain ⟨w, ws, rfl⟩ := List.exists_cons_of_ne_nil hne
      obtain ⟨r2, rfl, -⟩ := (lang_str n w.1 _ r v).mp h
      obtain ⟨y, w2, e⟩ := List.exists_cons_of_ne_nil (hw w (by simp)).1.1
      rw [e, List.cons_append, lstrip, List.dropWhile_cons_of_neg]
      have := (hw w (by simp)).1.2 y (by rw [e]; simp)
      simp [this]
    have e : lstrip (s ++ r) = r := by
      rw [lstrip, List.dropWhile_append_of_pos (p := isSpace) hs, ← lstrip, hr]
    rcases lang_wordsG n hw hr h with h | h | ⟨h1, h2⟩
    · exact .inl h
    · exact .inr (.inl h)
    · refine .inr (.inr ⟨fun hh => ?_, ?_, ?_⟩)
      · obtain ⟨x, s, rfl⟩ := List.exists_cons_of_ne_nil (hi hh)
        exact ⟨x, rfl, hs x (by simp)⟩
      · rwa [← splitWs_lstrip, e]
      · rw [e]; exact h2
  cases ind with
  | true =>
    rw [lead, if_pos rfl, Prog.toL, lang_cons] at h
    obtain ⟨r, h1, h2⟩ := h
    obtain ⟨s, e, hs, hsp⟩ := (lang_plus ..).mp h1
    exact key r s e hsp (fun _ => hs) h2
  | false =>
    rw [lead, if_neg (by simp), Prog.toL, lang_cons] at h
    obtain ⟨r, h1, h2⟩ := h
    obtain ⟨s, e, hsp⟩ := (lang_star' ..).mp h1
    exact key r s e hsp (fun h => by cases h) h2

theorem lead_lang (n : Nat) (ind : Bool) {ws : List (Str × Bool)} (hw : ∀ w ∈ ws, IsWord w.1 ∧ w.2 = true) {t : Str}
    (h1 : ind = true → Indented t) (h2 : ws.map Prod.fst <+: splitWs t) (h3 : skip ws.length (lstrip t) ≠ []) :
    Lang n (seqs (lead ind (wordsG ws .done)).toL) t (skip ws.length (lstrip t)) := by
  have h4 := wordsG_lang n hw (lstrip_lstrip t) (by rwa [splitWs_lstrip]) h3
  have e : t = t.takeWhile isSpace ++ lstrip t := by rw [lstrip, List.takeWhile_append_dropWhile]
  have hs : ∀ c ∈ t.takeWhile isSpace, isSpace c = true := fun c hc => of_mem_takeWhile hc
  cases ind with
  | true =>
    rw [lead, if_pos rfl, Prog.toL, lang_cons]
    refine ⟨lstrip t, (lang_plus ..).mpr ⟨_, e, ?_, hs⟩, h4⟩
    obtain ⟨x, hx, hsx⟩ := h1 rfl
    cases t with
    | nil => cases hx
    | cons y t =>
      cases hx
      rw [List.takeWhile_cons_of_pos hsx]
      simp
  | false =>
    rw [lead, if_neg (by simp), Prog.toL, lang_cons]
    exact ⟨lstrip t, (lang_star' ..).mpr ⟨_, e, hs⟩, h4⟩

/-- The search for `^\s+word\s+..\s+` with an end that does not begin with a blank is a match of
the end behind the words. -/
theorem search_lead (ind : Bool) {ws : List (Str × Bool)} (hne : ws ≠ []) (hw : ∀ w ∈ ws, IsWord w.1 ∧ w.2 = true)
    {A : List Rgx} (t : Str) (hA0 : ∀ v, ¬ Lang t.length (seqs A) [] v)
    (hA : ∀ x s, isSpace x = true → ∀ v, ¬ Lang t.length (seqs A) (x :: s) v)
    (hb : (seqs (lead ind (wordsG ws .done)).toL).bodies = []) (g : Nat) (names : List (Str × Nat)) :
    (∀ m, search ⟨seqs (.bol :: ((lead ind (wordsG ws .done)).toL ++ A)), g, names⟩ t = some m →
      (ind = true → Indented t) ∧ ws.map Prod.fst <+: splitWs t ∧
      ∃ q, (run t.length (seqs A) (skip ws.length (lstrip t)) []).head? = some q ∧ m.caps = q.2) ∧
    (∀ q, (ind = true → Indented t) → ws.map Prod.fst <+: splitWs t →
      (run t.length (seqs A) (skip ws.length (lstrip t)) []).head? = some q →
      ∃ m, search ⟨seqs (.bol :: ((lead ind (wordsG ws .done)).toL ++ A)), g, names⟩ t = some m ∧ m.caps = q.2) := by
  have hmem : ∀ p ∈ run t.length (seqs (lead ind (wordsG ws .done)).toL) t [],
      run t.length (seqs A) p.1 p.2 = [] ∨ (p = (skip ws.length (lstrip t), []) ∧ (ind = true → Indented t) ∧ ws.map Prod.fst <+: splitWs t) := by
    rintro ⟨v, d⟩ hp
    have hl := (lang_run _ _ _ _ _).mp ⟨d, hp⟩
    have hd : d = [] := by
      obtain ⟨e, he, rfl⟩ := sem_run.mp hp
      rw [((sem_plain hb).mp he).2]; rfl
    subst hd
    rcases lang_lead _ ind hne hw hl with ⟨x, s, rfl, hx⟩ | rfl | ⟨h1, h2, h3⟩
    · exact .inl ((miss_iff _ _ _ _).mpr (hA x s hx))
    · exact .inl ((miss_iff _ _ _ _).mpr hA0)
    · exact .inr ⟨by rw [h3], h1, h2⟩
  have hin : (ind = true → Indented t) → ws.map Prod.fst <+: splitWs t → skip ws.length (lstrip t) ≠ [] →
      (skip ws.length (lstrip t), []) ∈ run t.length (seqs (lead ind (wordsG ws .done)).toL) t [] := by
    intro h1 h2 h3
    exact (sem_plain (n := t.length) hb).mpr ⟨lead_lang _ ind hw h1 h2 h3, rfl⟩
  rw [search_bol_run, run_seqs_append]
  generalize run t.length (seqs (lead ind (wordsG ws .done)).toL) t [] = L at hmem hin
  have hhead : ∀ q, (L.flatMap (fun p => run t.length (seqs A) p.1 p.2)).head? = some q →
      (ind = true → Indented t) ∧ ws.map Prod.fst <+: splitWs t ∧ (run t.length (seqs A) (skip ws.length (lstrip t)) []).head? = some q := by
    clear hin
    intro q hq
    induction L with
    | nil => cases hq
    | cons p L ih =>
      rw [List.flatMap_cons, List.head?_append] at hq
      rcases hmem p (by simp) with h | ⟨rfl, h1, h2⟩
      · rw [h] at hq
        exact ih (fun p hp => hmem p (by simp [hp])) hq
      · cases hr : (run t.length (seqs A) (skip ws.length (lstrip t)) []).head? with
        | some q' =>
          rw [hr] at hq
          exact ⟨h1, h2, by cases hq; rfl⟩
        | none =>
          rw [hr] at hq
          have := ih (fun p hp => hmem p (by simp [hp])) hq
          rw [hr] at this
          exact this
  constructor
  · intro m hm
    rw [Option.map_eq_some_iff] at hm
    obtain ⟨q, hq, rfl⟩ := hm
    obtain ⟨h1, h2, h3⟩ := hhead q hq
    exact ⟨h1, h2, q, h3, rfl⟩
  · intro q h1 h2 h3
    have hne' : skip ws.length (lstrip t) ≠ [] := by
      intro e
      rw [e] at h3
      have : run t.length (seqs A) [] [] = [] := (miss_iff _ _ _ _).mpr hA0
      rw [this] at h3
      cases h3
    have hi := hin h1 h2 hne'
    cases hf : (L.flatMap (fun p => run t.length (seqs A) p.1 p.2)).head? with
    | none =>
      rw [List.head?_eq_none_iff, List.flatMap_eq_nil_iff] at hf
      rw [hf _ hi] at h3
      cases h3
    | some q' =>
      obtain ⟨-, -, h4⟩ := hhead q' hf
      rw [h3] at h4
      cases h4
      exact ⟨_, rfl, rfl⟩

/-- The words of the line are the ones of the expression and those of the rest. -/
theorem lang_lead_words (n : Nat) (ind : Bool) {ws : List (Str × Bool)} (hw : ∀ w ∈ ws, IsWord w.1 ∧ w.2 = true) {t v : Str}
    (h : Lang n (seqs (lead ind (wordsG ws .done)).toL) t v) :
    (ind = true → Indented t) ∧ splitWs t = ws.map Prod.fst ++ splitWs v := by
  have key : ∀ {ws : List (Str × Bool)}, (∀ w ∈ ws, IsWord w.1 ∧ w.2 = true) → ∀ {u : Str},
      Lang n (seqs (wordsG ws .done).toL) u v → splitWs u = ws.map Prod.fst ++ splitWs v := by
    intro ws
    induction ws with
    | nil =>
      intro _ u h
      have h : u = v := (lang_nil n u v).mp h
      rw [h]; rfl
    | cons w ws ih =>
      intro hw u h
      obtain ⟨⟨w, b⟩, rfl, ⟨hw1, hb⟩⟩ : ∃ q, w = q ∧ IsWord q.1 ∧ q.2 = true := ⟨w, rfl, hw w (by simp)⟩
      subst hb
      obtain ⟨r, rfl, h2⟩ := (lang_str n w _ u v).mp h
      change Lang n (seqs (Prog.plus .space (wordsG ws .done)).toL) r v at h2
      rw [Prog.toL, lang_cons] at h2
      obtain ⟨r', h3, h4⟩ := h2
      obtain ⟨s, rfl, hs, hsp⟩ := (lang_plus ..).mp h3
      have hsp : ∀ c ∈ s, isSpace c = true := hsp
      rw [splitWs_word_rest hw1 (by
        intro c hc
        obtain ⟨x, s, rfl⟩ := List.exists_cons_of_ne_nil hs
        cases hc
        exact hsp _ (by simp)), splitWs_spaces _ _ hsp, ih (fun w hw' => hw w (by simp [hw'])) h4]
      rfl
  cases ind with
  | true =>
    rw [lead, if_pos rfl, Prog.toL, lang_cons] at h
    obtain ⟨r, h1, h2⟩ := h
    obtain ⟨s, rfl, hs, hsp⟩ := (lang_plus ..).mp h1
    obtain ⟨x, s, rfl⟩ := List.exists_cons_of_ne_nil hs
    have hsp : ∀ c ∈ x :: s, isSpace c = true := hsp
    exact ⟨fun _ => ⟨x, rfl, hsp x (by simp)⟩, by rw [splitWs_spaces _ _ hsp, key hw h2]⟩
  | false =>
    rw [lead, if_neg (by simp), Prog.toL, lang_cons] at h
    obtain ⟨r, h1, h2⟩ := h
    obtain ⟨s, rfl, hsp⟩ := (lang_star' ..).mp h1
    have hsp : ∀ c ∈ s, isSpace c = true := hsp
    exact ⟨fun h => (by cases h), by rw [splitWs_spaces _ _ hsp, key hw h2]⟩

/-- The first result is the longest one. -/
theorem det_lead_skip (ind : Bool) {ws : List (Str × Bool)} (hne : ws ≠ []) (hw : ∀ w ∈ ws, IsWord w.1 ∧ w.2 = true)
    (hwf : (lead ind (wordsG ws .done)).wf (fun _ => false) true = true)
    {t : Str} (h1 : ind = true → Indented t) (h2 : ws.map Prod.fst <+: splitWs t) (h3 : skip ws.length (lstrip t) ≠ []) :
    (lead ind (wordsG ws .done)).det t [] = some (skip ws.length (lstrip t), []) := by
  have h0 := lstrip_skip ws.length (lstrip_lstrip t)
  have hfree : (lead ind (wordsG ws .done)).free = true := by
    have := free_wordsG ws .done rfl
    cases ind <;> simpa [lead, Prog.free] using this
  have happ : (lead ind (wordsG ws .done)).append (.plus .nonspace .done) = lead ind (wordsG ws (.plus .nonspace .done)) := by
    have := Prog.append_wordsG ws .done (.plus .nonspace .done)
    cases ind <;> simp [lead, Prog.append, this] <;> rfl
  obtain ⟨x, r, e⟩ := List.exists_cons_of_ne_nil h3
  have hx : isSpace x = false := head?_lstrip _ x (by rw [h0, e]; rfl)
  have hp : ∃ q, (Prog.plus .nonspace .done).det (skip ws.length (lstrip t)) [] = some q := by
    rw [e, plus_cons, if_pos (by simp [K.has, hx])]
    exact ⟨_, rfl⟩
  obtain ⟨q, hq⟩ := hp
  have hd := (det_chain ind (fun w h => (hw w h).1) (.plus .nonspace .done) (fun _ => rfl) (t := t) (.inl (fun w h => (hw w h).2)) [] q).mpr ⟨h1, h2, hq⟩
  rw [← happ, (append_det _ _ hfree t [] []).1] at hd
  cases hb : (lead ind (wordsG ws .done)).det t [] with
  | none => rw [hb] at hd; cases hd
  | some b =>
    obtain ⟨r0, c⟩ := b
    have hc : c = [] := (append_det _ (.plus .nonspace .done) hfree t [] []).2 _ hb
    subst hc
    rw [hb] at hd
    have hl : Lang 0 (seqs (lead ind (wordsG ws .done)).toL) t r0 :=
      (lang_run _ _ _ [] _).mp ⟨[], List.mem_of_mem_head? (hit_prog 0 hwf hb)⟩
    rcases lang_lead 0 ind hne hw hl with ⟨y, s, rfl, hy⟩ | rfl | ⟨-, -, rfl⟩
    · change (Prog.plus .nonspace .done).det (y :: s) [] = some q at hd
      rw [plus_cons, if_neg (by simp [K.has, hy])] at hd
      cases hd
    · cases hd
    · rfl

end Re

import Verif.Aaa.Model
import Verif.Nxos.Tails
import Verif.Cisco.Tails

/-! # Lemmas for the AAA lines -/

namespace Aaa

open Py Conf Query Re Cisco

/-! ## Splitting -/

theorem splitBs_one : ∀ {t : Str}, '\\' ∉ t → splitBs t = [t]
  | [], _ => rfl
  | c :: t, h => by
    have hc : c ≠ '\\' := fun e => h (by simp [e])
    have ih := splitBs_one (t := t) (fun hh => h (by simp [hh]))
    rw [splitBs.eq_3 _ _ (by intro _ e; exact absurd e hc), ih]

/-! ## A part that is read from left to right, and the rest -/

theorem search_split {p : Prog} {X : List Rgx} {f : K → Bool} (hw : p.wf f false = true) {t : Str}
    (hf : ∀ k, f k = true → ∀ s c, HeadIn k s → run t.length (seqs X) s c = []) (g : Nat) (names : List (Str × Nat)) :
    search ⟨seqs (.bol :: (p.toL ++ X)), g, names⟩ t =
      ((p.det t []).bind (fun q => (run t.length (seqs X) q.1 q.2).head?)).map
        (fun q => ⟨t.take (t.length - q.1.length), 0, q.2⟩) := by
  rw [search_bol_run, run_seqs_append,
    p.det_spec t.length f false (fun q => run t.length (seqs X) q.1 q.2) t [] hw hf (fun h => by cases h)]

/-! ## `(\S+)(.+?)$` -/

def lazyL (h : Nat) : List Rgx := [.grp h (.seq (.cls K.any.cls) (.star false (.cls K.any.cls))), .eol]

def wordL (g : Nat) : Rgx := .grp g (.seq (.cls K.nonspace.cls) (.star true (.cls K.nonspace.cls)))

theorem run_lazyL (n h : Nat) {s : Str} (hs : '\n' ∉ s) (c : Caps) :
    run n (seqs (lazyL h)) s c = if s = [] then [] else [([], (h, s) :: c)] := by
  rw [lazyL, run_seqs_cons', run, List.flatMap_map, run]
  cases s with
  | nil => rfl
  | cons x s =>
    have hs' : '\n' ∉ s := fun h => hs (by simp [h])
    rw [run, K.cls_has, if_pos (any_of_line hs x (by simp)), if_neg (by simp)]
    simp only [List.flatMap_cons, List.flatMap_nil, List.append_nil]
    rw [run, Nxos.star_any n false (κ := fun p => run n (seqs [.eol]) p.1 ((h, (x :: s).take ((x :: s).length - p.1.length)) :: p.2))
      (fun y u c hu => Nxos.run_eol_cons n y u _ hu) c _ hs' (Nat.le_refl _), Nxos.run_eol_nil]
    simp

/-- Blanks-free letters, as many as possible, with at least one character left. -/
theorem star_back (n : Nat) {κ : Str × Caps → List (Str × Caps)} (c : Caps) (h0 : κ ([], c) = [])
    (h1 : ∀ x s, '\n' ∉ (x :: s : Str) → κ (x :: s, c) ≠ []) :
    ∀ (m : Nat) {s : Str}, '\n' ∉ s → s.length ≤ m →
      ((runStar true (run n (.cls K.nonspace.cls)) m s c).flatMap κ).head? =
        if s.dropWhile nsp ≠ [] then (κ (s.dropWhile nsp, c)).head?
        else (s.getLast?.bind (fun x => (κ ([x], c)).head?))
  | 0, s, _, h => by
    have : s = [] := List.length_eq_zero_iff.mp (by omega)
    subst this
    simp [runStar, h0]
  | m + 1, [], _, _ => by
    simp [runStar, run, h0]
  | m + 1, x :: s, hs, h => by
    have hs' : '\n' ∉ s := fun h => hs (by simp [h])
    have ih := star_back n c h0 h1 m (s := s) hs' (by simpa using h)
    have hlt : s.length < (x :: s).length := by simp
    rw [runStar, if_pos rfl, run, K.cls_has]
    by_cases hx : isSpace x = true
    · rw [if_neg (by simp [K.has, hx])]
      have e : (x :: s).dropWhile nsp = x :: s := List.dropWhile_cons_of_neg (by simp [hx])
      rw [e, if_pos (by simp)]
      simp
    · have e : (x :: s).dropWhile nsp = s.dropWhile nsp := List.dropWhile_cons_of_pos (by simp [hx])
      rw [if_pos (by simp [K.has, hx]), e]
      simp only [List.flatMap_cons, List.flatMap_nil, List.append_nil, if_pos hlt, List.flatMap_append, List.head?_append, ih]
      by_cases hd : s.dropWhile nsp = []
      · rw [if_neg (by simp [hd]), if_neg (by simp [hd])]
        cases s with
        | nil => simp
        | cons y u =>
          rw [List.getLast?_cons_cons]
          cases hl : (y :: u).getLast? with
          | none => simp at hl
          | some z =>
            have hz : '\n' ∉ ([z] : Str) := by
              intro hh
              have : '\n' = z := by simpa using hh
              exact hs' (this ▸ List.mem_of_getLast? hl)
            cases hk : κ ([z], c) with
            | nil => exact absurd hk (h1 z [] hz)
            | cons q l => simp [hk]
      · rw [if_pos hd, if_pos hd]
        obtain ⟨y, u, hy⟩ := List.exists_cons_of_ne_nil hd
        have hn : '\n' ∉ (y :: u : Str) := fun hh => hs' ((List.dropWhile_suffix nsp).subset (hy ▸ hh))
        rw [hy]
        cases hk : κ (y :: u, c) with
        | nil => exact absurd hk (h1 y u hn)
        | cons q l => simp

/-- A word with something behind it. -/
theorem run_last_word (n g h : Nat) {w r : Str} (hw : IsWord w) (hr : r ≠ []) (hb : ∀ c, r.head? = some c → isSpace c = true)
    (hl : '\n' ∉ (w ++ r)) (c : Caps) :
    (run n (seqs (wordL g :: lazyL h)) (w ++ r) c).head? = some ([], (h, r) :: (g, w) :: c) := by
  obtain ⟨x, u, rfl⟩ := List.exists_cons_of_ne_nil hw.1
  have hx : isSpace x = false := hw.2 x (by simp)
  have hu : ∀ y ∈ u, nsp y = true := fun y hy => by simp [hw.2 y (by simp [hy])]
  have hd : (u ++ r).dropWhile nsp = r := by
    rw [List.dropWhile_append_of_pos (p := nsp) hu]
    obtain ⟨y, v, rfl⟩ := List.exists_cons_of_ne_nil hr
    exact List.dropWhile_cons_of_neg (by simp [hb y rfl])
  have hl' : '\n' ∉ (u ++ r) := fun hh => hl (by rw [List.cons_append]; exact List.mem_cons_of_mem _ hh)
  rw [run_seqs_cons', wordL, run, List.flatMap_map, run, List.cons_append, run, K.cls_has, if_pos (by simp [K.has, hx])]
  simp only [List.flatMap_cons, List.flatMap_nil, List.append_nil]
  rw [run, star_back n c (κ := fun p => run n (seqs (lazyL h)) p.1 ((g, (x :: (u ++ r)).take ((x :: (u ++ r)).length - p.1.length)) :: p.2))
    (by rw [run_lazyL n h (by simp), if_pos rfl])
    (fun y v hv => by rw [run_lazyL n h hv, if_neg (by simp)]; simp) _ hl' (Nat.le_refl _), hd, if_pos hr]
  have hnr : '\n' ∉ r := fun hh => hl (by simp [hh])
  rw [run_lazyL n h hnr, if_neg hr, List.head?_cons, ← List.cons_append, List.length_append, Nat.add_sub_cancel, List.take_left]

/-- A word at the end loses its last character. -/
theorem run_last_end (n g h : Nat) {w : Str} {z : Char} (hw : IsWord (w ++ [z])) (c : Caps) (hne : w ≠ []) :
    (run n (seqs (wordL g :: lazyL h)) (w ++ [z]) c).head? = some ([], (h, [z]) :: (g, w) :: c) := by
  obtain ⟨x, u, rfl⟩ := List.exists_cons_of_ne_nil hne
  have hx : isSpace x = false := hw.2 x (by simp)
  have hl : '\n' ∉ (x :: u ++ [z] : Str) := fun hh => by have := hw.2 _ hh; rw [nl_space] at this; cases this
  have hl' : '\n' ∉ (u ++ [z]) := fun hh => hl (by rw [List.cons_append]; exact List.mem_cons_of_mem _ hh)
  have hd : (u ++ [z]).dropWhile nsp = [] := by
    have hall : ∀ y ∈ u ++ [z], nsp y = true := fun y hy => by
      simp [hw.2 y (by rw [List.cons_append]; exact List.mem_cons_of_mem _ hy)]
    have := List.dropWhile_append_of_pos (p := nsp) (l₂ := []) hall
    simpa using this
  rw [run_seqs_cons', wordL, run, List.flatMap_map, run, List.cons_append, run, K.cls_has, if_pos (by simp [K.has, hx])]
  simp only [List.flatMap_cons, List.flatMap_nil, List.append_nil]
  rw [run, star_back n c (κ := fun p => run n (seqs (lazyL h)) p.1 ((g, (x :: (u ++ [z])).take ((x :: (u ++ [z])).length - p.1.length)) :: p.2))
    (by rw [run_lazyL n h (by simp), if_pos rfl])
    (fun y v hv => by rw [run_lazyL n h hv, if_neg (by simp)]; simp) _ hl' (Nat.le_refl _), hd, if_neg (by simp), List.getLast?_concat]
  have hz : '\n' ∉ ([z] : Str) := fun hh => hl (by simp at hh; simp; exact .inr (.inr hh))
  rw [Option.bind_some, run_lazyL n h hz, if_neg (by simp), List.head?_cons, ← List.cons_append, List.length_append, Nat.add_sub_cancel,
    List.take_left]

/-- A single character at the end is too little. -/
theorem run_last_one (n g h : Nat) {z : Char} (hz : isSpace z = false) (c : Caps) :
    run n (seqs (wordL g :: lazyL h)) [z] c = [] := by
  rw [← List.head?_eq_none_iff, run_seqs_cons', wordL, run, List.flatMap_map, run, run, K.cls_has, if_pos (by simp [K.has, hz])]
  simp only [List.flatMap_cons, List.flatMap_nil, List.append_nil]
  rw [run, star_back n c (κ := fun p => run n (seqs (lazyL h)) p.1 ((g, [z].take ([z].length - p.1.length)) :: p.2))
    (by rw [run_lazyL n h (by simp), if_pos rfl])
    (fun y v hv => by rw [run_lazyL n h hv, if_neg (by simp)]; simp) _ (by simp) (Nat.le_refl _)]
  simp

/-- Nothing begins with a blank. -/
theorem run_last_space (n g h : Nat) {s : Str} (hs : HeadIn .space s) (c : Caps) : run n (seqs (wordL g :: lazyL h)) s c = [] := by
  obtain ⟨x, s, rfl, hx⟩ := hs
  rw [run_seqs_cons', wordL, run, run, run, K.cls_has, if_neg (by
    have : isSpace x = true := hx
    simp [K.has, this])]
  rfl

/-! ## Words with one blank behind each -/

/-- Words with one blank behind each. -/
def lined (ws : List Str) : Str := ws.flatMap (fun w => w ++ [' '])

theorem gap_blank (b : Bool) (p : Prog) {s : Str} (hs : ∀ c, s.head? = some c → isSpace c = false) (hn : s ≠ []) (c : Caps) :
    (gap b p).det (' ' :: s) c = p.det s c := by
  obtain ⟨x, u, rfl⟩ := List.exists_cons_of_ne_nil hn
  cases b with
  | true => exact det_blank p (hs x rfl) u c
  | false => rfl

theorem lined_head {ws : List Str} (hw : ∀ w ∈ ws, IsWord w) {s : Str} (hs : ∀ c, s.head? = some c → isSpace c = false) (hn : s ≠ []) :
    (∀ c, (lined ws ++ s).head? = some c → isSpace c = false) ∧ lined ws ++ s ≠ [] := by
  cases ws with
  | nil => exact ⟨hs, hn⟩
  | cons w ws =>
    have h := hw w (by simp)
    obtain ⟨x, u, rfl⟩ := List.exists_cons_of_ne_nil h.1
    constructor
    · intro c hc
      simp only [lined, List.flatMap_cons, List.cons_append, List.head?_cons, Option.some.injEq] at hc
      subst hc
      exact h.2 x (by simp)
    · simp [lined]

theorem det_lined {l : List (Str × Bool)} (hl : ∀ w ∈ l, IsWord w.1) (p : Prog) {s : Str}
    (hs : ∀ c, s.head? = some c → isSpace c = false) (hn : s ≠ []) (c : Caps) :
    (wordsG l p).det (lined (l.map Prod.fst) ++ s) c = p.det s c := by
  induction l with
  | nil => rfl
  | cons w l ih =>
    have hl' : ∀ w ∈ l, IsWord w.1 := fun v hv => hl v (by simp [hv])
    have := lined_head (ws := l.map Prod.fst) (by
      intro v hv
      obtain ⟨u, hu, rfl⟩ := List.mem_map.mp hv
      exact hl' u hu) hs hn
    show (str w.1 (gap w.2 (wordsG l p))).det _ c = _
    rw [List.map_cons, show lined (w.1 :: l.map Prod.fst) ++ s = w.1 ++ (' ' :: (lined (l.map Prod.fst) ++ s)) by simp [lined],
      det_str, if_pos (List.prefix_append _ _), List.drop_left, gap_blank _ _ this.1 this.2, ih hl']

/-- A captured word with a blank behind it. -/
theorem det_field (g : Nat) {k : K} (hk : k.has ' ' = false) {w : Str} (hw : ∀ c ∈ w, k.has c = true) (hne : w ≠ []) (b : Bool) (p : Prog)
    {s : Str} (hs : ∀ c, s.head? = some c → isSpace c = false) (hn : s ≠ []) (c : Caps) :
    (Prog.grp g (.plus k .done) (gap b p)).det (w ++ ' ' :: s) c = p.det s ((g, w) :: c) := by
  have h := det_grp_word g hk hw hne (.inr ⟨s, rfl⟩) c
  rw [Prog.det] at h ⊢
  cases hd : (Prog.plus k .done).det (w ++ ' ' :: s) c with
  | none => rw [hd] at h; cases h
  | some q =>
    rw [hd] at h
    simp only [Prog.det, Option.some.injEq, Prod.mk.injEq] at h
    simp only
    rw [h.1, ← gap_blank b p hs hn, ← h.2, h.1]

theorem word_nsp {w : Str} (hw : IsWord w) : ∀ c ∈ w, K.nonspace.has c = true := fun c hc => by simp [K.has, hw.2 c hc]

theorem word_start {w s : Str} (hw : IsWord w) : (∀ c, (w ++ s).head? = some c → isSpace c = false) ∧ w ++ s ≠ [] := by
  obtain ⟨x, u, rfl⟩ := List.exists_cons_of_ne_nil hw.1
  exact ⟨fun c hc => by cases hc; exact hw.2 x (by simp), by simp⟩

end Aaa

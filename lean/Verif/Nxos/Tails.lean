import Verif.Cisco.AddrProps
import Verif.Re.Lazy
import Verif.Re.Caps

/-! # More ends of expressions: blanks behind a group, the rest of a line, lazy repetition -/

namespace Nxos

open Py Conf Query Re Cisco

/-- The line says `pre` and then, behind blanks, the text `r` up to its end. -/
def Spec.Rest (pre : List String) (t r : Str) : Prop :=
  ∃ u gap : Str, t = u ++ gap ++ r ∧ splitWs u = Spec.wd pre ∧ gap ≠ [] ∧ (∀ c ∈ gap, isSpace c = true) ∧
    ∃ c, r.head? = some c ∧ isSpace c = false

theorem skip_rest : ∀ (ws : List Str) {u gap r : Str}, splitWs u = ws → gap ≠ [] → (∀ c ∈ gap, isSpace c = true) →
    (∃ c, r.head? = some c ∧ isSpace c = false) →
    skip ws.length (lstrip (u ++ gap ++ r)) = r ∧ ws <+: splitWs (u ++ gap ++ r)
  | [], u, gap, r, h1, h2, h3, h4 => by
    have hu := List.all_eq_true.mp (splitWs_eq_nil.mp h1)
    refine ⟨?_, List.nil_prefix⟩
    rw [List.append_assoc, lstrip_blank hu, lstrip_blank h3, lstrip_head h4]
    rfl
  | w :: ws, u, gap, r, h1, h2, h3, h4 => by
    have hne : lstrip u ≠ [] := by
      intro e
      rw [← splitWs_lstrip, e] at h1
      cases h1
    obtain ⟨v, rest, e1, e2, e3, e4⟩ := split_cons (lstrip_lstrip u) hne
    rw [splitWs_lstrip, h1] at e4
    obtain ⟨rfl, e5⟩ := List.cons.inj e4
    have e6 : u = u.takeWhile isSpace ++ (w ++ rest) := by
      rw [← e1]; exact (List.takeWhile_append_dropWhile).symm
    have e7 : lstrip (u ++ gap ++ r) = w ++ (rest ++ gap ++ r) := by
      conv => lhs; rw [e6]
      rw [List.append_assoc, List.append_assoc, lstrip_blank (fun c hc => of_mem_takeWhile hc)]
      obtain ⟨y, z, rfl⟩ := List.exists_cons_of_ne_nil e2.1
      rw [lstrip_head ⟨y, rfl, e2.2 y (by simp)⟩]
      simp
    have e8 : ∀ c, (rest ++ gap ++ r).head? = some c → isSpace c = true := by
      intro c hc
      cases rest with
      | cons x s => exact e3 c (by simpa using hc)
      | nil =>
        cases gap with
        | nil => exact absurd rfl h2
        | cons x s => cases hc; exact h3 _ (by simp)
    obtain ⟨i1, i2⟩ := skip_rest ws (u := rest) e5.symm h2 h3 h4
    refine ⟨?_, ?_⟩
    · rw [e7, List.length_cons]
      simp only [skip]
      rw [(prefix_word e2 (List.prefix_append w _) (by rw [List.drop_left]; exact e8)).2, List.drop_left]
      exact i1
    · rw [← splitWs_lstrip, e7, splitWs_word_rest e2 e8, List.cons_prefix_cons]
      exact ⟨rfl, i2⟩

theorem rest_skip : ∀ (ws : List Str) {t r : Str}, ws ≠ [] → ws <+: splitWs t → skip ws.length (lstrip t) = r → r ≠ [] →
    ∃ u gap : Str, t = u ++ gap ++ r ∧ splitWs u = ws ∧ gap ≠ [] ∧ (∀ c ∈ gap, isSpace c = true) ∧
      ∃ c, r.head? = some c ∧ isSpace c = false
  | [], _, _, h, _, _, _ => absurd rfl h
  | w :: ws, t, r, _, h1, h2, h3 => by
    have hne : lstrip t ≠ [] := by
      intro e
      rw [← splitWs_lstrip, e] at h1
      simp [splitWs, splitWsAux] at h1
    obtain ⟨v, rest, e1, e2, e3, e4⟩ := split_cons (lstrip_lstrip t) hne
    rw [splitWs_lstrip] at e4
    rw [e4, List.cons_prefix_cons] at h1
    obtain ⟨rfl, h1⟩ := h1
    have e6 : t = t.takeWhile isSpace ++ (w ++ rest) := by
      rw [← e1]; exact (List.takeWhile_append_dropWhile).symm
    have e7 : skip ws.length (lstrip rest) = r := by
      rw [List.length_cons] at h2
      simp only [skip] at h2
      rw [e1, (prefix_word e2 (List.prefix_append w _) (by rw [List.drop_left]; exact e3)).2, List.drop_left] at h2
      exact h2
    have hsp : ∀ s : Str, (∀ c, s.head? = some c → isSpace c = true) → splitWs (t.takeWhile isSpace ++ (w ++ s)) = w :: splitWs s := by
      intro s hs
      rw [← splitWs_lstrip, lstrip_blank (fun c hc => of_mem_takeWhile hc), splitWs_lstrip, splitWs_word_rest e2 hs]
    cases ws with
    | nil =>
      have e8 : lstrip rest = r := e7
      have e9 : rest = rest.takeWhile isSpace ++ r := by
        rw [← e8]; exact (List.takeWhile_append_dropWhile).symm
      refine ⟨t.takeWhile isSpace ++ (w ++ []), rest.takeWhile isSpace, ?_, hsp [] (by simp), ?_,
        fun c hc => of_mem_takeWhile hc, head_of_lstrip (by rw [← e8]; exact lstrip_lstrip _) h3⟩
      · conv => lhs; rw [e6, e9]
        simp
      · intro e
        cases rest with
        | nil => exact h3 (by rw [← e8]; rfl)
        | cons x s => rw [List.takeWhile_cons_of_pos (e3 x rfl)] at e; cases e
    | cons w' ws =>
      obtain ⟨u, gap, a1, a2, a3, a4, a5⟩ := rest_skip (w' :: ws) (by simp) h1 e7 h3
      refine ⟨t.takeWhile isSpace ++ (w ++ u), gap, ?_, ?_, a3, a4, a5⟩
      · conv => lhs; rw [e6, a1]
        simp
      · rw [hsp u, a2]
        intro c hc
        apply e3
        rw [a1, List.append_assoc, List.head?_append, hc]; rfl

theorem rest_iff {pre : List String} (hp : pre ≠ []) {t r : Str} :
    Spec.Rest pre t r ↔ Spec.wd pre <+: splitWs t ∧ skip pre.length (lstrip t) = r ∧ r ≠ [] := by
  have hl : (Spec.wd pre).length = pre.length := by simp [Spec.wd]
  constructor
  · rintro ⟨u, gap, rfl, h1, h2, h3, h4⟩
    obtain ⟨i1, i2⟩ := skip_rest _ h1 h2 h3 h4
    rw [hl] at i1
    refine ⟨i2, i1, ?_⟩
    rintro rfl
    obtain ⟨c, h, _⟩ := h4
    cases h
  · rintro ⟨h1, h2, h3⟩
    rw [← hl] at h2
    exact rest_skip _ (by simpa [Spec.wd] using hp) h1 h2 h3

/-- A line says one rest. -/
theorem rest_unique {pre : List String} (hp : pre ≠ []) {t r r' : Str} (h : Spec.Rest pre t r) (h' : Spec.Rest pre t r') :
    r = r' := by
  rw [← ((rest_iff hp).mp h).2.1, ((rest_iff hp).mp h').2.1]

/-! ## Blanks behind a group -/

/-- Blanks behind the group change nothing. -/
theorem tail_then_sp {b : Prog} {g : Nat} {T : List Str → Str → Prop} (h : Tail (.grp g b .done) g T) :
    Tail (.grp g b (.star .space .done)) g T := by
  have hd : ∀ r c, (Prog.grp g b (.star .space .done)).det r c =
      ((Prog.grp g b .done).det r c).map (fun q => (q.1.dropWhile K.space.has, q.2)) := by
    intro r c
    rw [Prog.det, Prog.det]
    cases b.det r c with
    | none => rfl
    | some q => simp only [Prog.det]; rfl
  refine ⟨fun c => by rw [hd, h.nil]; rfl, ?_, ?_⟩
  · intro r c q h0 hl hq
    rw [hd] at hq
    cases hx : (Prog.grp g b .done).det r c with
    | none => rw [hx] at hq; cases hq
    | some x =>
      rw [hx] at hq
      cases hq
      exact h.fwd r c x h0 hl hx
  · intro r c a h0 hl hT
    obtain ⟨q, hq⟩ := h.ex r c a h0 hl hT
    exact ⟨_, by rw [hd, hq]; rfl⟩

/-- `(l\s+w\s*)`, open at the end. -/
theorem tail_open (g : Nat) {l : List String} {w : Str} (hl : (gaps true l).all (fun w => isWord w.1) = true) (hw : IsWord w) :
    Tail (.grp g (wordsG (gaps true l) (str w (.star .space .done))) .done) g
      (fun ws a => a ≠ [] ∧ ∃ v more, ws = Spec.wd l ++ v :: more ∧ w <+: v) := by
  have hfit : ∀ r : Str, Fits (gaps true l) r := fun r => .inl (by simp [gaps])
  have hn : ∀ c, (str w (.star .space .done)).det [] c = none := fun c => by
    rw [det_str, if_neg (fun h => hw.1 (List.prefix_nil.mp h))]
  have hin : ∀ r c q, lstrip r = r → ((wordsG (gaps true l) (str w (.star .space .done))).det r c = some q ↔
      Spec.wd l <+: splitWs r ∧ w <+: skip l.length r ∧
        q = (((skip l.length r).drop w.length).dropWhile K.space.has, c)) := by
    intro r c q h0
    rw [det_wordsG (words_of hl) _ hn h0 (hfit r), fst_gaps, det_str]
    have : (gaps true l).length = l.length := by simp [gaps]
    rw [this]
    by_cases hp : w <+: skip l.length r
    · simp only [hp, if_true, Prog.det, Option.some.injEq, true_and, eq_comm]
    · simp [hp]
  have hpre : ∀ r, lstrip r = r → (Spec.wd l <+: splitWs r ∧ w <+: skip l.length r ↔
      ∃ v more, splitWs r = Spec.wd l ++ v :: more ∧ w <+: v) := by
    intro r h0
    have hlen : (Spec.wd l).length = l.length := by simp [Spec.wd]
    have hsk := splitWs_skip l.length h0
    constructor
    · rintro ⟨h1, h2⟩
      have hne : skip l.length r ≠ [] := by
        intro e; rw [e] at h2; exact hw.1 (List.prefix_nil.mp h2)
      obtain ⟨v, rest, e1, e2, e3, e4⟩ := split_cons (lstrip_skip _ h0) hne
      rw [e1, prefix_first hw e2 e3] at h2
      refine ⟨v, splitWs rest, ?_, h2⟩
      rw [← e4, hsk, ← hlen, ← prefix_append_drop h1]
    · rintro ⟨v, more, h1, h2⟩
      refine ⟨by rw [h1]; exact List.prefix_append _ _, ?_⟩
      rw [h1, ← hlen, List.drop_left] at hsk
      have hne : skip (Spec.wd l).length r ≠ [] := by
        intro e; rw [e] at hsk; cases hsk
      obtain ⟨v', rest, e1, e2, e3, e4⟩ := split_cons (lstrip_skip _ h0) hne
      rw [e4] at hsk
      obtain ⟨rfl, -⟩ := List.cons.inj hsk
      rw [hlen] at e1
      rw [e1, prefix_first hw e2 e3]
      exact h2
  have hgrp : ∀ r c, (Prog.grp g (wordsG (gaps true l) (str w (.star .space .done))) .done).det r c =
      ((wordsG (gaps true l) (str w (.star .space .done))).det r c).map
        (fun q => (q.1, (g, r.take (r.length - q.1.length)) :: q.2)) := by
    intro r c
    rw [Prog.det]
    cases (wordsG (gaps true l) (str w (.star .space .done))).det r c with
    | none => rfl
    | some q => simp only [Prog.det]; rfl
  refine ⟨?_, ?_, ?_⟩
  · intro c
    rw [hgrp, wordsG_nil (words_of hl) _ hn]; rfl
  · intro r c q h0 _ hq
    rw [hgrp] at hq
    cases hx : (wordsG (gaps true l) (str w (.star .space .done))).det r c with
    | none => rw [hx] at hq; cases hq
    | some x =>
      rw [hx] at hq
      cases hq
      obtain ⟨h1, h2, rfl⟩ := (hin r c x h0).mp hx
      refine ⟨_, ⟨?_, (hpre r h0).mp ⟨h1, h2⟩⟩, List.lookup_cons_self⟩
      intro e
      have a1 : (((skip l.length r).drop w.length).dropWhile K.space.has).length ≤ ((skip l.length r).drop w.length).length :=
        length_dropWhile_le _ _
      have a2 := (skip_suffix l.length r).length_le
      have a3 := h2.length_le
      have a4 := List.length_pos_iff.mpr hw.1
      have a5 := congrArg List.length e
      simp only [List.length_take, List.length_drop, List.length_nil] at a1 a5
      omega
  · rintro r c a h0 _ ⟨-, h⟩
    obtain ⟨h1, h2⟩ := (hpre r h0).mpr h
    exact ⟨_, by rw [hgrp, (hin r c _ h0).mpr ⟨h1, h2, rfl⟩]; rfl⟩

/-! ## Lazy repetition up to the end of a line -/

/-- Up to the end of the line there is one way, lazy or not. -/
theorem star_any (n : Nat) (b : Bool) {κ : Str × Caps → List (Str × Caps)} (hκ : ∀ x s c, '\n' ∉ (x :: s : Str) → κ (x :: s, c) = []) (c : Caps) :
    ∀ (m : Nat) {s : Str}, '\n' ∉ s → s.length ≤ m →
      (runStar b (run n (.cls K.any.cls)) m s c).flatMap κ = κ ([], c)
  | 0, s, _, h => by
    have : s = [] := List.length_eq_zero_iff.mp (by omega)
    subst this
    simp [runStar]
  | m + 1, [], _, _ => by
    cases b <;> simp [runStar, run]
  | m + 1, x :: s, hs, h => by
    have hx : K.any.cls.has x = true := by
      rw [K.cls_has]; exact any_of_line hs x (by simp)
    have ih := star_any n b hκ c m (s := s) (fun hh => hs (by simp [hh])) (by simpa using h)
    have hlt : s.length < (x :: s).length := by simp
    rw [runStar]
    cases b with
    | true =>
      rw [if_pos rfl, run, if_pos hx]
      simp only [List.flatMap_cons, List.flatMap_nil, List.append_nil, if_pos hlt, List.flatMap_append, ih, hκ x s c hs]
    | false =>
      rw [if_neg (by decide), run, if_pos hx]
      simp only [List.flatMap_cons, List.flatMap_nil, List.append_nil, if_pos hlt, ih, hκ x s c hs, List.nil_append]

/-- `(k.*?)$` and `(k.+?)$`, or the same without the question mark. -/
def restL (b : Bool) (k : K) (two : Bool) : List Rgx :=
  [.grp 1 (.seq (.cls k.cls) (if two then .seq (.cls K.any.cls) (.star b (.cls K.any.cls)) else .star b (.cls K.any.cls))), .eol]

def restP (k : K) (two : Bool) : Prog := .grp 1 (.one k (if two then .plus .any .done else .star .any .done)) (.eol .done)

theorem restP_toL (k : K) (two : Bool) : (restP k two).toL = restL true k two := by
  cases two <;> rfl

theorem run_eol_nil (n : Nat) (c : Caps) : run n (seqs [.eol]) [] c = [([], c)] := by
  rw [run_seqs_cons', run, if_pos (.inl rfl)]; rfl

theorem run_eol_cons (n : Nat) (y : Char) (u : Str) (c : Caps) (hu : '\n' ∉ (y :: u : Str)) :
    run n (seqs [.eol]) (y :: u) c = [] := by
  rw [run_seqs_cons', run, if_neg]
  · rfl
  · rintro (h | h)
    · cases h
    · cases h; exact hu (by simp)

theorem run_restL (n : Nat) (b : Bool) (k : K) (two : Bool) {s : Str} (hs : '\n' ∉ s) (c : Caps) :
    run n (seqs (restL b k two)) s c =
      match s with
      | [] => []
      | x :: s => if k.has x then (if two = true ∧ s = [] then [] else [([], (1, x :: s) :: c)]) else [] := by
  rw [restL, run_seqs_cons', run, List.flatMap_map, run]
  cases s with
  | nil => rfl
  | cons x s =>
    have hs' : '\n' ∉ s := fun h => hs (by simp [h])
    rw [run, K.cls_has]
    by_cases hx : k.has x = true
    · rw [if_pos hx]
      simp only [List.flatMap_cons, List.flatMap_nil, List.append_nil]
      rw [if_pos hx]
      cases two with
      | false =>
        simp only [Bool.false_eq_true, if_false, false_and]
        rw [run, star_any n b (κ := fun p => run n (seqs [.eol]) p.1 ((1, (x :: s).take ((x :: s).length - p.1.length)) :: p.2))
          (fun y u c hu => run_eol_cons n y u _ hu) c _ hs' (Nat.le_refl _), run_eol_nil]
        simp
      | true =>
        simp only [if_true, true_and]
        rw [run]
        cases s with
        | nil => rfl
        | cons y u =>
          have hy : K.any.has y = true := any_of_line hs' y (by simp)
          rw [run, K.cls_has, if_pos hy]
          simp only [List.flatMap_cons, List.flatMap_nil, List.append_nil]
          rw [run, star_any n b
            (κ := fun p => run n (seqs [.eol]) p.1 ((1, (x :: y :: u).take ((x :: y :: u).length - p.1.length)) :: p.2))
            (fun y u c hu => run_eol_cons n y u _ hu) c _ (fun h => hs' (by simp [h])) (Nat.le_refl _), run_eol_nil]
          simp
    · simp [hx]

/-- Two expressions with ends that match alike on the rest of this line. -/
theorem search_ends {l A B : List Rgx} {t : Str} (h : ∀ s c, s <:+ t → run t.length (seqs A) s c = run t.length (seqs B) s c)
    (g : Nat) (names : List (Str × Nat)) :
    search ⟨seqs (.bol :: (l ++ A)), g, names⟩ t = search ⟨seqs (.bol :: (l ++ B)), g, names⟩ t := by
  rw [search_bol_run, search_bol_run, run_seqs_append, run_seqs_append]
  have hcongr : ∀ {L : List (Str × Caps)} {f f' : Str × Caps → List (Str × Caps)}, (∀ q ∈ L, f q = f' q) →
      L.flatMap f = L.flatMap f' := by
    intro L f f' hf
    rw [List.flatMap_def, List.flatMap_def, List.map_congr_left hf]
  rw [hcongr]
  intro q hq
  obtain ⟨w, hw⟩ := lang_suffix _ _ _ _ ((lang_run _ _ _ _ _).mp ⟨q.2, hq⟩)
  exact h _ _ ⟨w, hw.symm⟩

/-- The expression is `p` with a lazy end. -/
def IsLazy (rx : String) (ind : Bool) (pre : List (Str × Bool)) (k : K) (two : Bool) : Prop :=
  compile rx = .ok ⟨seqs (.bol :: ((lead ind (wordsG pre .done)).toL ++ restL false k two)), 1, []⟩ ∧
    (lead ind (wordsG pre (restP k two))).toL = (lead ind (wordsG pre .done)).toL ++ restL true k two ∧
    (lead ind (wordsG pre (restP k two))).wf (fun _ => false) true = true

instance (rx : String) (ind : Bool) (pre : List (Str × Bool)) (k : K) (two : Bool) : Decidable (IsLazy rx ind pre k two) :=
  inferInstanceAs (Decidable (_ ∧ _ ∧ _))

theorem lazy_search {ind : Bool} {pre : List (Str × Bool)} {k : K} {two : Bool} {rx : String} (h : IsLazy rx ind pre k two)
    {t : Str} (ht : '\n' ∉ t) :
    search ⟨seqs (.bol :: ((lead ind (wordsG pre .done)).toL ++ restL false k two)), 1, []⟩ t =
      ((lead ind (wordsG pre (restP k two))).det t []).map (fun q => ⟨t.take (t.length - q.1.length), 0, q.2⟩) := by
  rw [← search_bol _ h.2.2 1 [] t, h.2.1]
  refine search_ends (fun s c hs => ?_) 1 []
  have : '\n' ∉ s := fun hh => ht (hs.subset hh)
  rw [run_restL _ false k two this, run_restL _ true k two this]

theorem iter_lazy {α : Type} {ind : Bool} {pre : List (Str × Bool)} {k : K} {two : Bool} {rx : String}
    (h : IsLazy rx ind pre k two) (conv : Option Str → Except Err α) (dflt : α) (P : Parsed) (i : Nat)
    (ht : ∀ t ∈ Spec.family P i, '\n' ∉ t) :
    iterTyped P i rx 1 conv dflt =
      match firstDet (lead ind (wordsG pre (restP k two))) (Spec.family P i) with
      | some c => conv (c.lookup 1)
      | none => .ok dflt := by
  have key : ∀ ts : List Str, (∀ t ∈ ts, '\n' ∉ t) →
      (firstMatch ⟨seqs (.bol :: ((lead ind (wordsG pre .done)).toL ++ restL false k two)), 1, []⟩ ts).map Found.caps =
        firstDet (lead ind (wordsG pre (restP k two))) ts := by
    intro ts
    induction ts with
    | nil => intro _; rfl
    | cons t ts ih =>
      intro hts
      rw [firstMatch, firstDet, lazy_search h (hts t (by simp))]
      cases hd : (lead ind (wordsG pre (restP k two))).det t [] with
      | none => simpa using ih (fun u hu => hts u (by simp [hu]))
      | some q => rfl
  have := key _ ht
  rw [← texts_family] at this
  rw [← texts_family, ← this, iterTyped, h.1]
  simp only [if_true]
  cases firstMatch _ (texts P i) with
  | none => rfl
  | some m =>
    simp only [Found.group, if_neg (by decide : (1 : Nat) ≠ 0), if_pos (by decide : 1 ≤ 1), Option.map_some]
    rfl

/-- What `^\s*pre\s+(k.*)$` matches. -/
theorem rest_det {ind : Bool} {pre : List String} (hp : pre ≠ []) (hl : (gaps true pre).all (fun w => isWord w.1) = true) {k : K}
    {two : Bool} {t : Str} (ht : '\n' ∉ t) (q : Str × Caps) :
    (lead ind (wordsG (gaps true pre) (restP k two))).det t [] = some q ↔
      (ind = true → Spec.Indented t) ∧ ∃ r, Spec.Rest pre t r ∧ (∃ x u, r = x :: u ∧ k.has x = true ∧ (two = true → u ≠ [])) ∧
        q = ([], [(1, r)]) := by
  have hn : ∀ c, (restP k two).det [] c = none := fun c => by
    cases two <;> rfl
  rw [det_chain ind (words_of hl) _ hn (.inl (by simp [gaps])), fst_gaps]
  refine and_congr_right fun _ => ?_
  have hlen : (gaps true pre).length = pre.length := by simp [gaps]
  rw [hlen]
  simp only [rest_iff hp]
  have hnl : '\n' ∉ skip pre.length (lstrip t) := fun hh =>
    ht (((skip_suffix _ _).trans (lstrip_suffix t)).subset hh)
  have hd : ∀ r : Str, '\n' ∉ r → ((restP k two).det r [] = some q ↔
      (∃ x u, r = x :: u ∧ k.has x = true ∧ (two = true → u ≠ [])) ∧ q = ([], [(1, r)])) := by
    intro r hr
    have hwf : (restP k two).wf (fun _ => false) true = true := by cases two <;> cases k <;> rfl
    rw [← head_prog r.length hwf, restP_toL, run_restL _ _ _ _ hr]
    cases r with
    | nil => simp
    | cons x s =>
      simp only
      by_cases hx : k.has x = true
      · rw [if_pos hx]
        by_cases hs : two = true ∧ s = []
        · rw [if_pos hs]
          obtain ⟨h1, h2⟩ := hs
          simp [h1, h2]
        · rw [if_neg hs, List.head?_cons, Option.some.injEq]
          constructor
          · rintro rfl
            exact ⟨⟨x, s, rfl, hx, fun h1 h2 => hs ⟨h1, h2⟩⟩, rfl⟩
          · rintro ⟨-, rfl⟩; rfl
      · rw [if_neg hx]
        constructor
        · intro h; cases h
        · rintro ⟨⟨y, u, e, hy, -⟩, -⟩
          cases e
          exact absurd hy hx
  constructor
  · rintro ⟨h1, h2⟩
    obtain ⟨h3, h4⟩ := (hd _ hnl).mp h2
    refine ⟨_, ⟨h1, rfl, ?_⟩, h3, h4⟩
    obtain ⟨x, u, e, _⟩ := h3
    rw [e]; simp
  · rintro ⟨r, ⟨h1, rfl, h2⟩, h3, h4⟩
    exact ⟨h1, (hd _ hnl).mpr ⟨h3, h4⟩⟩

end Nxos

import Verif.Cisco.Model
import Verif.Cisco.Spec
import Verif.Re.Shapes
import Verif.Query.Lemmas

/-! # Lemmas for the interface attributes -/

namespace Cisco

open Py Conf Query Re

/-- The text of every object is a right-stripped line. -/
theorem line_of_parse {o : Opts} {lines : List Str} {P : Parsed} (h : parse o lines = .ok P)
    (hn : ∀ l ∈ lines, '\n' ∉ l) (j : Nat) : Line (P.h j).text := by
  rw [parse, input_eq] at h
  obtain ⟨hb, h1, _, _, h4⟩ := bootstrap_ok h
  have e : (P.h j).text = rstrip (lineAt (Conf.Spec.input o lines) j) := by
    rw [h4 j]
    exact h1.text j
  rw [e]
  refine ⟨?_, rstrip_rstrip _⟩
  have hn' : ∀ l ∈ Conf.Spec.input o lines, '\n' ∉ l := by
    intro l hl
    rw [Conf.Spec.input] at hl
    split at hl
    · exact hn l (List.mem_filter.mp hl).1
    · exact hn l hl
  intro hx
  have h2 : '\n' ∈ lineAt (Conf.Spec.input o lines) j := (rstrip_prefix _).subset hx
  rw [lineAt, List.getD_eq_getElem?_getD] at h2
  cases hg : (Conf.Spec.input o lines)[j]? with
  | none => rw [hg] at h2; cases h2
  | some l =>
    rw [hg] at h2
    exact hn' l (List.mem_of_getElem? hg) h2

theorem line_family {o : Opts} {lines : List Str} {P : Parsed} (h : parse o lines = .ok P)
    (hn : ∀ l ∈ lines, '\n' ∉ l) (i : Nat) : ∀ t ∈ Spec.family P i, Line t := by
  intro t ht
  rcases List.mem_cons.mp ht with rfl | ht
  · exact line_of_parse h hn i
  · obtain ⟨j, _, rfl⟩ := List.mem_map.mp ht
    exact line_of_parse h hn j

theorem texts_family (P : Parsed) (i : Nat) : texts P i = Spec.family P i := rfl

/-- The expression, compiled. -/
def Is (rx : String) (p : Prog) (n : Nat) (names : List (Str × Nat)) : Prop :=
  compile rx = .ok ⟨seqs (.bol :: p.toL), n, names⟩ ∧ p.wf (fun _ => false) true = true

instance (rx : String) (p : Prog) (n : Nat) (names : List (Str × Nat)) : Decidable (Is rx p n names) :=
  inferInstanceAs (Decidable (_ ∧ _))

/-- The first match, by reading from left to right. -/
def firstDet (p : Prog) : List Str → Option Caps
  | [] => none
  | t :: ts =>
    match p.det t [] with
    | some q => some q.2
    | none => firstDet p ts

theorem firstMatch_det (p : Prog) (h : p.wf (fun _ => false) true = true) (n : Nat) (names : List (Str × Nat))
    (ts : List Str) :
    (firstMatch ⟨seqs (.bol :: p.toL), n, names⟩ ts).map Found.caps = firstDet p ts := by
  induction ts with
  | nil => rfl
  | cons t ts ih =>
    rw [firstMatch, firstDet, search_bol p h]
    cases hd : p.det t [] with
    | none => simpa using ih
    | some q => rfl

/-- A typed search with an expression that starts with `^`. -/
theorem iter_det {α : Type} {rx : String} {p : Prog} {n : Nat} {names : List (Str × Nat)} (h : Is rx p n names)
    {g : Nat} (h0 : g ≠ 0) (hg : g ≤ n) (conv : Option Str → Except Err α) (dflt : α) (P : Parsed) (i : Nat) :
    iterTyped P i rx g conv dflt =
      match firstDet p (Spec.family P i) with
      | some c => conv (c.lookup g)
      | none => .ok dflt := by
  have := firstMatch_det p h.2 n names (texts P i)
  rw [← texts_family, ← this, iterTyped, h.1]
  simp only [if_true]
  cases firstMatch ⟨seqs (.bol :: p.toL), n, names⟩ (texts P i) with
  | none => rfl
  | some m =>
    simp only [Found.group, if_neg h0, if_pos hg, Option.map_some]
    rfl

theorem first_det {α : Type} {Says : Str → α → Prop} {p : Prog} {g : Nat} {conv : Option Str → Except Err α}
    (dflt : α) (ts : List Str)
    (H : ∀ t ∈ ts, ∀ q, p.det t [] = some q → ∃ a, Says t a ∧ conv (q.2.lookup g) = .ok a)
    (H' : ∀ t ∈ ts, ∀ a, Says t a → ∃ q, p.det t [] = some q) :
    ∃ o, Spec.First Says ts o ∧
      (match firstDet p ts with
      | some c => conv (c.lookup g)
      | none => Except.ok dflt) = .ok (o.getD dflt) := by
  induction ts with
  | nil => exact ⟨none, rfl, rfl⟩
  | cons t ts ih =>
    rw [firstDet]
    cases hd : p.det t [] with
    | none =>
      obtain ⟨o, h1, h2⟩ := ih (fun t ht => H t (by simp [ht])) (fun t ht => H' t (by simp [ht]))
      refine ⟨o, .inr ⟨?_, h1⟩, h2⟩
      intro a ha
      obtain ⟨q, hq⟩ := H' t (by simp) a ha
      rw [hd] at hq; cases hq
    | some q =>
      obtain ⟨a, ha, hc⟩ := H t (by simp) q hd
      exact ⟨some a, .inl ⟨a, ha, rfl⟩, hc⟩

/-- A typed search finds what the first text that says something says. -/
theorem iter_first {α : Type} {Says : Str → α → Prop} {rx : String} {p : Prog} {n : Nat} {names : List (Str × Nat)}
    (h : Is rx p n names) {g : Nat} (h0 : g ≠ 0) (hg : g ≤ n) (conv : Option Str → Except Err α) (dflt : α)
    (P : Parsed) (i : Nat)
    (H : ∀ t ∈ Spec.family P i, ∀ q, p.det t [] = some q → ∃ a, Says t a ∧ conv (q.2.lookup g) = .ok a)
    (H' : ∀ t ∈ Spec.family P i, ∀ a, Says t a → ∃ q, p.det t [] = some q) :
    ∃ o, Spec.First Says (Spec.family P i) o ∧ iterTyped P i rx g conv dflt = .ok (o.getD dflt) := by
  rw [iter_det h h0 hg]
  exact first_det dflt _ H H'

/-! ## The shapes -/

/-- Decides that a text is a word. -/
def isWord (w : Str) : Bool := !w.isEmpty && w.all (fun c => !isSpace c)

theorem isWord_iff {w : Str} : isWord w = true ↔ IsWord w := by
  simp [isWord, IsWord]

/-- Words of an expression. -/
def gaps (m : Bool) (l : List String) : List (Str × Bool) := l.map (fun w => (w.toList, m))

theorem fst_gaps (m : Bool) (l : List String) : (gaps m l).map Prod.fst = Spec.wd l := by
  simp [gaps, Spec.wd]

theorem words_of {l : List (Str × Bool)} (h : (l.all (fun w => isWord w.1)) = true) : ∀ w ∈ l, IsWord w.1 := by
  intro w hw
  exact isWord_iff.mp (List.all_eq_true.mp h w hw)

theorem words_of' {l : List String} (h : (l.all (fun w => isWord w.toList)) = true) : ∀ w ∈ Spec.wd l, IsWord w := by
  intro w hw
  obtain ⟨v, hv, rfl⟩ := List.mem_map.mp hw
  exact isWord_iff.mp (List.all_eq_true.mp h v hv)

/-- `^\s*pre\s+(\d+)\s+post$` and the like. -/
def valueProg (l : List (Str × Bool)) (k : K) (sp : Bool) (post : List String) : Prog :=
  lead false (wordsG l (.grp 1 (.plus k .done) (ends sp (Spec.wd post))))

theorem value_det {l : List (Str × Bool)} {k : K} (hk : k.wordy) {sp : Bool} {post : List String}
    (hl : (l.all (fun w => isWord w.1)) = true) (hp : (post.all (fun w => isWord w.toList)) = true)
    {t : Str} (ht : Line t) (hf : Fits l (lstrip t)) (q : Str × Caps) :
    (valueProg l k sp post).det t [] = some q ↔
      ∃ v, splitWs t = l.map Prod.fst ++ v :: Spec.wd post ∧ v.all k.has = true ∧ q = ([], [(1, v)]) := by
  rw [valueProg, det_chain false (words_of hl) _ (grp_plus_nil _ _ _) hf]
  have hline : Line (skip l.length (lstrip t)) := line_suffix ((skip_suffix _ _).trans (lstrip_suffix t)) ht
  rw [det_value (words_of' hp) hk 1 sp (lstrip_skip _ (lstrip_lstrip t)) hline, splitWs_skip _ (lstrip_lstrip t),
    splitWs_lstrip]
  constructor
  · rintro ⟨-, h1, v, h2, h3, h4⟩
    refine ⟨v, ?_, h3, h4⟩
    rw [prefix_append_drop h1, List.length_map, h2]
  · rintro ⟨v, h1, h2, h3⟩
    refine ⟨by simp, ⟨_, h1.symm⟩, v, ?_, h2, h3⟩
    rw [h1, ← List.length_map (f := Prod.fst), List.drop_left]

theorem all_digits {v : Str} (h : v.all isDigit = true) (hv : v ≠ []) : Spec.Digits v :=
  ⟨hv, fun c hc => List.all_eq_true.mp h c hc⟩

/-- Numbers: `^\s*pre\s+(\d+)\s+post$`. -/
theorem num_attr {o : Opts} {lines : List Str} {P : Parsed} (h : parse o lines = .ok P)
    (hn : ∀ l ∈ lines, '\n' ∉ l) (i : Nat) {rx : String} {pre post : List String} {sp : Bool}
    (hi : Is rx (valueProg (gaps true pre) .digit sp post) 1 [] ∧
      (gaps true pre).all (fun w => isWord w.1) = true ∧ post.all (fun w => isWord w.toList) = true) (d : Int) :
    ∃ v, Spec.First (Spec.Number pre post) (Spec.family P i) v ∧ iterTyped P i rx 1 toInt d = .ok (v.getD d) := by
  obtain ⟨hi, hl, hp⟩ := hi
  have hdet : ∀ t ∈ Spec.family P i, ∀ q, _ := fun t ht q =>
    value_det (k := .digit) trivial (sp := sp) hl hp (line_family h hn i t ht)
      (.inl (by simp [gaps])) q
  refine iter_first hi (by decide) (by decide) toInt d P i ?_ ?_
  · intro t ht q hq
    obtain ⟨v, h1, h2, rfl⟩ := (hdet t ht q).mp hq
    have hv := (splitWs_words t v (by rw [h1]; simp)).1
    rw [fst_gaps] at h1
    refine ⟨natVal v, ⟨v, all_digits h2 hv, h1, rfl⟩, ?_⟩
    have hd : allDigits v = true := by
      rw [allDigits, Bool.and_eq_true]
      exact ⟨by simpa using hv, h2⟩
    exact pyInt_digits hd
  · rintro t ht a ⟨v, hv, h1, -⟩
    rw [← fst_gaps true] at h1
    exact ⟨_, (hdet t ht _).mpr ⟨v, h1, List.all_eq_true.mpr hv.2, rfl⟩⟩

/-- Words: `^\s*pre\s+(\S+)\s+post$`. -/
theorem word_attr {o : Opts} {lines : List Str} {P : Parsed} (h : parse o lines = .ok P)
    (hn : ∀ l ∈ lines, '\n' ∉ l) (i : Nat) {rx : String} {l : List (Str × Bool)} {post : List String} {sp : Bool}
    (hi : Is rx (valueProg l .nonspace sp post) 1 [] ∧
      l.all (fun w => isWord w.1) = true ∧ post.all (fun w => isWord w.toList) = true)
    (hf : ∀ t ∈ Spec.family P i, Fits l (lstrip t)) :
    ∃ v, Spec.First (fun t v => splitWs t = l.map Prod.fst ++ v :: Spec.wd post) (Spec.family P i) v ∧
      iterTyped P i rx 1 toStr [] = .ok (v.getD []) := by
  obtain ⟨hi, hl, hp⟩ := hi
  have hdet : ∀ t ∈ Spec.family P i, ∀ q, _ := fun t ht q =>
    value_det (k := .nonspace) trivial (sp := sp) hl hp (line_family h hn i t ht) (hf t ht) q
  refine iter_first hi (by decide) (by decide) toStr [] P i ?_ ?_
  · intro t ht q hq
    obtain ⟨v, h1, h2, rfl⟩ := (hdet t ht q).mp hq
    exact ⟨v, h1, rfl⟩
  · intro t ht v h1
    refine ⟨_, (hdet t ht _).mpr ⟨v, h1, ?_, rfl⟩⟩
    have := (splitWs_words t v (by rw [h1]; simp)).2
    rw [List.all_eq_true]
    intro c hc
    simp [K.has, this c hc]

/-- A word behind words: `^\s*pre\s+(\S+)`. -/
def nextProg (l : List (Str × Bool)) : Prog := lead false (wordsG l (.grp 1 (.plus .nonspace .done) .done))

theorem next_attr {P : Parsed} (i : Nat) {rx : String} {l : List (Str × Bool)}
    (hi : Is rx (nextProg l) 1 [] ∧ l.all (fun w => isWord w.1) = true)
    (hf : ∀ t ∈ Spec.family P i, Fits l (lstrip t)) :
    ∃ v, Spec.First (fun t v => ∃ more, splitWs t = l.map Prod.fst ++ v :: more) (Spec.family P i) v ∧
      iterTyped P i rx 1 toStr [] = .ok (v.getD []) := by
  obtain ⟨hi, hl⟩ := hi
  have hdet : ∀ t ∈ Spec.family P i, ∀ q, (nextProg l).det t [] = some q ↔ _ := fun t ht q =>
    det_chain false (words_of hl) _ (grp_plus_nil _ _ _) (hf t ht) [] q
  refine iter_first hi (by decide) (by decide) toStr [] P i ?_ ?_
  · intro t ht q hq
    obtain ⟨-, h1, h2⟩ := (hdet t ht q).mp hq
    rw [det_word (lstrip_skip _ (lstrip_lstrip t)), splitWs_skip _ (lstrip_lstrip t), splitWs_lstrip] at h2
    obtain ⟨v, vs, h3, h4⟩ := h2
    rw [Prog.det] at h4
    cases h4
    refine ⟨v, ⟨vs, ?_⟩, rfl⟩
    rw [prefix_append_drop h1, List.length_map, h3]
  · rintro t ht v ⟨more, h1⟩
    suffices hx : ∃ q, (Prog.grp 1 (Prog.plus K.nonspace Prog.done) Prog.done).det (skip l.length (lstrip t)) [] =
        some q from hx.imp fun q hq => (hdet t ht q).mpr ⟨by simp, ⟨_, h1.symm⟩, hq⟩
    refine ⟨_, (det_word (lstrip_skip _ (lstrip_lstrip t)) _ _ _ _).mpr ⟨v, more, ?_, rfl⟩⟩
    rw [splitWs_skip _ (lstrip_lstrip t), splitWs_lstrip, h1, ← List.length_map (f := Prod.fst), List.drop_left]

/-! ## Flags -/

theorem iter_flag {Says : Str → Prop} {rx : String} {p : Prog} {n : Nat} {names : List (Str × Nat)}
    (h : Is rx p n names) {g : Nat} (h0 : g ≠ 0) (hg : g ≤ n) (P : Parsed) (i : Nat)
    (H : ∀ t ∈ Spec.family P i, ∀ q, p.det t [] = some q → Says t ∧ ∃ x, q.2.lookup g = some x ∧ x ≠ [])
    (H' : ∀ t ∈ Spec.family P i, Says t → ∃ q, p.det t [] = some q) :
    ∃ b, iterTyped P i rx g toBool false = .ok b ∧ (b = true ↔ ∃ t ∈ Spec.family P i, Says t) := by
  rw [iter_det h h0 hg]
  generalize Spec.family P i = ts at H H' ⊢
  induction ts with
  | nil => exact ⟨false, rfl, by simp⟩
  | cons t ts ih =>
    rw [firstDet]
    cases hd : p.det t [] with
    | none =>
      obtain ⟨b, h1, h2⟩ := ih (fun t ht => H t (by simp [ht])) (fun t ht => H' t (by simp [ht]))
      refine ⟨b, h1, h2.trans ⟨fun ⟨u, hu, hs⟩ => ⟨u, by simp [hu], hs⟩, ?_⟩⟩
      rintro ⟨u, hu, hs⟩
      rcases List.mem_cons.mp hu with rfl | hu
      · obtain ⟨q, hq⟩ := H' u (by simp) hs
        rw [hd] at hq; cases hq
      · exact ⟨u, hu, hs⟩
    | some q =>
      obtain ⟨hs, x, hx, hne⟩ := H t (by simp) q hd
      refine ⟨true, ?_, by simp only [true_iff]; exact ⟨t, by simp, hs⟩⟩
      simp only [hx, toBool]
      cases x with
      | nil => exact absurd rfl hne
      | cons a x => rfl

/-- `^\s*pre\s+(l\s+w)\s*$`. -/
def flagProg (pre l : List (Str × Bool)) (w : Str) (sp : Bool) : Prog :=
  lead false (wordsG pre (.grp 1 (wordsG l (str w .done)) (ends sp [])))

theorem flag_attr {o : Opts} {lines : List Str} {P : Parsed} (h : parse o lines = .ok P)
    (hn : ∀ l ∈ lines, '\n' ∉ l) (i : Nat) {rx : String} {pre l : List (Str × Bool)} {w : Str} {sp : Bool}
    (hi : Is rx (flagProg pre l w sp) 1 [] ∧
      pre.all (fun w => isWord w.1) = true ∧ l.all (fun w => isWord w.1) = true ∧ isWord w = true)
    (hf : ∀ t ∈ Spec.family P i, Fits (pre ++ l) (lstrip t)) :
    ∃ b, iterTyped P i rx 1 toBool false = .ok b ∧
      (b = true ↔ ∃ t ∈ Spec.family P i, splitWs t = (pre ++ l).map Prod.fst ++ [w]) := by
  obtain ⟨hi, h1, h2, h3⟩ := hi
  have hw := isWord_iff.mp h3
  have hnil : ∀ c, (Prog.grp 1 (wordsG l (str w .done)) (ends sp [])).det [] c = none := by
    intro c
    cases hx : (Prog.grp 1 (wordsG l (str w .done)) (ends sp [])).det [] c with
    | none => rfl
    | some q =>
      have hline : Line ([] : Str) := ⟨by simp, rfl⟩
      have hfit : Fits l [] := .inr (by intro pre x y post e; simp at e)
      have := ((det_flag (words_of h2) hw 1 sp hline rfl hfit c).1 q hx).1
      rw [show splitWs ([] : Str) = [] from rfl] at this
      have := congrArg List.length this
      simp at this
  have fit : ∀ t, Fits (pre ++ l) (lstrip t) → Fits pre (lstrip t) ∧ Fits l (skip pre.length (lstrip t)) := by
    rintro t (hh | hh)
    · exact ⟨.inl fun w hw => hh w (by simp [hw]), .inl fun w hw => hh w (by simp [hw])⟩
    · exact ⟨.inr hh, .inr (hh.suffix (skip_suffix _ _))⟩
  have hdet : ∀ t ∈ Spec.family P i, ∀ q, (flagProg pre l w sp).det t [] = some q ↔ _ := fun t ht q =>
    det_chain false (words_of h1) _ hnil (fit t (hf t ht)).1 [] q
  have hflag : ∀ t ∈ Spec.family P i, _ := fun t ht =>
    det_flag (words_of h2) hw 1 sp
      (line_suffix ((skip_suffix pre.length _).trans (lstrip_suffix t)) (line_family h hn i t ht))
      (lstrip_skip pre.length (lstrip_lstrip t)) (fit t (hf t ht)).2 []
  have hsk : ∀ t, splitWs (skip pre.length (lstrip t)) = (splitWs t).drop pre.length := by
    intro t
    rw [splitWs_skip _ (lstrip_lstrip t), splitWs_lstrip]
  refine iter_flag hi (by decide) (by decide) P i ?_ ?_
  · intro t ht q hq
    obtain ⟨-, a, b⟩ := (hdet t ht q).mp hq
    obtain ⟨c, x, d, e⟩ := (hflag t ht).1 q b
    rw [hsk] at c
    refine ⟨?_, x, by rw [e]; rfl, d⟩
    rw [prefix_append_drop a, List.length_map, c]
    simp
  · intro t ht hs
    have e : (splitWs t).drop pre.length = l.map Prod.fst ++ [w] := by
      rw [hs, List.map_append, List.append_assoc, ← List.length_map (f := Prod.fst), List.drop_left]
    obtain ⟨q, hq⟩ := (hflag t ht).2 (by rw [hsk, e])
    refine ⟨q, (hdet t ht q).mpr ⟨by simp, ?_, hq⟩⟩
    rw [hs, List.map_append, List.append_assoc]
    exact List.prefix_append _ _

end Cisco

import Verif.Cisco.KindProps
import Verif.Intf.Props

/-! # Names of interfaces (C85) -/

namespace Cisco

open Py Conf Query Re Spec

/-- The words, each behind one blank. -/
def Spec.tailText (more : List Str) : Str := (more.map (' ' :: ·)).flatten

/-- An interface line: `interface`, a type (letters and hyphens), the number of the interface,
which begins with a digit, and further words. -/
structure Spec.Named (t ty num : Str) (more : List Str) : Prop where
  text : ∃ gap : Str, (∀ c ∈ gap, isSpace c = true) ∧ t = "interface ".toList ++ (ty ++ (gap ++ (num ++ tailText more)))
  type : ty ≠ [] ∧ ∀ c ∈ ty, isLetter c = true ∨ c = '-'
  number : (∃ d, num.head? = some d ∧ isDigit d = true) ∧ ∀ c ∈ num, isSpace c = false
  words : ∀ w ∈ more, w ≠ [] ∧ ∀ c ∈ w, isSpace c = false

/-! ## The rest of the line -/

theorem tail_head (more : List Str) : tailText more = [] ∨ ∃ s, tailText more = ' ' :: s := by
  cases more with
  | nil => exact .inl rfl
  | cons w more => exact .inr ⟨w ++ tailText more, rfl⟩

theorem nonspace_cls : K.nonspace.cls.has = nsp := by funext x; rw [K.cls_has]; rfl
theorem digit_cls : K.digit.cls.has = isDigit := by funext x; rw [K.cls_has]; rfl
theorem space_cls : K.space.cls.has = isSpace := by funext x; rw [K.cls_has]; rfl

theorem drop_tail {p : Char → Bool} (hp : p ' ' = false) (more : List Str) : (tailText more).dropWhile p = tailText more := by
  rcases tail_head more with h | ⟨s, h⟩
  · rw [h]; rfl
  · rw [h, List.dropWhile_cons_of_neg (by simp [hp])]

/-- `(\s\S+)*\s*$`. -/
def restL (g : Nat) : List Rgx :=
  [.star true (.grp g (seqs [.cls K.space.cls, .seq (.cls K.nonspace.cls) (.star true (.cls K.nonspace.cls))])),
    .star true (.cls K.space.cls), .eol]

theorem rest_hit (n g : Nat) (more : List Str) (hw : ∀ w ∈ more, w ≠ [] ∧ ∀ c ∈ w, isSpace c = false) (c : Caps) :
    ∃ c', Hit n (seqs (restL g)) (tailText more) c ([], c') ∧ ∀ k, k ≠ g → c'.lookup k = c.lookup k := by
  have key : ∀ (more : List Str) (c : Caps), (∀ w ∈ more, w ≠ [] ∧ ∀ c ∈ w, isSpace c = false) →
      ∃ c', Hit n (.star true (.grp g (seqs [.cls K.space.cls, .seq (.cls K.nonspace.cls) (.star true (.cls K.nonspace.cls))])))
        (tailText more) c ([], c') ∧ ∀ k, k ≠ g → c'.lookup k = c.lookup k := by
    intro more
    induction more with
    | nil =>
      intro c _
      exact ⟨c, hit_star_stop rfl, fun _ _ => rfl⟩
    | cons w more ih =>
      intro c hw
      obtain ⟨hne, hsp⟩ := hw w (by simp)
      obtain ⟨x, w', rfl⟩ := List.exists_cons_of_ne_nil hne
      have e : tailText ((x :: w') :: more) = ' ' :: x :: (w' ++ tailText more) := rfl
      obtain ⟨c', h1, h2⟩ := ih ((g, (' ' :: x :: (w' ++ tailText more)).take
        ((' ' :: x :: (w' ++ tailText more)).length - (tailText more).length)) :: c) (fun w hw' => hw w (by simp [hw']))
      refine ⟨c', ?_, ?_⟩
      · rw [e]
        refine hit_star_step (p := (tailText more, (g, (' ' :: x :: (w' ++ tailText more)).take
          ((' ' :: x :: (w' ++ tailText more)).length - (tailText more).length)) :: c)) ?_ (by simp; omega) h1
        refine hit_grp (q := (tailText more, c)) (hit_cons (hit_cls (k := .space) (by decide)) (hit_cons (q := (tailText more, c)) ?_ (hit_nil n _ _)))
        have := hit_plus_cls n K.nonspace.cls (w' ++ tailText more) c (x := x) (by rw [nonspace_cls]; simp [nsp, hsp x (by simp)])
        rw [nonspace_cls, List.dropWhile_append_of_pos (fun c hc => by simp [nsp, hsp c (by simp [hc])]), drop_tail (by decide)] at this
        exact this
      · intro k hk
        rw [h2 k hk, List.lookup_cons, show (k == g) = false from beq_false_of_ne hk]
  obtain ⟨c', h1, h2⟩ := key more c hw
  exact ⟨c', hit_cons h1 (hit_cons (hit_star_cls n K.space.cls [] c') (hit_cons (hit_eol n c') (hit_nil n _ _))), h2⟩

theorem rest_miss (n g : Nat) {x : Char} (hx : isSpace x = false) (s v : Str) : ¬ Lang n (seqs (restL g)) (x :: s) v := by
  intro h
  obtain ⟨u1, h1, h2⟩ := (lang_cons ..).mp h
  have e1 : u1 = x :: s := by
    rw [Lang] at h1
    cases h1 with
    | nil => rfl
    | cons h3 _ _ =>
      rw [Lang] at h3
      obtain ⟨w, h4, _⟩ := (lang_cons ..).mp h3
      obtain ⟨a, h5, h6⟩ := (lang_cls ..).mp h4
      cases h5
      have : isSpace x = true := h6
      rw [hx] at this; cases this
  subst e1
  obtain ⟨u2, h3, h4⟩ := (lang_cons ..).mp h2
  obtain ⟨w, h5, h6⟩ := (lang_star' ..).mp h3
  cases w with
  | cons y w =>
    rw [List.cons_append, List.cons.injEq] at h5
    have := h6 y (by simp)
    rw [← h5.1] at this
    have : isSpace x = true := this
    rw [hx] at this; cases this
  | nil =>
    rw [List.nil_append] at h5
    subst h5
    obtain ⟨u3, h7, _⟩ := (lang_cons ..).mp h4
    rw [Lang] at h7
    rcases h7.2 with h8 | h8
    · cases h8
    · cases h8
      exact absurd hx (by decide)

theorem run_nil_iff (n : Nat) (r : Rgx) (s : Str) (c : Caps) : run n r s c = [] ↔ ∀ v, ¬ Lang n r s v := miss_iff n r s c

/-! ## The beginning of the line -/

/-- `interface\s+[A-Za-z\-]+\s*`. -/
def headL : List Rgx :=
  (str "interface".toList (.plus .space .done)).toL ++ [.seq (.cls K.letter.cls) (.star true (.cls K.letter.cls)), .star true (.cls K.space.cls)]

theorem head_hit {t ty num : Str} {more : List Str} (h : Named t ty num more) (n : Nat) :
    Hit n (seqs headL) t [] (num ++ tailText more, []) := by
  obtain ⟨gap, hg, rfl⟩ := h.text
  obtain ⟨hne, hty⟩ := h.type
  obtain ⟨⟨d, hd, hdd⟩, hnum⟩ := h.number
  obtain ⟨x, ty', rfl⟩ := List.exists_cons_of_ne_nil hne
  cases num with
  | nil => cases hd
  | cons d' num =>
    cases hd
    have hl : K.letter.cls.has = fun c => isLetter c || c == '-' := by funext c; rw [K.cls_has]; rfl
    have hlet : ∀ c ∈ x :: ty', (isLetter c || c == '-') = true := by
      intro c hc
      rcases hty c hc with h | h
      · rw [h]; rfl
      · rw [h]; decide
    have hds : isSpace d = false := digit_not_space hdd
    have hdl : (isLetter d || d == '-') = false := by
      cases hh : (isLetter d || d == '-') with
      | false => rfl
      | true =>
        have := letter_toNat hh
        simp only [isDigit, Bool.and_eq_true, decide_eq_true_eq] at hdd
        omega
    refine hit_append (q := (x :: ty' ++ (gap ++ (d :: num ++ tailText more)), [])) (hit_prog n (by decide) ?_) ?_
    · rw [det_str, if_pos ⟨' ' :: (x :: ty' ++ (gap ++ (d :: num ++ tailText more))), rfl⟩]
      have hx : isSpace x = false := letter_not_space (hlet x (by simp))
      exact det_blank .done hx _ _
    · refine hit_cons (q := (gap ++ (d :: num ++ tailText more), [])) ?_ (hit_cons (q := (d :: num ++ tailText more, [])) ?_ (hit_nil n _ _))
      · have := hit_plus_cls n K.letter.cls (ty' ++ (gap ++ (d :: num ++ tailText more))) [] (x := x) (by rw [hl]; exact hlet x (by simp))
        rw [hl, List.dropWhile_append_of_pos (fun c hc => hlet c (by simp [hc]))] at this
        have e : (gap ++ (d :: num ++ tailText more)).dropWhile (fun c => isLetter c || c == '-') = gap ++ (d :: num ++ tailText more) := by
          cases gap with
          | nil => rw [List.nil_append, List.cons_append, List.dropWhile_cons_of_neg (by rw [hdl]; decide)]
          | cons y gap =>
            rw [List.cons_append, List.dropWhile_cons_of_neg]
            intro hy
            have := letter_not_space hy
            rw [hg y (by simp)] at this; cases this
        rw [e] at this
        exact this
      · have := hit_star_cls n K.space.cls (gap ++ (d :: num ++ tailText more)) []
        rw [space_cls, List.dropWhile_append_of_pos hg, List.cons_append, List.dropWhile_cons_of_neg (by rw [hds]; decide)] at this
        exact this

theorem named_intf {t ty num : Str} {more : List Str} (h : Named t ty num more) : isIntf t = .ok true := by
  obtain ⟨gap, hg, rfl⟩ := h.text
  obtain ⟨hne, hty⟩ := h.type
  obtain ⟨x, ty', rfl⟩ := List.exists_cons_of_ne_nil hne
  have hx : x ≠ ' ' := by
    rintro rfl
    rcases hty ' ' (by simp) with h | h
    · exact absurd h (by decide)
    · cases h
  have : isIntf ("interface ".toList ++ (x :: ty' ++ (gap ++ (num ++ tailText more)))) = .ok (x != ' ') := rfl
  rw [this]
  simp [hx]

/-- `matchGroup` from the first match. -/
theorem group_hit {rx : String} {l : List Rgx} {n : Nat} {names : List (Str × Nat)} (hc : compile rx = .ok ⟨seqs (.bol :: l), n, names⟩)
    {t : Str} {q : Str × Caps} (h : Hit t.length (seqs l) t [] q) {g : Nat} (h0 : g ≠ 0) (hg : g ≤ n) (d : Str) :
    matchGroup t rx g d = .ok (q.2.lookup g) := by
  have e := search_hit h n names
  rw [matchGroup, reSearch, hc]
  simp only [e]
  show Found.group _ _ g = _
  rw [Found.group, if_neg h0, if_pos hg]

/-! ## `interface_number` -/

theorem any_cls {c : Char} (h : isSpace c = false) : K.any.cls.has c = true := by
  rw [K.cls_has]
  have : c ≠ '\n' := by rintro rfl; exact absurd h (by decide)
  simpa [K.has] using this

theorem core_split {core : Str} (h : ∃ d, core.head? = some d ∧ isDigit d = true) :
    ∃ d ds m, core = d :: ds ++ m ∧ isDigit d = true ∧ (∀ c ∈ ds, isDigit c = true) ∧ (∀ x, m.head? = some x → isDigit x = false) := by
  obtain ⟨d, hd, hdd⟩ := h
  cases core with
  | nil => cases hd
  | cons x core =>
    cases hd
    refine ⟨d, core.takeWhile isDigit, core.dropWhile isDigit, by simp, hdd, fun c hc => of_mem_takeWhile hc, ?_⟩
    intro x hx
    exact head?_dropWhile_not _ _ x hx

theorem dots_hit (n g : Nat) {sub : Str} (hsub : sub = [] ∨ ∃ ds, sub = '.' :: ds ∧ Digits ds) (more : List Str) (c : Caps) :
    ∃ c', Hit n (.star true (.grp g (seqs [.cls (K.chr '.').cls, .seq (.cls K.digit.cls) (.star true (.cls K.digit.cls))])))
      (sub ++ tailText more) c (tailText more, c') ∧ ∀ k, k ≠ g → c'.lookup k = c.lookup k := by
  have stop : ∀ c, Hit n (.star true (.grp g (seqs [.cls (K.chr '.').cls, .seq (.cls K.digit.cls) (.star true (.cls K.digit.cls))])))
      (tailText more) c (tailText more, c) := by
    intro c
    refine hit_star_stop ((miss_iff ..).mpr ?_)
    intro v h
    rw [Lang] at h
    obtain ⟨u, h1, _⟩ := (lang_cons ..).mp h
    obtain ⟨a, h2, h3⟩ := (lang_cls ..).mp h1
    rcases tail_head more with e | ⟨s, e⟩
    · rw [e] at h2; cases h2
    · rw [e] at h2; cases h2
      exact absurd h3 (by decide)
  rcases hsub with rfl | ⟨ds, rfl, hne, hds⟩
  · exact ⟨c, stop c, fun _ _ => rfl⟩
  · obtain ⟨x, ds', rfl⟩ := List.exists_cons_of_ne_nil hne
    refine ⟨(g, ('.' :: (x :: ds') ++ tailText more).take (('.' :: (x :: ds') ++ tailText more).length - (tailText more).length)) :: c,
      hit_star_step (p := (tailText more, (g, ('.' :: (x :: ds') ++ tailText more).take (('.' :: (x :: ds') ++ tailText more).length -
        (tailText more).length)) :: c)) ?_ (by simp; omega) (stop _), ?_⟩
    · refine hit_grp (q := (tailText more, c)) (hit_cons (hit_cls (k := .chr '.') (by decide)) (hit_cons (q := (tailText more, c)) ?_ (hit_nil n _ _)))
      have := hit_plus_cls n K.digit.cls (ds' ++ tailText more) c (x := x) (by rw [digit_cls]; exact hds x (by simp))
      rw [digit_cls, List.dropWhile_append_of_pos (fun c hc => hds c (by simp [hc])), drop_tail (by decide)] at this
      exact this
    · intro k hk
      rw [List.lookup_cons, show (k == g) = false from beq_false_of_ne hk]

/-- C85: `interface_number` is the number without the number of a subinterface. -/
theorem C85_interface_number {t ty core sub : Str} {more : List Str} (h : Named t ty (core ++ sub) more) (hcore : core ≠ [])
    (hdot : '.' ∉ core) (hsub : sub = [] ∨ ∃ ds, sub = '.' :: ds ∧ Digits ds) : interfaceNumber t = .ok core := by
  have hc : compile "^interface\\s+[A-Za-z\\-]+\\s*(\\d+.*?)(\\.\\d+)*(\\s\\S+)*\\s*$" = .ok ⟨seqs (.bol :: (headL ++
      (.grp 1 (seqs [.seq (.cls K.digit.cls) (.star true (.cls K.digit.cls)), .star false (.cls K.any.cls)]) ::
      (.star true (.grp 2 (seqs [.cls (K.chr '.').cls, .seq (.cls K.digit.cls) (.star true (.cls K.digit.cls))])) :: restL 3)))), 3, []⟩ := by
    decide +kernel
  obtain ⟨⟨d, hd, hdd⟩, hnum⟩ := h.number
  have hd' : core.head? = some d := by
    obtain ⟨x, core', rfl⟩ := List.exists_cons_of_ne_nil hcore
    simpa using hd
  obtain ⟨d0, ds, m, hm, hd0, hds, hmh⟩ := core_split ⟨d, hd', hdd⟩
  obtain ⟨c1, hc1, hl1⟩ := dots_hit t.length 2 hsub more [(1, core)]
  obtain ⟨c2, hc2, hl2⟩ := rest_hit t.length 3 more h.words c1
  have hbody : Hit t.length (seqs (.grp 1 (seqs [.seq (.cls K.digit.cls) (.star true (.cls K.digit.cls)), .star false (.cls K.any.cls)]) ::
      (.star true (.grp 2 (seqs [.cls (K.chr '.').cls, .seq (.cls K.digit.cls) (.star true (.cls K.digit.cls))])) :: restL 3)))
      (core ++ sub ++ tailText more) [] ([], c2) := by
    rw [hit_cons_iff, hitk_grp]
    show HitK _ (.seq _ _) _ _ _ _
    rw [hitk_seq]
    refine hitk_first (p := (m ++ (sub ++ tailText more), [])) ?_ ?_
    · have := hit_plus_cls t.length K.digit.cls (ds ++ (m ++ (sub ++ tailText more))) [] (x := d0) (by rw [digit_cls]; exact hd0)
      rw [digit_cls, List.dropWhile_append_of_pos hds] at this
      have e : (m ++ (sub ++ tailText more)).dropWhile isDigit = m ++ (sub ++ tailText more) := by
        cases m with
        | nil =>
          rcases hsub with rfl | ⟨ds, rfl, _⟩
          · exact drop_tail (by decide) more
          · rfl
        | cons y m => rw [List.cons_append, List.dropWhile_cons_of_neg (by rw [hmh y rfl]; decide)]
      rw [e] at this
      have e2 : core ++ sub ++ tailText more = d0 :: (ds ++ (m ++ (sub ++ tailText more))) := by rw [hm]; simp
      rw [e2]; exact this
    · refine hitk_lazy (n := t.length) m (fun x hx => any_cls (hnum x (by rw [hm]; simp [hx]))) ?_ ?_
      · have e : (core ++ sub ++ tailText more).take ((core ++ sub ++ tailText more).length - (sub ++ tailText more).length) = core := by
          rw [List.append_assoc, List.length_append, Nat.add_sub_cancel, List.take_left]
        simp only [e]
        exact hit_cons hc1 hc2
      · intro w' x w'' he
        refine (run_nil_iff ..).mpr ?_
        intro v hv
        have hx1 : isSpace x = false := hnum x (by rw [hm, he]; simp)
        have hx2 : x ≠ '.' := by
          rintro rfl
          exact hdot (by rw [hm, he]; simp)
        obtain ⟨u, k1, k2⟩ := (lang_cons ..).mp hv
        have : u = x :: w'' ++ (sub ++ tailText more) := by
          rw [Lang] at k1
          cases k1 with
          | nil => rfl
          | cons k3 _ _ =>
            rw [Lang] at k3
            obtain ⟨u', k4, _⟩ := (lang_cons ..).mp k3
            obtain ⟨a, k5, k6⟩ := (lang_cls ..).mp k4
            cases k5
            exact absurd (by simpa [K.has] using k6) hx2
        rw [this] at k2
        exact rest_miss _ _ hx1 _ _ k2
  have hh := hit_append (head_hit h t.length) hbody
  rw [interfaceNumber, named_intf h]
  show (do Except.ok ((← matchGroup t _ 1 []).getD []) : Except Err Str) = _
  rw [group_hit hc hh (by decide) (by decide)]
  show Except.ok ((c2.lookup 1).getD []) = _
  rw [hl2 1 (by decide), hl1 1 (by decide)]
  rfl

/-! ## `subinterface_number` -/

/-- What `\.?\d?` can read. -/
def short (s : Str) : Prop := s = ['.'] ∨ (∃ d, isDigit d = true ∧ s = [d]) ∨ ∃ d, isDigit d = true ∧ s = ['.', d]

theorem short_split (m : Str) : ∃ w z, m = w ++ z ∧ (z = [] ∨ short z) ∧
    ∀ w' x w'', w = w' ++ x :: w'' → ¬ short (x :: w'' ++ z) := by
  have long : ∀ {s : Str}, 2 < s.length → ¬ short s := by
    rintro s hl (rfl | ⟨d, _, rfl⟩ | ⟨d, _, rfl⟩) <;> simp at hl
  rcases List.eq_nil_or_concat m with rfl | ⟨m', y, rfl⟩
  · exact ⟨[], [], rfl, .inl rfl, by intro w' x w'' h; simp at h⟩
  · by_cases hy : isDigit y = true
    · rcases List.eq_nil_or_concat m' with rfl | ⟨m'', z, rfl⟩
      · exact ⟨[], [y], rfl, .inr (.inr (.inl ⟨y, hy, rfl⟩)), by intro w' x w'' h; simp at h⟩
      · by_cases hz : z = '.'
        · subst hz
          refine ⟨m'', ['.', y], by simp, .inr (.inr (.inr ⟨y, hy, rfl⟩)), ?_⟩
          intro w' x w'' h
          exact long (by simp)
        · refine ⟨m'' ++ [z], [y], by simp, .inr (.inr (.inl ⟨y, hy, rfl⟩)), ?_⟩
          intro w' x w'' h hs
          rcases List.eq_nil_or_concat w'' with rfl | ⟨w3, x3, rfl⟩
          · have := (List.append_inj' h rfl).2
            cases this
            rcases hs with hs | ⟨d, _, hs⟩ | ⟨d, _, hs⟩
            · cases hs
            · cases hs
            · cases hs; exact hz rfl
          · exact long (by simp) hs
    · by_cases hd : y = '.'
      · subst hd
        refine ⟨m', ['.'], by simp, .inr (.inl rfl), ?_⟩
        intro w' x w'' h hs
        rcases hs with hs | ⟨d, _, hs⟩ | ⟨d, hd, hs⟩
        · simp at hs
        · simp at hs
        · cases w'' with
          | nil => cases hs; exact hy hd
          | cons a w'' => simp at hs
      · refine ⟨m' ++ [y], [], by simp, .inl rfl, ?_⟩
        intro w' x w'' h hs
        rw [List.append_nil] at hs
        rcases List.eq_nil_or_concat w'' with rfl | ⟨w3, x3, rfl⟩
        · have := (List.append_inj' h rfl).2
          cases this
          rcases hs with hs | ⟨d, hd', hs⟩ | ⟨d, hd', hs⟩
          · cases hs; exact hd rfl
          · cases hs; exact hy hd'
          · cases hs
        · have h' : m' ++ [y] = (w' ++ x :: w3) ++ [x3] := by rw [h]; simp
          have := (List.append_inj' h' rfl).2
          cases this
          rcases hs with hs | ⟨d, hd', hs⟩ | ⟨d, hd', hs⟩
          · simp at hs
          · simp at hs
          · cases w3 with
            | nil => cases hs; exact hy hd'
            | cons a w3 => simp at hs

/-- `\.?\d?`. -/
def optsL : List Rgx := [.opt true (.cls (K.chr '.').cls), .opt true (.cls K.digit.cls)]

theorem opts_hit (n : Nat) {z : Str} (hz : z = [] ∨ short z) (more : List Str) (c : Caps) :
    Hit n (seqs optsL) (z ++ tailText more) c (tailText more, c) := by
  have nodot : ∀ s : Str, (∀ x, s.head? = some x → x ≠ '.') → Hit n (.opt true (.cls (K.chr '.').cls)) s c (s, c) := by
    intro s h
    refine miss_opt ((miss_iff ..).mpr fun v hv => ?_)
    obtain ⟨a, rfl, ha⟩ := (lang_cls ..).mp hv
    exact h a rfl (by simpa [K.has] using ha)
  have nodig : ∀ s : Str, (∀ x, s.head? = some x → isDigit x = false) → Hit n (.opt true (.cls K.digit.cls)) s c (s, c) := by
    intro s h
    refine miss_opt ((miss_iff ..).mpr fun v hv => ?_)
    obtain ⟨a, rfl, ha⟩ := (lang_cls ..).mp hv
    have : isDigit a = true := ha
    rw [h a rfl] at this; cases this
  have ht1 : ∀ x, (tailText more).head? = some x → x ≠ '.' := by
    intro x hx
    rcases tail_head more with e | ⟨s, e⟩ <;> rw [e] at hx <;> cases hx
    decide
  have ht2 : ∀ x, (tailText more).head? = some x → isDigit x = false := by
    intro x hx
    rcases tail_head more with e | ⟨s, e⟩ <;> rw [e] at hx <;> cases hx
    decide
  rcases hz with rfl | rfl | ⟨d, hd, rfl⟩ | ⟨d, hd, rfl⟩
  · exact hit_cons (nodot _ ht1) (hit_cons (nodig _ ht2) (hit_nil n _ _))
  · exact hit_cons (hit_opt (hit_cls (k := .chr '.') (by decide))) (hit_cons (nodig _ ht2) (hit_nil n _ _))
  · refine hit_cons (nodot ([d] ++ tailText more) ?_) (hit_cons (hit_opt (hit_cls (k := .digit) hd)) (hit_nil n _ _))
    intro x hx
    cases hx
    rintro rfl
    exact absurd hd (by decide)
  · exact hit_cons (hit_opt (hit_cls (k := .chr '.') (by decide))) (hit_cons (hit_opt (hit_cls (k := .digit) hd)) (hit_nil n _ _))

theorem opts_miss (n g : Nat) {s : Str} (hs : ∀ c ∈ s, isSpace c = false) (hne : s ≠ []) (hn : ¬ short s) (more : List Str) (v : Str) :
    ¬ Lang n (seqs (optsL ++ restL g)) (s ++ tailText more) v := by
  intro h
  obtain ⟨u, h1, h2⟩ := (lang_append ..).mp h
  obtain ⟨u1, h3, h4⟩ := (lang_cons ..).mp h1
  obtain ⟨u2, h5, h6⟩ := (lang_cons ..).mp h4
  rw [lang_nil] at h6
  subst h6
  have rest : ∀ s' : Str, (∀ c ∈ s', isSpace c = false) → u2 = s' ++ tailText more → s' = [] := by
    intro s' hs' he
    cases s' with
    | nil => rfl
    | cons x s' =>
      rw [he] at h2
      exact absurd h2 (rest_miss n g (hs' x (by simp)) _ _)
  rw [Lang] at h3 h5
  obtain ⟨x, s', rfl⟩ := List.exists_cons_of_ne_nil hne
  rcases h3 with rfl | h3
  · rcases h5 with rfl | h5
    · exact absurd (rest (x :: s') hs rfl) (by simp)
    · obtain ⟨a, e, ha⟩ := (lang_cls ..).mp h5
      rw [List.cons_append, List.cons.injEq] at e
      obtain ⟨rfl, e⟩ := e
      obtain rfl := rest s' (fun c hc => hs c (by simp [hc])) e.symm
      exact hn (.inr (.inl ⟨x, ha, rfl⟩))
  · obtain ⟨a, e, ha⟩ := (lang_cls ..).mp h3
    rw [List.cons_append, List.cons.injEq] at e
    obtain ⟨rfl, rfl⟩ := e
    have hx : x = '.' := by simpa [K.has] using ha
    subst hx
    rcases h5 with rfl | h5
    · obtain rfl := rest s' (fun c hc => hs c (by simp [hc])) rfl
      exact hn (.inl rfl)
    · obtain ⟨a, e, ha⟩ := (lang_cls ..).mp h5
      have ha : isDigit a = true := ha
      cases s' with
      | nil =>
        rcases tail_head more with e' | ⟨s, e'⟩
        · rw [e'] at e; cases e
        · rw [e'] at e; cases e
          exact absurd ha (by decide)
      | cons y s' =>
        rw [List.cons_append, List.cons.injEq] at e
        obtain ⟨rfl, e⟩ := e
        obtain rfl := rest s' (fun c hc => hs c (by simp [hc])) e.symm
        exact hn (.inr (.inr ⟨y, ha, rfl⟩))

/-- C85: `subinterface_number` is the number with all its parts. -/
theorem C85_subinterface_number {t ty num : Str} {more : List Str} (h : Named t ty num more) : subinterfaceNumber t = .ok num := by
  have hc : compile "^interface\\s+[A-Za-z\\-]+\\s*(\\d+.*?\\.?\\d?)(\\s\\S+)*\\s*$" = .ok ⟨seqs (.bol :: (headL ++
      (.grp 1 (seqs (.seq (.cls K.digit.cls) (.star true (.cls K.digit.cls)) :: .star false (.cls K.any.cls) :: optsL)) :: restL 2))), 2, []⟩ := by
    decide +kernel
  obtain ⟨hhead, hnum⟩ := h.number
  obtain ⟨d0, ds, m, hm, hd0, hds, hmh⟩ := core_split hhead
  obtain ⟨w, z, hwz, hz, hmiss⟩ := short_split m
  obtain ⟨c2, hc2, hl2⟩ := rest_hit t.length 2 more h.words [(1, num)]
  have hbody : Hit t.length (seqs (.grp 1 (seqs (.seq (.cls K.digit.cls) (.star true (.cls K.digit.cls)) :: .star false (.cls K.any.cls) :: optsL)) :: restL 2))
      (num ++ tailText more) [] ([], c2) := by
    rw [hit_cons_iff, hitk_grp]
    show HitK _ (.seq _ (.seq _ _)) _ _ _ _
    rw [hitk_seq]
    refine hitk_first (p := (m ++ tailText more, [])) ?_ ?_
    · have := hit_plus_cls t.length K.digit.cls (ds ++ (m ++ tailText more)) [] (x := d0) (by rw [digit_cls]; exact hd0)
      rw [digit_cls, List.dropWhile_append_of_pos hds] at this
      have e : (m ++ tailText more).dropWhile isDigit = m ++ tailText more := by
        cases m with
        | nil => exact drop_tail (by decide) more
        | cons y m => rw [List.cons_append, List.dropWhile_cons_of_neg (by rw [hmh y rfl]; decide)]
      rw [e] at this
      have e2 : num ++ tailText more = d0 :: (ds ++ (m ++ tailText more)) := by rw [hm]; simp
      rw [e2]; exact this
    · show HitK t.length (.seq _ (seqs optsL)) _ _ _ _
      rw [hitk_seq, hwz, List.append_assoc]
      refine hitk_lazy (n := t.length) w (fun x hx => any_cls (hnum x (by rw [hm, hwz]; simp [hx]))) ?_ ?_
      · refine head_flatMap (opts_hit t.length hz more []) ?_
        have e : (num ++ tailText more).take ((num ++ tailText more).length - (tailText more).length) = num := by
          rw [List.length_append, Nat.add_sub_cancel, List.take_left]
        simp only [e]
        exact hc2
      · intro w' x w'' he
        have hsp : ∀ c ∈ x :: w'' ++ z, isSpace c = false := by
          intro c hc
          refine hnum c ?_
          rw [hm, hwz, he]
          simp only [List.cons_append, List.mem_cons, List.mem_append] at hc ⊢
          rcases hc with hc | hc | hc <;> simp [hc]
        have hno := opts_miss t.length 2 hsp (by simp) (hmiss w' x w'' he) more
        rw [List.flatMap_eq_nil_iff]
        rintro ⟨u, c⟩ hu
        refine (run_nil_iff ..).mpr fun v hv => ?_
        refine hno v ((lang_append ..).mpr ⟨u, (lang_run t.length (seqs optsL) _ [] u).mp ⟨c, ?_⟩, hv⟩)
        rw [List.append_assoc]; exact hu
  have hh := hit_append (head_hit h t.length) hbody
  rw [subinterfaceNumber, named_intf h]
  show (do Except.ok ((← matchGroup t _ 1 []).getD []) : Except Err Str) = _
  rw [group_hit hc hh (by decide) (by decide)]
  show Except.ok ((c2.lookup 1).getD []) = _
  rw [hl2 1 (by decide)]
  rfl

/-! ## `port_type`, `name`, abbreviations -/

/-- C85: `port_type` is what the second word has of letters and hyphens at its beginning. -/
theorem C85_port_type {t v : Str} (ht : lstrip t = t) (h : Next ["interface"] t v) :
    ∃ ty rest, v = ty ++ rest ∧ (∀ c ∈ ty, isLetter c = true ∨ c = '-') ∧
      (∀ c, rest.head? = some c → isLetter c = false ∧ c ≠ '-') ∧ portType t = .ok ty := by
  obtain ⟨more, hs⟩ := h
  have hi : (splitWs t).head? = some "interface".toList := by rw [hs]; rfl
  have hc : compile "^interface\\s+([A-Za-z\\-]+)" = .ok ⟨seqs (.bol :: ((str "interface".toList (.plus .space .done)).toL ++
      [.grp 1 (seqs [.seq (.cls K.letter.cls) (.star true (.cls K.letter.cls))])])), 1, []⟩ := by decide +kernel
  have hl : K.letter.cls.has = fun c => isLetter c || c == '-' := by funext c; rw [K.cls_has]; rfl
  refine ⟨v.takeWhile (fun c => isLetter c || c == '-'), v.dropWhile (fun c => isLetter c || c == '-'),
    (List.takeWhile_append_dropWhile).symm, ?_, ?_, ?_⟩
  · intro c hc
    have := of_mem_takeWhile hc
    simpa using this
  · intro c hc
    have := head?_dropWhile_not _ _ c hc
    simpa using this
  · rcases second_word ht hi with ⟨hk, hk'⟩ | ⟨w, rest, hk, hw, hrest, hs'⟩
    · rw [hk'] at hs; exact absurd (congrArg List.length hs) (by simp [wd])
    · rw [hs] at hs'
      have e : v = w := by
        have := congrArg (fun l => l[1]?) hs'
        simpa [wd] using this
      subst e
      have hne : t ≠ [] := by rintro rfl; cases hi
      obtain ⟨x, v', rfl⟩ := List.exists_cons_of_ne_nil hw.1
      by_cases hx : (isLetter x || x == '-') = true
      · obtain ⟨w0, rest0, he, hw0, hrest0, hsp0⟩ := split_cons ht hne
        rw [hsp0, List.head?_cons, Option.some.injEq] at hi
        subst hi
        have e5 : skip 1 t = lstrip rest0 := by
          rw [skip, skip, he, List.dropWhile_append_of_pos (fun c hc => by simp [nsp, hw0.2 c hc])]
          congr 1
          cases rest0 with
          | nil => rfl
          | cons z rest0 => rw [List.dropWhile_cons_of_neg (by simp [nsp, hrest0 z rfl])]
        have hr0 : rest0 ≠ [] := by
          rintro rfl
          rw [e5] at hk; cases hk
        have h1 : Hit t.length (seqs ((str "interface".toList (.plus .space .done)).toL ++
            [.grp 1 (seqs [.seq (.cls K.letter.cls) (.star true (.cls K.letter.cls))])])) t []
            ((v' ++ rest).dropWhile (fun c => isLetter c || c == '-'),
              [(1, (x :: v').takeWhile (fun c => isLetter c || c == '-'))]) := by
          refine hit_append (q := (x :: v' ++ rest, [])) (hit_prog _ (by decide) ?_) ?_
          · rw [he, det_str, if_pos (List.prefix_append _ _), List.drop_left, det_sp _ hrest0, if_neg hr0, ← e5, hk, Prog.det]
          · have h2 := hit_grp (k := 1) (hit_cons (hit_plus_cls t.length K.letter.cls (v' ++ rest) [] (x := x) (by rw [hl]; exact hx))
              (hit_nil t.length _ _))
            rw [hl] at h2
            have e6 : (x :: (v' ++ rest)).take ((x :: (v' ++ rest)).length - ((v' ++ rest).dropWhile (fun c => isLetter c || c == '-')).length) =
                (x :: v').takeWhile (fun c => isLetter c || c == '-') := by
              have e7 : (v' ++ rest).dropWhile (fun c => isLetter c || c == '-') =
                  (x :: v').dropWhile (fun c => isLetter c || c == '-') ++ rest := by
                rw [List.dropWhile_cons_of_pos (p := fun c => isLetter c || c == '-') hx, List.dropWhile_append]
                split
                · rename_i hemp
                  rw [List.isEmpty_iff] at hemp
                  rw [hemp, List.nil_append]
                  refine dropWhile_of_head fun a ha => ?_
                  cases hh : (isLetter a || a == '-') with
                  | false => rfl
                  | true =>
                    have := letter_not_space hh
                    rw [hrest a ha] at this; cases this
                · rfl
              have e8 : x :: (v' ++ rest) = (x :: v').takeWhile (fun c => isLetter c || c == '-') ++
                  ((x :: v').dropWhile (fun c => isLetter c || c == '-') ++ rest) := by
                rw [← List.append_assoc, List.takeWhile_append_dropWhile]; rfl
              rw [e7, e8, List.length_append, Nat.add_sub_cancel, List.take_left]
            rw [e6] at h2
            exact hit_cons h2 (hit_nil _ _ _)
        rw [portType, group_hit hc h1 (by decide) (by decide)]
        rfl
      · rw [List.takeWhile_cons_of_neg (p := fun c => isLetter c || c == '-') hx]
        have hn : search ⟨seqs (.bol :: ((str "interface".toList (.plus .space .done)).toL ++
            [.grp 1 (seqs [.seq (.cls K.letter.cls) (.star true (.cls K.letter.cls))])])), 1, []⟩ t = none := by
          rw [← Option.not_isSome_iff_eq_none, search_lang]
          have hplus : ∀ u v, Lang t.length (seqs [.seq (.cls K.letter.cls) (.star true (.cls K.letter.cls))]) u v →
              ∃ y s, u = y :: s ∧ (isLetter y || y == '-') = true := by
            intro u v hv
            obtain ⟨u', h1, _⟩ := (lang_cons ..).mp hv
            obtain ⟨w, rfl, hw, hw'⟩ := (lang_plus ..).mp h1
            obtain ⟨y, w', rfl⟩ := List.exists_cons_of_ne_nil hw
            exact ⟨y, w' ++ u', rfl, hw' y (by simp)⟩
          rintro ⟨v, hv⟩
          rw [lead_grp (by decide) (fun v h => by obtain ⟨y, s, h, _⟩ := hplus _ _ h; cases h)
            (fun y s v hy h => by
              obtain ⟨y', s', h, hy'⟩ := hplus _ _ h
              cases h
              have := letter_not_space hy'
              rw [hy] at this; cases this) ht] at hv
          obtain ⟨y, s, h1, h2⟩ := hplus _ _ hv.2
          rw [hk, List.cons_append, List.cons.injEq] at h1
          rw [h1.1] at hx
          exact hx h2
        rw [portType, matchGroup, reSearch, hc]
        simp only [hn]
        rfl

/-- The words of such a line. -/
theorem tail_words (more : List Str) (hw : ∀ w ∈ more, w ≠ [] ∧ ∀ c ∈ w, isSpace c = false) : splitWs (tailText more) = more := by
  induction more with
  | nil => rfl
  | cons w more ih =>
    have e : tailText (w :: more) = [' '] ++ (w ++ tailText more) := rfl
    rw [e, splitWs_spaces _ _ (by decide), splitWs_word_rest (hw w (by simp)), ih (fun w hw' => hw w (by simp [hw']))]
    intro c hc
    rcases tail_head more with h | ⟨s, h⟩ <;> rw [h] at hc <;> cases hc
    decide

theorem named_split {t ty num : Str} {more : List Str} (h : Named t ty num more) :
    lstrip t = t ∧ (splitWs t = "interface".toList :: (ty ++ num) :: more ∨ splitWs t = "interface".toList :: ty :: num :: more) := by
  obtain ⟨gap, hg, rfl⟩ := h.text
  obtain ⟨hne, hty⟩ := h.type
  obtain ⟨⟨d, hd, hdd⟩, hnum⟩ := h.number
  have hnn : num ≠ [] := by rintro rfl; cases hd
  have hsp : ∀ c ∈ ty, isSpace c = false := by
    intro c hc
    refine letter_not_space ?_
    rcases hty c hc with h | h
    · rw [h]; rfl
    · rw [h]; decide
  have hth : ∀ c, (tailText more).head? = some c → isSpace c = true := by
    intro c hc
    rcases tail_head more with h | ⟨s, h⟩ <;> rw [h] at hc <;> cases hc
    decide
  refine ⟨rfl, ?_⟩
  have e0 : splitWs ("interface ".toList ++ (ty ++ (gap ++ (num ++ tailText more)))) =
      "interface".toList :: splitWs (ty ++ (gap ++ (num ++ tailText more))) :=
    splitWs_word_space (w := "interface".toList) (by decide) (x := ' ') (by decide) _
  rw [e0]
  cases gap with
  | nil =>
    left
    rw [List.nil_append, ← List.append_assoc, splitWs_word_rest ⟨by simp [hne], by
      intro c hc
      rcases List.mem_append.mp hc with hc | hc
      · exact hsp c hc
      · exact hnum c hc⟩ hth, tail_words more h.words]
  | cons y gap =>
    right
    rw [List.cons_append, splitWs_word_space ⟨hne, hsp⟩ (hg y (by simp)), splitWs_spaces _ _ (fun c hc => hg c (by simp [hc])),
      splitWs_word_rest ⟨hnn, hnum⟩ hth, tail_words more h.words]

/-- C85: for a named interface, `port_type` is the type. -/
theorem C85_type {t ty num : Str} {more : List Str} (h : Named t ty num more) : portType t = .ok ty := by
  obtain ⟨ht, hs⟩ := named_split h
  obtain ⟨hne, hty⟩ := h.type
  obtain ⟨⟨d, hd, hdd⟩, hnum⟩ := h.number
  have hdl : isLetter d = false ∧ d ≠ '-' := by
    constructor
    · cases hh : isLetter d with
      | false => rfl
      | true =>
        have := isLetter_not_digit hh
        rw [hdd] at this; cases this
    · rintro rfl; exact absurd hdd (by decide)
  have huniq : ∀ {a b rest : Str}, (∀ c ∈ a, isLetter c = true ∨ c = '-') → (∀ c ∈ b, isLetter c = true ∨ c = '-') →
      ∀ {rest' : Str}, a ++ rest = b ++ rest' → (∀ c, rest.head? = some c → isLetter c = false ∧ c ≠ '-') →
      (∀ c, rest'.head? = some c → isLetter c = false ∧ c ≠ '-') → a = b := by
    intro a
    induction a with
    | nil =>
      intro b rest _ hb rest' he h1 _
      cases b with
      | nil => rfl
      | cons y b =>
        have := h1 y (by rw [List.nil_append] at he; rw [he]; rfl)
        rcases hb y (by simp) with h | h
        · rw [this.1] at h; cases h
        · exact absurd h this.2
    | cons x a ih =>
      intro b rest ha hb rest' he h1 h2
      cases b with
      | nil =>
        have := h2 x (by rw [List.nil_append] at he; rw [← he]; rfl)
        rcases ha x (by simp) with h | h
        · rw [this.1] at h; cases h
        · exact absurd h this.2
      | cons y b =>
        rw [List.cons_append, List.cons_append, List.cons.injEq] at he
        rw [he.1, ih (fun c hc => ha c (by simp [hc])) (fun c hc => hb c (by simp [hc])) he.2 h1 h2]
  rcases hs with hs | hs
  · obtain ⟨ty', rest, h1, h2, h3, h4⟩ := C85_port_type ht (v := ty ++ num) ⟨more, hs⟩
    rw [h4, ← huniq hty h2 h1 (by intro c hc; rw [hd] at hc; cases hc; exact hdl) h3]
  · obtain ⟨ty', rest, h1, h2, h3, h4⟩ := C85_port_type ht (v := ty) ⟨num :: more, hs⟩
    rw [h4, ← huniq (rest := []) hty h2 (by rw [List.append_nil]; exact h1) (by simp) h3]

/-- C85: `is_abbreviated_as`, without regard to case: some letters of the type from its beginning,
at most one blank, and the whole number. -/
theorem C85_abbreviated {t ty num : Str} {more : List Str} (h : Named t ty num more) (v : Str) :
    ∃ b, isAbbreviatedAs t v = .ok b ∧
      (b = true ↔ ∃ a sep, a ≠ [] ∧ a <+: ty.map lowerChar ∧ (sep = [] ∨ sep = [' ']) ∧ v.map lowerChar = a ++ sep ++ num) := by
  refine ⟨_, by rw [isAbbreviatedAs, abbvs, C85_type h]; show (do Except.ok ((← (do
    let n ← subinterfaceNumber t
    Except.ok ([[], [' ']].flatMap (fun sep => (List.range (ty.map lowerChar).length).map (fun k => (ty.map lowerChar).take (k + 1) ++ sep ++ n))))).contains
      (v.map lowerChar)) : Except Err Bool) = _; rw [C85_subinterface_number h]; rfl, ?_⟩
  rw [List.contains_iff_mem, List.mem_flatMap]
  constructor
  · rintro ⟨sep, hsep, hm⟩
    obtain ⟨k, hk, he⟩ := List.mem_map.mp hm
    refine ⟨(ty.map lowerChar).take (k + 1), sep, ?_, List.take_prefix _ _, by simpa using hsep, he.symm⟩
    intro e
    have := congrArg List.length e
    rw [List.mem_range] at hk
    rw [List.length_take, List.length_nil] at this
    omega
  · rintro ⟨a, sep, ha, hp, hsep, he⟩
    refine ⟨sep, by simpa using hsep, List.mem_map.mpr ⟨a.length - 1, ?_, ?_⟩⟩
    · have h1 := hp.length_le
      have h2 := List.length_pos_iff.mpr ha
      rw [List.mem_range]; omega
    · have h2 := List.length_pos_iff.mpr ha
      rw [he, Nat.sub_add_cancel h2, ← List.prefix_iff_eq_take.mp hp]

/-- C85: `name` is the rest of the line, with single blanks. -/
theorem C85_name {t ty num : Str} {more : List Str} (h : Named t ty num more) :
    intfName t = join [' '] ((ty ++ num) :: more) ∨ intfName t = join [' '] (ty :: num :: more) := by
  rcases (named_split h).2 with hs | hs
  · left; rw [intfName, hs]; rfl
  · right; rw [intfName, hs]; rfl

/-! ## The interface object -/

open Intf in
/-- C85: the interface object, its port and the list of its numbers, for an interface without a class. -/
theorem C85_object {i : Intf} (h : Intf.Spec.Valid i) (hc : i.cls = none) {gap : Str} (hg : ∀ c ∈ gap, isSpace c = true)
    (hp : i.pfx ≠ [] ∧ ∀ c ∈ i.pfx, isSpace c = false) {t : Str}
    (ht : t = "interface ".toList ++ (i.pfx ++ (gap ++ Intf.Spec.body i))) :
    interfaceObject t = .ok i ∧ intfPort t = .ok i.port ∧
      ordinalList t = .ok [ordOr i.slot, ordOr i.card, i.port, ordOr i.sub, ordOr i.chan, -1] := by
  have hb : (∃ d, (Intf.Spec.body i).head? = some d ∧ isDigit d = true) ∧ ∀ c ∈ Intf.Spec.body i, isSpace c = false := by
    have hd : ∀ n c, c ∈ natStr n → isSpace c = false := fun n c hc => digit_not_space (natStr_digits n c hc)
    have hh : ∀ (n : Nat) (s : Str), ∃ d, (natStr n ++ s).head? = some d ∧ isDigit d = true := by
      intro n s
      obtain ⟨x, w, e⟩ := List.exists_cons_of_ne_nil (natStr_ne_nil n)
      exact ⟨x, by rw [e]; rfl, natStr_digits n x (by rw [e]; simp)⟩
    have hj : ∀ (l : List Nat), ∀ c ∈ join ['/'] (l.map natStr), isSpace c = false := by
      intro l
      induction l with
      | nil => intro c hc; cases hc
      | cons n l ih =>
        cases l with
        | nil => exact hd n
        | cons m l =>
          intro c hc
          rw [List.map_cons, List.map_cons, join, List.mem_append, List.mem_append] at hc
          rcases hc with (hc | hc) | hc
          · exact hd n c hc
          · rw [List.mem_singleton.mp hc]; decide
          · exact ih c hc
    have hs : ∀ (x : Char) (o : Option Nat), isSpace x = false → ∀ c ∈ Intf.Spec.signed x o, isSpace c = false := by
      intro x o hx c hc
      cases o with
      | none => cases hc
      | some n =>
        rcases List.mem_cons.mp hc with rfl | hc
        · exact hx
        · exact hd n c hc
    constructor
    · rw [Intf.Spec.body, Intf.Spec.numbers, List.append_assoc, List.append_assoc]
      generalize Intf.Spec.signed '.' i.sub ++ (Intf.Spec.signed ':' i.chan ++ Intf.Spec.word i.cls) = s
      have : ∃ n l, i.slot.toList ++ i.card.toList ++ [i.port] = n :: l := by
        cases i.slot <;> cases i.card <;> exact ⟨_, _, rfl⟩
      obtain ⟨n, l, e⟩ := this
      rw [e]
      cases l with
      | nil => exact hh n s
      | cons m l => rw [List.map_cons, List.map_cons, join, List.append_assoc, List.append_assoc]; exact hh n _
    · intro c hm
      rw [Intf.Spec.body, hc, Intf.Spec.word, List.append_nil, List.mem_append, List.mem_append] at hm
      rcases hm with (hm | hm) | hm
      · exact hj _ c hm
      · exact hs '.' _ (by decide) c hm
      · exact hs ':' _ (by decide) c hm
  have hn : Named t i.pfx (Intf.Spec.body i) [] := by
    refine ⟨⟨gap, hg, by rw [ht]; simp [Spec.tailText]⟩, ⟨hp.1, fun c hc => ?_⟩, hb, by simp⟩
    rcases h.pfx c hc with h | h | h
    · exact .inl h
    · exact .inr h
    · rw [hp.2 c hc] at h; cases h
  have ho : interfaceObject t = .ok i := by
    rw [interfaceObject, named_intf hn]
    show Intf.parse ((splitWs t).drop 1).flatten = _
    have e : ((splitWs t).drop 1).flatten = [] ++ i.pfx ++ [] ++ Intf.Spec.body i ++ [] := by
      rcases (named_split hn).2 with hs | hs <;> rw [hs] <;> simp
    rw [e]
    exact Intf.C14_parse h (by simp [Intf.Spec.White]) (by simp [Intf.Spec.White]) (by simp [Intf.Spec.White])
  refine ⟨ho, ?_, ?_⟩
  · rw [intfPort, ho]; rfl
  · rw [ordinalList, named_intf hn]
    show (do let o ← interfaceObject t; Except.ok _) = _
    rw [ho]; rfl

/-- C85: a line which is not an interface line has no interface object. -/
theorem C85_no_object {t : Str} (ht : Line t) (h : ¬∃ c s, t = "interface ".toList ++ c :: s ∧ c ≠ ' ') :
    interfaceObject t = .error .invalidInterface ∧ ordinalList t = .ok [] := by
  have hi : isIntf t = .ok false := by
    obtain ⟨b, h1, h2⟩ := C84_is_intf ht
    cases b with
    | false => exact h1
    | true => exact absurd (h2.mp rfl) h
  constructor
  · rw [interfaceObject, hi]; rfl
  · rw [ordinalList, hi]; rfl

/-! ## A concrete line -/

def exNamed : Str := "interface Serial 1/0.25 point-to-point".toList

theorem exNamed_named : Named exNamed "Serial".toList "1/0.25".toList ["point-to-point".toList] :=
  ⟨⟨" ".toList, by decide, rfl⟩, ⟨by decide, by decide⟩, ⟨⟨'1', rfl, rfl⟩, by decide⟩, by decide⟩

example : interfaceNumber exNamed = .ok "1/0".toList :=
  C85_interface_number (sub := ".25".toList) exNamed_named (by decide) (by decide) (.inr ⟨"25".toList, rfl, by decide, by decide⟩)
example : subinterfaceNumber exNamed = .ok "1/0.25".toList := C85_subinterface_number exNamed_named
example : portType exNamed = .ok "Serial".toList := C85_type exNamed_named
example : isAbbreviatedAs exNamed "SeR1/0.25".toList = .ok true := by decide +kernel
example : isAbbreviatedAs exNamed "s 1/0.25".toList = .ok true := by decide +kernel
example : isAbbreviatedAs exNamed "Serail1/0.25".toList = .ok false := by decide +kernel
example : intfName exNamed = "Serial 1/0.25 point-to-point".toList := by decide +kernel

def exIntf : Intf.Intf :=
  { pfx := "Serial".toList, sep := some '/', slot := some 1, card := none, port := 0, sub := some 25, chan := none, cls := none }

example : interfaceObject "interface Serial  1/0.25".toList = .ok exIntf ∧
    ordinalList "interface Serial  1/0.25".toList = .ok [1, -1, 0, 25, -1, -1] := by
  have hv : Intf.Spec.Valid exIntf := by
    constructor
    · intro c hc
      exact .inl ((show ∀ c ∈ exIntf.pfx, isLetter c = true by decide) c hc)
    · intro c hc; cases hc; decide
    · intro c hc; cases hc; decide
    · rfl
    · intro h; cases h
    · intro w h; cases h
  obtain ⟨h1, _, h3⟩ := C85_object hv rfl (gap := "  ".toList) (by decide) (by decide) (t := "interface Serial  1/0.25".toList) rfl
  exact ⟨h1, h3⟩

/-! ## What the names lose -/

/-- C86: `interface_object` joins the words of the name without a blank, so that the class of
`Serial 1/0.25 point-to-point` is lost. -/
theorem C86_class_fails : interfaceObject exNamed = .ok exIntf := by decide +kernel

/-- C86: with two blanks before the class, the number keeps a blank. -/
theorem C86_blank_fails : subinterfaceNumber "interface Serial1/0.25  point-to-point".toList = .ok "1/0.25 ".toList ∧
    interfaceNumber "interface Serial1/0.25  point-to-point".toList = .ok "1/0.25 ".toList := by decide +kernel

/-- C86: the interface number of a channel keeps the subinterface. -/
theorem C86_channel_fails : interfaceNumber "interface Serial1/0.25:3".toList = .ok "1/0.25:3".toList := by decide +kernel

end Cisco

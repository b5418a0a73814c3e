import Verif.Query.Text
import Verif.Query.TextSpec
import Verif.Query.Props
import Verif.Re.Caps

/-! # How a simple pattern is compiled and what it matches -/

namespace Query

open Py Conf Re

/-! ## Compiling -/

def Spec.Atom.cls : Spec.Atom → Cls
  | .ch c => { items := [.chr c] }
  | .esc c => { items := [.chr c] }
  | .dot => { items := [.chr '\n'], neg := true }
  | .space => { items := [.space] }
  | .nonspace => { items := [.nonspace] }
  | .digit => { items := [.digit] }
  | .nondigit => { items := [.nondigit] }

def Spec.Quant.rgx (a : Rgx) : Spec.Quant → Rgx
  | .one => a
  | .many => .seq a (.star true a)
  | .any => .star true a
  | .maybe => .opt true a

def Spec.Piece.rgx (p : Spec.Piece) : Rgx := p.quant.rgx (.cls p.atom.cls)

/-- What may come behind a piece. -/
def Next (s : Str) : Prop := ∀ c, s.head? = some c → c ≠ '*' ∧ c ≠ '+' ∧ c ≠ '?' ∧ c ≠ '{'

theorem quantify_next (a : Rgx) {s : Str} (h : Next s) : quantify a s = .ok (a, s) := by
  cases s with
  | nil => rfl
  | cons c s =>
    obtain ⟨h1, h2, h3, h4⟩ := h c rfl
    simp only [quantify]
    split <;> simp_all

theorem quantify_text (k : Cls) (q : Spec.Quant) {s : Str} (h : Next s) :
    quantify (.cls k) (q.text ++ s) = .ok (q.rgx (.cls k), s) := by
  cases q with
  | one => exact quantify_next _ h
  | many =>
    cases s with
    | nil => rfl
    | cons c s =>
      obtain ⟨h1, h2, h3, h4⟩ := h c rfl
      simp only [Spec.Quant.text, List.cons_append, List.nil_append, quantify]
      split <;> simp_all [times, seqs, Spec.Quant.rgx]
  | any =>
    cases s with
    | nil => rfl
    | cons c s =>
      obtain ⟨h1, h2, h3, h4⟩ := h c rfl
      simp only [Spec.Quant.text, List.cons_append, List.nil_append, quantify]
      split <;> simp_all [times, seqs, Spec.Quant.rgx]
  | maybe =>
    cases s with
    | nil => rfl
    | cons c s =>
      obtain ⟨h1, h2, h3, h4⟩ := h c rfl
      simp only [Spec.Quant.text, List.cons_append, List.nil_append, quantify]
      split <;> simp_all [Spec.Quant.rgx]

theorem parse_lit (f : Nat) {c : Char} (hc : c ∉ Spec.special) (s : Str) (st : St) (as cur : List Rgx) :
    parseAlt {} (f + 1) (c :: s) st as cur =
      (quantify (.cls { items := [.chr c] }) s >>= fun p => parseAlt {} f p.2 st as (p.1 :: cur)) := by
  simp only [Spec.special, List.mem_cons, List.not_mem_nil, or_false, not_or] at hc
  rw [parseAlt.eq_def]
  simp only
  split <;> simp_all

theorem parse_esc (f : Nat) {c : Char} {i : Item} (hc : escapeItem c = .ok i) (s : Str) (st : St) (as cur : List Rgx) :
    parseAlt {} (f + 1) ('\\' :: c :: s) st as cur =
      (quantify (.cls { items := [i] }) s >>= fun p => parseAlt {} f p.2 st as (p.1 :: cur)) := by
  rw [parseAlt.eq_def]
  simp only [hc]
  rfl

theorem parse_dot (f : Nat) (s : Str) (st : St) (as cur : List Rgx) :
    parseAlt {} (f + 1) ('.' :: s) st as cur =
      (quantify (.cls { items := [.chr '\n'], neg := true }) s >>= fun p => parseAlt {} f p.2 st as (p.1 :: cur)) := by
  rw [parseAlt.eq_def]
  rfl

theorem escape_other {c : Char} (h1 : isLetter c = false) (h2 : isDigit c = false) : escapeItem c = .ok (.chr c) := by
  have hne : ∀ d : Char, isLetter d = true → c ≠ d := by
    rintro d hd rfl
    rw [h1] at hd; cases hd
  rw [escapeItem, if_neg, if_neg, if_neg, if_neg, if_neg, if_neg, if_neg, if_neg, if_neg, if_neg]
  all_goals first | (rw [h1, h2]; decide) | (simp only [beq_iff_eq]; exact hne _ (by decide))

/-- A piece is compiled in one step. -/
theorem parse_piece (f : Nat) {p : Spec.Piece} (hp : p.atom.Ok) {s : Str} (hs : Next s) (st : St) (as cur : List Rgx) :
    parseAlt {} (f + 1) (p.text ++ s) st as cur = parseAlt {} f s st as (p.rgx :: cur) := by
  obtain ⟨a, q⟩ := p
  cases a with
  | ch c =>
    rw [show (Spec.Piece.text ⟨.ch c, q⟩ ++ s) = c :: (q.text ++ s) from rfl, parse_lit f hp, quantify_text _ _ hs]
    rfl
  | esc c =>
    rw [show (Spec.Piece.text ⟨.esc c, q⟩ ++ s) = '\\' :: c :: (q.text ++ s) from rfl, parse_esc f (escape_other hp.1 hp.2),
      quantify_text _ _ hs]
    rfl
  | dot =>
    rw [show (Spec.Piece.text ⟨.dot, q⟩ ++ s) = '.' :: (q.text ++ s) from rfl, parse_dot, quantify_text _ _ hs]
    rfl
  | space =>
    rw [show (Spec.Piece.text ⟨.space, q⟩ ++ s) = '\\' :: 's' :: (q.text ++ s) from rfl, parse_esc f (i := .space) rfl,
      quantify_text _ _ hs]
    rfl
  | nonspace =>
    rw [show (Spec.Piece.text ⟨.nonspace, q⟩ ++ s) = '\\' :: 'S' :: (q.text ++ s) from rfl, parse_esc f (i := .nonspace) rfl,
      quantify_text _ _ hs]
    rfl
  | digit =>
    rw [show (Spec.Piece.text ⟨.digit, q⟩ ++ s) = '\\' :: 'd' :: (q.text ++ s) from rfl, parse_esc f (i := .digit) rfl,
      quantify_text _ _ hs]
    rfl
  | nondigit =>
    rw [show (Spec.Piece.text ⟨.nondigit, q⟩ ++ s) = '\\' :: 'D' :: (q.text ++ s) from rfl, parse_esc f (i := .nondigit) rfl,
      quantify_text _ _ hs]
    rfl

theorem next_piece {p : Spec.Piece} (hp : p.atom.Ok) (s : Str) : Next (p.text ++ s) := by
  obtain ⟨a, q⟩ := p
  intro c hc
  cases a with
  | ch d =>
    have : c = d := by simpa [Spec.Piece.text, Spec.Atom.text] using hc.symm
    subst this
    simp only [Spec.Atom.Ok, Spec.special, List.mem_cons, List.not_mem_nil, or_false, not_or] at hp
    exact ⟨hp.2.2.2.2.2.2.1, hp.2.2.2.2.2.2.2.1, hp.2.2.2.2.2.1, hp.2.2.2.2.2.2.2.2.2.2.2⟩
  | _ =>
    have : c = '\\' ∨ c = '.' := by
      simp [Spec.Piece.text, Spec.Atom.text] at hc
      simp [← hc]
    rcases this with rfl | rfl <;> decide

theorem next_pieces {ps : List Spec.Piece} (hp : ∀ q ∈ ps, q.atom.Ok) {s : Str} (hs : Next s) :
    Next (ps.flatMap Spec.Piece.text ++ s) := by
  cases ps with
  | nil => exact hs
  | cons p ps => rw [List.flatMap_cons, List.append_assoc]; exact next_piece (hp p (by simp)) _

theorem parse_pieces (ps : List Spec.Piece) (hp : ∀ q ∈ ps, q.atom.Ok) (f : Nat) {s : Str} (hs : Next s) (st : St)
    (as cur : List Rgx) :
    parseAlt {} (f + ps.length) (ps.flatMap Spec.Piece.text ++ s) st as cur =
      parseAlt {} f s st as ((ps.map Spec.Piece.rgx).reverse ++ cur) := by
  induction ps generalizing cur with
  | nil => rfl
  | cons p ps ih =>
    rw [List.flatMap_cons, List.append_assoc, List.length_cons, ← Nat.add_assoc,
      parse_piece _ (hp p (by simp)) (next_pieces (fun q hq => hp q (by simp [hq])) hs),
      ih (fun q hq => hp q (by simp [hq]))]
    simp

/-- A `^` in front. -/
theorem parse_bol (f : Nat) {s : Str} (hs : Next s) (st : St) (as cur : List Rgx) :
    parseAlt {} (f + 1) ('^' :: s) st as cur = parseAlt {} f s st as (.bol :: cur) := by
  rw [parseAlt.eq_def]
  simp only [quantify_next _ hs]
  rfl

/-- A `$`. -/
theorem parse_eol (f : Nat) {s : Str} (hs : Next s) (st : St) (as cur : List Rgx) :
    parseAlt {} (f + 1) ('$' :: s) st as cur = parseAlt {} f s st as (.eol :: cur) := by
  rw [parseAlt.eq_def]
  simp only [quantify_next _ hs]
  rfl

theorem parse_end (f : Nat) (st : St) (cur : List Rgx) :
    parseAlt {} (f + 1) [] st [] cur = .ok (seqs cur.reverse, [], st) := by
  rw [parseAlt.eq_def]
  rfl

theorem length_pieces (ps : List Spec.Piece) : ps.length ≤ (ps.flatMap Spec.Piece.text).length := by
  induction ps with
  | nil => simp
  | cons p ps ih =>
    rw [List.flatMap_cons, List.length_append, List.length_cons]
    have : 1 ≤ p.text.length := by
      obtain ⟨a, q⟩ := p
      cases a <;> simp [Spec.Piece.text, Spec.Atom.text] <;> omega
    omega

/-- What `k` times `^`, pieces and `m` times `$` are compiled to. -/
def anchored (k : Nat) (ps : List Spec.Piece) (m : Nat) : List Rgx :=
  List.replicate k .bol ++ (ps.map Spec.Piece.rgx ++ List.replicate m .eol)

theorem parse_bols (k f : Nat) {s : Str} (hs : Next s) (st : St) (as cur : List Rgx) :
    parseAlt {} (f + k) (List.replicate k '^' ++ s) st as cur = parseAlt {} f s st as (List.replicate k .bol ++ cur) := by
  induction k generalizing cur with
  | zero => rfl
  | succ k ih =>
    have hn : Next (List.replicate k '^' ++ s) := by
      cases k with
      | zero => exact hs
      | succ k => intro c hc; cases hc; decide
    rw [List.replicate_succ, List.cons_append, ← Nat.add_assoc, parse_bol _ hn, ih, List.replicate_succ', List.append_assoc]
    rfl

theorem parse_eols (m f : Nat) (st : St) (as cur : List Rgx) :
    parseAlt {} (f + m) (List.replicate m '$') st as cur = parseAlt {} f [] st as (List.replicate m .eol ++ cur) := by
  induction m generalizing cur with
  | zero => rfl
  | succ m ih =>
    have hn : Next (List.replicate m '$') := by
      cases m with
      | zero => intro c hc; cases hc
      | succ k => intro c hc; cases hc; decide
    rw [List.replicate_succ, ← Nat.add_assoc, parse_eol _ hn, ih, List.replicate_succ', List.append_assoc]
    rfl

theorem next_eols (m : Nat) : Next (List.replicate m '$') := by
  cases m with
  | zero => intro c hc; cases hc
  | succ k => intro c hc; cases hc; decide

theorem compile_anchored (k m : Nat) {ps : List Spec.Piece} (hp : ∀ q ∈ ps, q.atom.Ok) :
    compileL (List.replicate k '^' ++ (ps.flatMap Spec.Piece.text ++ List.replicate m '$')) =
      .ok ⟨seqs (anchored k ps m), 0, []⟩ := by
  have hl := length_pieces ps
  obtain ⟨x, hx⟩ : ∃ x, 2 * (List.replicate k '^' ++ (ps.flatMap Spec.Piece.text ++ List.replicate m '$')).length + 2
      = x + 1 + m + ps.length + k := by
    refine ⟨2 * (List.replicate k '^' ++ (ps.flatMap Spec.Piece.text ++ List.replicate m '$')).length + 1 - m - ps.length - k, ?_⟩
    simp only [List.length_append, List.length_replicate]
    omega
  rw [compileL]
  simp only [Bool.false_eq_true, if_false]
  rw [hx, parse_bols _ _ (next_pieces hp (next_eols m)), parse_pieces ps hp _ (next_eols m), parse_eols, parse_end]
  simp [anchored]

/-- A pattern in parentheses. -/
theorem compile_group {ps : List Spec.Piece} (hp : ∀ q ∈ ps, q.atom.Ok) :
    compileL ('(' :: ps.flatMap Spec.Piece.text ++ [')']) = .ok ⟨.grp 1 (seqs (ps.map Spec.Piece.rgx)), 1, []⟩ := by
  have hl := length_pieces ps
  have hn : Next [')'] := by intro c hc; cases hc; decide
  obtain ⟨x, hx⟩ : ∃ x, 2 * ('(' :: ps.flatMap Spec.Piece.text ++ [')']).length + 2 = x + 1 + 1 + ps.length + 1 := by
    refine ⟨2 * ('(' :: ps.flatMap Spec.Piece.text ++ [')']).length - 1 - ps.length, ?_⟩
    simp only [List.length_append, List.length_cons, List.length_nil]
    omega
  have hq : ∀ s', ps.flatMap Spec.Piece.text ++ [')'] ≠ '?' :: s' := by
    intro s' e
    have := (next_pieces hp hn) '?' (by rw [e]; rfl)
    exact absurd rfl this.2.2.1
  have hh : header (ps.flatMap Spec.Piece.text ++ [')']) {} = .ok (some 1, ps.flatMap Spec.Piece.text ++ [')'], { n := 1 }) := by
    generalize ps.flatMap Spec.Piece.text ++ [')'] = s at hq
    rw [header.eq_def]
    split
    · exact absurd rfl (hq _)
    · exact absurd rfl (hq _)
    · exact absurd rfl (hq _)
    · rfl
  have hin : parseAlt {} (x + 1 + 1 + ps.length) (ps.flatMap Spec.Piece.text ++ [')']) { n := 1 } [] [] =
      .ok (seqs (ps.map Spec.Piece.rgx), [')'], { n := 1 }) := by
    rw [parse_pieces ps hp _ hn, parseAlt.eq_def]
    simp [alts]
  rw [compileL]
  simp only [Bool.false_eq_true, if_false]
  rw [hx]
  have : parseAlt {} (x + 1 + 1 + ps.length + 1) ('(' :: ps.flatMap Spec.Piece.text ++ [')']) {} [] [] =
      .ok (.grp 1 (seqs (ps.map Spec.Piece.rgx)), [], { n := 1 }) := by
    generalize hs : ps.flatMap Spec.Piece.text ++ [')'] = s at hq hh hin
    rw [List.cons_append, hs, parseAlt.eq_def]
    simp only
    split
    all_goals first
      | (rename_i e; simp at e; done)
      | (rename_i e; obtain ⟨_, rfl⟩ := List.cons.inj e; exact absurd rfl (hq _))
      | skip
    · rename_i e
      obtain ⟨_, rfl⟩ := List.cons.inj e
      simp only [hh, hin, bind, Except.bind, quantify]
      rw [show x + 1 + 1 + ps.length = (x + 1 + ps.length) + 1 by omega, parse_end]
      rfl
    · rename_i e
      obtain ⟨rfl, _⟩ := List.cons.inj e
      exact absurd rfl (by assumption)
  rw [this]

/-! ## Matching -/

theorem atom_has (a : Spec.Atom) (c : Char) : a.cls.has c = true ↔ a.Has c := by
  cases a <;> simp [Spec.Atom.cls, Spec.Atom.Has, Cls.has, Item.has]

theorem lang_piece (n : Nat) (p : Spec.Piece) (u v : Str) : Lang n p.rgx u v ↔ ∃ w, u = w ++ v ∧ p.Reads w := by
  obtain ⟨a, q⟩ := p
  have hone : ∀ u v, Lang n (.cls a.cls) u v ↔ ∃ c, u = c :: v ∧ a.Has c := by
    intro u v
    rw [Lang]
    simp only [atom_has]
  have hstar : ∀ u v, Lang n (.star true (.cls a.cls)) u v ↔ ∃ w, u = w ++ v ∧ ∀ c ∈ w, a.Has c := by
    intro u v
    rw [lang_star]
    simp only [atom_has]
  cases q with
  | one =>
    rw [show (Spec.Piece.rgx ⟨a, .one⟩) = .cls a.cls from rfl, hone]
    constructor
    · rintro ⟨c, rfl, hc⟩
      exact ⟨[c], rfl, rfl, by simpa using hc⟩
    · rintro ⟨w, rfl, hl, hw⟩
      obtain ⟨c, rfl⟩ := List.length_eq_one_iff.mp hl
      exact ⟨c, rfl, hw c (by simp)⟩
  | many =>
    rw [show (Spec.Piece.rgx ⟨a, .many⟩) = .seq (.cls a.cls) (.star true (.cls a.cls)) from rfl, Lang]
    simp only [hone, hstar]
    constructor
    · rintro ⟨_, ⟨c, rfl, hc⟩, w, rfl, hw⟩
      refine ⟨c :: w, rfl, by simp [Spec.Quant.Len], ?_⟩
      intro d hd
      rcases List.mem_cons.mp hd with rfl | hd
      · exact hc
      · exact hw d hd
    · rintro ⟨w, rfl, hl, hw⟩
      obtain ⟨c, w', rfl⟩ := List.exists_cons_of_length_pos hl
      exact ⟨w' ++ v, ⟨c, rfl, hw c (by simp)⟩, w', rfl, fun d hd => hw d (by simp [hd])⟩
  | any =>
    rw [show (Spec.Piece.rgx ⟨a, .any⟩) = .star true (.cls a.cls) from rfl, hstar]
    simp [Spec.Piece.Reads, Spec.Quant.Len]
  | maybe =>
    rw [show (Spec.Piece.rgx ⟨a, .maybe⟩) = .opt true (.cls a.cls) from rfl, Lang, hone]
    constructor
    · rintro (rfl | ⟨c, rfl, hc⟩)
      · exact ⟨[], rfl, by simp [Spec.Quant.Len], by simp⟩
      · exact ⟨[c], rfl, by simp [Spec.Quant.Len], by simpa using hc⟩
    · rintro ⟨w, rfl, hl, hw⟩
      cases w with
      | nil => exact .inl rfl
      | cons c w =>
        have : w = [] := List.length_eq_zero_iff.mp (by simp [Spec.Quant.Len] at hl; simp [hl])
        subst this
        exact .inr ⟨c, rfl, hw c (by simp)⟩

theorem lang_pieces (n : Nat) (ps : List Spec.Piece) (l : List Rgx) (u v : Str) :
    Lang n (seqs (ps.map Spec.Piece.rgx ++ l)) u v ↔ ∃ w r, u = w ++ r ∧ Spec.Reads ps w ∧ Lang n (seqs l) r v := by
  induction ps generalizing u with
  | nil =>
    constructor
    · intro h; exact ⟨[], u, rfl, .nil, h⟩
    · rintro ⟨w, r, rfl, h, hl⟩
      cases h
      exact hl
  | cons p ps ih =>
    rw [List.map_cons, List.cons_append, lang_cons]
    simp only [lang_piece, ih]
    constructor
    · rintro ⟨_, ⟨a, rfl, ha⟩, w, r, rfl, hw, hl⟩
      exact ⟨a ++ w, r, by simp, .cons ha hw, hl⟩
    · rintro ⟨w, r, rfl, h, hl⟩
      cases h with
      | @cons _ _ a b ha hb => exact ⟨b ++ r, ⟨a, by simp, ha⟩, b, r, rfl, hb, hl⟩

theorem lang_bols (n k : Nat) (l : List Rgx) (u v : Str) :
    Lang n (seqs (List.replicate k .bol ++ l)) u v ↔ (k = 0 ∨ u.length = n) ∧ Lang n (seqs l) u v := by
  induction k with
  | zero => simp
  | succ k ih =>
    rw [List.replicate_succ, List.cons_append, lang_cons]
    simp only [Lang]
    constructor
    · rintro ⟨w, ⟨rfl, hn⟩, h⟩
      exact ⟨.inr hn, (ih.mp h).2⟩
    · rintro ⟨h | hn, h⟩
      · cases h
      · exact ⟨u, ⟨rfl, hn⟩, ih.mpr ⟨.inr hn, h⟩⟩

theorem lang_eols (n m : Nat) (u v : Str) :
    Lang n (seqs (List.replicate m .eol)) u v ↔ u = v ∧ (m = 0 ∨ u = [] ∨ u = ['\n']) := by
  induction m with
  | zero => simp [lang_nil]
  | succ m ih =>
    rw [List.replicate_succ, lang_cons]
    simp only [Lang]
    constructor
    · rintro ⟨w, ⟨rfl, hn⟩, h⟩
      exact ⟨(ih.mp h).1, .inr hn⟩
    · rintro ⟨rfl, h | hn⟩
      · cases h
      · exact ⟨u, ⟨rfl, hn⟩, ih.mpr ⟨rfl, .inr hn⟩⟩

/-- A search finds something exactly if there is a match at some place. -/
theorem search_isSome (r : Rgx) (g : Nat) (names : List (Str × Nat)) (t : Str) :
    (search ⟨r, g, names⟩ t).isSome = true ↔ ∃ pre u v, t = pre ++ u ∧ Lang t.length r u v := by
  constructor
  · intro h
    obtain ⟨m, hm⟩ := Option.isSome_iff_exists.mp h
    obtain ⟨pre, u, v, e, hv⟩ := search_found hm
    exact ⟨pre, u, v, e, (lang_run t.length r u [] v).mp ⟨_, hv⟩⟩
  · rintro ⟨pre, u, v, e, hl⟩
    have key : ∀ (n k : Nat) (pre : Str), Lang n r u v → (searchFrom n r k (pre ++ u)).isSome = true := by
      intro n k pre hl
      induction pre generalizing k with
      | nil =>
        have hne := (run_ne_nil n r u []).mpr ⟨v, hl⟩
        rw [List.nil_append]
        cases u with
        | nil =>
          rw [searchFrom]
          cases hr : run n r [] [] with
          | nil => exact absurd hr hne
          | cons p l => rfl
        | cons a u =>
          rw [searchFrom]
          cases hr : run n r (a :: u) [] with
          | nil => exact absurd hr hne
          | cons p l => rfl
      | cons a pre ih =>
        rw [List.cons_append, searchFrom]
        cases hr : run n r (a :: (pre ++ u)) [] with
        | nil => exact ih _
        | cons p l => rfl
    rw [search]
    have := key t.length 0 pre hl
    rwa [← e] at this

/-- The text that is found, and where. -/
theorem search_text {r : Rgx} {g : Nat} {names : List (Str × Nat)} {t : Str} {m : Found} (h : search ⟨r, g, names⟩ t = some m) :
    ∃ pre post, t = pre ++ (m.text ++ post) ∧ Lang t.length r (m.text ++ post) post ∧
      (post, m.caps) ∈ run t.length r (m.text ++ post) [] := by
  have cut : ∀ (n : Nat) (u v : Str) (d : Caps), (v, d) ∈ run n r u [] → u = u.take (u.length - v.length) ++ v := by
    intro n u v d hv
    obtain ⟨w, rfl⟩ := lang_suffix n r u v ((lang_run n r u [] v).mp ⟨d, hv⟩)
    simp
  have key : ∀ (n k : Nat) (u : Str), searchFrom n r k u = some m →
      ∃ pre post, u = pre ++ (m.text ++ post) ∧ (post, m.caps) ∈ run n r (m.text ++ post) [] := by
    intro n k u
    induction u generalizing k with
    | nil =>
      intro h
      rw [searchFrom] at h
      cases hr : run n r [] [] with
      | nil => rw [hr] at h; cases h
      | cons p l =>
        rw [hr] at h
        simp only [Option.some.injEq] at h
        subst h
        have hm : (p.1, p.2) ∈ run n r [] [] := by rw [hr]; simp
        have := cut n [] p.1 p.2 hm
        have hp : p.1 = [] := by simpa using this
        refine ⟨[], [], rfl, ?_⟩
        rw [hp] at hm
        exact hm
    | cons a u ih =>
      intro h
      rw [searchFrom] at h
      cases hr : run n r (a :: u) [] with
      | nil =>
        rw [hr] at h
        obtain ⟨pre, post, e, hv⟩ := ih _ h
        exact ⟨a :: pre, post, by rw [e]; rfl, hv⟩
      | cons p l =>
        rw [hr] at h
        simp only [Option.some.injEq] at h
        subst h
        have hm : (p.1, p.2) ∈ run n r (a :: u) [] := by rw [hr]; simp
        have := cut n (a :: u) p.1 p.2 hm
        refine ⟨[], p.1, this, ?_⟩
        simp only
        rw [← this]
        exact hm
  obtain ⟨pre, post, e, hv⟩ := key t.length 0 t h
  exact ⟨pre, post, e, (lang_run t.length r _ [] post).mp ⟨_, hv⟩, hv⟩

/-! ## Expressions -/

/-- `k` times `^`, pieces, `m` times `$`. -/
theorem rx_anchored (k m : Nat) {ps : List Spec.Piece} (hp : ∀ q ∈ ps, q.atom.Ok) :
    ∃ rx, textRx (List.replicate k '^' ++ (ps.flatMap Spec.Piece.text ++ List.replicate m '$')) = .ok rx ∧
      rx.lit = List.replicate k '^' ++ (ps.flatMap Spec.Piece.text ++ List.replicate m '$') ∧
      (∀ t, Spec.Match rx t ↔ ∃ a b c, t = a ++ b ++ c ∧ Spec.Reads ps b ∧ (k = 0 ∨ a = []) ∧
        (m = 0 ∨ c = [] ∨ c = ['\n'])) ∧
      (∀ t g, rx.find t = some g → Spec.Reads ps g ∧ g <:+: t) := by
  refine ⟨⟨_, findIn ⟨seqs (anchored k ps m), 0, []⟩⟩, ?_, rfl, ?_, ?_⟩
  · rw [textRx, compile_anchored k m hp]; rfl
  · intro t
    rw [Spec.Match, ← Option.isSome_iff_exists]
    simp only [findIn, Option.isSome_map]
    rw [search_isSome]
    simp only [anchored, lang_bols, lang_pieces, lang_eols]
    constructor
    · rintro ⟨pre, u, v, e, hk, w, r, rfl, hw, rfl, hm⟩
      refine ⟨pre, w, r, by rw [e]; simp, hw, ?_, hm⟩
      rcases hk with hk | hk
      · exact .inl hk
      · right
        rw [e] at hk
        simp only [List.length_append] at hk
        exact List.length_eq_zero_iff.mp (by omega)
    · rintro ⟨a, b, c, e, hb, hk, hm⟩
      refine ⟨a, b ++ c, c, by rw [e]; simp, ?_, b, c, rfl, hb, rfl, hm⟩
      rcases hk with hk | rfl
      · exact .inl hk
      · right; rw [e]; simp
  · intro t g hg
    simp only [findIn, Option.map_eq_some_iff] at hg
    obtain ⟨f, hf, rfl⟩ := hg
    obtain ⟨pre, post, e, hl, _⟩ := search_text hf
    simp only [anchored, lang_bols, lang_pieces, lang_eols] at hl
    obtain ⟨_, w, r, h1, hw, rfl, _⟩ := hl
    have : f.text = w := List.append_cancel_right h1
    rw [this]
    exact ⟨hw, pre, r, by rw [e, this]; simp⟩

/-- The expression with parentheses around it. -/
theorem rx_group {ps : List Spec.Piece} (hp : ∀ q ∈ ps, q.atom.Ok) :
    ∃ rx, groupRx (ps.flatMap Spec.Piece.text) = .ok rx ∧ rx.lit = ps.flatMap Spec.Piece.text ∧
      (∀ t, Spec.Match rx t ↔ ∃ a b c, t = a ++ b ++ c ∧ Spec.Reads ps b) ∧
      (∀ t g, rx.find t = some g → Spec.Reads ps g ∧ g <:+: t) := by
  refine ⟨⟨_, fun t => (search ⟨.grp 1 (seqs (ps.map Spec.Piece.rgx)), 1, []⟩ t).bind (fun m => m.caps.lookup 1)⟩, ?_, rfl, ?_⟩
  · rw [groupRx, compile_group hp]; rfl
  have hl : ∀ n u v, Lang n (.grp 1 (seqs (ps.map Spec.Piece.rgx))) u v ↔ ∃ w, u = w ++ v ∧ Spec.Reads ps w := by
    intro n u v
    have := lang_pieces n ps [] u v
    rw [List.append_nil] at this
    rw [Lang, this]
    constructor
    · rintro ⟨w, r, rfl, hw, rfl⟩; exact ⟨w, rfl, hw⟩
    · rintro ⟨w, rfl, hw⟩; exact ⟨w, v, rfl, hw, rfl⟩
  have hg : ∀ t f, search ⟨.grp 1 (seqs (ps.map Spec.Piece.rgx)), 1, []⟩ t = some f →
      f.caps.lookup 1 = some f.text ∧ Spec.Reads ps f.text ∧ f.text <:+: t := by
    intro t f hf
    obtain ⟨pre, post, e, h1, h2⟩ := search_text hf
    obtain ⟨w, hw, hr⟩ := (hl _ _ _).mp h1
    have hw' : f.text = w := List.append_cancel_right hw
    refine ⟨?_, hw' ▸ hr, pre, post, by rw [e]; simp⟩
    rw [run, List.mem_map] at h2
    obtain ⟨q, _, hq⟩ := h2
    rw [Prod.mk.injEq] at hq
    obtain ⟨hq1, hq2⟩ := hq
    rw [← hq2, hq1]
    simp
  refine ⟨fun t => ?_, fun t g h => ?_⟩
  · rw [Spec.Match]
    constructor
    · rintro ⟨g, h⟩
      rw [Option.bind_eq_some_iff] at h
      obtain ⟨f, hf, _⟩ := h
      obtain ⟨_, h1, a, c, e⟩ := hg t f hf
      exact ⟨a, f.text, c, e.symm, h1⟩
    · rintro ⟨a, b, c, e, hb⟩
      have hs := (search_isSome (.grp 1 (seqs (ps.map Spec.Piece.rgx))) 1 [] t).mpr
        ⟨a, b ++ c, c, by rw [e]; simp, (hl _ _ _).mpr ⟨b, rfl, hb⟩⟩
      obtain ⟨f, hf⟩ := Option.isSome_iff_exists.mp hs
      exact ⟨f.text, by simp only [hf]; exact (hg t f hf).1⟩
  · rw [Option.bind_eq_some_iff] at h
    obtain ⟨f, hf, h1⟩ := h
    obtain ⟨h2, h3, h4⟩ := hg t f hf
    rw [h2] at h1
    obtain rfl := Option.some.inj h1
    exact ⟨h3, h4⟩

/-! ## Literal texts -/

/-- The pieces of a literal text. -/
def lits (s : Str) : List Spec.Piece := s.map (fun c => ⟨.ch c, .one⟩)

theorem lits_text (s : Str) : (lits s).flatMap Spec.Piece.text = s := by
  induction s with
  | nil => rfl
  | cons c s ih => rw [lits, List.map_cons, List.flatMap_cons, ← lits, ih]; rfl

theorem lits_ok {s : Str} (h : Spec.Literal s) : ∀ q ∈ lits s, q.atom.Ok := by
  intro q hq
  obtain ⟨c, hc, rfl⟩ := List.mem_map.mp hq
  exact h c hc

/-- Pieces that are one character each. -/
theorem reads_chars {f : Char → Spec.Atom} (hf : ∀ c x, (f c).Has x ↔ x = c) (s t : Str) :
    Spec.Reads (s.map (fun c => ⟨f c, .one⟩)) t ↔ t = s := by
  induction s generalizing t with
  | nil =>
    constructor
    · intro h; cases h; rfl
    · rintro rfl; exact .nil
  | cons c s ih =>
    rw [List.map_cons]
    constructor
    · intro h
      cases h with
      | @cons _ _ a b ha hb =>
        obtain ⟨hl, hw⟩ := ha
        obtain ⟨x, rfl⟩ := List.length_eq_one_iff.mp hl
        rw [(ih b).mp hb, (hf c x).mp (hw x (by simp))]
        rfl
    · rintro rfl
      exact Spec.Reads.cons (a := [c]) ⟨rfl, by simp [hf]⟩ ((ih s).mpr rfl)

theorem reads_lits (s t : Str) : Spec.Reads (lits s) t ↔ t = s := reads_chars (fun _ _ => Iff.rfl) s t

/-- The pieces of an escaped text. -/
def escs (s : Str) : List Spec.Piece := s.map (fun c => ⟨if c ∈ reSpecial then .esc c else .ch c, .one⟩)

theorem escs_text (s : Str) : (escs s).flatMap Spec.Piece.text = reEscape s := by
  induction s with
  | nil => rfl
  | cons c s ih =>
    rw [escs, List.map_cons, List.flatMap_cons, ← escs, ih, reEscape, reEscape, List.flatMap_cons]
    congr 1
    by_cases h : c ∈ reSpecial
    · simp only [if_pos h]; rfl
    · simp only [if_neg h]; rfl

theorem reSpecial_ok : ∀ c ∈ reSpecial, isLetter c = false ∧ isDigit c = false := by decide

theorem special_sub : ∀ c ∈ Spec.special, c ∈ reSpecial := by decide

theorem escs_ok (s : Str) : ∀ q ∈ escs s, q.atom.Ok := by
  intro q hq
  obtain ⟨c, _, rfl⟩ := List.mem_map.mp hq
  by_cases h : c ∈ reSpecial
  · simp only [if_pos h]; exact reSpecial_ok c h
  · simp only [if_neg h]; exact fun hc => h (special_sub c hc)

theorem reads_escs (s t : Str) : Spec.Reads (escs s) t ↔ t = s :=
  reads_chars (f := fun c => if c ∈ reSpecial then .esc c else .ch c) (fun c x => by
    by_cases h : c ∈ reSpecial
    · simp only [if_pos h]; exact Iff.rfl
    · simp only [if_neg h]; exact Iff.rfl) s t

/-! ## `ignore_ws` -/

/-- A literal whitespace character. -/
def isBlankP : Spec.Piece → Bool
  | ⟨.ch c, .one⟩ => isSpace c
  | _ => false

theorem isBlankP_iff (p : Spec.Piece) : isBlankP p = true ↔ p.Blank := by
  constructor
  · intro h
    obtain ⟨a, q⟩ := p
    cases a <;> cases q <;> first | (cases h; done) | exact ⟨_, h, rfl⟩
  · rintro ⟨c, hc, rfl⟩; exact hc

/-- What `ignore_ws` makes of the pieces. -/
def tolP : Bool → List Spec.Piece → List Spec.Piece
  | _, [] => []
  | fresh, p :: ps =>
    if isBlankP p then
      if fresh then ⟨.space, .many⟩ :: tolP false ps else tolP false ps
    else p :: tolP true ps

theorem tolP_ok {ps : List Spec.Piece} (h : ∀ q ∈ ps, q.atom.Ok) (b : Bool) : ∀ q ∈ tolP b ps, q.atom.Ok := by
  induction ps generalizing b with
  | nil => intro q hq; cases hq
  | cons p ps ih =>
    have ih' := ih (fun q hq => h q (by simp [hq]))
    rw [tolP]
    split
    · split
      · intro q hq
        rcases List.mem_cons.mp hq with rfl | hq
        · trivial
        · exact ih' false q hq
      · exact ih' false
    · intro q hq
      rcases List.mem_cons.mp hq with rfl | hq
      · exact h q (by simp)
      · exact ih' true q hq

theorem tolerant_word (w : Str) (hw : IsWord w) (b : Bool) (s : Str) :
    tolerantAux b (w ++ s) = w ++ tolerantAux true s := by
  obtain ⟨c, w, rfl⟩ := List.exists_cons_of_ne_nil hw.1
  have key : ∀ (w : Str) (b : Bool), (∀ c ∈ w, isSpace c = false) → tolerantAux true (w ++ s) = w ++ tolerantAux true s := by
    intro w b hw
    induction w with
    | nil => rfl
    | cons x w ih =>
      rw [List.cons_append, tolerantAux, if_neg (by rw [hw x (by simp)]; simp), ih (fun c hc => hw c (by simp [hc]))]
      rfl
  rw [List.cons_append, tolerantAux, if_neg (by rw [hw.2 c (by simp)]; simp), key w b (fun x hx => hw.2 x (by simp [hx]))]
  rfl

theorem piece_word {p : Spec.Piece} (hb : isBlankP p = false)
    (h1 : ∀ c, p.atom = .ch c → isSpace c = true → p.quant = .one) (h2 : ∀ c, p.atom = .esc c → isSpace c = false) :
    IsWord p.text := by
  obtain ⟨a, q⟩ := p
  refine ⟨by cases a <;> simp [Spec.Piece.text, Spec.Atom.text], ?_⟩
  intro x hx
  rw [Spec.Piece.text, List.mem_append] at hx
  rcases hx with hx | hx
  · cases a with
    | ch c =>
      obtain rfl : x = c := by simpa [Spec.Atom.text] using hx
      cases hs : isSpace x with
      | false => rfl
      | true =>
        have hq : q = .one := h1 x rfl hs
        subst hq
        rw [isBlankP, hs] at hb
        cases hb
    | esc c =>
      rcases (by simpa [Spec.Atom.text] using hx : x = '\\' ∨ x = c) with rfl | rfl
      · decide
      · exact h2 x rfl
    | dot => obtain rfl : x = '.' := by simpa [Spec.Atom.text] using hx
             decide
    | _ => rcases (by simpa [Spec.Atom.text] using hx : x = '\\' ∨ x = _) with rfl | rfl <;> decide
  · cases q with
    | one => cases hx
    | _ => obtain rfl := List.mem_singleton.mp hx
           decide

theorem tolerant_pieces {ps : List Spec.Piece}
    (h : ∀ q ∈ ps, (∀ c, q.atom = .ch c → isSpace c = true → q.quant = .one) ∧ (∀ c, q.atom = .esc c → isSpace c = false))
    (b : Bool) {s : Str} (hs : ∀ b, tolerantAux b s = s) :
    tolerantAux b (ps.flatMap Spec.Piece.text ++ s) = (tolP b ps).flatMap Spec.Piece.text ++ s := by
  induction ps generalizing b with
  | nil => exact hs b
  | cons p ps ih =>
    have ih' := ih (fun q hq => h q (by simp [hq]))
    rw [List.flatMap_cons, List.append_assoc, tolP]
    cases hb : isBlankP p with
    | true =>
      obtain ⟨c, hc, rfl⟩ := (isBlankP_iff p).mp hb
      rw [show (Spec.Piece.text ⟨.ch c, .one⟩) = [c] from rfl, List.singleton_append, tolerantAux, if_pos hc]
      cases b with
      | false => simp only [if_true, Bool.false_eq_true, if_false]; exact ih' false
      | true => simp only [if_true]; rw [ih' false, List.flatMap_cons, List.append_assoc]; rfl
    | false =>
      rw [tolerant_word _ (piece_word hb (h p (by simp)).1 (h p (by simp)).2), ih' true]
      simp

theorem tolP_head {ps : List Spec.Piece} (h : ∀ p, ps.head? = some p → ¬ p.Blank) : tolP false ps = tolP true ps := by
  cases ps with
  | nil => rfl
  | cons p ps =>
    have : isBlankP p = false := by
      cases hb : isBlankP p with
      | false => rfl
      | true => exact absurd ((isBlankP_iff p).mp hb) (h p rfl)
    rw [tolP, tolP, this]
    rfl

theorem tolP_gap {g ps : List Spec.Piece} (hb : ∀ p ∈ g, p.Blank) (h : ∀ p, ps.head? = some p → ¬ p.Blank) :
    tolP false (g ++ ps) = tolP true ps := by
  induction g with
  | nil => exact tolP_head h
  | cons p g ih =>
    rw [List.cons_append, tolP, if_pos ((isBlankP_iff p).mpr (hb p (by simp)))]
    exact ih (fun q hq => hb q (by simp [hq]))

/-- The pieces with `ignore_ws` read what the specification says. -/
theorem reads_tol : ∀ (n : Nat) (ps : List Spec.Piece), ps.length ≤ n → ∀ t, Spec.Reads (tolP true ps) t ↔ Spec.ReadsWs ps t := by
  have fwd : ∀ ps t, Spec.ReadsWs ps t → Spec.Reads (tolP true ps) t := by
    intro ps t h
    induction h with
    | nil => exact .nil
    | @piece p ps a b hp ha _ ih =>
      rw [tolP, if_neg (fun hb => hp ((isBlankP_iff p).mp hb))]
      exact .cons ha ih
    | @gap g ps a b hne hg hh ha hs _ ih =>
      obtain ⟨p, g, rfl⟩ := List.exists_cons_of_ne_nil hne
      rw [List.cons_append, tolP, if_pos ((isBlankP_iff p).mpr (hg p (by simp))), if_pos rfl,
        tolP_gap (fun q hq => hg q (by simp [hq])) hh]
      exact .cons ⟨List.length_pos_iff.mpr ha, hs⟩ ih
  intro n
  induction n with
  | zero =>
    intro ps hl t
    obtain rfl : ps = [] := List.length_eq_zero_iff.mp (by omega)
    exact ⟨fun h => by cases h; exact .nil, fwd _ _⟩
  | succ n ih =>
    intro ps hl t
    refine ⟨fun h => ?_, fwd _ _⟩
    cases ps with
    | nil => cases h; exact .nil
    | cons p ps =>
      cases hb : isBlankP p with
      | false =>
        rw [tolP, hb, if_neg (by simp)] at h
        cases h with
        | cons ha hb' =>
          refine .piece (fun hB => ?_) ha ((ih ps (by simp at hl; omega) _).mp hb')
          rw [(isBlankP_iff p).mpr hB] at hb
          cases hb
      | true =>
        have hsplit : p :: ps = (p :: ps.takeWhile isBlankP) ++ ps.dropWhile isBlankP := by simp
        have hg : ∀ q ∈ p :: ps.takeWhile isBlankP, q.Blank := by
          intro q hq
          rcases List.mem_cons.mp hq with rfl | hq
          · exact (isBlankP_iff q).mp hb
          · exact (isBlankP_iff q).mp (of_mem_takeWhile hq)
        have hh : ∀ q, (ps.dropWhile isBlankP).head? = some q → ¬ q.Blank := by
          intro q hq hB
          have := List.head?_dropWhile_not isBlankP ps
          rw [hq] at this
          simp only at this
          rw [(isBlankP_iff q).mpr hB] at this
          simp at this
        rw [tolP, hb, if_pos rfl, if_pos rfl] at h
        have e : tolP false ps = tolP true (ps.dropWhile isBlankP) := by
          have := tolP_gap (g := ps.takeWhile isBlankP) (fun q hq => hg q (by simp [hq])) hh
          rwa [List.takeWhile_append_dropWhile] at this
        rw [e] at h
        rw [hsplit]
        cases h with
        | cons ha hb' =>
          refine .gap (by simp) hg hh (List.length_pos_iff.mp ha.1) ha.2 ((ih _ ?_ _).mp hb')
          have := (List.dropWhile_suffix isBlankP (l := ps)).length_le
          simp at hl
          omega

end Query

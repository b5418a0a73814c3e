import Verif.Junos.Lemmas

/-! # The tree of the converted text -/

namespace Junos

open Py

/-- A text without whitespace at the ends. -/
structure Item (t : Str) : Prop where
  ne : t ≠ []
  head : ∀ c, t.head? = some c → isSpace c = false
  last : ∀ c, t.getLast? = some c → isSpace c = false

theorem Item.of_text {t : Str} (h : Spec.Text t) : Item t :=
  ⟨h.ne, fun c hc => (h.head c hc).1, fun c hc => (h.last c hc).1⟩

theorem takeWhile_rep (n : Nat) (t : Str) (h : ∀ c, t.head? = some c → isSpace c = false) :
    ((List.replicate n ' ' ++ t).takeWhile isSpace).length = n := by
  induction n with
  | zero =>
    cases t with
    | nil => rfl
    | cons c t => simp [h c rfl]
  | succ n ih =>
    rw [List.replicate_succ, List.cons_append, List.takeWhile_cons, if_pos (by decide), List.length_cons, ih]

theorem indent_at {t : Str} (h : Item t) (d : Nat) : Conf.Spec.indent (Spec.at_ d t) = 4 * d := by
  rw [Conf.Spec.indent, rstrip_of_last, Spec.at_, takeWhile_rep _ _ h.head]
  intro c hc
  rw [Spec.at_, last_append h.ne] at hc
  exact h.last c hc

theorem blank_at (d : Nat) : Conf.Spec.blank (Spec.at_ d []) := by
  intro c hc
  rw [Spec.at_, List.append_nil] at hc
  rw [List.eq_of_mem_replicate hc]; decide

theorem not_blank_at {t : Str} (h : Item t) (d : Nat) : ¬ Conf.Spec.blank (Spec.at_ d t) := by
  intro hb
  cases t with
  | nil => exact h.ne rfl
  | cons c t =>
    have h1 := hb c (by simp [Spec.at_])
    rw [h.head c rfl] at h1
    cases h1

theorem first_unique {a a' r r' : Str} {c c' : Char} (ha : ∀ x ∈ a, isSpace x = true)
    (ha' : ∀ x ∈ a', isSpace x = true) (hc : isSpace c = false) (hc' : isSpace c' = false)
    (e : a ++ c :: r = a' ++ c' :: r') : c = c' := by
  have e1 := congrArg List.head? (Conf.lstrip_pre (p := a) (s := c :: r) ha
    (by intro x hx; simp at hx; rw [← hx]; exact hc))
  have e2 := congrArg List.head? (Conf.lstrip_pre (p := a') (s := c' :: r') ha'
    (by intro x hx; simp at hx; rw [← hx]; exact hc'))
  rw [e, e2] at e1
  simp at e1
  exact e1.symm

theorem config_at {ds : List Char} {t : Str} (h : Item t) (d : Nat)
    (hd : ∀ c, t.head? = some c → c ∉ ds) : Conf.Spec.config ds (Spec.at_ d t) := by
  refine ⟨not_blank_at h d, ?_⟩
  rintro ⟨ws, c, rest, e, hws, hc, hcd⟩
  cases t with
  | nil => exact h.ne rfl
  | cons x t =>
    have := first_unique (fun y hy => by rw [List.eq_of_mem_replicate hy]; decide) hws (h.head x rfl) hc e
    exact hd x rfl (this ▸ hcd)

theorem closes_at {t : Str} (h : Item t) (d : Nat) (hb : t.head? ≠ some '}') :
    ¬ Conf.Spec.closes (Spec.at_ d t) := by
  rintro ⟨⟨ws, rest, e, hws⟩, _⟩
  cases t with
  | nil => exact h.ne rfl
  | cons x t =>
    have := first_unique (fun y hy => by rw [List.eq_of_mem_replicate hy]; decide) hws (h.head x rfl)
      (by decide) e
    exact hb (by rw [this]; rfl)

theorem closes_blank {t : Str} (h : Conf.Spec.blank t) : ¬ Conf.Spec.closes t := by
  rintro ⟨⟨ws, rest, e, hws⟩, _⟩
  have := h '}' (by rw [e]; simp)
  exact absurd this (by decide)

mutual
/-- The texts are items that do not begin with a closing brace. -/
def wf : Spec.Doc → Prop
  | .nil => True
  | .leaf t r => (Item t ∧ t.head? ≠ some '}') ∧ wf r
  | .note t r => (Item t ∧ t.head? ≠ some '}') ∧ wf r
  | .gap r => wf r
  | .block t b a r => (Item t ∧ t.head? ≠ some '}') ∧ wf b ∧ wfA a ∧ wf r
/-- The texts are items that do not begin with a closing brace. -/
def wfA : Spec.Alts → Prop
  | .done => True
  | .alt t b a => (Item t ∧ t.head? ≠ some '}') ∧ wf b ∧ wfA a
end

theorem text_wf {t : Str} (h : Spec.Text t) : Item t ∧ t.head? ≠ some '}' :=
  ⟨Item.of_text h, fun e => (h.head _ e).2.1 rfl⟩

theorem note_wf {t l : Str} (h : Spec.NoteLine t l) : Item t ∧ t.head? ≠ some '}' := by
  obtain ⟨_, hs, hne⟩ := lineBraces_note h
  obtain ⟨w1, w3, k, u, rfl, h1, h3, rfl, hu, hl⟩ := h
  refine ⟨⟨hne, ?_, ?_⟩, ?_⟩
  · intro c hc; simp [List.replicate_succ] at hc; rw [← hc]; decide
  · intro c hc; rw [← hs] at hc; exact strip_getLast _ c hc
  · intro hc; simp [List.replicate_succ] at hc

mutual
theorem wf_of : ∀ (doc : Spec.Doc) (ls : List Str), Spec.Written doc ls → wf doc
  | .nil, _, _ => by rw [wf]; trivial
  | .leaf t r, _, h => by
    cases h with
    | leaf h1 h2 => rw [wf]; exact ⟨text_wf h1.1, wf_of r _ h2⟩
    | empty h1 h2 => rw [wf]; exact ⟨text_wf h1.1, wf_of r _ h2⟩
  | .note t r, _, h => by
    cases h with
    | note h1 h2 => rw [wf]; exact ⟨note_wf h1, wf_of r _ h2⟩
  | .gap r, _, h => by
    cases h with
    | gap h1 h2 => rw [wf]; exact wf_of r _ h2
  | .block t b a r, _, h => by
    cases h with
    | block h1 h2 h3 h4 => rw [wf]; exact ⟨text_wf h1.1, wf_of b _ h2, wfA_of a _ h3, wf_of r _ h4⟩
theorem wfA_of : ∀ (a : Spec.Alts) (ls : List Str), Spec.WrittenAlts a ls → wfA a
  | .done, _, _ => by rw [wfA]; trivial
  | .alt t b a, _, h => by
    cases h with
    | alt h1 h2 h3 => rw [wfA]; exact ⟨text_wf h1.1, wf_of b _ h2, wfA_of a _ h3⟩
end

mutual
theorem closes_doc : ∀ (doc : Spec.Doc) (d : Nat), wf doc → ∀ l ∈ doc.lines d, ¬ Conf.Spec.closes l
  | .nil, d, _, l, hl => by rw [Spec.Doc.lines] at hl; cases hl
  | .leaf t r, d, h, l, hl => by
    rw [wf] at h
    rw [Spec.Doc.lines] at hl
    rcases List.mem_cons.mp hl with rfl | hl
    · exact closes_at h.1.1 d h.1.2
    · exact closes_doc r d h.2 l hl
  | .note t r, d, h, l, hl => by
    rw [wf] at h
    rw [Spec.Doc.lines] at hl
    rcases List.mem_cons.mp hl with rfl | hl
    · exact closes_at h.1.1 d h.1.2
    · exact closes_doc r d h.2 l hl
  | .gap r, d, h, l, hl => by
    rw [wf] at h
    rw [Spec.Doc.lines] at hl
    rcases List.mem_cons.mp hl with rfl | hl
    · exact closes_blank (blank_at d)
    · exact closes_doc r d h l hl
  | .block t b a r, d, h, l, hl => by
    rw [wf] at h
    rw [Spec.Doc.lines] at hl
    rcases List.mem_cons.mp hl with rfl | hl
    · exact closes_at h.1.1 d h.1.2
    · rcases List.mem_append.mp hl with hl | hl
      · exact closes_doc b (d + 1) h.2.1 l hl
      · rcases List.mem_append.mp hl with hl | hl
        · exact closes_alts a d h.2.2.1 l hl
        · exact closes_doc r d h.2.2.2 l hl
theorem closes_alts : ∀ (a : Spec.Alts) (d : Nat), wfA a → ∀ l ∈ a.lines d, ¬ Conf.Spec.closes l
  | .done, d, _, l, hl => by
    rw [Spec.Alts.lines] at hl
    rw [List.mem_singleton.mp hl]
    exact closes_blank (blank_at d)
  | .alt t b a, d, h, l, hl => by
    rw [wfA] at h
    rw [Spec.Alts.lines] at hl
    rcases List.mem_cons.mp hl with rfl | hl
    · exact closes_at h.1.1 d h.1.2
    · rcases List.mem_append.mp hl with hl | hl
      · exact closes_doc b (d + 1) h.2.1 l hl
      · exact closes_alts a d h.2.2 l hl
end

mutual
theorem lines_length : ∀ (doc : Spec.Doc) (d : Nat), (doc.lines d).length = (doc.lines 0).length
  | .nil, d => by simp [Spec.Doc.lines]
  | .leaf t r, d => by simp [Spec.Doc.lines, lines_length r d]
  | .note t r, d => by simp [Spec.Doc.lines, lines_length r d]
  | .gap r, d => by simp [Spec.Doc.lines, lines_length r d]
  | .block t b a r, d => by
    simp [Spec.Doc.lines, lines_length r d, lines_length b (d + 1), lines_length b (0 + 1), linesA_length a d]
theorem linesA_length : ∀ (a : Spec.Alts) (d : Nat), (a.lines d).length = (a.lines 0).length
  | .done, d => by simp [Spec.Alts.lines]
  | .alt t b a, d => by
    simp [Spec.Alts.lines, lines_length b (d + 1), lines_length b (0 + 1), linesA_length a d]
end

mutual
theorem owners_length : ∀ (doc : Spec.Doc) (p : Option Nat) (k : Nat),
    (doc.owners p k).length = (doc.lines 0).length
  | .nil, p, k => by simp [Spec.Doc.lines, Spec.Doc.owners]
  | .leaf t r, p, k => by simp [Spec.Doc.lines, Spec.Doc.owners, owners_length r]
  | .note t r, p, k => by simp [Spec.Doc.lines, Spec.Doc.owners, owners_length r]
  | .gap r, p, k => by simp [Spec.Doc.lines, Spec.Doc.owners, owners_length r]
  | .block t b a r, p, k => by
    simp [Spec.Doc.lines, Spec.Doc.owners, owners_length r, owners_length b, ownersA_length a,
      lines_length b (0 + 1)]
theorem ownersA_length : ∀ (a : Spec.Alts) (p : Option Nat) (k : Nat),
    (a.owners p k).length = (a.lines 0).length
  | .done, p, k => by simp [Spec.Alts.lines, Spec.Alts.owners]
  | .alt t b a, p, k => by
    simp [Spec.Alts.lines, Spec.Alts.owners, owners_length b, ownersA_length a, lines_length b (0 + 1)]
end

section
variable {ds : List Char} {L : Nat → Str}

/-- The lines from `k` on. -/
def Seg (L : Nat → Str) (k : Nat) (xs : List Str) : Prop := ∀ j x, xs[j]? = some x → L (k + j) = x

theorem Seg.head {k : Nat} {x : Str} {xs : List Str} (h : Seg L k (x :: xs)) : L k = x := h 0 x rfl

theorem Seg.tail {k : Nat} {x : Str} {xs : List Str} (h : Seg L k (x :: xs)) : Seg L (k + 1) xs := by
  intro j y hy
  have := h (j + 1) y (by simpa using hy)
  rw [← this]; congr 1; omega

theorem Seg.left {k : Nat} {xs ys : List Str} (h : Seg L k (xs ++ ys)) : Seg L k xs := by
  intro j y hy
  refine h j y ?_
  have hj := (List.getElem?_eq_some_iff.mp hy).1
  rw [List.getElem?_append_left hj, hy]

theorem Seg.right {k : Nat} {xs ys : List Str} (h : Seg L k (xs ++ ys)) : Seg L (k + xs.length) ys := by
  intro j y hy
  have := h (xs.length + j) y (by rw [List.getElem?_append_right (by omega)]; simpa using hy)
  rw [← this]; congr 1; omega

/-- The block `p` around depth `d`, seen from line `k`. -/
def Ctx (ds : List Char) (L : Nat → Str) (d k : Nat) : Option Nat → Prop
  | none => d = 0
  | some q => q < k ∧ Conf.Spec.config ds (L q) ∧ Conf.Spec.indent (L q) < 4 * d ∧
    ∀ j, q < j → j < k → Conf.Spec.config ds (L j) → 4 * d ≤ Conf.Spec.indent (L j)

/-- Line `i` belongs to `p`. -/
def Good (ds : List Char) (L : Nat → Str) (i : Nat) : Option Nat → Prop
  | none => ¬ Conf.Spec.Unattached ds L i ∧ Conf.Spec.indent (L i) = 0
  | some q => ¬ Conf.Spec.Unattached ds L i ∧ Conf.Spec.Nearest ds L i q

theorem Ctx.extend {d k k' : Nat} {p : Option Nat} (h : Ctx ds L d k p) (hk : k ≤ k')
    (hn : ∀ j, k ≤ j → j < k' → Conf.Spec.config ds (L j) → 4 * d ≤ Conf.Spec.indent (L j)) :
    Ctx ds L d k' p := by
  cases p with
  | none => exact h
  | some q =>
    obtain ⟨h1, h2, h3, h4⟩ := h
    refine ⟨by omega, h2, h3, fun j j1 j2 j3 => ?_⟩
    by_cases hj : j < k
    · exact h4 j j1 hj j3
    · exact hn j (by omega) j2 j3

theorem Ctx.good {d k : Nat} {p : Option Nat} (h : Ctx ds L d k p) (hi : Conf.Spec.indent (L k) = 4 * d)
    (hu : ¬ Conf.Spec.Unattached ds L k) : Good ds L k p := by
  cases p with
  | none => exact ⟨hu, by rw [hi, show d = 0 from h]⟩
  | some q =>
    obtain ⟨h1, h2, h3, h4⟩ := h
    refine ⟨hu, h1, h2, by rw [hi]; exact h3, fun j j1 j2 j3 => ?_⟩
    rw [hi]; exact h4 j j1 j2 j3

theorem Ctx.body {d k : Nat} {t : Str} (hL : L k = Spec.at_ d t) (ht : Item t)
    (hd : ∀ c, t.head? = some c → c ∉ ds) : Ctx ds L (d + 1) (k + 1) (some k) := by
  refine ⟨by omega, by rw [hL]; exact config_at ht d hd, by rw [hL, indent_at ht]; omega, ?_⟩
  intro j j1 j2; omega

theorem not_unattached_prev {k : Nat} (h : 0 < k → Conf.Spec.indent (L (k - 1)) ≤ Conf.Spec.indent (L k)) :
    ¬ Conf.Spec.Unattached ds L k := by
  rintro ⟨_, h1, h2⟩
  have := h h1
  omega

theorem not_unattached_config {k : Nat} (h : Conf.Spec.config ds (L k)) : ¬ Conf.Spec.Unattached ds L k :=
  fun h1 => h.2 h1.1

/-- What holds of a part of the text that begins at `k`. -/
structure Part (ds : List Char) (L : Nat → Str) (d k n : Nat) (owners : List (Option Nat)) : Prop where
  good : ∀ j r, owners[j]? = some r → ¬ Conf.Spec.blank (L (k + j)) → Good ds L (k + j) r
  deep : ∀ j, k ≤ j → j < k + n → Conf.Spec.config ds (L j) → 4 * d ≤ Conf.Spec.indent (L j)
  prev : 0 < n → Conf.Spec.indent (L (k + n - 1)) ≤ 4 * d

theorem Part.nil {d k : Nat} : Part ds L d k 0 [] :=
  ⟨fun j r h => by simp at h, fun j h1 h2 => by omega, fun h => by omega⟩

theorem Part.single {d k : Nat} {p : Option Nat} (h1 : ¬ Conf.Spec.blank (L k) → Good ds L k p)
    (h2 : ¬ Conf.Spec.blank (L k) → 4 * d ≤ Conf.Spec.indent (L k))
    (h3 : Conf.Spec.indent (L k) ≤ 4 * d) : Part ds L d k 1 [p] := by
  refine ⟨fun j r h hb => ?_, fun j j1 j2 j3 => ?_, fun _ => ?_⟩
  · cases j with
    | zero => simp at h; rw [← h]; exact h1 hb
    | succ j => simp at h
  · have : j = k := by omega
    subst this
    exact h2 j3.1
  · have : k + 1 - 1 = k := by omega
    rw [this]; exact h3

theorem Part.append {d k n m : Nat} {a b : List (Option Nat)} (ha : Part ds L d k n a)
    (hl : a.length = n) (hb : Part ds L d (k + n) m b) : Part ds L d k (n + m) (a ++ b) := by
  refine ⟨fun j r h hbl => ?_, fun j j1 j2 j3 => ?_, fun _ => ?_⟩
  · by_cases hj : j < n
    · rw [List.getElem?_append_left (by omega)] at h
      exact ha.good j r h hbl
    · rw [List.getElem?_append_right (by omega), hl] at h
      have e : k + n + (j - n) = k + j := by omega
      have := hb.good (j - n) r h
      rw [e] at this
      exact this hbl
  · by_cases hj : j < k + n
    · exact ha.deep j j1 hj j3
    · exact hb.deep j (by omega) (by omega) j3
  · by_cases hm : m = 0
    · subst hm
      by_cases hn : n = 0
      · omega
      · exact ha.prev (by omega)
    · have := hb.prev (by omega)
      have e : k + n + m - 1 = k + (n + m) - 1 := by omega
      rwa [e] at this

/-- The body of a block, one level deeper, followed by something at this level. -/
theorem Part.deeper {d k n m : Nat} {a b : List (Option Nat)} (ha : Part ds L (d + 1) k n a)
    (hl : a.length = n) (hb : Part ds L d (k + n) m b) (hm : 0 < m) : Part ds L d k (n + m) (a ++ b) := by
  have ha' : ∀ j, k ≤ j → j < k + n → Conf.Spec.config ds (L j) → 4 * d ≤ Conf.Spec.indent (L j) :=
    fun j j1 j2 j3 => by have := ha.deep j j1 j2 j3; omega
  refine ⟨fun j r h hbl => ?_, fun j j1 j2 j3 => ?_, fun _ => ?_⟩
  · by_cases hj : j < n
    · rw [List.getElem?_append_left (by omega)] at h
      exact ha.good j r h hbl
    · rw [List.getElem?_append_right (by omega), hl] at h
      have e : k + n + (j - n) = k + j := by omega
      have := hb.good (j - n) r h
      rw [e] at this
      exact this hbl
  · by_cases hj : j < k + n
    · exact ha' j j1 hj j3
    · exact hb.deep j (by omega) (by omega) j3
  · have := hb.prev (by omega)
    have e : k + n + m - 1 = k + (n + m) - 1 := by omega
    rwa [e] at this

theorem Part.item {d k : Nat} {p : Option Nat} {t : Str} (hL : L k = Spec.at_ d t) (ht : Item t)
    (hc : Ctx ds L d k p) (hu : ¬ Conf.Spec.Unattached ds L k) : Part ds L d k 1 [p] := by
  have hi : Conf.Spec.indent (L k) = 4 * d := by rw [hL, indent_at ht]
  exact Part.single (fun _ => hc.good hi hu) (fun _ => by omega) (by omega)

theorem Part.empty {d k : Nat} {p : Option Nat} (hL : L k = Spec.at_ d []) : Part ds L d k 1 [p] := by
  have hb : Conf.Spec.blank (L k) := by rw [hL]; exact blank_at d
  exact Part.single (fun h => absurd hb h) (fun h => absurd hb h) (by rw [Conf.indent_blank hb]; omega)

theorem alts_pos (a : Spec.Alts) : 0 < (a.lines 0).length := by
  cases a <;> simp [Spec.Alts.lines]

mutual
theorem part_doc : ∀ (doc : Spec.Doc) (d k : Nat) (p : Option Nat), wf doc → doc.headers ds →
    Seg L k (doc.lines d) → Ctx ds L d k p → (0 < k → Conf.Spec.indent (L (k - 1)) ≤ 4 * d) →
    Part ds L d k (doc.lines 0).length (doc.owners p k)
  | .nil, d, k, p, _, _, _, _, _ => by
    simp only [Spec.Doc.lines, Spec.Doc.owners]; exact Part.nil
  | .leaf t r, d, k, p, hw, hh, hs, hc, hp => by
    rw [wf] at hw
    rw [Spec.Doc.headers] at hh
    rw [Spec.Doc.lines] at hs
    have h1 : Part ds L d k 1 [p] := Part.item hs.head hw.1.1 hc
      (not_unattached_prev (fun hk => by rw [hs.head, indent_at hw.1.1]; exact hp hk))
    have h2 := part_doc r d (k + 1) p hw.2 hh hs.tail (hc.extend (by omega) h1.deep)
      (fun _ => h1.prev (by omega))
    have := h1.append rfl h2
    simp only [Spec.Doc.lines, Spec.Doc.owners, List.length_cons]
    rw [Nat.add_comm _ 1]
    exact this
  | .note t r, d, k, p, hw, hh, hs, hc, hp => by
    rw [wf] at hw
    rw [Spec.Doc.headers] at hh
    rw [Spec.Doc.lines] at hs
    have h1 : Part ds L d k 1 [p] := Part.item hs.head hw.1.1 hc
      (not_unattached_prev (fun hk => by rw [hs.head, indent_at hw.1.1]; exact hp hk))
    have h2 := part_doc r d (k + 1) p hw.2 hh hs.tail (hc.extend (by omega) h1.deep)
      (fun _ => h1.prev (by omega))
    have := h1.append rfl h2
    simp only [Spec.Doc.lines, Spec.Doc.owners, List.length_cons]
    rw [Nat.add_comm _ 1]
    exact this
  | .gap r, d, k, p, hw, hh, hs, hc, hp => by
    rw [wf] at hw
    rw [Spec.Doc.headers] at hh
    rw [Spec.Doc.lines] at hs
    have h1 : Part ds L d k 1 [p] := Part.empty hs.head
    have h2 := part_doc r d (k + 1) p hw hh hs.tail (hc.extend (by omega) h1.deep)
      (fun _ => h1.prev (by omega))
    have := h1.append rfl h2
    simp only [Spec.Doc.lines, Spec.Doc.owners, List.length_cons]
    rw [Nat.add_comm _ 1]
    exact this
  | .block t b a r, d, k, p, hw, hh, hs, hc, hp => by
    rw [wf] at hw
    rw [Spec.Doc.headers] at hh
    rw [Spec.Doc.lines] at hs
    have h1 : Part ds L d k 1 [p] := Part.item hs.head hw.1.1 hc
      (not_unattached_prev (fun hk => by rw [hs.head, indent_at hw.1.1]; exact hp hk))
    have s2 := hs.tail.left
    have s3 := hs.tail.right.left
    have s4 := hs.tail.right.right
    rw [lines_length b (d + 1)] at s3 s4
    rw [linesA_length a d] at s4
    have h2 := part_doc b (d + 1) (k + 1) (some k) hw.2.1 hh.2.1 s2 (Ctx.body hs.head hw.1.1 hh.1)
      (fun _ => by have := h1.prev (by omega); omega)
    have c1 := hc.extend (k' := k + 1) (by omega) h1.deep
    have c2 : Ctx ds L d (k + 1 + (b.lines 0).length) p := c1.extend (by omega)
      (fun j j1 j2 j3 => by have := h2.deep j j1 j2 j3; omega)
    have h3 := part_alts a d (k + 1 + (b.lines 0).length) p hw.2.2.1 hh.2.2.1 s3 c2
    have h23 := h2.deeper (owners_length b _ _) h3 (alts_pos a)
    have c3 := c2.extend (by omega) h3.deep
    have h4 := part_doc r d (k + 1 + (b.lines 0).length + (a.lines 0).length) p hw.2.2.2 hh.2.2.2 s4 c3
      (fun _ => h3.prev (alts_pos a))
    rw [Nat.add_assoc (k + 1)] at h4
    have h234 := h23.append (by rw [List.length_append, owners_length, ownersA_length]) h4
    have := h1.append rfl h234
    simp only [Spec.Doc.lines, Spec.Doc.owners, List.length_cons, List.length_append]
    rw [lines_length b (0 + 1), Nat.add_comm _ 1, Nat.add_assoc (k + 1)]
    rw [List.append_assoc, Nat.add_assoc ((b.lines 0).length)] at this
    exact this
theorem part_alts : ∀ (a : Spec.Alts) (d k : Nat) (p : Option Nat), wfA a → a.headers ds →
    Seg L k (a.lines d) → Ctx ds L d k p →
    Part ds L d k (a.lines 0).length (a.owners p k)
  | .done, d, k, p, _, _, hs, _ => by
    rw [Spec.Alts.lines] at hs
    simp only [Spec.Alts.lines, Spec.Alts.owners]
    exact Part.empty hs.head
  | .alt t b a, d, k, p, hw, hh, hs, hc => by
    rw [wfA] at hw
    rw [Spec.Alts.headers] at hh
    rw [Spec.Alts.lines] at hs
    have h1 : Part ds L d k 1 [p] := Part.item hs.head hw.1.1 hc
      (not_unattached_config (by rw [hs.head]; exact config_at hw.1.1 d hh.1))
    have s2 := hs.tail.left
    have s3 := hs.tail.right
    rw [lines_length b (d + 1)] at s3
    have h2 := part_doc b (d + 1) (k + 1) (some k) hw.2.1 hh.2.1 s2 (Ctx.body hs.head hw.1.1 hh.1)
      (fun _ => by have := h1.prev (by omega); omega)
    have c1 := hc.extend (k' := k + 1) (by omega) h1.deep
    have c2 : Ctx ds L d (k + 1 + (b.lines 0).length) p := c1.extend (by omega)
      (fun j j1 j2 j3 => by have := h2.deep j j1 j2 j3; omega)
    have h3 := part_alts a d (k + 1 + (b.lines 0).length) p hw.2.2 hh.2.2 s3 c2
    have h23 := h2.deeper (owners_length b _ _) h3 (alts_pos a)
    have := h1.append rfl h23
    simp only [Spec.Alts.lines, Spec.Alts.owners, List.length_cons, List.length_append]
    rw [lines_length b (0 + 1), Nat.add_comm _ 1]
    exact this
end

end

end Junos

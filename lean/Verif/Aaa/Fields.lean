import Verif.Aaa.Props

/-! # Lines with one blank between the words, read word by word -/

namespace Aaa

open Py Conf Query Re Cisco

/-- A piece of an expression: a word, a captured run of a class, a captured word. -/
inductive Tok where
  | lit (w : Str)
  | fld (k : K) (g : Nat)
  | cap (g : Nat) (w : Str)

/-- The expression, before `p`. -/
def Tok.prog : Tok → Prog → Prog
  | lit w, p => str w p
  | fld k g, p => .grp g (.plus k .done) p
  | cap g w, p => .grp g (str w .done) p

/-- Reading one word. -/
def Tok.read : Tok → Str → Caps → Option Caps
  | lit v, w, c => if w = v then some c else none
  | fld k g, w, c => if w.all k.has then some ((g, w) :: c) else none
  | cap g v, w, c => if w = v then some ((g, v) :: c) else none

/-- Literal words are words, classes have no blank. -/
def Tok.ok : Tok → Bool
  | lit w => isWord w
  | fld k _ => !k.has ' '
  | cap _ w => isWord w

/-- Pieces with `\s+` or `\s` behind each. -/
def toksP (ts : List (Tok × Bool)) (p : Prog) : Prog := ts.foldr (fun t p => t.1.prog (gap t.2 p)) p

/-- Reading a piece from each word, and what is left. -/
def reads : List (Tok × Bool) → List Str → Caps → Option (List Str × Caps)
  | [], ws, c => some (ws, c)
  | _ :: _, [], _ => none
  | _ :: _, [_], _ => none
  | t :: ts, w :: u :: ws, c => (t.1.read w c).bind (fun c => reads ts (u :: ws) c)

/-- An expression that cannot begin within a word. -/
def Outside (p : Prog) : Prop := ∀ x s c, isSpace x = false → p.det (x :: s) c = none

theorem gap_outside (b : Bool) (p : Prog) : Outside (gap b p) := fun x s c hx => by
  cases b <;> simp [gap, Prog.det, K.has, hx]

theorem prefix_stop {v w r : Str} (hv : IsWord v) (hr : Stop r) (h : v <+: w ++ r) : v <+: w := by
  obtain ⟨u, hu⟩ := h
  by_cases hl : v.length ≤ w.length
  · exact ⟨w.drop v.length, by
      have := congrArg (List.take w.length) hu
      rw [List.take_left, List.take_append, List.take_of_length_le hl] at this
      have h2 := congrArg (List.drop v.length) this
      rw [List.drop_left] at h2
      rw [← h2, this]⟩
  · exfalso
    have hlt : w.length < v.length := by omega
    have hw : v = w ++ v.drop w.length := by
      have h1 : v.take w.length = w := by
        have := congrArg (List.take w.length) hu
        rwa [List.take_left, List.take_append_of_le_length (by omega)] at this
      conv => lhs; rw [← List.take_append_drop w.length v, h1]
    rw [hw, List.append_assoc] at hu
    have he := List.append_cancel_left hu
    have hne : v.drop w.length ≠ [] := by
      intro e
      have := congrArg List.length e
      simp at this
      omega
    obtain ⟨x, d, hd⟩ := List.exists_cons_of_ne_nil hne
    have hx : isSpace x = false := hv.2 x (List.mem_of_mem_drop (hd ▸ List.mem_cons_self ..))
    rw [hd] at he
    rcases hr with rfl | ⟨s, rfl⟩
    · cases he
    · simp only [List.cons_append, List.cons.injEq] at he
      rw [he.1] at hx
      cases hx

theorem str_stop {v w r : Str} (hv : IsWord v) (hw : IsWord w) (hr : Stop r) {p : Prog} (hp : Outside p) (c : Caps) :
    (str v p).det (w ++ r) c = if w = v then p.det r c else none := by
  rw [det_str]
  by_cases he : w = v
  · subst he
    rw [if_pos (List.prefix_append _ _), if_pos rfl, List.drop_left]
  · rw [if_neg he]
    by_cases h : v <+: w ++ r
    · obtain ⟨u, hu⟩ := prefix_stop hv hr h
      rw [if_pos h, ← hu, List.append_assoc, List.drop_left]
      cases u with
      | nil => rw [List.append_nil] at hu; exact absurd hu.symm he
      | cons x u => exact hp x _ c (hw.2 x (by rw [← hu]; simp))
    · rw [if_neg h]

theorem tok_stop {t : Tok} (ht : t.ok = true) {w r : Str} (hw : IsWord w) (hr : Stop r) {p : Prog} (hp : Outside p) (c : Caps) :
    (t.prog p).det (w ++ r) c = (t.read w c).bind (fun c => p.det r c) := by
  cases t with
  | lit v =>
    rw [Tok.prog, Tok.read, str_stop (isWord_iff.mp ht) hw hr hp]
    by_cases h : w = v
    · rw [if_pos h, if_pos h]; rfl
    · rw [if_neg h, if_neg h]; rfl
  | fld k g =>
    have hk : k.has ' ' = false := by simpa [Tok.ok] using ht
    rw [Tok.prog, Tok.read]
    by_cases h : w.all k.has = true
    · have hd := det_grp_word g hk (List.all_eq_true.mp h) hw.1 hr c
      rw [if_pos h]
      rw [Prog.det] at hd ⊢
      cases hq : (Prog.plus k .done).det (w ++ r) c with
      | none => rw [hq] at hd; cases hd
      | some q =>
        rw [hq] at hd
        simp only [Prog.det, Option.some.injEq, Prod.mk.injEq] at hd
        show p.det q.1 _ = p.det r _
        rw [hd.2, hd.1]
    · rw [if_neg h, Prog.det]
      obtain ⟨x, u, rfl⟩ := List.exists_cons_of_ne_nil hw.1
      rw [List.cons_append, Prog.det]
      by_cases hx : k.has x = true
      · simp only [if_pos hx, Prog.det]
        have hu : u.dropWhile k.has ≠ [] := by
          intro e
          apply h
          rw [List.all_cons, hx, Bool.true_and]
          rw [List.all_eq_true]
          intro y hy
          have h1 := List.takeWhile_append_dropWhile (p := k.has) (l := u)
          rw [e, List.append_nil] at h1
          rw [← h1] at hy
          exact List.all_eq_true.mp List.all_takeWhile y hy
        obtain ⟨y, v, hy⟩ := List.exists_cons_of_ne_nil hu
        have e2 : (u ++ r).dropWhile k.has = y :: v ++ r := by
          rw [List.dropWhile_append]
          simp [hy]
        rw [e2]
        exact hp y _ _ (hw.2 y (by
          have : y ∈ u := (List.dropWhile_suffix k.has).subset (hy ▸ List.mem_cons_self ..)
          simp [this]))
      · simp only [if_neg hx]
        rfl
  | cap g v =>
    have hv : IsWord v := isWord_iff.mp ht
    rw [Tok.prog, Tok.read, Prog.det, det_str]
    by_cases h : v <+: w ++ r
    · simp only [if_pos h, Prog.det]
      by_cases he : w = v
      · subst he
        rw [if_pos rfl, List.drop_left, List.length_append, Nat.add_sub_cancel, List.take_left]
        rfl
      · rw [if_neg he]
        obtain ⟨u, hu⟩ := prefix_stop hv hr h
        rw [← hu, List.append_assoc, List.drop_left]
        cases u with
        | nil => rw [List.append_nil] at hu; exact absurd hu.symm he
        | cons x u => exact hp x _ _ (hw.2 x (by rw [← hu]; simp))
    · have he : w ≠ v := fun e => h (e ▸ List.prefix_append _ _)
      simp only [if_neg h, if_neg he]
      rfl

theorem toks_det {ts : List (Tok × Bool)} (ht : ∀ t ∈ ts, t.1.ok = true) (p : Prog) :
    ∀ {ws : List Str}, (∀ w ∈ ws, IsWord w) → ws ≠ [] → ∀ c,
      (toksP ts p).det (Spec.line ws) c = (reads ts ws c).bind (fun q => p.det (Spec.line q.1) q.2) := by
  induction ts with
  | nil => intro ws _ _ c; rfl
  | cons t ts ih =>
    intro ws hw hne c
    have hp := gap_outside t.2 (toksP ts p)
    show (t.1.prog (gap t.2 (toksP ts p))).det _ c = _
    rcases ws with _ | ⟨w, _ | ⟨u, us⟩⟩
    · exact absurd rfl hne
    · have := tok_stop (ht t (by simp)) (hw w (by simp)) (r := []) (.inl rfl) hp c
      rw [List.append_nil] at this
      rw [show Spec.line [w] = w from rfl, this, reads]
      cases t.1.read w c with
      | none => rfl
      | some c' => cases h : t.2 <;> rfl
    · have hs := line_start (hw u (by simp)) us
      rw [line_cons w (by simp), tok_stop (ht t (by simp)) (hw w (by simp)) (.inr ⟨_, rfl⟩) hp c, reads]
      cases t.1.read w c with
      | none => rfl
      | some c' =>
        simp only [Option.bind_some]
        rw [gap_blank _ _ hs.1 hs.2, ih (fun t h => ht t (by simp [h])) (fun v hv => hw v (by simp [hv])) (by simp)]

/-- Reading the last word. -/
def lastOne (g : Nat) : List Str → Caps → Option (Str × Caps)
  | [w], c => some ([], (g, w) :: c)
  | _, _ => none

/-- A last word, and the end of the line. -/
theorem last_det (g : Nat) {E : Prog} (hE : E = .eol .done ∨ E = .spEol) {ws : List Str} (hw : ∀ w ∈ ws, IsWord w) (hne : ws ≠ []) (c : Caps) :
    (Prog.grp g (.plus .nonspace .done) E).det (Spec.line ws) c =
      lastOne g ws c := by
  have out : Outside E := by
    intro x s c hx
    rcases hE with rfl | rfl
    · rw [Prog.det, if_neg]
      rintro (h | h)
      · cases h
      · cases h; cases hx
    · rw [Prog.det, List.all_cons, hx]; rfl
  have nil : ∀ c, E.det [] c = some ([], c) := by
    intro c
    rcases hE with rfl | rfl <;> rfl
  rcases ws with _ | ⟨w, _ | ⟨u, us⟩⟩
  · exact absurd rfl hne
  · have h1 := hw w (by simp)
    have := tok_stop (t := .fld .nonspace g) (by rfl) h1 (r := []) (.inl rfl) out c
    rw [List.append_nil] at this
    refine this.trans ?_
    rw [Tok.read, if_pos (List.all_eq_true.mpr (word_nsp h1))]
    exact nil _
  · have h1 := hw w (by simp)
    have hs := line_start (hw u (by simp)) us
    rw [line_cons w (by simp)]
    refine (tok_stop (t := .fld .nonspace g) (by rfl) h1 (.inr ⟨_, rfl⟩) out c).trans ?_
    rw [Tok.read, if_pos (List.all_eq_true.mpr (word_nsp h1)), Option.bind_some]
    obtain ⟨x, s, hx⟩ := List.exists_cons_of_ne_nil hs.2
    have hxs : isSpace x = false := hs.1 x (by rw [hx]; rfl)
    rw [hx]
    rcases hE with rfl | rfl
    · rw [Prog.det, if_neg (by simp)]; rfl
    · rw [Prog.det, List.all_cons, List.all_cons, hxs]; rfl

/-- Pieces, a last word, and the end of the line. -/
theorem line_det {ts : List (Tok × Bool)} (ht : ∀ t ∈ ts, t.1.ok = true) (g : Nat) {E : Prog} (hE : E = .eol .done ∨ E = .spEol)
    {ws : List Str} (hw : ∀ w ∈ ws, IsWord w) (hne : ws ≠ []) (c : Caps) :
    (toksP ts (.grp g (.plus .nonspace .done) E)).det (Spec.line ws) c =
      (reads ts ws c).bind (fun q => lastOne g q.1 q.2) := by
  rw [toks_det ht _ hw hne]
  cases hr : reads ts ws c with
  | none => rfl
  | some q =>
    have left : ∀ (ts : List (Tok × Bool)) (ws : List Str) (c : Caps) (q : List Str × Caps), reads ts ws c = some q → ws ≠ [] →
        q.1 ≠ [] ∧ ∀ w ∈ q.1, w ∈ ws := by
      intro ts
      induction ts with
      | nil => intro ws c q h hne; cases h; exact ⟨hne, fun _ h => h⟩
      | cons t ts ih =>
        intro ws c q h hne
        rcases ws with _ | ⟨w, _ | ⟨u, us⟩⟩
        · cases h
        · cases h
        · rw [reads] at h
          cases hr : t.1.read w c with
          | none => rw [hr] at h; cases h
          | some c' =>
            rw [hr] at h
            obtain ⟨h1, h2⟩ := ih _ _ _ h (by simp)
            exact ⟨h1, fun w hw => List.mem_cons_of_mem _ (h2 w hw)⟩
    obtain ⟨h1, h2⟩ := left ts ws c q hr hne
    simp only [Option.bind_some]
    exact last_det g hE (fun w h => hw w (h2 w h)) h1 q.2

end Aaa

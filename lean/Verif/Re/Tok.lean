import Verif.Re.Must

/-! # Expressions that read words

`Sem n r u v e`: the expression can read `u` up to `v` and sets the groups `e`.  `Tw` and `Tk` say
which words an expression reads, where a word begins and where a word has just ended. -/

namespace Re

open Py

theorem runStar_shift {g : Bool} {f : Str → Caps → List (Str × Caps)}
    (H : ∀ u c, f u c = (f u []).map (fun q => (q.1, q.2 ++ c))) (m : Nat) :
    ∀ u c, runStar g f m u c = (runStar g f m u []).map (fun q => (q.1, q.2 ++ c)) := by
  induction m with
  | zero => intro u c; rfl
  | succ m ih =>
    intro u c
    have key : (f u c).flatMap (fun p => if p.1.length < u.length then runStar g f m p.1 p.2 else []) =
        ((f u []).flatMap (fun p => if p.1.length < u.length then runStar g f m p.1 p.2 else [])).map
          (fun q => (q.1, q.2 ++ c)) := by
      rw [H u c, List.map_flatMap, List.flatMap_map]
      congr 1
      funext p
      dsimp only
      split
      · rw [ih p.1 (p.2 ++ c), ih p.1 p.2, List.map_map]
        congr 1
        funext q
        simp
      · rfl
    rw [runStar, runStar]
    simp only [key]
    cases g <;> simp

/-- Earlier groups have no effect on the matches. -/
theorem run_shift (n : Nat) (r : Rgx) : ∀ u c, run n r u c = (run n r u []).map (fun q => (q.1, q.2 ++ c)) := by
  induction r with
  | eps => intro u c; rfl
  | cls k =>
    intro u c
    rw [run.eq_def, run.eq_def]
    cases u with
    | nil => rfl
    | cons a u => dsimp only; split <;> rfl
  | seq a b iha ihb =>
    intro u c
    rw [run, run, iha u c, List.map_flatMap, List.flatMap_map]
    congr 1
    funext p
    dsimp only
    rw [ihb p.1 (p.2 ++ c), ihb p.1 p.2, List.map_map]
    congr 1
    funext q
    simp
  | alt a b iha ihb =>
    intro u c
    rw [run, run, iha u c, ihb u c, List.map_append]
  | star g a ih => intro u c; rw [run, run]; exact runStar_shift ih _ u c
  | opt g a ih =>
    intro u c
    rw [run, run, ih u c]
    cases g <;> simp
  | grp k a ih =>
    intro u c
    rw [run, run, ih u c, List.map_map, List.map_map]
    congr 1
  | bol => intro u c; rw [run, run]; split <;> rfl
  | eol => intro u c; rw [run, run]; split <;> rfl
  | nla a ih =>
    intro u c
    rw [run, run, ih u c]
    simp only [List.isEmpty_map]
    split <;> rfl

/-- The expression can read `u` up to `v` and sets the groups `e`. -/
def Sem (n : Nat) (r : Rgx) (u v : Str) (e : Caps) : Prop := (v, e) ∈ run n r u []

theorem sem_run {n : Nat} {r : Rgx} {u v : Str} {c d : Caps} : (v, d) ∈ run n r u c ↔ ∃ e, Sem n r u v e ∧ d = e ++ c := by
  rw [run_shift, List.mem_map]
  constructor
  · rintro ⟨⟨w, e⟩, h1, h2⟩
    cases h2
    exact ⟨e, h1, rfl⟩
  · rintro ⟨e, h1, rfl⟩
    exact ⟨(v, e), h1, rfl⟩

theorem sem_nil {n : Nat} {u v : Str} {e : Caps} : Sem n (seqs []) u v e ↔ u = v ∧ e = [] := by
  rw [Sem, seqs, run, List.mem_singleton, Prod.mk.injEq, eq_comm (a := v)]

theorem sem_append {n : Nat} {l l' : List Rgx} {u v : Str} {e : Caps} :
    Sem n (seqs (l ++ l')) u v e ↔ ∃ w e1 e2, Sem n (seqs l) u w e1 ∧ Sem n (seqs l') w v e2 ∧ e = e2 ++ e1 := by
  rw [Sem, run_seqs_append, List.mem_flatMap]
  constructor
  · rintro ⟨⟨w, e1⟩, h1, h2⟩
    obtain ⟨e2, h3, h4⟩ := sem_run.mp h2
    exact ⟨w, e1, e2, h1, h3, h4⟩
  · rintro ⟨w, e1, e2, h1, h2, h3⟩
    exact ⟨(w, e1), h1, sem_run.mpr ⟨e2, h2, h3⟩⟩

theorem sem_cons {n : Nat} {a : Rgx} {l : List Rgx} {u v : Str} {e : Caps} :
    Sem n (seqs (a :: l)) u v e ↔ ∃ w e1 e2, Sem n a u w e1 ∧ Sem n (seqs l) w v e2 ∧ e = e2 ++ e1 := by
  rw [show a :: l = [a] ++ l from rfl, sem_append]
  rfl

theorem sem_alt {n : Nat} {a b : Rgx} {u v : Str} {e : Caps} : Sem n (.alt a b) u v e ↔ Sem n a u v e ∨ Sem n b u v e := by
  simp only [Sem, run, List.mem_append]

theorem sem_opt {n : Nat} {g : Bool} {a : Rgx} {u v : Str} {e : Caps} :
    Sem n (.opt g a) u v e ↔ Sem n a u v e ∨ (u = v ∧ e = []) := by
  rw [Sem, Sem, run]
  cases g
  · simp only [Bool.false_eq_true, if_false, List.mem_cons, Prod.mk.injEq]
    rw [or_comm, eq_comm (a := v)]
  · simp only [if_true, List.mem_append, List.mem_singleton, Prod.mk.injEq]
    rw [eq_comm (a := v)]

theorem sem_grp {n k : Nat} {a : Rgx} {u v : Str} {e : Caps} :
    Sem n (.grp k a) u v e ↔ ∃ x e', Sem n a u v e' ∧ u = x ++ v ∧ e = (k, x) :: e' := by
  rw [Sem, run, List.mem_map]
  constructor
  · rintro ⟨⟨w, e'⟩, h1, h2⟩
    simp only [Prod.mk.injEq] at h2
    obtain ⟨rfl, rfl⟩ := h2
    obtain ⟨_, _, ⟨x, hx⟩, _⟩ := run_obeys n a u [] w e' h1
    exact ⟨x, e', h1, hx, by rw [hx]; simp⟩
  · rintro ⟨x, e', h1, h2, rfl⟩
    exact ⟨(v, e'), h1, by rw [h2]; simp⟩

/-- An expression without groups. -/
theorem sem_plain {n : Nat} {r : Rgx} (hb : r.bodies = []) {u v : Str} {e : Caps} : Sem n r u v e ↔ Lang n r u v ∧ e = [] := by
  have key : ∀ d, (v, d) ∈ run n r u [] → d = [] := by
    intro d h
    obtain ⟨e, rfl, _, h2, _⟩ := run_obeys n r u [] v d h
    cases e with
    | nil => rfl
    | cons q e =>
      obtain ⟨b, h3, _⟩ := h2 q (by simp)
      rw [hb] at h3
      cases h3
  constructor
  · intro h
    exact ⟨(lang_run n r u [] v).mp ⟨e, h⟩, key e h⟩
  · rintro ⟨h, rfl⟩
    obtain ⟨d, hd⟩ := (lang_run n r u [] v).mpr h
    have := key d hd
    subst this
    exact hd

/-! ## Words -/

/-- A word has just ended. -/
def Brk (v : Str) : Prop := ∀ x, v.head? = some x → isSpace x = true

/-- A word begins. -/
def Beg (u : Str) : Prop := ∃ x, u.head? = some x ∧ isSpace x = false

theorem beg_lstrip {u : Str} (h : Beg u) : lstrip u = u ∧ u ≠ [] := by
  obtain ⟨x, h1, h2⟩ := h
  cases u with
  | nil => cases h1
  | cons a s =>
    cases h1
    exact ⟨by rw [lstrip, List.dropWhile_cons, if_neg (by simp [h2])], by simp⟩

theorem beg_of {u : Str} (h : splitWs u ≠ []) : Beg (lstrip u) := by
  have hne : lstrip u ≠ [] := by
    intro h0
    rw [← splitWs_lstrip, h0] at h
    exact h rfl
  obtain ⟨x, s, hx⟩ := List.exists_cons_of_ne_nil hne
  refine ⟨x, by rw [hx]; rfl, ?_⟩
  cases hs : isSpace x with
  | false => rfl
  | true =>
    have := lstrip_lstrip u
    rw [hx, lstrip, List.dropWhile_cons, if_pos hs] at this
    have hl := (List.dropWhile_suffix isSpace (l := s)).length_le
    rw [this, List.length_cons] at hl
    omega

/-- Where a word begins the expression reads the words `P`, and sets groups. -/
structure Tw (n : Nat) (r : Rgx) (P : List Str → Caps → Prop) : Prop where
  sound : ∀ {u v e}, Sem n r u v e → Brk v → Beg u ∧ ∃ ws, splitWs u = ws ++ splitWs v ∧ P ws e
  compl : ∀ {u ws rest e}, Beg u → splitWs u = ws ++ rest → P ws e → ∃ v, Sem n r u v e ∧ Brk v ∧ splitWs v = rest

/-- The same where a word has just ended. -/
structure Tk (n : Nat) (r : Rgx) (P : List Str → Caps → Prop) : Prop where
  sound : ∀ {u v e}, Sem n r u v e → Brk v → Brk u ∧ ∃ ws, splitWs u = ws ++ splitWs v ∧ P ws e
  compl : ∀ {u ws rest e}, Brk u → splitWs u = ws ++ rest → P ws e → ∃ v, Sem n r u v e ∧ Brk v ∧ splitWs v = rest

/-- First the one, then the other. -/
def Then (P Q : List Str → Caps → Prop) (ws : List Str) (e : Caps) : Prop :=
  ∃ w1 w2 e1 e2, P w1 e1 ∧ Q w2 e2 ∧ ws = w1 ++ w2 ∧ e = e2 ++ e1

/-- Nothing. -/
def Void (ws : List Str) (e : Caps) : Prop := ws = [] ∧ e = []

/-- One or the other. -/
def Or2 (P Q : List Str → Caps → Prop) (ws : List Str) (e : Caps) : Prop := P ws e ∨ Q ws e

/-- One word, kept in a group if there is one. -/
def One (o : Option Nat) (Q : Str → Prop) (ws : List Str) (e : Caps) : Prop :=
  ∃ x, Q x ∧ ws = [x] ∧ e = match o with | some k => [(k, x)] | none => []

theorem Tw.mono {n : Nat} {r : Rgx} {P Q : List Str → Caps → Prop} (h : Tw n r P) (hPQ : ∀ ws e, P ws e ↔ Q ws e) : Tw n r Q := by
  have : P = Q := by funext ws e; exact propext (hPQ ws e)
  exact this ▸ h

theorem Tw.append {n : Nat} {l l' : List Rgx} {P Q : List Str → Caps → Prop} (h1 : Tw n (seqs l) P) (h2 : Tk n (seqs l') Q) :
    Tw n (seqs (l ++ l')) (Then P Q) := by
  constructor
  · intro u v e h hv
    obtain ⟨w, e1, e2, h3, h4, rfl⟩ := sem_append.mp h
    obtain ⟨hb, w2, h5, h6⟩ := h2.sound h4 hv
    obtain ⟨hu, w1, h7, h8⟩ := h1.sound h3 hb
    exact ⟨hu, w1 ++ w2, by rw [h7, h5, List.append_assoc], w1, w2, e1, e2, h8, h6, rfl, rfl⟩
  · rintro u ws rest e hu hs ⟨w1, w2, e1, e2, h3, h4, rfl, rfl⟩
    rw [List.append_assoc] at hs
    obtain ⟨w, h5, h6, h7⟩ := h1.compl hu hs h3
    obtain ⟨v, h8, h9, h10⟩ := h2.compl h6 h7 h4
    exact ⟨v, sem_append.mpr ⟨w, e1, e2, h5, h8, rfl⟩, h9, h10⟩

theorem Tk.append {n : Nat} {l l' : List Rgx} {P Q : List Str → Caps → Prop} (h1 : Tk n (seqs l) P) (h2 : Tk n (seqs l') Q) :
    Tk n (seqs (l ++ l')) (Then P Q) := by
  constructor
  · intro u v e h hv
    obtain ⟨w, e1, e2, h3, h4, rfl⟩ := sem_append.mp h
    obtain ⟨hb, w2, h5, h6⟩ := h2.sound h4 hv
    obtain ⟨hu, w1, h7, h8⟩ := h1.sound h3 hb
    exact ⟨hu, w1 ++ w2, by rw [h7, h5, List.append_assoc], w1, w2, e1, e2, h8, h6, rfl, rfl⟩
  · rintro u ws rest e hu hs ⟨w1, w2, e1, e2, h3, h4, rfl, rfl⟩
    rw [List.append_assoc] at hs
    obtain ⟨w, h5, h6, h7⟩ := h1.compl hu hs h3
    obtain ⟨v, h8, h9, h10⟩ := h2.compl h6 h7 h4
    exact ⟨v, sem_append.mpr ⟨w, e1, e2, h5, h8, rfl⟩, h9, h10⟩

theorem Tw.cons {n : Nat} {a : Rgx} {l : List Rgx} {P Q : List Str → Caps → Prop} (h1 : Tw n a P) (h2 : Tk n (seqs l) Q) :
    Tw n (seqs (a :: l)) (Then P Q) := Tw.append (l := [a]) h1 h2

theorem Tk.cons {n : Nat} {a : Rgx} {l : List Rgx} {P Q : List Str → Caps → Prop} (h1 : Tk n a P) (h2 : Tk n (seqs l) Q) :
    Tk n (seqs (a :: l)) (Then P Q) := Tk.append (l := [a]) h1 h2

theorem Tw.alt {n : Nat} {a b : Rgx} {P Q : List Str → Caps → Prop} (h1 : Tw n a P) (h2 : Tw n b Q) : Tw n (.alt a b) (Or2 P Q) := by
  constructor
  · intro u v e h hv
    rcases sem_alt.mp h with h | h
    · obtain ⟨hu, ws, h3, h4⟩ := h1.sound h hv
      exact ⟨hu, ws, h3, .inl h4⟩
    · obtain ⟨hu, ws, h3, h4⟩ := h2.sound h hv
      exact ⟨hu, ws, h3, .inr h4⟩
  · rintro u ws rest e hu hs (h | h)
    · obtain ⟨v, h3, h4⟩ := h1.compl hu hs h
      exact ⟨v, sem_alt.mpr (.inl h3), h4⟩
    · obtain ⟨v, h3, h4⟩ := h2.compl hu hs h
      exact ⟨v, sem_alt.mpr (.inr h3), h4⟩

theorem Tk.alt {n : Nat} {a b : Rgx} {P Q : List Str → Caps → Prop} (h1 : Tk n a P) (h2 : Tk n b Q) : Tk n (.alt a b) (Or2 P Q) := by
  constructor
  · intro u v e h hv
    rcases sem_alt.mp h with h | h
    · obtain ⟨hu, ws, h3, h4⟩ := h1.sound h hv
      exact ⟨hu, ws, h3, .inl h4⟩
    · obtain ⟨hu, ws, h3, h4⟩ := h2.sound h hv
      exact ⟨hu, ws, h3, .inr h4⟩
  · rintro u ws rest e hu hs (h | h)
    · obtain ⟨v, h3, h4⟩ := h1.compl hu hs h
      exact ⟨v, sem_alt.mpr (.inl h3), h4⟩
    · obtain ⟨v, h3, h4⟩ := h2.compl hu hs h
      exact ⟨v, sem_alt.mpr (.inr h3), h4⟩

theorem Tk.opt {n : Nat} {g : Bool} {a : Rgx} {P : List Str → Caps → Prop} (h : Tk n a P) : Tk n (.opt g a) (Or2 P Void) := by
  constructor
  · intro u v e h1 hv
    rcases sem_opt.mp h1 with h1 | ⟨rfl, rfl⟩
    · obtain ⟨hu, ws, h3, h4⟩ := h.sound h1 hv
      exact ⟨hu, ws, h3, .inl h4⟩
    · exact ⟨hv, [], rfl, .inr ⟨rfl, rfl⟩⟩
  · rintro u ws rest e hu hs (h1 | ⟨rfl, rfl⟩)
    · obtain ⟨v, h3, h4⟩ := h.compl hu hs h1
      exact ⟨v, sem_opt.mpr (.inl h3), h4⟩
    · exact ⟨u, sem_opt.mpr (.inr ⟨rfl, rfl⟩), hu, hs⟩

theorem Tk.nil {n : Nat} : Tk n (seqs []) Void := by
  constructor
  · intro u v e h hv
    obtain ⟨rfl, rfl⟩ := sem_nil.mp h
    exact ⟨hv, [], rfl, rfl, rfl⟩
  · rintro u ws rest e hu hs ⟨rfl, rfl⟩
    exact ⟨u, sem_nil.mpr ⟨rfl, rfl⟩, hu, hs⟩

/-- `\s+` -/
def spR : Rgx := .seq (.cls K.space.cls) (.star true (.cls K.space.cls))

/-- `\S+` -/
def wordR : Rgx := .seq (.cls K.nonspace.cls) (.star true (.cls K.nonspace.cls))

/-- `\d+` -/
def digR : Rgx := .seq (.cls K.digit.cls) (.star true (.cls K.digit.cls))

/-- `\s+` and words. -/
theorem Tw.sp {n : Nat} {l : List Rgx} {P : List Str → Caps → Prop} (h : Tw n (seqs l) P) (hne : ∀ ws e, P ws e → ws ≠ []) :
    Tk n (seqs (spR :: l)) P := by
  constructor
  · intro u v e h1 hv
    obtain ⟨w, e1, e2, h2, h3, rfl⟩ := sem_cons.mp h1
    obtain ⟨h4, rfl⟩ := (sem_plain rfl).mp h2
    obtain ⟨x, rfl, hx, hs⟩ := (lang_plus n true .space u w).mp h4
    obtain ⟨hw, ws, h5, h6⟩ := h.sound h3 hv
    refine ⟨?_, ws, ?_, by rw [List.append_nil]; exact h6⟩
    · intro y hy
      obtain ⟨a, x', rfl⟩ := List.exists_cons_of_ne_nil hx
      cases hy
      exact hs _ (by simp)
    · rw [splitWs_spaces x w hs, h5]
  · intro u ws rest e hu hs h1
    have hne' : splitWs u ≠ [] := by
      rw [hs]
      intro h0
      exact hne ws e h1 (List.append_eq_nil_iff.mp h0).1
    obtain ⟨v, h2, h3, h4⟩ := h.compl (beg_of hne') (by rw [splitWs_lstrip]; exact hs) h1
    refine ⟨v, sem_cons.mpr ⟨lstrip u, [], e, (sem_plain rfl).mpr ⟨?_, rfl⟩, h2, by simp⟩, h3, h4⟩
    refine (lang_plus n true .space u _).mpr ⟨u.takeWhile isSpace, List.takeWhile_append_dropWhile.symm, ?_, ?_⟩
    · intro h0
      cases u with
      | nil => exact hne' rfl
      | cons a s =>
        have ha := hu a rfl
        rw [List.takeWhile_cons, if_pos ha] at h0
        cases h0
    · intro c hc
      exact List.all_eq_true.mp (List.all_takeWhile (p := isSpace) (l := u)) c hc

/-- The expression reads the words `Q`. -/
def Wd (n : Nat) (r : Rgx) (Q : Str → Prop) : Prop :=
  r.bodies = [] ∧ (∀ u v, Lang n r u v ↔ ∃ x, u = x ++ v ∧ Q x) ∧ ∀ x, Q x → IsWord x

theorem Wd.mono {n : Nat} {r : Rgx} {P Q : Str → Prop} (h : Wd n r P) (hPQ : ∀ x, P x ↔ Q x) : Wd n r Q := by
  have : P = Q := by funext x; exact propext (hPQ x)
  exact this ▸ h

theorem beg_word {x v : Str} (h : IsWord x) : Beg (x ++ v) := by
  obtain ⟨a, s, rfl⟩ := List.exists_cons_of_ne_nil h.1
  exact ⟨a, rfl, h.2 a (by simp)⟩

theorem split_beg {u : Str} (hu : Beg u) {x : Str} {rest : List Str} (h : splitWs u = x :: rest) :
    ∃ v, u = x ++ v ∧ Brk v ∧ splitWs v = rest := by
  obtain ⟨h1, h2⟩ := beg_lstrip hu
  obtain ⟨h3, h4, h5⟩ := split_word h1 h2
  rw [splitWs_cons h1 h2, List.cons.injEq] at h
  exact ⟨u.dropWhile nsp, by rw [← h.1]; exact h3, h5, h.2⟩

theorem Wd.tw {n : Nat} {r : Rgx} {Q : Str → Prop} (h : Wd n r Q) : Tw n r (One none Q) := by
  obtain ⟨hb, hl, hw⟩ := h
  constructor
  · intro u v e h1 hv
    obtain ⟨h2, rfl⟩ := (sem_plain hb).mp h1
    obtain ⟨x, rfl, hx⟩ := (hl u v).mp h2
    exact ⟨beg_word (hw x hx), [x], splitWs_word_rest (hw x hx) hv, x, hx, rfl, rfl⟩
  · rintro u ws rest e hu hs ⟨x, hx, rfl, rfl⟩
    obtain ⟨v, rfl, h1, h2⟩ := split_beg hu hs
    exact ⟨v, (sem_plain hb).mpr ⟨(hl _ _).mpr ⟨x, rfl, hx⟩, rfl⟩, h1, h2⟩

theorem Wd.grp {n k : Nat} {r : Rgx} {Q : Str → Prop} (h : Wd n r Q) : Tw n (.grp k r) (One (some k) Q) := by
  obtain ⟨hb, hl, hw⟩ := h
  constructor
  · intro u v e h1 hv
    obtain ⟨y, e', h2, hy, rfl⟩ := sem_grp.mp h1
    obtain ⟨h3, rfl⟩ := (sem_plain hb).mp h2
    obtain ⟨x, rfl, hx⟩ := (hl u v).mp h3
    have := List.append_cancel_right hy
    subst this
    exact ⟨beg_word (hw x hx), [x], splitWs_word_rest (hw x hx) hv, x, hx, rfl, rfl⟩
  · rintro u ws rest e hu hs ⟨x, hx, rfl, rfl⟩
    obtain ⟨v, rfl, h1, h2⟩ := split_beg hu hs
    exact ⟨v, sem_grp.mpr ⟨x, [], (sem_plain hb).mpr ⟨(hl _ _).mpr ⟨x, rfl, hx⟩, rfl⟩, rfl, rfl⟩, h1, h2⟩

theorem Wd.alt {n : Nat} {a b : Rgx} {P Q : Str → Prop} (h1 : Wd n a P) (h2 : Wd n b Q) : Wd n (.alt a b) (fun x => P x ∨ Q x) := by
  obtain ⟨b1, l1, w1⟩ := h1
  obtain ⟨b2, l2, w2⟩ := h2
  refine ⟨by rw [Rgx.bodies, b1, b2]; rfl, ?_, ?_⟩
  · intro u v
    rw [Lang, l1, l2]
    constructor
    · rintro (⟨x, h, hx⟩ | ⟨x, h, hx⟩)
      · exact ⟨x, h, .inl hx⟩
      · exact ⟨x, h, .inr hx⟩
    · rintro ⟨x, h, hx | hx⟩
      · exact .inl ⟨x, h, hx⟩
      · exact .inr ⟨x, h, hx⟩
  · rintro x (hx | hx)
    · exact w1 x hx
    · exact w2 x hx

/-- A literal word. -/
def litR (w : Str) : Rgx := seqs (str w .done).toL

theorem litR_bodies (w : Str) : (litR w).bodies = [] := by
  induction w with
  | nil => rfl
  | cons x w ih =>
    cases w with
    | nil => rfl
    | cons y w =>
      show (Rgx.seq _ (litR (y :: w))).bodies = []
      rw [Rgx.bodies, ih]
      rfl

theorem wd_lit (n : Nat) {w : Str} (hw : IsWord w) : Wd n (litR w) (· = w) := by
  refine ⟨litR_bodies w, ?_, fun x hx => hx ▸ hw⟩
  intro u v
  rw [litR, lang_str]
  constructor
  · rintro ⟨r, h, rfl⟩
    exact ⟨w, h, rfl⟩
  · rintro ⟨x, h, rfl⟩
    exact ⟨v, h, rfl⟩

theorem wd_word (n : Nat) : Wd n wordR IsWord := by
  refine ⟨rfl, ?_, fun x hx => hx⟩
  intro u v
  rw [wordR, lang_plus]
  constructor
  · rintro ⟨x, h1, h2, h3⟩
    exact ⟨x, h1, h2, fun c hc => by simpa [K.has] using h3 c hc⟩
  · rintro ⟨x, h1, h2, h3⟩
    exact ⟨x, h1, h2, fun c hc => by simpa [K.has] using h3 c hc⟩

/-- Digs. -/
def Digs (x : Str) : Prop := x ≠ [] ∧ ∀ c ∈ x, isDigit c = true

theorem Digs.word {x : Str} (h : Digs x) : IsWord x := ⟨h.1, fun c hc => digit_not_space (h.2 c hc)⟩

theorem wd_dig (n : Nat) : Wd n digR Digs := by
  refine ⟨rfl, ?_, fun x hx => hx.word⟩
  intro u v
  rw [digR, lang_plus]
  rfl

/-- Literal words and an expression at the end. -/
theorem wd_lits (n : Nat) {r : Rgx} {Q : Str → Prop} (h : Wd n r Q) : ∀ (ws : List Str), (∀ w ∈ ws, IsWord w) →
    Wd n (alts (ws.map litR ++ [r])) (fun x => x ∈ ws ∨ Q x)
  | [], _ => h.mono (by simp)
  | w :: ws, hw => by
    have h2 := (wd_lit n (hw w (by simp))).alt (wd_lits n h ws (fun x hx => hw x (by simp [hx])))
    have e : alts ((w :: ws).map litR ++ [r]) = .alt (litR w) (alts (ws.map litR ++ [r])) := by
      cases ws <;> rfl
    rw [e]
    exact h2.mono (by simp [or_assoc])

theorem wd_list (n : Nat) : ∀ (ws : List Str), ws ≠ [] → (∀ w ∈ ws, IsWord w) → Wd n (alts (ws.map litR)) (· ∈ ws)
  | [w], _, hw => (wd_lit n (hw w (by simp))).mono (by simp)
  | w :: y :: ws, _, hw => by
    have h2 := (wd_lit n (hw w (by simp))).alt (wd_list n (y :: ws) (by simp) (fun x hx => hw x (by simp [hx])))
    exact h2.mono (by simp)

/-- `\s*$` -/
def endL : List Rgx := [.star true (.cls K.space.cls), .eol]

theorem sem_end {n : Nat} {u v : Str} {e : Caps} (h : Sem n (seqs endL) u v e) : Brk u ∧ splitWs u = [] ∧ e = [] := by
  obtain ⟨h0, rfl⟩ := (sem_plain rfl).mp h
  rw [endL, lang_cons] at h0
  obtain ⟨w, h1, h2⟩ := h0
  obtain ⟨x, rfl, hx⟩ := (lang_star' n true .space u w).mp h1
  have hw : w = [] ∨ w = ['\n'] := by
    rw [seqs, Lang] at h2
    exact h2.2
  have ha : ∀ c ∈ x ++ w, isSpace c = true := by
    intro c hc
    rcases List.mem_append.mp hc with hc | hc
    · exact hx c hc
    · rcases hw with rfl | rfl
      · cases hc
      · have : c = '\n' := by simpa using hc
        subst this
        decide
  refine ⟨?_, splitWs_blank ha, rfl⟩
  intro y hy
  exact ha y (List.mem_of_mem_head? hy)

theorem end_sem {n : Nat} {u : Str} (h : splitWs u = []) : Sem n (seqs endL) u [] [] := by
  refine (sem_plain rfl).mpr ⟨?_, rfl⟩
  rw [endL, lang_cons]
  refine ⟨[], (lang_star' n true .space u []).mpr ⟨u, by simp, ?_⟩, ?_⟩
  · intro c hc
    exact List.all_eq_true.mp (splitWs_eq_nil.mp h) c hc
  · rw [seqs, Lang]
    exact ⟨rfl, .inl rfl⟩

end Re

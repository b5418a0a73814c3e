import Verif.Re.Hit
import Verif.Cisco.Factory
import Verif.Cisco.Spec

/-! # Lemmas on the expression for IPv4 static routes -/

namespace Cisco

open Py Conf Query Re

/-- `\d+\.\d+\.\d+\.\d+`. -/
def quadP : Prog :=
  .plus .digit (.chr '.' (.plus .digit (.chr '.' (.plus .digit (.chr '.' (.plus .digit .done))))))

/-- ` kw (k+)` with the group `g`. -/
def keyP (kw : Str) (g : Nat) (k : K) : Prog := .plus .space (str kw (.plus .space (.grp g (.plus k .done) .done)))

/-- ` (kw)` with the group `g`. -/
def wordP (kw : Str) (g : Nat) : Prog := .plus .space (.grp g (str kw .done) .done)

/-- ` (digits)`. -/
def numP (g : Nat) : Prog := .plus .space (.grp g (.plus .digit .done) .done)

/-- ` (quad)`. -/
def addrP (g : Nat) : Prog := .plus .space (.grp g quadP .done)

/-- `\s+([^\d]\S+)`. -/
def intfL (g : Nat) : List Rgx :=
  [.seq (.cls K.space.cls) (.star true (.cls K.space.cls)),
    .grp g (.seq (.cls ⟨[.digit], true, false⟩) (.seq (.cls K.nonspace.cls) (.star true (.cls K.nonspace.cls))))]

/-- An optional part. -/
def optL (l : List Rgx) : Rgx := .opt true (seqs l)

/-- The expression behind `^`. -/
def routeL : List Rgx :=
  (str "ip".toList (.plus .space (str "route".toList .done))).toL ++
  (optL (keyP "vrf".toList 1 .nonspace).toL :: ((addrP 2).toL ++ ((addrP 3).toL ++
  [optL (intfL 4), optL (addrP 5).toL, optL (wordP "dhcp".toList 6).toL, optL (wordP "global".toList 7).toL,
    optL (numP 8).toL, optL (wordP "multicast".toList 9).toL, optL (keyP "name".toList 10 .nonspace).toL,
    optL (wordP "permanent".toList 11).toL, optL (keyP "track".toList 12 .digit).toL,
    optL (keyP "tag".toList 13 .digit).toL])))

/-- The names of its groups. -/
def routeNames : List (Str × Nat) :=
  [("vrf".toList, 1), ("prefix".toList, 2), ("netmask".toList, 3), ("nh_intf".toList, 4), ("nh_addr".toList, 5),
    ("dhcp".toList, 6), ("global".toList, 7), ("ad".toList, 8), ("mcast".toList, 9), ("name".toList, 10),
    ("permanent".toList, 11), ("track".toList, 12), ("tag".toList, 13)]

theorem compile_route : (compileL reIpRoute { verbose := true }).toOption = some ⟨seqs (.bol :: routeL), 13, routeNames⟩ := by
  decide +kernel

/-- The words, each with a blank before it. -/
def tl (ws : List Str) : Str := ws.flatMap (fun w => ' ' :: w)

theorem tl_cons (w : Str) (ws : List Str) : tl (w :: ws) = ' ' :: (w ++ tl ws) := rfl

theorem tl_append (a b : List Str) : tl (a ++ b) = tl a ++ tl b := List.flatMap_append

theorem tl_stop (ws : List Str) : Stop (tl ws) := by
  cases ws with
  | nil => exact Or.inl rfl
  | cons w ws => exact Or.inr ⟨_, rfl⟩

theorem join_tl (w : Str) (ws : List Str) : join [' '] (w :: ws) = w ++ tl ws := by
  induction ws generalizing w with
  | nil => simp [join, tl]
  | cons v ws ih => rw [join, ih, tl_cons, List.append_assoc]; rfl

/-- One more capture, or none. -/
def cap (g : Nat) (o : Option Str) (c : Caps) : Caps :=
  match o with
  | some v => (g, v) :: c
  | none => c

/-- A property of the next word, if there is one. -/
def HD (P : Str → Prop) (ws : List Str) : Prop := ∀ w, ws.head? = some w → P w

theorem hd_nil (P : Str → Prop) : HD P [] := fun _ h => by cases h

theorem hd_cons {P : Str → Prop} {w : Str} (h : P w) (ws : List Str) : HD P (w :: ws) := fun v hv => by cases hv; exact h

theorem hd_append {P : Str → Prop} {a b : List Str} (h1 : HD P a) (h2 : HD P b) : HD P (a ++ b) := by
  cases a with
  | nil => exact h2
  | cons x a => exact h1

theorem word_cons {w : Str} (h : IsWord w) : ∃ x w', w = x :: w' ∧ isSpace x = false := by
  obtain ⟨x, w', rfl⟩ := List.exists_cons_of_ne_nil h.1
  exact ⟨x, w', rfl, h.2 x (by simp)⟩

theorem blank_word (p : Prog) {w : Str} (h : IsWord w) (r : Str) (c : Caps) :
    (Prog.plus .space p).det (' ' :: (w ++ r)) c = p.det (w ++ r) c := by
  obtain ⟨x, w', rfl, hx⟩ := word_cons h
  exact det_blank p hx _ _

theorem keyP_hit {kw v : Str} (hkw : IsWord kw) (hv : IsWord v) (g : Nat) {k : K} (hk : k.has ' ' = false)
    (hvk : ∀ x ∈ v, k.has x = true) (ws : List Str) (c : Caps) :
    (keyP kw g k).det (tl (kw :: v :: ws)) c = some (tl ws, (g, v) :: c) := by
  rw [tl_cons, tl_cons, keyP, blank_word _ hkw, det_str, if_pos (List.prefix_append _ _), List.drop_left, blank_word _ hv]
  exact det_grp_word g hk hvk hv.1 (tl_stop ws) c

theorem wordP_hit {kw : Str} (hkw : IsWord kw) (g : Nat) (ws : List Str) (c : Caps) :
    (wordP kw g).det (tl (kw :: ws)) c = some (tl ws, (g, kw) :: c) := by
  have h : (str kw Prog.done).det (kw ++ tl ws) c = some (tl ws, c) := by
    rw [det_str, if_pos (List.prefix_append _ _), List.drop_left]; rfl
  rw [tl_cons, wordP, blank_word _ hkw, Prog.det, h]
  simp [Prog.det]

theorem numP_hit {v : Str} (hv : Spec.Digits v) (g : Nat) (ws : List Str) (c : Caps) :
    (numP g).det (tl (v :: ws)) c = some (tl ws, (g, v) :: c) := by
  have hw : IsWord v := ⟨hv.1, fun c hc => digit_not_space (hv.2 c hc)⟩
  rw [tl_cons, numP, blank_word _ hw]
  exact det_grp_word g (by decide) hv.2 hv.1 (tl_stop ws) c

theorem det_digits (p : Prog) {v r : Str} (hv : Spec.Digits v) (hr : ∀ x, r.head? = some x → isDigit x = false) (c : Caps) :
    (Prog.plus .digit p).det (v ++ r) c = p.det r c := by
  obtain ⟨x, w, rfl⟩ := List.exists_cons_of_ne_nil hv.1
  rw [List.cons_append, plus_cons, if_pos (show K.digit.has x = true from hv.2 x (by simp))]
  congr 1
  have : ∀ w : Str, (∀ y ∈ w, isDigit y = true) → (w ++ r).dropWhile K.digit.has = r := by
    intro w hw
    induction w with
    | nil =>
      cases r with
      | nil => rfl
      | cons y r =>
        rw [List.nil_append, List.dropWhile_cons_of_neg]
        rw [show K.digit.has y = isDigit y from rfl, hr y rfl]
        simp
    | cons y w ih =>
      rw [List.cons_append, List.dropWhile_cons_of_pos (show K.digit.has y = true from hw y (by simp))]
      exact ih (fun c hc => hw c (by simp [hc]))
  exact this w (fun y hy => hv.2 y (by simp [hy]))

theorem stop_digit {r : Str} (h : Stop r) : ∀ x, r.head? = some x → isDigit x = false := by
  rcases h with rfl | ⟨r', rfl⟩
  · simp
  · intro c hc; cases hc; decide

theorem quad_word {v : Str} (hv : Spec.DottedQuad v) : IsWord v ∧ ∃ x w, v = x :: w ∧ isDigit x = true := by
  obtain ⟨a, b, c, d, rfl, h⟩ := hv
  have ha := h a (by simp)
  have hb := h b (by simp)
  have hc := h c (by simp)
  have hd := h d (by simp)
  obtain ⟨x, w, rfl⟩ := List.exists_cons_of_ne_nil ha.1
  refine ⟨⟨by simp, ?_⟩, x, _, rfl, ha.2 x (by simp)⟩
  intro y hy
  have hdot : isSpace '.' = false := by decide
  rw [List.mem_append, List.mem_append, List.mem_append, List.mem_cons (a := y) (b := '.'), List.mem_cons (b := '.'), List.mem_cons (b := '.')] at hy
  rcases hy with ((hy | hy) | hy) | hy
  · exact digit_not_space (ha.2 y hy)
  · rcases hy with rfl | hy
    · exact hdot
    · exact digit_not_space (hb.2 y hy)
  · rcases hy with rfl | hy
    · exact hdot
    · exact digit_not_space (hc.2 y hy)
  · rcases hy with rfl | hy
    · exact hdot
    · exact digit_not_space (hd.2 y hy)

theorem quadP_hit {v : Str} (hv : Spec.DottedQuad v) {r : Str} (hr : Stop r) (c : Caps) :
    quadP.det (v ++ r) c = some (r, c) := by
  obtain ⟨a, b, d, e, rfl, h⟩ := hv
  have hdot : ∀ s : Str, ∀ x, ('.' :: s).head? = some x → isDigit x = false := by
    intro s x hx; cases hx; decide
  have one : ∀ (p : Prog) (s : Str), (Prog.chr '.' p).det ('.' :: s) c = p.det s c := by
    intro p s; rw [Prog.det]; simp [K.has]
  rw [quadP, show a ++ '.' :: b ++ '.' :: d ++ '.' :: e ++ r = a ++ ('.' :: (b ++ ('.' :: (d ++ ('.' :: (e ++ r)))))) by simp,
    det_digits _ (h a (by simp)) (hdot _), one, det_digits _ (h b (by simp)) (hdot _), one,
    det_digits _ (h d (by simp)) (hdot _), one, det_digits _ (h e (by simp)) (stop_digit hr)]
  rfl

theorem addrP_hit {v : Str} (hv : Spec.DottedQuad v) (g : Nat) (ws : List Str) (c : Caps) :
    (addrP g).det (tl (v :: ws)) c = some (tl ws, (g, v) :: c) := by
  rw [tl_cons, addrP, blank_word _ (quad_word hv).1, Prog.det, quadP_hit hv (tl_stop ws)]
  simp [Prog.det]

/-! ### When an optional part is not there -/

/-- `kw` is not the beginning of the word. -/
def Not (kw w : Str) : Prop := IsWord w ∧ ¬ kw <+: w

theorem prefix_word {kw w : Str} (hkw : ∀ x ∈ kw, isSpace x = false) (ws : List Str) (h : kw <+: w ++ tl ws) : kw <+: w := by
  rcases Nat.le_total kw.length w.length with hl | hl
  · exact (List.prefix_append_right_inj (l := [])).mp (by
      simpa using List.prefix_of_prefix_length_le h (List.prefix_append _ _) hl)
  · obtain ⟨r, hr⟩ := List.prefix_of_prefix_length_le (List.prefix_append w (tl ws)) h hl
    subst hr
    have h2 : r <+: tl ws := by simpa using h
    cases r with
    | nil => simp
    | cons y r =>
      rcases tl_stop ws with h3 | ⟨r', h3⟩
      · rw [h3] at h2; simp at h2
      · rw [h3, List.cons_prefix_cons] at h2
        have := hkw y (by simp)
        rw [h2.1] at this
        cases this

theorem key_miss {kw : Str} (hkw : IsWord kw) (p : Prog) {ws : List Str} (h : HD (Not kw) ws) (c : Caps) :
    (Prog.plus .space (str kw p)).det (tl ws) c = none := by
  cases ws with
  | nil => rfl
  | cons w ws =>
    have hw := h w rfl
    rw [tl_cons, blank_word _ hw.1, det_str, if_neg]
    exact fun hp => hw.2 (prefix_word hkw.2 ws hp)

theorem word_miss {kw : Str} (hkw : IsWord kw) (g : Nat) {ws : List Str} (h : HD (Not kw) ws) (c : Caps) :
    (wordP kw g).det (tl ws) c = none := by
  cases ws with
  | nil => rfl
  | cons w ws =>
    have hw := h w rfl
    rw [tl_cons, wordP, blank_word _ hw.1, Prog.det, det_str, if_neg]
    exact fun hp => hw.2 (prefix_word hkw.2 ws hp)

/-- The word does not begin with a digit. -/
def NoDigit (w : Str) : Prop := ∃ x w', w = x :: w' ∧ isSpace x = false ∧ isDigit x = false

theorem num_miss (g : Nat) {ws : List Str} (h : HD NoDigit ws) (c : Caps) : (numP g).det (tl ws) c = none := by
  cases ws with
  | nil => rfl
  | cons w ws =>
    obtain ⟨x, w', rfl, hx, hd⟩ := h w rfl
    rw [tl_cons, numP, List.cons_append, det_blank _ hx, Prog.det, plus_cons, if_neg]
    rw [show K.digit.has x = isDigit x from rfl, hd]
    simp

theorem addr_miss (g : Nat) {ws : List Str} (h : HD (fun w => NoDigit w ∨ Spec.Digits w) ws) (c : Caps) :
    (addrP g).det (tl ws) c = none := by
  cases ws with
  | nil => rfl
  | cons w ws =>
    rcases h w rfl with ⟨x, w', rfl, hx, hd⟩ | hd
    · rw [tl_cons, addrP, List.cons_append, det_blank _ hx, Prog.det, quadP, plus_cons, if_neg]
      rw [show K.digit.has x = isDigit x from rfl, hd]
      simp
    · have hw : IsWord w := ⟨hd.1, fun c hc => digit_not_space (hd.2 c hc)⟩
      rw [tl_cons, addrP, blank_word _ hw, Prog.det, quadP, det_digits _ hd (stop_digit (tl_stop ws))]
      rcases tl_stop ws with h3 | ⟨r', h3⟩
      · rw [h3]; rfl
      · rw [h3, Prog.det]; rfl

/-! ### The interface of the next hop -/

theorem run_blank (n : Nat) (x : Char) (hx : isSpace x = false) (s : Str) (c : Caps) :
    run n (.seq (.cls K.space.cls) (.star true (.cls K.space.cls))) (' ' :: x :: s) c = [(x :: s, c)] := by
  have h1 : run n (.cls K.space.cls) (' ' :: x :: s) c = [(x :: s, c)] := by
    rw [run, K.cls_has, if_pos (by decide)]
  have h2 : run n (.cls K.space.cls) (x :: s) c = [] := by
    rw [run, K.cls_has, if_neg]
    rw [show K.space.has x = isSpace x from rfl, hx]
    simp
  rw [run, h1, List.flatMap_singleton, run, List.length_cons, runStar, h2]
  rfl

theorem intf_hit (n g : Nat) {x : Char} {w : Str} (hx : isSpace x = false) (hd : isDigit x = false) (hw : IsWord w)
    (ws : List Str) (c : Caps) :
    Hit n (seqs (intfL g)) (tl ((x :: w) :: ws)) c (tl ws, (g, x :: w) :: c) := by
  have h1 : Hit n (seqs (Prog.plus .nonspace .done).toL) (w ++ tl ws) c (tl ws, c) := by
    refine hit_prog n (by decide) ?_
    obtain ⟨y, w', rfl, hy⟩ := word_cons hw
    rw [List.cons_append, plus_cons, if_pos (by simp [K.has, hy]),
      drop_word (k := .nonspace) (by decide) (fun c hc => by simp [K.has, hw.2 c (by simp [hc])]) (tl_stop ws)]
    rfl
  have h2 : Hit n (.seq (.cls ⟨[.digit], true, false⟩) (.seq (.cls K.nonspace.cls) (.star true (.cls K.nonspace.cls))))
      (x :: (w ++ tl ws)) c (tl ws, c) := by
    have : Hit n (.cls ⟨[.digit], true, false⟩) (x :: (w ++ tl ws)) c (w ++ tl ws, c) := by
      rw [Hit, run, if_pos]
      · rfl
      · simp [Cls.has, Item.has, hd]
    exact hit_cons (l := [_]) this h1
  have h3 := hit_grp (k := g) h2
  rw [show (x :: (w ++ tl ws)).take ((x :: (w ++ tl ws)).length - (tl ws).length) = x :: w by
    rw [← List.cons_append, List.length_append, Nat.add_sub_cancel, List.take_left]] at h3
  rw [tl_cons, List.cons_append, intfL]
  refine hit_cons (q := (x :: (w ++ tl ws), c)) ?_ h3
  rw [Hit, run_blank n x hx]
  rfl

theorem intf_miss (n g : Nat) {x : Char} (hd : isDigit x = true) (w : Str) (ws : List Str) (c : Caps) :
    Miss n (seqs (intfL g)) (tl ((x :: w) :: ws)) c := by
  have hx := digit_not_space hd
  rw [Miss, tl_cons, List.cons_append, intfL, run_seqs_cons', run_blank n x hx, List.flatMap_singleton, seqs, run, run, run]
  rw [if_neg]
  · rfl
  · simp [Cls.has, Item.has, hd]

end Cisco

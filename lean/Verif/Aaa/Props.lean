import Verif.Aaa.Lemmas
import Verif.Cisco.HsrpProps

/-! # Properties of the AAA lines: lists of methods and accounting -/

namespace Aaa

open Py Conf Query Re Cisco

/-! ## Specification -/

/-- These words, with one blank between them. -/
def Spec.line (ws : List Str) : Str := join [' '] ws

/-! ## Lines -/

theorem line_cons (w : Str) {ws : List Str} (h : ws ≠ []) : Spec.line (w :: ws) = w ++ ' ' :: Spec.line ws := by
  cases ws with
  | nil => exact absurd rfl h
  | cons v ws => simp [Spec.line, join]

theorem line_append (ws : List Str) {us : List Str} (h : us ≠ []) : Spec.line (ws ++ us) = lined ws ++ Spec.line us := by
  induction ws with
  | nil => rfl
  | cons w ws ih =>
    rw [List.cons_append, line_cons w (by simp [h]), ih]
    simp [lined]

theorem line_start {w : Str} (hw : IsWord w) (ws : List Str) :
    (∀ c, (Spec.line (w :: ws)).head? = some c → isSpace c = false) ∧ Spec.line (w :: ws) ≠ [] := by
  cases ws with
  | nil => simpa [Spec.line, join] using word_start (s := []) hw
  | cons v ws => rw [line_cons w (by simp)]; exact word_start hw

theorem line_last : ∀ {ws : List Str}, (∀ w ∈ ws, IsWord w) → ∀ a, (Spec.line ws).getLast? = some a → isSpace a = false
  | [], _, a, h => by cases h
  | [w], hw, a, h => (hw w (by simp)).2 a (List.mem_of_getLast? h)
  | w :: v :: ws, hw, a, h => by
    rw [line_cons w (by simp), List.getLast?_append, List.getLast?_cons] at h
    have ih := line_last (ws := v :: ws) (fun u hu => hw u (by simp [hu]))
    cases hl : (Spec.line (v :: ws)).getLast? with
    | none =>
      rw [List.getLast?_eq_none_iff] at hl
      exact absurd hl (line_start (hw v (by simp)) ws).2
    | some b =>
      rw [hl] at h
      have : b = a := by simpa using h
      exact this ▸ ih b hl

theorem strip_line {ws : List Str} (hw : ∀ w ∈ ws, IsWord w) : strip (Spec.line ws) = Spec.line ws := by
  cases ws with
  | nil => rfl
  | cons w ws => exact strip_of_ends (line_start (hw w (by simp)) ws).1 (line_last hw)

theorem strip_space_line {ws : List Str} (hw : ∀ w ∈ ws, IsWord w) (hne : ws ≠ []) : strip (' ' :: Spec.line ws) = Spec.line ws := by
  obtain ⟨w, us, rfl⟩ := List.exists_cons_of_ne_nil hne
  have h1 : rstrip (' ' :: Spec.line (w :: us)) = ' ' :: Spec.line (w :: us) := rstrip_of_last (fun a ha => by
    rw [List.getLast?_cons] at ha
    cases hl : (Spec.line (w :: us)).getLast? with
    | none => exact absurd (List.getLast?_eq_none_iff.mp hl) (line_start (hw w (by simp)) us).2
    | some b =>
      rw [hl] at ha
      have : b = a := by simpa using ha
      exact this ▸ line_last hw b hl)
  rw [strip, h1]
  show lstrip ([' '] ++ Spec.line (w :: us)) = _
  rw [lstrip_blank (by decide), lstrip_of_head (line_start (hw w (by simp)) us).1]

theorem line_no_nl {ws : List Str} (hw : ∀ w ∈ ws, IsWord w) : '\n' ∉ Spec.line ws := by
  induction ws with
  | nil => simp [Spec.line, join]
  | cons w ws ih =>
    have h1 : '\n' ∉ w := fun h => by have := (hw w (by simp)).2 _ h; rw [nl_space] at this; cases this
    by_cases hne : ws = []
    · subst hne; simpa [Spec.line, join] using h1
    · rw [line_cons w hne]
      intro h
      rcases List.mem_append.mp h with h | h
      · exact h1 h
      · rcases List.mem_cons.mp h with h | h
        · cases h
        · exact ih (fun u hu => hw u (by simp [hu])) h

/-! ## Reading groups -/

theorem match_some {α : Type} {rx : String} {p : Pat} (h : compile rx = .ok p) {t : Str} {m : Found} (hm : search p t = some m)
    {g : Nat} (h0 : g ≠ 0) (hg : g ≤ p.groups) {v : Str} (hv : m.caps.lookup g = some v) (conv : Option Str → Except Err α) (d : α) :
    matchTyped t rx g conv d = conv (some v) := by
  rw [matchTyped, Cisco.reSearch, h]
  simp only [hm, Option.map_some, bind, Except.bind, Found.group, if_neg h0, if_pos hg, hv]

theorem match_none {α : Type} {rx : String} {p : Pat} (h : compile rx = .ok p) {t : Str} (hm : search p t = none)
    (g : Nat) (conv : Option Str → Except Err α) (d : α) : matchTyped t rx g conv d = .ok d := by
  rw [matchTyped, Cisco.reSearch, h]
  simp only [hm, Option.map_none, bind, Except.bind]

/-- `L group` behind the keywords. -/
def headP (g : Nat) (b₁ b₂ : Bool) : Prog := .grp g (.plus .nonspace .done) (gap b₁ (str "group".toList (gap b₂ .done)))

theorem headP_hit (g : Nat) (b₁ b₂ : Bool) {L s : Str} (hL : IsWord L) (hs : ∀ c, s.head? = some c → isSpace c = false) (hn : s ≠ []) (c : Caps) :
    (headP g b₁ b₂).det (L ++ ' ' :: ("group".toList ++ ' ' :: s)) c = some (s, (g, L) :: c) := by
  have hw : IsWord "group".toList := isWord_iff.mp (by decide)
  rw [headP, det_field g (by decide) (word_nsp hL) hL.1 _ _ (word_start hw).1 (word_start hw).2, det_str,
    if_pos (List.prefix_append _ _), List.drop_left, gap_blank _ _ hs hn]
  rfl

/-- No `group` behind the name. -/
theorem headP_miss (g : Nat) (b₁ b₂ : Bool) {L : Str} (hL : IsWord L) {ms : List Str} (hm : ∀ w ∈ ms, IsWord w)
    (hh : ms.head? ≠ some "group".toList) (c : Caps) : (headP g b₁ b₂).det (Spec.line (L :: ms)) c = none := by
  have hw : IsWord "group".toList := isWord_iff.mp (by decide)
  cases ms with
  | nil =>
    have h := det_grp_word g (k := .nonspace) (by decide) (word_nsp hL) hL.1 (r := []) (.inl rfl) c
    rw [List.append_nil] at h
    rw [headP, Prog.det] at *
    show (match (Prog.plus .nonspace .done).det L c with | none => none | some q => _) = _
    cases hd : (Prog.plus .nonspace .done).det L c with
    | none => rfl
    | some q =>
      rw [hd] at h
      simp only [Prog.det, Option.some.injEq, Prod.mk.injEq] at h
      simp only
      rw [h.1]
      cases b₁ <;> rfl
  | cons m ms =>
    have hs := line_start (hm m (by simp)) ms
    rw [line_cons L (by simp), headP, det_field g (by decide) (word_nsp hL) hL.1 _ _ hs.1 hs.2,
      det_str_word hw (lstrip_of_head hs.1) _ (by
        intro x s c hx
        cases b₂ <;> simp [gap, Prog.det, K.has, hx]), Spec.line, splitWs_join _ hm, if_neg (by simpa using hh)]

/-! ## C148: authentication and authorization -/

/-- The expression of an authentication line with these keywords. -/
def IsAuthn (rx : String) (l : List (Str × Bool)) (b₁ b₂ : Bool) : Prop :=
  compile rx = .ok ⟨seqs (.bol :: ((wordsG l (headP 1 b₁ b₂)).toL ++ (wordL 2 :: lazyL 3))), 3, []⟩ ∧
    (wordsG l (headP 1 b₁ b₂)).wf (fun k => k == .space) false = true ∧ l.all (fun w => isWord w.1) = true

instance (rx : String) (l : List (Str × Bool)) (b₁ b₂ : Bool) : Decidable (IsAuthn rx l b₁ b₂) := inferInstanceAs (Decidable (_ ∧ _ ∧ _))

/-- The expression of an authorization line with these keywords. -/
def IsAuthz (rx : String) (l : List (Str × Bool)) (b₀ b₁ b₂ : Bool) : Prop :=
  compile rx = .ok ⟨seqs (.bol :: ((wordsG l (.grp 1 (.plus .digit .done) (gap b₀ (headP 2 b₁ b₂)))).toL ++ (wordL 3 :: lazyL 4))), 4, []⟩ ∧
    (wordsG l (.grp 1 (.plus .digit .done) (gap b₀ (headP 2 b₁ b₂)))).wf (fun k => k == .space) false = true ∧
      l.all (fun w => isWord w.1) = true

instance (rx : String) (l : List (Str × Bool)) (b₀ b₁ b₂ : Bool) : Decidable (IsAuthz rx l b₀ b₁ b₂) := inferInstanceAs (Decidable (_ ∧ _ ∧ _))

theorem search_authn {rx : String} {l : List (Str × Bool)} {b₁ b₂ : Bool} (h : IsAuthn rx l b₁ b₂) (t : Str) :
    search ⟨seqs (.bol :: ((wordsG l (headP 1 b₁ b₂)).toL ++ (wordL 2 :: lazyL 3))), 3, []⟩ t =
      (((wordsG l (headP 1 b₁ b₂)).det t []).bind (fun q => (run t.length (seqs (wordL 2 :: lazyL 3)) q.1 q.2).head?)).map
        (fun q => ⟨t.take (t.length - q.1.length), 0, q.2⟩) :=
  search_split h.2.1 (fun k hk s c hs => run_last_space _ _ _ (by rw [beq_iff_eq] at hk; exact hk ▸ hs) c) 3 []

theorem search_authz {rx : String} {l : List (Str × Bool)} {b₀ b₁ b₂ : Bool} (h : IsAuthz rx l b₀ b₁ b₂) (t : Str) :
    search ⟨seqs (.bol :: ((wordsG l (.grp 1 (.plus .digit .done) (gap b₀ (headP 2 b₁ b₂)))).toL ++ (wordL 3 :: lazyL 4))), 4, []⟩ t =
      (((wordsG l (.grp 1 (.plus .digit .done) (gap b₀ (headP 2 b₁ b₂)))).det t []).bind
        (fun q => (run t.length (seqs (wordL 3 :: lazyL 4)) q.1 q.2).head?)).map
          (fun q => ⟨t.take (t.length - q.1.length), 0, q.2⟩) :=
  search_split h.2.1 (fun k hk s c hs => run_last_space _ _ _ (by rw [beq_iff_eq] at hk; exact hk ▸ hs) c) 4 []

/-- What an authentication line gives, by what is behind `group`. -/
theorem authn_hit {rx : String} {l : List (Str × Bool)} {b₁ b₂ : Bool} (h : IsAuthn rx l b₁ b₂) {L : Str} (hL : IsWord L) {ws : List Str}
    (hws : ∀ w ∈ ws, IsWord w) (hne : ws ≠ []) {g m : Str}
    (hr : ∀ n c, (run n (seqs (wordL 2 :: lazyL 3)) (Spec.line ws) c).head? = some ([], (3, m) :: (2, g) :: c)) :
    authn rx (Spec.line (l.map Prod.fst ++ (L :: "group".toList :: ws))) = .ok ⟨0, L, g, splitBs (strip m)⟩ := by
  obtain ⟨w, us, rfl⟩ := List.exists_cons_of_ne_nil hne
  have hs := line_start (hws w (by simp)) us
  have hd : (wordsG l (headP 1 b₁ b₂)).det (Spec.line (l.map Prod.fst ++ (L :: "group".toList :: w :: us))) [] =
      some (Spec.line (w :: us), [(1, L)]) := by
    rw [line_append _ (by simp), det_lined (words_of h.2.2) _ (line_start hL _).1 (line_start hL _).2, line_cons L (by simp),
      line_cons _ (by simp), headP_hit 1 b₁ b₂ hL hs.1 hs.2]
  have hsr := search_authn h (Spec.line (l.map Prod.fst ++ (L :: "group".toList :: w :: us)))
  rw [hd, Option.bind_some, hr, Option.map_some] at hsr
  rw [authn, match_some h.1 hsr (by decide) (Nat.le_of_ble_eq_true rfl) (v := L) rfl, match_some h.1 hsr (by decide) (Nat.le_of_ble_eq_true rfl) (v := g) rfl,
    match_some h.1 hsr (by decide) (Nat.le_of_ble_eq_true rfl) (v := m) rfl]
  rfl

theorem authz_hit {rx : String} {l : List (Str × Bool)} {b₀ b₁ b₂ : Bool} (h : IsAuthz rx l b₀ b₁ b₂) {N : Str} (hN : Spec.Digits N) {L : Str}
    (hL : IsWord L) {ws : List Str}
    (hws : ∀ w ∈ ws, IsWord w) (hne : ws ≠ []) {g m : Str}
    (hr : ∀ n c, (run n (seqs (wordL 3 :: lazyL 4)) (Spec.line ws) c).head? = some ([], (4, m) :: (3, g) :: c)) :
    authz rx (Spec.line (l.map Prod.fst ++ (N :: L :: "group".toList :: ws))) = .ok ⟨natVal N, L, g, splitBs (strip m)⟩ := by
  obtain ⟨w, us, rfl⟩ := List.exists_cons_of_ne_nil hne
  have hs := line_start (hws w (by simp)) us
  have hNw : IsWord N := ⟨hN.1, fun c hc => isDigit_not_space (hN.2 c hc)⟩
  have hd : (wordsG l (.grp 1 (.plus .digit .done) (gap b₀ (headP 2 b₁ b₂)))).det
      (Spec.line (l.map Prod.fst ++ (N :: L :: "group".toList :: w :: us))) [] = some (Spec.line (w :: us), [(2, L), (1, N)]) := by
    rw [line_append _ (by simp), det_lined (words_of h.2.2) _ (line_start hNw _).1 (line_start hNw _).2, line_cons N (by simp),
      det_field 1 (k := .digit) (by decide) (fun c hc => hN.2 c hc) hN.1 _ _ (line_start hL _).1 (line_start hL _).2, line_cons L (by simp),
      line_cons _ (by simp), headP_hit 2 b₁ b₂ hL hs.1 hs.2]
  have hsr := search_authz h (Spec.line (l.map Prod.fst ++ (N :: L :: "group".toList :: w :: us)))
  rw [hd, Option.bind_some, hr, Option.map_some] at hsr
  rw [authz, match_some h.1 hsr (by decide) (Nat.le_of_ble_eq_true rfl) (v := N) rfl, match_some h.1 hsr (by decide) (Nat.le_of_ble_eq_true rfl) (v := L) rfl,
    match_some h.1 hsr (by decide) (Nat.le_of_ble_eq_true rfl) (v := g) rfl, match_some h.1 hsr (by decide) (Nat.le_of_ble_eq_true rfl) (v := m) rfl, toInt_digits hN]
  rfl

theorem authn_miss {rx : String} {l : List (Str × Bool)} {b₁ b₂ : Bool} (h : IsAuthn rx l b₁ b₂) {t : Str}
    (hd : ((wordsG l (headP 1 b₁ b₂)).det t []).bind (fun q => (run t.length (seqs (wordL 2 :: lazyL 3)) q.1 q.2).head?) = none) :
    authn rx t = .ok ⟨0, [], [], [[]]⟩ := by
  have hsr := search_authn h t
  rw [hd, Option.map_none] at hsr
  rw [authn, match_none h.1 hsr, match_none h.1 hsr, match_none h.1 hsr]
  rfl

theorem authz_miss {rx : String} {l : List (Str × Bool)} {b₀ b₁ b₂ : Bool} (h : IsAuthz rx l b₀ b₁ b₂) {t : Str}
    (hd : ((wordsG l (.grp 1 (.plus .digit .done) (gap b₀ (headP 2 b₁ b₂)))).det t []).bind
      (fun q => (run t.length (seqs (wordL 3 :: lazyL 4)) q.1 q.2).head?) = none) :
    authz rx t = .ok ⟨0, [], [], [[]]⟩ := by
  have hsr := search_authz h t
  rw [hd, Option.map_none] at hsr
  rw [authz, match_none h.1 hsr, match_none h.1 hsr, match_none h.1 hsr, match_none h.1 hsr]
  rfl

/-- The authentication lines and their keywords. -/
def authns : List ((OS → Str → Except Err Methods) × List String) :=
  [(login, ["aaa", "authentication", "login"]), (enable, ["aaa", "authentication", "enable"])]

/-- The authorization lines and their keywords. -/
def authzs : List ((OS → Str → Except Err Methods) × List String) :=
  [(commandsAuthz, ["aaa", "authorization", "commands"]), (consoleAuthz, ["aaa", "authorization", "console"])]

theorem authn_is : ∀ a ∈ authns, ∀ os, ∃ rx l b₁ b₂, IsAuthn rx l b₁ b₂ ∧ l.map Prod.fst = Spec.wd a.2 ∧ a.1 os = authn rx := by
  intro a ha os
  simp only [authns, List.mem_cons, List.not_mem_nil, or_false] at ha
  rcases ha with rfl | rfl
  · exact ⟨_, gaps false ["aaa", "authentication", "login"], false, false, by decide +kernel, by decide, rfl⟩
  · cases os with
    | ios => exact ⟨_, gaps true ["aaa", "authentication", "enable"], true, true, by decide +kernel, by decide, rfl⟩
    | nxos => exact ⟨_, gaps false ["aaa", "authentication", "enable"], false, false, by decide +kernel, by decide, rfl⟩

theorem authz_is : ∀ a ∈ authzs, ∀ os, ∃ rx l b₀ b₁ b₂, IsAuthz rx l b₀ b₁ b₂ ∧ l.map Prod.fst = Spec.wd a.2 ∧ a.1 os = authz rx := by
  intro a ha os
  simp only [authzs, List.mem_cons, List.not_mem_nil, or_false] at ha
  rcases ha with rfl | rfl <;> cases os
  · exact ⟨_, gaps true ["aaa", "authorization", "commands"], true, true, true, by decide +kernel, by decide, rfl⟩
  · exact ⟨_, gaps false ["aaa", "authorization", "commands"], false, false, false, by decide +kernel, by decide, rfl⟩
  · exact ⟨_, gaps true ["aaa", "authorization", "console"], true, true, true, by decide +kernel, by decide, rfl⟩
  · exact ⟨_, gaps true ["aaa", "authorization", "console"], false, true, true, by decide +kernel, by decide, rfl⟩

/-- What is behind `group`: a name and methods. -/
theorem run_methods (n g h : Nat) {G : Str} {ms : List Str} (hG : IsWord G) (hm : ∀ w ∈ ms, IsWord w) (hne : ms ≠ []) (c : Caps) :
    (run n (seqs (wordL g :: lazyL h)) (Spec.line (G :: ms)) c).head? = some ([], (h, ' ' :: Spec.line ms) :: (g, G) :: c) := by
  have := line_no_nl (ws := G :: ms) (by
    intro w hw
    rcases List.mem_cons.mp hw with rfl | hw
    · exact hG
    · exact hm w hw)
  rw [line_cons G hne] at this ⊢
  exact run_last_word n g h hG (by simp) (fun c hc => by cases hc; decide) this c

theorem words_cons {G : Str} {ms : List Str} (hG : IsWord G) (hm : ∀ w ∈ ms, IsWord w) : ∀ w ∈ G :: ms, IsWord w := by
  intro w hw
  rcases List.mem_cons.mp hw with rfl | hw
  · exact hG
  · exact hm w hw

/-- The text of the methods, without a backslash, is not split. -/
theorem methods_one {ms : List Str} (hm : ∀ w ∈ ms, IsWord w) (hne : ms ≠ []) (hb : '\\' ∉ Spec.line ms) :
    splitBs (strip (' ' :: Spec.line ms)) = [Spec.line ms] := by
  rw [strip_space_line hm hne, splitBs_one hb]

/-- C148: an authentication line with one method has the list name, the group and the method.
Missing: lines with several methods, with none, and without a group. -/
theorem C148_authn_partial : ∀ a ∈ authns, ∀ os L G m, IsWord L → IsWord G → IsWord m → '\\' ∉ m →
    a.1 os (Spec.line (Spec.wd a.2 ++ [L, "group".toList, G, m])) = .ok ⟨0, L, G, [m]⟩ := by
  intro a ha os L G m hL hG hm hb
  obtain ⟨rx, l, b₁, b₂, h1, h2, h3⟩ := authn_is a ha os
  have hm' : ∀ w ∈ [m], IsWord w := by simpa using hm
  rw [h3, ← h2, authn_hit h1 hL (words_cons hG hm') (by simp) (fun n c => run_methods n 2 3 hG hm' (by simp) c),
    methods_one hm' (by simp) hb]
  rfl

/-- C148: an authorization line with one method has the level, the list name, the group and the
method. Missing: lines with several methods, with none, and without a group. -/
theorem C148_authz_partial : ∀ a ∈ authzs, ∀ os N L G m, Spec.Digits N → IsWord L → IsWord G → IsWord m → '\\' ∉ m →
    a.1 os (Spec.line (Spec.wd a.2 ++ [N, L, "group".toList, G, m])) = .ok ⟨natVal N, L, G, [m]⟩ := by
  intro a ha os N L G m hN hL hG hm hb
  obtain ⟨rx, l, b₀, b₁, b₂, h1, h2, h3⟩ := authz_is a ha os
  have hm' : ∀ w ∈ [m], IsWord w := by simpa using hm
  rw [h3, ← h2, authz_hit h1 hN hL (words_cons hG hm') (by simp) (fun n c => run_methods n 3 4 hG hm' (by simp) c),
    methods_one hm' (by simp) hb]
  rfl

/-- C148 fails for several methods: `methods` has always one element, the whole text. -/
theorem C148_methods_fails : ∀ os L G m₁ m₂ ms, IsWord L → IsWord G → (∀ w ∈ m₁ :: m₂ :: ms, IsWord w) →
    '\\' ∉ Spec.line (m₁ :: m₂ :: ms) →
    (∀ a ∈ authns, a.1 os (Spec.line (Spec.wd a.2 ++ (L :: "group".toList :: G :: m₁ :: m₂ :: ms))) =
      .ok ⟨0, L, G, [Spec.line (m₁ :: m₂ :: ms)]⟩) ∧
    (∀ a ∈ authzs, ∀ N, Spec.Digits N → a.1 os (Spec.line (Spec.wd a.2 ++ (N :: L :: "group".toList :: G :: m₁ :: m₂ :: ms))) =
      .ok ⟨natVal N, L, G, [Spec.line (m₁ :: m₂ :: ms)]⟩) := by
  intro os L G m₁ m₂ ms hL hG hm hb
  constructor
  · intro a ha
    obtain ⟨rx, l, b₁, b₂, h1, h2, h3⟩ := authn_is a ha os
    rw [h3, ← h2, authn_hit h1 hL (words_cons hG hm) (by simp) (fun n c => run_methods n 2 3 hG hm (by simp) c),
      methods_one hm (by simp) hb]
  · intro a ha N hN
    obtain ⟨rx, l, b₀, b₁, b₂, h1, h2, h3⟩ := authz_is a ha os
    rw [h3, ← h2, authz_hit h1 hN hL (words_cons hG hm) (by simp) (fun n c => run_methods n 3 4 hG hm (by simp) c),
      methods_one hm (by simp) hb]

/-- C148 fails without methods: the last character of the group is taken for a method. -/
theorem C148_last_fails : ∀ os L G z, IsWord L → IsWord (G ++ [z]) → G ≠ [] → z ≠ '\\' →
    (∀ a ∈ authns, a.1 os (Spec.line (Spec.wd a.2 ++ [L, "group".toList, G ++ [z]])) = .ok ⟨0, L, G, [[z]]⟩) ∧
    (∀ a ∈ authzs, ∀ N, Spec.Digits N → a.1 os (Spec.line (Spec.wd a.2 ++ [N, L, "group".toList, G ++ [z]])) =
      .ok ⟨natVal N, L, G, [[z]]⟩) := by
  intro os L G z hL hG hne hb
  have hz : strip [z] = [z] := strip_of_noSpace (fun c hc => by
    rw [List.mem_singleton] at hc
    exact hc ▸ hG.2 z (by simp))
  have hb' : splitBs (strip [z]) = [[z]] := by rw [hz, splitBs_one (by simpa using fun h => hb h.symm)]
  have hm : ∀ w ∈ [G ++ [z]], IsWord w := by simpa using hG
  constructor
  · intro a ha
    obtain ⟨rx, l, b₁, b₂, h1, h2, h3⟩ := authn_is a ha os
    rw [h3, ← h2, authn_hit h1 hL hm (by simp) (fun n c => run_last_end n 2 3 hG c hne), hb']
  · intro a ha N hN
    obtain ⟨rx, l, b₀, b₁, b₂, h1, h2, h3⟩ := authz_is a ha os
    rw [h3, ← h2, authz_hit h1 hN hL hm (by simp) (fun n c => run_last_end n 3 4 hG c hne), hb']

/-- C148 fails without the word `group`: even the list name and the level are lost. -/
theorem C148_local_fails : ∀ os L ms, IsWord L → (∀ w ∈ ms, IsWord w) → ms.head? ≠ some "group".toList →
    (∀ a ∈ authns, a.1 os (Spec.line (Spec.wd a.2 ++ (L :: ms))) = .ok ⟨0, [], [], [[]]⟩) ∧
    (∀ a ∈ authzs, ∀ N, Spec.Digits N → a.1 os (Spec.line (Spec.wd a.2 ++ (N :: L :: ms))) = .ok ⟨0, [], [], [[]]⟩) := by
  intro os L ms hL hm hh
  constructor
  · intro a ha
    obtain ⟨rx, l, b₁, b₂, h1, h2, h3⟩ := authn_is a ha os
    rw [h3, ← h2]
    apply authn_miss h1
    rw [line_append _ (by simp), det_lined (words_of h1.2.2) _ (line_start hL _).1 (line_start hL _).2, headP_miss 1 b₁ b₂ hL hm hh]
    rfl
  · intro a ha N hN
    obtain ⟨rx, l, b₀, b₁, b₂, h1, h2, h3⟩ := authz_is a ha os
    have hNw : IsWord N := ⟨hN.1, fun c hc => isDigit_not_space (hN.2 c hc)⟩
    rw [h3, ← h2]
    apply authz_miss h1
    rw [line_append _ (by simp), det_lined (words_of h1.2.2) _ (line_start hNw _).1 (line_start hNw _).2, line_cons N (by simp),
      det_field 1 (k := .digit) (by decide) (fun c hc => hN.2 c hc) hN.1 _ _ (line_start hL _).1 (line_start hL _).2, headP_miss 2 b₁ b₂ hL hm hh]
    rfl

example : login .ios "aaa authentication login default group tacacs+ local".toList =
    .ok ⟨0, "default".toList, "tacacs+".toList, ["local".toList]⟩ := by decide +kernel
example : login .nxos "aaa authentication login default group tacacs+ local line".toList =
    .ok ⟨0, "default".toList, "tacacs+".toList, ["local line".toList]⟩ := by decide +kernel
example : commandsAuthz .ios "aaa authorization commands 15 default group tacacs+".toList =
    .ok ⟨15, "default".toList, "tacacs".toList, ["+".toList]⟩ := by decide +kernel
example : enable .ios "aaa authentication enable default local".toList = .ok ⟨0, [], [], [[]]⟩ := by decide +kernel

end Aaa

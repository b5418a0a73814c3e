import Verif.Nxos.Props
import Verif.Cisco.HsrpProps
import Verif.IP.ViewsProps

/-! # Properties of NXOS interface lines: IPv4 addresses -/

namespace Nxos

open Py Conf Query Re Cisco

variable {o : Opts} {lines : List Str} {P : Parsed}

/-! ## Specification -/

/-- The words of an address with a mask length: `A/L`, or `A /L`. -/
def Spec.Slash (ws : List Str) (a : Str × Str) : Prop :=
  (ws = [a.1 ++ '/' :: a.2] ∨ ws = [a.1, '/' :: a.2]) ∧ Spec.DottedQuad a.1 ∧ Spec.Digits a.2

/-- An indented line `ip address A/L`. -/
def Spec.AddrLine (t : Str) (a : Str × Str) : Prop :=
  Spec.Indented t ∧ ∃ ws, splitWs t = Spec.wd ["ip", "address"] ++ ws ∧ Spec.Slash ws a

/-- An indented line `ip address dhcp`. -/
def Spec.Dhcp (t : Str) : Prop := Spec.Indented t ∧ Spec.Exactly ["ip", "address", "dhcp"] t

/-! ## Lemmas -/

theorem no_slash {v : Str} (h : Quad v) : '/' ∉ v := by
  obtain ⟨a, b, c, d, rfl, h⟩ := h
  have hd : ∀ s ∈ [a, b, c, d], '/' ∉ s := by
    intro s hs hm
    exact absurd ((h s hs).2 _ hm) (by decide)
  simp only [List.mem_append, List.mem_cons]
  rintro (((h1 | h1 | h1) | h1 | h1) | h1 | h1)
  · exact hd a (by simp) h1
  · cases h1
  · exact hd b (by simp) h1
  · cases h1
  · exact hd c (by simp) h1
  · cases h1
  · exact hd d (by simp) h1

theorem cut_slash {v v' m m' : Str} (h : '/' ∉ v) (h' : '/' ∉ v') (e : v ++ '/' :: m = v' ++ '/' :: m') : v = v' ∧ m = m' := by
  induction v generalizing v' with
  | nil =>
    cases v' with
    | nil => cases e; exact ⟨rfl, rfl⟩
    | cons x v' => cases e; exact absurd (by simp) h'
  | cons x v ih =>
    cases v' with
    | nil => cases e; exact absurd (by simp) h
    | cons y v' =>
      have e' : x = y ∧ v ++ '/' :: m = v' ++ '/' :: m' := by simpa using e
      obtain ⟨e1, e2⟩ := ih (v' := v') (fun hh => h (by simp [hh])) (fun hh => h' (by simp [hh])) e'.2
      exact ⟨by rw [e'.1, e1], e2⟩

theorem slash_unique {ws : List Str} {a b : Str × Str} (h1 : Spec.Slash ws a) (h2 : Spec.Slash ws b) : a = b := by
  obtain ⟨h1, q1, _⟩ := h1
  obtain ⟨h2, q2, _⟩ := h2
  rcases h1 with rfl | rfl <;> rcases h2 with e | e
  · have := cut_slash (no_slash q1) (no_slash q2) (List.cons.inj e).1
    exact Prod.ext this.1 this.2
  · simp at e
  · simp at e
  · simp only [List.cons.injEq, true_and, and_true] at e
    exact Prod.ext e.1 e.2

theorem addrLine_unique (t : Str) (a b : Str × Str) (h1 : Spec.AddrLine t a) (h2 : Spec.AddrLine t b) : a = b := by
  obtain ⟨_, w, e1, s1⟩ := h1
  obtain ⟨_, w', e2, s2⟩ := h2
  have := List.append_cancel_left (e1.symm.trans e2)
  subst this
  exact slash_unique s1 s2

theorem blank_end {v rest : Str} (hl : Line (v ++ rest)) (h : splitWs rest = []) : rest = [] := by
  have hb := List.all_eq_true.mp (splitWs_eq_nil.mp h)
  have h1 : rstrip (v ++ rest) = rstrip v := rstrip_append_spaces _ _ hb
  rw [hl.2] at h1
  have h2 := (rstrip_prefix v).length_le
  rw [← h1] at h2
  rw [List.length_append] at h2
  exact List.eq_nil_of_length_eq_zero (by omega)

/-- The text of an address with a mask length, by its words. -/
theorem slash_words {r v m : Str} (h0 : lstrip r = r) (hl : Line r) (hv : IsWord v) (hm : IsWord m) :
    (∃ s, r = v ++ (s ++ '/' :: m) ∧ ∀ c ∈ s, isSpace c = true) ↔ (splitWs r = [v ++ '/' :: m] ∨ splitWs r = [v, '/' :: m]) := by
  have hm' : IsWord ('/' :: m) := ⟨by simp, fun c hc => by
    rcases List.mem_cons.mp hc with rfl | hc
    · decide
    · exact hm.2 c hc⟩
  have hvm : IsWord (v ++ '/' :: m) := ⟨by simp, fun c hc => by
    rcases List.mem_append.mp hc with hc | hc
    · exact hv.2 c hc
    · exact hm'.2 c hc⟩
  constructor
  · rintro ⟨s, rfl, hs⟩
    cases s with
    | nil => exact .inl (splitWs_word hvm)
    | cons x s =>
      right
      rw [splitWs_word_rest hv (by intro c hc; cases hc; exact hs x (by simp))]
      rw [splitWs_spaces _ _ hs, splitWs_word hm']
  · intro h
    have hne : r ≠ [] := by rintro rfl; rcases h with h | h <;> cases h
    obtain ⟨w, rest, e1, e2, e3, e4⟩ := split_cons h0 hne
    rw [e4] at h
    rcases h with h | h
    · obtain ⟨rfl, h'⟩ := List.cons.inj h
      rw [e1] at hl
      have := blank_end hl h'
      subst this
      exact ⟨[], by rw [e1]; simp, by simp⟩
    · obtain ⟨rfl, h'⟩ := List.cons.inj h
      clear h
      have h := h'
      refine ⟨rest.takeWhile isSpace, ?_, fun c hc => of_mem_takeWhile hc⟩
      have hne' : lstrip rest ≠ [] := by
        intro e
        rw [← splitWs_lstrip, e] at h
        cases h
      obtain ⟨w', rest', f1, f2, f3, f4⟩ := split_cons (lstrip_lstrip rest) hne'
      rw [splitWs_lstrip, h] at f4
      obtain ⟨rfl, f5⟩ := List.cons.inj f4
      have hl' : Line ('/' :: m ++ rest') := by
        rw [← f1]
        exact line_suffix ((lstrip_suffix _).trans ⟨w, e1.symm⟩) hl
      have := blank_end hl' f5.symm
      subst this
      rw [List.append_nil] at f1
      conv => lhs; rw [e1, ← List.takeWhile_append_dropWhile (p := isSpace) (l := rest)]
      exact congrArg (fun z => w ++ (rest.takeWhile isSpace ++ z)) f1

/-- What is left behind the blanks. -/
theorem det_blanks (p : Prog) {x : Char} (hx : isSpace x = false) (r : Str) (c : Caps) (q : Str × Caps) :
    (Prog.star .space (.chr x p)).det r c = some q ↔
      ∃ s r', r = s ++ x :: r' ∧ (∀ c ∈ s, isSpace c = true) ∧ p.det r' c = some q := by
  rw [Prog.det, det_chr]
  constructor
  · rintro ⟨r', h1, h2⟩
    refine ⟨r.takeWhile K.space.has, r', ?_, fun c hc => of_mem_takeWhile hc, h2⟩
    rw [← h1]; exact (List.takeWhile_append_dropWhile).symm
  · rintro ⟨s, r', rfl, h1, h2⟩
    refine ⟨r', ?_, h2⟩
    rw [List.dropWhile_append_of_pos (p := K.space.has) (fun y hy => h1 y hy), List.dropWhile_cons_of_neg]
    simp [K.has, hx]

theorem digit_word {m : Str} (h : Run m) : IsWord m := ⟨h.1, fun x hx => digit_not_space (h.2 x hx)⟩

/-- `\d+\s*$` at the end of a line. -/
theorem det_len {r : Str} (hl : Line r) (c : Caps) (q : Str × Caps) :
    (Prog.plus .digit (ends true [])).det r c = some q ↔ Run r ∧ q = ([], c) := by
  rw [det_run]
  constructor
  · rintro ⟨m, rest, rfl, h1, h2, h3⟩
    cases rest with
    | nil =>
      rw [det_ends true (by simp) (by simp) ⟨by simp, rfl⟩] at h3
      exact ⟨by simpa using h1, h3.2⟩
    | cons x s =>
      have hx : isSpace x = true := by
        cases hx : isSpace x with
        | true => rfl
        | false =>
          rw [ends_nonspace true [] x s c hx] at h3
          cases h3
      have hl' : Line (x :: s) := line_suffix ⟨m, rfl⟩ hl
      rw [det_ends true (by simp) (by intro c hc; cases hc; exact hx) hl'] at h3
      have := blank_end hl h3.1
      cases this
  · rintro ⟨h1, rfl⟩
    refine ⟨r, [], by simp, h1, by simp, ?_⟩
    rw [det_ends true (by simp) (by simp) ⟨by simp, rfl⟩]
    exact ⟨rfl, rfl⟩

/-- `\d+\s*$` with the number in a group. -/
theorem det_len_grp (g : Nat) {r : Str} (hl : Line r) (c : Caps) (q : Str × Caps) :
    (Prog.grp g (.plus .digit .done) (ends true [])).det r c = some q ↔ Run r ∧ q = ([], (g, r) :: c) := by
  rw [det_grp g _ _ rfl]
  constructor
  · rintro ⟨x, s, e, h1, h2⟩
    have h3 : (Prog.plus .digit (ends true [])).det r ((g, x) :: c) = some q := by
      obtain ⟨a, s', e1, e2, e3, e4⟩ := (det_run _ _ _ _).mp h1
      rw [Prog.det] at e4
      cases e4
      exact (det_run _ _ _ _).mpr ⟨a, s, e1, e2, e3, h2⟩
    obtain ⟨h4, rfl⟩ := (det_len hl _ _).mp h3
    obtain ⟨a, s', e1, e2, e3, e4⟩ := (det_run _ _ _ _).mp h1
    rw [Prog.det] at e4
    cases e4
    have hs : s = [] := by
      cases s with
      | nil => rfl
      | cons y s =>
        have := e3 y rfl
        rw [h4.2 y (by rw [e1]; simp)] at this
        cases this
    subst hs
    rw [List.append_nil] at e
    subst e
    exact ⟨h4, rfl⟩
  · rintro ⟨h1, rfl⟩
    refine ⟨r, [], by simp, (det_run _ _ _ _).mpr ⟨r, [], by simp, h1, by simp, rfl⟩, ?_⟩
    rw [det_ends true (by simp) (by simp) ⟨by simp, rfl⟩]
    exact ⟨rfl, rfl⟩

theorem space_head {s r : Str} {x : Char} (h : ∀ c ∈ s, isSpace c = true) (hx : isDigit x = false) :
    ∀ y, (s ++ x :: r).head? = some y → isDigit y = false := by
  intro y hy
  cases s with
  | nil => cases hy; exact hx
  | cons z s => cases hy; exact space_not_digit (h y (by simp))

/-- `(quad)\s*/\d+\s*$`. -/
theorem tail_addr : Tail (.grp 1 (quad .done) (.star .space (.chr '/' (.plus .digit (ends true []))))) 1
    (fun ws a => ∃ m, Spec.Slash ws (a, m)) := by
  have hd : ∀ r c q, Line r → ((Prog.grp 1 (quad .done) (.star .space (.chr '/' (.plus .digit (ends true []))))).det r c = some q ↔
      ∃ v s m, r = v ++ (s ++ '/' :: m) ∧ (∀ c ∈ s, isSpace c = true) ∧ Quad v ∧ Run m ∧ q = ([], (1, v) :: c)) := by
    intro r c q hl
    rw [det_grp 1 _ _ rfl]
    constructor
    · rintro ⟨x, r', e, h1, h2⟩
      obtain ⟨v, r'', e1, e2, e3, e4⟩ := (quad_open _ _ _ _).mp h1
      rw [Prog.det] at e4
      cases e4
      have := List.append_cancel_right (e.symm.trans e1)
      subst this
      obtain ⟨s, m, rfl, f1, f2⟩ := (det_blanks _ (by decide) _ _ _).mp h2
      obtain ⟨f3, rfl⟩ := (det_len (line_suffix ⟨x ++ s ++ ['/'], by rw [e]; simp⟩ hl) _ _).mp f2
      exact ⟨x, s, m, e, f1, e2, f3, rfl⟩
    · rintro ⟨v, s, m, e, h1, h2, h3, rfl⟩
      refine ⟨v, s ++ '/' :: m, e, (quad_open _ _ _ _).mpr ⟨v, _, e, h2, space_head h1 (by decide), rfl⟩, ?_⟩
      exact (det_blanks _ (by decide) _ _ _).mpr ⟨s, m, rfl, h1,
        (det_len (line_suffix ⟨v ++ s ++ ['/'], by rw [e]; simp⟩ hl) _ _).mpr ⟨h3, rfl⟩⟩
  refine ⟨fun c => ?_, ?_, ?_⟩
  · rw [Prog.det]; rfl
  · intro r c q h0 hl hq
    obtain ⟨v, s, m, e, h1, h2, h3, rfl⟩ := (hd r c q hl).mp hq
    exact ⟨v, ⟨m, (slash_words h0 hl (quad_word h2) (digit_word h3)).mp ⟨s, e, h1⟩, h2, h3⟩, by simp⟩
  · rintro r c a h0 hl ⟨m, h1, h2, h3⟩
    obtain ⟨s, e, hs⟩ := (slash_words h0 hl (quad_word h2) (digit_word h3)).mpr h1
    exact ⟨_, (hd r c _ hl).mpr ⟨a, s, m, e, hs, h2, h3, rfl⟩⟩

/-- `quad\s*/(\d+)\s*$`. -/
theorem tail_len : Tail (quad (.star .space (.chr '/' (.grp 1 (.plus .digit .done) (ends true []))))) 1
    (fun ws m => ∃ a, Spec.Slash ws (a, m)) := by
  have hd : ∀ r c q, Line r → ((quad (.star .space (.chr '/' (.grp 1 (.plus .digit .done) (ends true []))))).det r c = some q ↔
      ∃ v s m, r = v ++ (s ++ '/' :: m) ∧ (∀ c ∈ s, isSpace c = true) ∧ Quad v ∧ Run m ∧ q = ([], (1, m) :: c)) := by
    intro r c q hl
    rw [quad_open]
    constructor
    · rintro ⟨v, r', e, h1, h2, h3⟩
      obtain ⟨s, m, rfl, f1, f2⟩ := (det_blanks _ (by decide) _ _ _).mp h3
      obtain ⟨f3, rfl⟩ := (det_len_grp 1 (line_suffix ⟨v ++ s ++ ['/'], by rw [e]; simp⟩ hl) _ _).mp f2
      exact ⟨v, s, m, e, f1, h1, f3, rfl⟩
    · rintro ⟨v, s, m, e, h1, h2, h3, rfl⟩
      refine ⟨v, s ++ '/' :: m, e, h2, space_head h1 (by decide), ?_⟩
      exact (det_blanks _ (by decide) _ _ _).mpr ⟨s, m, rfl, h1,
        (det_len_grp 1 (line_suffix ⟨v ++ s ++ ['/'], by rw [e]; simp⟩ hl) _ _).mpr ⟨h3, rfl⟩⟩
  refine ⟨fun c => rfl, ?_, ?_⟩
  · intro r c q h0 hl hq
    obtain ⟨v, s, m, e, h1, h2, h3, rfl⟩ := (hd r c q hl).mp hq
    exact ⟨m, ⟨v, (slash_words h0 hl (quad_word h2) (digit_word h3)).mp ⟨s, e, h1⟩, h2, h3⟩, by simp⟩
  · rintro r c m h0 hl ⟨a, h1, h2, h3⟩
    obtain ⟨s, e, hs⟩ := (slash_words h0 hl (quad_word h2) (digit_word h3)).mpr h1
    exact ⟨_, (hd r c _ hl).mpr ⟨a, s, m, e, hs, h2, h3, rfl⟩⟩

theorem addr_first (h : parse o lines = .ok P) (hn : ∀ l ∈ lines, '\n' ∉ l) (i : Nat) :
    ∃ v, Spec.First Spec.AddrLine (Spec.family P i) v ∧
      iterTyped P i "^\\s+ip\\s+address\\s+(\\d+\\.\\d+\\.\\d+\\.\\d+)\\s*\\/\\d+\\s*$" 1 toStr [] =
        .ok ((v.map Prod.fst).getD []) ∧
      ipv4Masklength P i = .ok ((v.map (fun a => (natVal a.2 : Int))).getD 0) := by
  obtain ⟨v₁, h1, h2⟩ := tail_attr h hn i (ind := true) (pre := gaps true ["ip", "address"]) (n := 1) (names := [])
    (rx := "^\\s+ip\\s+address\\s+(\\d+\\.\\d+\\.\\d+\\.\\d+)\\s*\\/\\d+\\s*$")
    tail_addr (by decide +kernel) (fun t _ => ipFits t) toStr [] (fun _ v _ => ⟨v, rfl⟩)
  obtain ⟨v₂, h3, h4⟩ := tail_attr h hn i (ind := true) (pre := gaps true ["ip", "address"]) (n := 1) (names := [])
    (rx := "^\\s+ip\\s+address\\s+\\d+\\.\\d+\\.\\d+\\.\\d+\\s*\\/(\\d+)\\s*$")
    tail_len (by decide +kernel) (fun t _ => ipFits t) toInt 0 (fun _ v ⟨_, hv⟩ => ⟨_, toInt_digits hv.2.2⟩)
  have e1 := first_congr (S' := fun t a => ∃ m, Spec.AddrLine t (a, m)) (fun t _ a => by
    constructor
    · rintro ⟨a1, more, v, a2, ⟨m, a3⟩, a5⟩
      cases a5
      rw [fst_gaps] at a2
      exact ⟨m, a1 rfl, more, a2, a3⟩
    · rintro ⟨m, a1, ws, a2, a3⟩
      refine ⟨fun _ => a1, ws, a, ?_, ⟨m, a3⟩, rfl⟩
      rw [fst_gaps]; exact a2) h1
  have e2 := first_congr (S' := fun t n => ∃ a m, Spec.AddrLine t (a, m) ∧ n = (natVal m : Int)) (fun t _ n => by
    constructor
    · rintro ⟨a1, more, v, a2, ⟨a, a3⟩, a5⟩
      rw [toInt_digits a3.2.2] at a5
      cases a5
      rw [fst_gaps] at a2
      exact ⟨a, v, ⟨a1 rfl, more, a2, a3⟩, rfl⟩
    · rintro ⟨a, m, ⟨a1, ws, a2, a3⟩, rfl⟩
      refine ⟨fun _ => a1, ws, m, ?_, ⟨a, a3⟩, toInt_digits a3.2.2⟩
      rw [fst_gaps]; exact a2) h3
  have key : ∀ ts : List Str, ∀ u₁ u₂, Spec.First (fun t a => ∃ m, Spec.AddrLine t (a, m)) ts u₁ →
      Spec.First (fun t n => ∃ a m, Spec.AddrLine t (a, m) ∧ n = (natVal m : Int)) ts u₂ →
      ∃ v, Spec.First Spec.AddrLine ts v ∧ u₁ = v.map Prod.fst ∧ u₂ = v.map (fun a => (natVal a.2 : Int)) := by
    intro ts
    induction ts with
    | nil => intro u₁ u₂ k1 k2; exact ⟨none, rfl, by rw [show u₁ = none from k1]; rfl, by rw [show u₂ = none from k2]; rfl⟩
    | cons t ts ih =>
      intro u₁ u₂ k1 k2
      rcases k1 with ⟨a, ⟨m, k3⟩, rfl⟩ | ⟨k3, k4⟩
      · rcases k2 with ⟨n, ⟨a', m', k5, rfl⟩, rfl⟩ | ⟨k5, _⟩
        · have := addrLine_unique t _ _ k3 k5
          cases this
          exact ⟨some (a, m), .inl ⟨_, k3, rfl⟩, rfl, rfl⟩
        · exact absurd ⟨a, m, k3, rfl⟩ (k5 _)
      · rcases k2 with ⟨n, ⟨a', m', k5, rfl⟩, rfl⟩ | ⟨k5, k6⟩
        · exact absurd ⟨m', k5⟩ (k3 _)
        · obtain ⟨v, i1, i2, i3⟩ := ih u₁ u₂ k4 k6
          exact ⟨v, .inr ⟨fun a ha => k3 a.1 ⟨a.2, ha⟩, i1⟩, i2, i3⟩
  obtain ⟨v, b1, b2, b3⟩ := key _ _ _ e1 e2
  exact ⟨v, b1, by rw [h2, b2], by rw [ipv4Masklength, h4, b3]⟩

/-! ## C138 -/

/-- C138: `ipv4_addr` and `ipv4_masklength` are the address and the length of the first line `ip
address A/L`; lines with anything behind them, such as `secondary`, do not count.  Without one
they are empty and 0.  With a line `ip address dhcp`, `ipv4_addr` raises an exception: the one
about dynamic addresses, if the interface has a name. -/
theorem C138_addr (h : parse o lines = .ok P) (hn : ∀ l ∈ lines, '\n' ∉ l) (i : Nat) :
    ∃ v, Spec.First Spec.AddrLine (Spec.family P i) v ∧
      ipv4Masklength P i = .ok ((v.map (fun a => (natVal a.2 : Int))).getD 0) ∧
      ((¬ ∃ t ∈ Spec.family P i, Spec.Dhcp t) → ipv4Addr P i = .ok ((v.map Prod.fst).getD [])) ∧
      ((∃ t ∈ Spec.family P i, Spec.Dhcp t) → (∃ e, ipv4Addr P i = .error e) ∧
        ∀ s, name (P.h i).text = .ok s → ipv4Addr P i = .error .dynamicAddress) := by
  obtain ⟨v, h1, h2, h3⟩ := addr_first h hn i
  obtain ⟨d, d1, d3, d2⟩ := dyn_first h hn i (rx := "^\\s+ip\\s+address\\s+(dhcp)\\s*$") (w := "dhcp") (by decide +kernel)
  have hd : d.map lowerChar = "dhcp".toList ↔ d = "dhcp".toList := by
    rcases d3 with rfl | rfl
    · exact ⟨fun _ => rfl, fun _ => by decide⟩
    · decide
  have e : ipv4Addr P i = if d = "dhcp".toList then (match name (P.h i).text with
        | .error e => .error e
        | .ok _ => .error .dynamicAddress) else .ok ((v.map Prod.fst).getD []) := by
    rw [ipv4Addr, h2, d1]
    by_cases hh : d = "dhcp".toList
    · rw [if_pos hh]
      show (if d.map lowerChar = "dhcp".toList then _ else _) = _
      rw [if_pos (hd.mpr hh)]
      rfl
    · rw [if_neg hh]
      show (if d.map lowerChar = "dhcp".toList then _ else _) = _
      rw [if_neg (fun h => hh (hd.mp h))]
  refine ⟨v, h1, h3, ?_, ?_⟩
  · intro hno
    rw [e, if_neg (fun hh => hno (d2.mp hh))]
  · intro hyes
    rw [e, if_pos (d2.mpr hyes)]
    refine ⟨?_, ?_⟩
    · cases name (P.h i).text with
      | error e => exact ⟨e, rfl⟩
      | ok s => exact ⟨_, rfl⟩
    · intro s hs
      rw [hs]

/-! ## C139: address objects -/

/-- The address line has an address of four octets, written without zeros in front, and a mask
length up to 32. -/
def Spec.Valid (v : Option (Str × Str)) (n p : Nat) : Prop :=
  ∃ a m, v = some (a, m) ∧ IP.Quad a n ∧ natVal m = p ∧ p ≤ 32

theorem octet_error (s : Str) : IP.parseOctet s ≠ .error .dynamicAddress := by
  rw [IP.parseOctet]
  intro h
  split at h
  · cases h
  · split at h
    · cases h
    · split at h
      · cases h
      · split at h <;> cases h

theorem addr_error (s : Str) : IP.parseAddr s ≠ .error .dynamicAddress := by
  rw [IP.parseAddr]
  intro h
  split at h
  · rename_i a b c d _
    cases ha : IP.parseOctet a with
    | error e => rw [ha] at h; cases h; exact octet_error _ ha
    | ok a' =>
    rw [ha] at h
    cases hb : IP.parseOctet b with
    | error e => rw [hb] at h; cases h; exact octet_error _ hb
    | ok b' =>
    rw [hb] at h
    cases hc : IP.parseOctet c with
    | error e => rw [hc] at h; cases h; exact octet_error _ hc
    | ok c' =>
    rw [hc] at h
    cases hd : IP.parseOctet d with
    | error e => rw [hd] at h; cases h; exact octet_error _ hd
    | ok d' => rw [hd] at h; cases h
  · cases h

theorem mask_error (s : Str) : IP.makeNetmask s ≠ .error .dynamicAddress := by
  rw [IP.makeNetmask]
  intro h
  split at h
  · cases h
  · split at h
    · cases h
    · split at h
      · cases h
      · split at h <;> cases h

theorem obj_error (s : Str) : IP.V4.ofStr s ≠ .error .dynamicAddress := by
  rw [IP.V4.ofStr]
  intro h
  split at h
  · cases h
  · rename_i a m _
    cases ha : IP.parseAddr a with
    | error e => rw [ha] at h; cases h; exact addr_error _ ha
    | ok a' =>
    rw [ha] at h
    cases hm : IP.makeNetmask m with
    | error e => rw [hm] at h; cases h; exact mask_error _ hm
    | ok m' => rw [hm] at h; cases h

theorem orDefault_none {s : Str} (h : ∀ o, IP.V4.ofStr s ≠ .ok o) : orDefault (IP.V4.ofStr s) = .ok noAddr := by
  cases hs : IP.V4.ofStr s with
  | ok o => exact absurd hs (h o)
  | error e =>
    rw [orDefault.eq_def]
    cases e <;> first | rfl | exact absurd hs (obj_error s)

theorem noAddr_eq : noAddr = IP.obj4 1 32 := by decide +kernel

/-- The text `a/m`, of an address and a mask length. -/
theorem ofStr_slash {a m : Str} (ha : Spec.DottedQuad a) (hm : Spec.Digits m) (o : IP.V4) :
    IP.V4.ofStr (a ++ '/' :: m) = .ok o ↔ ∃ n, IP.Quad a n ∧ natVal m ≤ 32 ∧ o = IP.obj4 n (natVal m) := by
  have hmw : ∀ c ∈ m, isDigit c = true := hm.2
  have haw := quad_word ha
  have hs : strip (a ++ '/' :: m) = a ++ '/' :: m := strip_of_noSpace (by
    intro c hc
    rcases List.mem_append.mp hc with hc | hc
    · exact haw.2 c hc
    · rcases List.mem_cons.mp hc with rfl | hc
      · decide
      · exact digit_not_space (hmw c hc))
  rw [IP.C93_exact, hs]
  constructor
  · rintro ⟨n, p, h | ⟨b, w, k, h1, h2, h3, h4, h5, h6⟩, rfl⟩
    · obtain ⟨b, h1, h2 | ⟨k, h2, h3⟩⟩ := h
      · exact absurd (by rw [← h2.1]; simp) h1.no_slash
      · have e : b ++ "/".toList ++ k = b ++ '/' :: k := by simp
        rw [e] at h3
        obtain ⟨rfl, rfl⟩ := cut_slash (no_slash ha) h1.no_slash h3
        cases h2 with
        | digits _ _ h => exact ⟨n, h1, h, rfl⟩
        | net hp hq =>
          have := hmw _ hq.dot
          cases this
        | host _ _ hq =>
          have := hmw _ hq.dot
          cases this
    · obtain ⟨x, w, rfl⟩ := List.exists_cons_of_ne_nil h2
      have hx : x ∈ a ++ '/' :: m := by rw [h6]; simp
      have hx' := h3 x (by simp)
      rcases List.mem_append.mp hx with hx | hx
      · rw [haw.2 x hx] at hx'; cases hx'
      · rcases List.mem_cons.mp hx with rfl | hx
        · cases hx'
        · rw [digit_not_space (hmw x hx)] at hx'; cases hx'
  · rintro ⟨n, h1, h2, rfl⟩
    exact ⟨n, _, .inl ⟨a, h1, .inr ⟨m, .digits hm.1 hm.2 h2, by simp⟩⟩, rfl⟩

/-- A text that ends in a slash is no address. -/
theorem ofStr_open {a : Str} (ha : ∀ c ∈ a, isSpace c = false) (o : IP.V4) : IP.V4.ofStr (a ++ ['/']) ≠ .ok o := by
  have hs : strip (a ++ ['/']) = a ++ ['/'] := strip_of_noSpace (by
    intro c hc
    rcases List.mem_append.mp hc with hc | hc
    · exact ha c hc
    · cases List.mem_singleton.mp hc; decide)
  rw [Ne, IP.C93_exact, hs]
  have last : ∀ (b k : Str), a ++ ['/'] = b ++ k → k ≠ [] → '/' ∈ k := by
    intro b k e hk
    obtain ⟨y, z, rfl⟩ : ∃ y z, k = y ++ [z] := ⟨k.dropLast, k.getLast hk, (List.dropLast_concat_getLast hk).symm⟩
    rw [← List.append_assoc] at e
    have := List.append_inj_right' e rfl
    cases this
    simp
  have hmask : ∀ {k : Str} {p : Nat}, IP.Mask4 k p → k ≠ [] ∧ '/' ∉ k := by
    intro k p h
    have hq : ∀ {n}, IP.Quad k n → k ≠ [] ∧ '/' ∉ k := fun hq => ⟨List.ne_nil_of_mem hq.dot, hq.no_slash⟩
    cases h with
    | digits h1 h2 _ => exact ⟨h1, fun hh => absurd (h2 _ hh) (by decide)⟩
    | net _ h => exact hq h
    | host _ _ h => exact hq h
  rintro ⟨n, p, h | ⟨b, w, k, h1, h2, h3, h4, h5, h6⟩, rfl⟩
  · obtain ⟨b, h1, h2 | ⟨k, h2, h3⟩⟩ := h
    · exact absurd (by rw [← h2.1]; simp) h1.no_slash
    · exact (hmask h2).2 (last _ _ h3 (hmask h2).1)
  · exact (hmask h5).2 (last _ _ h6 (hmask h5).1)

theorem obj4_make {n p : Nat} (h : n < 2 ^ 32) (hp : p ≤ 32) : IP.obj4 n p = IP.V4.make n p := by
  have := IP.make4_block h hp
  show (⟨n, p, _⟩ : IP.V4) = ⟨n, p, _⟩
  rw [← this]
  rfl

theorem obj4_text {n p : Nat} (h : n < 2 ^ 32) (hp : p ≤ 32) : IP.V4.ofStr (IP.dotted n ++ '/' :: natStr p) = .ok (IP.obj4 n p) := by
  have hq : IP.Quad (IP.dotted n) n := IP.Quad.dotted.mpr ⟨h, rfl⟩
  refine IP.C93_exact.mpr ⟨n, p, .inl ⟨_, hq, .inr ⟨natStr p, ?_, ?_⟩⟩, rfl⟩
  · have := IP.Mask4.digits (natStr_ne_nil p) (natStr_digits p) (by rw [natVal_natStr]; exact hp)
    rwa [natVal_natStr] at this
  · rw [strip_of_noSpace]
    · simp
    · intro c hc
      rcases List.mem_append.mp hc with hc | hc
      · rcases hq.chars c hc with hc | rfl
        · exact digit_not_space hc
        · decide
      · rcases List.mem_cons.mp hc with rfl | hc
        · decide
        · exact digit_not_space (natStr_digits p c hc)

theorem obj4_regular {n p : Nat} (h : n < 2 ^ 32) (hp : p ≤ 32) : (IP.obj4 n p).Regular := .ofStr (obj4_text h hp)

theorem eq_noAddr {n p : Nat} (h : n < 2 ^ 32) (hp : p ≤ 32) :
    IP.V4.eq (some (IP.obj4 n p)) (some noAddr) = true ↔ n = 1 ∧ p = 32 := by
  rw [noAddr_eq, IP.eq4_iff (obj4_regular h hp).wf (obj4_regular (by decide) (by decide)).wf]
  exact Iff.rfl

theorem valid_iff {a m : Str} {n p : Nat} : Spec.Valid (some (a, m)) n p ↔ IP.Quad a n ∧ natVal m = p ∧ p ≤ 32 := by
  constructor
  · rintro ⟨_, _, e, h⟩; cases e; exact h
  · exact fun h => ⟨a, m, rfl, h⟩

theorem natStr_digits' (n : Nat) : Spec.Digits (natStr n) := ⟨natStr_ne_nil n, natStr_digits n⟩

theorem first_mem {α : Type} {S : Str → α → Prop} {ts : List Str} {a : α} (h : Spec.First S ts (some a)) : ∃ t ∈ ts, S t a := by
  induction ts with
  | nil => cases h
  | cons t ts ih =>
    rcases h with ⟨b, h, e⟩ | ⟨_, h⟩
    · cases e; exact ⟨t, by simp, h⟩
    · obtain ⟨t', h1, h2⟩ := ih h
      exact ⟨t', by simp [h1], h2⟩

/-- The address object by the address line. -/
theorem object_of {v : Option (Str × Str)} (hv : ∀ a, v = some a → Spec.DottedQuad a.1 ∧ Spec.Digits a.2)
    (h1 : ipv4Addr P i = .ok ((v.map Prod.fst).getD [])) (h2 : ipv4Masklength P i = .ok ((v.map (fun a => (natVal a.2 : Int))).getD 0)) :
    (∀ n p, Spec.Valid v n p → ipv4AddrObject P i = .ok (IP.obj4 n p)) ∧
    ((∀ n p, ¬ Spec.Valid v n p) → ipv4AddrObject P i = .ok (IP.obj4 1 32)) := by
  rw [ipv4AddrObject, h1, h2, ← noAddr_eq]
  cases v with
  | none =>
    refine ⟨fun n p h => ?_, fun _ => ?_⟩
    · obtain ⟨a, m, e, _⟩ := h; cases e
    · exact orDefault_none (s := '/' :: intStr 0) (fun o ho => by
        revert ho; rw [show IP.V4.ofStr ('/' :: intStr 0) = .error .addressValue from by decide +kernel]; intro h; cases h)
  | some a =>
    obtain ⟨a, m⟩ := a
    obtain ⟨ha, hm⟩ := hv _ rfl
    show (∀ n p, _ → orDefault (IP.V4.ofStr (a ++ '/' :: natStr (natVal m))) = _) ∧ (_ → orDefault (IP.V4.ofStr (a ++ '/' :: natStr (natVal m))) = _)
    have key := ofStr_slash ha (natStr_digits' (natVal m))
    rw [natVal_natStr] at key
    simp only [valid_iff]
    refine ⟨fun n p h => ?_, fun h => ?_⟩
    · obtain ⟨q, rfl, hp⟩ := h
      rw [(key _).mpr ⟨n, q, hp, rfl⟩]
      rfl
    · apply orDefault_none
      intro o ho
      obtain ⟨n, q, hp, _⟩ := (key o).mp ho
      exact h n _ ⟨q, rfl, hp⟩

/-- C139: with a valid address line `ip address A/L` the address object and the network object
are the address A with mask length L, the netmask is the one of L, and `has_no_ipv4` is false;
the address 0.0.0.1/32, which stands for a missing one, is the exception for the latter two.
Without a valid address line the objects are 0.0.0.1/32, the netmask is empty and
`has_no_ipv4` is true. -/
theorem C139_objects (h : parse o lines = .ok P) (hn : ∀ l ∈ lines, '\n' ∉ l) (i : Nat)
    (hno : ¬ ∃ t ∈ Spec.family P i, Spec.Dhcp t) :
    ∃ v, Spec.First Spec.AddrLine (Spec.family P i) v ∧
      (∀ n p, Spec.Valid v n p →
        ipv4AddrObject P i = .ok (IP.obj4 n p) ∧ ipNetworkObject P i = .ok (IP.obj4 n p) ∧
        hasNoIpv4 P i = .ok (decide (n = 1 ∧ p = 32)) ∧
        ∃ s, ipv4Netmask P i = .ok s ∧ (if n = 1 ∧ p = 32 then s = [] else IP.Quad s (2 ^ 32 - 2 ^ (32 - p)))) ∧
      ((∀ n p, ¬ Spec.Valid v n p) →
        ipv4AddrObject P i = .ok (IP.obj4 1 32) ∧ ipNetworkObject P i = .ok (IP.obj4 1 32) ∧
        hasNoIpv4 P i = .ok true ∧ ipv4Netmask P i = .ok []) := by
  obtain ⟨v, h1, h2, h3, _⟩ := C138_addr h hn i
  have h3 := h3 hno
  have hv : ∀ a, v = some a → Spec.DottedQuad a.1 ∧ Spec.Digits a.2 := by
    rintro a rfl
    obtain ⟨t, _, hs⟩ := first_mem h1
    obtain ⟨_, ws, _, hs⟩ := hs
    exact hs.2
  have hv' : ∀ c ∈ (v.map Prod.fst).getD [], isSpace c = false := by
    cases v with
    | none => simp
    | some a => exact (quad_word (hv a rfl).1).2
  obtain ⟨o1, o2⟩ := object_of hv h3 h2
  have hdef : ipv4AddrObject P i = .ok (IP.obj4 1 32) →
      ipNetworkObject P i = .ok (IP.obj4 1 32) ∧ hasNoIpv4 P i = .ok true ∧ ipv4Netmask P i = .ok [] := by
    intro ho
    have hm : ipv4Netmask P i = .ok [] := by
      rw [ipv4Netmask, ho]
      show (if IP.V4.eq (some (IP.obj4 1 32)) (some noAddr) = true then (.ok [] : Except Err Str) else .ok (IP.obj4 1 32).netmaskStr) = _
      rw [if_pos ((eq_noAddr (by decide) (by decide)).mpr ⟨rfl, rfl⟩)]
    have hnet : ipNetworkObject P i = .ok (IP.obj4 1 32) := by
      rw [ipNetworkObject, h3, hm, ← noAddr_eq]
      exact orDefault_none (fun o => ofStr_open hv' o)
    refine ⟨hnet, ?_, hm⟩
    rw [hasNoIpv4, hnet]
    exact congrArg Except.ok ((eq_noAddr (by decide) (by decide)).mpr ⟨rfl, rfl⟩)
  refine ⟨v, h1, ?_, fun hh => ⟨o2 hh, hdef (o2 hh)⟩⟩
  intro n p hval
  have ho := o1 n p hval
  obtain ⟨a, m, rfl, hq, hmp, hp⟩ := hval
  have hlt := (IP.Quad.dotted.mp hq).1
  refine ⟨ho, ?_⟩
  by_cases hone : n = 1 ∧ p = 32
  · obtain ⟨rfl, rfl⟩ := hone
    obtain ⟨k1, k2, k3⟩ := hdef ho
    exact ⟨k1, by simpa using k2, [], k3, by simp⟩
  · have hne : ¬ IP.V4.eq (some (IP.obj4 n p)) (some noAddr) = true := fun h => hone ((eq_noAddr hlt hp).mp h)
    have hm : ipv4Netmask P i = .ok (IP.obj4 n p).netmaskStr := by
      rw [ipv4Netmask, ho]
      show (if IP.V4.eq (some (IP.obj4 n p)) (some noAddr) = true then (.ok [] : Except Err Str) else .ok (IP.obj4 n p).netmaskStr) = _
      rw [if_neg hne]
    have hnet : ipNetworkObject P i = .ok (IP.obj4 n p) := by
      rw [ipNetworkObject, h3, hm]
      show orDefault (IP.V4.ofStr (a ++ '/' :: (IP.obj4 n p).netmaskStr)) = _
      have := (IP.C06_mask_notations _ (obj4_regular hlt hp)).2.1
      rw [show a = IP.dotted (IP.obj4 n p).ip from (IP.Quad.dotted.mp hq).2, this]
      rfl
    refine ⟨hnet, ?_, _, hm, ?_⟩
    · rw [hasNoIpv4, hnet]
      show Except.ok _ = _
      rw [decide_eq_false hone, Bool.eq_false_iff.mpr hne]
    · rw [if_neg hone, IP.V4.netmaskStr, IP.Quad.dotted]
      show _ ∧ IP.dotted (IP.maskOf 32 p) = _
      rw [IP.maskOf_eq 32 p hp]
      exact ⟨Nat.sub_lt (by decide) (IP.two_pow_pos _), rfl⟩

/-- C139: with a line `ip address dhcp` in an interface with a name, every one of these
properties raises the exception about dynamic addresses. -/
theorem C139_dhcp (h : parse o lines = .ok P) (hn : ∀ l ∈ lines, '\n' ∉ l) (i : Nat)
    (hyes : ∃ t ∈ Spec.family P i, Spec.Dhcp t) {s : Str} (hs : name (P.h i).text = .ok s) (net : IP.V4) :
    ipv4AddrObject P i = .error .dynamicAddress ∧ ipNetworkObject P i = .error .dynamicAddress ∧
    ipv4Netmask P i = .error .dynamicAddress ∧ hasNoIpv4 P i = .error .dynamicAddress ∧
    inIpv4Subnet P i net = .error .dynamicAddress := by
  obtain ⟨v, _, _, _, h4⟩ := C138_addr h hn i
  have ha := (h4 hyes).2 s hs
  have h1 : ipv4AddrObject P i = .error .dynamicAddress := by rw [ipv4AddrObject, ha]; rfl
  have h2 : ipNetworkObject P i = .error .dynamicAddress := by rw [ipNetworkObject, ha]; rfl
  exact ⟨h1, h2, by rw [ipv4Netmask, h1]; rfl, by rw [hasNoIpv4, h2]; rfl, by rw [inIpv4Subnet, h1]; rfl⟩

theorem dotted_one {n : Nat} (h : n < 2 ^ 32) : IP.dotted n = "0.0.0.1".toList ↔ n = 1 := by
  constructor
  · intro e
    have h1 := IP.decOfDotted_dotted n h
    have h2 := IP.decOfDotted_dotted 1 (by decide)
    rw [e] at h1
    rw [show IP.dotted 1 = "0.0.0.1".toList from by decide] at h2
    exact h1.symm.trans h2
  · rintro rfl; decide

theorem contains_obj {net : IP.V4} (hr : net.Reachable) {n p : Nat} (h : n < 2 ^ 32) (hp : p ≤ 32) :
    IP.V4.contains (some net) (some (IP.obj4 n p)) = true ↔ ∀ x, IP.InNet 32 n p x → IP.InNet 32 net.net net.plen x := by
  rw [IP.C01_contains_iff_subset _ _ hr (obj4_regular h hp).reachable]
  have e : ∀ x, IP.InNet 32 (IP.obj4 n p).net (IP.obj4 n p).plen x ↔ IP.InNet 32 n p x := by
    intro x
    show _ ∧ x / 2 ^ (32 - p) = n / 2 ^ (32 - p) * 2 ^ (32 - p) / 2 ^ (32 - p) ↔ _
    rw [Nat.mul_div_cancel _ (IP.two_pow_pos _)]
    exact Iff.rfl
  simp only [e]

/-- `in_ipv4_subnet` by the address line. -/
theorem subnet_of (h : parse o lines = .ok P) (hn : ∀ l ∈ lines, '\n' ∉ l) (i : Nat)
    (hno : ¬ ∃ t ∈ Spec.family P i, Spec.Dhcp t) :
    ∃ v, Spec.First Spec.AddrLine (Spec.family P i) v ∧
      (∀ n p, Spec.Valid v n p → n ≠ 1 → ipv4AddrObject P i = .ok (IP.obj4 n p) ∧
        ∀ net, inIpv4Subnet P i net = .ok (some (IP.V4.contains (some net) (some (IP.obj4 n p))))) ∧
      ((∀ n p, Spec.Valid v n p → n = 1) → (∃ a, ipv4AddrObject P i = .ok a) ∧ ∀ net, inIpv4Subnet P i net = .ok none) := by
  obtain ⟨v, h1, h2, h3⟩ := C139_objects h hn i hno
  refine ⟨v, h1, ?_, ?_⟩
  · intro n p hval hne
    obtain ⟨k1, k2, _⟩ := h2 n p hval
    obtain ⟨a, m, rfl, hq, _, hp⟩ := hval
    refine ⟨k1, fun net => ?_⟩
    rw [inIpv4Subnet, k1, k2]
    show (if IP.dotted n ≠ "0.0.0.1".toList then _ else _) = _
    rw [if_pos (fun e => hne ((dotted_one (IP.Quad.dotted.mp hq).1).mp e))]
  · intro hall
    have key : ∃ p, ipv4AddrObject P i = .ok (IP.obj4 1 p) := by
      by_cases hex : ∃ n p, Spec.Valid v n p
      · obtain ⟨n, p, hval⟩ := hex
        cases hall n p hval
        exact ⟨p, (h2 1 p hval).1⟩
      · exact ⟨32, (h3 (fun n p hh => hex ⟨n, p, hh⟩)).1⟩
    obtain ⟨p, hp⟩ := key
    refine ⟨⟨_, hp⟩, fun net => ?_⟩
    rw [inIpv4Subnet, hp]
    exact if_neg (c := IP.dotted 1 ≠ "0.0.0.1".toList) (by decide)

/-- C140: `in_ipv4_subnet` with a valid address is true exactly if every address of the network
of the interface is in the subnet; `in_ipv4_subnets` with at least one subnet is true exactly if
that holds for some of them.  Without a valid address, and for the address 0.0.0.1, both are
None. -/
theorem C140_subnets_partial (h : parse o lines = .ok P) (hn : ∀ l ∈ lines, '\n' ∉ l) (i : Nat)
    (hno : ¬ ∃ t ∈ Spec.family P i, Spec.Dhcp t) :
    ∃ v, Spec.First Spec.AddrLine (Spec.family P i) v ∧
      (∀ n p, Spec.Valid v n p → n ≠ 1 →
        (∀ net : IP.V4, net.Reachable → ∃ b, inIpv4Subnet P i net = .ok (some b) ∧
          (b = true ↔ ∀ x, IP.InNet 32 n p x → IP.InNet 32 net.net net.plen x)) ∧
        (∀ ss : List IP.V4, ss ≠ [] → (∀ s ∈ ss, s.Reachable) → ∃ b, inIpv4Subnets P i (some ss) = .ok (some b) ∧
          (b = true ↔ ∃ s ∈ ss, ∀ x, IP.InNet 32 n p x → IP.InNet 32 s.net s.plen x))) ∧
      ((∀ n p, Spec.Valid v n p → n = 1) →
        (∀ net, inIpv4Subnet P i net = .ok none) ∧ ∀ ss, ss ≠ [] → inIpv4Subnets P i (some ss) = .ok none) := by
  obtain ⟨v, h1, h2, h3⟩ := subnet_of h hn i hno
  refine ⟨v, h1, ?_, ?_⟩
  · intro n p hval hne
    obtain ⟨k1, k2⟩ := h2 n p hval hne
    obtain ⟨a, m, rfl, hq, _, hp⟩ := hval
    have hlt := (IP.Quad.dotted.mp hq).1
    refine ⟨fun net hr => ⟨_, k2 net, contains_obj hr hlt hp⟩, ?_⟩
    have loop : ∀ (ss : List IP.V4) (tmp : Option (Option Bool)), (ss ≠ [] ∨ tmp = some (some false)) → (∀ s ∈ ss, s.Reachable) →
        ∃ b, inSubnetsLoop P i tmp ss = .ok (some b) ∧
          (b = true ↔ ∃ s ∈ ss, ∀ x, IP.InNet 32 n p x → IP.InNet 32 s.net s.plen x) := by
      intro ss
      induction ss with
      | nil =>
        rintro tmp (hh | rfl) _
        · exact absurd rfl hh
        · exact ⟨false, rfl, by simp⟩
      | cons s ss ih =>
        intro tmp _ hr
        have hc := contains_obj (hr s (by simp)) hlt hp
        rw [inSubnetsLoop, k2 s, k1]
        show ∃ b, (if IP.V4.contains (some s) (some (IP.obj4 n p)) = true then _ else _) = _ ∧ _
        by_cases hin : IP.V4.contains (some s) (some (IP.obj4 n p)) = true
        · rw [if_pos hin, hin]
          exact ⟨true, rfl, by simp only [true_iff]; exact ⟨s, by simp, hc.mp hin⟩⟩
        · rw [if_neg hin, Bool.eq_false_iff.mpr hin]
          obtain ⟨b, b1, b2⟩ := ih (some (some false)) (.inr rfl) (fun s hs => hr s (by simp [hs]))
          refine ⟨b, b1, b2.trans ?_⟩
          simp only [List.mem_cons, exists_eq_or_imp, or_iff_right (fun h => hin (hc.mpr h))]
    exact fun ss hne hr => loop ss none (.inl hne) hr
  · intro hall
    obtain ⟨⟨a, k1⟩, k2⟩ := h3 hall
    refine ⟨k2, ?_⟩
    have loop : ∀ (ss : List IP.V4) (tmp : Option (Option Bool)), (ss ≠ [] ∨ tmp = some none) →
        inSubnetsLoop P i tmp ss = .ok none := by
      intro ss
      induction ss with
      | nil =>
        rintro tmp (hh | rfl)
        · exact absurd rfl hh
        · rfl
      | cons s ss ih =>
        intro tmp _
        rw [inSubnetsLoop, k2 s, k1]
        show (if IP.V4.contains (some s) (some a) = true then _ else _) = _
        by_cases hin : IP.V4.contains (some s) (some a) = true
        · rw [if_pos hin]
        · rw [if_neg hin]; exact ih _ (.inr rfl)
    exact fun ss hne => loop ss none (.inl hne)

/-- C140: `in_ipv4_subnets` of something that is not a list raises ValueError. -/
theorem C140_no_list (P : Parsed) (i : Nat) : inIpv4Subnets P i none = .error .valueError := rfl

/-- C140 fails for an empty set of subnets: `in_ipv4_subnets` raises an exception for every
interface, where the answer is that it is in none of them. -/
theorem C140_empty_fails (P : Parsed) (i : Nat) : inIpv4Subnets P i (some []) = .error .unbound := rfl

/-- C140 fails for the address 0.0.0.1/24: it is valid, and `in_ipv4_subnet` answers None. -/
def oneLines : List Str := ["interface Ethernet1/1", "  no switchport", "  ip address 0.0.0.1/24"].map String.toList

theorem C140_one_fails : ∃ P, parse { factory := true, syn := .nxos } oneLines = .ok P ∧
    ipv4AddrObject P 0 = .ok (IP.obj4 1 24) ∧ inIpv4Subnet P 0 (IP.obj4 0 8) = .ok none := by
  obtain ⟨P, h1, h2⟩ := of_shows (lines := oneLines) (Q := fun P =>
    decide (ipv4AddrObject P 0 = .ok (IP.obj4 1 24)) && decide (inIpv4Subnet P 0 (IP.obj4 0 8) = .ok none)) (by decide +kernel)
  simp only [Bool.and_eq_true, decide_eq_true_eq] at h2
  exact ⟨P, h1, h2⟩

/-- Two interfaces with an address, one with a secondary one, and one that asks for its address. -/
def addrLines : List Str :=
  ["interface Ethernet1/1", "  no switchport", "  ip address 10.1.2.3/24", "  ip address 10.9.9.9/24 secondary", "  no ip redirects",
    "interface Ethernet1/2", "  ip address  10.1.2.300/24", "interface mgmt0", "  ip address dhcp"].map String.toList

example : shows addrLines (fun P =>
    decide (ipv4Addr P 0 = .ok "10.1.2.3".toList) && decide (ipv4Masklength P 0 = .ok 24) &&
    decide (ipNetworkObject P 0 = .ok (IP.obj4 0x0a010203 24)) && decide (ipv4Netmask P 0 = .ok "255.255.255.0".toList) &&
    decide (inIpv4Subnet P 0 (IP.obj4 0x0a010000 16) = .ok (some true)) &&
    decide (inIpv4Subnets P 0 (some [IP.obj4 0x0a020000 16, IP.obj4 0x0a010000 16]) = .ok (some true)) &&
    decide (hasNoIpv4 P 5 = .ok true) && decide (inIpv4Subnet P 5 (IP.obj4 0 0) = .ok none) &&
    decide (name (P.h 7).text = .ok "mgmt0".toList) && decide (ipv4AddrObject P 7 = .error .dynamicAddress)) = true := by
  decide +kernel

example : Spec.Valid (some ("10.1.2.3".toList, "24".toList)) 0x0a010203 24 :=
  ⟨_, _, rfl, IP.Quad.dotted.mpr ⟨by decide, by decide⟩, by decide, by decide⟩

/-! ## C141: properties that need an address -/

/-- The flags of an interface with an address, and the line that sets each. -/
def addrFlags : List ((Parsed → Nat → Except Err Bool) × List String) :=
  [(hasNoIcmpUnreachables, ["no", "ip", "unreachables"]), (hasNoIcmpRedirects, ["no", "ip", "redirects"]),
    (hasNoIpProxyarp, ["no", "ip", "proxy-arp"])]

theorem with_addr (h : parse o lines = .ok P) (hn : ∀ l ∈ lines, '\n' ∉ l) (i : Nat)
    (hno : ¬ ∃ t ∈ Spec.family P i, Spec.Dhcp t) {α : Type} (d : α) (f : Except Err α) :
    ((∃ t ∈ Spec.family P i, ∃ a, Spec.AddrLine t a) → withAddr P i d f = f) ∧
    ((∀ t ∈ Spec.family P i, ∀ a, ¬ Spec.AddrLine t a) → withAddr P i d f = .ok d) := by
  obtain ⟨v, h1, _, h3, _⟩ := C138_addr h hn i
  have h3 := h3 hno
  have hw : ∀ x : Str, ipv4Addr P i = .ok x → withAddr P i d f = if x = [] then .ok d else f := by
    intro x hx; rw [withAddr, hx]; rfl
  rw [hw _ h3]
  cases v with
  | none =>
    refine ⟨?_, fun _ => rfl⟩
    rintro ⟨t, ht, a, ha⟩
    exact absurd ha ((first_exists h1).1.mp rfl t ht a)
  | some a =>
    obtain ⟨t, ht, hs⟩ := first_mem h1
    refine ⟨fun _ => if_neg ?_, fun hall => absurd hs (hall t ht a)⟩
    obtain ⟨_, _, _, hs⟩ := hs
    exact (quad_word hs.2.1).1

/-- C141: for lines without double blanks, `has_no_icmp_unreachables`, `has_no_icmp_redirects`
and `has_no_ip_proxyarp` are true exactly if the interface has an address line and the line that
sets the flag.  Missing: two blanks in a row. -/
theorem C141_flags_partial (h : parse o lines = .ok P) (hn : ∀ l ∈ lines, '\n' ∉ l) (i : Nat)
    (hno : ¬ ∃ t ∈ Spec.family P i, Spec.Dhcp t) (ht : ∀ t ∈ Spec.family P i, Spec.Tidy t) :
    ∀ f ∈ addrFlags, ∃ b, f.1 P i = .ok b ∧
      (b = true ↔ (∃ t ∈ Spec.family P i, ∃ a, Spec.AddrLine t a) ∧ ∃ t ∈ Spec.family P i, Spec.Exactly f.2 t) := by
  have key : ∀ (f : Except Err Bool) (ws : List String),
      (∃ b, f = .ok b ∧ (b = true ↔ ∃ t ∈ Spec.family P i, Spec.Exactly ws t)) →
      ∃ b, withAddr P i false f = .ok b ∧
        (b = true ↔ (∃ t ∈ Spec.family P i, ∃ a, Spec.AddrLine t a) ∧ ∃ t ∈ Spec.family P i, Spec.Exactly ws t) := by
    rintro f ws ⟨b, h1, h2⟩
    obtain ⟨k1, k2⟩ := with_addr h hn i hno false f
    by_cases hex : ∃ t ∈ Spec.family P i, ∃ a, Spec.AddrLine t a
    · exact ⟨b, (k1 hex).trans h1, by simp only [h2, hex, true_and]⟩
    · exact ⟨false, k2 (fun t ht a ha => hex ⟨t, ht, a, ha⟩), by simp only [hex, false_and]; simp⟩
  intro f hf
  simp only [addrFlags, List.mem_cons, List.not_mem_nil, or_false] at hf
  rcases hf with rfl | rfl | rfl
  · exact key _ _ (flag_attr (pre := gaps false ["no", "ip"]) (l := []) (w := "unreachables".toList) (sp := true)
      h hn i (by decide +kernel) (fun t hh => .inr (ht t hh)))
  · exact key _ _ (flag_attr (pre := gaps false ["no", "ip"]) (l := []) (w := "redirects".toList) (sp := true)
      h hn i (by decide +kernel) (fun t hh => .inr (ht t hh)))
  · exact key _ _ (flag_attr (pre := gaps false ["no", "ip"]) (l := []) (w := "proxy-arp".toList) (sp := true)
      h hn i (by decide +kernel) (fun t hh => .inr (ht t hh)))

/-- C141: `manual_arp_timeout` is the number in the first line `arp timeout N`, and 0 without
one, in an interface with an address; in another one it is -1. -/
theorem C141_arp (h : parse o lines = .ok P) (hn : ∀ l ∈ lines, '\n' ∉ l) (i : Nat)
    (hno : ¬ ∃ t ∈ Spec.family P i, Spec.Dhcp t) :
    ∃ v, Spec.First (Spec.Number ["arp", "timeout"] []) (Spec.family P i) v ∧
      ((∃ t ∈ Spec.family P i, ∃ a, Spec.AddrLine t a) → manualArpTimeout P i = .ok (v.getD 0)) ∧
      ((∀ t ∈ Spec.family P i, ∀ a, ¬ Spec.AddrLine t a) → manualArpTimeout P i = .ok (-1)) := by
  obtain ⟨v, h1, h2⟩ := num_attr (rx := "^\\s*arp\\s+timeout\\s+(\\d+)\\s*$") (pre := ["arp", "timeout"]) (post := [])
    (sp := true) h hn i (by decide +kernel) 0
  obtain ⟨k1, k2⟩ := with_addr h hn i hno (-1) (iterTyped P i "^\\s*arp\\s+timeout\\s+(\\d+)\\s*$" 1 toInt 0)
  exact ⟨v, h1, fun hex => (k1 hex).trans h2, k2⟩

/-- C141 fails for the PIM modes: in every interface with an address the three properties raise
the exception about an invalid regular expression, whatever its lines are. -/
theorem C141_pim_fails (h : parse o lines = .ok P) (hn : ∀ l ∈ lines, '\n' ∉ l) (i : Nat)
    (hno : ¬ ∃ t ∈ Spec.family P i, Spec.Dhcp t) (hex : ∃ t ∈ Spec.family P i, ∃ a, Spec.AddrLine t a) :
    ∀ f ∈ [hasIpPimDenseMode, hasIpPimSparseMode, hasIpPimSparsedenseMode], f P i = .error .reError := by
  intro f hf
  have bad : ∀ rx : String, (match compile rx with | .error _ => true | .ok _ => false) = true →
      iterTyped P i rx 1 toBool false = .error .reError := by
    intro rx hb
    cases hc : compile rx with
    | error b => exact C70_invalid P i rx 1 toBool false true b hc
    | ok r => rw [hc] at hb; cases hb
  simp only [List.mem_cons, List.not_mem_nil, or_false] at hf
  rcases hf with rfl | rfl | rfl <;> refine ((with_addr h hn i hno false _).1 hex).trans (bad _ ?_) <;> decide +kernel

/-- C141 fails for a line with two blanks. -/
theorem C141_flags_fails : ∃ P, parse { factory := true, syn := .nxos }
    (["interface Ethernet1/1", "  ip address 10.1.1.1/24", "  no  ip redirects"].map String.toList) = .ok P ∧
      hasNoIcmpRedirects P 0 = .ok false := by
  obtain ⟨P, h1, h2⟩ := of_shows
    (lines := ["interface Ethernet1/1", "  ip address 10.1.1.1/24", "  no  ip redirects"].map String.toList)
    (Q := fun P => decide (hasNoIcmpRedirects P 0 = .ok false)) (by decide +kernel)
  exact ⟨P, h1, of_decide_eq_true h2⟩

example : shows addrLines (fun P =>
    (Spec.family P 0).all (fun t => tidy (lstrip t)) && decide (hasNoIcmpRedirects P 0 = .ok true) &&
    decide (hasNoIpProxyarp P 0 = .ok false) && decide (manualArpTimeout P 0 = .ok 0) &&
    decide (hasIpPimSparseMode P 0 = .error .reError) && decide (manualArpTimeout P 7 = .error .dynamicAddress)) = true := by
  decide +kernel

end Nxos

import Verif.Cisco.Lemmas

/-! # More shapes of interface attributes -/

namespace Cisco

open Py Conf Query Re

/-! ## The rest of the line -/

theorem dropWhile_all {p : Char → Bool} : ∀ {s : Str}, (∀ x ∈ s, p x = true) → s.dropWhile p = []
  | [], _ => rfl
  | x :: s, h => by
    rw [List.dropWhile_cons_of_pos (h x (by simp))]
    exact dropWhile_all (fun y hy => h y (by simp [hy]))

theorem any_of_line {s : Str} (h : '\n' ∉ s) : ∀ x ∈ s, K.any.has x = true := by
  intro x hx
  have : x ≠ '\n' := fun e => h (e ▸ hx)
  simp [K.has, this]

/-- `(\S.*)$` and `(\S.+)$` where a word begins. -/
theorem det_rest {x : Char} {s : Str} (hx : isSpace x = false) (hs : '\n' ∉ s) (i : Nat) (c : Caps) :
    (Prog.grp i (.one .nonspace (.star .any .done)) (.eol .done)).det (x :: s) c = some ([], (i, x :: s) :: c) ∧
    (Prog.grp i (.one .nonspace (.plus .any .done)) (.eol .done)).det (x :: s) c =
      if s = [] then none else some ([], (i, x :: s) :: c) := by
  have hx' : K.nonspace.has x = true := by simp [K.has, hx]
  constructor
  · have : (Prog.one .nonspace (.star .any .done)).det (x :: s) c = some ([], c) := by
      rw [Prog.det.eq_def]
      simp only [if_pos hx', Prog.det]
      rw [dropWhile_all (any_of_line hs)]
    rw [Prog.det, this]
    simp [Prog.det]
  · have : (Prog.one .nonspace (.plus .any .done)).det (x :: s) c = if s = [] then none else some ([], c) := by
      rw [Prog.det.eq_def]
      simp only [if_pos hx']
      cases s with
      | nil => rfl
      | cons y s =>
        rw [plus_cons, if_pos (any_of_line hs y (by simp)), if_neg (by simp), Prog.det,
          dropWhile_all (any_of_line fun h => hs (by simp [h]))]
    rw [Prog.det, this]
    by_cases h : s = []
    · simp [h]
    · simp [h, Prog.det]

theorem lstrip_blank {g r : Str} (hg : ∀ c ∈ g, isSpace c = true) : lstrip (g ++ r) = lstrip r := by
  rw [lstrip, List.dropWhile_append_of_pos hg]
  rfl

theorem lstrip_head {r : Str} (h : ∃ c, r.head? = some c ∧ isSpace c = false) : lstrip r = r := by
  obtain ⟨c, h1, h2⟩ := h
  cases r with
  | nil => cases h1
  | cons x r =>
    cases h1
    rw [lstrip, List.dropWhile_cons_of_neg (by simp [h2])]

theorem head_of_lstrip {r : Str} (h : lstrip r = r) (hne : r ≠ []) : ∃ c, r.head? = some c ∧ isSpace c = false := by
  cases r with
  | nil => exact absurd rfl hne
  | cons x r => exact ⟨x, rfl, head?_lstrip (x :: r) x (by rw [h]; rfl)⟩

/-- The text behind a first word. -/
theorem rest_iff {w : String} (hw : IsWord w.toList) {t r : Str} :
    Spec.Rest w t r ↔ [w.toList] <+: splitWs t ∧ skip 1 (lstrip t) = r ∧ r ≠ [] := by
  constructor
  · rintro ⟨ind, gap, rfl, h1, h2, h3, h4⟩
    have hgap : ∀ c, (gap ++ r).head? = some c → isSpace c = true := by
      cases gap with
      | nil => exact absurd rfl h2
      | cons g gap => intro c hc; cases hc; exact h3 _ (by simp)
    obtain ⟨y, u, hyu⟩ : ∃ y u, w.toList = y :: u := by
      cases h : w.toList with
      | nil => exact absurd h hw.1
      | cons y u => exact ⟨y, u, rfl⟩
    have e : lstrip (ind ++ w.toList ++ gap ++ r) = w.toList ++ (gap ++ r) := by
      rw [List.append_assoc, List.append_assoc, lstrip_blank h1]
      exact lstrip_head ⟨y, by rw [hyu]; rfl, hw.2 y (by rw [hyu]; simp)⟩
    refine ⟨?_, ?_, ?_⟩
    · rw [← splitWs_lstrip, e, splitWs_word_rest hw hgap]
      exact ⟨_, rfl⟩
    · rw [e]
      simp only [skip]
      have := (prefix_word hw (List.prefix_append w.toList (gap ++ r)) (by rw [List.drop_left]; exact hgap)).2
      rw [this, List.drop_left, lstrip_blank h3, lstrip_head h4]
    · rintro rfl
      obtain ⟨c, h, _⟩ := h4
      cases h
  · rintro ⟨h1, h2, h3⟩
    have hne : lstrip t ≠ [] := by
      intro e
      rw [e] at h2
      exact h3 h2.symm
    obtain ⟨e1, e2, e3⟩ := split_word (lstrip_lstrip t) hne
    have e4 := splitWs_cons (lstrip_lstrip t) hne
    rw [splitWs_lstrip] at e4
    rw [e4, List.cons_prefix_cons] at h1
    simp only [skip] at h2
    refine ⟨t.takeWhile isSpace, ((lstrip t).dropWhile nsp).takeWhile isSpace, ?_, fun c hc => of_mem_takeWhile hc, ?_,
      fun c hc => of_mem_takeWhile hc, ?_⟩
    · have a1 : t = t.takeWhile isSpace ++ lstrip t := (List.takeWhile_append_dropWhile).symm
      have a2 : (lstrip t).dropWhile nsp = ((lstrip t).dropWhile nsp).takeWhile isSpace ++ r := by
        rw [← h2]
        exact (List.takeWhile_append_dropWhile).symm
      conv => lhs; rw [a1, e1, ← h1.1, a2]
      simp only [List.append_assoc]
    · intro e
      cases hd : (lstrip t).dropWhile nsp with
      | nil => rw [hd] at h2; exact h3 h2.symm
      | cons x s =>
        rw [hd, List.takeWhile_cons_of_pos (e3 x (by rw [hd]; rfl))] at e
        cases e
    · exact head_of_lstrip (by rw [← h2]; exact lstrip_lstrip _) h3

/-- `^\s*w\s+(\S.*)$` or `^\s*w\s+(\S.+)$`. -/
def restProg (w : String) (two : Bool) : Prog :=
  lead false (wordsG (gaps true [w])
    (.grp 1 (.one .nonspace (if two then .plus .any .done else .star .any .done)) (.eol .done)))

theorem rest_det {w : String} (hw : isWord w.toList = true) (two : Bool) {t : Str} (ht : Line t) (q : Str × Caps) :
    (restProg w two).det t [] = some q ↔
      ∃ r, Spec.Rest w t r ∧ (two = true → 2 ≤ r.length) ∧ q = ([], [(1, r)]) := by
  have hnil : ∀ c, (Prog.grp 1 (.one .nonspace (if two then .plus .any .done else .star .any .done))
      (.eol .done)).det [] c = none := fun c => rfl
  rw [restProg, det_chain false (words_of (by simp [gaps, hw])) _ hnil (.inl (by simp [gaps]))]
  have hl : (gaps true [w]).length = 1 := rfl
  have hf : (gaps true [w]).map Prod.fst = [w.toList] := rfl
  rw [hl, hf]
  simp only [rest_iff (isWord_iff.mp hw)]
  generalize hr : skip 1 (lstrip t) = r
  have h0 : lstrip r = r := by rw [← hr]; exact lstrip_skip _ (lstrip_lstrip t)
  have hline : Line r := by rw [← hr]; exact line_suffix ((skip_suffix _ _).trans (lstrip_suffix t)) ht
  have hd : ∀ q, (Prog.grp 1 (.one .nonspace (if two then .plus .any .done else .star .any .done))
      (.eol .done)).det r [] = some q ↔ r ≠ [] ∧ (two = true → 2 ≤ r.length) ∧ q = ([], [(1, r)]) := by
    intro q
    cases r with
    | nil => rw [hnil]; simp
    | cons x s =>
      have hx := head?_lstrip (x :: s) x (by rw [h0]; rfl)
      have hs : '\n' ∉ s := fun h => hline.1 (by simp [h])
      obtain ⟨d1, d2⟩ := det_rest hx hs 1 []
      cases two with
      | false =>
        rw [if_neg (by simp), d1]
        simp [eq_comm]
      | true =>
        rw [if_pos rfl, d2]
        cases s with
        | nil => simp
        | cons y s => simp [eq_comm]
  rw [hd]
  constructor
  · rintro ⟨-, h1, h2, h3, h4⟩
    exact ⟨r, ⟨h1, rfl, h2⟩, h3, h4⟩
  · rintro ⟨r', ⟨h1, rfl, h2⟩, h3, h4⟩
    exact ⟨by simp, h1, h2, h3, h4⟩

theorem rest_attr {o : Opts} {lines : List Str} {P : Parsed} (h : parse o lines = .ok P)
    (hn : ∀ l ∈ lines, '\n' ∉ l) (i : Nat) {rx : String} {w : String} {two : Bool}
    (hi : Is rx (restProg w two) 1 [] ∧ isWord w.toList = true) :
    ∃ v, Spec.First (fun t r => Spec.Rest w t r ∧ (two = true → 2 ≤ r.length)) (Spec.family P i) v ∧
      iterTyped P i rx 1 toStr [] = .ok (v.getD []) := by
  refine iter_first hi.1 (by decide) (by decide) toStr [] P i ?_ ?_
  · intro t ht q hq
    obtain ⟨r, h1, h2, rfl⟩ := (rest_det hi.2 two (line_family h hn i t ht) q).mp hq
    exact ⟨r, ⟨h1, h2⟩, rfl⟩
  · rintro t ht r ⟨h1, h2⟩
    exact ⟨_, (rest_det hi.2 two (line_family h hn i t ht) _).mpr ⟨r, h1, h2, rfl⟩⟩

/-! ## A word that starts in some way -/

/-- `(shut\S*)` where words begin. -/
theorem det_begin {w : Str} (hw : IsWord w) {r : Str} (h0 : lstrip r = r) (i : Nat) (p : Prog) (c : Caps) (q : Str × Caps) :
    (Prog.grp i (str w (.star .nonspace .done)) p).det r c = some q ↔
      ∃ v vs, splitWs r = v :: vs ∧ w <+: v ∧ p.det (r.dropWhile nsp) ((i, v) :: c) = some q := by
  rw [det_grp i _ p (free_str w _ rfl)]
  by_cases h : r = []
  · subst h
    constructor
    · rintro ⟨x, r, _, h2, _⟩
      rw [det_str, if_neg (fun h => hw.1 (List.prefix_nil.mp h))] at h2
      cases h2
    · rintro ⟨v, vs, h, _⟩; cases h
  · obtain ⟨e1, e2, e3⟩ := split_word h0 h
    have e4 := splitWs_cons h0 h
    have hd : ∀ {v rest : Str}, r = v ++ rest → w <+: v → (∀ c ∈ v, isSpace c = false) →
        (∀ c, rest.head? = some c → isSpace c = true) →
        (str w (.star .nonspace .done)).det r c = some (rest, c) := by
      rintro v rest rfl ⟨u, rfl⟩ hv hrest
      rw [det_str, if_pos ⟨u ++ rest, by simp⟩, Prog.det, Prog.det, List.append_assoc, List.drop_left,
        List.dropWhile_append_of_pos (p := K.nonspace.has) (fun y hy => by simp [K.has, hv y (by simp [hy])])]
      cases rest with
      | nil => rfl
      | cons y s => rw [List.dropWhile_cons_of_neg (by simp [K.has, hrest y rfl])]
    constructor
    · rintro ⟨x, s, h1, h2, h3⟩
      have hpre : w <+: r := by
        rw [det_str] at h2
        split at h2
        · assumption
        · cases h2
      have hwp : w <+: r.takeWhile nsp := by
        refine List.prefix_of_prefix_length_le hpre (takeWhile_prefix' r) ?_
        rcases Nat.lt_or_ge (r.takeWhile nsp).length w.length with hlt | hge
        · exfalso
          have := List.prefix_of_prefix_length_le (takeWhile_prefix' r) hpre (Nat.le_of_lt hlt)
          obtain ⟨u, hu⟩ := this
          cases u with
          | nil => rw [← hu] at hlt; simp at hlt
          | cons a u =>
            obtain ⟨z, hz⟩ := hpre
            have e5 : r.dropWhile nsp = a :: u ++ z := by
              have : r.takeWhile nsp ++ r.dropWhile nsp = r.takeWhile nsp ++ (a :: u ++ z) := by
                rw [← e1, ← List.append_assoc, hu, hz]
              exact List.append_cancel_left this
            have h1 := e3 a (by rw [e5]; rfl)
            have h2 := hw.2 a (by rw [← hu]; simp)
            rw [h1] at h2; cases h2
        · exact hge
      have h4 := hd e1 hwp e2.2 e3
      rw [h2] at h4
      simp only [Option.some.injEq, Prod.mk.injEq, and_true] at h4
      subst h4
      have : x = r.takeWhile nsp := List.append_cancel_right (h1.symm.trans e1)
      subst this
      exact ⟨_, _, e4, hwp, h3⟩
    · rintro ⟨v, vs, h1, h2, h3⟩
      rw [e4] at h1
      obtain ⟨a, b⟩ := List.cons.inj h1
      subst a
      exact ⟨_, _, e1, hd e1 h2 e2.2 e3, h3⟩

/-- `^\s*(w\S*)\s*$`. -/
def beginProg (w : String) (sp : Bool) : Prog :=
  lead false (.grp 1 (str w.toList (.star .nonspace .done)) (ends sp []))

theorem begin_det {w : String} (hw : isWord w.toList = true) (sp : Bool) {t : Str} (ht : Line t) (q : Str × Caps) :
    (beginProg w sp).det t [] = some q ↔ ∃ v, splitWs t = [v] ∧ w.toList <+: v ∧ q = ([], [(1, v)]) := by
  rw [beginProg, det_lead', det_begin (isWord_iff.mp hw) (lstrip_lstrip t), splitWs_lstrip]
  by_cases h : lstrip t = []
  · have : splitWs t = [] := by rw [← splitWs_lstrip, h]; rfl
    simp [this]
  have e3 := (split_word (lstrip_lstrip t) h).2.2
  have e4 := splitWs_cons (lstrip_lstrip t) h
  rw [splitWs_lstrip] at e4
  have hl : Line ((lstrip t).dropWhile nsp) :=
    line_suffix ((List.dropWhile_suffix _).trans (lstrip_suffix t)) ht
  constructor
  · rintro ⟨-, v, vs, h1, h2, h3⟩
    rw [det_ends sp (by simp) e3 hl] at h3
    rw [e4, h3.1] at h1
    rw [e4, h3.1]
    rw [← (List.cons.inj h1).1] at h2 h3
    exact ⟨_, rfl, h2, h3.2⟩
  · rintro ⟨v, h1, h2, h3⟩
    refine ⟨by simp, v, [], h1, h2, ?_⟩
    rw [e4] at h1
    rw [det_ends sp (by simp) e3 hl]
    exact ⟨(List.cons.inj h1).2, h3⟩

theorem begin_attr {o : Opts} {lines : List Str} {P : Parsed} (h : parse o lines = .ok P)
    (hn : ∀ l ∈ lines, '\n' ∉ l) (i : Nat) {rx : String} {w : String} {sp : Bool}
    (hi : Is rx (beginProg w sp) 1 [] ∧ isWord w.toList = true) :
    ∃ b, iterTyped P i rx 1 toBool false = .ok b ∧
      (b = true ↔ ∃ t ∈ Spec.family P i, ∃ v, splitWs t = [v] ∧ w.toList <+: v) := by
  refine iter_flag hi.1 (by decide) (by decide) P i ?_ ?_
  · intro t ht q hq
    obtain ⟨v, h1, h2, rfl⟩ := (begin_det hi.2 sp (line_family h hn i t ht) q).mp hq
    refine ⟨⟨v, h1, h2⟩, v, rfl, ?_⟩
    exact (splitWs_words t v (by rw [h1]; simp)).1
  · rintro t ht ⟨v, h1, h2⟩
    exact ⟨_, (begin_det hi.2 sp (line_family h hn i t ht) _).mpr ⟨v, h1, h2, rfl⟩⟩

/-! ## Repeated words -/

theorem skip_add (m : Nat) : ∀ (n : Nat) (t : Str), skip (m + n) t = skip n (skip m t) := by
  induction m with
  | zero => intro n t; rw [Nat.zero_add]; rfl
  | succ m ih => intro n t; rw [Nat.succ_add]; exact ih n _

theorem chain_prefix {a b l : List Str} (h1 : a <+: l) (h2 : b <+: l.drop a.length) : a ++ b <+: l := by
  obtain ⟨x, rfl⟩ := h1
  rw [List.drop_left] at h2
  exact (List.prefix_append_right_inj a).mpr h2

theorem chain_prefix' {a b l : List Str} (h : a ++ b <+: l) : a <+: l ∧ b <+: l.drop a.length := by
  obtain ⟨x, rfl⟩ := h
  refine ⟨⟨b ++ x, by simp⟩, ?_⟩
  rw [List.append_assoc, List.drop_left]
  exact List.prefix_append _ _

/-- `^\s*pre\s+(item)*l\s+..`. -/
def loopProg (pre : List (Str × Bool)) (i : Nat) (b : Prog) (l : List (Str × Bool)) (p : Prog) : Prog :=
  lead false (wordsG pre (.loop i b (wordsG l p)))

theorem loop_nil (i : Nat) (b p : Prog) (hp : ∀ c, p.det [] c = none) (c : Caps) : (Prog.loop i b p).det [] c = none := by
  rw [Prog.det]
  exact hp c

theorem fits_skip {l : List (Str × Bool)} {t : Str} (h : Fits l t) (n : Nat) : Fits l (skip n t) := by
  rcases h with h | h
  · exact .inl h
  · exact .inr (h.suffix (skip_suffix _ _))

theorem fits_append {a b : List (Str × Bool)} {t : Str} (h : Fits (a ++ b) t) : Fits a t ∧ Fits b t := by
  rcases h with h | h
  · exact ⟨.inl fun w hw => h w (by simp [hw]), .inl fun w hw => h w (by simp [hw])⟩
  · exact ⟨.inr h, .inr h⟩

theorem wordsG_nil {l : List (Str × Bool)} (hl : ∀ w ∈ l, IsWord w.1) (p : Prog) (hp : ∀ c, p.det [] c = none) (c : Caps) :
    (wordsG l p).det [] c = none := by
  cases l with
  | nil => exact hp c
  | cons w l =>
    rw [wordsG, List.foldr_cons, det_str, if_neg]
    intro h
    exact (hl w (by simp)).1 (List.prefix_nil.mp h)

theorem loop_chain {pre : List (Str × Bool)} (i : Nat) {b : Prog} {R : Str → Prop} (hb : Item1 b R)
    {l : List (Str × Bool)} {p : Prog} (hpre : ∀ w ∈ pre, IsWord w.1) (hl : ∀ w ∈ l, IsWord w.1)
    (hp : ∀ c, p.det [] c = none) {t : Str} (hf : Fits (pre ++ l) (lstrip t)) (c : Caps) (q : Str × Caps)
    (hq : (loopProg pre i b l p).det t c = some q) :
    ∃ ns x, (∀ n ∈ ns, R n) ∧ pre.map Prod.fst ++ ns ++ l.map Prod.fst <+: splitWs t ∧
      (∀ j, j ≠ i → x.lookup j = c.lookup j) ∧ Holds i ns x c ∧
      p.det (skip (pre.length + ns.length + l.length) (lstrip t)) x = some q := by
  rw [loopProg, det_chain false hpre _ (loop_nil i b _ (wordsG_nil hl p hp)) (fits_append hf).1] at hq
  obtain ⟨-, h1, h2⟩ := hq
  obtain ⟨ns, x, a1, a2, a3, a4, a5⟩ := det_loop i hb (lstrip_skip _ (lstrip_lstrip t)) c q h2
  rw [splitWs_skip _ (lstrip_lstrip t), splitWs_lstrip] at a2
  rw [← skip_add] at a5
  rw [det_wordsG hl p hp (lstrip_skip _ (lstrip_lstrip t)) (fits_skip (fits_append hf).2 _),
    splitWs_skip _ (lstrip_lstrip t), splitWs_lstrip, ← skip_add] at a5
  refine ⟨ns, x, a1, ?_, a3, a4, a5.2⟩
  refine chain_prefix (chain_prefix h1 ?_) ?_
  · rw [List.length_map]; exact a2
  · rw [List.length_append, List.length_map]; exact a5.1

theorem loop_chain' {pre : List (Str × Bool)} (i : Nat) {b : Prog} {R : Str → Prop} (hb : Item1 b R)
    {l : List (Str × Bool)} {p : Prog} (hpre : ∀ w ∈ pre, IsWord w.1) (hl : ∀ w ∈ l, IsWord w.1)
    (hp : ∀ c, p.det [] c = none) (ha : After (wordsG l p) R) {t : Str} (hf : Fits (pre ++ l) (lstrip t)) (c : Caps)
    {ns : List Str} (hns : ∀ n ∈ ns, R n) (ht : pre.map Prod.fst ++ ns ++ l.map Prod.fst <+: splitWs t)
    (hx : ∀ x, ∃ q, p.det (skip (pre.length + ns.length + l.length) (lstrip t)) x = some q) :
    ∃ q, (loopProg pre i b l p).det t c = some q := by
  obtain ⟨h1, h2⟩ := chain_prefix' ht
  obtain ⟨h3, h4⟩ := chain_prefix' h1
  rw [List.length_map] at h4
  suffices hs : ∃ q, (Prog.loop i b (wordsG l p)).det (skip pre.length (lstrip t)) c = some q from
    hs.imp fun q hq => (det_chain false hpre _ (loop_nil i b _ (wordsG_nil hl p hp)) (fits_append hf).1 c q).mpr
      ⟨by simp, h3, hq⟩
  refine det_loop' i hb ha (lstrip_skip _ (lstrip_lstrip t)) c hns ?_ ?_
  · rw [splitWs_skip _ (lstrip_lstrip t), splitWs_lstrip]; exact h4
  · intro x
    obtain ⟨q, hq⟩ := hx x
    refine ⟨q, ?_⟩
    rw [← skip_add, det_wordsG hl p hp (lstrip_skip _ (lstrip_lstrip t)) (fits_skip (fits_append hf).2 _),
      splitWs_skip _ (lstrip_lstrip t), splitWs_lstrip, ← skip_add]
    refine ⟨?_, hq⟩
    rw [List.length_append, List.length_map] at h2
    exact h2

/-- `^\s*(ip\s+)*vrf\sforwarding\s(\S+)$`. -/
def vrfProg : Prog :=
  loopProg [] 1 (str "ip".toList (.plus .space .done)) (gaps false ["vrf", "forwarding"])
    (.grp 2 (.plus .nonspace .done) (ends false []))

theorem vrf_attr {o : Opts} {lines : List Str} {P : Parsed} (h : parse o lines = .ok P)
    (hn : ∀ l ∈ lines, '\n' ∉ l) (i : Nat) (hf : ∀ t ∈ Spec.family P i, Tidy t) :
    ∃ v, Spec.First (fun t v => ∃ k, splitWs t = List.replicate k "ip".toList ++ Spec.wd ["vrf", "forwarding"] ++ [v])
        (Spec.family P i) v ∧
      iterTyped P i "^\\s*(ip\\s+)*vrf\\sforwarding\\s(\\S+)$" 2 toStr [] = .ok (v.getD []) := by
  have hw : ∀ w ∈ gaps false ["vrf", "forwarding"], IsWord w.1 := words_of (by decide)
  have hitem : Item1 (str "ip".toList (.plus .space .done)) (fun v => v = "ip".toList) :=
    item_word (isWord_iff.mp (by decide))
  have hval : ∀ t ∈ Spec.family P i, ∀ n c q, (Prog.grp 2 (.plus .nonspace .done) (ends false [])).det
      (skip n (lstrip t)) c = some q ↔ _ := fun t ht n c q =>
    det_value (post := []) (by simp) (k := .nonspace) trivial 2 false (lstrip_skip n (lstrip_lstrip t))
      (line_suffix ((skip_suffix n _).trans (lstrip_suffix t)) (line_family h hn i t ht)) c q
  have hdrop : ∀ {a l : List Str} {v : Str}, a <+: l → l.drop a.length = [v] → l = a ++ [v] := by
    intro a l v h1 h2
    rw [prefix_append_drop h1, h2]
  refine iter_first (p := vrfProg) (n := 2) (names := []) (by decide +kernel) (by decide) (by decide) toStr [] P i ?_ ?_
  · intro t ht q hq
    obtain ⟨ns, x, a1, a2, a3, -, a5⟩ := loop_chain 1 hitem (pre := []) (by simp) hw (grp_plus_nil _ _ _)
      (t := t) (.inr (hf t ht)) [] q hq
    obtain ⟨v, b1, -, rfl⟩ := (hval t ht _ _ _).mp a5
    rw [splitWs_skip _ (lstrip_lstrip t), splitWs_lstrip] at b1
    refine ⟨v, ⟨ns.length, ?_⟩, by simp [toStr]⟩
    have e : ns = List.replicate ns.length "ip".toList := List.eq_replicate_iff.mpr ⟨rfl, a1⟩
    rw [List.map_nil, List.nil_append, fst_gaps] at a2
    rw [← e]
    exact hdrop a2 (by rw [List.length_append]; simpa [Spec.wd, gaps] using b1)
  · rintro t ht v ⟨k, hk⟩
    refine loop_chain' 1 hitem (pre := []) (l := gaps false ["vrf", "forwarding"]) (ns := List.replicate k "ip".toList)
      (by simp) hw (grp_plus_nil _ _ _)
      (after_str_word (w := "vrf".toList) _ (x := 'v') (y := 'i') (w' := "rf".toList) (u' := "p".toList) rfl rfl (by decide))
      (t := t) (.inr (hf t ht)) [] ?_ ?_ ?_
    · intro n hn
      exact (List.mem_replicate.mp hn).2
    · rw [hk, List.map_nil, List.nil_append, fst_gaps]
      exact List.prefix_append _ _
    · intro x
      refine ⟨_, (hval t ht _ x _).mpr ⟨v, ?_, ?_, rfl⟩⟩
      · rw [splitWs_skip _ (lstrip_lstrip t), splitWs_lstrip, hk]
        have : ([] : List (Str × Bool)).length + (List.replicate k "ip".toList).length +
            (gaps false ["vrf", "forwarding"]).length =
            (List.replicate k "ip".toList ++ Spec.wd ["vrf", "forwarding"]).length := by
          simp [gaps, Spec.wd]
        rw [this, List.drop_left]
      · have := (splitWs_words t v (by rw [hk]; simp)).2
        rw [List.all_eq_true]
        intro c hc
        simp [K.has, this c hc]

end Cisco

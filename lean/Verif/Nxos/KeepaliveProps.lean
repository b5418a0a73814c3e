import Verif.Nxos.DomainProps

/-! # Properties of the NXOS vPC domain line: the peer keepalive -/

namespace Nxos.Domain

open Py Conf Query Re Cisco

variable {o : Opts} {lines : List Str} {P : Parsed}

/-! ## Specification -/

/-- A line `peer-keepalive BODY`. -/
def Spec.Keepalive (t : Str) (body : List Str) : Prop :=
  splitWs t = "peer-keepalive".toList :: body ∧ ∀ w ∈ body, isInfix "peer-keepalive".toList w = false

/-- What stands behind the first word that is a keyword and has a value behind it. -/
inductive Spec.Behind (Key : Str → Prop) (Value : Str → Str → Prop) : List Str → Option Str → Prop
  | nil : Spec.Behind Key Value [] none
  | here {w v ws a} : Key w → Value v a → Spec.Behind Key Value (w :: v :: ws) (some a)
  | skip {w ws o} : (Key w → ∀ v more a, ws = v :: more → ¬ Value v a) → Spec.Behind Key Value ws o →
      Spec.Behind Key Value (w :: ws) o

/-- A word that starts with an address. -/
def Spec.Address (w a : Str) : Prop := ∃ u, w = a ++ u ∧ Spec.DottedQuad a ∧ ∀ c, u.head? = some c → isDigit c = false

/-- The line is `peer-keepalive BODY`, and `a` is the value of the keyword `k` in it. -/
def Spec.Gives (k : String) (Value : Str → Str → Prop) (t a : Str) : Prop :=
  ∃ body, Spec.Keepalive t body ∧ Spec.Behind (· = k.toList) Value body (some a)

/-- In the keepalive lines, only the keyword itself ends with the letters of the keyword. -/
def Spec.Clear (k : String) (ts : List Str) : Prop :=
  ∀ t ∈ ts, ∀ body, Spec.Keepalive t body → ∀ w ∈ body, k.toList <:+ w → w = k.toList

/-! ## The first word that ends with a keyword -/

theorem behind_none {Key : Str → Prop} {V : Str → Str → Prop} {ws : List Str} {o : Option Str} (h : Spec.Behind Key V ws o) :
    o = none → ∀ a, ¬ Spec.Behind Key V ws (some a) := by
  induction h with
  | nil => intro _ a h; cases h
  | here _ _ => intro h; cases h
  | skip h1 _ ih =>
    intro e a h
    cases h with
    | here h2 h3 => exact h1 h2 _ _ _ rfl h3
    | skip _ h3 => exact ih e a h3

theorem behind_congr {Key Key' : Str → Prop} {V : Str → Str → Prop} {ws : List Str} {o : Option Str} (h : Spec.Behind Key V ws o)
    (hk : ∀ w ∈ ws, Key w ↔ Key' w) : Spec.Behind Key' V ws o := by
  induction h with
  | nil => exact .nil
  | here h1 h2 => exact .here ((hk _ (by simp)).mp h1) h2
  | skip h1 _ ih => exact .skip (fun h => h1 ((hk _ (by simp)).mpr h)) (ih (fun w hw => hk w (by simp [hw])))

variable {V : Prog} {Value : Str → Str → Prop}

theorem word_suffix {u w : Str} (h : u <:+ w) (hu : u ≠ []) (hw : IsWord w) : IsWord u := ⟨hu, fun c hc => hw.2 c (h.subset hc)⟩

theorem key_det {key : Str} (hk : IsWord key) (p : Prog) {u rest : Str} (hu : IsWord u)
    (hr : ∀ c, rest.head? = some c → isSpace c = true) (c : Caps) :
    (str key (.plus .space p)).det (u ++ rest) c =
      if u = key then (if rest = [] then none else p.det (lstrip rest) c) else none := by
  rw [det_str]
  by_cases h : u = key
  · subst h
    rw [if_pos (List.prefix_append ..), if_pos rfl, List.drop_left, det_sp _ hr]
  · rw [if_neg h]
    by_cases hp : key <+: u
    · obtain ⟨z, rfl⟩ := hp
      cases z with
      | nil => exact absurd (List.append_nil key) h
      | cons x z =>
        rw [List.append_assoc, if_pos (List.prefix_append ..), List.drop_left, List.cons_append, plus_cons,
          if_neg (by simp [K.has, hu.2 x (by simp)])]
    · rw [if_neg (fun hh => hp ((prefix_first hk hu hr).mp hh))]

theorem key_blank {key : Str} (hk : IsWord key) (p : Prog) (x : Char) (s : Str) (c : Caps) (hx : isSpace x = true) :
    (str key p).det (x :: s) c = none := by
  rw [det_str, if_neg]
  intro h
  obtain ⟨y, w, rfl⟩ := List.exists_cons_of_ne_nil hk.1
  obtain ⟨r, hr⟩ := h
  cases hr
  rw [hk.2 x (by simp)] at hx
  cases hx

theorem behind {key : Str} (hk : IsWord key) {p : Prog} (hT : Tail p 1 (fun ws a => ∃ v more, ws = v :: more ∧ Value v a)) :
    ∀ (n : Nat) (s : Str), s.length ≤ n → lstrip s = s → Line s →
      ∃ o, Spec.Behind (key <:+ ·) Value (splitWs s) o ∧
        (firstAt (fun u => (str key (.plus .space p)).det u []) s).map (fun q => q.2.lookup 1) = o.map some := by
  intro n
  induction n with
  | zero =>
    intro s hn _ _
    have : s = [] := List.length_eq_zero_iff.mp (by omega)
    subst this
    refine ⟨none, .nil, ?_⟩
    rw [firstAt, det_str, if_neg (fun h => hk.1 (List.prefix_nil.mp h))]
    rfl
  | succ n ih =>
    intro s hn h0 hl
    by_cases hne : s = []
    · subst hne
      refine ⟨none, .nil, ?_⟩
      rw [firstAt, det_str, if_neg (fun h => hk.1 (List.prefix_nil.mp h))]
      rfl
    obtain ⟨w, rest, rfl, hw, hr, hsp⟩ := split_cons h0 hne
    rw [hsp]
    have hlr : Line (lstrip rest) := line_suffix ((lstrip_suffix rest).trans (List.suffix_append _ _)) hl
    have hlen : (lstrip rest).length ≤ n := by
      have h1 := (lstrip_suffix rest).length_le
      have h2 := List.length_pos_iff.mpr hw.1
      rw [List.length_append] at hn
      omega
    obtain ⟨o, i1, i2⟩ := ih (lstrip rest) hlen (lstrip_lstrip rest) hlr
    rw [splitWs_lstrip] at i1
    rw [← firstAt_lstrip (fun x s hx => key_blank hk _ x s [] hx)] at i2
    by_cases he : key <:+ w
    · obtain ⟨w0, rfl⟩ := he
      have e1 : firstAt (fun u => (str key (.plus .space p)).det u []) (w0 ++ key ++ rest) =
          firstAt (fun u => (str key (.plus .space p)).det u []) (key ++ rest) := by
        rw [List.append_assoc]
        refine firstAt_append (fun u hu hune => ?_)
        have hwu : IsWord (u ++ key) := word_suffix (by
          obtain ⟨z, rfl⟩ := hu
          exact ⟨z, by simp⟩) (by simp [hune]) hw
        rw [← List.append_assoc, key_det hk p hwu hr, if_neg]
        intro h
        have := congrArg List.length h
        rw [List.length_append] at this
        exact hune (List.length_eq_zero_iff.mp (by omega))
      have e2 : firstAt (fun u => (str key (.plus .space p)).det u []) (key ++ rest) =
          ((str key (.plus .space p)).det (key ++ rest) []).or (firstAt (fun u => (str key (.plus .space p)).det u []) rest) := by
        obtain ⟨y, k', rfl⟩ := List.exists_cons_of_ne_nil hk.1
        rw [List.cons_append, firstAt]
        congr 1
        refine firstAt_append (fun u hu hune => ?_)
        have hwu : IsWord u := word_suffix (hu.trans (List.suffix_cons _ _)) hune hk
        rw [key_det hk p hwu hr, if_neg]
        intro h
        have := congrArg List.length h
        have := hu.length_le
        simp at *
        omega
      rw [e1, e2, key_det hk p hk hr, if_pos rfl]
      have hno : (∀ v more a, splitWs rest = v :: more → ¬ Value v a) →
          (if rest = [] then none else p.det (lstrip rest) []) = none := by
        intro h
        by_cases hrn : rest = []
        · rw [if_pos hrn]
        · rw [if_neg hrn]
          cases hd : p.det (lstrip rest) [] with
          | none => rfl
          | some q =>
            obtain ⟨a, ⟨v, more, h1, h2⟩, -⟩ := hT.fwd _ _ _ (lstrip_lstrip rest) hlr hd
            rw [splitWs_lstrip] at h1
            exact absurd h2 (h v more a h1)
      cases hd : (if rest = [] then none else p.det (lstrip rest) []) with
      | none =>
        rw [Option.none_or]
        refine ⟨o, .skip (fun _ v more a h1 h2 => ?_) i1, i2⟩
        have hrn : rest ≠ [] := by rintro rfl; cases h1
        rw [if_neg hrn] at hd
        obtain ⟨q, hq⟩ := hT.ex (lstrip rest) [] a (lstrip_lstrip rest) hlr ⟨v, more, by rw [splitWs_lstrip]; exact h1, h2⟩
        rw [hd] at hq
        cases hq
      | some q =>
        have hrn : rest ≠ [] := by rintro rfl; cases hd
        rw [if_neg hrn] at hd
        obtain ⟨a, ⟨v, more, h1, h2⟩, h3⟩ := hT.fwd _ _ _ (lstrip_lstrip rest) hlr hd
        rw [splitWs_lstrip] at h1
        refine ⟨some a, ?_, ?_⟩
        · rw [h1]; exact .here (List.suffix_append _ _) h2
        · show some (q.2.lookup 1) = _
          rw [h3]
          rfl
    · refine ⟨o, .skip (fun h => absurd h he) i1, ?_⟩
      rw [firstAt_append (fun u hu hune => ?_)]
      · exact i2
      · rw [key_det hk p (word_suffix hu hune hw) hr, if_neg]
        rintro rfl
        exact he hu

/-! ## The line -/

theorem after_none {pk : Str} {T : Prog} {s : Str} (h : ¬ pk <+: s) : afterDet pk T s = none := by
  rw [afterDet, if_neg h]

theorem word_infix {pk : Str} (hpk : IsWord pk) {T : Prog} : ∀ (n : Nat) (s : Str), s.length ≤ n → lstrip s = s →
    (∀ w ∈ splitWs s, isInfix pk w = false) → firstAt (afterDet pk T) s = none := by
  intro n
  induction n with
  | zero =>
    intro s hn _ _
    have : s = [] := List.length_eq_zero_iff.mp (by omega)
    subst this
    exact after_none (fun h => hpk.1 (List.prefix_nil.mp h))
  | succ n ih =>
    intro s hn h0 hno
    by_cases hne : s = []
    · subst hne
      exact after_none (fun h => hpk.1 (List.prefix_nil.mp h))
    obtain ⟨w, rest, rfl, hw, hr, hsp⟩ := split_cons h0 hne
    rw [hsp] at hno
    rw [firstAt_append (fun u hu hune => after_none (fun h => ?_)), firstAt_lstrip (fun x s hx => after_none (fun h => ?_))]
    · refine ih _ ?_ (lstrip_lstrip rest) (by rw [splitWs_lstrip]; exact fun w hw => hno w (by simp [hw]))
      have h1 := (lstrip_suffix rest).length_le
      have h2 := List.length_pos_iff.mpr hw.1
      rw [List.length_append] at hn
      omega
    · obtain ⟨y, v, rfl⟩ := List.exists_cons_of_ne_nil hpk.1
      obtain ⟨r, hr⟩ := h
      cases hr
      rw [hpk.2 x (by simp)] at hx
      cases hx
    · have h1 := (prefix_first hpk (word_suffix hu hune hw) hr).mp h
      have h2 : isInfix pk w = true := (isInfix_iff _ _).mpr (h1.isInfix.trans hu.isInfix)
      rw [hno w (by simp)] at h2
      cases h2

theorem outer {pk : Str} (hpk : IsWord pk) {T : Prog} (hT0 : T.det [] [] = none) {body : List Str} (hbody : ∀ w ∈ body, isInfix pk w = false) :
    ∀ (pre : List Str) (t : Str), (∀ w ∈ pre, isInfix pk w = false) → Line t → splitWs t = pre ++ pk :: body →
      ∃ r, lstrip r = r ∧ Line r ∧ splitWs r = body ∧
        firstAt (afterDet pk T) t = (firstAt (fun u => T.det u []) r).map Prod.snd := by
  have hblank : ∀ x s, isSpace x = true → afterDet pk T (x :: s) = none := fun x s hx => after_none (fun h => by
    obtain ⟨y, v, rfl⟩ := List.exists_cons_of_ne_nil hpk.1
    obtain ⟨r, hr⟩ := h
    cases hr
    rw [hpk.2 x (by simp)] at hx
    cases hx)
  intro pre
  induction pre with
  | nil =>
    intro t _ hl hs
    rw [firstAt_lstrip hblank]
    have hl' : Line (lstrip t) := line_suffix (lstrip_suffix t) hl
    rw [← splitWs_lstrip] at hs
    have hne : lstrip t ≠ [] := by intro h; rw [h] at hs; cases hs
    obtain ⟨w, rest, e, hw, hr, hsp⟩ := split_cons (lstrip_lstrip t) hne
    rw [hsp] at hs
    obtain ⟨rfl, hb⟩ := List.cons.inj hs
    rw [e] at hl' ⊢
    refine ⟨lstrip rest, lstrip_lstrip rest, line_suffix ((lstrip_suffix rest).trans (List.suffix_append _ _)) hl', ?_, ?_⟩
    · rw [splitWs_lstrip]; exact hb
    have hrest : firstAt (afterDet w T) rest = none := by
      rw [firstAt_lstrip hblank]
      exact word_infix hpk _ _ (Nat.le_refl _) (lstrip_lstrip rest) (by rw [splitWs_lstrip, hb]; exact hbody)
    have hhere : afterDet w T (w ++ rest) = (firstAt (fun u => T.det u []) (lstrip rest)).map Prod.snd := by
      rw [afterDet, if_pos (List.prefix_append ..), List.drop_left]
      cases rest with
      | nil => show none = Option.map Prod.snd (T.det [] []); rw [hT0]; rfl
      | cons x r =>
        show (if isSpace x = true then _ else _) = _
        rw [if_pos (hr x rfl), show lstrip (x :: r) = lstrip r from List.dropWhile_cons_of_pos (hr x rfl)]
    have : firstAt (afterDet w T) (w ++ rest) = (afterDet w T (w ++ rest)).or (firstAt (afterDet w T) rest) := by
      obtain ⟨y, k', rfl⟩ := List.exists_cons_of_ne_nil hpk.1
      rw [List.cons_append, firstAt]
      congr 1
      refine firstAt_append (fun u hu hune => after_none (fun h => ?_))
      have h1 := (prefix_first hpk (word_suffix (hu.trans (List.suffix_cons _ _)) hune hpk) hr).mp h
      have h2 := h1.length_le
      have h3 := hu.length_le
      simp at h2
      omega
    rw [this, hrest, Option.or_none, hhere]
  | cons a pre ih =>
    intro t hpre hl hs
    rw [firstAt_lstrip hblank]
    have hl' : Line (lstrip t) := line_suffix (lstrip_suffix t) hl
    rw [← splitWs_lstrip] at hs
    have hne : lstrip t ≠ [] := by intro h; rw [h] at hs; cases hs
    obtain ⟨w, rest, e, hw, hr, hsp⟩ := split_cons (lstrip_lstrip t) hne
    rw [hsp] at hs
    obtain ⟨rfl, hb⟩ := List.cons.inj hs
    rw [e] at hl' ⊢
    rw [firstAt_append (fun u hu hune => after_none (fun h => ?_))]
    · exact ih rest (fun w hw => hpre w (by simp [hw])) (line_suffix (List.suffix_append _ _) hl') hb
    · have h1 := (prefix_first hpk (word_suffix hu hune hw) hr).mp h
      have h2 : isInfix pk w = true := (isInfix_iff _ _).mpr (h1.isInfix.trans hu.isInfix)
      rw [hpre w (by simp)] at h2
      cases h2

theorem silent {pk : Str} {T : Prog} {t : Str} (h : isInfix pk t = false) : firstAt (afterDet pk T) t = none :=
  firstAt_none.mpr (fun u hu => after_none (fun hp => by
    have : isInfix pk t = true := (isInfix_iff _ _).mpr (hp.isInfix.trans hu.isInfix)
    rw [h] at this
    cases this))

/-! ## The values -/

theorem tail_word' : Tail (.grp 1 (.plus .nonspace .done) .done) 1 (fun ws a => ∃ v more, ws = v :: more ∧ v = a) := by
  have h := tail_next 1
  refine ⟨h.nil, ?_, ?_⟩
  · intro r c q h0 hl hq
    obtain ⟨a, ⟨more, h1⟩, h2⟩ := h.fwd r c q h0 hl hq
    exact ⟨a, ⟨a, more, h1, rfl⟩, h2⟩
  · rintro r c a h0 hl ⟨v, more, h1, rfl⟩
    exact h.ex r c v h0 hl ⟨more, h1⟩

theorem address_det (r : Str) (c : Caps) (q : Str × Caps) : (Prog.grp 1 (quad .done) .done).det r c = some q ↔
    ∃ a s, r = a ++ s ∧ Spec.DottedQuad a ∧ (∀ x, s.head? = some x → isDigit x = false) ∧ q = (s, (1, a) :: c) := by
  rw [det_grp 1 _ _ rfl]
  constructor
  · rintro ⟨x, s, h1, h2, h3⟩
    rw [Prog.det] at h3
    cases h3
    obtain ⟨a, s', e1, e2, e3, e4⟩ := (quad_open _ _ _ _).mp h2
    rw [Prog.det] at e4
    simp only [Option.some.injEq, Prod.mk.injEq, and_true] at e4
    subst e4
    rw [e1] at h1
    have := List.append_cancel_right h1
    subst this
    exact ⟨a, s', e1, e2, e3, rfl⟩
  · rintro ⟨a, s, rfl, h1, h2, rfl⟩
    exact ⟨a, s, rfl, (quad_open _ _ _ _).mpr ⟨a, s, rfl, h1, h2, rfl⟩, rfl⟩

theorem tail_address : Tail (.grp 1 (quad .done) .done) 1 (fun ws a => ∃ v more, ws = v :: more ∧ Spec.Address v a) := by
  have hd := address_det
  have hsplit : ∀ {a s w rest : Str}, a ++ s = w ++ rest → Spec.DottedQuad a → IsWord w →
      (∀ c, rest.head? = some c → isSpace c = true) → ∃ u, w = a ++ u ∧ (s = u ++ rest) := by
    intro a s w rest e ha hw hr
    have : a <+: w := (prefix_first (quad_word ha) hw hr).mp ⟨s, e⟩
    obtain ⟨u, rfl⟩ := this
    exact ⟨u, rfl, by rw [List.append_assoc] at e; exact List.append_cancel_left e⟩
  refine ⟨fun _ => rfl, ?_, ?_⟩
  · intro r c q h0 hl hq
    obtain ⟨a, s, e, h1, h2, rfl⟩ := (hd _ _ _).mp hq
    have hne : r ≠ [] := by
      rintro rfl
      exact (quad_word h1).1 (List.append_eq_nil_iff.mp e.symm).1
    obtain ⟨w, rest, e1, hw, hr, e4⟩ := split_cons h0 hne
    obtain ⟨u, rfl, rfl⟩ := hsplit (e.symm.trans e1) h1 hw hr
    refine ⟨a, ⟨_, _, e4, u, rfl, h1, ?_⟩, by simp⟩
    intro c hc
    apply h2
    cases u with
    | nil => cases hc
    | cons x u => exact hc
  · rintro r c a h0 hl ⟨v, more, h1, u, rfl, h2, h3⟩
    have hne : r ≠ [] := by rintro rfl; cases h1
    obtain ⟨w, rest, e1, hw, hr, e4⟩ := split_cons h0 hne
    rw [e4] at h1
    obtain ⟨rfl, -⟩ := List.cons.inj h1
    refine ⟨_, (hd _ _ _).mpr ⟨a, u ++ rest, by rw [e1, List.append_assoc], h2, ?_, rfl⟩⟩
    intro x hx
    cases u with
    | nil => exact space_not_digit (hr x hx)
    | cons y u => exact h3 x hx

theorem address_unique (w a b : Str) (ha : Spec.Address w a) (hb : Spec.Address w b) : a = b := by
  obtain ⟨u, h1, h2, h3⟩ := ha
  obtain ⟨v, h4, h5, h6⟩ := hb
  have e1 := (address_det w [] (u, [(1, a)])).mpr ⟨a, u, h1, h2, h3, rfl⟩
  have e2 := (address_det w [] (v, [(1, b)])).mpr ⟨b, v, h4, h5, h6, rfl⟩
  rw [e1] at e2
  simp only [Option.some.injEq, Prod.mk.injEq, List.cons.injEq, and_true, true_and] at e2
  exact e2.2

/-- What the expression of a keyword is. -/
def KeepIs (rx : String) (key : String) (V : Prog) : Prop :=
  compile rx = .ok ⟨seqs (afterL "peer-keepalive".toList (str key.toList (.plus .space V))), 1, []⟩ ∧
    (str key.toList (.plus .space V)).wf (fun _ => false) true = true ∧ isWord key.toList = true

instance (rx : String) (key : String) (V : Prog) : Decidable (KeepIs rx key V) := inferInstanceAs (Decidable (_ ∧ _ ∧ _))

theorem pk_word : IsWord "peer-keepalive".toList := isWord_iff.mp (by decide)

/-- The attribute of a keyword. -/
theorem keep_iter0 {α : Type} {rx key : String} (hi : KeepIs rx key V)
    (hT : Tail V 1 (fun ws a => ∃ v more, ws = v :: more ∧ Value v a)) (conv : Option Str → Except Err α) (d : α)
    (h : parse o lines = .ok P) (hn : ∀ l ∈ lines, '\n' ∉ l) (i : Nat)
    (hk : ∀ t ∈ Spec.family P i, isInfix "peer-keepalive".toList t = true → ∃ body, Spec.Keepalive t body) :
    ∃ v, Spec.First (fun t a => ∃ body, Spec.Keepalive t body ∧ Spec.Behind (key.toList <:+ ·) Value body (some a)) (Spec.family P i) v ∧
      iterTyped P i rx 1 conv d = (v.map (fun a => conv (some a))).getD (.ok d) := by
  obtain ⟨h1, h2, h3⟩ := hi
  have hkw := isWord_iff.mp h3
  have hline : ∀ t ∈ Spec.family P i, Line t := line_family h hn i
  rw [iter_caps h1 (by decide) (Nat.le_of_ble_eq_true rfl) conv d P i (fun t ht => search_afterL h2 (fun x s c hx => key_blank hkw _ x s c hx) 1 [] (hline t ht).1)]
  generalize Spec.family P i = ts at hk hline
  induction ts with
  | nil => exact ⟨none, rfl, rfl⟩
  | cons t ts ih =>
    obtain ⟨v, i1, i2⟩ := ih (fun t ht => hk t (by simp [ht])) (fun t ht => hline t (by simp [ht]))
    rw [List.findSome?_cons]
    cases hin : isInfix "peer-keepalive".toList t with
    | false =>
      rw [silent hin]
      refine ⟨v, .inr ⟨?_, i1⟩, i2⟩
      rintro a ⟨body, ⟨hb, -⟩, -⟩
      have : isInfix "peer-keepalive".toList t = true := by
        rw [← splitWs_lstrip] at hb
        have hne : lstrip t ≠ [] := by intro h; rw [h] at hb; cases hb
        obtain ⟨w, rest, e, -, -, hsp⟩ := split_cons (lstrip_lstrip t) hne
        rw [hsp] at hb
        obtain ⟨rfl, -⟩ := List.cons.inj hb
        have hw : "peer-keepalive".toList <:+: lstrip t := by rw [e]; exact (List.prefix_append _ _).isInfix
        exact (isInfix_iff _ _).mpr (hw.trans (lstrip_suffix t).isInfix)
      rw [hin] at this
      cases this
    | true =>
      obtain ⟨body, hb1, hb2⟩ := hk t (by simp) hin
      obtain ⟨r, r1, r2, r3, r4⟩ := outer pk_word (T := str key.toList (.plus .space V))
        (by rw [det_str, if_neg (fun h => hkw.1 (List.prefix_nil.mp h))]) hb2 [] t (by simp) (hline t (by simp)) hb1
      obtain ⟨o, o1, o2⟩ := behind hkw hT r.length r (Nat.le_refl _) r1 r2
      rw [r3] at o1
      rw [r4]
      cases hf : firstAt (fun u => (str key.toList (.plus .space V)).det u []) r with
      | none =>
        rw [hf] at o2
        have : o = none := by cases o with | none => rfl | some a => cases o2
        subst this
        refine ⟨v, .inr ⟨?_, i1⟩, i2⟩
        rintro a ⟨body', ⟨hb', -⟩, hh⟩
        rw [hb1] at hb'
        obtain ⟨-, rfl⟩ := List.cons.inj hb'
        exact behind_none o1 rfl a hh
      | some q =>
        rw [hf] at o2
        cases o with
        | none => cases o2
        | some a =>
          refine ⟨some a, .inl ⟨a, ⟨body, ⟨hb1, hb2⟩, o1⟩, rfl⟩, ?_⟩
          have : q.2.lookup 1 = some a := by
            have := o2
            simpa using this
          simp only [Option.map_some, this, Option.getD_some]

theorem keep_iter {α : Type} {rx key : String} (hi : KeepIs rx key V)
    (hT : Tail V 1 (fun ws a => ∃ v more, ws = v :: more ∧ Value v a)) (conv : Option Str → Except Err α) (d : α)
    (h : parse o lines = .ok P) (hn : ∀ l ∈ lines, '\n' ∉ l) (i : Nat)
    (hk : ∀ t ∈ Spec.family P i, isInfix "peer-keepalive".toList t = true → ∃ body, Spec.Keepalive t body)
    (hc : Spec.Clear key (Spec.family P i)) :
    ∃ v, Spec.First (Spec.Gives key Value) (Spec.family P i) v ∧
      iterTyped P i rx 1 conv d = (v.map (fun a => conv (some a))).getD (.ok d) := by
  obtain ⟨v, h1, h2⟩ := keep_iter0 hi hT conv d h hn i hk
  refine ⟨v, first_congr (fun t ht a => ?_) h1, h2⟩
  have hkey : ∀ body, Spec.Keepalive t body → ∀ w ∈ body, key.toList <:+ w ↔ w = key.toList := fun body hb w hw =>
    ⟨hc t ht body hb w hw, fun e => e ▸ List.suffix_refl _⟩
  constructor
  · rintro ⟨body, h3, h4⟩
    exact ⟨body, h3, behind_congr h4 (hkey body h3)⟩
  · rintro ⟨body, h3, h4⟩
    exact ⟨body, h3, behind_congr h4 (fun w hw => (hkey body h3 w hw).symm)⟩

/-! ## C154: `vpc_peer_keepalive` -/

theorem fields {K : Keepalive} (h : vpcPeerKeepalive P i = .ok K) :
    iterTyped P i "peer-keepalive\\s+.*?destination\\s+(\\d+\\.\\d+\\.\\d+\\.\\d+)" 1 toStr [] = .ok K.destination ∧
    iterTyped P i "peer-keepalive\\s+.*?hold-timeout\\s+(\\d+)" 1 toInt (-1) = .ok K.holdTimeout ∧
    iterTyped P i "peer-keepalive\\s+.*?interval\\s+(\\d+)" 1 toInt (-1) = .ok K.interval ∧
    iterTyped P i "peer-keepalive\\s+.*?timeout\\s+(\\d+)" 1 toInt (-1) = .ok K.timeout ∧
    iterTyped P i "peer-keepalive\\s+.*?precedence\\s+(\\S+)" 1 toStr [] = .ok K.precedence ∧
    iterTyped P i "peer-keepalive\\s+.*?source\\s+(\\d+\\.\\d+\\.\\d+\\.\\d+)" 1 toStr [] = .ok K.source ∧
    iterTyped P i "peer-keepalive\\s+.*?tos\\s+(\\S+)" 1 toStr [] = .ok K.tos ∧
    iterTyped P i "peer-keepalive\\s+.*?tos-byte\\s+(\\S+)" 1 toInt (-1) = .ok K.tosByte ∧
    iterTyped P i "peer-keepalive\\s+.*?udp-port\\s+(\\d+)" 1 toInt (-1) = .ok K.udpPort ∧
    iterTyped P i "peer-keepalive\\s+.*?vrf\\s+(\\S+)" 1 toStr [] = .ok K.vrf := by
  rw [vpcPeerKeepalive] at h
  generalize iterTyped P i "peer-keepalive\\s+.*?destination\\s+(\\d+\\.\\d+\\.\\d+\\.\\d+)" 1 toStr [] = e1 at h ⊢
  generalize iterTyped P i "peer-keepalive\\s+.*?hold-timeout\\s+(\\d+)" 1 toInt (-1) = e2 at h ⊢
  generalize iterTyped P i "peer-keepalive\\s+.*?interval\\s+(\\d+)" 1 toInt (-1) = e3 at h ⊢
  generalize iterTyped P i "peer-keepalive\\s+.*?timeout\\s+(\\d+)" 1 toInt (-1) = e4 at h ⊢
  generalize iterTyped P i "peer-keepalive\\s+.*?precedence\\s+(\\S+)" 1 toStr [] = e5 at h ⊢
  generalize iterTyped P i "peer-keepalive\\s+.*?source\\s+(\\d+\\.\\d+\\.\\d+\\.\\d+)" 1 toStr [] = e6 at h ⊢
  generalize iterTyped P i "peer-keepalive\\s+.*?tos\\s+(\\S+)" 1 toStr [] = e7 at h ⊢
  generalize iterTyped P i "peer-keepalive\\s+.*?tos-byte\\s+(\\S+)" 1 toInt (-1) = e8 at h ⊢
  generalize iterTyped P i "peer-keepalive\\s+.*?udp-port\\s+(\\d+)" 1 toInt (-1) = e9 at h ⊢
  generalize iterTyped P i "peer-keepalive\\s+.*?vrf\\s+(\\S+)" 1 toStr [] = e10 at h ⊢
  cases e1 with
  | error e => cases h
  | ok _ =>
  cases e2 with
  | error e => cases h
  | ok _ =>
  cases e3 with
  | error e => cases h
  | ok _ =>
  cases e4 with
  | error e => cases h
  | ok _ =>
  cases e5 with
  | error e => cases h
  | ok _ =>
  cases e6 with
  | error e => cases h
  | ok _ =>
  cases e7 with
  | error e => cases h
  | ok _ =>
  cases e8 with
  | error e => cases h
  | ok _ =>
  cases e9 with
  | error e => cases h
  | ok _ =>
  cases e10 with
  | error e => cases h
  | ok _ =>
  cases h
  exact ⟨rfl, rfl, rfl, rfl, rfl, rfl, rfl, rfl, rfl, rfl⟩

theorem keep_text {rx key : String} (hi : KeepIs rx key V) (hT : Tail V 1 (fun ws a => ∃ v more, ws = v :: more ∧ Value v a))
    (h : parse o lines = .ok P) (hn : ∀ l ∈ lines, '\n' ∉ l) (i : Nat)
    (hk : ∀ t ∈ Spec.family P i, isInfix "peer-keepalive".toList t = true → ∃ body, Spec.Keepalive t body)
    {x : Str} (hx : iterTyped P i rx 1 toStr [] = .ok x) (hc : Spec.Clear key (Spec.family P i)) :
    ∃ v, Spec.First (Spec.Gives key Value) (Spec.family P i) v ∧ x = v.getD [] := by
  obtain ⟨v, h1, h2⟩ := keep_iter hi hT toStr [] h hn i hk hc
  refine ⟨v, h1, ?_⟩
  rw [hx] at h2
  cases v <;> cases h2 <;> rfl

theorem first_gives {ts : List Str} {key : String} {v : Option Str} (h : Spec.First (Spec.Gives key Value) ts v) {a : Str} (ha : v = some a) :
    ∃ w, Value w a := by
  obtain ⟨t, -, body, -, hb⟩ := (first_exists h).2 a ha
  generalize hs : some a = b at hb
  induction hb with
  | nil => cases hs
  | here h1 h2 => cases hs; exact ⟨_, h2⟩
  | skip _ _ ih => exact ih hs

theorem keep_num {rx key : String} (hi : KeepIs rx key (.grp 1 (.plus .digit .done) .done))
    (h : parse o lines = .ok P) (hn : ∀ l ∈ lines, '\n' ∉ l) (i : Nat)
    (hk : ∀ t ∈ Spec.family P i, isInfix "peer-keepalive".toList t = true → ∃ body, Spec.Keepalive t body)
    {x : Int} (hx : iterTyped P i rx 1 toInt (-1) = .ok x) (hc : Spec.Clear key (Spec.family P i)) :
    ∃ v, Spec.First (Spec.Gives key Spec.Leads) (Spec.family P i) v ∧ x = (v.map (fun d => (natVal d : Int))).getD (-1) := by
  obtain ⟨v, h1, h2⟩ := keep_iter hi (tail_lead 1) toInt (-1) h hn i hk hc
  refine ⟨v, h1, ?_⟩
  rw [hx] at h2
  cases v with
  | none => cases h2; rfl
  | some a =>
    obtain ⟨w, u, -, hd, -⟩ := first_gives h1 rfl
    have : toInt (some a) = .ok (natVal a : Int) := toInt_digits hd
    rw [Option.map_some, Option.getD_some, this] at h2
    cases h2
    rfl

/-- C154: where every line with the text `peer-keepalive` begins with it, the texts of
`vpc_peer_keepalive` are the values behind their keywords, empty without one. Missing: lines where
another word ends with the letters of the keyword, and lines that do not begin with `peer-keepalive`. -/
theorem C154_text_partial (h : parse o lines = .ok P) (hn : ∀ l ∈ lines, '\n' ∉ l) (i : Nat)
    (hk : ∀ t ∈ Spec.family P i, isInfix "peer-keepalive".toList t = true → ∃ body, Spec.Keepalive t body)
    {K : Keepalive} (hK : vpcPeerKeepalive P i = .ok K) :
    (Spec.Clear "destination" (Spec.family P i) →
      ∃ v, Spec.First (Spec.Gives "destination" Spec.Address) (Spec.family P i) v ∧ K.destination = v.getD []) ∧
    (Spec.Clear "source" (Spec.family P i) →
      ∃ v, Spec.First (Spec.Gives "source" Spec.Address) (Spec.family P i) v ∧ K.source = v.getD []) ∧
    (Spec.Clear "precedence" (Spec.family P i) →
      ∃ v, Spec.First (Spec.Gives "precedence" Eq) (Spec.family P i) v ∧ K.precedence = v.getD []) ∧
    (Spec.Clear "tos" (Spec.family P i) →
      ∃ v, Spec.First (Spec.Gives "tos" Eq) (Spec.family P i) v ∧ K.tos = v.getD []) ∧
    (Spec.Clear "vrf" (Spec.family P i) →
      ∃ v, Spec.First (Spec.Gives "vrf" Eq) (Spec.family P i) v ∧ K.vrf = v.getD []) := by
  obtain ⟨a1, a2, a3, a4, a5, a6, a7, a8, a9, a10⟩ := fields hK
  exact ⟨keep_text (by decide +kernel) tail_address h hn i hk a1, keep_text (by decide +kernel) tail_address h hn i hk a6,
    keep_text (by decide +kernel) tail_word' h hn i hk a5, keep_text (by decide +kernel) tail_word' h hn i hk a7,
    keep_text (by decide +kernel) tail_word' h hn i hk a10⟩

/-- C154: the same for the numbers, which are -1 without a value. Missing: as for the texts. -/
theorem C154_numbers_partial (h : parse o lines = .ok P) (hn : ∀ l ∈ lines, '\n' ∉ l) (i : Nat)
    (hk : ∀ t ∈ Spec.family P i, isInfix "peer-keepalive".toList t = true → ∃ body, Spec.Keepalive t body)
    {K : Keepalive} (hK : vpcPeerKeepalive P i = .ok K) :
    (Spec.Clear "hold-timeout" (Spec.family P i) → ∃ v, Spec.First (Spec.Gives "hold-timeout" Spec.Leads) (Spec.family P i) v ∧
      K.holdTimeout = (v.map (fun d => (natVal d : Int))).getD (-1)) ∧
    (Spec.Clear "interval" (Spec.family P i) → ∃ v, Spec.First (Spec.Gives "interval" Spec.Leads) (Spec.family P i) v ∧
      K.interval = (v.map (fun d => (natVal d : Int))).getD (-1)) ∧
    (Spec.Clear "timeout" (Spec.family P i) → ∃ v, Spec.First (Spec.Gives "timeout" Spec.Leads) (Spec.family P i) v ∧
      K.timeout = (v.map (fun d => (natVal d : Int))).getD (-1)) ∧
    (Spec.Clear "udp-port" (Spec.family P i) → ∃ v, Spec.First (Spec.Gives "udp-port" Spec.Leads) (Spec.family P i) v ∧
      K.udpPort = (v.map (fun d => (natVal d : Int))).getD (-1)) ∧
    (Spec.Clear "tos-byte" (Spec.family P i) → ∃ v, Spec.First (Spec.Gives "tos-byte" Eq) (Spec.family P i) v ∧
      (v = none → K.tosByte = -1) ∧ ∀ d, v = some d → Spec.Digits d → K.tosByte = natVal d) := by
  obtain ⟨a1, a2, a3, a4, a5, a6, a7, a8, a9, a10⟩ := fields hK
  refine ⟨keep_num (by decide +kernel) h hn i hk a2, keep_num (by decide +kernel) h hn i hk a3,
    keep_num (by decide +kernel) h hn i hk a4, keep_num (by decide +kernel) h hn i hk a9, fun hc => ?_⟩
  obtain ⟨v, h1, h2⟩ := keep_iter (rx := "peer-keepalive\\s+.*?tos-byte\\s+(\\S+)") (by decide +kernel) tail_word' toInt (-1) h hn i hk hc
  refine ⟨v, h1, ?_, ?_⟩
  · rintro rfl
    rw [a8] at h2
    exact Except.ok.inj h2
  · rintro d rfl hd
    have : toInt (some d) = .ok (natVal d : Int) := toInt_digits hd
    rw [a8, Option.map_some, Option.getD_some, this] at h2
    exact Except.ok.inj h2

theorem behind_pair {Key : Str → Prop} {ws : List Str} {o : Option Str} (h : Spec.Behind Key Value ws o) {a : Str} (ho : o = some a) :
    ∃ pre w v post, ws = pre ++ w :: v :: post ∧ Key w ∧ Value v a := by
  induction h with
  | nil => cases ho
  | here h1 h2 => cases ho; exact ⟨[], _, _, _, rfl, h1, h2⟩
  | @skip w ws o _ _ ih =>
    obtain ⟨pre, w', v, post, rfl, h1, h2⟩ := ih ho
    exact ⟨w :: pre, w', v, post, rfl, h1, h2⟩

theorem keep_ok {α : Type} {rx key : String} (hi : KeepIs rx key V) {conv : Option Str → Except Err α} {d : α}
    (hT : Tail V 1 (fun ws a => ∃ v more, ws = v :: more ∧ Value v a))
    (h : parse o lines = .ok P) (hn : ∀ l ∈ lines, '\n' ∉ l) (i : Nat)
    (hk : ∀ t ∈ Spec.family P i, isInfix "peer-keepalive".toList t = true → ∃ body, Spec.Keepalive t body)
    (hv : ∀ t ∈ Spec.family P i, ∀ body, Spec.Keepalive t body → ∀ pre w v post, body = pre ++ w :: v :: post →
      key.toList <:+ w → ∀ a, Value v a → ∃ x, conv (some a) = .ok x) : ∃ x, iterTyped P i rx 1 conv d = .ok x := by
  obtain ⟨v, h1, h2⟩ := keep_iter0 hi hT conv d h hn i hk
  cases v with
  | none => exact ⟨d, h2⟩
  | some a =>
    obtain ⟨t, ht, body, hb1, hb2⟩ := (first_exists h1).2 a rfl
    obtain ⟨pre, w, v, post, e, h3, h4⟩ := behind_pair hb2 rfl
    obtain ⟨x, hx⟩ := hv t ht body hb1 pre w v post e h3 a h4
    exact ⟨x, h2.trans hx⟩

/-- C154: `vpc_peer_keepalive` raises nothing unless a word that is no number stands behind
`tos-byte`. -/
theorem C154_total (h : parse o lines = .ok P) (hn : ∀ l ∈ lines, '\n' ∉ l) (i : Nat)
    (hk : ∀ t ∈ Spec.family P i, isInfix "peer-keepalive".toList t = true → ∃ body, Spec.Keepalive t body)
    (hb : ∀ t ∈ Spec.family P i, ∀ body, Spec.Keepalive t body → ∀ pre w v post, body = pre ++ w :: v :: post →
      "tos-byte".toList <:+ w → Spec.Digits v) : ∃ K, vpcPeerKeepalive P i = .ok K := by
  have hs : ∀ {key : String} {Value : Str → Str → Prop}, ∀ t ∈ Spec.family P i, ∀ body, Spec.Keepalive t body → ∀ pre w v post, body = pre ++ w :: v :: post →
      key.toList <:+ w → ∀ a, Value v a → ∃ x, toStr (some a) = .ok x := fun _ _ _ _ _ _ _ _ _ _ a _ => ⟨a, rfl⟩
  have hnum : ∀ {key : String}, ∀ t ∈ Spec.family P i, ∀ body, Spec.Keepalive t body → ∀ pre w v post, body = pre ++ w :: v :: post →
      key.toList <:+ w → ∀ a, Spec.Leads v a → ∃ x, toInt (some a) = .ok x := by
    rintro key _ _ _ _ _ _ _ _ _ _ a ⟨u, -, hd, -⟩
    exact ⟨_, toInt_digits hd⟩
  obtain ⟨x1, e1⟩ := keep_ok (rx := "peer-keepalive\\s+.*?destination\\s+(\\d+\\.\\d+\\.\\d+\\.\\d+)") (key := "destination") (d := [])
    (by decide +kernel) tail_address h hn i hk hs
  obtain ⟨x2, e2⟩ := keep_ok (rx := "peer-keepalive\\s+.*?hold-timeout\\s+(\\d+)") (key := "hold-timeout") (d := -1)
    (by decide +kernel) (tail_lead 1) h hn i hk hnum
  obtain ⟨x3, e3⟩ := keep_ok (rx := "peer-keepalive\\s+.*?interval\\s+(\\d+)") (key := "interval") (d := -1)
    (by decide +kernel) (tail_lead 1) h hn i hk hnum
  obtain ⟨x4, e4⟩ := keep_ok (rx := "peer-keepalive\\s+.*?timeout\\s+(\\d+)") (key := "timeout") (d := -1)
    (by decide +kernel) (tail_lead 1) h hn i hk hnum
  obtain ⟨x5, e5⟩ := keep_ok (rx := "peer-keepalive\\s+.*?precedence\\s+(\\S+)") (key := "precedence") (d := [])
    (by decide +kernel) tail_word' h hn i hk hs
  obtain ⟨x6, e6⟩ := keep_ok (rx := "peer-keepalive\\s+.*?source\\s+(\\d+\\.\\d+\\.\\d+\\.\\d+)") (key := "source") (d := [])
    (by decide +kernel) tail_address h hn i hk hs
  obtain ⟨x7, e7⟩ := keep_ok (rx := "peer-keepalive\\s+.*?tos\\s+(\\S+)") (key := "tos") (d := [])
    (by decide +kernel) tail_word' h hn i hk hs
  obtain ⟨x8, e8⟩ := keep_ok (rx := "peer-keepalive\\s+.*?tos-byte\\s+(\\S+)") (key := "tos-byte") (conv := toInt) (d := -1)
    (by decide +kernel) tail_word' h hn i hk (fun t ht body hk' pre w v post e hw a ha => by
      subst ha
      exact ⟨_, toInt_digits (hb t ht body hk' pre w v post e hw)⟩)
  obtain ⟨x9, e9⟩ := keep_ok (rx := "peer-keepalive\\s+.*?udp-port\\s+(\\d+)") (key := "udp-port") (d := -1)
    (by decide +kernel) (tail_lead 1) h hn i hk hnum
  obtain ⟨x10, e10⟩ := keep_ok (rx := "peer-keepalive\\s+.*?vrf\\s+(\\S+)") (key := "vrf") (d := [])
    (by decide +kernel) tail_word' h hn i hk hs
  rw [vpcPeerKeepalive, e1, e2, e3, e4, e5, e6, e7, e8, e9, e10]
  exact ⟨_, rfl⟩

/-! ## The first line decides -/

theorem behind_unique {Key : Str → Prop} {ws : List Str} {o : Option Str}
    (hv : ∀ w a b, Value w a → Value w b → a = b) (h : Spec.Behind Key Value ws o) : ∀ {o'}, Spec.Behind Key Value ws o' → o = o' := by
  induction h with
  | nil => intro o' h'; cases h'; rfl
  | here h1 h2 =>
    intro o' h'
    cases h' with
    | here h3 h4 => rw [hv _ _ _ h2 h4]
    | skip h3 _ => exact absurd h2 (h3 h1 _ _ _ rfl)
  | skip h1 _ ih =>
    intro o' h'
    cases h' with
    | here h3 h4 => exact absurd h4 (h1 h3 _ _ _ rfl)
    | skip _ h3 => exact ih h3

theorem behind_at {Key : Str → Prop} {pre post : List Str} {k v a : Str} (hp : ∀ w ∈ pre, ¬ Key w) (hk : Key k) (hv : Value v a) :
    Spec.Behind Key Value (pre ++ k :: v :: post) (some a) := by
  induction pre with
  | nil => exact .here hk hv
  | cons w pre ih => exact .skip (fun h => absurd h (hp w (by simp))) (ih (fun w hw => hp w (by simp [hw])))

theorem findSome_at {β : Type} {D : Str → Option β} {ts ts' : List Str} {t : Str} {b : β} (h : ∀ u ∈ ts, D u = none) (ht : D t = some b) :
    (ts ++ t :: ts').findSome? D = some b := by
  induction ts with
  | nil => rw [List.nil_append, List.findSome?_cons, ht]
  | cons u ts ih => rw [List.cons_append, List.findSome?_cons, h u (by simp)]; exact ih (fun u hu => h u (by simp [hu]))

theorem keep_at {α : Type} {rx key : String} (hi : KeepIs rx key V)
    (hT : Tail V 1 (fun ws a => ∃ v more, ws = v :: more ∧ Value v a)) (hv : ∀ w a b, Value w a → Value w b → a = b)
    (conv : Option Str → Except Err α) (d : α) (h : parse o lines = .ok P) (hn : ∀ l ∈ lines, '\n' ∉ l) {i : Nat}
    {ts ts' : List Str} {t : Str} (hf : Spec.family P i = ts ++ t :: ts') (hts : ∀ u ∈ ts, isInfix "peer-keepalive".toList u = false)
    {pre body : List Str} (ht : splitWs t = pre ++ "peer-keepalive".toList :: body)
    (hin : ∀ w ∈ pre ++ body, isInfix "peer-keepalive".toList w = false) {a : Str}
    (hb : Spec.Behind (key.toList <:+ ·) Value body (some a)) : iterTyped P i rx 1 conv d = conv (some a) := by
  obtain ⟨h1, h2, h3⟩ := hi
  have hkw := isWord_iff.mp h3
  have hline : ∀ t ∈ Spec.family P i, Line t := line_family h hn i
  rw [iter_caps h1 (by decide) (Nat.le_of_ble_eq_true rfl) conv d P i
    (fun t ht => search_afterL h2 (fun x s c hx => key_blank hkw _ x s c hx) 1 [] (hline t ht).1), hf]
  obtain ⟨r, r1, r2, r3, r4⟩ := outer pk_word (T := str key.toList (.plus .space V))
    (by rw [det_str, if_neg (fun h => hkw.1 (List.prefix_nil.mp h))]) (fun w hw => hin w (by simp [hw])) pre t
    (fun w hw => hin w (by simp [hw])) (hline t (by rw [hf]; simp)) ht
  obtain ⟨b, o1, o2⟩ := behind hkw hT r.length r (Nat.le_refl _) r1 r2
  rw [r3] at o1
  have := behind_unique hv o1 hb
  subst this
  cases hq : firstAt (fun u => (str key.toList (.plus .space V)).det u []) r with
  | none => rw [hq] at o2; cases o2
  | some q =>
    rw [hq] at o2
    rw [findSome_at (b := q.2) (fun u hu => silent (hts u hu)) (by rw [r4, hq]; rfl)]
    have : q.2.lookup 1 = some a := by simpa using o2
    simp only [this]

/-- C154 fails for the timeout: where a line gives `hold-timeout` before `timeout`, the timeout is the
hold timeout, whatever stands behind it. -/
theorem C154_timeout_fails (h : parse o lines = .ok P) (hn : ∀ l ∈ lines, '\n' ∉ l) {i : Nat}
    {ts ts' : List Str} {t : Str} (hf : Spec.family P i = ts ++ t :: ts') (hts : ∀ u ∈ ts, isInfix "peer-keepalive".toList u = false)
    {pre post : List Str} {n : Str} (ht : Spec.Keepalive t (pre ++ "hold-timeout".toList :: n :: post)) (hd : Spec.Digits n)
    (hp : ∀ w ∈ pre, ¬ "timeout".toList <:+ w) {K : Keepalive} (hK : vpcPeerKeepalive P i = .ok K) : K.timeout = natVal n := by
  obtain ⟨a1, a2, a3, a4, -⟩ := fields hK
  have hl : Spec.Leads n n := ⟨[], by simp, hd, by simp⟩
  have := keep_at (rx := "peer-keepalive\\s+.*?timeout\\s+(\\d+)") (key := "timeout") (by decide +kernel) (tail_lead 1)
    (fun w a b => leads_unique) toInt (-1) h hn hf hts (pre := []) ht.1 (by simpa using ht.2)
    (behind_at hp (by show "timeout".toList <:+ "hold-timeout".toList; decide) hl)
  have e : toInt (some n) = .ok (natVal n : Int) := toInt_digits hd
  rw [a4, e] at this
  exact Except.ok.inj this

/-- C154 fails for lines that take the keepalive away: `no peer-keepalive destination A` gives the
destination `A`. -/
theorem C154_no_fails (h : parse o lines = .ok P) (hn : ∀ l ∈ lines, '\n' ∉ l) {i : Nat}
    {ts ts' : List Str} {t : Str} (hf : Spec.family P i = ts ++ t :: ts') (hts : ∀ u ∈ ts, isInfix "peer-keepalive".toList u = false)
    {a : Str} (ha : Spec.DottedQuad a) (ht : splitWs t = Spec.wd ["no", "peer-keepalive", "destination"] ++ [a])
    {K : Keepalive} (hK : vpcPeerKeepalive P i = .ok K) : K.destination = a := by
  obtain ⟨a1, -⟩ := fields hK
  have hdig : ∀ c ∈ a, c ≠ 'p' := by
    obtain ⟨x, y, z, w, rfl, hh⟩ := ha
    rintro c hc rfl
    have hs : ∀ s ∈ [x, y, z, w], 'p' ∉ s := fun s hs hp => by
      have := (hh s hs).2 'p' hp
      exact absurd this (by decide)
    simp [hs x (by simp), hs y (by simp), hs z (by simp), hs w (by simp)] at hc
  have hval : Spec.Address a a := ⟨[], by simp, ha, by simp⟩
  have := keep_at (rx := "peer-keepalive\\s+.*?destination\\s+(\\d+\\.\\d+\\.\\d+\\.\\d+)") (key := "destination") (by decide +kernel)
    tail_address address_unique toStr [] h hn hf hts (pre := ["no".toList]) (body := ["destination".toList, a]) ht (by
      intro w hw
      simp only [List.mem_append, List.mem_cons, List.not_mem_nil, or_false] at hw
      rcases hw with rfl | rfl | rfl
      · decide
      · decide
      · exact isInfix_of_head (c := 'p') rfl (fun hp => hdig _ hp rfl))
    (behind_at (pre := []) (by simp) (List.suffix_refl _) hval)
  rw [a1] at this
  exact Except.ok.inj this

def keepLines : List Str :=
  ["vpc domain 10", "  peer-switch", "  peer-keepalive destination 10.1.1.1 source 10.1.1.2 vrf management interval 500 hold-timeout 4 timeout 7 tos-byte 8",
    "vpc domain 11", "  no peer-keepalive destination 10.9.9.9", "vpc domain 12"].map String.toList

example : shows keepLines (fun P => vpcPeerKeepalive P 0 == .ok ⟨"10.1.1.1".toList, 4, 500, 4, [], "10.1.1.2".toList, [], 8, -1, "management".toList⟩ &&
    vpcPeerKeepalive P 3 == .ok ⟨"10.9.9.9".toList, -1, -1, -1, [], [], [], -1, -1, []⟩ &&
    vpcPeerKeepalive P 5 == .ok ⟨[], -1, -1, -1, [], [], [], -1, -1, []⟩) = true := by
  decide +kernel

example : Spec.Keepalive "  peer-keepalive destination 10.1.1.1 hold-timeout 4 timeout 7".toList
    (["destination", "10.1.1.1", "hold-timeout", "4", "timeout", "7"].map String.toList) := ⟨by decide, by decide⟩

example : Spec.Gives "timeout" Spec.Leads "  peer-keepalive interval 500 timeout 7".toList "7".toList :=
  ⟨["interval", "500", "timeout", "7"].map String.toList, ⟨by decide, by decide⟩,
    behind_at (pre := ["interval".toList, "500".toList]) (by decide) rfl ⟨[], by decide, ⟨by decide, by decide⟩, by simp⟩⟩

end Nxos.Domain

import Verif.Nxos.HelperProps
import Verif.Range.Props
import Verif.Cisco.HsrpGroupProps

/-! # Properties of NXOS interface lines: the VLANs of a trunk -/

namespace Nxos

open Py Conf Query Re Cisco

variable {o : Opts} {lines : List Str} {P : Parsed}

/-! ## Specification -/

/-- An indented line `switchport trunk allowed vlan V`, one blank before `V`. -/
def Spec.Allowed (t v : Str) : Prop :=
  Spec.Indented t ∧ ∃ x, isSpace x = true ∧ Spec.Rest ["switchport", "trunk", "allowed"] t ("vlan".toList ++ x :: v)

/-- An indented line `switchport trunk allowed vlan KW V`, where `V` begins with a digit. -/
def Spec.Change (kw : String) (t v : Str) : Prop :=
  Spec.Indented t ∧ Spec.Rest ["switchport", "trunk", "allowed", "vlan", kw] t v ∧ ∃ x u, v = x :: u ∧ isDigit x = true

/-- The VLANs there are. -/
def Spec.Vlans (x : Int) : Prop := 1 ≤ x ∧ x ≤ 4094

/-- What one line does to the set of VLANs: another line changes nothing, `all`, `none` and a list
replace the set, `except N` leaves all but one, `remove N` takes one away, `add N` puts one into the
empty set. -/
inductive Spec.Step : Str → (Int → Prop) → (Int → Prop) → Prop
  | other {t S} : ¬ Spec.wd ["switchport", "trunk", "allowed"] <+: splitWs t → Spec.Step t S S
  | all {t S} : Spec.Allowed t "all".toList → Spec.Step t S Spec.Vlans
  | none {t S} : Spec.Allowed t "none".toList → Spec.Step t S (fun _ => False)
  | list {t S} (items : List Range.Item) : (∀ i ∈ items, i.Valid) → (∃ x u, join [','] (items.map Range.Item.text) = x :: u ∧ isDigit x = true) →
      Spec.Allowed t (join [','] (items.map Range.Item.text)) → Spec.Step t S (fun x => ∃ i ∈ items, i.denotes x)
  | except {t S d} : Spec.Digits d → Spec.Change "except" t d → Spec.Vlans (natVal d) →
      Spec.Step t S (fun x => Spec.Vlans x ∧ x ≠ natVal d)
  | remove {t S d} : Spec.Digits d → Spec.Change "remove" t d → S (natVal d) → Spec.Step t S (fun x => S x ∧ x ≠ natVal d)
  | add {t S d} : Spec.Digits d → Spec.Change "add" t d → (∀ x, ¬ S x) → Spec.Step t S (fun x => x = natVal d)

/-- Line by line. -/
inductive Spec.Steps : List Str → (Int → Prop) → (Int → Prop) → Prop
  | nil {S} : Spec.Steps [] S S
  | cons {t ts S S' S''} : Spec.Step t S S' → Spec.Steps ts S' S'' → Spec.Steps (t :: ts) S S''

/-! ## The expressions -/

/-- `^\s+switchport\s+trunk\s+allowed\s+vlan\s` and an end. -/
def allowedP (p : Prog) : Prog :=
  lead true (wordsG (gaps true ["switchport", "trunk", "allowed"]) (str "vlan".toList (.one .space p)))

def litP (w : Str) : Prog := .grp 1 (str w .done) (.eol .done)

theorem abs_rx : compile "^\\s+switchport\\s+trunk\\s+allowed\\s+vlan\\s(all|none|\\d.*?)$" =
    .ok ⟨seqs (.bol :: ((allowedP .done).toL ++ [.grp 1 (.alt (seqs (str "all".toList .done).toL)
      (.alt (seqs (str "none".toList .done).toL) (.seq (.cls K.digit.cls) (.star false (.cls K.any.cls))))), .eol])), 1, []⟩ := by
  decide +kernel

theorem change_rx : ∀ kw ∈ ["add", "except", "remove"],
    IsLazy ("^\\s+switchport\\s+trunk\\s+allowed\\s+vlan\\s+" ++ kw ++ "\\s+(\\d.*?)$") true
      (gaps true ["switchport", "trunk", "allowed", "vlan", kw]) .digit false := by
  decide +kernel

/-- The three ends of the first expression, one after the other. -/
theorem run_alts (n : Nat) (a b d : Rgx) (s : Str) (c : Caps) :
    run n (seqs [.grp 1 (.alt a (.alt b d)), .eol]) s c =
      run n (seqs [.grp 1 a, .eol]) s c ++ (run n (seqs [.grp 1 b, .eol]) s c ++ run n (seqs [.grp 1 d, .eol]) s c) := by
  simp only [run_seqs_cons', run, List.map_append, List.flatMap_append]

theorem allowed_det {p : Prog} {t : Str} (q : Str × Caps) :
    (allowedP p).det t [] = some q ↔
      Spec.Indented t ∧ ∃ x v, isSpace x = true ∧ Spec.Rest ["switchport", "trunk", "allowed"] t ("vlan".toList ++ x :: v) ∧
        p.det v [] = some q := by
  have hn : ∀ c, (str "vlan".toList (.one .space p)).det [] c = none := fun c => by rw [det_str]; rfl
  rw [allowedP, det_chain true (words_of (by decide)) _ hn (.inl (by simp [gaps])), fst_gaps]
  constructor
  · rintro ⟨h1, h2, h3⟩
    refine ⟨h1 rfl, ?_⟩
    rw [det_str] at h3
    split at h3
    · rename_i hv
      obtain ⟨r, hr⟩ := hv
      rw [← hr, List.drop_left' rfl] at h3
      cases r with
      | nil => rw [Prog.det] at h3; cases h3
      | cons x v =>
        rw [Prog.det] at h3
        split at h3
        · rename_i hx
          refine ⟨x, v, hx, (rest_iff (by decide)).mpr ⟨h2, hr.symm, by simp⟩, h3⟩
        · cases h3
    · cases h3
  · rintro ⟨h1, x, v, hx, h2, h3⟩
    obtain ⟨a1, a2, -⟩ := (rest_iff (by decide)).mp h2
    refine ⟨fun _ => h1, a1, ?_⟩
    have hl : (gaps true ["switchport", "trunk", "allowed"]).length = 3 := rfl
    rw [hl]
    rw [show ["switchport", "trunk", "allowed"].length = 3 from rfl] at a2
    rw [a2, det_str, if_pos (List.prefix_append ..), List.drop_left' rfl, Prog.det, if_pos (by simpa [K.has] using hx)]
    exact h3

theorem lit_det (w v : Str) (q : Str × Caps) (hv : '\n' ∉ v) : (litP w).det v [] = some q ↔ v = w ∧ q = ([], [(1, w)]) := by
  rw [litP, Prog.det, det_str]
  by_cases hp : w <+: v
  · obtain ⟨r, rfl⟩ := hp
    rw [if_pos (List.prefix_append ..), List.drop_left' rfl]
    simp only [Prog.det]
    cases r with
    | nil => simp [eq_comm]
    | cons x r =>
      have hx : x ≠ '\n' := by rintro rfl; exact hv (by simp)
      simp [hx]
  · rw [if_neg hp]
    simp only [reduceCtorEq, false_iff, not_and]
    rintro rfl
    exact absurd List.prefix_rfl hp

/-- `(\d.*)$` where there are no line ends. -/
theorem digits_det {v : Str} (hv : '\n' ∉ v) (q : Str × Caps) :
    (restP .digit false).det v [] = some q ↔ (∃ x u, v = x :: u ∧ isDigit x = true) ∧ q = ([], [(1, v)]) := by
  rw [← head_prog v.length (by rfl), restP_toL, run_restL _ _ _ _ hv]
  cases v with
  | nil => simp
  | cons x s =>
    by_cases hx : isDigit x = true
    · show (if K.digit.has x = true then (if false = true ∧ s = [] then [] else [([], [(1, x :: s)])]) else []).head? = _ ↔ _
      rw [if_pos (by simpa [K.has] using hx), if_neg (by simp), List.head?_cons, Option.some.injEq]
      exact ⟨fun h => ⟨⟨x, s, rfl, hx⟩, h.symm⟩, fun h => h.2.symm⟩
    · show (if K.digit.has x = true then (if false = true ∧ s = [] then [] else [([], [(1, x :: s)])]) else []).head? = _ ↔ _
      rw [if_neg (by simpa [K.has] using hx)]
      constructor
      · intro h; cases h
      · rintro ⟨⟨y, u, e, h⟩, -⟩
        cases e
        exact absurd h hx

/-- The values the first expression takes. -/
def Value (v : Str) : Prop := v = "all".toList ∨ v = "none".toList ∨ ∃ x u, v = x :: u ∧ isDigit x = true

theorem allowed_line {t v : Str} (ht : '\n' ∉ t) {x : Char} {l : List String}
    (h : Spec.Rest l t ("vlan".toList ++ x :: v)) : '\n' ∉ v := by
  obtain ⟨u, gap, rfl, -⟩ := h
  intro hh; exact ht (by simp [hh])

theorem allowed_unique {t v w : Str} (h : Spec.Allowed t v) (h' : Spec.Allowed t w) : v = w := by
  obtain ⟨-, x, -, h⟩ := h
  obtain ⟨-, y, -, h'⟩ := h'
  have := List.append_cancel_left (rest_unique (by decide) h h')
  exact (List.cons.inj this).2

theorem abs_search {t : Str} (ht : '\n' ∉ t) {p : Pat}
    (hp : compile "^\\s+switchport\\s+trunk\\s+allowed\\s+vlan\\s(all|none|\\d.*?)$" = .ok p) :
    (∀ v, Spec.Allowed t v → Value v → ∃ m, search p t = some m ∧ m.group p 1 = .ok (some v)) ∧
    ((∀ v, Spec.Allowed t v → ¬ Value v) → search p t = none) := by
  rw [abs_rx] at hp
  cases hp
  rw [search_bol_run, run_seqs_append]
  have hA : ∀ (E : List Rgx) (p : Prog), (∀ s c, s <:+ t → run t.length (seqs E) s c = run t.length (seqs p.toL) s c) →
      (allowedP p).toL = (allowedP .done).toL ++ p.toL → (allowedP p).wf (fun _ => false) true = true →
      (((run t.length (seqs (allowedP .done).toL) t []).flatMap (fun q => run t.length (seqs E) q.1 q.2)).head? =
        (allowedP p).det t []) := by
    intro E p hE h1 h2
    rw [← head_prog t.length h2, h1, run_seqs_append, List.flatMap_def, List.flatMap_def]
    congr 2
    refine List.map_congr_left fun q hq => ?_
    obtain ⟨w, hw⟩ := lang_suffix _ _ _ _ ((lang_run _ _ _ _ _).mp ⟨q.2, hq⟩)
    exact hE _ _ ⟨w, hw.symm⟩
  have hall := hA [.grp 1 (seqs (str "all".toList .done).toL), .eol] (litP "all".toList) (fun s c _ => rfl) (by decide) (by decide)
  have hnone := hA [.grp 1 (seqs (str "none".toList .done).toL), .eol] (litP "none".toList) (fun s c _ => rfl) (by decide) (by decide)
  have hdig := hA [.grp 1 (.seq (.cls K.digit.cls) (.star false (.cls K.any.cls))), .eol] (restP .digit false)
    (fun s c hs => by
      have : '\n' ∉ s := fun hh => ht (hs.subset hh)
      have := (run_restL t.length false .digit false this c).trans (run_restL t.length true .digit false this c).symm
      exact this) (by decide) (by decide)
  have dall : ∀ q, (allowedP (litP "all".toList)).det t [] = some q ↔ Spec.Allowed t "all".toList ∧ q = ([], [(1, "all".toList)]) := by
    intro q
    rw [allowed_det]
    constructor
    · rintro ⟨h1, x, v, h2, h3, h4⟩
      obtain ⟨rfl, h5⟩ := (lit_det _ _ _ (allowed_line ht h3)).mp h4
      exact ⟨⟨h1, x, h2, h3⟩, h5⟩
    · rintro ⟨⟨h1, x, h2, h3⟩, h5⟩
      exact ⟨h1, x, _, h2, h3, (lit_det _ _ _ (allowed_line ht h3)).mpr ⟨rfl, h5⟩⟩
  have dnone : ∀ q, (allowedP (litP "none".toList)).det t [] = some q ↔ Spec.Allowed t "none".toList ∧ q = ([], [(1, "none".toList)]) := by
    intro q
    rw [allowed_det]
    constructor
    · rintro ⟨h1, x, v, h2, h3, h4⟩
      obtain ⟨rfl, h5⟩ := (lit_det _ _ _ (allowed_line ht h3)).mp h4
      exact ⟨⟨h1, x, h2, h3⟩, h5⟩
    · rintro ⟨⟨h1, x, h2, h3⟩, h5⟩
      exact ⟨h1, x, _, h2, h3, (lit_det _ _ _ (allowed_line ht h3)).mpr ⟨rfl, h5⟩⟩
  have ddig : ∀ q, (allowedP (restP .digit false)).det t [] = some q ↔
      ∃ v, Spec.Allowed t v ∧ (∃ x u, v = x :: u ∧ isDigit x = true) ∧ q = ([], [(1, v)]) := by
    intro q
    rw [allowed_det]
    constructor
    · rintro ⟨h1, x, v, h2, h3, h4⟩
      obtain ⟨h5, h6⟩ := (digits_det (allowed_line ht h3) _).mp h4
      exact ⟨v, ⟨h1, x, h2, h3⟩, h5, h6⟩
    · rintro ⟨v, ⟨h1, x, h2, h3⟩, h5, h6⟩
      exact ⟨h1, x, v, h2, h3, (digits_det (allowed_line ht h3) _).mpr ⟨h5, h6⟩⟩
  have none_of : ∀ {p : Prog}, (∀ q, ¬ (allowedP p).det t [] = some q) → (allowedP p).det t [] = none := by
    intro p h
    cases hd : (allowedP p).det t [] with
    | none => rfl
    | some q => exact absurd hd (h q)
  simp only [run_alts]
  have hsel : ∀ (L : List (Str × Caps)) (f g k h : Str × Caps → List (Str × Caps)), (∀ q ∈ L, f q ++ (g q ++ k q) = h q) →
      L.flatMap (fun q => f q ++ (g q ++ k q)) = L.flatMap h := by
    intro L f g k h hh
    rw [List.flatMap_def, List.flatMap_def, List.map_congr_left hh]
  have hnil : ∀ {E : List Rgx} {p : Prog},
      (((run t.length (seqs (allowedP .done).toL) t []).flatMap (fun q => run t.length (seqs E) q.1 q.2)).head? = (allowedP p).det t []) →
      (∀ q, ¬ (allowedP p).det t [] = some q) → ∀ q ∈ run t.length (seqs (allowedP .done).toL) t [], run t.length (seqs E) q.1 q.2 = [] := by
    intro E p h1 h2
    rw [none_of h2, List.head?_eq_none_iff, List.flatMap_eq_nil_iff] at h1
    exact h1
  constructor
  · rintro v hv hval
    rcases hval with rfl | rfl | hval
    · have n1 := hnil hnone (fun q hq => absurd (allowed_unique hv ((dnone q).mp hq).1) (by decide))
      have n2 := hnil hdig (fun q hq => by
        obtain ⟨w, h1, ⟨x, u, rfl, hx⟩, -⟩ := (ddig q).mp hq
        cases allowed_unique hv h1
        exact absurd hx (by decide))
      rw [hsel _ _ _ _ _ (fun q hq => by rw [n1 q hq, n2 q hq, List.nil_append, List.append_nil]), hall, (dall _).mpr ⟨hv, rfl⟩]
      exact ⟨_, rfl, rfl⟩
    · have n1 := hnil hall (fun q hq => absurd (allowed_unique hv ((dall q).mp hq).1) (by decide))
      have n2 := hnil hdig (fun q hq => by
        obtain ⟨w, h1, ⟨x, u, rfl, hx⟩, -⟩ := (ddig q).mp hq
        cases allowed_unique hv h1
        exact absurd hx (by decide))
      rw [hsel _ _ _ _ _ (fun q hq => by rw [n1 q hq, n2 q hq, List.nil_append, List.append_nil]), hnone, (dnone _).mpr ⟨hv, rfl⟩]
      exact ⟨_, rfl, rfl⟩
    · have hx' := hval
      obtain ⟨x, u, rfl, hx⟩ := hx'
      have n1 := hnil hall (fun q hq => by
        cases allowed_unique hv ((dall q).mp hq).1
        exact absurd hx (by decide))
      have n2 := hnil hnone (fun q hq => by
        cases allowed_unique hv ((dnone q).mp hq).1
        exact absurd hx (by decide))
      rw [hsel _ _ _ _ _ (fun q hq => by rw [n1 q hq, n2 q hq, List.nil_append, List.nil_append]), hdig,
        (ddig _).mpr ⟨_, hv, hval, rfl⟩]
      exact ⟨_, rfl, rfl⟩
  · intro h
    have n1 := hnil hall (fun q hq => h _ ((dall q).mp hq).1 (.inl rfl))
    have n2 := hnil hnone (fun q hq => h _ ((dnone q).mp hq).1 (.inr (.inl rfl)))
    have n3 := hnil hdig (fun q hq => by
      obtain ⟨w, h1, h2, -⟩ := (ddig q).mp hq
      exact h _ h1 (.inr (.inr h2)))
    rw [hsel _ _ _ _ (fun _ => []) (fun q hq => by rw [n1 q hq, n2 q hq, n3 q hq]; rfl)]
    simp

/-! ## The statements of a line -/

theorem abs_stmt {t v : Str} (ht : '\n' ∉ t) (h : Spec.Allowed t v) (hv : Value v) :
    stmtOf t "^\\s+switchport\\s+trunk\\s+allowed\\s+vlan\\s(all|none|\\d.*?)$" = .ok (v.map lowerChar) := by
  obtain ⟨m, h1, h2⟩ := (abs_search ht abs_rx).1 v h hv
  rw [stmtOf, ((C70_match t _ 1 toStr _ _ abs_rx).2 m h1).1 v h2]
  rfl

theorem abs_none {t : Str} (ht : '\n' ∉ t) (h : ∀ v, Spec.Allowed t v → ¬ Value v) :
    stmtOf t "^\\s+switchport\\s+trunk\\s+allowed\\s+vlan\\s(all|none|\\d.*?)$" = .ok "_nomatch_".toList := by
  rw [stmtOf, (C70_match t _ 1 toStr _ _ abs_rx).1 ((abs_search ht abs_rx).2 h)]
  rfl

theorem change_iff {kw : String} (hk : kw ∈ ["add", "except", "remove"]) {t : Str} (ht : '\n' ∉ t) (q : Str × Caps) :
    (lead true (wordsG (gaps true ["switchport", "trunk", "allowed", "vlan", kw]) (restP .digit false))).det t [] = some q ↔
      ∃ v, Spec.Change kw t v ∧ q = ([], [(1, v)]) := by
  rw [rest_det (by simp) (by
    simp only [List.mem_cons, List.not_mem_nil, or_false] at hk
    rcases hk with rfl | rfl | rfl <;> decide) ht]
  constructor
  · rintro ⟨h1, r, h2, ⟨x, u, rfl, hx, -⟩, h3⟩
    exact ⟨_, ⟨h1 rfl, h2, x, u, rfl, hx⟩, h3⟩
  · rintro ⟨v, ⟨h1, h2, x, u, rfl, hx⟩, h3⟩
    exact ⟨fun _ => h1, _, h2, ⟨x, u, rfl, hx, fun h => by cases h⟩, h3⟩

theorem change_stmt {kw : String} (hk : kw ∈ ["add", "except", "remove"]) {t v : Str} (ht : '\n' ∉ t) (h : Spec.Change kw t v) :
    stmtOf t ("^\\s+switchport\\s+trunk\\s+allowed\\s+vlan\\s+" ++ kw ++ "\\s+(\\d.*?)$") = .ok (v.map lowerChar) := by
  have hs := lazy_search (change_rx kw hk) ht
  rw [(change_iff hk ht _).mpr ⟨v, h, rfl⟩] at hs
  rw [stmtOf, ((C70_match t _ 1 toStr _ _ (change_rx kw hk).1).2 _ hs).1 v rfl]
  rfl

theorem change_none {kw : String} (hk : kw ∈ ["add", "except", "remove"]) {t : Str} (ht : '\n' ∉ t) (h : ∀ v, ¬ Spec.Change kw t v) :
    stmtOf t ("^\\s+switchport\\s+trunk\\s+allowed\\s+vlan\\s+" ++ kw ++ "\\s+(\\d.*?)$") = .ok "_nomatch_".toList := by
  have hs := lazy_search (change_rx kw hk) ht
  have hd : (lead true (wordsG (gaps true ["switchport", "trunk", "allowed", "vlan", kw]) (restP .digit false))).det t [] = none := by
    cases hd : (lead true (wordsG (gaps true ["switchport", "trunk", "allowed", "vlan", kw]) (restP .digit false))).det t [] with
    | none => rfl
    | some q =>
      obtain ⟨v, hv, -⟩ := (change_iff hk ht _).mp hd
      exact absurd hv (h v)
  rw [hd] at hs
  rw [stmtOf, (C70_match t _ 1 toStr _ _ (change_rx kw hk).1).1 hs]
  rfl

/-! ## One line -/

theorem allowed_words {t v : Str} (h : Spec.Allowed t v) :
    splitWs t = Spec.wd ["switchport", "trunk", "allowed", "vlan"] ++ splitWs v := by
  obtain ⟨-, x, hx, h⟩ := h
  obtain ⟨h1, h2, -⟩ := (rest_iff (by decide)).mp h
  have h3 := splitWs_skip 3 (lstrip_lstrip t)
  rw [show ["switchport", "trunk", "allowed"].length = 3 from rfl] at h2
  rw [h2, splitWs_lstrip, splitWs_word_rest (isWord_iff.mp (by decide)) (by intro c hc; cases hc; exact hx)] at h3
  have h4 := prefix_append_drop h1
  rw [show (Spec.wd ["switchport", "trunk", "allowed"]).length = 3 from rfl, ← h3] at h4
  rw [h4]
  have h5 : splitWs (x :: v) = splitWs v := by rw [← splitWs_lstrip, lstrip, List.dropWhile_cons_of_pos hx]; exact splitWs_lstrip v
  rw [h5]
  rfl

theorem change_words {kw : String} {t v : Str} (h : Spec.Change kw t v) :
    ∃ more, splitWs t = Spec.wd ["switchport", "trunk", "allowed", "vlan"] ++ kw.toList :: more := by
  obtain ⟨-, h, -⟩ := h
  obtain ⟨more, h1⟩ := ((rest_iff (by simp)).mp h).1
  exact ⟨more, by rw [← h1]; rfl⟩

theorem value_word {v : Str} (hv : Value v) {kw : String} (hk : kw ∈ ["add", "except", "remove"]) {more : List Str} :
    splitWs v ≠ kw.toList :: more := by
  intro e
  rcases hv with rfl | rfl | ⟨x, u, rfl, hx⟩
  · rw [show splitWs "all".toList = ["all".toList] from by decide] at e
    simp only [List.mem_cons, List.not_mem_nil, or_false] at hk
    rcases hk with rfl | rfl | rfl <;> exact absurd (List.cons.inj e).1 (by decide)
  · rw [show splitWs "none".toList = ["none".toList] from by decide] at e
    simp only [List.mem_cons, List.not_mem_nil, or_false] at hk
    rcases hk with rfl | rfl | rfl <;> exact absurd (List.cons.inj e).1 (by decide)
  · obtain ⟨w, rest, e1, e2, -, e4⟩ := split_cons (r := x :: u)
      (List.dropWhile_cons_of_neg (by rw [isDigit_not_space hx]; simp)) (by simp)
    rw [e] at e4
    obtain ⟨y, w, rfl⟩ := List.exists_cons_of_ne_nil e2.1
    cases e1
    simp only [List.mem_cons, List.not_mem_nil, or_false] at hk
    rcases hk with rfl | rfl | rfl <;> cases (List.cons.inj e4).1 <;> exact absurd hx (by decide)

theorem allowed_not_change {t v : Str} (h : Spec.Allowed t v) (hv : Value v) : ∀ kw ∈ ["add", "except", "remove"], ∀ w, ¬ Spec.Change kw t w := by
  intro kw hk w hw
  obtain ⟨more, e⟩ := change_words hw
  rw [allowed_words h] at e
  exact value_word hv hk (List.append_cancel_left e)

theorem change_not_allowed {t v : Str} {kw : String} (hk : kw ∈ ["add", "except", "remove"]) (h : Spec.Change kw t v) :
    ∀ w, Spec.Allowed t w → ¬ Value w :=
  fun _ hw hv => allowed_not_change hw hv kw hk v h

theorem change_kw {t v w : Str} {kw kw' : String} (h : Spec.Change kw t v) (h' : Spec.Change kw' t w) : kw = kw' := by
  obtain ⟨m, e⟩ := change_words h
  obtain ⟨m', e'⟩ := change_words h'
  rw [e] at e'
  exact String.toList_inj.mp (List.cons.inj (List.append_cancel_left e')).1

/-- The step in terms of the four statements. -/
theorem step_of {t a d e m : Str} (r : Range.R)
    (ha : stmtOf t "^\\s+switchport\\s+trunk\\s+allowed\\s+vlan\\s(all|none|\\d.*?)$" = .ok a)
    (hd : stmtOf t ("^\\s+switchport\\s+trunk\\s+allowed\\s+vlan\\s+" ++ "add" ++ "\\s+(\\d.*?)$") = .ok d)
    (he : stmtOf t ("^\\s+switchport\\s+trunk\\s+allowed\\s+vlan\\s+" ++ "except" ++ "\\s+(\\d.*?)$") = .ok e)
    (hm : stmtOf t ("^\\s+switchport\\s+trunk\\s+allowed\\s+vlan\\s+" ++ "remove" ++ "\\s+(\\d.*?)$") = .ok m) :
    trunkStep r t = (do stepRemove m (← stepExcept e (← stepAdd d (← stepAbs a r)))) := by
  rw [show ("^\\s+switchport\\s+trunk\\s+allowed\\s+vlan\\s+" ++ "add" ++ "\\s+(\\d.*?)$") =
    "^\\s+switchport\\s+trunk\\s+allowed\\s+vlan\\s+add\\s+(\\d.*?)$" from by decide +kernel] at hd
  rw [show ("^\\s+switchport\\s+trunk\\s+allowed\\s+vlan\\s+" ++ "except" ++ "\\s+(\\d.*?)$") =
    "^\\s+switchport\\s+trunk\\s+allowed\\s+vlan\\s+except\\s+(\\d.*?)$" from by decide +kernel] at he
  rw [show ("^\\s+switchport\\s+trunk\\s+allowed\\s+vlan\\s+" ++ "remove" ++ "\\s+(\\d.*?)$") =
    "^\\s+switchport\\s+trunk\\s+allowed\\s+vlan\\s+remove\\s+(\\d.*?)$" from by decide +kernel] at hm
  rw [trunkStep, ha, hd, he, hm]
  rfl

theorem ok_bind {α β : Type} (x : α) (f : α → Except Err β) : (Except.ok x >>= f) = f x := rfl
theorem error_bind {α β : Type} (e : Err) (f : α → Except Err β) : (Except.error e >>= f) = .error e := rfl

theorem abs_no (r : Range.R) : stepAbs "_nomatch_".toList r = .ok r := by rw [stepAbs, if_pos rfl]
theorem add_no (r : Range.R) : stepAdd "_nomatch_".toList r = .ok r := by rw [stepAdd, if_pos rfl]
theorem except_no (r : Range.R) : stepExcept "_nomatch_".toList r = .ok r := by rw [stepExcept, if_pos rfl]
theorem remove_no (r : Range.R) : stepRemove "_nomatch_".toList r = .ok r := by rw [stepRemove, if_pos rfl]

theorem step_abs {t v : Str} (ht : '\n' ∉ t) (h : Spec.Allowed t v) (hv : Value v) (r : Range.R) :
    trunkStep r t = stepAbs (v.map lowerChar) r := by
  have hc := allowed_not_change h hv
  rw [step_of r (abs_stmt ht h hv) (change_none (by decide) ht (hc _ (by decide))) (change_none (by decide) ht (hc _ (by decide)))
    (change_none (by decide) ht (hc _ (by decide)))]
  generalize stepAbs (v.map lowerChar) r = z
  cases z with
  | error e => rfl
  | ok r => rw [ok_bind, add_no, ok_bind, except_no, ok_bind, remove_no]

theorem step_other {t : Str} (ht : '\n' ∉ t) (h : ¬ Spec.wd ["switchport", "trunk", "allowed"] <+: splitWs t) (r : Range.R) :
    trunkStep r t = .ok r := by
  have hc : ∀ kw w, ¬ Spec.Change kw t w := fun kw w hw => h (by
    obtain ⟨more, e⟩ := change_words hw
    rw [e]; exact ⟨"vlan".toList :: kw.toList :: more, rfl⟩)
  have ha : ∀ v, Spec.Allowed t v → ¬ Value v := fun v hv _ => h (by
    rw [allowed_words hv]; exact ⟨"vlan".toList :: splitWs v, rfl⟩)
  rw [step_of r (abs_none ht ha) (change_none (by decide) ht (hc _)) (change_none (by decide) ht (hc _))
    (change_none (by decide) ht (hc _))]
  rw [abs_no, ok_bind, add_no, ok_bind, except_no, ok_bind, remove_no]

theorem nomatch_ne {v : Str} (h : ∃ x u, v = x :: u ∧ isDigit x = true) : v.map lowerChar ≠ "_nomatch_".toList := by
  obtain ⟨x, u, rfl, hx⟩ := h
  intro e
  have e1 := (List.cons.inj (e : lowerChar x :: u.map lowerChar = '_' :: "nomatch_".toList)).1
  have : lowerChar x = x := by
    rw [isDigit, Bool.and_eq_true, decide_eq_true_eq, decide_eq_true_eq] at hx
    rw [lowerChar, if_neg (by omega)]
  rw [this] at e1
  subst e1
  exact absurd hx (by decide)

theorem step_add {t v : Str} (ht : '\n' ∉ t) (h : Spec.Change "add" t v) (r : Range.R) :
    trunkStep r t = r.append (.str (v.map lowerChar)) := by
  have hne : ∀ kw, kw ≠ "add" → ∀ w, ¬ Spec.Change kw t w := fun kw hkw w hw => hkw (change_kw hw h)
  rw [step_of r (abs_none ht (change_not_allowed (by decide) h)) (change_stmt (by decide) ht h) (change_none (by decide) ht (hne _ (by decide)))
    (change_none (by decide) ht (hne _ (by decide)))]
  rw [abs_no, ok_bind, show stepAdd (v.map lowerChar) r = r.append (.str (v.map lowerChar)) from by
    rw [stepAdd, if_neg (nomatch_ne h.2.2)]]
  generalize r.append (.str (v.map lowerChar)) = z
  cases z with
  | error e => rfl
  | ok r => rw [ok_bind, except_no, ok_bind, remove_no]

theorem step_except {t v : Str} (ht : '\n' ∉ t) (h : Spec.Change "except" t v) (r : Range.R) :
    trunkStep r t = (do (← allVlans).remove (.str (v.map lowerChar))) := by
  have hne : ∀ kw, kw ≠ "except" → ∀ w, ¬ Spec.Change kw t w := fun kw hkw w hw => hkw (change_kw hw h)
  rw [step_of r (abs_none ht (change_not_allowed (by decide) h)) (change_none (by decide) ht (hne _ (by decide))) (change_stmt (by decide) ht h)
    (change_none (by decide) ht (hne _ (by decide)))]
  rw [abs_no, ok_bind, add_no, ok_bind, show stepExcept (v.map lowerChar) r = (do (← allVlans).remove (.str (v.map lowerChar))) from by
    rw [stepExcept, if_neg (nomatch_ne h.2.2)]]
  generalize (do (← allVlans).remove (.str (v.map lowerChar))) = z
  cases z with
  | error e => rfl
  | ok r => rw [ok_bind, remove_no]

theorem step_remove {t v : Str} (ht : '\n' ∉ t) (h : Spec.Change "remove" t v) (r : Range.R) :
    trunkStep r t = r.remove (.str (v.map lowerChar)) := by
  have hne : ∀ kw, kw ≠ "remove" → ∀ w, ¬ Spec.Change kw t w := fun kw hkw w hw => hkw (change_kw hw h)
  rw [step_of r (abs_none ht (change_not_allowed (by decide) h)) (change_none (by decide) ht (hne _ (by decide)))
    (change_none (by decide) ht (hne _ (by decide))) (change_stmt (by decide) ht h)]
  rw [abs_no, ok_bind, add_no, ok_bind, except_no, ok_bind, stepRemove, if_neg (nomatch_ne h.2.2)]

/-! ## Ranges -/

theorem allVlans_spec : ∃ r, allVlans = .ok r ∧ ∀ x, x ∈ r.lst ↔ Spec.Vlans x := by
  have key : ∀ (a b t : Str), allDigits a = true → allDigits b = true → a ++ '-' :: b = t →
      ∃ r, Range.ofText t = .ok r ∧ ∀ x, x ∈ r.lst ↔ (natVal a : Int) ≤ x ∧ x ≤ natVal b := by
    intro a b t ha hb e
    obtain ⟨r, h1, -, h2⟩ := Range.C09_expand [.span [] a [] [] b []] (by simp) (by
      intro i hi
      rw [List.mem_singleton] at hi
      subst hi
      exact ⟨by simp [Range.allSpace], ha, by simp [Range.allSpace], by simp [Range.allSpace], hb, by simp [Range.allSpace]⟩)
    have e' : join [','] ([Range.Item.span [] a [] [] b []].map Range.Item.text) = t := by
      rw [← e]; simp [join, Range.Item.text]
    rw [e'] at h1
    refine ⟨r, h1, fun x => (h2 x).trans ?_⟩
    simp [Range.Item.denotes]
  obtain ⟨r, h1, h2⟩ := key "1".toList "4094".toList "1-4094".toList (by decide) (by decide) (by decide)
  refine ⟨r, by rw [allVlans, h1], fun x => ?_⟩
  have e1 : (natVal "1".toList : Int) = 1 := by decide
  have e2 : natVal "4094".toList = 4094 := by decide +kernel
  rw [h2, e1, e2]
  rfl

theorem lower_plain {v : Str} (h : ∀ c ∈ v, isSpace c = true ∨ isDigit c = true ∨ c = ',' ∨ c = '-') : v.map lowerChar = v := by
  have : ∀ c ∈ v, lowerChar c = id c := by
    intro c hc
    rw [lowerChar, if_neg]
    · rfl
    · rintro ⟨h1, h2⟩
      rcases h c hc with hs | hd | rfl | rfl
      · simp only [isSpace, Bool.or_eq_true, Bool.and_eq_true, decide_eq_true_eq, beq_iff_eq] at hs; omega
      · simp only [isDigit, Bool.and_eq_true, decide_eq_true_eq] at hd; omega
      · exact absurd h1 (by decide)
      · exact absurd h1 (by decide)
  rw [List.map_congr_left this, List.map_id]

theorem mem_join {c s : Char} {l : List Str} (h : c ∈ join [s] l) : c = s ∨ ∃ w ∈ l, c ∈ w := by
  induction l with
  | nil => simp [join] at h
  | cons w l ih =>
    cases l with
    | nil => exact .inr ⟨w, by simp, h⟩
    | cons u l =>
      simp only [join, List.mem_append, List.mem_singleton] at h
      rcases h with (h | h) | h
      · exact .inr ⟨w, by simp, h⟩
      · exact .inl h
      · rcases ih h with h | ⟨x, hx, h⟩
        · exact .inl h
        · exact .inr ⟨x, List.mem_cons_of_mem _ hx, h⟩

theorem lower_items {items : List Range.Item} (hv : ∀ i ∈ items, i.Valid) :
    (join [','] (items.map Range.Item.text)).map lowerChar = join [','] (items.map Range.Item.text) := by
  apply lower_plain
  intro c hc
  rcases mem_join hc with rfl | ⟨w, hw, hc⟩
  · simp
  · obtain ⟨i, hi, rfl⟩ := List.mem_map.mp hw
    have := hv i hi
    have hd : ∀ {d : Str}, allDigits d = true → c ∈ d → isDigit c = true := fun h hc => allDigits_mem h c hc
    cases i with
    | single w1 d w2 =>
      obtain ⟨h1, h2, h3⟩ := this
      simp only [Range.Item.text, List.mem_append] at hc
      rcases hc with (hc | hc) | hc
      · exact .inl (h1 c hc)
      · exact .inr (.inl (hd h2 hc))
      · exact .inl (h3 c hc)
    | span w1 d1 w2 w3 d2 w4 =>
      obtain ⟨h1, h2, h3, h4, h5, h6⟩ := this
      simp only [Range.Item.text, List.mem_append, List.mem_cons] at hc
      rcases hc with ((hc | hc) | hc) | hc | (hc | hc) | hc
      · exact .inl (h1 c hc)
      · exact .inr (.inl (hd h2 hc))
      · exact .inl (h3 c hc)
      · exact .inr (.inr (.inr hc))
      · exact .inl (h4 c hc)
      · exact .inr (.inl (hd h5 hc))
      · exact .inl (h6 c hc)

theorem lower_digits {d : Str} (h : Spec.Digits d) : d.map lowerChar = d :=
  lower_plain (fun c hc => .inr (.inl (h.2 c hc)))

theorem remove_text {r : Range.R} {d : Str} (hd : Spec.Digits d) (h : (natVal d : Int) ∈ r.lst) :
    ∃ r', r.remove (.str d) = .ok r' ∧ ∀ x, x ∈ r'.lst ↔ x ∈ r.lst ∧ x ≠ natVal d := by
  have h1 := Range.remove_old h
  refine ⟨{ r with lst := r.lst.filter (fun x => x != (natVal d : Int)) }, ?_, fun x => by simp⟩
  rw [← h1, Range.R.remove, Range.R.remove]
  simp only [Bool.and_false, Bool.false_eq_true, if_false, Range.Val.toInt, pyInt_digits (allDigits_of hd)]

theorem abs_all (r : Range.R) : stepAbs ("all".toList.map lowerChar) r = allVlans := by
  rw [show "all".toList.map lowerChar = "all".toList from by decide, stepAbs, if_neg (by decide), if_pos rfl]

theorem trunk_eq {i : Nat} (hs : isSwitchport P i = .ok true) (ha : hasManualSwitchAccess P i = .ok false) {r0 : Range.R}
    (h : allVlans = .ok r0) : trunkVlansAllowed P i = ((Spec.kids P i).foldlM trunkStep r0).map some := by
  rw [trunkVlansAllowed, hs, ha]
  rw [ok_bind, ok_bind, if_pos (by decide), h, ok_bind, childTexts_kids]
  generalize (Spec.kids P i).foldlM trunkStep r0 = z
  cases z <;> rfl

/-- One line does what it says. -/
theorem step_spec {t : Str} (ht : '\n' ∉ t) {S S' : Int → Prop} (h : Spec.Step t S S') {r : Range.R} (hr : ∀ x, x ∈ r.lst ↔ S x) :
    ∃ r', trunkStep r t = .ok r' ∧ ∀ x, x ∈ r'.lst ↔ S' x := by
  cases h with
  | other h => exact ⟨r, step_other ht h r, hr⟩
  | all h =>
    obtain ⟨r', h1, h2⟩ := allVlans_spec
    exact ⟨r', by rw [step_abs ht h (.inl rfl), abs_all, h1], h2⟩
  | none h => exact ⟨⟨[], false⟩, by rw [step_abs ht h (.inr (.inl rfl))]; rfl, by simp⟩
  | list items hv hx h =>
    have hne : items ≠ [] := by
      rintro rfl
      obtain ⟨x, u, e, -⟩ := hx
      cases e
    obtain ⟨r', h1, -, h2⟩ := Range.C09_expand items hne hv
    refine ⟨r', ?_, h2⟩
    have n1 := nomatch_ne hx
    rw [step_abs ht h (.inr (.inr hx)), stepAbs, if_neg n1]
    rw [lower_items hv]
    obtain ⟨x, u, e, hx⟩ := hx
    rw [if_neg, if_neg]
    · exact h1
    · rw [e]; intro e'; cases e'; exact absurd hx (by decide)
    · rw [e]; intro e'; cases e'; exact absurd hx (by decide)
  | except hd h hv =>
    obtain ⟨r', h1, h2⟩ := allVlans_spec
    obtain ⟨r'', h3, h4⟩ := remove_text hd ((h2 _).mpr hv)
    refine ⟨r'', ?_, fun x => by rw [h4, h2]⟩
    rw [step_except ht h, h1, lower_digits hd, ok_bind, h3]
  | remove hd h hv =>
    obtain ⟨r'', h3, h4⟩ := remove_text hd ((hr _).mpr hv)
    refine ⟨r'', ?_, fun x => by rw [h4, hr]⟩
    rw [step_remove ht h, lower_digits hd]
    exact h3
  | @add d hd h he =>
    have h0 : r.lst = [] := List.eq_nil_iff_forall_not_mem.mpr (fun x hx => he x ((hr x).mp hx))
    refine ⟨{ r with lst := [(natVal d : Int)] }, ?_, by simp⟩
    rw [step_add ht h, lower_digits hd, Range.R.append]
    simp only [h0, List.length_nil, Range.Val.isIn, Range.Val.toInt, pyInt_digits (allDigits_of hd)]
    rfl

theorem steps_spec {ts : List Str} (ht : ∀ t ∈ ts, '\n' ∉ t) {S S' : Int → Prop} (h : Spec.Steps ts S S') :
    ∀ {r : Range.R}, (∀ x, x ∈ r.lst ↔ S x) → ∃ r', ts.foldlM trunkStep r = .ok r' ∧ ∀ x, x ∈ r'.lst ↔ S' x := by
  induction h with
  | nil => intro r hr; exact ⟨r, rfl, hr⟩
  | cons h _ ih =>
    intro r hr
    obtain ⟨r1, h1, h2⟩ := step_spec (ht _ (by simp)) h hr
    obtain ⟨r2, h3, h4⟩ := ih (fun t hh => ht t (by simp [hh])) h2
    exact ⟨r2, by rw [List.foldlM_cons, h1]; exact h3, h4⟩

/-! ## Properties -/

/-- C143: the VLANs of a trunk are what its lines say, one after the other, beginning with all. -/
theorem C143_trunk_partial (h : parse o lines = .ok P) (hn : ∀ l ∈ lines, '\n' ∉ l) (i : Nat) (hs : isSwitchport P i = .ok true)
    (ha : hasManualSwitchAccess P i = .ok false) {S : Int → Prop} (hS : Spec.Steps (Spec.kids P i) Spec.Vlans S) :
    ∃ r, trunkVlansAllowed P i = .ok (some r) ∧ ∀ x, x ∈ r.lst ↔ S x := by
  obtain ⟨r0, h1, h2⟩ := allVlans_spec
  obtain ⟨r, h3, h4⟩ := steps_spec (fun t ht hh => (kids_line h hn i t ht).1 hh) hS h2
  refine ⟨r, ?_, h4⟩
  rw [trunk_eq hs ha h1, h3]
  rfl

/-- C143: an interface that is no switchport, or an access port, has no trunk. -/
theorem C143_none {i : Nat} {s a : Bool} (hs : isSwitchport P i = .ok s) (ha : hasManualSwitchAccess P i = .ok a)
    (hno : s = false ∨ a = true) : trunkVlansAllowed P i = .ok none := by
  rw [trunkVlansAllowed, hs, ha]
  rw [ok_bind, ok_bind, if_neg]
  rcases hno with rfl | rfl <;> simp

theorem not_number {v : Str} (hv : ∃ x u, v = x :: u ∧ isDigit x = true) {c : Char} (hc : c = ',' ∨ c = '-') (h : c ∈ v) :
    pyInt (v.map lowerChar) = .error .valueError := by
  obtain ⟨x, u, rfl, hx⟩ := hv
  have hlow : lowerChar x = x := by
    rw [isDigit, Bool.and_eq_true, decide_eq_true_eq, decide_eq_true_eq] at hx
    rw [lowerChar, if_neg (by omega)]
  have hc' : c ∈ (x :: u).map lowerChar := by
    refine List.mem_map.mpr ⟨c, h, ?_⟩
    rcases hc with rfl | rfl <;> decide
  have hcs : isSpace c = false := by rcases hc with rfl | rfl <;> decide
  rw [List.map_cons, hlow] at hc' ⊢
  generalize u.map lowerChar = u at hc'
  have hm : c ∈ strip (x :: u) := (Conf.mem_strip_iff hcs _).mpr hc'
  have hcd : isDigit c = false ∧ c ≠ '_' := by rcases hc with rfl | rfl <;> decide
  have hu : ∀ s : Str, c ∈ s → unsignedLit s = none := by
    intro s hs
    rw [unsignedLit, if_neg]
    intro ha
    have key : ∀ s : Str, c ∈ s → ∃ p ∈ splitOn '_' s, c ∈ p := by
      intro s
      induction s with
      | nil => intro h; cases h
      | cons y s ih =>
        intro hs
        rw [splitOn]
        by_cases hy : y = '_'
        · rw [if_pos hy]
          rcases List.mem_cons.mp hs with e | hs
          · exact absurd (e.trans hy) hcd.2
          · obtain ⟨p, h1, h2⟩ := ih hs
            exact ⟨p, by simp [h1], h2⟩
        · rw [if_neg hy]
          cases hp : splitOn '_' s with
          | nil => exact absurd hp (splitOn_ne_nil _ _)
          | cons p ps =>
            simp only
            rcases List.mem_cons.mp hs with rfl | hs
            · exact ⟨_, List.mem_cons_self, List.mem_cons_self⟩
            · obtain ⟨p', h1, h2⟩ := ih hs
              rw [hp] at h1
              rcases List.mem_cons.mp h1 with rfl | h1
              · exact ⟨y :: p', List.mem_cons_self, List.mem_cons_of_mem _ h2⟩
              · exact ⟨p', by simp [h1], h2⟩
    obtain ⟨p, h1, h2⟩ := key s hs
    have := allDigits_mem (List.all_eq_true.mp ha p h1) c h2
    rw [hcd.1] at this
    cases this
  have hhead : ∀ y s, strip (x :: u) = y :: s → y = x := by
    intro y s e
    rw [strip] at e
    cases hr : rstrip (x :: u) with
    | nil => rw [hr] at e; cases e
    | cons z w =>
      have hp := rstrip_prefix (x :: u)
      rw [hr, List.cons_prefix_cons] at hp
      rw [hr, hp.1, lstrip, List.dropWhile_cons_of_neg (by rw [isDigit_not_space hx]; simp)] at e
      exact (List.cons.inj e).1.symm
  unfold pyInt
  cases hs : strip (x :: u) with
  | nil => rfl
  | cons y s =>
    have := hhead y s hs
    subst this
    have h1 : y ≠ '-' := by rintro rfl; exact absurd hx (by decide)
    have h2 : y ≠ '+' := by rintro rfl; exact absurd hx (by decide)
    simp only [if_neg h1, if_neg h2, hu _ (hs ▸ hm)]

/-- C143 fails for `add`: once the set of VLANs is not empty, as it is in the beginning, a line
`switchport trunk allowed vlan add V` raises an exception. -/
theorem C143_add_fails (h : parse o lines = .ok P) (hn : ∀ l ∈ lines, '\n' ∉ l) (i : Nat) (hs : isSwitchport P i = .ok true)
    (ha : hasManualSwitchAccess P i = .ok false) {ts us : List Str} {t v : Str} {S : Int → Prop} (hk : Spec.kids P i = ts ++ t :: us)
    (hS : Spec.Steps ts Spec.Vlans S) (hx : ∃ x, S x) (ht : Spec.Change "add" t v) :
    trunkVlansAllowed P i = .error .mismatchedType := by
  have hl := kids_line h hn i
  rw [hk] at hl
  obtain ⟨r0, h1, h2⟩ := allVlans_spec
  obtain ⟨r, h3, h4⟩ := steps_spec (fun t ht hh => (hl t (by simp [ht])).1 hh) hS h2
  have e : ∀ {err}, trunkStep r t = .error err → trunkVlansAllowed P i = .error err := by
    intro err he
    rw [trunk_eq hs ha h1, hk, List.foldlM_append, h3, ok_bind, List.foldlM_cons, he, error_bind]
    rfl
  obtain ⟨x, hx⟩ := hx
  have hpos : 0 < r.lst.length := List.length_pos_iff.mpr (List.ne_nil_of_mem ((h4 x).mpr hx))
  apply e
  rw [step_add (fun hh => (hl t (by simp)).1 hh) ht, Range.R.append]
  simp only [Range.Val.isInt, hpos, decide_true, Bool.not_false, Bool.and_self, if_true]

/-- C143 fails for `except` and `remove` with more than one VLAN: a line whose text has a comma or a
hyphen raises an exception. -/
theorem C143_list_fails (h : parse o lines = .ok P) (hn : ∀ l ∈ lines, '\n' ∉ l) (i : Nat) (hs : isSwitchport P i = .ok true)
    (ha : hasManualSwitchAccess P i = .ok false) {ts us : List Str} {t v : Str} {S : Int → Prop} (hk : Spec.kids P i = ts ++ t :: us)
    (hS : Spec.Steps ts Spec.Vlans S) (hx : ∃ x, S x) (ht : Spec.Change "except" t v ∨ Spec.Change "remove" t v)
    (hv : ',' ∈ v ∨ '-' ∈ v) :
    trunkVlansAllowed P i = .error .valueError := by
  have hl := kids_line h hn i
  rw [hk] at hl
  obtain ⟨r0, h1, h2⟩ := allVlans_spec
  obtain ⟨r, h3, h4⟩ := steps_spec (fun t ht hh => (hl t (by simp [ht])).1 hh) hS h2
  have e : ∀ {err}, trunkStep r t = .error err → trunkVlansAllowed P i = .error err := by
    intro err he
    rw [trunk_eq hs ha h1, hk, List.foldlM_append, h3, ok_bind, List.foldlM_cons, he, error_bind]
    rfl
  obtain ⟨x, hx⟩ := hx
  have hd : ∃ x u, v = x :: u ∧ isDigit x = true := by rcases ht with ht | ht <;> exact ht.2.2
  have hi : pyInt (v.map lowerChar) = .error .valueError := by
    rcases hv with hv | hv
    · exact not_number hd (.inl rfl) hv
    · exact not_number hd (.inr rfl) hv
  have hrem : ∀ {r : Range.R} {x : Int}, x ∈ r.lst → r.remove (.str (v.map lowerChar)) = .error .valueError := by
    intro r x hx
    have hpos : r.lst.length > 0 := List.length_pos_iff.mpr (List.ne_nil_of_mem hx)
    rw [Range.R.remove]
    simp only [Bool.and_false, Bool.false_eq_true, if_false, hpos, if_true, Range.Val.toInt, hi]
  have hstep : trunkStep r t = .error .valueError := by
    rcases ht with ht | ht
    · rw [step_except (fun hh => (hl t (by simp)).1 hh) ht, h1, ok_bind]
      exact hrem ((h2 1).mpr (by constructor <;> decide))
    · rw [step_remove (fun hh => (hl t (by simp)).1 hh) ht]
      exact hrem ((h4 x).mpr hx)
  exact e hstep

/-- Three trunks and an access port. -/
def trunkLines : List Str :=
  ["interface Ethernet1/1", " switchport", " switchport mode trunk", " switchport trunk allowed vlan 5,7-9",
    " switchport trunk allowed vlan remove 8", "interface Ethernet1/2", " switchport", " switchport trunk allowed vlan add 7",
    "interface Ethernet1/3", " switchport mode access", "interface Ethernet1/4", " switchport trunk allowed vlan except 3-5"].map String.toList

theorem rest_of {pre : List String} (hp : pre ≠ []) {t r : Str}
    (h : (Spec.wd pre).isPrefixOf (splitWs t) = true ∧ skip pre.length (lstrip t) = r ∧ r ≠ []) : Spec.Rest pre t r :=
  (rest_iff hp).mpr ⟨List.isPrefixOf_iff_prefix.mp h.1, h.2⟩

theorem change_of {kw : String} {t v : Str} (h : Spec.Indented t) (hr : (Spec.wd ["switchport", "trunk", "allowed", "vlan", kw]).isPrefixOf (splitWs t) = true ∧
    skip 5 (lstrip t) = v ∧ v ≠ []) (hv : ∃ x u, v = x :: u ∧ isDigit x = true) : Spec.Change kw t v :=
  ⟨h, rest_of (by simp) hr, hv⟩

example : Spec.Steps [" switchport".toList, " switchport mode trunk".toList, " switchport trunk allowed vlan 5,7-9".toList,
      " switchport trunk allowed vlan remove 8".toList] Spec.Vlans
    (fun x => (∃ i ∈ [Range.Item.single [] "5".toList [], .span [] "7".toList [] [] "9".toList []], i.denotes x) ∧ x ≠ natVal "8".toList) := by
  refine .cons (.other (by decide)) (.cons (.other (by decide)) (.cons (.list _ ?_ ⟨'5', ",7-9".toList, by decide, by decide⟩ ?_)
    (.cons (.remove ⟨by decide, by decide⟩ (change_of ⟨' ', by decide⟩ (by decide) ⟨'8', [], by decide, by decide⟩) ?_) .nil)))
  · intro i hi
    simp only [List.mem_cons, List.not_mem_nil, or_false] at hi
    rcases hi with rfl | rfl
    · exact ⟨by simp [Range.allSpace], by decide, by simp [Range.allSpace]⟩
    · exact ⟨by simp [Range.allSpace], by decide, by simp [Range.allSpace], by simp [Range.allSpace], by decide, by simp [Range.allSpace]⟩
  · exact ⟨⟨' ', by decide⟩, ' ', by decide, rest_of (by decide) (by decide)⟩
  · exact ⟨_, List.mem_cons_of_mem _ List.mem_cons_self, by decide, by decide⟩

example : shows trunkLines (fun P => isSwitchport P 0 == .ok true && hasManualSwitchAccess P 0 == .ok false &&
    decide (Spec.kids P 0 = (trunkLines.drop 1).take 4) && isSwitchport P 8 == .ok true && hasManualSwitchAccess P 8 == .ok true &&
    isSwitchport P 5 == .ok true && hasManualSwitchAccess P 5 == .ok false) = true := by
  decide +kernel

example : Spec.Change "add" " switchport trunk allowed vlan add 7".toList "7".toList :=
  change_of ⟨' ', by decide⟩ (by decide) ⟨'7', [], by decide, by decide⟩

example : Spec.Change "except" " switchport trunk allowed vlan except 3-5".toList "3-5".toList :=
  change_of ⟨' ', by decide⟩ (by decide) ⟨'3', "-5".toList, by decide, by decide⟩

end Nxos

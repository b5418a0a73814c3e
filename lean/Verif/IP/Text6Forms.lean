import Verif.IP.Text6Lemmas
import Verif.IP.Spec6

/-! # Lemmas: reading and writing the texts of IPv6 addresses -/

namespace IP

open Py Re

/-! ## Reading -/

theorem hexDigits_facts : ∀ d ∈ hexDigits, isHex d.1 = true ∧ hexDigit d.1 = some d.2 ∧ d.1 ≠ ':' ∧ d.1 ≠ '.' ∧ isSpace d.1 = false ∧ d.2 < 16 := by
  decide +kernel

theorem Group.Valid.grp {g : Group} (h : g.Valid) : Grp g.text := by
  obtain ⟨h1, h2, h3⟩ := h
  refine ⟨by simpa [Group.text] using h1, by simpa [Group.text] using h2, ?_⟩
  intro c hc
  obtain ⟨d, hd, rfl⟩ := List.mem_map.mp hc
  exact (hexDigits_facts d (h3 d hd)).1

theorem Group.Valid.chars {g : Group} (h : g.Valid) : ∀ c ∈ g.text, c ≠ ':' ∧ c ≠ '.' ∧ isSpace c = false := by
  intro c hc
  obtain ⟨d, hd, rfl⟩ := List.mem_map.mp hc
  have := hexDigits_facts d (h.2.2 d hd)
  exact ⟨this.2.2.1, this.2.2.2.1, this.2.2.2.2.1⟩

theorem hexNat_group : ∀ (g : Group) (acc : Nat), (∀ d ∈ g, d ∈ hexDigits) → hexNat g.text acc = some (g.foldl (fun a d => 16 * a + d.2) acc)
  | [], _, _ => rfl
  | d :: g, acc, h => by
    have hd := (hexDigits_facts d (h d (by simp))).2.1
    show hexNat (d.1 :: Group.text g) acc = _
    rw [hexNat, hd]
    simp only
    rw [hexNat_group g _ (fun d hd => h d (by simp [hd])), List.foldl_cons, Nat.mul_comm acc 16]

theorem parseHextet_group {g : Group} (h : g.Valid) : parseHextet g.text = .ok g.val := by
  have hl : g.text.length = g.length := List.length_map _
  have h1 : ¬ (4 < g.text.length ∨ g.text = []) := by
    rintro (h' | h')
    · have := h.2.1; omega
    · exact h.grp.1 h'
  rw [parseHextet, if_neg h1, hexNat_group g 0 h.2.2]
  rfl

theorem parseHextets_groups : ∀ (gs : List Group) (acc : Nat), (∀ g ∈ gs, g.Valid) →
    parseHextets (gs.map Group.text) acc = .ok (gs.foldl (fun a g => 65536 * a + g.val) acc)
  | [], _, _ => rfl
  | g :: gs, acc, h => by
    rw [List.map_cons, parseHextets, parseHextet_group (h g (by simp))]
    show parseHextets (gs.map Group.text) (acc * 65536 + g.val) = _
    rw [parseHextets_groups gs _ (fun g hg => h g (by simp [hg])), List.foldl_cons, Nat.mul_comm acc 65536]

theorem foldl_acc (gs : List Group) (a : Nat) : gs.foldl (fun a g => 65536 * a + g.val) a = a * 65536 ^ gs.length + valOf gs := by
  induction gs generalizing a with
  | nil => simp [valOf]
  | cons g gs ih =>
    rw [valOf, List.foldl_cons, List.foldl_cons, ih, ih (65536 * 0 + g.val), List.length_cons, Nat.pow_succ]
    simp only [Nat.mul_zero, Nat.zero_add, Nat.add_mul]
    rw [show 65536 * a * 65536 ^ gs.length = a * (65536 ^ gs.length * 65536) by rw [Nat.mul_comm 65536 a, Nat.mul_assoc, Nat.mul_comm 65536]]
    omega

theorem join_append {s : Str} {a b : List Str} (ha : a ≠ []) (hb : b ≠ []) : join s (a ++ b) = join s a ++ s ++ join s b := by
  induction a with
  | nil => exact absurd rfl ha
  | cons x a ih =>
    cases a with
    | nil =>
      cases b with
      | nil => exact absurd rfl hb
      | cons y b => rfl
    | cons x' a =>
      have := ih (by simp)
      rw [List.cons_append, List.cons_append, join, ← List.cons_append, this, join]
      simp

/-- The parts of a short text between its colons. -/
def shortParts (hs ls : List Str) : List Str := (if hs = [] then [[]] else hs) ++ [] :: (if ls = [] then [[]] else ls)

theorem short_join (hs ls : List Str) : join [':'] hs ++ "::".toList ++ join [':'] ls = join [':'] (shortParts hs ls) := by
  have e : "::".toList = [':', ':'] := by decide +kernel
  rw [e, shortParts]
  by_cases h1 : hs = [] <;> by_cases h2 : ls = []
  · subst h1 h2; rfl
  · subst h1
    rw [if_pos rfl, if_neg h2]
    obtain ⟨y, ls, rfl⟩ := List.exists_cons_of_ne_nil h2
    rfl
  · subst h2
    rw [if_pos rfl, if_neg h1, join_append h1 (by simp)]
    simp [join]
  · rw [if_neg h1, if_neg h2, join_append h1 (by simp)]
    obtain ⟨y, ls, rfl⟩ := List.exists_cons_of_ne_nil h2
    simp [join]

theorem filter_range_one (n k : Nat) (p : Nat → Bool) (hk : k < n) (hp : ∀ i, i < n → p i = decide (i = k)) : (List.range n).filter p = [k] := by
  have key : ∀ m, (∀ i, i < m → p i = decide (i = k)) → (List.range m).filter p = if k < m then [k] else [] := by
    intro m
    induction m with
    | zero => intro _; rfl
    | succ m ih =>
      intro h
      rw [List.range_succ, List.filter_append, ih (fun i hi => h i (by omega)), List.filter_cons, List.filter_nil, h m (by omega)]
      by_cases e : m = k
      · subst e; simp
      · by_cases e' : k < m
        · have e2 : k < m + 1 := by omega
          simp [e, e', e2]
        · have e2 : ¬ k < m + 1 := by omega
          simp only [e, e', e2, decide_false, if_false, Bool.false_eq_true, List.append_nil]
  rw [key n hp, if_pos hk]

theorem expandQuad_no {parts : List Str} (h : '.' ∉ parts.getLast?.getD []) : expandQuad parts = .ok parts := by
  rw [expandQuad]
  rw [if_neg h]

theorem parseParts_full {gs : List Group} (hl : gs.length = 8) (hg : ∀ g ∈ gs, g.Valid) : parseParts (gs.map Group.text) = .ok (valOf gs) := by
  have hlen : (gs.map Group.text).length = 8 := by rw [List.length_map, hl]
  have hf : (List.range (gs.map Group.text).length).filter
      (fun i => decide (1 ≤ i ∧ i + 1 < (gs.map Group.text).length) && (gs.map Group.text)[i]? == some []) = [] := by
    rw [List.filter_eq_nil_iff]
    intro i _ h
    simp only [Bool.and_eq_true, beq_iff_eq] at h
    obtain ⟨g, hgm, e⟩ := List.mem_map.mp (List.mem_of_getElem? h.2)
    exact (hg g hgm).grp.1 e
  rw [parseParts, if_neg (by omega), hf]
  simp only
  rw [if_neg (by omega), parseHextets_groups gs 0 hg, valOf]

theorem parse6_full {gs : List Group} (hl : gs.length = 8) (hg : ∀ g ∈ gs, g.Valid) : parse6 (colons gs) = .ok (valOf gs) := by
  have hne : gs.map Group.text ≠ [] := by intro e; rw [List.map_eq_nil_iff] at e; rw [e] at hl; cases hl
  have hsp : splitOn ':' (colons gs) = gs.map Group.text := by
    refine splitOn_join ':' _ hne ?_
    intro p hp hc
    obtain ⟨g, hgm, rfl⟩ := List.mem_map.mp hp
    exact ((hg g hgm).chars _ hc).1 rfl
  have hlen : (gs.map Group.text).length = 8 := by rw [List.length_map, hl]
  have hdot : '.' ∉ (gs.map Group.text).getLast?.getD [] := by
    rw [List.getLast?_eq_some_getLast hne, Option.getD_some]
    intro hc
    obtain ⟨g, hgm, e⟩ := List.mem_map.mp (List.getLast_mem hne)
    rw [← e] at hc
    exact ((hg g hgm).chars _ hc).2.1 rfl
  rw [parse6]
  simp only [hsp]
  rw [if_neg (by omega), expandQuad_no hdot]
  exact parseParts_full hl hg

theorem shortParts_len (A B : List Str) : 3 ≤ (shortParts A B).length := by
  have h : ∀ X : List Str, 1 ≤ (if X = [] then [[]] else X).length := by
    intro X; split
    · simp
    · rename_i h; exact List.length_pos_iff.mpr h
  have h1 := h A
  have h2 := h B
  rw [shortParts, List.length_append, List.length_cons]
  omega

theorem shortParts_last (A B : List Str) : (shortParts A B).getLast? = some (if h : B = [] then [] else B.getLast h) := by
  rw [shortParts, List.getLast?_append, List.getLast?_cons]
  by_cases h : B = []
  · simp [h]
  · rw [if_neg h, dif_neg h, List.getLast?_eq_some_getLast h]; rfl

theorem shortParts_split {A B : List Str} (hA : ∀ p ∈ A, ':' ∉ p) (hB : ∀ p ∈ B, ':' ∉ p) :
    splitOn ':' (join [':'] A ++ "::".toList ++ join [':'] B) = shortParts A B := by
  rw [short_join]
  refine splitOn_join ':' _ (by simp [shortParts]) ?_
  intro p hp
  simp only [shortParts, List.mem_append, List.mem_cons] at hp
  rcases hp with hp | rfl | hp
  · split at hp
    · rw [List.mem_singleton.mp hp]; simp
    · exact hA p hp
  · simp
  · split at hp
    · rw [List.mem_singleton.mp hp]; simp
    · exact hB p hp

theorem texts_chars {gs : List Group} (h : ∀ g ∈ gs, g.Valid) : ∀ p ∈ gs.map Group.text, p ≠ [] ∧ ':' ∉ p ∧ '.' ∉ p := by
  intro p hp
  obtain ⟨g, hgm, rfl⟩ := List.mem_map.mp hp
  exact ⟨(h g hgm).grp.1, fun hc => ((h g hgm).chars _ hc).1 rfl, fun hc => ((h g hgm).chars _ hc).2.1 rfl⟩

theorem parseParts_short {hi lo : List Group} (hl : hi.length + lo.length ≤ 7) (hh : ∀ g ∈ hi, g.Valid) (hlo : ∀ g ∈ lo, g.Valid) :
    parseParts (shortParts (hi.map Group.text) (lo.map Group.text)) = .ok (valOf hi * 65536 ^ (8 - hi.length) + valOf lo) := by
  have hH := texts_chars hh
  have hL := texts_chars hlo
  have lH : (hi.map Group.text).length = hi.length := List.length_map _
  have lL : (lo.map Group.text).length = lo.length := List.length_map _
  have pH := parseHextets_groups hi 0 hh
  have pL := parseHextets_groups lo
  generalize hA : hi.map Group.text = A at *
  generalize hB : lo.map Group.text = B at *
  have hlast := shortParts_last A B
  have hhead : (shortParts A B).head? = some (A.head?.getD []) := by
    rw [shortParts]
    cases A <;> rfl
  generalize hk : (if A = [] then [[]] else A).length = k
  have hk1 : k = if A = [] then 1 else hi.length := by rw [← hk]; split <;> simp_all
  generalize hm : (if B = [] then [[]] else B).length = m
  have hm1 : m = if B = [] then 1 else lo.length := by rw [← hm]; split <;> simp_all
  have hAl : A = [] ↔ hi.length = 0 := by rw [← lH, List.length_eq_zero_iff]
  have hBl : B = [] ↔ lo.length = 0 := by rw [← lL, List.length_eq_zero_iff]
  have hlen : (shortParts A B).length = k + 1 + m := by rw [shortParts, List.length_append, List.length_cons, hk, hm]; omega
  have hkpos : 1 ≤ k ∧ 1 ≤ m ∧ k + 1 + m ≤ 9 := by
    rw [hk1, hm1]
    split <;> split <;> (try rw [hAl] at *) <;> (try rw [hBl] at *) <;> omega
  have hget : ∀ i, i < k + 1 + m → ((decide (1 ≤ i ∧ i + 1 < (shortParts A B).length) && (shortParts A B)[i]? == some []) = decide (i = k)) := by
    intro i hi'
    rw [hlen]
    rcases Nat.lt_trichotomy i k with h | h | h
    · have : decide (i = k) = false := by simp; omega
      rw [this]
      by_cases hA0 : A = []
      · have : i = 0 := by rw [if_pos hA0] at hk1; omega
        subst this; rfl
      · have : (shortParts A B)[i]? ≠ some [] := by
          intro e
          rw [shortParts, if_neg hA0, List.getElem?_append_left (by rw [if_neg hA0] at hk; omega)] at e
          exact (hH _ (List.mem_of_getElem? e)).1 rfl
        simp [this]
    · subst h
      have : (shortParts A B)[i]? = some [] := by
        rw [shortParts, List.getElem?_append_right (by omega), hk]; simp
      rw [this]; simp; omega
    · have : decide (i = k) = false := by simp; omega
      rw [this]
      by_cases hB0 : B = []
      · have : ¬ (1 ≤ i ∧ i + 1 < k + 1 + m) := by rw [if_pos hB0] at hm1; omega
        simp only [this, decide_false, Bool.false_and]
      · have : (shortParts A B)[i]? ≠ some [] := by
          intro e
          rw [shortParts, List.getElem?_append_right (by omega), hk, show i - k = (i - k - 1) + 1 by omega, List.getElem?_cons_succ, if_neg hB0] at e
          exact (hL _ (List.mem_of_getElem? e)).1 rfl
        simp [this]
  have hf : (List.range (shortParts A B).length).filter
      (fun i => decide (1 ≤ i ∧ i + 1 < (shortParts A B).length) && (shortParts A B)[i]? == some []) = [k] := by
    refine filter_range_one _ k _ (by omega) ?_
    intro i hi'
    exact hget i (by omega)
  rw [parseParts, if_neg (by omega), hf]
  simp only
  have e1 : (if (shortParts A B).head? = some [] then (if k = 1 then (Except.ok 0 : Except Err Nat) else .error .addressValue) else .ok k) = .ok hi.length := by
    rw [hhead]
    by_cases hA0 : A = []
    · rw [if_pos hA0] at hk1
      rw [hA0, if_pos (by rfl), if_pos hk1, hAl.mp hA0]
    · obtain ⟨a, A', rfl⟩ := List.exists_cons_of_ne_nil hA0
      rw [if_neg (by intro e; exact (hH a (by simp)).1 (by simpa using e)), hk1, if_neg hA0]
  have e2 : (if (shortParts A B).getLast? = some [] then (if (shortParts A B).length - k - 1 = 1 then (Except.ok 0 : Except Err Nat) else .error .addressValue)
      else .ok ((shortParts A B).length - k - 1)) = .ok lo.length := by
    rw [hlast, hlen]
    by_cases hB0 : B = []
    · rw [if_pos hB0] at hm1
      rw [dif_pos hB0, if_pos rfl, if_pos (by omega), hBl.mp hB0]
    · rw [dif_neg hB0, if_neg (by intro e; exact (hL _ (List.getLast_mem hB0)).1 (by simpa using e))]
      rw [if_neg hB0] at hm1
      congr 1; omega
  simp only [e1, e2]
  show (if 8 < hi.length + lo.length + 1 then _ else _) = _
  rw [if_neg (by omega)]
  have t1 : (shortParts A B).take hi.length = A := by
    rw [shortParts]
    by_cases hA0 : A = []
    · rw [hAl.mp hA0, hA0]; rfl
    · rw [if_neg hA0, ← lH, List.take_left]
  have t2 : (shortParts A B).drop ((shortParts A B).length - lo.length) = B := by
    by_cases hB0 : B = []
    · rw [hBl.mp hB0, Nat.sub_zero, List.drop_length, hB0]
    · have : shortParts A B = ((if A = [] then [[]] else A) ++ [[]]) ++ B := by
        rw [shortParts, if_neg hB0]; simp
      rw [this, ← lL, List.length_append (bs := B), Nat.add_sub_cancel, List.drop_left]
  rw [t1, t2, pH]
  show parseHextets B (_ * 65536 ^ (8 - (hi.length + lo.length))) = _
  rw [pL _ hlo, foldl_acc lo]
  congr 2
  rw [show hi.foldl (fun a g => 65536 * a + g.val) 0 = valOf hi from rfl, Nat.mul_assoc, ← Nat.pow_add,
    show 8 - (hi.length + lo.length) + lo.length = 8 - hi.length by omega]

theorem parse6_short {hi lo : List Group} (hl : hi.length + lo.length ≤ 7) (hh : ∀ g ∈ hi, g.Valid) (hlo : ∀ g ∈ lo, g.Valid) :
    parse6 (colons hi ++ "::".toList ++ colons lo) = .ok (valOf hi * 65536 ^ (8 - hi.length) + valOf lo) := by
  have hH := texts_chars hh
  have hL := texts_chars hlo
  have hdot : '.' ∉ (shortParts (hi.map Group.text) (lo.map Group.text)).getLast?.getD [] := by
    rw [shortParts_last, Option.getD_some]
    split
    · simp
    · rename_i h; exact (hL _ (List.getLast_mem h)).2.2
  have h3 := shortParts_len (hi.map Group.text) (lo.map Group.text)
  rw [parse6, colons, colons, shortParts_split (fun p hp => (hH p hp).2.1) (fun p hp => (hL p hp).2.1)]
  rw [if_neg (by omega), expandQuad_no hdot]
  exact parseParts_short hl hh hlo

/-! ## What is found in a text -/

theorem heads_join (hs : List Str) (h : hs ≠ []) : heads hs = join [':'] hs ++ [':'] := by
  induction hs with
  | nil => exact absurd rfl h
  | cons x hs ih =>
    cases hs with
    | nil => simp [heads, join]
    | cons y hs =>
      have := ih (by simp)
      show (x ++ [':']) ++ heads (y :: hs) = _
      rw [this, join]; simp

theorem tails_join (ls : List Str) (h : ls ≠ []) : tails ls = ':' :: join [':'] ls := by
  induction ls with
  | nil => exact absurd rfl h
  | cons x ls ih =>
    cases ls with
    | nil => simp [tails, join]
    | cons y ls =>
      have := ih (by simp)
      show (':' :: x) ++ tails (y :: ls) = _
      rw [this, join]; simp

theorem colons_chars {gs : List Group} (h : ∀ g ∈ gs, g.Valid) : ∀ c ∈ colons gs, c ≠ '.' ∧ isSpace c = false := by
  induction gs with
  | nil => intro c hc; cases hc
  | cons g gs ih =>
    have ih' := ih (fun g hg => h g (by simp [hg]))
    have hg := (h g (by simp)).chars
    intro c hc
    cases gs with
    | nil => exact (hg c hc).2
    | cons g' gs =>
      have e : colons (g :: g' :: gs) = g.text ++ [':'] ++ colons (g' :: gs) := rfl
      rw [e] at hc
      rcases List.mem_append.mp hc with hc | hc
      · rcases List.mem_append.mp hc with hc | hc
        · exact (hg c hc).2
        · rw [List.mem_singleton.mp hc]; decide
      · exact ih' c hc

theorem Text6.chars {s : Str} {n : Nat} (h : Text6 s n) : ∀ c ∈ s, c ≠ '.' ∧ isSpace c = false := by
  cases h with
  | full hl hg => exact colons_chars hg
  | short hl hh hlo =>
    intro c hc
    rcases List.mem_append.mp hc with hc | hc
    · rcases List.mem_append.mp hc with hc | hc
      · exact colons_chars hh c hc
      · have : c = ':' := by
          rw [show "::".toList = [':', ':'] by decide +kernel] at hc
          simpa using hc
        rw [this]; decide
    · exact colons_chars hlo c hc

theorem Text6.parse {s : Str} {n : Nat} (h : Text6 s n) : parse6 s = .ok n := by
  cases h with
  | full hl hg => exact parse6_full hl hg
  | short hl hh hlo => exact parse6_short hl hh hlo

theorem grps {gs : List Group} (h : ∀ g ∈ gs, g.Valid) : ∀ g ∈ gs.map Group.text, Grp g := by
  intro g hg
  obtain ⟨x, hx, rfl⟩ := List.mem_map.mp hg
  exact (h x hx).grp

theorem grp_not_colon {g s v : Str} (hg : Grp g) : g ++ s ≠ ':' :: v := by
  obtain ⟨a, t, ea, ha⟩ := grp_head hg s
  rw [ea]
  intro e
  rw [List.cons.injEq] at e
  rw [e.1, colon_not_hex] at ha; cases ha

theorem colons_cons {gs : List Group} (h : gs ≠ []) : ∃ g t, g ∈ gs ∧ colons gs = g.text ++ t := by
  cases gs with
  | nil => exact absurd rfl h
  | cons g gs =>
    cases gs with
    | nil => exact ⟨g, [], by simp, by simp [colons, join]⟩
    | cons g' gs => exact ⟨g, [':'] ++ colons (g' :: gs), by simp, by simp [colons, join]⟩

theorem colons_not_colon {gs : List Group} (h : gs ≠ []) (hg : ∀ g ∈ gs, g.Valid) (s v : Str) : colons gs ++ s ≠ ':' :: v := by
  obtain ⟨g, t, hm, e⟩ := colons_cons h
  rw [e, List.append_assoc]
  exact grp_not_colon (hg g hm).grp

theorem Text6.find {s : Str} {n : Nat} (h : Text6 s n) :
    find6 s = .ok (s, none) ∧ ∀ p : Str, p ≠ [] → (∀ x ∈ p, isDigit x = true) → find6 (s ++ '/' :: p) = .ok (s, some p) := by
  have hdots : ∀ r : Str, '.' ∉ r → '.' ∉ s ++ r := by
    intro r hr hm
    rcases List.mem_append.mp hm with hm | hm
    · exact (h.chars _ hm).1 rfl
    · exact hr hm
  cases h with
  | @full gs hl hg =>
    have hne : gs ≠ [] := by rintro rfl; cases hl
    refine find6_of (fun r v _ => colons_not_colon hne hg r _) ?_
    intro m r hr _ _
    obtain ⟨g, gs', rfl⟩ := List.exists_cons_of_ne_nil hne
    rw [List.length_cons] at hl
    have e : colons (g :: gs') = g.text ++ tails (gs'.map Group.text) := by
      rw [tails_join _ (by intro e; rw [List.map_eq_nil_iff] at e; rw [e] at hl; cases hl)]
      cases gs' with
      | nil => cases hl
      | cons g' gs' => simp [colons, join]
    rw [e]
    exact finds_full m (by rw [List.length_map]; omega) (hg g (by simp)).grp (grps (fun g h => hg g (by simp [h]))) hr
  | @short hi lo hl hh hlo =>
    rw [show "::".toList = [':', ':'] by decide +kernel] at hdots ⊢
    by_cases h1 : hi = []
    · subst h1
      by_cases h2 : lo = []
      · subst h2
        show find6 [':', ':'] = _ ∧ _
        refine find6_of ?_ (fun m r hr hr' _ => finds_bare m hr (hdots r hr'))
        intro r v hr e
        simp at e
        exact (hr ':' (by rw [e]; rfl)).2 rfl
      · have e : colons [] ++ [':', ':'] ++ colons lo = ':' :: tails (lo.map Group.text) := by
          rw [tails_join _ (by simpa using h2)]; rfl
        have e' : ∀ r, ':' :: tails (lo.map Group.text) ++ r = ':' :: ':' :: (colons lo ++ r) := by
          intro r; rw [tails_join _ (by simpa using h2)]; rfl
        rw [e] at hdots ⊢
        refine find6_of ?_ (fun m r hr hr' _ => finds_lead m (by simpa using h2) (by simpa using hl) (grps hlo) hr (hdots r hr'))
        intro r v hr e2
        rw [e', List.cons.injEq, List.cons.injEq] at e2
        exact colons_not_colon h2 hlo r v e2.2.2
    · by_cases h2 : lo = []
      · subst h2
        have e : colons hi ++ [':', ':'] ++ colons [] = heads (hi.map Group.text) ++ [':'] := by
          rw [heads_join _ (by simpa using h1)]; simp [colons, join]
        have h3 : ∀ r v, colons hi ++ [':', ':'] ++ colons [] ++ r ≠ ':' :: v := by
          intro r v; rw [List.append_assoc, List.append_assoc]; exact colons_not_colon h1 hh _ _
        rw [e] at hdots h3 ⊢
        exact find6_of (fun r v _ => h3 r _) (fun m r hr hr' _ => finds_trail m (by simpa using h1) (by simpa using hl) (grps hh) hr (hdots r hr'))
      · have e : colons hi ++ [':', ':'] ++ colons lo = heads (hi.map Group.text) ++ tails (lo.map Group.text) := by
          rw [heads_join _ (by simpa using h1), tails_join _ (by simpa using h2)]; simp [colons]
        have h3 : ∀ r v, colons hi ++ [':', ':'] ++ colons lo ++ r ≠ ':' :: v := by
          intro r v; rw [List.append_assoc, List.append_assoc]; exact colons_not_colon h1 hh _ _
        rw [e] at hdots h3 ⊢
        exact find6_of (fun r v _ => h3 r _) (fun m r hr hr' _ =>
          finds_mid m (by simpa using h1) (by simpa using h2) (by simpa using hl) (grps hh) (grps hlo) hr (hdots r hr'))

/-! ## Writing -/

/-- The four digits of a number. -/
def digits4 (n : Nat) : List Nat := [n / 16 / 16 / 16 % 16, n / 16 / 16 % 16, n / 16 % 16, n % 16]

def pairs (l : List Nat) : Group := l.map (fun d => (baseDigit d, d))

theorem padBase4 (n : Nat) : padBase 16 4 n = (pairs (digits4 n)).text := rfl

theorem digits4_lt (n : Nat) : ∀ d ∈ digits4 n, d < 16 := by
  intro d hd
  simp only [digits4, List.mem_cons, List.not_mem_nil, or_false] at hd
  omega

theorem digits4_val (n : Nat) (h : n < 65536) : (pairs (digits4 n)).val = n := by
  simp only [Group.val, pairs, digits4, List.map_cons, List.map_nil, List.foldl_cons, List.foldl_nil]
  omega

theorem digit_facts : ∀ d : Fin 16, (baseDigit d.val, d.val) ∈ hexDigits ∧
    ((baseDigit d.val).toNat < 65 ∨ 70 < (baseDigit d.val).toNat) ∧ ((baseDigit d.val == '0') = (d.val == 0)) := by decide +kernel

theorem pairs_mem {l : List Nat} (h : ∀ d ∈ l, d < 16) : ∀ d ∈ pairs l, d ∈ hexDigits ∧ (d.1.toNat < 65 ∨ 70 < d.1.toNat) := by
  intro d hd
  obtain ⟨x, hx, rfl⟩ := List.mem_map.mp hd
  have := digit_facts ⟨x, h x hx⟩
  exact ⟨this.1, this.2.1⟩

theorem pairs_valid {l : List Nat} (h : ∀ d ∈ l, d < 16) (h1 : l ≠ []) (h2 : l.length ≤ 4) : (pairs l).Valid :=
  ⟨by simpa [pairs] using h1, by simpa [pairs] using h2, fun d hd => (pairs_mem h d hd).1⟩

theorem val_drop (l : List Nat) : (pairs (l.dropWhile (· == 0))).val = (pairs l).val := by
  induction l with
  | nil => rfl
  | cons d l ih =>
    rw [List.dropWhile_cons]
    split
    · rename_i h
      have : d = 0 := by simpa using h
      subst this
      rw [ih]; rfl
    · rfl

theorem text_drop (l : List Nat) (h : ∀ d ∈ l, d < 16) : (pairs l).text.dropWhile (· == '0') = (pairs (l.dropWhile (· == 0))).text := by
  induction l with
  | nil => rfl
  | cons d l ih =>
    have hd := (digit_facts ⟨d, h d (by simp)⟩).2.2
    simp only at hd
    show (baseDigit d :: (pairs l).text).dropWhile (· == '0') = _
    rw [List.dropWhile_cons, List.dropWhile_cons]
    simp only [hd]
    split
    · exact ih (fun d hd => h d (by simp [hd]))
    · rfl

/-- The digits of a group without leading zeros. -/
def plainGroup (n : Nat) : Group :=
  match (digits4 n).dropWhile (· == 0) with
  | [] => [('0', 0)]
  | l => pairs l

theorem mem_of_mem_dropWhile {α : Type} {p : α → Bool} {a : α} : ∀ {l : List α}, a ∈ l.dropWhile p → a ∈ l
  | [], h => h
  | x :: l, h => by
    rw [List.dropWhile_cons] at h
    split at h
    · exact List.mem_cons_of_mem _ (mem_of_mem_dropWhile h)
    · exact h

theorem length_dropWhile_le {α : Type} (p : α → Bool) : ∀ l : List α, (l.dropWhile p).length ≤ l.length
  | [] => by simp
  | x :: l => by
    rw [List.dropWhile_cons]
    split
    · have := length_dropWhile_le p l; simp; omega
    · simp

theorem plainGroup_spec (n : Nat) (h : n < 65536) : hexStr n = (plainGroup n).text ∧ (plainGroup n).Plain n := by
  have ht := text_drop (digits4 n) (digits4_lt n)
  have hv := val_drop (digits4 n)
  rw [digits4_val n h] at hv
  rw [hexStr, padBase4, ht, plainGroup]
  cases hd : (digits4 n).dropWhile (· == 0) with
  | nil =>
    rw [hd] at hv
    have : n = 0 := hv.symm
    subst this
    refine ⟨rfl, ⟨by simp, by simp, by decide⟩, rfl, by decide, .inl rfl⟩
  | cons x l =>
    have hmem : ∀ d ∈ x :: l, d < 16 := fun d hd' => digits4_lt n d (mem_of_mem_dropWhile (by rw [hd]; exact hd'))
    have hlen : (x :: l).length ≤ 4 := by rw [← hd]; exact length_dropWhile_le _ _
    rw [hd] at hv
    refine ⟨rfl, pairs_valid hmem (by simp) hlen, hv, fun d hd => (pairs_mem hmem d hd).2, .inr ?_⟩
    intro d hd0
    have : d = (baseDigit x, x) := by simpa [pairs] using hd0.symm
    subst this
    have hx : (x == 0) = false := by
      have := List.head?_dropWhile_not (· == 0) (digits4 n)
      rw [hd] at this
      simpa using this
    have := (digit_facts ⟨x, hmem x (by simp)⟩).2.2
    simp only at this
    rw [hx] at this
    simpa using this

theorem hextets_eq (n : Nat) : hextets n = groupsOf n 0 8 := by
  have h : ∀ i, i < 8 → (hextets n)[i]? = some (groupOf n i) := by
    intro i hi
    have e16 : (65536 : Nat) = 2 ^ 16 := by decide
    rcases (show i = 0 ∨ i = 1 ∨ i = 2 ∨ i = 3 ∨ i = 4 ∨ i = 5 ∨ i = 6 ∨ i = 7 by omega) with h | h | h | h | h | h | h | h <;> subst h
    · show some (n / 2 ^ 112 % 65536) = some (n / 65536 ^ 7 % 65536); rw [show (65536 : Nat) ^ 7 = 2 ^ 112 by decide]
    · show some (n / 2 ^ 96 % 65536) = some (n / 65536 ^ 6 % 65536); rw [show (65536 : Nat) ^ 6 = 2 ^ 96 by decide]
    · show some (n / 2 ^ 80 % 65536) = some (n / 65536 ^ 5 % 65536); rw [show (65536 : Nat) ^ 5 = 2 ^ 80 by decide]
    · show some (n / 2 ^ 64 % 65536) = some (n / 65536 ^ 4 % 65536); rw [show (65536 : Nat) ^ 4 = 2 ^ 64 by decide]
    · show some (n / 2 ^ 48 % 65536) = some (n / 65536 ^ 3 % 65536); rw [show (65536 : Nat) ^ 3 = 2 ^ 48 by decide]
    · show some (n / 2 ^ 32 % 65536) = some (n / 65536 ^ 2 % 65536); rw [show (65536 : Nat) ^ 2 = 2 ^ 32 by decide]
    · show some (n / 2 ^ 16 % 65536) = some (n / 65536 ^ 1 % 65536); rw [show (65536 : Nat) ^ 1 = 2 ^ 16 by decide]
    · show some (n % 65536) = some (n / 65536 ^ 0 % 65536); rw [show (65536 : Nat) ^ 0 = 1 by decide, Nat.div_one]
  apply List.ext_getElem?
  intro i
  by_cases hi : i < 8
  · rw [h i hi, groupsOf, List.getElem?_map, List.getElem?_range hi]; simp
  · rw [List.getElem?_eq_none (by simp [hextets]; omega), List.getElem?_eq_none (by simp [groupsOf]; omega)]

theorem groupOf_lt (n i : Nat) : groupOf n i < 65536 := Nat.mod_lt _ (by decide)

/-- The invariant of the search for the longest run of zero groups. -/
theorem bestRun_spec (all : List Str) : ∀ (hs : List Str) (i : Nat) (best : Nat × Nat) (cur : Option Nat × Nat),
    all.drop i = hs → i ≤ all.length →
    best.1 + best.2 ≤ i → (∀ j, best.1 ≤ j → j < best.1 + best.2 → all[j]? = some ['0']) →
    (∀ a l, 0 < l → a + l ≤ i → (∀ j, a ≤ j → j < a + l → all[j]? = some ['0']) → l < best.2 ∨ (l = best.2 ∧ best.1 ≤ a)) →
    cur.1.getD i + cur.2 = i → (∀ j, cur.1.getD i ≤ j → j < i → all[j]? = some ['0']) →
    (∀ a, a ≤ i → (∀ j, a ≤ j → j < i → all[j]? = some ['0']) → cur.1.getD i ≤ a) →
    (bestRun hs i best cur).1 + (bestRun hs i best cur).2 ≤ all.length ∧
    (∀ j, (bestRun hs i best cur).1 ≤ j → j < (bestRun hs i best cur).1 + (bestRun hs i best cur).2 → all[j]? = some ['0']) ∧
    (∀ a l, 0 < l → a + l ≤ all.length → (∀ j, a ≤ j → j < a + l → all[j]? = some ['0']) →
      l < (bestRun hs i best cur).2 ∨ (l = (bestRun hs i best cur).2 ∧ (bestRun hs i best cur).1 ≤ a)) := by
  intro hs
  induction hs with
  | nil =>
    intro i best cur hd hi hb1 hb2 hb3 _ _ _
    have : i = all.length := by have := List.drop_eq_nil_iff.mp hd; omega
    subst this
    exact ⟨hb1, hb2, hb3⟩
  | cons h hs ih =>
    intro i best cur hd hi hb1 hb2 hb3 hc1 hc2 hc3
    have hlt : i < all.length := by
      rcases Nat.lt_or_ge i all.length with h' | h'
      · exact h'
      · rw [List.drop_eq_nil_of_le h'] at hd; cases hd
    have hget : all[i]? = some h := by
      have : (all.drop i)[0]? = some h := by rw [hd]; rfl
      rwa [List.getElem?_drop, Nat.add_zero] at this
    have hd' : all.drop (i + 1) = hs := by
      rw [← List.drop_drop, hd]; rfl
    rw [bestRun]
    split
    · rename_i hz
      rw [hz] at hget
      generalize hst : cur.1.getD i = st at *
      have hzero : ∀ j, st ≤ j → j < i + 1 → all[j]? = some ['0'] := by
        intro j h1 h2
        rcases Nat.lt_or_ge j i with h' | h'
        · exact hc2 j h1 h'
        · rw [show j = i by omega]; exact hget
      have hend : ∀ a l, 0 < l → a + l = i + 1 → (∀ j, a ≤ j → j < a + l → all[j]? = some ['0']) → st ≤ a := by
        intro a l h0 h1 h2
        exact hc3 a (by omega) (fun j h3 h4 => h2 j h3 (by omega))
      have hb3' : ∀ a l, 0 < l → a + l ≤ i + 1 → (∀ j, a ≤ j → j < a + l → all[j]? = some ['0']) →
          l < (if best.2 < cur.2 + 1 then (st, cur.2 + 1) else best).2 ∨
          (l = (if best.2 < cur.2 + 1 then (st, cur.2 + 1) else best).2 ∧ (if best.2 < cur.2 + 1 then (st, cur.2 + 1) else best).1 ≤ a) := by
        intro a l h0 h1 h2
        rcases Nat.lt_or_ge (a + l) (i + 1) with h' | h'
        · have := hb3 a l h0 (by omega) h2
          split
          · simp only; omega
          · exact this
        · have := hend a l h0 (by omega) h2
          split
          · simp only; omega
          · omega
      refine ih (i + 1) _ (some st, cur.2 + 1) hd' (by omega) ?_ ?_ hb3' (by simp only [Option.getD_some]; omega)
        (by simpa using hzero) ?_
      · split
        · simp only; omega
        · omega
      · intro j
        split
        · simp only; intro h1 h2; exact hzero j h1 (by omega)
        · exact hb2 j
      · intro a h1 h2
        simp only [Option.getD_some]
        rcases Nat.lt_or_ge a (i + 1) with h' | h'
        · exact hend a (i + 1 - a) (by omega) (by omega) (fun j h3 h4 => h2 j h3 (by omega))
        · omega
    · rename_i hz
      have hnz : all[i]? ≠ some ['0'] := by rw [hget]; intro e; exact hz (Option.some.inj e)
      refine ih (i + 1) best (none, 0) hd' (by omega) (by omega) hb2 ?_ rfl (by intro j h1 h2; simp at h1; omega) ?_
      · intro a l h0 h1 h2
        rcases Nat.lt_or_ge (a + l) (i + 1) with h' | h'
        · exact hb3 a l h0 (by omega) h2
        · exact absurd (h2 i (by omega) (by omega)) hnz
      · intro a h1 h2
        simp only [Option.getD_none]
        rcases Nat.lt_or_ge a (i + 1) with h' | h'
        · exact absurd (h2 i (by omega) (by omega)) hnz
        · exact h'

theorem hexStr_zero {n : Nat} (h : n < 65536) : hexStr n = ['0'] ↔ n = 0 := by
  constructor
  · intro e
    obtain ⟨e1, _, hv, _, hp⟩ := plainGroup_spec n h
    rw [e] at e1
    rcases hp with hp | hp
    · rw [hp] at hv; exact hv.symm
    · exfalso
      generalize plainGroup n = g at *
      cases g with
      | nil => cases e1
      | cons d g =>
        have : d.1 = '0' := by
          have : '0' = d.1 := by simp [Group.text] at e1; exact e1.1
          exact this.symm
        exact hp d rfl this
  · rintro rfl; rfl

theorem plainly_groups (n i k : Nat) : Plainly ((groupsOf n i k).map plainGroup) (groupsOf n i k) ∧
    colons ((groupsOf n i k).map plainGroup) = join [':'] ((groupsOf n i k).map hexStr) := by
  have hlt : ∀ x ∈ groupsOf n i k, x < 65536 := by
    intro x hx
    obtain ⟨j, _, rfl⟩ := List.mem_map.mp hx
    exact groupOf_lt n _
  generalize groupsOf n i k = l at *
  refine ⟨⟨?_, ?_⟩, ?_⟩
  · rw [List.map_map]
    conv => rhs; rw [← List.map_id l]
    refine List.map_congr_left ?_
    intro x hx
    exact (plainGroup_spec x (hlt x hx)).2.2.1
  · intro g hg
    obtain ⟨x, hx, rfl⟩ := List.mem_map.mp hg
    have := (plainGroup_spec x (hlt x hx)).2
    rw [this.2.1]; exact this
  · rw [colons, List.map_map]
    congr 1
    refine List.map_congr_left ?_
    intro x hx
    exact (plainGroup_spec x (hlt x hx)).1.symm

theorem take_groups (n i : Nat) (h : i ≤ 8) : (groupsOf n 0 8).take i = groupsOf n 0 i := by
  rw [groupsOf, groupsOf, ← List.map_take, List.take_range, Nat.min_eq_left h]

theorem drop_groups (n i : Nat) (h : i ≤ 8) : (groupsOf n 0 8).drop i = groupsOf n i (8 - i) := by
  apply List.ext_getElem?
  intro j
  rw [List.getElem?_drop, groupsOf, groupsOf, List.getElem?_map, List.getElem?_map]
  by_cases hj : j < 8 - i
  · rw [List.getElem?_range (by omega), List.getElem?_range hj]; simp
  · rw [List.getElem?_eq_none (by simp; omega), List.getElem?_eq_none (by simp; omega)]; rfl

theorem getElem_groups (n j : Nat) : ((groupsOf n 0 8).map hexStr)[j]? = some ['0'] ↔ j < 8 ∧ groupOf n j = 0 := by
  rw [List.getElem?_map, groupsOf, List.getElem?_map]
  by_cases hj : j < 8
  · rw [List.getElem?_range hj]
    simp only [Option.map_some, Nat.zero_add, Option.some.injEq]
    rw [hexStr_zero (groupOf_lt n j)]
    exact ⟨fun h => ⟨hj, h⟩, fun h => h.2⟩
  · rw [List.getElem?_eq_none (by simp; omega)]
    simp only [Option.map_none]
    exact ⟨fun h => (by cases h), fun h => absurd h.1 hj⟩

/-- The text of an address is the recommended one. -/
theorem str6_canon (n : Nat) : Canon6 n (str6 n) := by
  rw [str6, hextets_eq]
  generalize hall : (groupsOf n 0 8).map hexStr = all
  have hlen : all.length = 8 := by rw [← hall]; simp [groupsOf]
  have hz : ∀ j, all[j]? = some ['0'] ↔ j < 8 ∧ groupOf n j = 0 := by intro j; rw [← hall]; exact getElem_groups n j
  have hspec := bestRun_spec all all 0 (0, 0) (none, 0) rfl (by omega) (by simp) (by intro j h1 h2; simp at h2)
    (by intro a l h0 h1; omega) rfl (by intro j h1 h2; omega) (by intro a h1 _; simp)
  rw [compressHextets]
  generalize bestRun all 0 (0, 0) (none, 0) = b at *
  obtain ⟨st, len⟩ := b
  obtain ⟨h1, h2, h3⟩ := hspec
  simp only at h1 h2 h3 ⊢
  rw [hlen] at h1
  have hrun : ∀ a l, 0 < l → ZeroRun n a l → l < len ∨ (l = len ∧ st ≤ a) := by
    intro a l h0 ⟨h4, h5⟩
    refine h3 a l h0 (by omega) ?_
    intro j h6 h7
    exact (hz j).mpr ⟨by omega, h5 j h6 h7⟩
  split
  · rename_i hl
    have htake : all.take st = (groupsOf n 0 st).map hexStr := by rw [← hall, ← List.map_take, take_groups n st (by omega)]
    have hdrop : all.drop (st + len) = (groupsOf n (st + len) (8 - (st + len))).map hexStr := by
      rw [← hall, ← List.map_drop, drop_groups n _ (by omega)]
    have key : (if st = 0 then [] :: (List.take st (if st + len = all.length then all ++ [[]] else all) ++
          [] :: List.drop (st + len) (if st + len = all.length then all ++ [[]] else all))
        else List.take st (if st + len = all.length then all ++ [[]] else all) ++
          [] :: List.drop (st + len) (if st + len = all.length then all ++ [[]] else all)) =
        shortParts (all.take st) (all.drop (st + len)) := by
      have e1 : List.take st (if st + len = all.length then all ++ [[]] else all) = all.take st := by
        split
        · exact List.take_append_of_le_length (by omega)
        · rfl
      have e2 : List.drop (st + len) (if st + len = all.length then all ++ [[]] else all) =
          if all.drop (st + len) = [] then [[]] else all.drop (st + len) := by
        by_cases h' : st + len = all.length
        · rw [if_pos h', if_pos (List.drop_eq_nil_of_le (by omega)), h', List.drop_left]
        · rw [if_neg h', if_neg (by rw [List.drop_eq_nil_iff]; omega)]
      rw [e1, e2, shortParts]
      have e3 : all.take st = [] ↔ st = 0 := by
        rw [List.take_eq_nil_iff]
        constructor
        · rintro (h | h)
          · exact h
          · rw [h] at hlen; cases hlen
        · exact .inl
      by_cases h0 : st = 0
      · rw [if_pos h0, if_pos (e3.mpr h0), e3.mpr h0]; rfl
      · rw [if_neg h0, if_neg (fun h => h0 (e3.mp h))]
    rw [key, ← short_join, htake, hdrop, ← (plainly_groups n 0 st).2, ← (plainly_groups n (st + len) _).2]
    refine Canon6.short (i := st) (k := len) ⟨h1, fun j h4 h5 => ((hz j).mp (h2 j h4 h5)).2⟩ hl ?_ (plainly_groups n 0 st).1 (plainly_groups n _ _).1
    intro i' k' hr
    rcases Nat.eq_zero_or_pos k' with h0 | h0
    · left; omega
    · exact hrun i' k' h0 hr
  · rename_i hl
    rw [← hall, ← (plainly_groups n 0 8).2]
    refine Canon6.full ?_ (plainly_groups n 0 8).1
    intro i k hr
    rcases Nat.eq_zero_or_pos k with h0 | h0
    · omega
    · have := hrun i k h0 hr; omega

theorem valOf_eq (gs : List Group) (vs : List Nat) (h : gs.map Group.val = vs) : valOf gs = vs.foldl (fun a v => 65536 * a + v) 0 := by
  rw [← h, List.foldl_map]; rfl

theorem foldl_groups (n k : Nat) (h : k ≤ 8) : (groupsOf n 0 k).foldl (fun a v => 65536 * a + v) 0 = n / 65536 ^ (8 - k) % 65536 ^ k := by
  induction k with
  | zero => simp [groupsOf, Nat.mod_one]
  | succ k ih =>
    rw [groupsOf, List.range_succ, List.map_append, List.foldl_append, ← groupsOf, ih (by omega)]
    simp only [List.map_cons, List.map_nil, List.foldl_cons, List.foldl_nil, Nat.zero_add]
    rw [groupOf, show 8 - (k + 1) = 7 - k by omega, show 8 - k = (7 - k) + 1 by omega, Nat.pow_succ 65536 (7 - k), Nat.pow_succ 65536 k,
      ← Nat.div_div_eq_div_mul, Nat.mul_comm (65536 ^ k) 65536, Nat.mod_mul]
    omega

theorem foldl_groups' (n i k : Nat) (h : i + k ≤ 8) :
    (groupsOf n i k).foldl (fun a v => 65536 * a + v) 0 = n / 65536 ^ (8 - (i + k)) % 65536 ^ k := by
  induction k with
  | zero => simp [groupsOf, Nat.mod_one]
  | succ k ih =>
    rw [groupsOf, List.range_succ, List.map_append, List.foldl_append, ← groupsOf, ih (by omega)]
    simp only [List.map_cons, List.map_nil, List.foldl_cons, List.foldl_nil]
    rw [groupOf, show 8 - (i + (k + 1)) = 7 - (i + k) by omega, show 8 - (i + k) = (7 - (i + k)) + 1 by omega,
      Nat.pow_succ 65536 (7 - (i + k)), Nat.pow_succ 65536 k,
      ← Nat.div_div_eq_div_mul, Nat.mul_comm (65536 ^ k) 65536, Nat.mod_mul]
    omega

theorem Plainly.valid {gs : List Group} {vs : List Nat} (h : Plainly gs vs) : ∀ g ∈ gs, g.Valid := fun g hg => (h.2 g hg).1

theorem Plainly.length {gs : List Group} {n i k : Nat} (h : Plainly gs (groupsOf n i k)) : gs.length = k := by
  have := congrArg List.length h.1
  simpa [groupsOf] using this

theorem zero_value (n i : Nat) : ∀ k, i + k ≤ 8 → (∀ j, i ≤ j → j < i + k → groupOf n j = 0) → n / 65536 ^ (8 - (i + k)) % 65536 ^ k = 0 := by
  intro k h hz
  rw [← foldl_groups' n i k h]
  have : groupsOf n i k = List.replicate k 0 := by
    rw [List.eq_replicate_iff]
    refine ⟨by simp [groupsOf], ?_⟩
    intro b hb
    obtain ⟨j, hj, rfl⟩ := List.mem_map.mp hb
    exact hz _ (by omega) (by have := List.mem_range.mp hj; omega)
  rw [this]
  clear this hz h
  induction k with
  | zero => rfl
  | succ k ih => rw [List.replicate_succ]; exact ih

theorem Canon6.text {n : Nat} {s : Str} (hn : n < 2 ^ 128) (h : Canon6 n s) : Text6 s n := by
  have hn' : n < 65536 ^ 8 := by rw [show (65536 : Nat) ^ 8 = 2 ^ 128 by decide]; exact hn
  cases h with
  | @full gs hz hp =>
    have : valOf gs = n := by
      rw [valOf_eq gs _ hp.1, foldl_groups n 8 (by omega), Nat.sub_self, Nat.pow_zero, Nat.div_one, Nat.mod_eq_of_lt hn']
    have ht := Text6.full hp.length hp.valid
    rwa [this] at ht
  | @short i k hi lo hr hk hmax hph hpl =>
    obtain ⟨h8, hz⟩ := hr
    have ht := Text6.short (hi := hi) (lo := lo) (by rw [hph.length, hpl.length]; omega) hph.valid hpl.valid
    have e1 : valOf hi = n / 65536 ^ (8 - i) := by
      rw [valOf_eq hi _ hph.1, foldl_groups n i (by omega)]
      refine Nat.mod_eq_of_lt ?_
      rw [Nat.div_lt_iff_lt_mul (Nat.pow_pos (by decide)), ← Nat.pow_add, show i + (8 - i) = 8 by omega]
      exact hn'
    have e2 : valOf lo = n % 65536 ^ (8 - (i + k)) := by
      rw [valOf_eq lo _ hpl.1, foldl_groups' n (i + k) _ (by omega), show 8 - (i + k + (8 - (i + k))) = 0 by omega, Nat.pow_zero, Nat.div_one]
    have e3 := zero_value n i k h8 hz
    have e4 : n % 65536 ^ (8 - i) = n % 65536 ^ (8 - (i + k)) := by
      rw [show 8 - i = (8 - (i + k)) + k by omega, Nat.pow_add, Nat.mod_mul, e3, Nat.mul_zero, Nat.add_zero]
    have : valOf hi * 65536 ^ (8 - hi.length) + valOf lo = n := by
      rw [hph.length, e1, e2, ← e4, Nat.mul_comm]
      exact Nat.div_add_mod _ _
    rwa [this] at ht

end IP

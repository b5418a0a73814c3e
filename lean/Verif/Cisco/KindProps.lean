import Verif.Cisco.AccessProps
import Verif.Cisco.HsrpProps

/-! # Kinds of interfaces (C84) -/

namespace Cisco

open Py Conf Query Re Spec

/-! ## Words of a text -/

theorem takeWhile_head {c : Char} {s : Str} (h : isSpace c = false) : (c :: s).takeWhile nsp ≠ [] := by
  rw [List.takeWhile_cons_of_pos (by simp [nsp, h])]; simp

/-- A piece without blanks lies in one of the words. -/
theorem infix_word {u : Str} (hu : IsWord u) : ∀ (n : Nat) (r : Str), r.length ≤ n → u <:+: r → ∃ w ∈ splitWs r, u <:+: w
  | 0, r, hn, h => by
    have : r = [] := List.length_eq_zero_iff.mp (by omega)
    rw [this, List.infix_nil] at h
    exact absurd h hu.1
  | n + 1, r, hn, h => by
    cases r with
    | nil => rw [List.infix_nil] at h; exact absurd h hu.1
    | cons x r =>
      by_cases hx : isSpace x = true
      · have e := splitWs_spaces [x] r (by simp [hx])
        rw [List.singleton_append] at e
        rw [e]
        refine infix_word hu n r (by simpa using hn) ?_
        rcases List.infix_cons_iff.mp h with h | h
        · obtain ⟨y, u', rfl⟩ := List.exists_cons_of_ne_nil hu.1
          rw [List.cons_prefix_cons] at h
          have := hu.2 y (by simp)
          rw [h.1, hx] at this; cases this
        · exact h
      · have hl : lstrip (x :: r) = x :: r := by rw [lstrip, List.dropWhile_cons_of_neg hx]
        obtain ⟨v, rest, he, hv, hrest, hs⟩ := split_cons hl (by simp)
        obtain ⟨a, b, hab⟩ := h
        rw [he] at hab hn
        rw [hs]
        have hvl : rest.length ≤ n := by
          have := List.length_pos_iff.mpr hv.1
          simp only [List.length_append] at hn
          omega
        by_cases hlen : (a ++ u).length ≤ v.length
        · refine ⟨v, by simp, ?_⟩
          have h1 : a ++ u <+: v := by
            refine List.prefix_of_prefix_length_le (l₃ := v ++ rest) ⟨b, hab⟩ (List.prefix_append _ _) hlen
          obtain ⟨s, hs⟩ := h1
          exact ⟨a, s, hs⟩
        · have hav : v.length ≤ a.length := by
            refine Classical.byContradiction fun hlt => ?_
            cases rest with
            | nil =>
              have := congrArg List.length hab
              simp only [List.length_append, List.length_nil] at this hlen
              omega
            | cons z rest =>
              have hz := hrest z rfl
              have e1 : (a ++ u ++ b)[v.length]? = some z := by rw [hab]; simp
              rw [List.append_assoc, List.getElem?_append_right (by omega), List.getElem?_append_left (by simp at hlen; omega)] at e1
              have := hu.2 z (List.mem_of_getElem? e1)
              rw [hz] at this; cases this
          have h1 : v <+: a := List.prefix_of_prefix_length_le (l₃ := v ++ rest) (List.prefix_append _ _) ⟨u ++ b, by rw [← hab]; simp⟩ hav
          obtain ⟨a', rfl⟩ := h1
          obtain ⟨w, hw, hi⟩ := infix_word hu n rest hvl ⟨a', b, by
            rw [List.append_assoc, List.append_assoc, List.append_right_inj] at hab
            rw [List.append_assoc]; exact hab⟩
          exact ⟨w, by simp [hw], hi⟩

/-- A word is a piece of the text. -/
theorem word_infix : ∀ (n : Nat) (r : Str), r.length ≤ n → ∀ w ∈ splitWs r, w <:+: r
  | 0, r, hn, w, hw => by
    have : r = [] := List.length_eq_zero_iff.mp (by omega)
    rw [this] at hw; cases hw
  | n + 1, r, hn, w, hw => by
    cases r with
    | nil => cases hw
    | cons x r =>
      by_cases hx : isSpace x = true
      · have e := splitWs_spaces [x] r (by simp [hx])
        rw [List.singleton_append] at e
        rw [e] at hw
        exact (word_infix n r (by simpa using hn) w hw).trans (List.infix_cons (List.infix_refl _))
      · have hl : lstrip (x :: r) = x :: r := by rw [lstrip, List.dropWhile_cons_of_neg hx]
        obtain ⟨v, rest, he, hv, hrest, hs⟩ := split_cons hl (by simp)
        rw [hs, List.mem_cons] at hw
        rw [he] at hn ⊢
        rcases hw with rfl | hw
        · exact (List.prefix_append _ _).isInfix
        · refine (word_infix n rest ?_ w hw).trans (List.suffix_append _ _).isInfix
          have := List.length_pos_iff.mpr hv.1
          simp only [List.length_append] at hn
          omega

/-! ## `interface\s+` -/

/-- `interface\s+` and then something that does not begin with a blank. -/
theorem lead_lang {n : Nat} {w : Str} (hw : IsWord w) {l : List Rgx} (h0 : ∀ v, ¬ Lang n (seqs l) [] v)
    (hs : ∀ x s v, isSpace x = true → ¬ Lang n (seqs l) (x :: s) v) {t : Str} (ht : lstrip t = t) (v : Str) :
    Lang n (seqs ((str w (.plus .space .done)).toL ++ l)) t v ↔ (splitWs t).head? = some w ∧ Lang n (seqs l) (skip 1 t) v := by
  constructor
  · intro h
    obtain ⟨u, h1, h2⟩ := (lang_append ..).mp h
    obtain ⟨r, rfl, h5⟩ := (lang_str ..).mp h1
    obtain ⟨u2, h6, h7⟩ := (lang_cons ..).mp h5
    obtain ⟨b, rfl, hbne, hb⟩ := (lang_plus ..).mp h6
    obtain rfl := (lang_nil ..).mp h7
    obtain ⟨y, b', rfl⟩ := List.exists_cons_of_ne_nil hbne
    have hy : isSpace y = true := hb y (by simp)
    refine ⟨by rw [List.cons_append, splitWs_word_space hw hy]; rfl, ?_⟩
    have e : skip 1 (w ++ (y :: b' ++ u2)) = u2 := by
      have e1 : (w ++ (y :: b' ++ u2)).dropWhile nsp = y :: b' ++ u2 := by
        rw [List.dropWhile_append_of_pos (fun c hc => by simp [nsp, hw.2 c hc]), List.cons_append,
          List.dropWhile_cons_of_neg (by simp [nsp, hy])]
      rw [skip, skip, e1, lstrip, List.dropWhile_append_of_pos (p := isSpace) (fun c hc => hb c hc)]
      cases u2 with
      | nil => exact absurd h2 (h0 v)
      | cons x s =>
        rw [List.dropWhile_cons_of_neg]
        exact fun hx => hs x s v hx h2
    rw [e]; exact h2
  · rintro ⟨h1, h2⟩
    have hne : t ≠ [] := by rintro rfl; cases h1
    obtain ⟨w', rest, he, hw', hrest, hsp⟩ := split_cons ht hne
    rw [hsp, List.head?_cons, Option.some.injEq] at h1
    subst h1
    have e1 : skip 1 t = lstrip rest := by
      rw [skip, skip, he, List.dropWhile_append_of_pos (fun c hc => by simp [nsp, hw'.2 c hc])]
      congr 1
      cases rest with
      | nil => rfl
      | cons z rest => rw [List.dropWhile_cons_of_neg (by simp [nsp, hrest z rfl])]
    cases rest with
    | nil => rw [e1] at h2; exact absurd h2 (h0 v)
    | cons z rest =>
      refine (lang_append ..).mpr ⟨skip 1 t, (lang_str ..).mpr ⟨z :: rest, he, (lang_cons ..).mpr ⟨skip 1 t, ?_, rfl⟩⟩, h2⟩
      refine (lang_plus ..).mpr ⟨(z :: rest).takeWhile isSpace, ?_, ?_, fun c hc => of_mem_takeWhile hc⟩
      · rw [e1, lstrip, List.takeWhile_append_dropWhile]
      · rw [List.takeWhile_cons_of_pos (hrest z rfl)]; simp

/-- C84: `is_intf` of a line of a configuration: it begins with `interface`, one blank, and
something else. -/
theorem C84_is_intf {t : Str} (h : Line t) :
    ∃ b, isIntf t = .ok b ∧ (b = true ↔ ∃ c s, t = "interface ".toList ++ c :: s ∧ c ≠ ' ') := by
  rw [isIntf]
  by_cases hp : t.take 10 = "interface ".toList
  · rw [if_pos (by simpa using hp)]
    have hsplit := List.take_append_drop 10 t
    rw [hp] at hsplit
    cases hd : t.drop 10 with
    | nil =>
      exfalso
      rw [hd, List.append_nil] at hsplit
      have := h.2
      rw [← hsplit] at this
      exact absurd this (by decide)
    | cons c s =>
      rw [hd] at hsplit
      have hg : t[10]? = some c := by rw [← hsplit]; rfl
      rw [hg]
      refine ⟨c != ' ', rfl, ?_⟩
      constructor
      · intro hc
        exact ⟨c, s, hsplit.symm, by simpa using hc⟩
      · rintro ⟨c', s', he, hc⟩
        rw [← hsplit, List.append_right_inj, List.cons.injEq] at he
        rw [he.1]; simpa using hc
  · rw [if_neg (by simpa using hp)]
    refine ⟨false, rfl, by simp, ?_⟩
    rintro ⟨c, s, he, _⟩
    exact absurd (by rw [he]; rfl) hp

theorem nonblank_head {n : Nat} {l : List Rgx} {k : K} (hk : ∀ x, k.has x = true → isSpace x = false) :
    (∀ v, ¬ Lang n (seqs (.cls k.cls :: l)) [] v) ∧ (∀ x s v, isSpace x = true → ¬ Lang n (seqs (.cls k.cls :: l)) (x :: s) v) := by
  constructor
  · intro v h
    obtain ⟨w, h1, _⟩ := (lang_cons ..).mp h
    obtain ⟨a, h2, _⟩ := (lang_cls ..).mp h1
    cases h2
  · intro x s v hx h
    obtain ⟨w, h1, _⟩ := (lang_cons ..).mp h
    obtain ⟨a, h2, h3⟩ := (lang_cls ..).mp h1
    cases h2
    rw [hk x h3] at hx; cases hx

theorem nonspace_has (x : Char) : K.nonspace.has x = true ↔ isSpace x = false := by
  simp [K.has]

/-- The group around the rest of an expression does not matter. -/
theorem lang_grp_last (n k : Nat) (l : List Rgx) (u v : Str) : Lang n (seqs [.grp k (seqs l)]) u v ↔ Lang n (seqs l) u v := by
  rw [lang_cons]
  simp only [lang_nil]
  constructor
  · rintro ⟨w, h, rfl⟩; exact h
  · intro h; exact ⟨v, h, rfl⟩

theorem lead_grp {n : Nat} {w : Str} (hw : IsWord w) {k : Nat} {l : List Rgx} (h0 : ∀ v, ¬ Lang n (seqs l) [] v)
    (hs : ∀ x s v, isSpace x = true → ¬ Lang n (seqs l) (x :: s) v) {t : Str} (ht : lstrip t = t) (v : Str) :
    Lang n (seqs ((str w (.plus .space .done)).toL ++ [.grp k (seqs l)])) t v ↔
      (splitWs t).head? = some w ∧ Lang n (seqs l) (skip 1 t) v := by
  rw [lead_lang hw (l := [.grp k (seqs l)]) (fun v h => h0 v ((lang_grp_last ..).mp h))
    (fun x s v hx h => hs x s v hx ((lang_grp_last ..).mp h)) ht, lang_grp_last]

/-- The second word. -/
theorem second_word {t : Str} (ht : lstrip t = t) {w : Str} (h : (splitWs t).head? = some w) :
    (skip 1 t = [] ∧ splitWs t = [w]) ∨
    ∃ v rest, skip 1 t = v ++ rest ∧ IsWord v ∧ (∀ c, rest.head? = some c → isSpace c = true) ∧
      splitWs t = w :: v :: splitWs rest := by
  have e : splitWs (skip 1 t) = (splitWs t).drop 1 := splitWs_skip 1 ht
  have e2 : splitWs t = w :: (splitWs t).drop 1 := by
    cases hs : splitWs t with
    | nil => rw [hs] at h; cases h
    | cons a l => rw [hs] at h; cases h; rfl
  by_cases hk : skip 1 t = []
  · refine .inl ⟨hk, ?_⟩
    rw [e2, ← e, hk]; rfl
  · obtain ⟨v, rest, h1, h2, h3, h4⟩ := split_cons (lstrip_skip 1 ht) hk
    exact .inr ⟨v, rest, h1, h2, h3, by rw [e2, ← e, h4]⟩

/-- Reading a piece without blanks in front of a text reads it in the first word. -/
theorem piece_in_word {u v rest s : Str} (hrest : ∀ c, rest.head? = some c → isSpace c = true) (hu : ∀ c ∈ u, isSpace c = false)
    (h : v ++ rest = u ++ s) : u <+: v := by
  by_cases hl : u.length ≤ v.length
  · exact List.prefix_of_prefix_length_le (l₃ := v ++ rest) ⟨s, h.symm⟩ (List.prefix_append _ _) hl
  · exfalso
    have hlen := congrArg List.length h
    simp only [List.length_append] at hlen
    cases rest with
    | nil =>
      have h1 : v ++ [] = u ++ s := h
      exact absurd (congrArg List.length h1) (by simp only [List.length_append, List.length_nil]; omega)
    | cons z rest =>
      have e1 : (u ++ s)[v.length]? = some z := by rw [← h]; simp
      rw [List.getElem?_append_left (by omega)] at e1
      have := hu z (List.mem_of_getElem? e1)
      rw [hrest z rfl] at this; cases this

/-- C84: `is_loopback_intf`: the second word is `Loopback…`, whatever its first letter. -/
theorem C84_loopback {t : Str} (ht : lstrip t = t) :
    ∃ b, isLoopbackIntf t = .ok b ∧ (b = true ↔ ∃ x s, Next ["interface"] t (x :: "oopback".toList ++ s)) := by
  have hc : compile "^interface\\s+(\\Soopback)" = .ok ⟨seqs (.bol :: ((str "interface".toList (.plus .space .done)).toL ++
      [.grp 1 (seqs (.cls K.nonspace.cls :: (str "oopback".toList .done).toL))])), 1, []⟩ := by decide +kernel
  obtain ⟨b, h1, h2⟩ := reTrue_bol hc t
  refine ⟨b, h1, h2.trans ?_⟩
  have hn := nonblank_head (n := t.length) (l := (str "oopback".toList .done).toL) (k := .nonspace) (fun x hx => (nonspace_has x).mp hx)
  simp only [lead_grp (by decide : IsWord "interface".toList) hn.1 hn.2 ht]
  constructor
  · rintro ⟨v, hi, h⟩
    obtain ⟨u, h3, h4⟩ := (lang_cons ..).mp h
    obtain ⟨x, h5, hx⟩ := (lang_cls ..).mp h3
    obtain ⟨r, rfl, h6⟩ := (lang_str ..).mp h4
    rcases second_word ht hi with ⟨hk, _⟩ | ⟨w, rest, hk, hw, hrest, hs⟩
    · rw [hk] at h5; cases h5
    · rw [hk] at h5
      obtain ⟨s, hs'⟩ := piece_in_word (u := x :: "oopback".toList) hrest (by
        intro c hc
        rcases List.mem_cons.mp hc with rfl | hc
        · exact (nonspace_has _).mp hx
        · exact (by decide : ∀ c ∈ "oopback".toList, isSpace c = false) c hc) h5
      exact ⟨x, s, splitWs rest, by rw [hs, ← hs']; rfl⟩
  · rintro ⟨x, s, more, hs⟩
    have hi : (splitWs t).head? = some "interface".toList := by rw [hs]; rfl
    rcases second_word ht hi with ⟨hk, hk'⟩ | ⟨w, rest, hk, hw, hrest, hs'⟩
    · rw [hk'] at hs; exact absurd (congrArg List.length hs) (by simp [wd])
    · rw [hs] at hs'
      have e : x :: "oopback".toList ++ s = w := by
        have := congrArg (fun l => l[1]?) hs'
        simpa [wd] using this
      subst e
      refine ⟨s ++ rest, hi, (lang_cons ..).mpr ⟨"oopback".toList ++ (s ++ rest), (lang_cls ..).mpr ⟨x, ?_, ?_⟩,
        (lang_str ..).mpr ⟨s ++ rest, rfl, rfl⟩⟩⟩
      · rw [hk]; simp
      · exact (nonspace_has x).mpr (hw.2 x (by simp))

/-- C84: `is_subintf`: the second word has a dot with a digit behind it, and something in front. -/
theorem C84_subintf {t : Str} (ht : lstrip t = t) :
    ∃ b, isSubintf t = .ok b ∧
      (b = true ↔ ∃ a d s, a ≠ [] ∧ isDigit d = true ∧ Next ["interface"] t (a ++ '.' :: d :: s)) := by
  have hc : compile "^interface\\s+(\\S+?\\.\\d+)" = .ok ⟨seqs (.bol :: ((str "interface".toList (.plus .space .done)).toL ++
      [.grp 1 (seqs [.seq (.cls K.nonspace.cls) (.star false (.cls K.nonspace.cls)), .cls (K.chr '.').cls,
        .seq (.cls K.digit.cls) (.star true (.cls K.digit.cls))])])), 1, []⟩ := by decide +kernel
  obtain ⟨b, h1, h2⟩ := reTrue_bol hc t
  refine ⟨b, h1, h2.trans ?_⟩
  have key : ∀ u v, Lang t.length (seqs [.seq (.cls K.nonspace.cls) (.star false (.cls K.nonspace.cls)), .cls (K.chr '.').cls,
        .seq (.cls K.digit.cls) (.star true (.cls K.digit.cls))]) u v ↔
      ∃ a d, u = a ++ '.' :: d ++ v ∧ a ≠ [] ∧ (∀ c ∈ a, isSpace c = false) ∧ d ≠ [] ∧ ∀ c ∈ d, isDigit c = true := by
    intro u v
    simp only [lang_cons, lang_plus, lang_cls, lang_nil, nonspace_has]
    constructor
    · rintro ⟨_, ⟨a, rfl, ha, ha'⟩, _, ⟨x, rfl, hx⟩, _, ⟨d, rfl, hd, hd'⟩, rfl⟩
      have : x = '.' := by simpa [K.has] using hx
      subst this
      exact ⟨a, d, by simp, ha, ha', hd, hd'⟩
    · rintro ⟨a, d, rfl, ha, ha', hd, hd'⟩
      exact ⟨'.' :: d ++ v, ⟨a, by simp, ha, ha'⟩, d ++ v, ⟨'.', rfl, by simp [K.has]⟩, v, ⟨d, rfl, hd, hd'⟩, rfl⟩
  have hn1 : ∀ v, ¬ Lang t.length (seqs [.seq (.cls K.nonspace.cls) (.star false (.cls K.nonspace.cls)), .cls (K.chr '.').cls,
        .seq (.cls K.digit.cls) (.star true (.cls K.digit.cls))]) [] v := by
    intro v h
    obtain ⟨a, d, h, _⟩ := (key _ _).mp h
    simp at h
  have hn2 : ∀ x s v, isSpace x = true → ¬ Lang t.length (seqs [.seq (.cls K.nonspace.cls) (.star false (.cls K.nonspace.cls)), .cls (K.chr '.').cls,
        .seq (.cls K.digit.cls) (.star true (.cls K.digit.cls))]) (x :: s) v := by
    intro x s v hx h
    obtain ⟨a, d, h, ha, ha', _⟩ := (key _ _).mp h
    obtain ⟨y, a', rfl⟩ := List.exists_cons_of_ne_nil ha
    rw [List.cons_append, List.cons_append, List.cons.injEq] at h
    have := ha' y (by simp)
    rw [← h.1, hx] at this; cases this
  simp only [lead_grp (by decide : IsWord "interface".toList) hn1 hn2 ht, key]
  constructor
  · rintro ⟨v, hi, a, d, h, ha, ha', hd, hd'⟩
    obtain ⟨y, d', rfl⟩ := List.exists_cons_of_ne_nil hd
    rcases second_word ht hi with ⟨hk, _⟩ | ⟨w, rest, hk, hw, hrest, hs⟩
    · rw [hk] at h; simp at h
    · rw [hk] at h
      obtain ⟨s, hs'⟩ := piece_in_word (u := a ++ '.' :: y :: d') (s := v) hrest (by
        intro c hc
        rcases List.mem_append.mp hc with hc | hc
        · exact ha' c hc
        · rcases List.mem_cons.mp hc with rfl | hc
          · decide
          · cases hs : isSpace c with
            | false => rfl
            | true => exact absurd (hd' c hc) (by rw [space_not_digit hs]; decide)) (by rw [h])
      exact ⟨a, y, d' ++ s, ha, hd' y (by simp), splitWs rest, by rw [hs, ← hs']; simp [wd]⟩
  · rintro ⟨a, d, s, ha, hd, more, hs⟩
    have hi : (splitWs t).head? = some "interface".toList := by rw [hs]; rfl
    rcases second_word ht hi with ⟨hk, hk'⟩ | ⟨w, rest, hk, hw, hrest, hs'⟩
    · rw [hk'] at hs; exact absurd (congrArg List.length hs) (by simp [wd])
    · rw [hs] at hs'
      have e : a ++ '.' :: d :: s = w := by
        have := congrArg (fun l => l[1]?) hs'
        simpa [wd] using this
      subst e
      refine ⟨s ++ rest, hi, a, [d], by rw [hk]; simp, ha, fun c hc => hw.2 c (by simp [hc]), by simp, by simpa using hd⟩

/-- What `^interface\s+(.*?\Sthernet)` accepts behind the beginning of the line. -/
theorem ethernet_lang {t : Str} (hl : Line t) (ht : lstrip t = t) (n : Nat) :
    (∃ v, Lang n (seqs ((str "interface".toList (.plus .space .done)).toL ++
      [.grp 1 (seqs (.star false (.cls K.any.cls) :: .cls K.nonspace.cls :: (str "thernet".toList .done).toL))])) t v) ↔
    ∃ more, splitWs t = "interface".toList :: more ∧ ∃ w ∈ more, ∃ a x s, w = a ++ x :: "thernet".toList ++ s := by
  have hsp : ∀ c ∈ "thernet".toList, isSpace c = false := by decide
  constructor
  · rintro ⟨v, h⟩
    obtain ⟨u, h3, h4⟩ := (lang_append ..).mp h
    rw [lang_grp_last] at h4
    obtain ⟨r, rfl, h5⟩ := (lang_str ..).mp h3
    obtain ⟨u2, h6, h7⟩ := (lang_cons ..).mp h5
    obtain ⟨b, rfl, hbne, hb⟩ := (lang_plus ..).mp h6
    obtain rfl := (lang_nil ..).mp h7
    obtain ⟨u3, k1, k2⟩ := (lang_cons ..).mp h4
    obtain ⟨a, rfl, _⟩ := (lang_star' ..).mp k1
    obtain ⟨u4, k3, k4⟩ := (lang_cons ..).mp k2
    obtain ⟨x, rfl, hx⟩ := (lang_cls ..).mp k3
    obtain ⟨r, rfl, _⟩ := (lang_str ..).mp k4
    obtain ⟨y, b', rfl⟩ := List.exists_cons_of_ne_nil hbne
    have hy : isSpace y = true := hb y (by simp)
    refine ⟨splitWs (a ++ x :: ("thernet".toList ++ r)), ?_, ?_⟩
    · rw [List.cons_append, splitWs_word_space (by decide) hy, splitWs_spaces _ _ (fun c hc => hb c (by simp [hc]))]
    · obtain ⟨w, hw, a', s', hi⟩ := infix_word (u := x :: "thernet".toList) ⟨by simp, by
        intro c hc
        rcases List.mem_cons.mp hc with rfl | hc
        · exact (nonspace_has _).mp hx
        · exact hsp c hc⟩ _ (a ++ x :: ("thernet".toList ++ r)) (Nat.le_refl _) ⟨a, r, by simp⟩
      exact ⟨w, hw, a', x, s', by rw [← hi]⟩
  · rintro ⟨more, hs, w, hw, a, x, s, rfl⟩
    have hi : (splitWs t).head? = some "interface".toList := by rw [hs]; rfl
    have hne : t ≠ [] := by rintro rfl; cases hs
    obtain ⟨w', rest, he, hw', hrest, hsp'⟩ := split_cons ht hne
    rw [hs, List.cons.injEq] at hsp'
    obtain ⟨rfl, rfl⟩ := hsp'
    obtain ⟨p, q, hpq⟩ := word_infix _ rest (Nat.le_refl _) _ hw
    have hx : isSpace x = false := (splitWs_words rest _ hw).2 x (by simp)
    cases rest with
    | nil => simp at hpq
    | cons z rest =>
      have hz := hrest z rfl
      -- the first blank is read by `\s+`, the rest by `.*?`
      cases hpa : p ++ a with
      | nil =>
        exfalso
        have hp := (List.append_eq_nil_iff.mp hpa)
        rw [hp.1, hp.2] at hpq
        simp only [List.nil_append, List.cons_append, List.cons.injEq] at hpq
        rw [hpq.1, hz] at hx; cases hx
      | cons z' pa =>
        have e : z' :: pa ++ x :: ("thernet".toList ++ (s ++ q)) = z :: rest := by
          rw [← hpa, ← hpq]; simp
        rw [List.cons_append, List.cons.injEq] at e
        obtain ⟨rfl, e⟩ := e
        refine ⟨s ++ q, (lang_append ..).mpr ⟨rest, (lang_str ..).mpr ⟨z' :: rest, he, (lang_cons ..).mpr ⟨rest, ?_, rfl⟩⟩, ?_⟩⟩
        · exact (lang_plus ..).mpr ⟨[z'], rfl, by simp, by simpa [K.has] using hz⟩
        · rw [lang_grp_last]
          refine (lang_cons ..).mpr ⟨x :: ("thernet".toList ++ (s ++ q)), (lang_star' ..).mpr ⟨pa, e.symm, ?_⟩,
            (lang_cons ..).mpr ⟨"thernet".toList ++ (s ++ q), (lang_cls ..).mpr ⟨x, rfl, (nonspace_has x).mpr hx⟩,
              (lang_str ..).mpr ⟨s ++ q, rfl, rfl⟩⟩⟩
          intro c hc
          have : c ≠ '\n' := by
            rintro rfl
            refine hl.1 ?_
            rw [he, ← e]
            simp [hc]
          simpa [K.has] using this

/-- C84: `is_ethernet_intf`: a word behind `interface` has `thernet` in it, behind some letter. -/
theorem C84_ethernet {t : Str} (hl : Line t) (ht : lstrip t = t) :
    ∃ b, isEthernetIntf t = .ok b ∧
      (b = true ↔ ∃ more, splitWs t = "interface".toList :: more ∧ ∃ w ∈ more, ∃ a x s, w = a ++ x :: "thernet".toList ++ s) := by
  have hc : compile "^interface\\s+(.*?\\Sthernet)" = .ok ⟨seqs (.bol :: ((str "interface".toList (.plus .space .done)).toL ++
      [.grp 1 (seqs (.star false (.cls K.any.cls) :: .cls K.nonspace.cls :: (str "thernet".toList .done).toL))])), 1, []⟩ := by decide +kernel
  obtain ⟨b, h1, h2⟩ := reTrue_bol hc t
  exact ⟨b, h1, h2.trans (ethernet_lang hl ht _)⟩

/-! ## Ignoring case -/

theorem toNat_ofNat {n : Nat} (h : n < 200) : (Char.ofNat n).toNat = n := by
  have hv : n.isValidChar := .inl (by omega)
  rw [Char.ofNat, dif_pos hv]
  simp [Char.ofNatAux, Char.toNat]

theorem lower_swap (c : Char) : lowerChar (swapCase c) = lowerChar c := by
  have hv : ∀ n, n < 200 → (Char.ofNat n).toNat = n := by
    intro n hn
    exact toNat_ofNat (by omega)
  rw [swapCase]
  by_cases h1 : 65 ≤ c.toNat ∧ c.toNat ≤ 90
  · rw [if_pos h1, lowerChar, lowerChar, if_pos h1, if_neg]
    rw [hv _ (by omega)]; omega
  · rw [if_neg h1]
    by_cases h2 : 97 ≤ c.toNat ∧ c.toNat ≤ 122
    · rw [if_pos h2, lowerChar, lowerChar, if_neg h1, if_pos (by rw [hv _ (by omega)]; omega), hv _ (by omega)]
      rw [Nat.sub_add_cancel (by omega), Char.ofNat_toNat]
    · rw [if_neg h2]

theorem eq_of_lower {a c : Char} (h : lowerChar c = lowerChar a) : c = a ∨ swapCase c = a := by
  have hv : ∀ n, n < 200 → (Char.ofNat n).toNat = n := by
    intro n hn
    exact toNat_ofNat (by omega)
  have hinj : ∀ x y : Char, x.toNat = y.toNat → x = y := fun x y h => by
    rw [← Char.ofNat_toNat x, h, Char.ofNat_toNat]
  have h' := congrArg Char.toNat h
  rw [lowerChar, lowerChar] at h'
  rw [swapCase]
  by_cases h1 : 65 ≤ c.toNat ∧ c.toNat ≤ 90
  · rw [if_pos h1] at h' ⊢
    by_cases h2 : 65 ≤ a.toNat ∧ a.toNat ≤ 90
    · rw [if_pos h2, hv _ (by omega), hv _ (by omega)] at h'
      exact .inl (hinj _ _ (by omega))
    · rw [if_neg h2] at h'
      exact .inr (hinj _ _ h')
  · rw [if_neg h1] at h' ⊢
    by_cases h2 : 65 ≤ a.toNat ∧ a.toNat ≤ 90
    · rw [if_pos h2, hv _ (by omega)] at h'
      refine .inr (hinj _ _ ?_)
      rw [if_pos (by omega), hv _ (by omega)]; omega
    · rw [if_neg h2] at h'
      exact .inl (hinj _ _ h')

theorem lower_space (c : Char) : isSpace (lowerChar c) = isSpace c := by
  rw [lowerChar]
  split
  · rename_i h
    have hv : (Char.ofNat (c.toNat + 32)).toNat = c.toNat + 32 := by
      exact toNat_ofNat (by omega)
    have e1 : isSpace c = false := letter_not_space (by simp [isLetter, h.1, h.2])
    have e2 : isSpace (Char.ofNat (c.toNat + 32)) = false :=
      letter_not_space (by simp only [isLetter, hv, Bool.or_eq_true, Bool.and_eq_true, decide_eq_true_eq]; omega)
    rw [e1, e2]
  · rfl

theorem swap_space (c : Char) : isSpace (swapCase c) = isSpace c := by
  rw [← lower_space (swapCase c), lower_swap, lower_space]

/-- Text without regard to case. -/
def chrI (c : Char) : Rgx := .cls ⟨[.chr c], false, true⟩

/-- `\s`, with the flag. -/
def spaceI : Rgx := .cls ⟨[.space], false, true⟩

theorem chrI_has (a c : Char) : (⟨[.chr a], false, true⟩ : Cls).has c = true ↔ lowerChar c = lowerChar a := by
  have : (⟨[.chr a], false, true⟩ : Cls).has c = (c == a || swapCase c == a) := by simp [Cls.has, Item.has]
  rw [this, Bool.or_eq_true, beq_iff_eq, beq_iff_eq]
  constructor
  · rintro (rfl | rfl)
    · rfl
    · exact (lower_swap c).symm
  · exact eq_of_lower

theorem spaceI_has (c : Char) : (⟨[.space], false, true⟩ : Cls).has c = isSpace c := by
  simp [Cls.has, Item.has, swap_space]

theorem lang_strI (n : Nat) (w : Str) (l : List Rgx) (u v : Str) :
    Lang n (seqs (w.map chrI ++ l)) u v ↔ ∃ a r, u = a ++ r ∧ a.map lowerChar = w.map lowerChar ∧ Lang n (seqs l) r v := by
  induction w generalizing u with
  | nil =>
    constructor
    · intro h; exact ⟨[], u, rfl, rfl, h⟩
    · rintro ⟨a, r, rfl, ha, h⟩
      rw [List.map_nil, List.map_eq_nil_iff] at ha
      subst ha; exact h
  | cons x w ih =>
    rw [List.map_cons, List.cons_append, lang_cons]
    simp only [ih]
    constructor
    · rintro ⟨u', h1, a, r, rfl, h2, h3⟩
      rw [chrI, Lang] at h1
      obtain ⟨c, rfl, hc⟩ := h1
      exact ⟨c :: a, r, rfl, by rw [List.map_cons, List.map_cons, (chrI_has _ _).mp hc, h2], h3⟩
    · rintro ⟨a, r, rfl, h2, h3⟩
      cases a with
      | nil => simp at h2
      | cons c a =>
        rw [List.map_cons, List.map_cons, List.cons.injEq] at h2
        refine ⟨a ++ r, ?_, a, r, rfl, h2.2, h3⟩
        rw [chrI, Lang]
        exact ⟨c, rfl, (chrI_has _ _).mpr h2.1⟩

theorem splitWs_map (t : Str) : splitWs (t.map lowerChar) = (splitWs t).map (List.map lowerChar) := by
  have : ∀ (s acc : Str), splitWsAux (s.map lowerChar) (acc.map lowerChar) = (splitWsAux s acc).map (List.map lowerChar) := by
    intro s
    induction s with
    | nil =>
      intro acc
      rw [List.map_nil, splitWsAux, splitWsAux]
      cases acc with
      | nil => rfl
      | cons a acc => simp
    | cons c s ih =>
      intro acc
      rw [List.map_cons, splitWsAux, splitWsAux, lower_space]
      split
      · have := ih []
        rw [List.map_nil] at this
        cases acc with
        | nil => simpa using this
        | cons a acc => simp [this]
      · exact ih (c :: acc)
  exact this t []

/-- The words of an alternation. -/
def altsI : List Str → Rgx
  | [] => .eps
  | [w] => seqs (w.map chrI)
  | w :: w' :: ws => .alt (seqs (w.map chrI)) (altsI (w' :: ws))

theorem lang_altsI (n : Nat) (ws : List Str) (hne : ws ≠ []) (u v : Str) :
    Lang n (altsI ws) u v ↔ ∃ w ∈ ws, ∃ a, u = a ++ v ∧ a.map lowerChar = w.map lowerChar := by
  have one : ∀ w : Str, Lang n (seqs (w.map chrI)) u v ↔ ∃ a, u = a ++ v ∧ a.map lowerChar = w.map lowerChar := by
    intro w
    have := lang_strI n w [] u v
    rw [List.append_nil] at this
    rw [this]
    constructor
    · rintro ⟨a, r, h1, h2, h3⟩
      rw [lang_nil] at h3
      exact ⟨a, by rw [h1, h3], h2⟩
    · rintro ⟨a, h1, h2⟩
      exact ⟨a, v, h1, h2, rfl⟩
  induction ws with
  | nil => exact absurd rfl hne
  | cons w ws ih =>
    cases ws with
    | nil => rw [altsI, one]; simp
    | cons w' ws =>
      have h2 := ih (by simp)
      exact (or_congr (one w) h2).trans (by simp)

/-- The kinds of virtual interfaces. -/
def Spec.virtualKinds : List Str := wd ["loopback", "vlan", "tunnel", "dialer", "virtual-template", "port-channel"]

theorem kinds_re {rx : String} {names kinds : List Str} (hc : compileL rx.toList { ignoreCase := true } =
      .ok ⟨seqs (.bol :: ("interface".toList.map chrI ++ [.seq spaceI (.star true spaceI), .grp 1 (altsI names)])), 1, []⟩)
    (hnm : names ≠ []) (hlow : names.map (List.map lowerChar) = kinds) (hbl : ∀ k ∈ kinds, IsWord k) {t : Str} (ht : lstrip t = t) :
    ∃ b, reTrueI rx t = .ok b ∧ (b = true ↔ ∃ k ∈ kinds, ∃ s, Next ["interface"] (t.map lowerChar) (k ++ s)) := by
  refine ⟨_, by rw [reTrueI, hc], ?_⟩
  rw [search_lang]
  have hif : "interface".toList.map lowerChar = "interface".toList := by decide +kernel
  simp only [lang_strI, lang_cons, lang_nil]
  constructor
  · rintro ⟨_, a, r, rfl, ha, u, h1, v, h2, rfl⟩
    rw [Lang] at h2
    obtain ⟨w, hw, c, rfl, hcw⟩ := (lang_altsI _ _ hnm _ _).mp h2
    rw [Lang] at h1
    obtain ⟨r', h3, h4⟩ := h1
    rw [spaceI, Lang] at h3
    obtain ⟨y, rfl, hy⟩ := h3
    rw [spaceI_has] at hy
    rw [spaceI, lang_star] at h4
    obtain ⟨b, rfl, hb⟩ := h4
    simp only [spaceI_has] at hb
    have hk : w.map lowerChar ∈ kinds := by rw [← hlow]; exact List.mem_map_of_mem hw
    refine ⟨_, hk, (v.map lowerChar).takeWhile nsp, splitWs ((v.map lowerChar).dropWhile nsp), ?_⟩
    rw [List.map_append, ha, hif, List.map_cons, splitWs_word_space (by decide) (by rw [lower_space]; exact hy),
      List.map_append, splitWs_spaces _ _ (by
        intro c hc
        obtain ⟨d, hd, rfl⟩ := List.mem_map.mp hc
        rw [lower_space]; exact hb d hd), List.map_append, hcw]
    have hkw := hbl _ hk
    obtain ⟨x, k', hxk⟩ := List.exists_cons_of_ne_nil hkw.1
    have hl : lstrip (w.map lowerChar ++ v.map lowerChar) = w.map lowerChar ++ v.map lowerChar := by
      rw [hxk, List.cons_append, lstrip, List.dropWhile_cons_of_neg]
      have := hkw.2 x (by rw [hxk]; simp)
      rw [this]; decide
    rw [splitWs_cons hl (by rw [hxk]; simp)]
    have hp : ∀ c ∈ w.map lowerChar, nsp c = true := fun c hc => by simp [nsp, hkw.2 c hc]
    rw [List.takeWhile_append_of_pos hp, List.dropWhile_append_of_pos hp]
    rfl
  · rintro ⟨k, hk, s, more, hs⟩
    rw [← hlow] at hk
    obtain ⟨w, hw, rfl⟩ := List.mem_map.mp hk
    rw [splitWs_map] at hs
    obtain ⟨t0, l1, e0, e1, e2⟩ := List.map_eq_cons_iff.mp hs
    obtain ⟨t1, l2, rfl, e3, e4⟩ := List.map_eq_cons_iff.mp e2
    have hi : (splitWs t).head? = some t0 := by rw [e0]; rfl
    rcases second_word ht hi with ⟨hk, hk'⟩ | ⟨w', rest, hk, hw', hrest, hs'⟩
    · rw [hk'] at e0; exact absurd (congrArg List.length e0) (by simp)
    · rw [e0, List.cons.injEq, List.cons.injEq] at hs'
      obtain ⟨_, rfl, _⟩ := hs'
      have hne : t ≠ [] := by rintro rfl; cases hi
      obtain ⟨t0', rest0, he, hw0, hrest0, hsp0⟩ := split_cons ht hne
      rw [e0, List.cons.injEq] at hsp0
      obtain ⟨rfl, hsp0⟩ := hsp0
      have e5 : skip 1 t = lstrip rest0 := by
        rw [skip, skip, he, List.dropWhile_append_of_pos (fun c hc => by simp [nsp, hw0.2 c hc])]
        congr 1
        cases rest0 with
        | nil => rfl
        | cons z rest0 => rw [List.dropWhile_cons_of_neg (by simp [nsp, hrest0 z rfl])]
      cases rest0 with
      | nil => rw [e5] at hk; exact absurd (List.append_eq_nil_iff.mp hk.symm).1 hw'.1
      | cons z rest0 =>
        have hz := hrest0 z rfl
        obtain ⟨a1, a2, rfl, e6, e7⟩ := List.map_eq_append_iff.mp e3
        refine ⟨a2 ++ rest, t0, z :: rest0, he, by rw [e1, hif], lstrip (z :: rest0), ?_, a2 ++ rest, ?_, rfl⟩
        · rw [Lang]
          refine ⟨rest0, ?_, ?_⟩
          · rw [spaceI, Lang]; exact ⟨z, rfl, by rw [spaceI_has]; exact hz⟩
          · rw [spaceI, lang_star]
            refine ⟨rest0.takeWhile isSpace, ?_, fun c hc => by rw [spaceI_has]; exact of_mem_takeWhile hc⟩
            rw [lstrip, List.dropWhile_cons_of_pos hz, List.takeWhile_append_dropWhile]
        · rw [Lang]
          exact (lang_altsI _ _ hnm _ _).mpr ⟨w, hw, a1, by rw [← e5, hk, List.append_assoc], e6⟩

/-- C84: `is_virtual_intf`: in small letters, the second word begins with one of the virtual kinds. -/
theorem C84_virtual {t : Str} (ht : lstrip t = t) :
    ∃ b, isVirtualIntf t = .ok b ∧
      (b = true ↔ ∃ k ∈ virtualKinds, ∃ s, Next ["interface"] (t.map lowerChar) (k ++ s)) :=
  kinds_re (rx := "^interface\\s+(Loopback|Vlan|Tunnel|Dialer|Virtual-Template|Port-Channel)")
    (names := wd ["Loopback", "Vlan", "Tunnel", "Dialer", "Virtual-Template", "Port-Channel"]) (kinds := virtualKinds) (by decide +kernel) (by decide)
    (by decide +kernel) (by decide +kernel) ht

/-! ## Channel groups -/

variable {o : Opts} {lines : List Str} {P : Parsed}

/-- C84: `portchannel_number` is the number of the first `channel-group` line, and -1 without
one; `in_portchannel` says that there is one. -/
theorem C84_channel_group (h : parse o lines = .ok P) (hn : ∀ l ∈ lines, '\n' ∉ l) (i : Nat) :
    ∃ v, First (fun t (v : Int) => ∃ w a, Next ["channel-group"] t w ∧ Leads w a ∧ v = natVal a) (family P i) v ∧
      portchannelNumber P i = .ok (v.getD (-1)) ∧ intfInPortchannel P i = .ok v.isSome := by
  obtain ⟨v, h1, h2⟩ := tail_attr h hn i (rx := "^\\s*channel-group\\s+(\\d+)") (ind := false)
    (pre := gaps true ["channel-group"]) (n := 1) (names := []) (tail_lead 1)
    (by decide +kernel) (fun t _ => .inl (by simp [gaps])) toInt (-1) (by
      rintro ws v ⟨w, more, rfl, u, _, h, _⟩
      exact ⟨_, toInt_digits h⟩)
  obtain ⟨b, h3, h4⟩ := tail_flag h hn i (rx := "^\\s*channel-group\\s+(\\d+)") (ind := false)
    (pre := gaps true ["channel-group"]) (n := 1) (names := []) (tail_lead 1)
    (by decide +kernel) (fun t _ => .inl (by simp [gaps])) (by
      rintro t ws v _ ⟨w, more, rfl, u, _, h, _⟩
      exact h.1)
  have key : First (fun t (v : Int) => ∃ w a, Next ["channel-group"] t w ∧ Leads w a ∧ v = natVal a) (family P i) v := by
    refine first_congr (fun t _ n => ?_) h1
    rw [fst_gaps]
    constructor
    · rintro ⟨-, more, v, b1, ⟨w, more', rfl, b2⟩, b3⟩
      have hd := b2
      obtain ⟨u, _, hd, _⟩ := hd
      rw [toInt_digits hd] at b3
      cases b3
      exact ⟨w, v, ⟨more', b1⟩, b2, rfl⟩
    · rintro ⟨w, a, ⟨more, b1⟩, b2, rfl⟩
      have hd := b2
      obtain ⟨u, _, hd, _⟩ := hd
      exact ⟨by simp, _, a, b1, ⟨w, more, rfl, b2⟩, toInt_digits hd⟩
  refine ⟨v, key, h2, ?_⟩
  rw [intfInPortchannel, h3]
  congr 1
  rw [Bool.eq_iff_iff, h4, fst_gaps]
  generalize family P i = ts at key
  clear h1 h2 h3 h4
  induction ts with
  | nil => rw [First] at key; rw [key]; simp
  | cons t ts ih =>
    rcases key with ⟨a, ⟨w, d, ⟨more, k1⟩, k2, rfl⟩, rfl⟩ | ⟨k1, k2⟩
    · refine ⟨fun _ => rfl, fun _ => ⟨t, by simp, by simp, _, d, k1, w, more, rfl, k2⟩⟩
    · rw [← ih k2]
      constructor
      · rintro ⟨t', ht', hx, more, v, e1, w, more', rfl, e2⟩
        rcases List.mem_cons.mp ht' with rfl | ht'
        · exact absurd ⟨w, v, ⟨more', e1⟩, e2, rfl⟩ (k1 (natVal v : Int))
        · exact ⟨t', ht', hx, _, v, e1, w, more', rfl, e2⟩
      · rintro ⟨t', ht', hx⟩
        exact ⟨t', by simp [ht'], hx⟩

/-! ## Global defaults -/

/-- C84: the flags of a line with a global default. -/
theorem C84_global (t : Str) :
    (∃ b, hasCdpDisabled t = .ok b ∧ (b = true ↔ Phrase (wd ["no", "cdp", "run"]) t)) ∧
    (∃ b, hasIntfLoggingDef t = .ok b ∧ (b = true ↔ Phrase (wd ["logging", "event", "link-status", "global"]) t)) ∧
    (∃ b, hasStpPortfastDef t = .ok b ∧ (b = true ↔ Phrase1 (wd ["spanning-tree", "portfast", "default"]) t)) ∧
    (∃ b, hasStpPortfastBpduguardDef t = .ok b ∧
      (b = true ↔ Phrase1 (wd ["spanning-tree", "portfast", "bpduguard", "default"]) t)) ∧
    (∃ b, hasStpModeRapidpvst t = .ok b ∧ (b = true ↔ Phrase1 (wd ["spanning-tree", "mode", "rapid-pvst"]) t)) := by
  refine ⟨?_, reTrue_phrase (by decide) (by decide +kernel) t, ⟨_, reTrue_det (n := 0) (names := []) (by decide +kernel) t, det_phrase1 t []⟩,
    ⟨_, reTrue_det (n := 0) (names := []) (by decide +kernel) t, det_phrase1 t []⟩,
    ⟨_, reTrue_det (n := 0) (names := []) (by decide +kernel) t, det_phrase1 t []⟩⟩
  have hc : compile "^no\\s+cdp\\s+run\\s*" = .ok ⟨seqs (.bol :: ((phraseP (wd ["no", "cdp", "run"])).toL ++
      [.star true (.cls K.space.cls)])), 0, []⟩ := by decide +kernel
  obtain ⟨b, h1, h2⟩ := reTrue_bol hc t
  refine ⟨b, h1, h2.trans ?_⟩
  rw [← det_phrase (by decide) t [], ← head_prog t.length (by decide)]
  have : (run t.length (seqs (phraseP (wd ["no", "cdp", "run"])).toL) t []).head?.isSome = true ↔
      run t.length (seqs (phraseP (wd ["no", "cdp", "run"])).toL) t [] ≠ [] := by
    cases run t.length (seqs (phraseP (wd ["no", "cdp", "run"])).toL) t [] <;> simp
  rw [this, run_ne_nil]
  constructor
  · rintro ⟨v, hv⟩
    obtain ⟨w, hw, _⟩ := (lang_append ..).mp hv
    exact ⟨w, hw⟩
  · rintro ⟨v, hv⟩
    exact ⟨v, (lang_append ..).mpr ⟨v, hv, (lang_cons ..).mpr ⟨v, (lang_star' ..).mpr ⟨[], rfl, by simp⟩, rfl⟩⟩⟩

/-! ## Cases that meet the hypotheses -/

example : Next ["interface"] "interface Loopback0".toList ('L' :: "oopback".toList ++ "0".toList) ∧
    isLoopbackIntf "interface Loopback0".toList = .ok true ∧ isVirtualIntf "interface Loopback0".toList = .ok true ∧
    isEthernetIntf "interface GigabitEthernet0/1.5".toList = .ok true ∧
    isSubintf "interface GigabitEthernet0/1.5".toList = .ok true ∧ isSubintf "interface GigabitEthernet0/1".toList = .ok false := by
  refine ⟨⟨[], by decide +kernel⟩, ?_⟩
  decide +kernel

/-- Any word behind `interface` counts, and any letter in front. -/
example :
    isEthernetIntf "interface Tunnel5 mode-ethernet".toList = .ok true ∧
    isLoopbackIntf "interface xoopback".toList = .ok true := by decide +kernel


end Cisco

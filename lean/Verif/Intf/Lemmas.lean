import Verif.Intf.Spec
import Verif.PyLemmas

/-! # Lemmas about interface names -/

namespace Intf

open Py

theorem isPfx_iff (c : Char) : isPfx c = true ↔ Spec.pfxChar c := by
  simp [isPfx, Spec.pfxChar, or_assoc]

theorem digit_not_pfx {c : Char} (h : isDigit c = true) : isPfx c = false := by
  have h1 : isLetter c = false := by
    cases hl : isLetter c with
    | false => rfl
    | true => rw [isLetter_not_digit hl] at h; cases h
  have h2 := isDigit_not_space h
  have h3 : c ≠ '-' := isDigit_ne h (by decide)
  simp [isPfx, h1, h2, h3]

theorem takeWhile_append {α : Type _} {p : α → Bool} {a b : List α} (ha : ∀ x ∈ a, p x = true)
    (hb : ∀ x, b.head? = some x → p x = false) : (a ++ b).takeWhile p = a := by
  induction a with
  | nil =>
    cases b with
    | nil => rfl
    | cons x b => rw [List.nil_append, List.takeWhile_cons, if_neg (by simp [hb x rfl])]
  | cons x a ih =>
    rw [List.cons_append, List.takeWhile_cons, if_pos (ha x (by simp)), ih (fun y hy => ha y (by simp [hy]))]

theorem dropWhile_append {α : Type _} {p : α → Bool} {a b : List α} (ha : ∀ x ∈ a, p x = true)
    (hb : ∀ x, b.head? = some x → p x = false) : (a ++ b).dropWhile p = b := by
  induction a with
  | nil =>
    cases b with
    | nil => rfl
    | cons x b => rw [List.nil_append, List.dropWhile_cons, if_neg (by simp [hb x rfl])]
  | cons x a ih =>
    rw [List.cons_append, List.dropWhile_cons, if_pos (ha x (by simp)), ih (fun y hy => ha y (by simp [hy]))]

/-- Does not begin with a digit. -/
def NoDigit (r : Str) : Prop := ∀ c, r.head? = some c → isDigit c = false

theorem take_nat (n : Nat) {r : Str} (h : NoDigit r) : (natStr n ++ r).takeWhile isDigit = natStr n :=
  takeWhile_append (natStr_digits n) h

theorem drop_nat (n : Nat) {r : Str} (h : NoDigit r) : (natStr n ++ r).dropWhile isDigit = r :=
  dropWhile_append (natStr_digits n) h

theorem nat_head (n : Nat) : ∃ c r, natStr n = c :: r ∧ isDigit c = true := by
  cases h : natStr n with
  | nil => exact absurd h (natStr_ne_nil n)
  | cons c r => exact ⟨c, r, rfl, natStr_digits n c (by rw [h]; simp)⟩

theorem not_mem_nat {c : Char} (hc : isDigit c = false) (n : Nat) : c ∉ natStr n := by
  intro h
  rw [natStr_digits n c h] at hc; cases hc

theorem afterSign_skip {c : Char} {a r : Str} (h : c ∉ a) : afterSign c (a ++ r) = afterSign c r := by
  induction a with
  | nil => rfl
  | cons x a ih =>
    rw [List.cons_append, afterSign, if_neg, ih (fun hc => h (by simp [hc]))]
    rintro ⟨rfl, _⟩
    exact h (by simp)

theorem afterSign_none {c : Char} {a : Str} (h : c ∉ a) : afterSign c a = none := by
  have := afterSign_skip (r := []) h
  rw [List.append_nil] at this
  rw [this]; rfl

theorem afterSign_some {c : Char} {n : Nat} {r : Str} (h : NoDigit r) :
    afterSign c (c :: (natStr n ++ r)) = some n := by
  rw [afterSign, take_nat n h, if_pos ⟨rfl, natStr_ne_nil n⟩, natVal_natStr]

theorem isClsChar_iff (c : Char) : isClsChar c = true ↔ isLetter c = true ∨ c = '-' := by
  simp [isClsChar]

theorem cls_not_space {c : Char} (h : isLetter c = true ∨ c = '-') : isSpace c = false := by
  rcases h with h | rfl
  · exact isLetter_not_space h
  · decide

theorem cls_ne {c d : Char} (h : isLetter c = true ∨ c = '-') (hd : isLetter d = false) (hd' : d ≠ '-') :
    c ≠ d := by
  rintro rfl
  rcases h with h | h
  · rw [h] at hd; cases hd
  · exact hd' h

/-- A good class word. -/
def GoodCls (o : Option Str) : Prop := ∀ w, o = some w → w ≠ [] ∧ ∀ c ∈ w, isLetter c = true ∨ c = '-'

theorem clsOf_word {x : Str} (hx : ∀ c ∈ x, isSpace c = false) {o : Option Str} (ho : GoodCls o) :
    clsOf (x ++ Spec.word o) = o := by
  cases o with
  | none =>
    rw [Spec.word, List.append_nil, clsOf]
    have : x.reverse.takeWhile (fun c => !isSpace c) = x.reverse := by
      have := takeWhile_append (p := fun c => !isSpace c) (a := x.reverse) (b := [])
        (fun c hc => by simp [hx c (by simpa using hc)]) (fun c hc => by cases hc)
      rwa [List.append_nil] at this
    rw [this]
    simp
  | some w =>
    obtain ⟨h1, h2⟩ := ho w rfl
    have : (x ++ ' ' :: w).reverse.takeWhile (fun c => !isSpace c) = w.reverse := by
      rw [List.reverse_append, List.reverse_cons, List.append_assoc]
      refine takeWhile_append (fun c hc => ?_) (fun c hc => ?_)
      · simp [cls_not_space (h2 c (by simpa using hc))]
      · simp at hc
        rw [← hc]; decide
    rw [Spec.word, clsOf, this, List.reverse_reverse]
    rw [if_pos]
    refine ⟨by simp; omega, h1, ?_⟩
    rw [List.all_eq_true]
    exact fun c hc => (isClsChar_iff c).mpr (h2 c hc)

theorem word_noDigit (o : Option Str) : NoDigit (Spec.word o) := by
  intro c hc
  cases o with
  | none => cases hc
  | some w => simp [Spec.word] at hc; rw [← hc]; decide

theorem signed_noDigit {d : Char} (hd : isDigit d = false) (o : Option Nat) {r : Str} (hr : NoDigit r) :
    NoDigit (Spec.signed d o ++ r) := by
  intro c hc
  cases o with
  | none => exact hr c hc
  | some n => simp [Spec.signed] at hc; rw [← hc]; exact hd

/-- What is behind the numbers. -/
def tail (i : Intf) : Str := Spec.signed '.' i.sub ++ (Spec.signed ':' i.chan ++ Spec.word i.cls)

theorem body_eq (i : Intf) : Spec.body i = Spec.numbers i ++ tail i := by
  simp [Spec.body, tail]

theorem tail_noDigit (i : Intf) : NoDigit (tail i) :=
  signed_noDigit (by decide) _ (signed_noDigit (by decide) _ (word_noDigit _))

theorem not_mem_signed {c d : Char} (hc : isDigit c = false) (hcd : c ≠ d) (o : Option Nat) :
    c ∉ Spec.signed d o := by
  cases o with
  | none => simp [Spec.signed]
  | some n => simp [Spec.signed, hcd, not_mem_nat hc n]

theorem not_mem_word {c : Char} {o : Option Str} (ho : GoodCls o) (h1 : isLetter c = false) (h2 : c ≠ '-')
    (h3 : c ≠ ' ') : c ∉ Spec.word o := by
  cases o with
  | none => simp [Spec.word]
  | some w =>
    simp only [Spec.word, List.mem_cons, not_or]
    exact ⟨h3, fun h => cls_ne ((ho w rfl).2 c h) h1 h2 rfl⟩

theorem sub_of {x : Str} (i : Intf) (hx : '.' ∉ x) (hc : GoodCls i.cls) :
    afterSign '.' (x ++ tail i) = i.sub := by
  rw [afterSign_skip hx, tail]
  cases hs : i.sub with
  | none =>
    rw [Spec.signed, List.nil_append, afterSign_none]
    rw [List.mem_append, not_or]
    exact ⟨not_mem_signed (by decide) (by decide) _, not_mem_word hc (by decide) (by decide) (by decide)⟩
  | some n =>
    rw [Spec.signed, List.cons_append, afterSign_some]
    exact signed_noDigit (by decide) _ (word_noDigit _)

theorem chan_of {x : Str} (i : Intf) (hx : ':' ∉ x) (hc : GoodCls i.cls) :
    afterSign ':' (x ++ tail i) = i.chan := by
  rw [afterSign_skip hx, tail, afterSign_skip (not_mem_signed (by decide) (by decide) _)]
  cases hs : i.chan with
  | none =>
    rw [Spec.signed, List.nil_append, afterSign_none]
    exact not_mem_word hc (by decide) (by decide) (by decide)
  | some n =>
    rw [Spec.signed, List.cons_append, afterSign_some]
    exact word_noDigit _

theorem signed_noSpace {d : Char} (hd : isSpace d = false) (o : Option Nat) :
    ∀ c ∈ Spec.signed d o, isSpace c = false := by
  intro c hc
  cases o with
  | none => cases hc
  | some n =>
    rcases List.mem_cons.mp hc with rfl | hc
    · exact hd
    · exact isDigit_not_space (natStr_digits n c hc)

theorem cls_of {x : Str} (i : Intf) (hx : ∀ c ∈ x, isSpace c = false) (hc : GoodCls i.cls) :
    clsOf (x ++ tail i) = i.cls := by
  have e : x ++ tail i = (x ++ Spec.signed '.' i.sub ++ Spec.signed ':' i.chan) ++ Spec.word i.cls := by
    simp [tail]
  rw [e, clsOf_word _ hc]
  intro c h
  rcases List.mem_append.mp h with h | h
  · rcases List.mem_append.mp h with h | h
    · exact hx c h
    · exact signed_noSpace (by decide) _ c h
  · exact signed_noSpace (by decide) _ c h

theorem short_digit {c : Char} (h : isDigit c = true) : isShort c = true := by simp [isShort, h]

theorem short_signed {d : Char} (hd : isShort d = true) (o : Option Nat) :
    ∀ c ∈ Spec.signed d o, isShort c = true := by
  intro c hc
  cases o with
  | none => cases hc
  | some n =>
    rcases List.mem_cons.mp hc with rfl | hc
    · exact hd
    · exact short_digit (natStr_digits n c hc)

theorem short_pfx {c : Char} (h : isPfx c = true) : isShort c = true := by simp [isShort, h]

theorem short_word {o : Option Str} (ho : GoodCls o) : ∀ c ∈ Spec.word o, isShort c = true := by
  intro c hc
  cases o with
  | none => cases hc
  | some w =>
    rcases List.mem_cons.mp hc with rfl | hc
    · decide
    · refine short_pfx ((isPfx_iff c).mpr ?_)
      rcases (ho w rfl).2 c hc with h | h
      · exact Or.inl h
      · exact Or.inr (Or.inl h)

theorem short_tail {i : Intf} (hc : GoodCls i.cls) : ∀ c ∈ tail i, isShort c = true := by
  intro c h
  rcases List.mem_append.mp h with h | h
  · exact short_signed (by decide) _ c h
  · rcases List.mem_append.mp h with h | h
    · exact short_signed (by decide) _ c h
    · exact short_word hc c h

theorem splitName_some {ok : Char → Bool} {p b : Str} (hp : ∀ c ∈ p, isPfx c = true)
    (hb : ∃ c r, b = c :: r ∧ isDigit c = true) (ho : ∀ c ∈ p ++ b, ok c = true) :
    splitName ok (p ++ b) = some (p, b) := by
  obtain ⟨c, r, rfl, hc⟩ := hb
  have hh : ∀ x, (c :: r).head? = some x → isPfx x = false := by
    intro x hx; simp at hx; rw [← hx]; exact digit_not_pfx hc
  rw [splitName, if_pos ⟨by simp, by rw [List.all_eq_true]; exact ho⟩, dropWhile_append hp hh,
    takeWhile_append hp hh, if_neg (by simp)]

theorem splitName_none {ok : Char → Bool} {t : Str} {c : Char} (hc : c ∈ t) (ho : ok c = false) :
    splitName ok t = none := by
  rw [splitName, if_neg]
  rintro ⟨_, h⟩
  rw [List.all_eq_true] at h
  rw [h c hc] at ho; cases ho

theorem parseShort_body {p : Str} (i : Intf) (h1 : i.slot = none) (h2 : i.card = none) (h3 : i.sep = none)
    (hp : strip p = i.pfx) (hc : GoodCls i.cls) : parseShort p (natStr i.port ++ tail i) = .ok i := by
  have hf : firstDigits (natStr i.port ++ tail i) = natStr i.port := by
    obtain ⟨c, r, e, hd⟩ := nat_head i.port
    rw [firstDigits, dropWhile_of_head, take_nat _ (tail_noDigit i)]
    intro x hx
    rw [e] at hx
    simp at hx
    rw [← hx]; simp [hd]
  rw [parseShort, hf, if_neg (natStr_ne_nil _), sub_of i (not_mem_nat (by decide) _) hc,
    chan_of i (not_mem_nat (by decide) _) hc,
    cls_of i (fun c h => isDigit_not_space (natStr_digits _ c h)) hc, natVal_natStr, hp]
  cases i
  simp_all

theorem slash_noDigit (r : Str) : NoDigit ('/' :: r) := by
  intro c hc; simp at hc; rw [← hc]; decide

theorem tail_head (i : Intf) : ∀ c, (tail i).head? = some c → c = '.' ∨ c = ':' ∨ c = ' ' := by
  intro c hc
  rw [tail] at hc
  cases hs : i.sub with
  | some n => rw [hs] at hc; simp [Spec.signed] at hc; exact Or.inl hc.symm
  | none =>
    rw [hs] at hc
    cases hs2 : i.chan with
    | some n => rw [hs2] at hc; simp [Spec.signed] at hc; exact Or.inr (Or.inl hc.symm)
    | none =>
      rw [hs2] at hc
      cases hs3 : i.cls with
      | some n => rw [hs3] at hc; simp [Spec.signed, Spec.word] at hc; exact Or.inr (Or.inr hc.symm)
      | none => rw [hs3] at hc; simp [Spec.signed, Spec.word] at hc

theorem optSlash_not {t : Str} (h : ∀ c, t.head? = some c → c ≠ '/') : optSlash t = (false, t) := by
  unfold optSlash
  split
  · exact absurd rfl (h '/' rfl)
  · rfl

theorem optSlash_tail (i : Intf) : optSlash (tail i) = (false, tail i) := by
  refine optSlash_not (fun c hc => ?_)
  rcases tail_head i c hc with rfl | rfl | rfl <;> decide

theorem take_tail (i : Intf) : (tail i).takeWhile isDigit = [] := by
  have := takeWhile_append (p := isDigit) (a := []) (b := tail i) (fun _ h => by cases h) (tail_noDigit i)
  simpa using this

theorem parseLong_body {p : Str} (i : Intf) {s : Nat} (h1 : i.slot = some s) (h3 : i.sep = some '/')
    (hp : strip p = i.pfx) (hc : GoodCls i.cls) :
    parseLong p (Spec.numbers i ++ tail i) = .ok i := by
  have hdot : ∀ {c : Char}, isDigit c = false → c ≠ '/' → c ∉ Spec.numbers i := by
    intro c h h'
    have : ∀ n, c ∉ natStr n := fun n => not_mem_nat h n
    cases hk : i.card with
    | none => simp [Spec.numbers, h1, hk, join, this, h']
    | some k => simp [Spec.numbers, h1, hk, join, this, h']
  have hsp : ∀ c ∈ Spec.numbers i, isSpace c = false := by
    intro c hcm
    cases hd : isDigit c with
    | true => exact isDigit_not_space hd
    | false =>
      by_cases he : c = '/'
      · rw [he]; decide
      · exact absurd hcm (hdot hd he)
  have e1 := sub_of i (hdot (c := '.') (by decide) (by decide)) hc
  have e2 := chan_of i (hdot (c := ':') (by decide) (by decide)) hc
  have e3 := cls_of i hsp hc
  rw [parseLong, e1, e2, e3]
  cases hk : i.card with
  | none =>
    have en : Spec.numbers i ++ tail i = natStr s ++ '/' :: (natStr i.port ++ tail i) := by
      simp [Spec.numbers, h1, hk, join]
    rw [en, take_nat _ (slash_noDigit _), drop_nat _ (slash_noDigit _)]
    dsimp only
    rw [if_neg (natStr_ne_nil _)]
    have eo : optSlash ('/' :: (natStr i.port ++ tail i)) = (true, natStr i.port ++ tail i) := rfl
    rw [eo]
    dsimp only
    rw [take_nat _ (tail_noDigit i), drop_nat _ (tail_noDigit i), optSlash_tail]
    dsimp only
    rw [take_tail]
    simp only [optNat, if_neg (natStr_ne_nil i.port), if_true, natVal_natStr]
    rw [if_neg (by decide), hp]
    cases i
    simp_all
  | some k =>
    have en : Spec.numbers i ++ tail i = natStr s ++ '/' :: (natStr k ++ '/' :: (natStr i.port ++ tail i)) := by
      simp [Spec.numbers, h1, hk, join]
    rw [en, take_nat _ (slash_noDigit _), drop_nat _ (slash_noDigit _)]
    dsimp only
    rw [if_neg (natStr_ne_nil _)]
    have eo : ∀ r : Str, optSlash ('/' :: r) = (true, r) := fun _ => rfl
    rw [eo]
    dsimp only
    rw [take_nat _ (slash_noDigit _), drop_nat _ (slash_noDigit _), eo]
    dsimp only
    rw [take_nat _ (tail_noDigit i)]
    simp only [optNat, if_neg (natStr_ne_nil i.port), if_neg (natStr_ne_nil k), natVal_natStr]
    rw [if_neg (by decide), hp]
    cases i
    simp_all

theorem numbers_head (i : Intf) : ∃ c r, Spec.numbers i = c :: r ∧ isDigit c = true := by
  have h : ∀ n (r : Str), ∃ c r', natStr n ++ r = c :: r' ∧ isDigit c = true := by
    intro n r
    obtain ⟨c, r', e, hc⟩ := nat_head n
    exact ⟨c, r' ++ r, by rw [e]; rfl, hc⟩
  cases hs : i.slot with
  | none =>
    cases hk : i.card with
    | none => have := h i.port []; simpa [Spec.numbers, hs, hk, join] using this
    | some k => have := h k ('/' :: natStr i.port); simpa [Spec.numbers, hs, hk, join] using this
  | some s =>
    cases hk : i.card with
    | none => have := h s ('/' :: natStr i.port); simpa [Spec.numbers, hs, hk, join] using this
    | some k => have := h s ('/' :: (natStr k ++ '/' :: natStr i.port)); simpa [Spec.numbers, hs, hk, join] using this

/-- A name in parts: prefix characters, then the body. -/
theorem parse_parts {t p : Str} {i : Intf} (h : Spec.Valid i) (ht : strip t = p ++ Spec.body i)
    (hcomma : ',' ∉ t) (hp : ∀ c ∈ p, isPfx c = true) (hs : strip p = i.pfx) : parse t = .ok i := by
  have hc : GoodCls i.cls := h.cls
  rw [parse, if_neg hcomma, ht, body_eq]
  obtain ⟨x, r, e, hd⟩ := numbers_head i
  have hb : ∃ c r, Spec.numbers i ++ tail i = c :: r ∧ isDigit c = true := ⟨x, r ++ tail i, by rw [e]; rfl, hd⟩
  cases hsl : i.slot with
  | none =>
    have hk : i.card = none := by
      cases hk : i.card with
      | none => rfl
      | some k => have := h.card (by rw [hk]; rfl); rw [hsl] at this; cases this
    have en : Spec.numbers i = natStr i.port := by simp [Spec.numbers, hsl, hk, join]
    have hsep : i.sep = none := by rw [h.sep, hsl]; rfl
    rw [splitName_some hp hb]
    · dsimp only
      rw [en]
      exact parseShort_body i hsl hk hsep hs hc
    · intro c hcm
      rcases List.mem_append.mp hcm with hcm | hcm
      · exact short_pfx (hp c hcm)
      · rcases List.mem_append.mp hcm with hcm | hcm
        · rw [en] at hcm; exact short_digit (natStr_digits _ c hcm)
        · exact short_tail hc c hcm
  | some s =>
    have hsep : i.sep = some '/' := by rw [h.sep, hsl]; rfl
    have hslash : '/' ∈ Spec.numbers i := by
      cases hk : i.card with
      | none => simp [Spec.numbers, hsl, hk, join]
      | some k => simp [Spec.numbers, hsl, hk, join]
    have hnum : ∀ c ∈ Spec.numbers i, isLong c = true := by
      intro c hcm
      cases hd : isDigit c with
      | true => simp [isLong, short_digit hd]
      | false =>
        by_cases he : c = '/'
        · rw [he]; decide
        · exfalso
          have : ∀ n, c ∉ natStr n := fun n => not_mem_nat hd n
          cases hk : i.card with
          | none => simp [Spec.numbers, hsl, hk, join, this, he] at hcm
          | some k => simp [Spec.numbers, hsl, hk, join, this, he] at hcm
    rw [splitName_none (c := '/') (by simp [hslash]) (by decide), splitName_some hp hb]
    · dsimp only
      exact parseLong_body i hsl hsep hs hc
    · intro c hcm
      rcases List.mem_append.mp hcm with hcm | hcm
      · simp [isLong, short_pfx (hp c hcm)]
      · rcases List.mem_append.mp hcm with hcm | hcm
        · exact hnum c hcm
        · simp [isLong, short_tail hc c hcm]

end Intf

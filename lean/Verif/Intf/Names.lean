import Verif.Intf.Lemmas
import Verif.Conf.Braces

/-! # Names: spacing, what the parser returns -/

namespace Intf

open Py

theorem valid_cls {i : Intf} (h : Spec.Valid i) : GoodCls i.cls := h.cls

theorem getLast?_append_ne {α : Type _} {a b : List α} (h : b ≠ []) : (a ++ b).getLast? = b.getLast? := by
  rw [List.getLast?_append]
  cases hb : b.getLast? with
  | none => rw [List.getLast?_eq_none_iff] at hb; exact absurd hb h
  | some x => rfl

theorem numbers_last (i : Intf) : ∃ r n, Spec.numbers i = r ++ natStr n := by
  cases hs : i.slot with
  | none =>
    cases hk : i.card with
    | none => exact ⟨[], i.port, by simp [Spec.numbers, hs, hk, join]⟩
    | some k => exact ⟨natStr k ++ ['/'], i.port, by simp [Spec.numbers, hs, hk, join]⟩
  | some s =>
    cases hk : i.card with
    | none => exact ⟨natStr s ++ ['/'], i.port, by simp [Spec.numbers, hs, hk, join]⟩
    | some k => exact ⟨natStr s ++ ['/'] ++ natStr k ++ ['/'], i.port, by simp [Spec.numbers, hs, hk, join]⟩

theorem nat_last (r : Str) (n : Nat) : ∀ c, (r ++ natStr n).getLast? = some c → isSpace c = false := by
  intro c hc
  rw [getLast?_append_ne (natStr_ne_nil n)] at hc
  exact isDigit_not_space (natStr_digits n c (List.mem_of_getLast? hc))

theorem body_last {i : Intf} (h : GoodCls i.cls) : ∀ c, (Spec.body i).getLast? = some c → isSpace c = false := by
  rw [Spec.body]
  cases hc : i.cls with
  | some w =>
    obtain ⟨h1, h2⟩ := h w hc
    intro c hl
    rw [Spec.word, getLast?_append_ne (by simp)] at hl
    have : ' ' :: w = [' '] ++ w := rfl
    rw [this, getLast?_append_ne h1] at hl
    exact cls_not_space (h2 c (List.mem_of_getLast? hl))
  | none =>
    rw [Spec.word, List.append_nil]
    cases hk : i.chan with
    | some n =>
      have : Spec.numbers i ++ Spec.signed '.' i.sub ++ Spec.signed ':' (some n) =
          (Spec.numbers i ++ Spec.signed '.' i.sub ++ [':']) ++ natStr n := by simp [Spec.signed]
      rw [this]; exact nat_last _ _
    | none =>
      rw [Spec.signed, List.append_nil]
      cases hs : i.sub with
      | some n =>
        have : Spec.numbers i ++ Spec.signed '.' (some n) = (Spec.numbers i ++ ['.']) ++ natStr n := by
          simp [Spec.signed]
        rw [this]; exact nat_last _ _
      | none =>
        rw [Spec.signed, List.append_nil]
        obtain ⟨r, n, e⟩ := numbers_last i
        rw [e]; exact nat_last _ _

theorem body_head (i : Intf) : ∃ c r, Spec.body i = c :: r ∧ isDigit c = true := by
  obtain ⟨c, r, e, h⟩ := numbers_head i
  exact ⟨c, r ++ tail i, by rw [body_eq, e]; rfl, h⟩

theorem lstrip_append {a b : Str} (hb : ∀ c, b.head? = some c → isSpace c = false) :
    lstrip (a ++ b) = lstrip a ++ b := by
  induction a with
  | nil => exact lstrip_of_head hb
  | cons x a ih =>
    rw [List.cons_append, lstrip, lstrip, List.dropWhile_cons, List.dropWhile_cons]
    by_cases hx : isSpace x = true
    · rw [if_pos hx, if_pos hx]; exact ih
    · rw [if_neg hx, if_neg hx]; rfl

/-- White text around a name and between its prefix and its numbers is ignored. -/
theorem strip_spaced {p b w1 w2 w3 : Str} (h1 : Spec.White w1) (h2 : Spec.White w2) (h3 : Spec.White w3)
    (hp1 : ∀ c, p.head? = some c → isSpace c = false) (hp2 : ∀ c, p.getLast? = some c → isSpace c = false)
    (hb1 : ∀ c, b.head? = some c → isSpace c = false) (hb2 : ∀ c, b.getLast? = some c → isSpace c = false)
    (hb : b ≠ []) :
    strip (w1 ++ p ++ w2 ++ b ++ w3) = lstrip (w1 ++ p ++ w2) ++ b ∧
    strip (lstrip (w1 ++ p ++ w2)) = p := by
  constructor
  · rw [strip, Conf.rstrip_append_spaces _ _ h3, rstrip_of_last, lstrip_append hb1]
    intro c hc
    rw [getLast?_append_ne hb] at hc
    exact hb2 c hc
  · by_cases hp : p = []
    · subst hp
      have : lstrip (w1 ++ [] ++ w2) = [] := by
        have := Conf.lstrip_pre (p := w1 ++ [] ++ w2) (s := []) (by
          intro c hc
          rw [List.append_nil] at hc
          rcases List.mem_append.mp hc with hc | hc
          · exact h1 c hc
          · exact h2 c hc) (by intro a ha; cases ha)
        rwa [List.append_nil] at this
      rw [this]; rfl
    · have : lstrip (w1 ++ p ++ w2) = p ++ w2 := by
        rw [List.append_assoc]
        refine Conf.lstrip_pre h1 (fun c hc => ?_)
        obtain ⟨x, r, e⟩ := List.exists_cons_of_ne_nil hp
        rw [e] at hc
        exact hp1 c (by rw [e]; exact hc)
      rw [this, strip, Conf.rstrip_append_spaces _ _ h2, rstrip_of_last hp2, lstrip_of_head hp1]

theorem comma_pfx {c : Char} (h : Spec.pfxChar c) : c ≠ ',' := by
  rintro rfl
  rcases h with h | h | h <;> revert h <;> decide

theorem comma_body {i : Intf} (h : GoodCls i.cls) : ',' ∉ Spec.body i := by
  rw [body_eq, List.mem_append, not_or]
  constructor
  · have : ∀ n, ',' ∉ natStr n := fun n => not_mem_nat (by decide) n
    cases hs : i.slot with
    | none =>
      cases hk : i.card with
      | none => simp [Spec.numbers, hs, hk, join, this]
      | some k => simp [Spec.numbers, hs, hk, join, this]
    | some s =>
      cases hk : i.card with
      | none => simp [Spec.numbers, hs, hk, join, this]
      | some k => simp [Spec.numbers, hs, hk, join, this]
  · intro hm
    rcases List.mem_append.mp hm with hm | hm
    · exact not_mem_signed (by decide) (by decide) _ hm
    · rcases List.mem_append.mp hm with hm | hm
      · exact not_mem_signed (by decide) (by decide) _ hm
      · exact not_mem_word h (by decide) (by decide) (by decide) hm

theorem comma_white {w : Str} (h : Spec.White w) : ',' ∉ w := by
  intro hm
  have := h _ hm
  revert this; decide

theorem mem_lstrip {c : Char} {t : Str} (h : c ∈ lstrip t) : c ∈ t := (lstrip_suffix t).subset h

theorem parse_spaced {i : Intf} (h : Spec.Valid i) {w1 w2 w3 : Str} (h1 : Spec.White w1)
    (h2 : Spec.White w2) (h3 : Spec.White w3) :
    parse (w1 ++ i.pfx ++ w2 ++ Spec.body i ++ w3) = .ok i := by
  obtain ⟨c, r, e, hc⟩ := body_head i
  obtain ⟨a, b⟩ := strip_spaced h1 h2 h3 h.first h.last
    (b := Spec.body i) (by intro x hx; rw [e] at hx; simp at hx; rw [← hx]; exact isDigit_not_space hc)
    (body_last h.cls) (by rw [e]; simp)
  refine parse_parts h a ?_ ?_ b
  · simp only [List.mem_append, not_or]
    exact ⟨⟨⟨⟨comma_white h1, fun hm => comma_pfx (h.pfx _ hm) rfl⟩, comma_white h2⟩, comma_body h.cls⟩,
      comma_white h3⟩
  · intro x hx
    rw [isPfx_iff]
    have hx := mem_lstrip hx
    rcases List.mem_append.mp hx with hx | hx
    · rcases List.mem_append.mp hx with hx | hx
      · exact Or.inr (Or.inr (h1 x hx))
      · exact h.pfx x hx
    · exact Or.inr (Or.inr (h2 x hx))

theorem strip_cls {i : Intf} (h : GoodCls i.cls) {w : Str} (hw : i.cls = some w) : strip w = w := by
  refine strip_of_noSpace (fun c hc => ?_)
  exact cls_not_space ((h w hw).2 c hc)

theorem render_name {i : Intf} (h : Spec.Valid i) : render i = .ok (Spec.name i) := by
  have hn : number i = .ok (Spec.numbers i) := by
    cases hs : i.slot with
    | none =>
      cases hk : i.card with
      | none => simp [number, Spec.numbers, hs, hk, join]
      | some k => have := h.card (by rw [hk]; rfl); rw [hs] at this; cases this
    | some s =>
      have hsep : i.sep = some '/' := by rw [h.sep, hs]; rfl
      cases hk : i.card with
      | none => simp [number, Spec.numbers, hs, hk, join, sepStr, hsep]
      | some k => simp [number, Spec.numbers, hs, hk, join, sepStr, hsep]
  have hc : (match i.cls with | none => [] | some w => ' ' :: strip w) = Spec.word i.cls := by
    cases hw : i.cls with
    | none => rfl
    | some w => simp only [Spec.word]; rw [strip_cls h.cls hw]
  have hb : Spec.name i = i.pfx ++ Spec.numbers i ++ Spec.signed '.' i.sub ++ Spec.signed ':' i.chan ++
      Spec.word i.cls := by simp [Spec.name, Spec.body]
  unfold render
  rw [hn, hb, ← hc]
  cases hs : i.sub with
  | none =>
    cases hk : i.chan with
    | none => cases hw : i.cls <;> simp [Spec.signed, bind, Except.bind]
    | some c => cases hw : i.cls <;> simp [Spec.signed, bind, Except.bind]
  | some s =>
    cases hk : i.chan with
    | none => cases hw : i.cls <;> simp [Spec.signed, bind, Except.bind]
    | some c => cases hw : i.cls <;> simp [Spec.signed, bind, Except.bind]

/-! ## What the parser returns -/

theorem clsOf_good {t : Str} : GoodCls (clsOf t) := by
  intro w hw
  rw [clsOf] at hw
  split at hw
  · rename_i h
    simp only [Option.some.injEq] at hw
    rw [← hw]
    refine ⟨h.2.1, fun c hc => ?_⟩
    have := h.2.2
    rw [List.all_eq_true] at this
    exact (isClsChar_iff c).mp (this c hc)
  · cases hw

theorem single_drop {α : Type _} {t : List α} (h : t ≠ []) : ∃ a, a ∈ t ∧ t.drop (t.length - 1) = [a] := by
  have e := List.dropLast_concat_getLast h
  refine ⟨t.getLast h, List.getLast_mem h, ?_⟩
  have hl : t.length - 1 = t.dropLast.length := by simp
  rw [hl]
  conv => lhs; rw [← e]
  rw [List.dropLast_concat]
  exact List.drop_left

/-- The two groups of a name: prefix characters before the first other character; or
nothing but prefix characters. -/
theorem splitName_cases {ok : Char → Bool} {t p r : Str} (h : splitName ok t = some (p, r)) :
    (∀ c ∈ p, isPfx c = true) ∨ ∃ c, r = [c] ∧ isPfx c = true := by
  rw [splitName] at h
  split at h
  · rename_i hne
    split at h
    · rename_i hd
      simp only [Option.some.injEq, Prod.mk.injEq] at h
      obtain ⟨a, ha, hs⟩ := single_drop hne.1
      refine Or.inr ⟨a, by rw [← h.2, hs], ?_⟩
      have := List.takeWhile_append_dropWhile (p := isPfx) (l := t)
      rw [hd, List.append_nil] at this
      rw [← this] at ha
      exact of_mem_takeWhile ha
    · simp only [Option.some.injEq, Prod.mk.injEq] at h
      refine Or.inl (fun c hc => ?_)
      rw [← h.1] at hc
      exact of_mem_takeWhile hc
  · cases h

theorem pfx_not_digit {c : Char} (h : isPfx c = true) : isDigit c = false := by
  cases hd : isDigit c with
  | false => rfl
  | true => rw [digit_not_pfx hd] at h; cases h

theorem strip_mem {c : Char} {t : Str} (h : c ∈ strip t) : c ∈ t :=
  (rstrip_prefix t).subset ((lstrip_suffix _).subset h)

theorem strip_head (s : Str) : ∀ a, (strip s).head? = some a → isSpace a = false := head?_lstrip _

theorem valid_of {p : Str} {i : Intf} (hp : ∀ c ∈ p, isPfx c = true) (h1 : i.pfx = strip p)
    (h2 : i.sep = if i.slot.isSome then some '/' else none) (h3 : i.card.isSome = true → i.slot.isSome = true)
    (h4 : GoodCls i.cls) : Spec.Valid i where
  pfx := by intro c hc; rw [h1] at hc; exact (isPfx_iff c).mp (hp c (strip_mem hc))
  first := by rw [h1]; exact strip_head _
  last := by rw [h1]; exact strip_getLast _
  sep := h2
  card := h3
  cls := h4

theorem parseShort_valid {p r : Str} {i : Intf} (hp : ∀ c ∈ p, isPfx c = true)
    (h : parseShort p r = .ok i) : Spec.Valid i := by
  rw [parseShort] at h
  split at h
  · cases h
  · cases h
    exact valid_of hp rfl rfl (fun h => by cases h) clsOf_good

theorem parseLong_valid {p r : Str} {i : Intf} (hp : ∀ c ∈ p, isPfx c = true)
    (h : parseLong p r = .ok i) : Spec.Valid i := by
  unfold parseLong at h
  dsimp only at h
  repeat' split at h
  all_goals first
    | cases h; done
    | (cases h; exact valid_of hp rfl rfl (fun _ => rfl) clsOf_good)

theorem parse_valid {n : Str} {i : Intf} (h : parse n = .ok i) : Spec.Valid i := by
  rw [parse] at h
  split at h
  · cases h
  · split at h
    · rename_i p r hs
      rcases splitName_cases hs with hp | ⟨c, rfl, hc⟩
      · exact parseShort_valid hp h
      · rw [parseShort, if_pos] at h
        · cases h
        · rw [firstDigits, List.dropWhile_cons, if_pos (by simp [pfx_not_digit hc])]; rfl
    · split at h
      · rename_i p r hs
        rcases splitName_cases hs with hp | ⟨c, rfl, hc⟩
        · exact parseLong_valid hp h
        · unfold parseLong at h
          have : [c].takeWhile isDigit = [] := by rw [List.takeWhile_cons, if_neg (by simp [pfx_not_digit hc])]
          rw [this] at h
          dsimp only at h
          rw [if_pos rfl] at h
          cases h
      · cases h

theorem parse_name {i : Intf} (h : Spec.Valid i) : parse (Spec.name i) = .ok i := by
  have := parse_spaced h (w1 := []) (w2 := []) (w3 := []) (by intro c hc; cases hc) (by intro c hc; cases hc)
    (by intro c hc; cases hc)
  simpa [Spec.name] using this

theorem copy_valid {i : Intf} (h : Spec.Valid i) : copy i = i := by
  have h1 : strip i.pfx = i.pfx := strip_of_ends h.first h.last
  have h2 : i.cls.map strip = i.cls := by
    cases hw : i.cls with
    | none => rfl
    | some w => simp only [Option.map]; rw [strip_cls h.cls hw]
  have h3 : (if i.slot.isSome then i.card else none) = i.card := by
    split
    · rfl
    · rename_i hs
      cases hk : i.card with
      | none => rfl
      | some k => exact absurd (h.card (by rw [hk]; rfl)) hs
  rw [copy, h1, h2, h3]

end Intf

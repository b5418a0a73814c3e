import Verif.Intf.Order
import Verif.Range.Lemmas

/-! # Lemmas about interface ranges -/

namespace Intf

open Py

theorem dedupBy_map {α β : Type _} {e : β → β → Bool} {e' : α → α → Bool} {f : α → β}
    (h : ∀ a b, e (f a) (f b) = e' a b) (l : List α) : dedupBy e (l.map f) = (dedupBy e' l).map f := by
  induction l with
  | nil => rfl
  | cons a l ih =>
    rw [List.map_cons, dedupBy, dedupBy, ih, List.map_cons, List.filter_map]
    congr 2
    refine congrArg (fun p => List.filter p _) ?_
    funext b
    simp [h]

theorem insertBy_map {α β : Type _} {le : β → β → Bool} {le' : α → α → Bool} {f : α → β}
    (h : ∀ a b, le (f a) (f b) = le' a b) (x : α) (l : List α) :
    insertBy le (f x) (l.map f) = (insertBy le' x l).map f := by
  induction l with
  | nil => rfl
  | cons a l ih =>
    rw [List.map_cons, insertBy, insertBy, h]
    split
    · rfl
    · rw [ih]; rfl

theorem sortBy_map {α β : Type _} {le : β → β → Bool} {le' : α → α → Bool} {f : α → β}
    (h : ∀ a b, le (f a) (f b) = le' a b) (l : List α) : sortBy le (l.map f) = (sortBy le' l).map f := by
  induction l with
  | nil => rfl
  | cons a l ih => rw [List.map_cons, sortBy, sortBy, ih, insertBy_map h]

/-- Put a text behind the last part. -/
def addLast (w : Str) : List Str → List Str
  | [] => []
  | [x] => [x ++ w]
  | x :: y :: r => x :: addLast w (y :: r)

theorem addLast_ne {w : Str} : ∀ {l : List Str}, l ≠ [] → addLast w l ≠ []
  | [], h => absurd rfl h
  | [_], _ => by simp [addLast]
  | _ :: _ :: _, _ => by simp [addLast]

theorem join_cons_ne {s p : Str} {l : List Str} (h : l ≠ []) : join s (p :: l) = p ++ s ++ join s l := by
  cases l with
  | nil => exact absurd rfl h
  | cons q l => rfl

theorem join_addLast {s w : Str} : ∀ {l : List Str}, l ≠ [] → join s l ++ w = join s (addLast w l)
  | [], h => absurd rfl h
  | [_], _ => rfl
  | x :: y :: r, _ => by
    rw [addLast, join, join_cons_ne (addLast_ne (by simp)), ← join_addLast (l := y :: r) (by simp)]
    simp

theorem mem_addLast {w x : Str} : ∀ {l : List Str}, x ∈ addLast w l → x ∈ l ∨ ∃ y ∈ l, x = y ++ w
  | [], h => by cases h
  | [y], h => by
    rw [addLast, List.mem_singleton] at h
    exact Or.inr ⟨y, by simp, h⟩
  | y :: z :: r, h => by
    rw [addLast, List.mem_cons] at h
    rcases h with h | h
    · exact Or.inl (by simp [h])
    · rcases mem_addLast h with h | ⟨v, hv, h⟩
      · exact Or.inl (by simp at h ⊢; exact Or.inr h)
      · exact Or.inr ⟨v, by simp at hv ⊢; exact Or.inr hv, h⟩

theorem splitWsAux_last {x w : Str} {c : Char} (hw : IsWord w) (hc : isSpace c = true) (acc : Str) :
    (splitWsAux (x ++ c :: w) acc).getLast? = some w := by
  have hl : ∀ (a : Str) {l : List Str} {v : Str}, l.getLast? = some v → (a :: l).getLast? = some v := by
    intro a l v h
    cases l with
    | nil => cases h
    | cons b l => rw [List.getLast?_cons_cons]; exact h
  induction x generalizing acc with
  | nil =>
    rw [List.nil_append, splitWsAux, if_pos hc]
    have : (splitWsAux w []).getLast? = some w := by
      have := splitWs_word hw
      rw [splitWs] at this
      rw [this]; rfl
    split
    · exact this
    · exact hl _ this
  | cons y x ih =>
    rw [List.cons_append, splitWsAux]
    split
    · split
      · exact ih _
      · exact hl _ (ih _)
    · exact ih _

theorem splitWsAux_lastChar {x : Str} {c : Char} (hc : isSpace c = false) (acc : Str) :
    ∃ w, (splitWsAux (x ++ [c]) acc).getLast? = some w ∧ c ∈ w := by
  have hl : ∀ (a : Str) {l : List Str} {v : Str}, l.getLast? = some v → (a :: l).getLast? = some v := by
    intro a l v h
    cases l with
    | nil => cases h
    | cons b l => rw [List.getLast?_cons_cons]; exact h
  induction x generalizing acc with
  | nil =>
    refine ⟨(c :: acc).reverse, ?_, by simp⟩
    rw [List.nil_append, splitWsAux, if_neg (by simp [hc]), splitWsAux]
    simp
  | cons y x ih =>
    rw [List.cons_append, splitWsAux]
    split
    · split
      · exact ih _
      · obtain ⟨w, h1, h2⟩ := ih []
        exact ⟨w, hl _ h1, h2⟩
    · exact ih _

/-! ## The range of one prefix -/

/-- The numbers of an element, in order. -/
def nums : Spec.Item → List Nat
  | .one a => [a]
  | .run a b => upto a b

theorem mem_upto {a b k : Nat} : k ∈ upto a b ↔ a ≤ k ∧ k ≤ b := by
  rw [upto, List.mem_map]
  constructor
  · rintro ⟨i, hi, rfl⟩
    rw [List.mem_range] at hi
    omega
  · rintro ⟨h1, h2⟩
    exact ⟨k - a, by rw [List.mem_range]; omega, by omega⟩

theorem mem_nums (it : Spec.Item) (k : Nat) : k ∈ nums it ↔ it.has k := by
  cases it with
  | one a => simp [nums, Spec.Item.has]
  | run a b => exact mem_upto

theorem ok_pfx {pfx w : Str} {slot card : Option Nat} {cls : Option Str}
    (h : Spec.RangeOk pfx w slot card cls) : ∀ c ∈ pfx, Spec.pfxChar c := by
  intro c hc
  rcases h.chars c hc with h | h
  · exact Or.inl h
  · exact Or.inr (Or.inr h)

theorem ok_hyphen {pfx w : Str} {slot card : Option Nat} {cls : Option Str}
    (h : Spec.RangeOk pfx w slot card cls) : '-' ∉ pfx := by
  intro hm
  have := h.chars _ hm
  revert this; decide

theorem ok_good {pfx w : Str} {slot card : Option Nat} {cls : Option Str} (h : Spec.RangeOk pfx w slot card cls) :
    GoodCls cls := fun v hv => ⟨(h.word v hv).1, fun c hc => Or.inl ((h.word v hv).2 c hc)⟩

theorem ok_valid {pfx w : Str} {slot card : Option Nat} {cls : Option Str} (h : Spec.RangeOk pfx w slot card cls)
    {o : Option Str} (ho : GoodCls o) (k : Nat) : Spec.Valid (Spec.member pfx slot card o k) where
  pfx := ok_pfx h
  first := h.first
  last := h.last
  sep := rfl
  card := h.slotted
  cls := ho

theorem numbers_member {pfx : Str} {slot card : Option Nat} {o : Option Str} {k : Nat} :
    Spec.numbers (Spec.member pfx slot card o k) = Spec.slots slot card ++ natStr k := by
  cases slot <;> cases card <;> simp [Spec.numbers, Spec.member, Spec.slots, join]

theorem body_member {pfx : Str} {slot card : Option Nat} {o : Option Str} {k : Nat} :
    Spec.body (Spec.member pfx slot card o k) = Spec.slots slot card ++ natStr k ++ Spec.word o := by
  rw [Spec.body, numbers_member]
  simp [Spec.member, Spec.signed]

theorem white_nil : Spec.White [] := fun _ h => by cases h

/-- The text of the first interface. -/
theorem ok_parse {pfx w : Str} {slot card : Option Nat} {cls : Option Str} (h : Spec.RangeOk pfx w slot card cls)
    {o : Option Str} (ho : GoodCls o) (k : Nat) :
    parse (pfx ++ w ++ Spec.slots slot card ++ (natStr k ++ Spec.word o)) =
      .ok (Spec.member pfx slot card o k) := by
  have := parse_spaced (ok_valid h ho k) white_nil h.white white_nil
  rw [body_member] at this
  simpa [Spec.member] using this

/-- A bare number. -/
theorem parse_num {o : Option Str} (ho : GoodCls o) {w : Str} (hw : Spec.White w) (k : Nat) :
    Intf.parse (strip (w ++ (natStr k ++ Spec.word o))) = .ok (Spec.member [] none none o k) := by
  have hv : Spec.Valid (Spec.member [] none none o k) :=
    { pfx := fun _ h => (by cases h), first := fun _ h => (by cases h), last := fun _ h => (by cases h),
      sep := rfl, card := fun h => (by cases h), cls := ho }
  have hb : Spec.body (Spec.member [] none none o k) = natStr k ++ Spec.word o := by
    rw [body_member]; simp [Spec.slots]
  obtain ⟨c, r, e, hc⟩ := body_head (Spec.member [] none none o k)
  have hh : ∀ x, (natStr k ++ Spec.word o).head? = some x → isSpace x = false := by
    intro x hx
    rw [← hb, e] at hx
    simp at hx
    rw [← hx]; exact isDigit_not_space hc
  have hl := body_last (i := Spec.member [] none none o k) ho
  rw [hb] at hl
  have hs : strip (w ++ (natStr k ++ Spec.word o)) = natStr k ++ Spec.word o := by
    rw [strip, rstrip_of_last, Conf.lstrip_pre hw hh]
    intro c hc
    rw [getLast?_append_ne (by simp [natStr_ne_nil])] at hc
    exact hl c hc
  rw [hs, ← hb]
  have := parse_spaced hv white_nil white_nil white_nil
  simpa [Spec.member] using this

/-- A class without hyphen. -/
def NoHyphen (o : Option Str) : Prop := ∀ v, o = some v → '-' ∉ v

theorem hyphen_word {o : Option Str} (h : NoHyphen o) : '-' ∉ Spec.word o := by
  cases o with
  | none => simp [Spec.word]
  | some v => simp only [Spec.word, List.mem_cons, not_or]; exact ⟨by decide, h v rfl⟩

theorem hyphen_white {w : Str} (h : Spec.White w) : '-' ∉ w := by
  intro hm
  have := h _ hm
  revert this; decide

theorem hyphen_nat (n : Nat) : '-' ∉ natStr n := not_mem_nat (by decide) n

theorem filter_word {o : Option Str} (h : GoodCls o) : (Spec.word o).filter isDigit = [] := by
  rw [List.filter_eq_nil_iff]
  intro c hc
  cases o with
  | none => cases hc
  | some v =>
    rcases List.mem_cons.mp hc with rfl | hc
    · decide
    · rcases (h v rfl).2 c hc with hl | rfl
      · simp [isLetter_not_digit hl]
      · decide

theorem end_digits {o : Option Str} (h : GoodCls o) (b : Nat) :
    (strip (natStr b ++ Spec.word o)).filter isDigit = natStr b := by
  have hb : Spec.body (Spec.member [] none none o b) = natStr b ++ Spec.word o := by
    rw [body_member]; simp [Spec.slots]
  obtain ⟨c, r, e, hc⟩ := body_head (Spec.member [] none none o b)
  have hl := body_last (i := Spec.member [] none none o b) h
  rw [hb] at hl e
  rw [strip_of_ends _ hl, List.filter_append, filter_word h, List.append_nil, List.filter_eq_self]
  · exact natStr_digits b
  · intro x hx
    rw [e] at hx
    simp at hx
    rw [← hx]; exact isDigit_not_space hc

/-- The interfaces of a part whose first number is read as the port `a`. -/
theorem expand_run {this obj : Intf} {x y : Str} {b : Nat} {o : Option Str} (hx : '-' ∉ x) (ho : GoodCls o)
    (hn : NoHyphen o) (hy : y = natStr b ++ Spec.word o) (hp : Intf.parse (strip x) = .ok obj) :
    expandPart .port this (x ++ '-' :: y) = .ok ((upto obj.port b).map (fun k => { this with port := k })) := by
  have hs : splitOn '-' (x ++ '-' :: y) = [x, y] := by
    rw [splitOn_append _ _ _ hx, splitOn_no]
    rw [hy, List.mem_append, not_or]
    exact ⟨hyphen_nat b, hyphen_word hn⟩
  rw [expandPart, if_pos (by simp), hs]
  simp only [hp, hy, end_digits ho, pyInt_natStr, bind, Except.bind, Attr.get, Attr.set, Option.getD_some,
    Int.toNat_natCast]

theorem nextPart_ok {pfx : Str} {slot card : Option Nat} {cls o : Option Str} {p : Nat} (ho : GoodCls o)
    (hn : NoHyphen o) {w : Str} (hw : Spec.White w) (it : Spec.Item) :
    nextPart (Spec.member pfx slot card cls p) (w ++ it.text ++ Spec.word o) =
      .ok ((nums it).map (Spec.member pfx slot card cls)) := by
  have ha : iterAttr (Spec.member pfx slot card cls p) = .port := rfl
  cases it with
  | one a =>
    have hh : '-' ∉ w ++ Spec.Item.text (.one a) ++ Spec.word o := by
      simp only [List.mem_append, not_or]
      exact ⟨⟨hyphen_white hw, hyphen_nat a⟩, hyphen_word hn⟩
    rw [nextPart, ha, splitOn_no _ _ hh]
    have he : w ++ Spec.Item.text (.one a) ++ Spec.word o = w ++ (natStr a ++ Spec.word o) := by
      simp [Spec.Item.text]
    have := parse_num ho hw a
    rw [← he] at this
    simp only [List.headD_cons, this, bind, Except.bind]
    rw [expandPart, if_neg hh]
    rfl
  | run a b =>
    have hx : '-' ∉ w ++ natStr a := by
      simp only [List.mem_append, not_or]
      exact ⟨hyphen_white hw, hyphen_nat a⟩
    have he : w ++ Spec.Item.text (.run a b) ++ Spec.word o =
        (w ++ natStr a) ++ '-' :: (natStr b ++ Spec.word o) := by simp [Spec.Item.text]
    have hp := parse_num (o := none) (fun _ h => by cases h) hw a
    rw [Spec.word, List.append_nil] at hp
    rw [nextPart, ha, he, splitOn_append _ _ _ hx]
    simp only [List.headD_cons, hp, bind, Except.bind]
    rw [expand_run hx ho hn rfl hp]
    rfl

theorem hyphen_slots (slot card : Option Nat) : '-' ∉ Spec.slots slot card := by
  have := hyphen_nat
  cases slot <;> cases card <;> simp [Spec.slots, this]

theorem hyphen_stem {pfx w : Str} {slot card : Option Nat} {cls : Option Str} (h : Spec.RangeOk pfx w slot card cls) :
    '-' ∉ pfx ++ w ++ Spec.slots slot card := by
  simp only [List.mem_append, not_or]
  exact ⟨⟨ok_hyphen h, hyphen_white h.white⟩, hyphen_slots slot card⟩

theorem ok_noHyphen {pfx w : Str} {slot card : Option Nat} {cls : Option Str} (h : Spec.RangeOk pfx w slot card cls) :
    NoHyphen cls := by
  intro v hv hm
  have := (h.word v hv).2 _ hm
  revert this; decide

/-- The first number of an element. -/
def start : Spec.Item → Nat
  | .one a => a
  | .run a _ => a

/-- Where the class is read from does not matter. -/
theorem beginObj_ok {pfx w : Str} {slot card : Option Nat} {cls o : Option Str} (h : Spec.RangeOk pfx w slot card cls)
    {text : Str} (ho : o = none ∨ o = cls)
    (ht : ∃ x n, text = x ++ natStr n ++ Spec.word cls) (it : Spec.Item) :
    beginObj text (pfx ++ w ++ Spec.slots slot card ++ it.text ++ Spec.word o) =
      .ok (Spec.member pfx slot card cls (start it)) := by
  have hgo : GoodCls o := by
    rcases ho with rfl | rfl
    · intro v hv; cases hv
    · exact ok_good h
  have hno : NoHyphen o := by
    rcases ho with rfl | rfl
    · intro v hv; cases hv
    · exact ok_noHyphen h
  have hb : ∃ o', (o' = none ∨ o' = cls) ∧
      Intf.parse ((splitOn '-' (pfx ++ w ++ Spec.slots slot card ++ it.text ++ Spec.word o)).headD []) =
        .ok (Spec.member pfx slot card o' (start it)) := by
    cases it with
    | one a =>
      refine ⟨o, ho, ?_⟩
      rw [splitOn_no]
      · have := ok_parse h hgo a
        simp only [List.headD_cons]
        rw [List.append_assoc]
        exact this
      · rw [List.mem_append, List.mem_append, not_or, not_or]
        exact ⟨⟨hyphen_stem h, hyphen_nat a⟩, hyphen_word hno⟩
    | run a b =>
      refine ⟨none, Or.inl rfl, ?_⟩
      have he : pfx ++ w ++ Spec.slots slot card ++ Spec.Item.text (.run a b) ++ Spec.word o =
          (pfx ++ w ++ Spec.slots slot card ++ natStr a) ++ '-' :: (natStr b ++ Spec.word o) := by
        simp [Spec.Item.text]
      rw [he, splitOn_append]
      · have := ok_parse h (o := none) (fun _ hv => by cases hv) a
        simpa [Spec.word, start] using this
      · rw [List.mem_append, not_or]
        exact ⟨hyphen_stem h, hyphen_nat a⟩
  obtain ⟨o', ho', hp⟩ := hb
  obtain ⟨x, n, rfl⟩ := ht
  rw [beginObj, hp]
  simp only [bind, Except.bind]
  cases hc : cls with
  | some v =>
    obtain ⟨h1, h2⟩ := h.word v hc
    have hw : IsWord v := ⟨h1, fun c hc => isLetter_not_space (h2 c hc)⟩
    have hl : (splitWs (x ++ natStr n ++ Spec.word (some v))).getLast? = some v :=
      splitWsAux_last hw (by decide) []
    rw [hl]
    have hf : v.filter isDigit = [] := by
      rw [List.filter_eq_nil_iff]
      intro c hc
      simp [isLetter_not_digit (h2 c hc)]
    simp only [hf]
    rfl
  | none =>
    have hne := natStr_ne_nil n
    have e := List.dropLast_concat_getLast hne
    obtain ⟨v, hl, hm⟩ := splitWsAux_lastChar (x := x ++ (natStr n).dropLast) (c := (natStr n).getLast hne)
      (isDigit_not_space (natStr_digits n _ (List.getLast_mem hne))) []
    have he : x ++ (natStr n).dropLast ++ [(natStr n).getLast hne] = x ++ natStr n ++ Spec.word none := by
      rw [List.append_assoc, e]; simp [Spec.word]
    rw [he] at hl
    rw [splitWs, hl]
    have hf : v.filter isDigit ≠ [] := by
      intro hn
      rw [List.filter_eq_nil_iff] at hn
      exact hn _ hm (natStr_digits n _ (List.getLast_mem hne))
    simp only [if_neg hf]
    rcases ho' with rfl | rfl
    · rfl
    · rw [hc]

theorem firstPart_ok {pfx w : Str} {slot card : Option Nat} {cls o : Option Str} (h : Spec.RangeOk pfx w slot card cls)
    (ho : o = none ∨ o = cls) (it : Spec.Item) :
    expandPart .port (Spec.member pfx slot card cls (start it))
      (pfx ++ w ++ Spec.slots slot card ++ it.text ++ Spec.word o) =
      .ok ((nums it).map (Spec.member pfx slot card cls)) := by
  have hgo : GoodCls o := by
    rcases ho with rfl | rfl
    · intro v hv; cases hv
    · exact ok_good h
  have hno : NoHyphen o := by
    rcases ho with rfl | rfl
    · intro v hv; cases hv
    · exact ok_noHyphen h
  cases it with
  | one a =>
    rw [expandPart, if_neg]
    · rfl
    · rw [List.mem_append, List.mem_append, not_or, not_or]
      exact ⟨⟨hyphen_stem h, hyphen_nat a⟩, hyphen_word hno⟩
  | run a b =>
    have he : pfx ++ w ++ Spec.slots slot card ++ Spec.Item.text (.run a b) ++ Spec.word o =
        (pfx ++ w ++ Spec.slots slot card ++ natStr a) ++ '-' :: (natStr b ++ Spec.word o) := by
      simp [Spec.Item.text]
    have hx : '-' ∉ pfx ++ w ++ Spec.slots slot card ++ natStr a := by
      rw [List.mem_append, not_or]
      exact ⟨hyphen_stem h, hyphen_nat a⟩
    have hp : Intf.parse (strip (pfx ++ w ++ Spec.slots slot card ++ natStr a)) =
        .ok (Spec.member pfx slot card none a) := by
      have := ok_parse h (o := none) (fun _ hv => by cases hv) a
      rw [Spec.word, List.append_nil] at this
      rw [← this]
      unfold Intf.parse
      rw [strip_strip]
      have hcm : (',' ∈ strip (pfx ++ w ++ Spec.slots slot card ++ natStr a)) ↔
          ',' ∈ pfx ++ w ++ Spec.slots slot card ++ natStr a := by
        constructor
        · exact strip_mem
        · intro hm
          exfalso
          have hn : ∀ n, ',' ∉ natStr n := fun n => not_mem_nat (by decide) n
          simp only [List.mem_append] at hm
          rcases hm with ((hm | hm) | hm) | hm
          · exact comma_pfx (ok_pfx h _ hm) rfl
          · exact comma_white h.white hm
          · cases slot <;> cases card <;> simp [Spec.slots, hn] at hm
          · exact hn a hm
      simp only [hcm]
    rw [he, expand_run hx hgo hno rfl hp]
    rfl

/-! ## The whole text -/

/-- The text of an element behind a comma. -/
def rtext (x : Str × Spec.Item) : Str := x.1 ++ x.2.text

theorem comma_nat (n : Nat) : ',' ∉ natStr n := not_mem_nat (by decide) n

theorem comma_item (it : Spec.Item) : ',' ∉ it.text := by
  cases it with
  | one a => exact comma_nat a
  | run a b => simp [Spec.Item.text, comma_nat]

theorem comma_word {o : Option Str} (h : GoodCls o) : ',' ∉ Spec.word o :=
  not_mem_word h (by decide) (by decide) (by decide)

theorem comma_stem {pfx w : Str} {slot card : Option Nat} {cls : Option Str}
    (h : Spec.RangeOk pfx w slot card cls) : ',' ∉ pfx ++ w ++ Spec.slots slot card := by
  have hn := comma_nat
  simp only [List.mem_append, not_or]
  refine ⟨⟨fun hm => comma_pfx (ok_pfx h _ hm) rfl, comma_white h.white⟩, ?_⟩
  cases slot <;> cases card <;> simp [Spec.slots, hn]

theorem item_last (it : Spec.Item) : ∃ y n, it.text = y ++ natStr n := by
  cases it with
  | one a => exact ⟨[], a, rfl⟩
  | run a b => exact ⟨natStr a ++ ['-'], b, by simp [Spec.Item.text]⟩

theorem join_last : ∀ (l : List Str), l ≠ [] → (∀ x ∈ l, ∃ y n, x = y ++ natStr n) →
    ∃ y n, join [','] l = y ++ natStr n
  | [], h, _ => absurd rfl h
  | [x], _, h => by rw [join]; exact h x (by simp)
  | x :: z :: r, _, h => by
    obtain ⟨y, n, e⟩ := join_last (z :: r) (by simp) (fun v hv => h v (by simp at hv ⊢; exact Or.inr hv))
    exact ⟨x ++ [','] ++ y, n, by rw [join, e]; simp⟩

theorem item_ne (it : Spec.Item) : it.text ≠ [] := by
  obtain ⟨y, n, e⟩ := item_last it
  rw [e]
  intro h
  exact natStr_ne_nil n (List.append_eq_nil_iff.mp h).2

theorem mapM_addLast {pfx w : Str} {slot card : Option Nat} {cls : Option Str}
    (h : Spec.RangeOk pfx w slot card cls) (p : Nat) :
    ∀ (rest : List (Str × Spec.Item)), (∀ x ∈ rest, Spec.White x.1) →
      (addLast (Spec.word cls) (rest.map rtext)).mapM (nextPart (Spec.member pfx slot card cls p)) =
        .ok (rest.map (fun x => (nums x.2).map (Spec.member pfx slot card cls)))
  | [], _ => rfl
  | [x], hw => by
    rw [List.map_cons, List.map_nil, addLast, List.mapM_cons,
      show rtext x ++ Spec.word cls = x.1 ++ x.2.text ++ Spec.word cls from rfl,
      nextPart_ok (ok_good h) (ok_noHyphen h) (hw x (by simp))]
    rfl
  | x :: z :: r, hw => by
    have ih := mapM_addLast h p (z :: r) (fun v hv => hw v (by simp at hv ⊢; exact Or.inr hv))
    have hx := nextPart_ok (pfx := pfx) (slot := slot) (card := card) (cls := cls) (o := none) (p := p)
      (fun _ hv => by cases hv) (fun _ hv => by cases hv) (hw x (by simp)) x.2
    rw [Spec.word, List.append_nil] at hx
    rw [List.map_cons, List.map_cons] at ih ⊢
    rw [addLast, List.mapM_cons, show rtext x = x.1 ++ x.2.text from rfl, hx]
    simp only [bind, Except.bind] at ih ⊢
    rw [ih]
    rfl

/-- All numbers of a range, in the order of the text. -/
def allNums (first : Spec.Item) (rest : List (Str × Spec.Item)) : List Nat :=
  nums first ++ (rest.map (fun x => nums x.2)).flatten

theorem mem_allNums (first : Spec.Item) (rest : List (Str × Spec.Item)) (k : Nat) :
    k ∈ allNums first rest ↔ Spec.Listed first rest k := by
  rw [allNums, List.mem_append, mem_nums, List.mem_flatten, Spec.Listed]
  constructor
  · rintro (h | ⟨l, hl, hk⟩)
    · exact Or.inl h
    · rw [List.mem_map] at hl
      obtain ⟨x, hx, rfl⟩ := hl
      exact Or.inr ⟨x, hx, (mem_nums _ _).mp hk⟩
  · rintro (h | ⟨x, hx, hk⟩)
    · exact Or.inl h
    · exact Or.inr ⟨_, List.mem_map.mpr ⟨x, hx, rfl⟩, (mem_nums _ _).mpr hk⟩

theorem eq_member {pfx : Str} {slot card : Option Nat} {cls : Option Str} (i j : Nat) :
    eq (Spec.member pfx slot card cls i) (Spec.member pfx slot card cls j) = (i == j) := by
  rw [Bool.eq_iff_iff, eq, Bool.and_eq_true, decide_eq_true_eq, decide_eq_true_eq, sortList_inj, beq_iff_eq]
  simp [Spec.member, Spec.parts]

theorem lt_member {pfx : Str} {slot card : Option Nat} {cls : Option Str} (i j : Nat) :
    lt (Spec.member pfx slot card cls i) (Spec.member pfx slot card cls j) = .ok (decide (i < j)) := by
  by_cases h : i = j
  · subst h
    rw [lt, listLt_irrefl]; simp
  · simp [lt, sortList, Spec.member, listLt, h, keyLt]

theorem sortIntfs_member {pfx : Str} {slot card : Option Nat} {cls : Option Str} (ks : List Nat) :
    sortIntfs (ks.map (Spec.member pfx slot card cls)) =
      .ok ((sortBy (fun i j => !decide (j < i)) ks).map (Spec.member pfx slot card cls)) := by
  rw [sortIntfs, if_pos]
  · rw [sortBy_map (le' := fun i j => !decide (j < i))]
    intro i j
    rw [lt_member]
    by_cases h : j < i <;> simp [h] <;> rfl
  · rw [List.all_eq_true]
    intro a ha
    rw [List.all_eq_true]
    intro b hb
    rw [List.mem_map] at ha hb
    obtain ⟨i, _, rfl⟩ := ha
    obtain ⟨j, _, rfl⟩ := hb
    rw [lt_member]; rfl

theorem split_text {pfx w : Str} {slot card : Option Nat} {cls : Option Str}
    (h : Spec.RangeOk pfx w slot card cls) (first : Spec.Item) (rest : List (Str × Spec.Item))
    (hw : ∀ x ∈ rest, Spec.White x.1) :
    ∃ o, (o = none ∨ o = cls) ∧ splitOn ',' (Spec.rangeText pfx w slot card first rest cls) =
      (pfx ++ w ++ Spec.slots slot card ++ first.text ++ Spec.word o) ::
        addLast (Spec.word cls) (rest.map rtext) := by
  have hf : ',' ∉ pfx ++ w ++ Spec.slots slot card ++ first.text := by
    rw [List.mem_append, not_or]; exact ⟨comma_stem h, comma_item first⟩
  cases hr : rest with
  | nil =>
    refine ⟨cls, Or.inr rfl, ?_⟩
    have he : Spec.rangeText pfx w slot card first [] cls =
        pfx ++ w ++ Spec.slots slot card ++ first.text ++ Spec.word cls := by
      simp [Spec.rangeText, join]
    rw [he, splitOn_no]
    · rfl
    · rw [List.mem_append, not_or]; exact ⟨hf, comma_word (ok_good h)⟩
  | cons x r =>
    refine ⟨none, Or.inl rfl, ?_⟩
    have he : Spec.rangeText pfx w slot card first (x :: r) cls =
        (pfx ++ w ++ Spec.slots slot card ++ first.text) ++ ',' ::
          join [','] (addLast (Spec.word cls) ((x :: r).map rtext)) := by
      rw [Spec.rangeText, join_cons_ne (by simp), ← join_addLast (by simp)]
      show _ ++ (_ ++ join [','] ((x :: r).map rtext)) ++ _ = _
      simp
    rw [he, splitOn_append _ _ _ hf, splitOn_join _ _ (addLast_ne (by simp)), Spec.word, List.append_nil]
    intro p hp
    have hx : ∀ y ∈ (x :: r).map rtext, ',' ∉ y := by
      intro y hy
      obtain ⟨z, hz, rfl⟩ := List.mem_map.mp hy
      rw [rtext, List.mem_append, not_or]
      exact ⟨comma_white (hw z (by rw [hr]; exact hz)), comma_item _⟩
    rcases mem_addLast hp with hp | ⟨y, hy, rfl⟩
    · exact hx p hp
    · rw [List.mem_append, not_or]; exact ⟨hx y hy, comma_word (ok_good h)⟩

theorem text_last {pfx w : Str} {slot card : Option Nat} {cls : Option Str} (first : Spec.Item)
    (rest : List (Str × Spec.Item)) :
    ∃ x n, Spec.rangeText pfx w slot card first rest cls = x ++ natStr n ++ Spec.word cls := by
  obtain ⟨y, n, e⟩ := join_last (first.text :: rest.map (fun x => x.1 ++ x.2.text)) (by simp) (by
    intro v hv
    rcases List.mem_cons.mp hv with rfl | hv
    · exact item_last first
    · obtain ⟨z, _, rfl⟩ := List.mem_map.mp hv
      obtain ⟨y, n, e⟩ := item_last z.2
      exact ⟨z.1 ++ y, n, by rw [e]; simp⟩)
  exact ⟨pfx ++ w ++ Spec.slots slot card ++ y, n, by rw [Spec.rangeText, e]; simp⟩

theorem range_text {pfx w : Str} {slot card : Option Nat} {cls : Option Str}
    (h : Spec.RangeOk pfx w slot card cls) (first : Spec.Item) (rest : List (Str × Spec.Item))
    (hw : ∀ x ∈ rest, Spec.White x.1) :
    range (Spec.rangeText pfx w slot card first rest cls) =
      if allNums first rest = [] then .error .valueError
      else .ok ((sortBy (fun i j => !decide (j < i)) (dedupBy (· == ·) (allNums first rest))).map
        (Spec.member pfx slot card cls)) := by
  obtain ⟨o, ho, hs⟩ := split_text h first rest hw
  have hl := text_last (pfx := pfx) (w := w) (slot := slot) (card := card) (cls := cls) first rest
  have hne : Spec.rangeText pfx w slot card first rest cls ≠ [] := by
    obtain ⟨x, n, e⟩ := hl
    rw [e]
    intro hn
    exact natStr_ne_nil n (List.append_eq_nil_iff.mp (List.append_eq_nil_iff.mp hn).1).2
  have hi : isInfix ",,".toList (Spec.rangeText pfx w slot card first rest cls) = false := by
    cases hi : isInfix ",,".toList (Spec.rangeText pfx w slot card first rest cls) with
    | false => rfl
    | true =>
      exfalso
      have := Range.splitOn_tail_of_double _ hi
      rw [hs, List.tail_cons] at this
      have hx : ∀ y ∈ rest.map rtext, y ≠ [] := by
        intro y hy hn
        obtain ⟨z, _, rfl⟩ := List.mem_map.mp hy
        exact item_ne z.2 (List.append_eq_nil_iff.mp hn).2
      rcases mem_addLast this with hp | ⟨y, hy, hn⟩
      · exact hx _ hp rfl
      · exact hx _ hy (List.append_eq_nil_iff.mp hn.symm).1
  rw [range, if_neg hne, hi, if_neg (by decide), parseRange, hs]
  simp only [beginObj_ok h ho hl, bind, Except.bind]
  have ha : iterAttr (Spec.member pfx slot card cls (start first)) = .port := rfl
  rw [ha, firstPart_ok h ho]
  simp only [mapM_addLast h _ rest hw]
  have hm : (nums first).map (Spec.member pfx slot card cls) ++
      (rest.map (fun x => (nums x.2).map (Spec.member pfx slot card cls))).flatten =
      (allNums first rest).map (Spec.member pfx slot card cls) := by
    rw [allNums, List.map_append, List.map_flatten, List.map_map]
    rfl
  rw [hm, dedupBy_map eq_member]
  by_cases hn : allNums first rest = []
  · rw [if_pos hn, hn]
    simp [dedupBy]
  · rw [if_neg hn, if_neg, sortIntfs_member]
    intro e
    rw [List.map_eq_nil_iff] at e
    cases hl : allNums first rest with
    | nil => exact hn hl
    | cons a l => rw [hl] at e; simp [dedupBy] at e

end Intf

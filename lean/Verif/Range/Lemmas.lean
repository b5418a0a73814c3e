import Verif.Range.Spec
import Verif.PyLemmas

/-! Helper lemmas for integer ranges. -/

namespace Range

open Py

theorem mem_pyRange {a b x : Int} : x ∈ pyRange a b ↔ a ≤ x ∧ x < b := by
  unfold pyRange
  simp only [List.mem_map, List.mem_range]
  constructor
  · rintro ⟨i, hi, rfl⟩; omega
  · intro h; exact ⟨(x - a).toNat, by omega, by omega⟩

theorem mapM_ok {α β : Type} (f : α → Except Err β) (g : α → β) :
    ∀ l : List α, (∀ x ∈ l, f x = .ok (g x)) → l.mapM f = .ok (l.map g) := by
  intro l
  induction l with
  | nil => intro _; rfl
  | cons a as ih =>
    intro h
    rw [List.mapM_cons, h a (by simp), ih (fun x hx => h x (by simp [hx]))]
    rfl

theorem dropWhile_append_all {α : Type} {p : α → Bool} {w r : List α} (hw : ∀ c ∈ w, p c = true) :
    (w ++ r).dropWhile p = r.dropWhile p := by
  exact List.dropWhile_append_of_pos hw

theorem strip_pad {w1 d w2 : Str} (h1 : allSpace w1) (h2 : allSpace w2) (hd : d ≠ [])
    (hs : ∀ c ∈ d, isSpace c = false) : strip (w1 ++ d ++ w2) = d := by
  have hr : rstrip (w1 ++ d ++ w2) = w1 ++ d := by
    unfold rstrip
    rw [List.reverse_append, dropWhile_append_all (fun c hc => h2 c (by simpa using hc)),
      List.reverse_append, dropWhile_of_head, List.reverse_append, List.reverse_reverse,
      List.reverse_reverse]
    intro a ha
    cases hx : d.reverse with
    | nil => exact absurd (by simpa using hx) hd
    | cons y ys =>
      rw [hx] at ha
      simp at ha
      subst ha
      exact hs y (by rw [← List.mem_reverse, hx]; simp)
  unfold strip
  rw [hr]
  unfold lstrip
  rw [dropWhile_append_all h1]
  exact dropWhile_of_head (fun a ha => hs a (List.mem_of_head? ha))

theorem pyInt_strip (s : Str) : pyInt (strip s) = pyInt s := by
  unfold pyInt; rw [strip_strip]

theorem digits_noSpace {d : Str} (h : allDigits d = true) : ∀ c ∈ d, isSpace c = false :=
  fun c hc => isDigit_not_space (allDigits_mem h c hc)

theorem not_mem_pad {w1 d w2 : Str} (h1 : allSpace w1) (h2 : allSpace w2)
    (hd : allDigits d = true) {c : Char} (hc : isSpace c = false) (hc' : isDigit c = false) :
    c ∉ w1 ++ d ++ w2 := by
  intro hm
  simp only [List.mem_append] at hm
  rcases hm with (h | h) | h
  · rw [h1 c h] at hc; cases hc
  · rw [allDigits_mem hd c h] at hc'; cases hc'
  · rw [h2 c h] at hc; cases hc

/-- The integers of an item as a list. -/
def Item.members : Item → List Int
  | .single _ d _ => [(natVal d : Int)]
  | .span _ d1 _ _ d2 _ => pyRange (natVal d1) (natVal d2 + 1)

theorem Item.mem_members (it : Item) (x : Int) : x ∈ it.members ↔ it.denotes x := by
  cases it with
  | single w1 d w2 => simp [members, denotes]
  | span w1 d1 w2 w3 d2 w4 => simp only [members, denotes, mem_pyRange]; omega

theorem parsePart_item (it : Item) (h : it.Valid) : parsePart it.text = .ok it.members := by
  cases it with
  | single w1 d w2 =>
    obtain ⟨h1, hd, h2⟩ := h
    have hm : '-' ∉ w1 ++ d ++ w2 := not_mem_pad h1 h2 hd (by decide) (by decide)
    unfold parsePart Item.text
    simp only
    rw [if_neg hm, ← pyInt_strip, strip_pad h1 h2 (allDigits_ne_nil hd) (digits_noSpace hd),
      pyInt_digits hd]
    rfl
  | span w1 d1 w2 w3 d2 w4 =>
    obtain ⟨h1, hd1, h2, h3, hd2, h4⟩ := h
    have hm1 : '-' ∉ w1 ++ d1 ++ w2 := not_mem_pad h1 h2 hd1 (by decide) (by decide)
    have hm2 : '-' ∉ w3 ++ d2 ++ w4 := not_mem_pad h3 h4 hd2 (by decide) (by decide)
    unfold parsePart Item.text
    simp only
    rw [if_pos (by simp), splitOn_append _ _ _ hm1, splitOn_no _ _ hm2]
    simp only
    rw [strip_pad h1 h2 (allDigits_ne_nil hd1) (digits_noSpace hd1),
      strip_pad h3 h4 (allDigits_ne_nil hd2) (digits_noSpace hd2)]
    have hf : d2.filter isDigit = d2 := List.filter_eq_self.2 (allDigits_mem hd2)
    rw [hf, pyInt_digits hd1, pyInt_digits hd2]
    rfl

theorem Item.no_comma (it : Item) (h : it.Valid) : ',' ∉ it.text := by
  cases it with
  | single w1 d w2 =>
    obtain ⟨h1, hd, h2⟩ := h
    exact not_mem_pad h1 h2 hd (by decide) (by decide)
  | span w1 d1 w2 w3 d2 w4 =>
    obtain ⟨h1, hd1, h2, h3, hd2, h4⟩ := h
    intro hm
    simp only [text] at hm
    rw [List.mem_append, List.mem_cons] at hm
    rcases hm with h | h | h
    · exact not_mem_pad h1 h2 hd1 (by decide) (by decide) h
    · exact absurd h (by decide)
    · exact not_mem_pad h3 h4 hd2 (by decide) (by decide) h

theorem Item.text_ne_nil (it : Item) (h : it.Valid) : it.text ≠ [] := by
  cases it with
  | single w1 d w2 =>
    have := allDigits_ne_nil h.2.1
    simp [text, this]
  | span w1 d1 w2 w3 d2 w4 => simp [text]

theorem splitOn_tail_of_double (s : Str) (h : isInfix [',', ','] s = true) :
    [] ∈ (splitOn ',' s).tail := by
  induction s with
  | nil => simp [isInfix] at h
  | cons x xs ih =>
    simp only [isInfix, Bool.or_eq_true] at h
    rcases h with h | h
    · cases xs with
      | nil => simp [List.isPrefixOf] at h
      | cons y ys =>
        simp only [List.isPrefixOf, Bool.and_eq_true, beq_iff_eq] at h
        obtain ⟨rfl, rfl, _⟩ := h
        simp [splitOn]
    · have := ih h
      by_cases hx : x = ','
      · subst hx
        simp only [splitOn, if_true, List.tail_cons]
        exact List.mem_of_mem_tail this
      · rw [splitOn, if_neg hx]
        cases hs : splitOn ',' xs with
        | nil => exact absurd hs (splitOn_ne_nil _ _)
        | cons a t => rw [hs] at this; simpa using this

theorem splitOn_items (items : List Item) (hne : items ≠ []) (hv : ∀ i ∈ items, i.Valid) :
    splitOn ',' (join [','] (items.map Item.text)) = items.map Item.text := by
  apply splitOn_join
  · simpa using hne
  · intro p hp
    obtain ⟨i, hi, rfl⟩ := List.mem_map.1 hp
    exact i.no_comma (hv i hi)

theorem parseIntegers_items (items : List Item) (hne : items ≠ []) (hv : ∀ i ∈ items, i.Valid) :
    parseIntegers (join [','] (items.map Item.text)) =
      .ok (dedupBy (· == ·) (items.map Item.members).flatten) := by
  unfold parseIntegers
  rw [splitOn_items items hne hv]
  have : (items.map Item.text).mapM parsePart = .ok (items.map Item.members) := by
    clear hne
    induction items with
    | nil => rfl
    | cons a as ih =>
      rw [List.map_cons, List.mapM_cons, parsePart_item a (hv a (by simp)),
        ih (fun i hi => hv i (by simp [hi]))]
      rfl
  rw [this]
  rfl

theorem ofText_items (items : List Item) (hne : items ≠ []) (hv : ∀ i ∈ items, i.Valid) :
    ofText (join [','] (items.map Item.text)) =
      .ok ⟨dedupBy (· == ·) (items.map Item.members).flatten, false⟩ := by
  have hsp := splitOn_items items hne hv
  unfold ofText
  rw [if_neg, if_neg, parseIntegers_items items hne hv]
  · rfl
  · intro h
    have := splitOn_tail_of_double _ h
    rw [hsp] at this
    obtain ⟨i, hi, he⟩ := List.mem_map.1 (List.mem_of_mem_tail this)
    exact i.text_ne_nil (hv i hi) he
  · intro h
    rw [h] at hsp
    cases items with
    | nil => exact hne rfl
    | cons a as =>
      simp only [splitOn, List.map_cons, List.cons.injEq] at hsp
      exact a.text_ne_nil (hv a (by simp)) hsp.1.symm

/-! ## sorting integers -/

theorem beq_int_iff (a b : Int) : (a == b) = true ↔ a = b := by simp

theorem sortInts_false_le (l : List Int) : (sortInts false l).Pairwise (· ≤ ·) := by
  have := sortBy_sorted (le := fun a b : Int => if false then decide (b ≤ a) else decide (a ≤ b))
    (by intro a b; simp; omega) (by intro a b c; simp; omega) l
  unfold sortInts
  refine this.imp ?_
  intro a b h; simpa using h

theorem sortInts_true_ge (l : List Int) : (sortInts true l).Pairwise (· ≥ ·) := by
  have := sortBy_sorted (le := fun a b : Int => if true then decide (b ≤ a) else decide (a ≤ b))
    (by intro a b; simp; omega) (by intro a b c; simp; omega) l
  unfold sortInts
  refine this.imp ?_
  intro a b h; simpa using h

theorem mem_sortInts {rev : Bool} {x : Int} {l : List Int} : x ∈ sortInts rev l ↔ x ∈ l := mem_sortBy

theorem nodup_sortInts {rev : Bool} {l : List Int} (h : l.Nodup) : (sortInts rev l).Nodup :=
  (sortBy_perm _ l).nodup_iff.2 h

theorem sorted_lt {l : List Int} (h : l.Pairwise (· ≤ ·)) (hn : l.Nodup) : l.Pairwise (· < ·) := by
  unfold List.Nodup at hn
  have := h.and hn
  refine this.imp ?_
  intro a b h; omega

/-! ## compression -/

/-- Structural form of the compression loop: `p` is the previous member. -/
def interior : Int → List Int → Bool → List Tok
  | _, [], _ => []
  | _, [l], _ => [.num l]
  | p, c :: n :: r, d =>
    if c - p = 1 ∧ n - c = 1 then
      (if d then [] else [.dash]) ++ interior c (n :: r) true
    else .num c :: interior c (n :: r) false

theorem fold_interior (xs : List Int) :
    ∀ (rest : List Int) (k : Nat) (acc : List Tok), 0 < k → xs.drop k = rest → rest ≠ [] →
      (List.range' k rest.length).foldl (compStep xs) acc ++ [.num (xs.getD (xs.length - 1) 0)] =
        acc ++ interior (xs.getD (k - 1) 0) rest (decide (acc.getLast? = some .dash)) := by
  intro rest
  induction rest with
  | nil => intro k acc _ _ h; exact absurd rfl h
  | cons c r ih =>
    intro k acc hk hd _
    have hlen : xs.length = k + (r.length + 1) := by
      have := congrArg List.length hd
      simp at this
      omega
    have hc : xs.getD k 0 = c := by
      have : (xs.drop k)[0]? = some c := by rw [hd]; rfl
      rw [List.getElem?_drop, Nat.add_zero] at this
      simp [List.getD, this]
    have hdr : xs.drop (k + 1) = r := by
      rw [← List.drop_drop, hd]; rfl
    rw [List.length_cons, List.range'_succ, List.foldl_cons]
    cases r with
    | nil =>
      simp only [List.length_nil, List.range'_zero, List.foldl_nil]
      have : compStep xs acc k = acc := by
        unfold compStep; rw [if_neg]; simp at hlen; omega
      rw [this, interior]
      simp only [List.length_nil] at hlen
      rw [show xs.length - 1 = k by omega, hc]
    | cons n r' =>
      have hn : xs.getD (k + 1) 0 = n := by
        have : (xs.drop (k + 1))[0]? = some n := by rw [hdr]; rfl
        rw [List.getElem?_drop, Nat.add_zero] at this
        simp [List.getD, this]
      have hcond : k + 1 < xs.length ∧ 0 < k := by simp at hlen; omega
      rw [ih (k + 1) (compStep xs acc k) (by omega) hdr (by simp)]
      rw [show k + 1 - 1 = k by omega, hc]
      unfold compStep
      rw [if_pos hcond, interior]
      simp only [hc, hn]
      split
      · split
        · rename_i h1 h2
          simp [h2]
        · rename_i h1 h2
          simp [h2]
      · simp

theorem rangeList_eq (x : Int) (rest : List Int) :
    rangeList (x :: rest) = .num x :: interior x rest false := by
  cases rest with
  | nil => simp [rangeList, compStep, interior, List.range_succ]
  | cons c r =>
    unfold rangeList
    rw [if_pos (by simp)]
    have h0 : (List.range (x :: c :: r).length).foldl (compStep (x :: c :: r))
        [.num ((x :: c :: r).getD 0 0)] =
        (List.range' 1 (c :: r).length).foldl (compStep (x :: c :: r)) [.num x] := by
      rw [List.range_eq_range', List.length_cons, List.range'_succ, List.foldl_cons]
      congr 1
    rw [h0, fold_interior (x :: c :: r) (c :: r) 1 [.num x] (by omega) rfl (by simp)]
    simp

/-! Grouping of the tokens into items. -/

inductive Grp where
  | one (a : Int)
  | run (a b : Int)

def Grp.toks : Grp → List Tok
  | .one a => [.num a]
  | .run a b => [.num a, .dash, .num b]

def Grp.has : Grp → Int → Prop
  | .one a, x => x = a
  | .run a b, x => a ≤ x ∧ x ≤ b

theorem Grp.has_one (a x : Int) : (Grp.one a).has x ↔ x = a := Iff.rfl
theorem Grp.has_run (a b x : Int) : (Grp.run a b).has x ↔ a ≤ x ∧ x ≤ b := Iff.rfl

mutual
/-- `p` is pending. -/
def pend : Int → List Int → List Grp
  | p, [] => [.one p]
  | p, [l] => [.one p, .one l]
  | p, c :: n :: r =>
    if c - p = 1 ∧ n - c = 1 then inRun p (n :: r) c else .one p :: pend c (n :: r)
/-- A run started at `s`, its last member so far is `q`. -/
def inRun : Int → List Int → Int → List Grp
  | s, [], q => [.run s q]
  | s, [l], _ => [.run s l]
  | s, c :: n :: r, _ => if n - c = 1 then inRun s (n :: r) c else .run s c :: pend n r
end

theorem group_spec : ∀ (m : Nat) (rest : List Int), rest.length ≤ m →
    (∀ p, .num p :: interior p rest false = (pend p rest).flatMap Grp.toks) ∧
    (∀ s q, rest.head? = some (q + 1) →
      [.num s, .dash] ++ interior q rest true = (inRun s rest q).flatMap Grp.toks) := by
  intro m
  induction m with
  | zero =>
    intro rest h
    have : rest = [] := by cases rest with | nil => rfl | cons a t => simp at h
    subst this
    exact ⟨fun p => by simp [interior, pend, Grp.toks], fun s q h => by simp at h⟩
  | succ m ih =>
    intro rest h
    match rest, h with
    | [], _ => exact ⟨fun p => by simp [interior, pend, Grp.toks], fun s q h => by simp at h⟩
    | [l], _ =>
      exact ⟨fun p => by simp [interior, pend, Grp.toks], fun s q h => by
        simp [interior, inRun, Grp.toks]⟩
    | c :: n :: r, h =>
      have ih1 := ih (n :: r) (by simp at h ⊢; omega)
      have ih0 := ih r (by simp at h ⊢; omega)
      constructor
      · intro p
        rw [interior, pend]
        split
        · rename_i hc
          have := ih1.2 p c (by simp; omega)
          rw [← this]; simp
        · rw [List.flatMap_cons, ← ih1.1 c]; simp [Grp.toks]
      · intro s q hq
        simp at hq
        rw [interior, inRun]
        by_cases hn : n - c = 1
        · rw [if_pos ⟨by omega, hn⟩, if_pos hn, ← ih1.2 s c (by simp; omega)]
          simp
        · rw [if_neg (by omega), if_neg hn, List.flatMap_cons, ← ih0.1 n]
          -- the member after a broken run is emitted as a number
          have : interior c (n :: r) false = .num n :: interior n r false := by
            cases r with
            | nil => simp [interior]
            | cons m' r' => rw [interior, if_neg (by omega)]
          rw [this]
          simp [Grp.toks]

theorem group_members : ∀ (m : Nat) (rest : List Int), rest.length ≤ m →
    (∀ p, ∀ x, (∃ g ∈ pend p rest, g.has x) ↔ x = p ∨ x ∈ rest) ∧
    (∀ s q, s ≤ q → rest.head? = some (q + 1) →
      ∀ x, (∃ g ∈ inRun s rest q, g.has x) ↔ (s ≤ x ∧ x ≤ q) ∨ x ∈ rest) := by
  intro m
  induction m with
  | zero =>
    intro rest h
    have : rest = [] := by cases rest with | nil => rfl | cons a t => simp at h
    subst this
    exact ⟨fun p x => by simp [pend, Grp.has], fun s q _ h => by simp at h⟩
  | succ m ih =>
    intro rest h
    match rest, h with
    | [], _ => exact ⟨fun p x => by simp [pend, Grp.has], fun s q _ h => by simp at h⟩
    | [l], _ =>
      refine ⟨fun p x => by simp [pend, Grp.has], fun s q hsq hh x => ?_⟩
      simp at hh
      simp [inRun, Grp.has]; omega
    | c :: n :: r, h =>
      have ih1 := ih (n :: r) (by simp at h ⊢; omega)
      have ih0 := ih r (by simp at h ⊢; omega)
      constructor
      · intro p x
        rw [pend]
        split
        · rename_i hc
          rw [ih1.2 p c (by omega) (by simp; omega) x]
          rw [List.mem_cons (b := c)]
          generalize (x ∈ n :: r) = Q
          by_cases hQ : Q <;> simp [hQ] <;> omega
        · have := ih1.1 c x
          simp only [List.mem_cons, exists_eq_or_imp, Grp.has_one, Grp.has_run]
          rw [List.mem_cons] at this
          rw [this]
      · intro s q hsq hh x
        simp at hh
        rw [inRun]
        split
        · rename_i hn
          rw [ih1.2 s c (by omega) (by simp; omega) x, List.mem_cons (b := c)]
          generalize (x ∈ n :: r) = Q
          by_cases hQ : Q <;> simp [hQ] <;> omega
        · have := ih0.1 n x
          simp only [List.mem_cons, exists_eq_or_imp, Grp.has_one, Grp.has_run]
          rw [this]
          generalize (x ∈ r) = Q
          by_cases hQ : Q <;> simp [hQ] <;> omega

/-- All numbers of the groups occur among the members. -/
theorem group_nonneg : ∀ (m : Nat) (rest : List Int), rest.length ≤ m →
    (∀ p, 0 ≤ p → (∀ x ∈ rest, 0 ≤ x) → ∀ g ∈ pend p rest, ∀ i, .num i ∈ g.toks → 0 ≤ i) ∧
    (∀ s q, 0 ≤ s → 0 ≤ q → (∀ x ∈ rest, 0 ≤ x) → ∀ g ∈ inRun s rest q, ∀ i, .num i ∈ g.toks → 0 ≤ i) := by
  intro m
  induction m with
  | zero =>
    intro rest h
    have : rest = [] := by cases rest with | nil => rfl | cons a t => simp at h
    subst this
    refine ⟨?_, ?_⟩
    · intro p hp _ g hg i hi; simp [pend] at hg; subst hg; simp [Grp.toks] at hi; omega
    · intro s q hs hq _ g hg i hi; simp [inRun] at hg; subst hg; simp [Grp.toks] at hi; omega
  | succ m ih =>
    intro rest h
    match rest, h with
    | [], _ =>
      refine ⟨?_, ?_⟩
      · intro p hp _ g hg i hi; simp [pend] at hg; subst hg; simp [Grp.toks] at hi; omega
      · intro s q hs hq _ g hg i hi; simp [inRun] at hg; subst hg; simp [Grp.toks] at hi; omega
    | [l], _ =>
      refine ⟨?_, ?_⟩
      · intro p hp hx g hg i hi
        have hl := hx l (by simp)
        simp [pend] at hg
        rcases hg with rfl | rfl <;> simp [Grp.toks] at hi <;> omega
      · intro s q hs hq hx g hg i hi
        have hl := hx l (by simp)
        simp [inRun] at hg; subst hg; simp [Grp.toks] at hi; omega
    | c :: n :: r, h =>
      have ih1 := ih (n :: r) (by simp at h ⊢; omega)
      have ih0 := ih r (by simp at h ⊢; omega)
      refine ⟨?_, ?_⟩
      · intro p hp hx
        have hc := hx c (by simp)
        rw [pend]
        split
        · exact ih1.2 p c hp hc (fun x h => hx x (by simp at h ⊢; exact .inr h))
        · intro g hg i hi
          rcases List.mem_cons.1 hg with rfl | hg
          · simp [Grp.toks] at hi; omega
          · exact ih1.1 c hc (fun x h => hx x (by simp at h ⊢; exact .inr h)) g hg i hi
      · intro s q hs hq hx
        have hc := hx c (by simp)
        have hn := hx n (by simp)
        rw [inRun]
        split
        · exact ih1.2 s c hs hc (fun x h => hx x (by simp at h ⊢; exact .inr h))
        · intro g hg i hi
          rcases List.mem_cons.1 hg with rfl | hg
          · simp [Grp.toks] at hi; omega
          · exact ih0.1 n hn (fun x h => hx x (by simp [h])) g hg i hi

/-- The item with the same text as a group. -/
def Grp.item : Grp → Item
  | .one a => .single [] (natStr a.toNat) []
  | .run a b => .span [] (natStr a.toNat) [] [] (natStr b.toNat) []

theorem intStr_nonneg {i : Int} (h : 0 ≤ i) : intStr i = natStr i.toNat := by
  cases i with
  | ofNat n => rfl
  | negSucc n => omega

theorem Grp.item_valid (g : Grp) : g.item.Valid := by
  have hs : allSpace [] := fun c hc => by cases hc
  cases g with
  | one a => exact ⟨hs, allDigits_natStr _, hs⟩
  | run a b => exact ⟨hs, allDigits_natStr _, hs, hs, allDigits_natStr _, hs⟩

theorem Grp.item_denotes (g : Grp) (h : ∀ i, .num i ∈ g.toks → 0 ≤ i) (x : Int) :
    g.item.denotes x ↔ g.has x := by
  cases g with
  | one a =>
    have := h a (by simp [toks])
    simp [item, Item.denotes, has, natVal_natStr]; omega
  | run a b =>
    have := h a (by simp [toks])
    have := h b (by simp [toks])
    simp [item, Item.denotes, has, natVal_natStr]; omega

/-- Last token of a group is a number. -/
theorem render_groups : ∀ (gs : List Grp), (∀ g ∈ gs, ∀ i, .num i ∈ g.toks → 0 ≤ i) →
    (∀ p, renderFrom (.num p) (gs.flatMap Grp.toks) =
      (gs.map (fun g => ',' :: g.item.text)).flatten) := by
  intro gs
  induction gs with
  | nil => intro _ p; rfl
  | cons g gs ih =>
    intro h p
    have ihh := ih (fun g hg => h g (by simp [hg]))
    cases g with
    | one a =>
      have h0 := h (.one a) (by simp) a (by simp [Grp.toks])
      simp [Grp.toks, renderFrom, Tok.sameType, Tok.str, Grp.item, Item.text, ihh,
        intStr_nonneg h0]
    | run a b =>
      have h0 := h (.run a b) (by simp) a (by simp [Grp.toks])
      have h1 := h (.run a b) (by simp) b (by simp [Grp.toks])
      simp [Grp.toks, renderFrom, Tok.sameType, Tok.str, Grp.item, Item.text, ihh,
        intStr_nonneg h0, intStr_nonneg h1]

theorem join_cons_flatten (c : Char) (a : Str) (l : List Str) :
    join [c] (a :: l) = a ++ (l.map (fun s => c :: s)).flatten := by
  induction l generalizing a with
  | nil => simp [join]
  | cons b bs ih =>
    rw [join, ih b]; simp

theorem render_eq (gs : List Grp) (hne : gs ≠ []) (h : ∀ g ∈ gs, ∀ i, .num i ∈ g.toks → 0 ≤ i) :
    render (gs.flatMap Grp.toks) = join [','] ((gs.map Grp.item).map Item.text) := by
  cases gs with
  | nil => exact absurd rfl hne
  | cons g gs =>
    have hr := render_groups gs (fun g hg => h g (by simp [hg]))
    rw [List.map_cons, List.map_cons, join_cons_flatten]
    rw [List.map_map, List.map_map]
    cases g with
    | one a =>
      have h0 := h (.one a) (by simp) a (by simp [Grp.toks])
      simp [Grp.toks, render, Tok.str, Grp.item, Item.text, hr,
        intStr_nonneg h0, Function.comp_def]
    | run a b =>
      have h0 := h (.run a b) (by simp) a (by simp [Grp.toks])
      have h1 := h (.run a b) (by simp) b (by simp [Grp.toks])
      simp [Grp.toks, render, renderFrom, Tok.sameType, Tok.str, Grp.item, Item.text, hr,
        intStr_nonneg h0, intStr_nonneg h1, Function.comp_def]

theorem pend_ne_nil : ∀ (p : Int) (l : List Int), pend p l ≠ [] := by
  have aux : ∀ (m : Nat) (rest : List Int), rest.length ≤ m →
      (∀ p, pend p rest ≠ []) ∧ (∀ s q, inRun s rest q ≠ []) := by
    intro m
    induction m with
    | zero =>
      intro rest h
      have : rest = [] := by cases rest with | nil => rfl | cons a t => simp at h
      subst this
      simp [pend, inRun]
    | succ m ih =>
      intro rest h
      match rest, h with
      | [], _ => simp [pend, inRun]
      | [l], _ => simp [pend, inRun]
      | c :: n :: r, h =>
        have ih1 := ih (n :: r) (by simp at h ⊢; omega)
        constructor
        · intro p; rw [pend]; split
          · exact ih1.2 _ _
          · simp
        · intro s q; rw [inRun]; split
          · exact ih1.2 _ _
          · simp
  intro p l
  exact (aux l.length l (Nat.le_refl _)).1 p

/-! ## members of a parsed range are naturals -/

theorem mem_splitOn_not (c : Char) : ∀ (s p : Str), p ∈ splitOn c s → c ∉ p := by
  intro s
  induction s with
  | nil => intro p hp; simp [splitOn] at hp; subst hp; simp
  | cons x xs ih =>
    intro p hp
    rw [splitOn] at hp
    split at hp
    · rcases List.mem_cons.1 hp with rfl | h
      · simp
      · exact ih p h
    · rename_i hx
      cases hs : splitOn c xs with
      | nil => exact absurd hs (splitOn_ne_nil _ _)
      | cons h t =>
        rw [hs] at hp ih
        simp only [List.mem_cons] at hp
        rcases hp with rfl | hp
        · have := ih h (by simp)
          simp only [List.mem_cons, not_or]
          exact ⟨fun e => hx e.symm, this⟩
        · exact ih p (by simp [hp])

theorem mem_of_mem_strip {c : Char} {s : Str} (h : c ∈ strip s) : c ∈ s :=
  (rstrip_prefix s).subset ((lstrip_suffix (rstrip s)).subset h)

theorem pyInt_nonneg {s : Str} {i : Int} (h : '-' ∉ s) (hi : pyInt s = .ok i) : 0 ≤ i := by
  unfold pyInt at hi
  split at hi
  · cases hi
  · rename_i c cs hc
    have hne : c ≠ '-' := by
      intro e; subst e; exact h (mem_of_mem_strip (by rw [hc]; simp))
    rw [if_neg hne] at hi
    split at hi
    · split at hi
      · injection hi with hi; omega
      · cases hi
    · split at hi
      · injection hi with hi; omega
      · cases hi

theorem parsePart_nonneg {p : Str} {l : List Int} (h : parsePart p = .ok l) : ∀ x ∈ l, 0 ≤ x := by
  unfold parsePart at h
  split at h
  · split at h
    · rename_i a b hab
      have ha : '-' ∉ a := mem_splitOn_not '-' p a (by rw [hab]; simp)
      cases h1 : pyInt (strip a) with
      | error e => rw [h1] at h; cases h
      | ok i =>
      cases h2 : pyInt (strip b) with
      | error e => rw [h1, h2] at h; cases h
      | ok j =>
      cases h3 : pyInt ((strip b).filter isDigit) with
      | error e => rw [h1, h2, h3] at h; cases h
      | ok k =>
        rw [h1, h2, h3] at h
        have e : pyRange i (k + 1) = l := by injection h
        have hi := pyInt_nonneg (fun hm => ha (mem_of_mem_strip hm)) h1
        intro x hx
        rw [← e, mem_pyRange] at hx
        omega
    · cases h
  · rename_i hm
    cases h1 : pyInt p with
    | error e => rw [h1] at h; cases h
    | ok i =>
      rw [h1] at h
      have e : [i] = l := by injection h
      have hi := pyInt_nonneg hm h1
      intro x hx
      rw [← e] at hx
      simp at hx
      omega

theorem mapM_mem {α β : Type} (f : α → Except Err β) :
    ∀ (l : List α) (m : List β), l.mapM f = .ok m → ∀ y ∈ m, ∃ x ∈ l, f x = .ok y := by
  intro l
  induction l with
  | nil => intro m h y hy; rw [List.mapM_nil] at h; injection h with h; subst h; cases hy
  | cons a as ih =>
    intro m h y hy
    rw [List.mapM_cons] at h
    cases h1 : f a with
    | error e => rw [h1] at h; cases h
    | ok b =>
    cases h2 : as.mapM f with
    | error e => rw [h1, h2] at h; cases h
    | ok bs =>
      rw [h1, h2] at h
      have e : b :: bs = m := by injection h
      rw [← e] at hy
      rcases List.mem_cons.1 hy with rfl | hy
      · exact ⟨a, by simp, h1⟩
      · obtain ⟨x, hx, hx'⟩ := ih bs h2 y hy
        exact ⟨x, by simp [hx], hx'⟩

theorem ofText_nonneg {text : Str} {r : R} (h : ofText text = .ok r) : ∀ x ∈ r.lst, 0 ≤ x := by
  unfold ofText at h
  split at h
  · injection h with h; subst h; intro x hx; cases hx
  · split at h
    · cases h
    · unfold parseIntegers at h
      cases h1 : (splitOn ',' text).mapM parsePart with
      | error e => rw [h1] at h; cases h
      | ok parts =>
        rw [h1] at h
        have e : (⟨dedupBy (· == ·) parts.flatten, false⟩ : R) = r := by injection h
        subst e
        intro x hx
        have hx' : x ∈ parts.flatten := dedupBy_subset x hx
        obtain ⟨l, hl, hxl⟩ := List.mem_flatten.1 hx'
        obtain ⟨p, _, hp⟩ := mapM_mem parsePart _ _ h1 l hl
        exact parsePart_nonneg hp x hxl

end Range

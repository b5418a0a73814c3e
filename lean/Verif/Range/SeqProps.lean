import Verif.Range.Seq
import Verif.Range.Props

/-! # C183-C185: integer ranges as sequences

`r.iter` is what iterating over the range gives. -/

namespace Range

open Py

/-! ## positions -/

theorem place_nat {n k : Nat} (h : k < n) : place n (k : Int) = some k := by
  unfold place
  rw [if_pos (by omega)]
  simp

theorem place_neg {n k : Nat} (h : k < n) : place n ((k : Int) - n) = some k := by
  unfold place
  rw [if_neg (by omega), if_pos (by omega)]
  congr 1
  omega

theorem place_out {n : Nat} {i : Int} (h : i < -(n : Int) ∨ (n : Int) ≤ i) : place n i = none := by
  unfold place
  rw [if_neg (by omega), if_neg (by omega)]

theorem lt_of_get {l : List Int} {k : Nat} {x : Int} (h : l[k]? = some x) : k < l.length :=
  (List.getElem?_eq_some_iff.1 h).1

theorem get_place {r : R} {i : Int} {k : Nat} {x : Int} (hi : i < r.lst.length)
    (hp : place r.lst.length i = some k) (hx : r.lst[k]? = some x) : r.getItem (.int i) = .ok x := by
  simp only [R.getItem]
  rw [if_neg (by omega), hp]
  simp [hx]

theorem get_nat {r : R} {k : Nat} {x : Int} (h : r.lst[k]? = some x) :
    r.getItem (.int k) = .ok x :=
  get_place (by have := lt_of_get h; omega) (place_nat (lt_of_get h)) h

theorem get_out {r : R} {i : Int} (h : i < -(r.lst.length : Int) ∨ (r.lst.length : Int) ≤ i) :
    r.getItem (.int i) = .error .indexError := by
  simp only [R.getItem]
  split
  · rfl
  · rw [place_out h]
    rfl

theorem del_place {r : R} {i : Int} {k : Nat} (hi : i < r.lst.length)
    (hp : place r.lst.length i = some k) :
    r.delItem (.int i) = .ok { r with lst := r.lst.eraseIdx k } := by
  simp only [R.delItem]
  rw [if_neg (by omega), hp]

theorem del_out {r : R} {i : Int} (h : i < -(r.lst.length : Int) ∨ (r.lst.length : Int) ≤ i) :
    r.delItem (.int i) = .error .indexError := by
  simp only [R.delItem]
  split
  · rfl
  · rw [place_out h]

/-- **C183 (reading).** The `k`-th member that iteration yields is `r[k]` and `r[k - len(r)]`, and
every other index raises `IndexError`. -/
theorem C183_getitem (r : R) :
    (∀ (k : Nat) (x : Int), r.iter[k]? = some x →
      r.getItem (.int k) = .ok x ∧ r.getItem (.int ((k : Int) - r.len)) = .ok x) ∧
    (∀ i : Int, (i < -(r.len : Int) ∨ (r.len : Int) ≤ i) → r.getItem (.int i) = .error .indexError) ∧
    r.iter.length = r.len := by
  refine ⟨fun k x h => ⟨get_nat h, ?_⟩, fun i h => get_out h, rfl⟩
  have hk := lt_of_get (l := r.lst) h
  exact get_place (by simp only [R.len]; omega) (place_neg hk) h

example : (R.mk [1, 5, 9] false).getItem (.int (-1)) = .ok 9 ∧
    (R.mk [1, 5, 9] false).getItem (.int 1) = .ok 5 ∧
    (R.mk [1, 5, 9] false).getItem (.int 3) = .error .indexError ∧
    (R.mk [1, 5, 9] false).getItem (.int (-4)) = .error .indexError := by decide

/-- **C183 (membership and search).** `x in r` holds exactly for the members that iteration yields;
`r.index(x)` is the position of the first of them and raises `ValueError` for what is not in the
range; `r.count(x)` is 1 for a member and 0 otherwise, when the range repeats no member. -/
theorem C183_search (r : R) (x : Int) :
    (r.contains x = true ↔ x ∈ r.iter) ∧
    (x ∈ r.iter → ∃ k, r.index x = .ok k ∧ r.iter[k]? = some x ∧ ∀ j < k, r.iter[j]? ≠ some x) ∧
    (x ∉ r.iter → r.index x = .error .valueError) ∧
    (r.iter.Nodup → r.count x = if x ∈ r.iter then 1 else 0) := by
  have hloop : ∀ (f i : Nat), r.lst.length < f + i →
      (x ∈ r.lst.drop i → ∃ k, indexLoop r x f i = .ok k ∧ i ≤ k ∧ r.lst[k]? = some x ∧
        ∀ j, i ≤ j → j < k → r.lst[j]? ≠ some x) ∧
      (x ∉ r.lst.drop i → indexLoop r x f i = .error .valueError) := by
    intro f
    induction f with
    | zero =>
      intro i h
      rw [List.drop_eq_nil_of_le (by omega)]
      exact ⟨fun h => absurd h (by simp), fun _ => rfl⟩
    | succ f ih =>
      intro i h
      cases hx : r.lst[i]? with
      | none =>
        have hle := List.getElem?_eq_none_iff.1 hx
        rw [List.drop_eq_nil_of_le hle]
        refine ⟨fun h => absurd h (by simp), fun _ => ?_⟩
        simp only [indexLoop]
        rw [get_out (Or.inr (by omega))]
      | some v =>
        obtain ⟨hl, hv⟩ := List.getElem?_eq_some_iff.1 hx
        have hd : r.lst.drop i = v :: r.lst.drop (i + 1) := by
          rw [List.drop_eq_getElem_cons hl, hv]
        obtain ⟨ih1, ih2⟩ := ih (i + 1) (by omega)
        simp only [indexLoop, get_nat hx, hd]
        by_cases e : v = x
        · subst e
          refine ⟨fun _ => ⟨i, by simp, Nat.le_refl _, hx, fun j h1 h2 => by omega⟩,
            fun h => absurd (List.mem_cons_self) h⟩
        · simp only [beq_iff_eq, e, if_false]
          constructor
          · intro hm
            rcases List.mem_cons.1 hm with h' | h'
            · exact absurd h'.symm e
            · obtain ⟨k, h1, h2, h3, h4⟩ := ih1 h'
              refine ⟨k, h1, by omega, h3, fun j hj hk => ?_⟩
              rcases Nat.lt_or_eq_of_le hj with hj | hj
              · exact h4 j hj hk
              · subst hj
                rw [hx]
                exact fun e' => e (Option.some.inj e')
          · intro hm
            exact ih2 (fun h' => hm (List.mem_cons_of_mem _ h'))
  have h0 := hloop (r.lst.length + 1) 0 (by omega)
  rw [List.drop_zero] at h0
  refine ⟨by simp [R.contains, R.iter], fun h => ?_, h0.2, fun hn => ?_⟩
  · obtain ⟨k, h1, _, h3, h4⟩ := h0.1 h
    exact ⟨k, h1, h3, fun j hj => h4 j (Nat.zero_le _) hj⟩
  · have e : r.count x = r.lst.count x := by
      rw [R.count, R.iter, List.count, List.countP_eq_length_filter]
    rw [e]
    exact hn.count

example : (R.mk [1, 5, 9] false).index 9 = .ok 2 ∧ (R.mk [1, 5, 9] false).index 4 = .error .valueError ∧
    (R.mk [1, 5, 9] false).contains 5 = true ∧ (R.mk [1, 5, 9] false).count 5 = 1 := by decide

/-- **C183 (reversed).** `reversed(r)` yields the members in the opposite order. -/
theorem C183_reversed (r : R) : r.reversed = .ok r.iter.reverse := by
  have h : ∀ (l : List Nat), (∀ i ∈ l, i < r.lst.length) →
      l.mapM (fun (i : Nat) => r.getItem (.int (i : Int))) = .ok (l.map (fun i => r.lst.getD i 0)) := by
    intro l
    induction l with
    | nil => intro _; rfl
    | cons a l ih =>
      intro hl
      have ha := hl a (by simp)
      rw [List.mapM_cons, get_nat (x := r.lst.getD a 0) (by simp [List.getD, ha]),
        ih (fun i hi => hl i (by simp [hi]))]
      rfl
  rw [R.reversed, h _ (by simp [R.len])]
  congr 1
  rw [List.map_reverse]
  congr 1
  apply List.ext_getElem
  · simp [R.len, R.iter]
  · intro n h1 h2
    simp only [R.iter] at h2
    simp [R.iter, List.getD, h2]

/-- **C183 (removal by position).** `del r[k]` and `del r[k - len(r)]` leave the members before and
after the `k`-th in their order; `r.pop(..)` does the same and returns the member; every other index
raises `IndexError` and changes nothing; `r.clear()` leaves nothing. -/
theorem C183_delete (r : R) :
    (∀ (p q : List Int) (x : Int), r.iter = p ++ x :: q →
      ∀ i : Int, (i = p.length ∨ i = (p.length : Int) - r.len) →
        r.delItem (.int i) = .ok { r with lst := p ++ q } ∧
        r.pop i = .ok ({ r with lst := p ++ q }, x)) ∧
    (∀ i : Int, (i < -(r.len : Int) ∨ (r.len : Int) ≤ i) →
      r.delItem (.int i) = .error .indexError ∧ r.pop i = .error .indexError) ∧
    r.clear = .ok { r with lst := [] } := by
  have hdel : ∀ (r : R) (p q : List Int) (x : Int), r.lst = p ++ x :: q →
      ∀ i : Int, (i = p.length ∨ i = (p.length : Int) - r.lst.length) →
        r.delItem (.int i) = .ok { r with lst := p ++ q } ∧
        r.pop i = .ok ({ r with lst := p ++ q }, x) := by
    intro r p q x h i hi
    have hlen : p.length < r.lst.length := by rw [h]; simp
    have hp : place r.lst.length i = some p.length := by
      rcases hi with hi | hi
      · rw [hi]; exact place_nat hlen
      · rw [hi]; exact place_neg hlen
    have hlt : i < r.lst.length := by omega
    have hd : r.delItem (.int i) = .ok { r with lst := p ++ q } := by
      rw [del_place hlt hp, h]
      simp [List.eraseIdx_append_of_length_le]
    refine ⟨hd, ?_⟩
    rw [R.pop, get_place hlt hp (x := x) (by rw [h]; simp), hd]
    rfl
  refine ⟨fun p q x h => hdel r p q x h, fun i h => ⟨del_out h, ?_⟩, ?_⟩
  · rw [R.pop, get_out h]
    rfl
  · have hc : ∀ (f : Nat) (r : R), r.lst.length < f → clearLoop f r = .ok { r with lst := [] } := by
      intro f
      induction f with
      | zero => intro r h; omega
      | succ f ih =>
        intro r h
        rcases List.eq_nil_or_concat r.lst with e | ⟨p, x, e⟩
        · have : r.pop = .error .indexError := by
            rw [R.pop, get_out (Or.inl (by simp [e]))]
            rfl
          simp only [clearLoop, this]
          rw [← e]
        · rw [List.concat_eq_append] at e
          have := (hdel r p [] x e (-1) (Or.inr (by rw [e]; simp; omega))).2
          simp only [clearLoop, this]
          rw [ih _ (by rw [e] at h; simp at h ⊢; omega)]
    exact hc _ r (by omega)

example : (R.mk [1, 5, 9] false).delItem (.int (-2)) = .ok ⟨[1, 9], false⟩ ∧
    (R.mk [1, 5, 9] false).pop = .ok (⟨[1, 5], false⟩, 9) ∧
    (R.mk [1, 5, 9] false).clear = .ok ⟨[], false⟩ := by decide

/-- **C183 (equality).** Two ranges are equal exactly when they yield the same members in the same
order, a range equals nothing else, and equal ranges that are not empty hash alike. -/
theorem C183_equality (a b : R) :
    (a.eq (some b) = true ↔ a.iter = b.iter) ∧ a.eq none = false ∧
    (a.eq (some b) = true → a.iter ≠ [] → ∃ s, a.hashKey = .ok s ∧ b.hashKey = .ok s) := by
  refine ⟨by simp [R.eq, R.iter], rfl, fun h hne => ?_⟩
  have e : a.lst = b.lst := by simpa [R.eq] using h
  have hl : a.lst.length ≠ 0 := fun h0 => hne (List.length_eq_zero_iff.1 h0)
  refine ⟨a.str, ?_, ?_⟩
  · rw [R.hashKey, if_neg hl]
  · rw [R.hashKey, ← e, if_neg hl, R.str, R.str, e]

example : (R.mk [1, 5] false).eq (some ⟨[1, 5], true⟩) = true ∧
    (R.mk [1, 5] false).eq (some ⟨[5, 1], false⟩) = false := by decide

theorem join_blank (x : Str) (l : List Str) :
    join [',', ' '] (x :: l) = join [','] (x :: l.map (fun s => ' ' :: s)) := by
  induction l generalizing x with
  | nil => rfl
  | cons y l ih =>
    rw [List.map_cons]
    simp only [join]
    rw [ih y]
    cases l with
    | nil => simp [join]
    | cons z l => simp [join]

/-- **C183 (text).** `str(r)` is the members in brackets, separated by a comma and a blank; what
stands in the brackets, read as a range again, gives the same members, for natural numbers. -/
theorem C183_text (r : R) (hne : r.iter ≠ []) (hnat : ∀ x ∈ r.iter, 0 ≤ x) :
    ∃ inner r', r.str = '[' :: (inner ++ [']']) ∧ inner = join [',', ' '] (r.iter.map intStr) ∧
      ofText inner = .ok r' ∧ ∀ x, x ∈ r'.iter ↔ x ∈ r.iter := by
  obtain ⟨l, rev⟩ := r
  simp only [R.iter] at hne hnat ⊢
  cases l with
  | nil => exact absurd rfl hne
  | cons a l =>
    refine ⟨join [',', ' '] ((a :: l).map intStr), ⟨dedupBy (· == ·) (a :: l), false⟩, rfl, rfl, ?_,
      fun x => mem_dedupBy_of_eq beq_int_iff⟩
    let items : List Item := .single [] (natStr a.toNat) [] ::
      l.map (fun x => .single [' '] (natStr x.toNat) [])
    have hv : ∀ i ∈ items, i.Valid := by
      intro i hi
      have hd : ∀ n, allDigits (natStr n) = true := by
        intro n
        have h1 := natStr_digits n
        have h2 := natStr_ne_nil n
        simp only [allDigits]
        simp [h2]
        exact h1
      rcases List.mem_cons.1 hi with e | e
      · subst e; exact ⟨by simp [allSpace], hd _, by simp [allSpace]⟩
      · obtain ⟨x, _, rfl⟩ := List.mem_map.1 e
        exact ⟨by simp [allSpace]; decide, hd _, by simp [allSpace]⟩
    have ht : join [',', ' '] ((a :: l).map intStr) = join [','] (items.map Item.text) := by
      rw [List.map_cons, join_blank]
      simp only [items, List.map_cons, List.map_map, Item.text]
      rw [intStr_nonneg (hnat a (by simp))]
      congr 2
      · simp
      · apply List.map_congr_left
        intro x hx
        simp [Item.text, intStr_nonneg (hnat x (by simp [hx]))]
    have hm : (items.map Item.members).flatten = a :: l := by
      have hl : ∀ (l : List Int), (∀ x ∈ l, 0 ≤ x) →
          ((l.map (fun x => Item.single [' '] (natStr x.toNat) [])).map Item.members).flatten = l := by
        intro l
        induction l with
        | nil => intro _; rfl
        | cons x l ih =>
          intro h
          rw [List.map_cons, List.map_cons, List.flatten_cons, ih (fun y hy => h y (by simp [hy]))]
          simp only [Item.members, natVal_natStr]
          have := h x (by simp)
          simp [Int.toNat_of_nonneg this]
      simp only [items, List.map_cons, List.flatten_cons]
      rw [hl l (fun x hx => hnat x (by simp [hx]))]
      have := hnat a (by simp)
      simp [Item.members, natVal_natStr, Int.toNat_of_nonneg this]
    rw [ht, ofText_items items (by simp [items]) hv, hm]

example : (R.mk [1, 5, 12] false).str = "[1, 5, 12]".toList := by decide

/-! ## C184 what a mutable sequence of distinct integers should do -/

/-- **C184 (sets).** `r.as_set(result_type=int)` holds exactly the members, each once, and
`r.as_set()` of an empty range holds nothing. -/
theorem C184_as_set_partial (r : R) :
    (∃ l, r.asSet .int = .ok l ∧ l.Nodup ∧ ∀ x, x ∈ l ↔ x ∈ r.iter) ∧
    (r.iter = [] → r.asSet .auto = .ok []) := by
  refine ⟨⟨_, rfl, nodup_dedupBy_of_eq beq_int_iff, fun x => mem_dedupBy_of_eq beq_int_iff⟩, fun h => ?_⟩
  simp only [R.iter] at h
  simp [R.asSet, h]

/-- **C184 fails (sets).** `r.as_set()` raises `TypeError` for every range that has a member. -/
theorem C184_as_set_fails (r : R) (h : r.iter ≠ []) : r.asSet .auto = .error .typeError := by
  have : r.lst.length > 0 := List.length_pos_iff.2 h
  simp [R.asSet, this]

/-- **C184 fails (assignment).** `r[k] = v` stores nothing, whatever the position and the value:
either it raises or the range is as before. -/
theorem C184_setitem_fails (r r' : R) (k : Key) (v : Int) (h : r.setItem k v = .ok r') : r' = r := by
  unfold R.setItem at h
  cases hg : r.getItem k with
  | error e => rw [hg] at h; cases h
  | ok x => rw [hg] at h; exact (Except.ok.inj h).symm

/-- Assignment at a position that exists does not raise. -/
theorem setItem_ok {r : R} {k : Nat} (h : k < r.lst.length) (v : Int) :
    r.setItem (.int k) v = .ok r := by
  unfold R.setItem
  rw [get_nat (x := r.lst[k]) (by simp)]
  rfl

/-- **C184 fails (silently).** `r[k] = v` at a position that exists raises nothing, and `r[k]` is
afterwards what it was. -/
theorem C184_setitem_silent_fails (r : R) (k : Nat) (x v : Int) (h : r.iter[k]? = some x) (hv : v ≠ x) :
    ∃ r', r.setItem (.int k) v = .ok r' ∧ r'.getItem (.int k) ≠ .ok v := by
  refine ⟨r, setItem_ok (lt_of_get h) v, ?_⟩
  rw [get_nat h]
  exact fun e => hv (Except.ok.inj e).symm

/-- **C184 fails (reverse).** `r.reverse()` raises nothing and leaves every range as it was. -/
theorem C184_reverse_fails (r : R) : r.reverseInPlace = .ok r := by
  have h : ∀ (f i : Nat), 2 * (f + i) ≤ r.lst.length → reverseLoop r.lst.length f i r = .ok r := by
    intro f
    induction f with
    | zero => intro i _; rfl
    | succ f ih =>
      intro i hi
      have h1 : i < r.lst.length := by omega
      have h2 : r.lst.length - i - 1 < r.lst.length := by omega
      have e : (r.lst.length : Int) - i - 1 = ((r.lst.length - i - 1 : Nat) : Int) := by omega
      simp only [reverseLoop]
      rw [e, get_nat (x := r.lst[r.lst.length - i - 1]) (by simp), get_nat (x := r.lst[i]) (by simp)]
      show (r.setItem (.int (i : Int)) _ >>= _) = _
      rw [setItem_ok h1]
      show (r.setItem _ _ >>= _) = _
      rw [setItem_ok h2]
      exact ih (i + 1) (by omega)
  rw [R.reverseInPlace]
  exact h _ 0 (by simp only [R.len]; omega)

example : (R.mk [1, 5, 9] false).reverseInPlace = .ok ⟨[1, 5, 9], false⟩ ∧
    (R.mk [1, 5, 9] false).setItem (.int 0) 7 = .ok ⟨[1, 5, 9], false⟩ := by decide

/-- **C184 fails (slices, insertion, empty hash).** A slice of a range raises `TypeError`, read or
deleted; `r.insert(..)` always raises; an empty range has no hash. -/
theorem C184_unsupported_fails (r : R) (i v : Int) :
    r.getItem .slice = .error .typeError ∧ r.delItem .slice = .error .typeError ∧
    r.insert i v = .error .notImplemented ∧
    (r.iter = [] → r.hashKey = .error .typeError) := by
  refine ⟨rfl, rfl, rfl, fun h => ?_⟩
  simp only [R.iter] at h
  simp [R.hashKey, h]

/-! ## C185 extend -/

theorem extend_append (r : R) (a b : List Int) :
    r.extend (a ++ b) = (match (r.extend a).2 with
      | none => (r.extend a).1.extend b
      | some e => ((r.extend a).1, some e)) := by
  induction a generalizing r with
  | nil => rfl
  | cons x a ih =>
    simp only [List.cons_append, R.extend]
    cases r.append (.int x) with
    | error e => rfl
    | ok r' => exact ih r'

theorem extend_new (vals : List Int) : ∀ (r : R), vals.Nodup → (∀ v ∈ vals, v ∉ r.lst) → r.lst.Nodup →
    ∃ r', r.extend vals = (r', none) ∧ (∀ x, x ∈ r'.lst ↔ x ∈ r.lst ∨ x ∈ vals) ∧ r'.lst.Nodup ∧
      (vals ≠ [] → r'.lst.Pairwise (· < ·)) := by
  induction vals with
  | nil => intro r _ _ hr; exact ⟨r, rfl, by simp, hr, fun h => absurd rfl h⟩
  | cons v vals ih =>
    intro r hn hnew hr
    have hv := hnew v (by simp)
    have hn' := List.nodup_cons.1 hn
    have hr1 : (r.lst ++ [v]).Nodup := by
      rw [List.nodup_append]
      exact ⟨hr, by simp, fun a ha b hb => by
        rw [List.mem_singleton] at hb; subst hb; exact fun e => hv (e ▸ ha)⟩
    have hr2 : (sortInts false (r.lst ++ [v])).Nodup := nodup_sortInts hr1
    obtain ⟨r', h1, h2, h3, h4⟩ := ih { r with lst := sortInts false (r.lst ++ [v]) } hn'.2
      (fun w hw hm => by
        rw [mem_sortInts, List.mem_append, List.mem_singleton] at hm
        rcases hm with hm | hm
        · exact hnew w (by simp [hw]) hm
        · subst hm; exact hn'.1 hw) hr2
    refine ⟨r', ?_, ?_, h3, fun _ => ?_⟩
    · simp only [R.extend, append_new hv]
      exact h1
    · intro x
      rw [h2 x, mem_sortInts, List.mem_append, List.mem_singleton, List.mem_cons, or_assoc]
    · cases vals with
      | nil =>
        simp only [R.extend, Prod.mk.injEq] at h1
        rw [← h1.1]
        exact sorted_lt (sortInts_false_le _) hr2
      | cons w vals => exact h4 (by simp)

/-- **C185 (new members).** Extending a range by distinct integers that are not in it raises
nothing; the members are afterwards the old and the new ones, in ascending order and none twice. -/
theorem C185_extend_partial (r : R) (vals : List Int) (hr : r.iter.Nodup) (hne : vals ≠ [])
    (hd : vals.Nodup) (hnew : ∀ v ∈ vals, v ∉ r.iter) :
    ∃ r', r.extend vals = (r', none) ∧ (∀ x, x ∈ r'.iter ↔ x ∈ r.iter ∨ x ∈ vals) ∧
      r'.iter.Pairwise (· < ·) := by
  obtain ⟨r', h1, h2, _, h4⟩ := extend_new vals r hd hnew hr
  exact ⟨r', h1, h2, h4 hne⟩

example : (R.mk [1, 5] false).extend [9, 3] = (⟨[1, 3, 5, 9], false⟩, none) := by decide

/-- **C185 fails (not all or nothing).** Where a value is already a member, `extend` raises
`DuplicateMember` and keeps the values before it: the range has changed. -/
theorem C185_extend_fails (r : R) (new : List Int) (d : Int) (rest : List Int) (hr : r.iter.Nodup)
    (hne : new ≠ []) (hd : new.Nodup) (hnew : ∀ v ∈ new, v ∉ r.iter) (hdup : d ∈ r.iter) :
    ∃ r', r.extend (new ++ d :: rest) = (r', some .duplicateMember) ∧
      (∀ x, x ∈ r'.iter ↔ x ∈ r.iter ∨ x ∈ new) ∧ r'.iter ≠ r.iter := by
  obtain ⟨r', h1, h2, _, _⟩ := extend_new new r hd hnew hr
  refine ⟨r', ?_, h2, fun e => ?_⟩
  · rw [extend_append, h1]
    simp only [R.extend]
    rw [append_old ((h2 d).2 (Or.inl hdup))]
  · obtain ⟨v, hv⟩ := List.exists_mem_of_ne_nil new hne
    have : v ∈ r'.lst := (h2 v).2 (Or.inr hv)
    exact hnew v hv (e ▸ this)

example : (R.mk [1, 5] false).extend [9, 1, 3] = (⟨[1, 5, 9], false⟩, some .duplicateMember) := by decide

end Range

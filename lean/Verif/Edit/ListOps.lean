import Verif.Edit.ListMore
import Verif.Edit.Written

/-! # C262: the list of lines changes like a Python list -/

namespace Edit

open Py Conf Query

/-- `len(objs)`. -/
def Spec.len (c : CList) : Nat := c.items.length

/-- The texts of the lines in the list. -/
def Spec.lineTexts (c : CList) : List Str := c.items.map (fun e => match e with | .obj i => (c.h i).text | .str t => t)

/-- `objs[j]` for a position of the list. -/
theorem get_at (c : CList) (j : Nat) (hj : j < c.items.length) : c.get j = .ok c.items[j] := by
  rw [CList.get, pyIndex_nat hj, Option.bind_some, List.getElem?_eq_getElem hj]

theorem pyIndex_neg {n j : Nat} (h : j < n) : pyIndex n ((j : Int) - n) = some j := by
  rw [pyIndex, if_neg (by omega), if_pos (by omega)]
  congr 1
  omega

theorem pyIndex_cases (n : Nat) (k : Int) :
    (∃ j : Nat, j < n ∧ (k = j ∨ k = j - n) ∧ pyIndex n k = some j) ∨ ((k < -n ∨ (n : Int) ≤ k) ∧ pyIndex n k = none) := by
  by_cases h : 0 ≤ k ∧ k < n
  · refine Or.inl ⟨k.toNat, by omega, Or.inl (by omega), ?_⟩
    rw [pyIndex, if_pos h]
  · by_cases h2 : k < 0 ∧ -n ≤ k
    · refine Or.inl ⟨(k + n).toNat, by omega, Or.inr (by omega), ?_⟩
      rw [pyIndex, if_neg h, if_pos (by omega)]
    · exact Or.inr ⟨by omega, by rw [pyIndex, if_neg h, if_neg (by omega)]⟩

/-- C262: `extend` and `+=` put the elements behind the old ones. -/
theorem C262_extend (c : CList) (l : List Elem) :
    Spec.len (c.extend l) = Spec.len c + l.length ∧ (∀ j : Nat, j < Spec.len c → (c.extend l).get j = c.get j) ∧
    (∀ j : Nat, (h : j < l.length) → (c.extend l).get ((Spec.len c + j : Nat) : Int) = .ok l[j]) := by
  have hl : (c.extend l).items.length = c.items.length + l.length := List.length_append
  refine ⟨hl, fun j hj => ?_, fun j hj => ?_⟩
  · have hj' : j < c.items.length := hj
    rw [get_at _ j (by omega), get_at c j hj']
    exact congrArg _ (List.getElem_append_left hj')
  · have hj' : c.items.length + j < (c.extend l).items.length := by omega
    show (c.extend l).get ((c.items.length + j : Nat) : Int) = _
    rw [get_at _ _ hj']
    refine congrArg _ ?_
    have h1 : (c.items ++ l)[c.items.length + j]? = l[j]? := by
      rw [List.getElem?_append_right (by omega)]
      congr 1
      omega
    have h2 : (c.extend l).items[c.items.length + j]? = l[j]? := h1
    rw [List.getElem?_eq_getElem hj', List.getElem?_eq_getElem hj] at h2
    exact Option.some.inj h2

/-- C262: `append` puts one element behind the old ones. -/
theorem C262_append (c : CList) (v : Elem) :
    Spec.len (c.append v) = Spec.len c + 1 ∧ (∀ j : Nat, j < Spec.len c → (c.append v).get j = c.get j) ∧
    (c.append v).get (Spec.len c) = .ok v ∧ (c.append v).get (-1) = .ok v := by
  obtain ⟨h1, h2, h3⟩ := C262_extend c [v]
  refine ⟨h1, h2, h3 0 (by simp), ?_⟩
  have hl : (c.append v).items.length = c.items.length + 1 := h1
  have := pyIndex_neg (n := c.items.length + 1) (j := c.items.length) (by omega)
  rw [show ((c.items.length : Int) - (c.items.length + 1 : Nat)) = -1 by omega] at this
  rw [CList.get, hl, this, Option.bind_some]
  show (match (c.items ++ [v])[c.items.length]? with | some e => _ | none => _) = _
  rw [List.getElem?_concat_length]

theorem times_length {α : Type} (l : List α) (n : Nat) : (List.replicate n l).flatten.length = n * l.length := by
  simp

theorem times_get {α : Type} (l : List α) : ∀ (n q j : Nat), q < n → j < l.length →
    (List.replicate n l).flatten[q * l.length + j]? = l[j]?
  | 0, _, _, h, _ => absurd h (Nat.not_lt_zero _)
  | n + 1, 0, j, _, hj => by
    rw [List.replicate_succ, List.flatten_cons, Nat.zero_mul, Nat.zero_add, List.getElem?_append_left hj]
  | n + 1, q + 1, j, h, hj => by
    rw [List.replicate_succ, List.flatten_cons, List.getElem?_append_right (by rw [Nat.succ_mul]; omega),
      ← times_get l n q j (by omega) hj]
    congr 1
    rw [Nat.succ_mul]; omega

/-- C262: `*=` repeats the list. -/
theorem C262_repeat (c : CList) (k : Int) :
    Spec.len (c.imul k) = k.toNat * Spec.len c ∧
    ∀ q j : Nat, (q : Int) < k → j < Spec.len c → (c.imul k).get ((q * Spec.len c + j : Nat) : Int) = c.get j := by
  have hl : (c.imul k).items.length = k.toNat * c.items.length := times_length _ _
  refine ⟨hl, fun q j hq hj => ?_⟩
  have hj' : j < c.items.length := hj
  have hlt : q * c.items.length + j < (c.imul k).items.length := by
    rw [hl]
    have : (q + 1) * c.items.length ≤ k.toNat * c.items.length := Nat.mul_le_mul_right _ (by omega)
    rw [Nat.succ_mul] at this
    omega
  show (c.imul k).get ((q * c.items.length + j : Nat) : Int) = _
  rw [get_at _ _ hlt, get_at c j hj']
  have h1 := times_get c.items k.toNat q j (by omega) hj'
  have h2 : (c.imul k).items[q * c.items.length + j]? = c.items[j]? := h1
  rw [List.getElem?_eq_getElem hlt, List.getElem?_eq_getElem hj'] at h2
  exact congrArg _ (Option.some.inj h2)

/-- C262: `objs[k] = v` changes this element only. -/
theorem C262_set (c : CList) (k : Int) (v : Elem) :
    (∀ j : Nat, j < Spec.len c → k = j ∨ k = j - (Spec.len c : Int) → ∃ c', c.setItem k v = .ok c' ∧ Spec.len c' = Spec.len c ∧
      c'.h = c.h ∧ c'.get k = .ok v ∧ ∀ m : Nat, m < Spec.len c → m ≠ j → c'.get m = c.get m) ∧
    ((k < -Spec.len c ∨ (Spec.len c : Int) ≤ k) ↔ c.setItem k v = .error .indexError) := by
  have key : ∀ j : Nat, j < c.items.length → k = j ∨ k = j - (c.items.length : Int) → pyIndex c.items.length k = some j := by
    intro j hj hk
    rcases hk with rfl | rfl
    · exact pyIndex_nat hj
    · exact pyIndex_neg hj
  refine ⟨fun j hj hk => ?_, ?_⟩
  · have hp := key j hj hk
    have hl : (c.items.set j v).length = c.items.length := List.length_set
    refine ⟨{ c with items := c.items.set j v }, by rw [CList.setItem, hp], hl, rfl, ?_, fun m hm hne => ?_⟩
    · rw [CList.get]
      show (match (pyIndex (c.items.set j v).length k).bind (fun j' => (c.items.set j v)[j']?) with | some e => _ | none => _) = _
      rw [hl, hp, Option.bind_some, List.getElem?_set_self hj]
    · have hm' : m < c.items.length := hm
      rw [get_at c m hm', get_at _ m (by show m < (c.items.set j v).length; omega)]
      exact congrArg _ (List.getElem_set_ne (fun h => hne h.symm) _)
  · show (k < -c.items.length ∨ (c.items.length : Int) ≤ k) ↔ _
    rcases pyIndex_cases c.items.length k with ⟨j, h1, h2, h3⟩ | ⟨h1, h2⟩
    · refine iff_of_false (by omega) ?_
      rw [CList.setItem, h3]
      intro h; cases h
    · refine iff_of_true h1 ?_
      rw [CList.setItem, h2]

/-- C262: `pop(k)` gives `objs[k]`, and the elements behind it move down. -/
theorem C262_pop (c : CList) (k : Int) :
    (∀ j : Nat, j < Spec.len c → k = j ∨ k = j - (Spec.len c : Int) → ∃ e c', c.pop k = .ok (e, c') ∧ c.get k = .ok e ∧ c'.h = c.h ∧
      Spec.len c' + 1 = Spec.len c ∧ (∀ m : Nat, m < j → c'.get m = c.get m) ∧
      ∀ m : Nat, j ≤ m → m + 1 < Spec.len c → c'.get m = c.get ((m + 1 : Nat) : Int)) ∧
    ((k < -Spec.len c ∨ (Spec.len c : Int) ≤ k) ↔ c.pop k = .error .indexError) := by
  have key : ∀ j : Nat, j < c.items.length → k = j ∨ k = j - (c.items.length : Int) → pyIndex c.items.length k = some j := by
    intro j hj hk
    rcases hk with rfl | rfl
    · exact pyIndex_nat hj
    · exact pyIndex_neg hj
  have get_of : ∀ j, (hj : j < c.items.length) → pyIndex c.items.length k = some j → c.get k = .ok c.items[j] := fun j hj hp => by
    rw [CList.get, hp, Option.bind_some, List.getElem?_eq_getElem hj]
  refine ⟨fun j hj hk => ?_, ?_⟩
  · have hj' : j < c.items.length := hj
    have hp := key j hj hk
    have hl : (c.items.eraseIdx j).length = c.items.length - 1 := List.length_eraseIdx_of_lt hj'
    refine ⟨c.items[j], { c with items := c.items.eraseIdx j }, ?_, get_of j hj' hp, rfl, ?_, fun m hm => ?_, fun m h1 h2 => ?_⟩
    · rw [CList.pop, get_of j hj' hp]
      show (match pyIndex c.items.length k with | some j => _ | none => _) = _
      rw [hp]
    · show (c.items.eraseIdx j).length + 1 = c.items.length
      omega
    · rw [get_at c m (by omega), get_at _ m (by show m < (c.items.eraseIdx j).length; omega)]
      exact congrArg _ (List.getElem_eraseIdx_of_lt _ hm)
    · have h2' : m + 1 < c.items.length := h2
      rw [get_at c (m + 1) h2', get_at _ m (by show m < (c.items.eraseIdx j).length; omega)]
      exact congrArg _ (List.getElem_eraseIdx_of_ge _ h1)
  · show (k < -c.items.length ∨ (c.items.length : Int) ≤ k) ↔ _
    rcases pyIndex_cases c.items.length k with ⟨j, h1, h2, h3⟩ | ⟨h1, h2⟩
    · refine iff_of_false (by omega) ?_
      rw [CList.pop, get_of j h1 h3]
      show ¬ (match pyIndex c.items.length k with | some j => _ | none => _) = _
      rw [h3]
      intro h; cases h
    · refine iff_of_true h1 ?_
      have : c.get k = .error .indexError := by rw [CList.get, h2]; rfl
      rw [CList.pop, this]; rfl

/-- C262: `reverse` and `clear`. -/
theorem C262_reverse (c : CList) :
    Spec.len c.reverse = Spec.len c ∧ Spec.len c.clear = 0 ∧
    ∀ j : Nat, j < Spec.len c → c.reverse.get j = c.get ((Spec.len c - 1 - j : Nat) : Int) := by
  have hl : c.items.reverse.length = c.items.length := List.length_reverse
  refine ⟨hl, rfl, fun j hj => ?_⟩
  have hj' : j < c.items.length := hj
  show _ = c.get ((c.items.length - 1 - j : Nat) : Int)
  rw [get_at c _ (by omega), get_at _ j (by show j < c.items.reverse.length; omega)]
  exact congrArg _ (List.getElem_reverse _)

theorem strings_map (ts : List Str) : strings (ts.map .str) = some ts := by
  induction ts with
  | nil => rfl
  | cons t ts ih => rw [List.map_cons, strings, ih]; rfl

theorem newList_texts {ts : List Str} (hp : Query.Spec.Plain ts) (hb : ∀ t ∈ ts, ¬ Conf.Spec.blank t) :
    ∃ d, newList (ts.map .str) = .ok d ∧ Spec.lineTexts d = ts.map rstrip := by
  have hnil : ∀ t ∈ ts, t ≠ [] := fun t ht => by rintro rfl; exact hb [] ht (fun _ hc => by cases hc)
  obtain ⟨P, hP⟩ : ∃ P, parse {} ts = .ok P := C28_plain {} _ hp.2.2 hp.2.1
  rw [texts_parse hnil] at hP
  refine ⟨listOf P, by rw [newList, strings_map]; show (bootstrap {} ts >>= fun x => .ok (listOf x)) = _; rw [hP]; rfl, ?_⟩
  show (P.list.map Elem.obj).map _ = _
  rw [list_full hP (keep_of_noBlank (Or.inr hb)), List.map_map]
  refine List.ext_getElem (by simp) (fun n h3 h4 => ?_)
  rw [List.length_map] at h4
  rw [List.getElem_map, List.getElem_map, List.getElem_range]
  show (P.h n).text = _
  rw [show (P.h n).text = rstrip (lineAt ts n) from (attrs hP h4).1, lineAt, List.getD_eq_getElem?_getD, List.getElem?_eq_getElem h4]
  rfl

/-- C262: sums of lists of texts have the lines of the left list first. -/
theorem C262_sum_partial {c : CList} {ts us : List Str} (hc : c.items = ts.map .str) (hp : Query.Spec.Plain (ts ++ us))
    (hp' : Query.Spec.Plain (us ++ ts)) (hb : ∀ t ∈ ts ++ us, ¬ Conf.Spec.blank t) :
    (∃ d, c.add (us.map .str) = .ok d ∧ Spec.lineTexts d = (ts ++ us).map rstrip) ∧
    ∃ d, c.radd (us.map .str) = .ok d ∧ Spec.lineTexts d = (us ++ ts).map rstrip := by
  rw [CList.add, CList.radd, hc, ← List.map_append, ← List.map_append]
  exact ⟨newList_texts hp hb, newList_texts hp' (fun t ht => hb t (by simpa [or_comm] using ht))⟩

/-- C262: a list of texts times `k` has its lines `k` times. -/
theorem C262_times_partial {c : CList} {ts : List Str} (k : Int) (hc : c.items = ts.map .str) (hp : Query.Spec.Plain ts)
    (hb : ∀ t ∈ ts, ¬ Conf.Spec.blank t) :
    ∃ d, c.mul k = .ok d ∧ Spec.lineTexts d = (List.replicate k.toNat (ts.map rstrip)).flatten := by
  have hm : ∀ t ∈ (List.replicate k.toNat ts).flatten, t ∈ ts := fun t ht => by
    obtain ⟨l, hl, h⟩ := List.mem_flatten.mp ht
    rwa [List.eq_of_mem_replicate hl] at h
  have e1 : timesL c.items k = ((List.replicate k.toNat ts).flatten).map .str := by
    rw [timesL, hc, List.map_flatten, List.map_replicate]
  have e2 : (List.replicate k.toNat (ts.map rstrip)).flatten = ((List.replicate k.toNat ts).flatten).map rstrip := by
    rw [List.map_flatten, List.map_replicate]
  rw [CList.mul, e1, e2]
  exact newList_texts ⟨fun l hl => hp.1 l (hm l hl), fun l hl => hp.2.1 l (hm l hl), fun l hl => hp.2.2 l (hm l hl)⟩
    (fun t ht => hb t (hm t ht))

/-- Three elements. -/
example : ∃ P c d, parse {} [s "a", s " b"] = .ok P ∧ ((listOf P).extend [.str (s "x")]).setItem (-2) (.str (s "y")) = .ok c ∧
    c.items = [.obj 0, .str (s "y"), .str (s "x")] ∧ (c.imul 2).items.length = 6 ∧
    ((listOf P).clear.extend [.str (s "p")]).add [.str (s "q")] = .ok d ∧ Spec.lineTexts d = [s "p", s "q"] :=
  ⟨_, _, _, rfl, rfl, by decide +kernel, by decide +kernel, rfl, by decide +kernel⟩

end Edit

import Verif.Edit.ListProps
import Verif.Cisco.AccessLemmas

/-! # C130-C133: searching and changing the list of a configuration -/

namespace Edit

open Py Conf Query

/-! ## C130 -/

theorem map_eraseIdx {α β : Type} (f : α → β) (l : List α) (k : Nat) :
    (l.map f).eraseIdx k = (l.eraseIdx k).map f := by
  induction l generalizing k with
  | nil => rfl
  | cons a l ih =>
    cases k with
    | zero => rfl
    | succ k => rw [List.map_cons, List.eraseIdx_cons_succ, ih, List.eraseIdx_cons_succ, List.map_cons]

theorem findIdx_pos {α : Type} {p : α → Bool} {l : List α} {k : Nat} {x : α} (hk : l[k]? = some x) (hx : p x = true)
    (hu : ∀ j y, l[j]? = some y → p y = true → j = k) : l.findIdx? p = some k := by
  induction l generalizing k with
  | nil => simp at hk
  | cons a l ih =>
    rw [List.findIdx?_cons]
    cases k with
    | zero =>
      simp only [List.getElem?_cons_zero, Option.some.injEq] at hk
      subst hk
      rw [if_pos hx]
    | succ k =>
      have ha : ¬ p a = true := fun h => by have := hu 0 a rfl h; omega
      rw [if_neg ha, ih (k := k) hk (fun j y hj hy => by have := hu (j + 1) y hj hy; omega)]
      rfl

theorem count_pos {α : Type} {p : α → Bool} {l : List α} {k : Nat} {x : α} (hk : l[k]? = some x) (hx : p x = true)
    (hu : ∀ j y, l[j]? = some y → p y = true → j = k) : l.countP p = 1 := by
  induction l generalizing k with
  | nil => simp at hk
  | cons a l ih =>
    cases k with
    | zero =>
      simp only [List.getElem?_cons_zero, Option.some.injEq] at hk
      subst hk
      rw [List.countP_cons_of_pos hx, List.countP_eq_zero.mpr]
      intro y hy hp
      obtain ⟨j, hj⟩ := List.mem_iff_getElem?.mp hy
      have := hu (j + 1) y hj hp
      omega
    | succ k =>
      have ha : ¬ p a = true := fun h => by have := hu 0 a rfl h; omega
      rw [List.countP_cons_of_neg ha]
      exact ih (k := k) hk (fun j y hj hy => by have := hu (j + 1) y hj hy; omega)

theorem only_pos {P : Parsed} (hn : Spec.Numbered P) (hd : Spec.NoDigits P (· ∈ P.list)) {i j : Nat}
    (hi : i ∈ P.list) {y : Val} (hj : (listOf P).vals[j]? = some y) (he : eqVal y ((listOf P).val (.obj i)) = true) :
    P.list[j]? = some i := by
  rw [vals_listOf, List.getElem?_map, List.getElem?_map, Option.map_map] at hj
  obtain ⟨x, hx, rfl⟩ := Option.map_eq_some_iff.mp hj
  have := keys_of hn (S := (· ∈ P.list)) (fun _ h => h) hd x i (List.mem_of_getElem? hx) hi he
  rw [hx, this]

theorem pos_unique {P : Parsed} (hn : Spec.Numbered P) {i j k : Nat} (hj : P.list[j]? = some i)
    (hk : P.list[k]? = some i) : j = k := by
  have h1 := hn j i hj
  have h2 := hn k i hk
  omega

theorem val_at {P : Parsed} {i k : Nat} (hk : P.list[k]? = some i) :
    (listOf P).vals[k]? = some ((listOf P).val (.obj i)) := by
  rw [vals_listOf, List.getElem?_map, List.getElem?_map, hk]; rfl

/-- C130: in a configuration whose line numbers are positions and in which no line starts
with a digit, `index` of the object at position `k` is `k`, `count` is 1, `in` is true, and
`remove` takes out just this line. -/
theorem C130_find_partial {P : Parsed} (hn : Spec.Numbered P) (hd : Spec.NoDigits P (· ∈ P.list))
    {i k : Nat} (hk : P.list[k]? = some i) :
    (listOf P).index (.obj i) = .ok k ∧ (listOf P).count (.obj i) = 1 ∧
    (listOf P).contains (.obj i) = true ∧
    ∃ P', (listOf P).remove (.obj i) = .ok (listOf P') ∧ P'.h = P.h ∧
      P'.list = P.list.filter (fun x => !(x == i)) := by
  have hi := List.mem_of_getElem? hk
  have hr : eqVal ((listOf P).val (.obj i)) ((listOf P).val (.obj i)) = true := (C43_equivalence (P.h i) (P.h i) (P.h i)).1
  have hu : ∀ j y, (listOf P).vals[j]? = some y → eqVal y ((listOf P).val (.obj i)) = true → j = k :=
    fun j y hj hy => pos_unique hn (only_pos hn hd hi hj hy) hk
  have hidx : (listOf P).index (.obj i) = .ok k := by
    rw [CList.index, findIdx_pos (p := fun x => eqVal x ((listOf P).val (.obj i))) (val_at hk) hr hu]
  refine ⟨hidx, count_pos (p := fun x => eqVal x ((listOf P).val (.obj i))) (val_at hk) hr hu, ?_, { P with list := P.list.eraseIdx k }, ?_, rfl, ?_⟩
  · rw [CList.contains, List.any_eq_true]
    exact ⟨_, List.mem_of_getElem? (val_at hk), hr⟩
  · rw [CList.remove, hidx]
    show Except.ok _ = _
    congr 1
    show CList.mk P.h P.n ((P.list.map Elem.obj).eraseIdx k) = CList.mk P.h P.n ((P.list.eraseIdx k).map Elem.obj)
    rw [map_eraseIdx]
  · exact eraseIdx_eq_filter (numbered_nodup hn) hk

/-- C130: the text of a line is not taken for the line: a string is in no parsed
configuration, and `index` and `remove` of a string raise `ValueError`. -/
theorem C130_text (P : Parsed) (t : Str) :
    (listOf P).contains (.str t) = false ∧ (listOf P).count (.str t) = 0 ∧
    (listOf P).index (.str t) = .error .valueError ∧ (listOf P).remove (.str t) = .error .valueError := by
  have hno : ∀ x ∈ (listOf P).vals, eqVal x ((listOf P).val (.str t)) = false := by
    intro x hx
    rw [vals_listOf, List.map_map] at hx
    obtain ⟨i, _, rfl⟩ := List.mem_map.mp hx
    rfl
  have hi : (listOf P).index (.str t) = .error .valueError := by
    have : (listOf P).vals.findIdx? (fun x => eqVal x ((listOf P).val (.str t))) = none := by
      rw [List.findIdx?_eq_none_iff]
      intro x hx
      exact hno x hx
    rw [CList.index, this]
  refine ⟨?_, ?_, hi, ?_⟩
  · rw [CList.contains, List.any_eq_false]
    intro x hx
    rw [hno x hx]; simp
  · rw [CList.count, List.countP_eq_zero]
    intro x hx
    rw [hno x hx]; simp
  · rw [CList.remove, hi]; rfl

/-- The lines of the counterexample. -/
def digitLines : List Str :=
  [s "a", s "1 foo", s "b", s "b", s "b", s "b", s "b", s "b", s "b", s "b", s "b", s " foo"]

/-- C130 does not hold as stated: removing line 11 (` foo`) removes line 1 (`1 foo`). -/
theorem C130_fails : ∃ P c, parse {} digitLines = .ok P ∧ P.list[11]? = some 11 ∧
    (listOf P).index (.obj 11) = .ok 1 ∧ (listOf P).remove (.obj 11) = .ok c ∧
    c.items = [0, 2, 3, 4, 5, 6, 7, 8, 9, 10, 11].map .obj :=
  ⟨_, _, rfl, rfl, rfl, rfl, rfl⟩

example : ∃ P c, parse {} [s "a", s " b", s "a"] = .ok P ∧ (listOf P).index (.obj 2) = .ok 2 ∧
    (listOf P).count (.obj 0) = 1 ∧ (listOf P).remove (.obj 0) = .ok c ∧ c.items = [.obj 1, .obj 2] :=
  ⟨_, _, rfl, rfl, by decide, rfl, rfl⟩

/-! ## C131 -/

theorem pop_eq {P : Parsed} {k i : Nat} (hk : P.list[k]? = some i) :
    (listOf P).pop k = .ok (.obj i, listOf { P with list := P.list.eraseIdx k }) := by
  have hlt : k < P.list.length := (List.getElem?_eq_some_iff.mp hk).1
  have hlen : (listOf P).items.length = P.list.length := List.length_map ..
  obtain ⟨i', hi', hg⟩ := (C129_item_partial P k).1 k hlt (Or.inl rfl)
  rw [hk] at hi'
  cases hi'
  rw [CList.pop, hg]
  show (match pyIndex (listOf P).items.length k with
    | some j => Except.ok (Elem.obj i, _)
    | none => _) = _
  rw [hlen, pyIndex_nat hlt]
  show Except.ok (Elem.obj i, CList.mk P.h P.n ((P.list.map Elem.obj).eraseIdx k)) =
    .ok (Elem.obj i, CList.mk P.h P.n ((P.list.eraseIdx k).map Elem.obj))
  rw [map_eraseIdx]

/-- C131: `pop(k)` returns line `k` and leaves the other lines, in their order; nothing
happens to the objects. -/
theorem C131_pop_partial {P : Parsed} {k i : Nat} (hk : P.list[k]? = some i) :
    ∃ P', (listOf P).pop k = .ok (.obj i, listOf P') ∧ P'.h = P.h ∧ P'.list = P.list.eraseIdx k :=
  ⟨_, pop_eq hk, rfl, rfl⟩

/-- C131: popping the last line keeps line numbers and positions together. -/
theorem C131_last_partial {P : Parsed} (hn : Spec.Numbered P) {k i : Nat} (hk : P.list[k]? = some i)
    (hl : k + 1 = P.list.length) :
    ∃ P', (listOf P).pop k = .ok (.obj i, listOf P') ∧ Spec.Numbered P' := by
  refine ⟨_, pop_eq hk, ?_⟩
  intro j x hx
  have hx' : (P.list.eraseIdx k)[j]? = some x := hx
  rw [List.getElem?_eraseIdx] at hx'
  split at hx'
  · exact hn j x hx'
  · have := (List.getElem?_eq_some_iff.mp hx').1
    omega

/-- C131 does not hold as stated: after `pop(k)` of any line but the last, each line behind
it has the number of the place after its own. -/
theorem C131_pop_fails {P : Parsed} (hn : Spec.Numbered P) {k i : Nat} (hk : P.list[k]? = some i) :
    ∃ P', (listOf P).pop k = .ok (.obj i, listOf P') ∧
      ∀ (j x : Nat), k ≤ j → P'.list[j]? = some x → (P'.h x).linenum = j + 1 := by
  refine ⟨_, pop_eq hk, ?_⟩
  intro j x hj hx
  have hx' : (P.list.eraseIdx k)[j]? = some x := hx
  rw [List.getElem?_eraseIdx, if_neg (by omega)] at hx'
  have := hn (j + 1) x hx'
  show (P.h x).linenum = _
  omega

theorem allChildren_leaf {P : Parsed} {x : Nat} (hc : (P.h x).children = []) : allChildren P x = [] := by
  rw [allChildren]
  cases P.n with
  | zero => rfl
  | succ n => rw [allChildrenAux, hc]; rfl

/-- C131 does not hold as stated: when a line has been popped, deleting a line without
children that stood behind it deletes the *next* line instead, and raises `IndexError` if
there is none. -/
theorem C131_delete_fails {P : Parsed} (hn : Spec.Numbered P) {k m i x : Nat} (hk : P.list[k]? = some i)
    (hm : P.list[m]? = some x) (hkm : k < m) (hown : (P.h x).owned = true) (hc : (P.h x).children = []) :
    ∃ P', (listOf P).pop k = .ok (.obj i, listOf P') ∧
      (m + 1 = P.list.length → delete P' x true = .error .indexError) ∧
      (∀ y, P.list[m + 1]? = some y →
        ∃ P'', delete P' x true = .ok P'' ∧ x ∈ P''.list ∧ y ∉ P''.list ∧
          ∀ z, z ∈ P''.list ↔ z ∈ P.list ∧ z ≠ i ∧ z ≠ y) := by
  refine ⟨_, pop_eq hk, ?_⟩
  have hnl := numbered_nodup hn
  have hlist : P.list.eraseIdx k = P.list.filter (fun z => !(z == i)) := eraseIdx_eq_filter hnl hk
  have hdel : ∀ l : List Nat, delAll P.h (sortDesc P.h (setObjs P.h (x :: []))) l = delAt l m := by
    intro l
    have : sortDesc P.h (setObjs P.h [x]) = [x] := rfl
    rw [this, delAll, hn m x hm]
    cases delAt l m with
    | error e => rfl
    | ok l' => rfl
  have hd : ∀ P' : Parsed, P'.h = P.h → delete P' x true = (do
      let l ← delAt P'.list m
      .ok (reassign { P' with list := l })) := by
    intro P' hP'
    rw [delete, hP', hown, if_neg (by simp), if_pos rfl, allChildren_leaf (P := P') (by rw [hP']; exact hc), hdel]
  have hm' : m < P.list.length := (List.getElem?_eq_some_iff.mp hm).1
  have hk' : k < P.list.length := (List.getElem?_eq_some_iff.mp hk).1
  have hlen : (P.list.eraseIdx k).length = P.list.length - 1 := by
    rw [List.length_eraseIdx, if_pos hk']
  constructor
  · intro hl
    rw [hd { P with list := P.list.eraseIdx k } rfl]
    show (do let l ← delAt (P.list.eraseIdx k) m; _) = _
    rw [delAt, hlen, pyIndex, if_neg (by omega), if_neg (by omega)]; rfl
  · intro y hy
    have hy' : m + 1 < P.list.length := (List.getElem?_eq_some_iff.mp hy).1
    have hp : (P.list.eraseIdx k)[m]? = some y := by
      rw [List.getElem?_eraseIdx, if_neg (by omega)]; exact hy
    refine ⟨reassign { P with list := (P.list.eraseIdx k).eraseIdx m }, ?_, ?_⟩
    · rw [hd { P with list := P.list.eraseIdx k } rfl]
      show (do let l ← delAt (P.list.eraseIdx k) m; _) = _
      rw [delAt, pyIndex_nat (by rw [hlen]; omega)]; rfl
    · have hmem : ∀ z, z ∈ (P.list.eraseIdx k).eraseIdx m ↔ z ∈ P.list ∧ z ≠ i ∧ z ≠ y := by
        intro z
        have hnl' : (P.list.eraseIdx k).Nodup := by rw [hlist]; exact hnl.filter _
        rw [eraseIdx_eq_filter hnl' hp, hlist, List.mem_filter, List.mem_filter]
        simp [and_assoc]
      refine ⟨(hmem x).mpr ⟨List.mem_of_getElem? hm, ?_, ?_⟩, fun h => ((hmem y).mp h).2.2 rfl, hmem⟩
      · rintro rfl
        have := pos_unique hn hm hk; omega
      · rintro rfl
        have := pos_unique hn hm hy; omega

/-- C131 does not hold as stated: `reverse()` of a configuration with at least two lines
leaves line numbers that are not the positions. -/
theorem C131_reverse_fails {P : Parsed} (hn : Spec.Numbered P) (hl : 2 ≤ P.list.length) :
    ∃ P', (listOf P).reverse = listOf P' ∧ P'.list = P.list.reverse ∧ ¬ Spec.Numbered P' := by
  refine ⟨{ P with list := P.list.reverse }, ?_, rfl, ?_⟩
  · show CList.mk P.h P.n (P.list.map Elem.obj).reverse = CList.mk P.h P.n (P.list.reverse.map Elem.obj)
    rw [List.map_reverse]
  · intro h
    have h0 : P.list[0]? = some P.list[0] := List.getElem?_eq_getElem (by omega)
    have h1 := hn 0 _ h0
    have h2 : P.list.reverse[P.list.length - 1]? = some P.list[0] := by
      rw [List.getElem?_reverse (by omega), ← h0]
      congr 1; omega
    have := h (P.list.length - 1) _ h2
    have e : (P.h P.list[0]).linenum = ((P.list.length - 1 : Nat) : Int) := this
    omega

theorem objects_str {l : List Elem} {t : Str} (h : Elem.str t ∈ l) : objects l = none := by
  induction l with
  | nil => cases h
  | cons e l ih =>
    cases e with
    | str _ => rfl
    | obj j =>
      rw [objects, ih (by simpa using h)]; rfl

theorem objects_listOf (l : List Nat) : objects (l.map Elem.obj) = some l := by
  induction l with
  | nil => rfl
  | cons i l ih => rw [List.map_cons, objects, ih]; rfl

/-- C131 does not hold as stated: `append(text)` makes no line of the text; every later
search for a line raises `AttributeError`. -/
theorem C131_append_fails (P : Parsed) (t : Str) (rx : Rx) :
    ((listOf P).append (.str t)).hasLineWith rx = .error .attributeError := by
  have : objects ((listOf P).append (.str t)).items = none := objects_str (t := t) (by
    show Elem.str t ∈ (listOf P).items ++ [Elem.str t]; simp)
  rw [CList.hasLineWith, this]

/-- C131: what a search on the list gives before. -/
theorem C131_search_partial (P : Parsed) (rx : Rx) :
    ∃ b, (listOf P).hasLineWith rx = .ok b ∧ (b = true ↔ ∃ t ∈ P.texts, Spec.hits rx t = true) := by
  have : objects (listOf P).items = some P.list := objects_listOf P.list
  refine ⟨P.list.any (fun i => rx.search (P.h i).text), by rw [CList.hasLineWith, this]; rfl, ?_⟩
  rw [List.any_eq_true]
  constructor
  · rintro ⟨i, hi, h⟩
    exact ⟨_, List.mem_map_of_mem hi, h⟩
  · rintro ⟨t, ht, h⟩
    obtain ⟨i, hi, rfl⟩ := List.mem_map.mp ht
    exact ⟨i, hi, h⟩

/-- C131: `sort` needs an argument, and puts the lines in the order of their numbers. -/
theorem C131_sort_partial {P : Parsed} (hn : Spec.Numbered P) :
    (listOf P).sort true = .ok (listOf P) ∧ (listOf P).sort false = .error .typeError := by
  refine ⟨?_, rfl⟩
  rw [CList.sort, if_pos rfl]
  show Except.ok (CList.mk P.h P.n _) = .ok (CList.mk P.h P.n _)
  congr 2
  refine sortBy_of_sorted ?_
  rw [List.pairwise_iff_getElem]
  intro a b ha hb hab
  have la : a < P.list.length := by simpa [listOf] using ha
  have lb : b < P.list.length := by simpa [listOf] using hb
  have h1 := hn a P.list[a] (List.getElem?_eq_getElem la)
  have h2 := hn b P.list[b] (List.getElem?_eq_getElem lb)
  simp only [listOf, List.getElem_map, decide_eq_true_iff]
  omega

example : ∃ P P' P'', parse {} [s "a", s "b", s "c", s "d"] = .ok P ∧
    (listOf P).pop 0 = .ok (.obj 0, listOf P') ∧ delete P' 1 true = .ok P'' ∧
    P''.texts = [s "b", s "d"] ∧ delete P' 3 true = .error .indexError :=
  ⟨_, { h := _, n := _, list := [1, 2, 3] }, _, rfl, rfl, rfl, by decide, rfl⟩

end Edit

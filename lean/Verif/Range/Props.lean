import Verif.Range.Lemmas

/-! # Properties C09-C13: integer CiscoRange -/

namespace Range

open Py

/-! ## C09 expansion -/

/-- **C09.** A comma list of `N` and `A-B` entries (blanks around numbers allowed) holds
exactly the integers the entries denote, each once. -/
theorem C09_expand (items : List Item) (hne : items ≠ []) (hv : ∀ i ∈ items, i.Valid) :
    ∃ r, ofText (join [','] (items.map Item.text)) = .ok r ∧ r.lst.Nodup ∧
      ∀ x, x ∈ r.lst ↔ ∃ i ∈ items, i.denotes x := by
  refine ⟨_, ofText_items items hne hv, nodup_dedupBy_of_eq beq_int_iff, ?_⟩
  intro x
  show x ∈ dedupBy (· == ·) _ ↔ _
  rw [mem_dedupBy_of_eq beq_int_iff, List.mem_flatten]
  constructor
  · rintro ⟨l, hl, hx⟩
    obtain ⟨i, hi, rfl⟩ := List.mem_map.1 hl
    exact ⟨i, hi, (i.mem_members x).1 hx⟩
  · rintro ⟨i, hi, hx⟩
    exact ⟨_, List.mem_map_of_mem hi, (i.mem_members x).2 hx⟩

example : ofText "1-3,5, 9 - 11,2-4".toList = .ok ⟨[1, 2, 3, 5, 9, 10, 11, 4], false⟩ := by decide
example : join [','] ([Item.span [] ['1'] [] [] ['3'] [], .single [' '] ['0', '7'] []].map Item.text)
    = "1-3, 07".toList := by decide

theorem dedup_sort_eq {l m : List Int} (h : ∀ x, x ∈ l ↔ x ∈ m) :
    sortInts false (dedupBy (· == ·) l) = sortInts false (dedupBy (· == ·) m) := by
  have key : ∀ (l m : List Int), l.Pairwise (· < ·) → m.Pairwise (· < ·) →
      (∀ x, x ∈ l ↔ x ∈ m) → l = m := by
    intro l
    induction l with
    | nil =>
      intro m _ _ h
      cases m with
      | nil => rfl
      | cons b bs => exact absurd ((h b).2 (by simp)) (by simp)
    | cons a as ih =>
      intro m hl hm h
      rw [List.pairwise_cons] at hl
      cases m with
      | nil => exact absurd ((h a).1 (by simp)) (by simp)
      | cons b bs =>
        rw [List.pairwise_cons] at hm
        have hab : a = b := by
          rcases List.mem_cons.1 ((h a).1 (by simp)) with e | h1
          · exact e
          · rcases List.mem_cons.1 ((h b).2 (by simp)) with e | h2
            · exact e.symm
            · have := hm.1 a h1; have := hl.1 b h2; omega
        subst hab
        congr 1
        apply ih bs hl.2 hm.2
        intro x
        constructor
        · intro hx
          rcases List.mem_cons.1 ((h x).1 (by simp [hx])) with e | h1
          · have := hl.1 x hx; omega
          · exact h1
        · intro hx
          rcases List.mem_cons.1 ((h x).2 (by simp [hx])) with e | h1
          · have := hm.1 x hx; omega
          · exact h1
  apply key
  · exact sorted_lt (sortInts_false_le _) (nodup_sortInts (nodup_dedupBy_of_eq beq_int_iff))
  · exact sorted_lt (sortInts_false_le _) (nodup_sortInts (nodup_dedupBy_of_eq beq_int_iff))
  · intro x
    rw [mem_sortInts, mem_sortInts, mem_dedupBy_of_eq beq_int_iff, mem_dedupBy_of_eq beq_int_iff]
    exact h x

theorem compressed_eq (r : R) (hne : r.lst ≠ []) :
    r.compressed = render (rangeList (sortInts false (dedupBy (· == ·) r.lst))) := by
  have hlen : 0 < r.lst.length := List.length_pos_iff.2 hne
  have hreb : rebuild (fun _ => false) r.lst = r.lst := by simp [rebuild]
  unfold R.compressed R.asList
  simp only [hreb]
  rw [if_neg (by omega), if_pos hlen]
  simp only
  have hne2 : sortInts r.reverse (dedupBy (· == ·) r.lst) ≠ [] := by
    intro h
    obtain ⟨x, hx⟩ := List.exists_mem_of_ne_nil _ hne
    have : x ∈ sortInts r.reverse (dedupBy (· == ·) r.lst) := by
      rw [mem_sortInts, mem_dedupBy_of_eq beq_int_iff]; exact hx
    rw [h] at this; cases this
  rw [if_neg (by have := List.length_pos_iff.2 hne2; omega)]
  congr 2
  apply dedup_sort_eq
  intro x
  rw [mem_sortInts, mem_dedupBy_of_eq beq_int_iff]

/-! ## C10 compression -/

/-- **C10.** Expanding the compressed form of a non-empty range of naturals gives a range
with the same members, each once. -/
theorem C10_compress_expand (r : R) (hne : r.lst ≠ []) (hnat : ∀ x ∈ r.lst, 0 ≤ x) :
    ∃ r', ofText r.compressed = .ok r' ∧ r'.lst.Nodup ∧ ∀ x, x ∈ r'.lst ↔ x ∈ r.lst := by
  rw [compressed_eq r hne]
  have hmem : ∀ x, x ∈ sortInts false (dedupBy (· == ·) r.lst) ↔ x ∈ r.lst := by
    intro x; rw [mem_sortInts, mem_dedupBy_of_eq beq_int_iff]
  cases hs : sortInts false (dedupBy (· == ·) r.lst) with
  | nil =>
    obtain ⟨x, hx⟩ := List.exists_mem_of_ne_nil _ hne
    have := (hmem x).2 hx
    rw [hs] at this; cases this
  | cons y ys =>
    rw [hs] at hmem
    have hy : 0 ≤ y := hnat y ((hmem y).1 (by simp))
    have hys : ∀ x ∈ ys, 0 ≤ x := fun x hx => hnat x ((hmem x).1 (by simp [hx]))
    have hnn := (group_nonneg ys.length ys (Nat.le_refl _)).1 y hy hys
    rw [rangeList_eq, (group_spec ys.length ys (Nat.le_refl _)).1 y,
      render_eq _ (pend_ne_nil y ys) hnn]
    obtain ⟨r', h1, h2, h3⟩ := C09_expand ((pend y ys).map Grp.item)
      (by simpa using pend_ne_nil y ys)
      (by intro i hi; obtain ⟨g, _, rfl⟩ := List.mem_map.1 hi; exact g.item_valid)
    refine ⟨r', h1, h2, ?_⟩
    intro x
    rw [h3 x, ← hmem x, List.mem_cons, ← (group_members ys.length ys (Nat.le_refl _)).1 y x]
    constructor
    · rintro ⟨i, hi, hx⟩
      obtain ⟨g, hg, rfl⟩ := List.mem_map.1 hi
      exact ⟨g, hg, (g.item_denotes (hnn g hg) x).1 hx⟩
    · rintro ⟨g, hg, hx⟩
      exact ⟨g.item, List.mem_map_of_mem hg, (g.item_denotes (hnn g hg) x).2 hx⟩

/-- **C10 (any text).** Every range built from a text compresses to a text that builds a
range with the same members. -/
theorem C10_text_compress_expand (text : Str) (r : R) (h : ofText text = .ok r)
    (hne : r.lst ≠ []) :
    ∃ r', ofText r.compressed = .ok r' ∧ ∀ x, x ∈ r'.lst ↔ x ∈ r.lst := by
  obtain ⟨r', h1, _, h3⟩ := C10_compress_expand r hne (ofText_nonneg h)
  exact ⟨r', h1, h3⟩

/-- **C10 (canonical).** Ranges with the same members have the same compressed form,
whatever the order of their member lists. -/
theorem C10_compress_canonical (r s : R) (hr : r.lst ≠ []) (h : ∀ x, x ∈ r.lst ↔ x ∈ s.lst) :
    r.compressed = s.compressed := by
  have hs : s.lst ≠ [] := by
    intro e
    obtain ⟨x, hx⟩ := List.exists_mem_of_ne_nil _ hr
    have := (h x).1 hx
    rw [e] at this; cases this
  rw [compressed_eq r hr, compressed_eq s hs, dedup_sort_eq h]

example : (R.mk [13, 1, 2, 3, 5, 9, 10, 11] false).compressed = "1-3,5,9-11,13".toList := by decide

/-! ## C11 reading -/

/-- `n` reads in a row: final state and the last result. -/
def readMany (r : R) : Nat → R × ListResult
  | 0 => r.asList
  | n + 1 => readMany r.asList.1 n

/-- **C11 (integers).** Reading returns the members sorted without duplicates, and any
number of reads leaves the range as it was and gives the same answer. -/
theorem C11_as_list_pure_partial (r : R) (n : Nat) :
    r.asList.1 = r ∧ readMany r n = r.asList ∧
    (r.lst = [] → r.asList.2 = .emptySet) ∧
    (r.lst ≠ [] → ∃ l, r.asList.2 = .list l ∧ (∀ x, x ∈ l ↔ x ∈ r.lst) ∧
      (r.reverse = false → l.Pairwise (· < ·)) ∧ (r.reverse = true → l.Pairwise (· > ·))) := by
  have hreb : rebuild (fun _ => false) r.lst = r.lst := by simp [rebuild]
  have h1 : r.asList.1 = r := by
    unfold R.asList
    simp only [hreb]
    split <;> rfl
  refine ⟨h1, ?_, ?_, ?_⟩
  · induction n with
    | zero => rfl
    | succ n ih => rw [readMany, h1, ih]
  · intro h
    unfold R.asList
    simp only [hreb]
    rw [if_neg (by simp [h])]
  · intro h
    have hlen : 0 < r.lst.length := List.length_pos_iff.2 h
    refine ⟨sortInts r.reverse (dedupBy (· == ·) r.lst), ?_, ?_, ?_, ?_⟩
    · unfold R.asList
      simp only [hreb]
      rw [if_pos hlen]
    · intro x; rw [mem_sortInts, mem_dedupBy_of_eq beq_int_iff]
    · intro hr; rw [hr]
      exact sorted_lt (sortInts_false_le _) (nodup_sortInts (nodup_dedupBy_of_eq beq_int_iff))
    · intro hr; rw [hr]
      have a := sortInts_true_ge (dedupBy (· == ·) r.lst)
      have b := nodup_sortInts (rev := true) (nodup_dedupBy_of_eq (l := r.lst) beq_int_iff)
      unfold List.Nodup at b
      exact (a.and b).imp (by intro a b h; omega)

/-- **C11 fails for interface ranges**: every member that has a `sort_list` is appended
again, so each `as_list()` doubles the range. -/
theorem C11_as_list_doubles_fails {α : Type} (l : List α) :
    (rebuild (fun _ => true) l).length = 2 * l.length ∧
      (l ≠ [] → rebuild (fun _ => true) l ≠ l) := by
  constructor
  · have hf : l.filter (fun _ => true) = l := List.filter_eq_self.2 (fun _ _ => rfl)
    rw [rebuild, hf, List.length_append]; omega
  · intro h e
    have hf : l.filter (fun _ => true) = l := List.filter_eq_self.2 (fun _ _ => rfl)
    have := congrArg List.length e
    rw [rebuild, hf, List.length_append] at this
    exact h (List.length_eq_zero_iff.1 (by omega))

example : (R.mk [3, 1, 2] false).asList = (R.mk [3, 1, 2] false, .list [1, 2, 3]) := by decide

/-! ## C12 append and remove -/

theorem append_new {r : R} {i : Int} (h : i ∉ r.lst) :
    r.append (.int i) = .ok { r with lst := sortInts false (r.lst ++ [i]) } := by
  unfold R.append
  have h1 : (r.lst.length > 0 && !(Val.int i).isInt && !false) = false := by simp [Val.isInt]
  have h2 : ((Val.int i).isIn r.lst && !false) = false := by simp [Val.isIn, h]
  rw [h1, h2]
  rfl

theorem append_old {r : R} {i : Int} (h : i ∈ r.lst) :
    r.append (.int i) = .error .duplicateMember := by
  unfold R.append
  have h1 : (r.lst.length > 0 && !(Val.int i).isInt && !false) = false := by simp [Val.isInt]
  have h2 : ((Val.int i).isIn r.lst && !false) = true := by simp [Val.isIn, h]
  rw [h1, h2]
  rfl

theorem remove_old {r : R} {i : Int} (h : i ∈ r.lst) :
    r.remove (.int i) = .ok { r with lst := r.lst.filter (fun x => x != i) } := by
  have hlen : 0 < r.lst.length := List.length_pos_iff.2 (List.ne_nil_of_mem h)
  have hlt : (r.lst.filter (fun x => x != i)).length < r.lst.length := by
    have h1 := List.length_filter_le (fun x => x != i) r.lst
    rcases Nat.lt_or_eq_of_le h1 with h2 | h2
    · exact h2
    · rw [List.length_filter_eq_length_iff] at h2
      have := h2 i h
      simp at this
  unfold R.remove
  rw [if_neg (by simp), if_pos hlen]
  simp only [Val.toInt]
  rw [if_pos hlt]

theorem remove_new {r : R} {i : Int} (h : i ∉ r.lst) :
    r.remove (.int i) = .error (if r.lst = [] then .unbound else .mismatchedType) := by
  unfold R.remove
  rw [if_neg (by simp)]
  by_cases he : r.lst = []
  · simp [he]
  · have hlen : 0 < r.lst.length := List.length_pos_iff.2 he
    rw [if_pos hlen, if_neg he]
    simp only [Val.toInt]
    have : r.lst.filter (fun x => x != i) = r.lst := by
      rw [List.filter_eq_self]
      intro x hx
      simp
      intro e; subst e; exact h hx
    rw [this, if_neg (by omega)]

/-- **C12 (append).** -/
theorem C12_append (r : R) (i : Int) :
    (i ∈ r.lst → ∃ e, r.append (.int i) = .error e) ∧
    (i ∉ r.lst → ∃ r', r.append (.int i) = .ok r' ∧ (∀ x, x ∈ r'.lst ↔ x ∈ r.lst ∨ x = i) ∧
      r'.lst.Pairwise (· ≤ ·) ∧ r'.lst.length = r.lst.length + 1) := by
  constructor
  · intro h; exact ⟨_, append_old h⟩
  · intro h
    refine ⟨_, append_new h, ?_, sortInts_false_le _, ?_⟩
    · intro x; rw [mem_sortInts, List.mem_append, List.mem_singleton]
    · show (sortInts false _).length = _
      unfold sortInts
      rw [length_sortBy, List.length_append]; rfl

/-- **C12 (remove).** The other members keep their order. -/
theorem C12_remove (r : R) (i : Int) :
    (i ∉ r.lst → ∃ e, r.remove (.int i) = .error e) ∧
    (i ∈ r.lst → ∃ r', r.remove (.int i) = .ok r' ∧ (∀ x, x ∈ r'.lst ↔ x ∈ r.lst ∧ x ≠ i) ∧
      r'.lst.Sublist r.lst) := by
  constructor
  · intro h; exact ⟨_, remove_new h⟩
  · intro h
    refine ⟨_, remove_old h, ?_, List.filter_sublist⟩
    intro x; simp

/-- **C12 (inverse).** `remove` undoes `append` on a sorted range. -/
theorem C12_remove_append (r : R) (i : Int) (hs : r.lst.Pairwise (· < ·)) (h : i ∉ r.lst) :
    ∃ r', r.append (.int i) = .ok r' ∧ r'.remove (.int i) = .ok r := by
  refine ⟨_, append_new h, ?_⟩
  have hm : i ∈ sortInts false (r.lst ++ [i]) := by rw [mem_sortInts]; simp
  rw [remove_old (r := { r with lst := sortInts false (r.lst ++ [i]) }) hm]
  have : (sortInts false (r.lst ++ [i])).filter (fun x => x != i) = r.lst := by
    have hd : (r.lst ++ [i]).Nodup := by
      rw [List.nodup_append]
      refine ⟨hs.imp (by intro a b h; omega), by simp, ?_⟩
      intro a ha b hb
      simp at hb
      subst hb
      intro e; subst e; exact h ha
    have p1 : ((sortInts false (r.lst ++ [i])).filter (fun x => x != i)).Pairwise (· < ·) :=
      (sorted_lt (sortInts_false_le _) (nodup_sortInts hd)).filter _
    have e : ∀ x, x ∈ (sortInts false (r.lst ++ [i])).filter (fun x => x != i) ↔ x ∈ r.lst := by
      intro x
      simp only [List.mem_filter, mem_sortInts, List.mem_append, List.mem_singleton, bne_iff_ne]
      constructor
      · rintro ⟨h1 | h1, h2⟩
        · exact h1
        · exact absurd h1 h2
      · intro hx
        refine ⟨.inl hx, ?_⟩
        intro e; subst e; exact h hx
    have s1 : sortInts false (dedupBy (· == ·) ((sortInts false (r.lst ++ [i])).filter (fun x => x != i)))
        = sortInts false (dedupBy (· == ·) r.lst) := dedup_sort_eq e
    have fix : ∀ l : List Int, l.Pairwise (· < ·) → sortInts false (dedupBy (· == ·) l) = l := by
      intro l hl
      have hdd : dedupBy (· == ·) l = l := by
        clear s1 e p1
        induction l with
        | nil => rfl
        | cons a as ih =>
          rw [List.pairwise_cons] at hl
          simp only [dedupBy]
          rw [ih hl.2, List.filter_eq_self.2]
          intro b hb
          have := hl.1 b hb
          simp; omega
      rw [hdd]
      unfold sortInts
      apply sortBy_of_sorted
      refine hl.imp ?_
      intro a b h; simp; omega
    rw [fix _ p1, fix _ hs] at s1
    exact s1
  rw [this]

/-- **C12 (histories).** Over any history of `append`/`remove` calls the range behaves as
the mathematical set of its members: the history raises exactly when the set
history must fail, and otherwise ends with exactly those members, still without
duplicates. -/
theorem C12_history (ops : List Op) : ∀ (r : R), r.lst.Nodup →
    match runOps r ops with
    | .ok r' => r'.lst.Nodup ∧ ∃ S, specOps (· ∈ r.lst) ops (some S) ∧ ∀ x, x ∈ r'.lst ↔ S x
    | .error _ => specOps (· ∈ r.lst) ops none := by
  induction ops with
  | nil => intro r h; exact ⟨h, _, rfl, fun x => Iff.rfl⟩
  | cons o os ih =>
    intro r hn
    cases o with
    | append i =>
      by_cases h : i ∈ r.lst
      · simp only [runOps, Op.run, append_old h, specOps]
        exact .inr ⟨h, trivial⟩
      · have hn' : (sortInts false (r.lst ++ [i])).Nodup := by
          apply nodup_sortInts
          rw [List.nodup_append]
          refine ⟨hn, by simp, ?_⟩
          intro a ha b hb
          simp at hb
          subst hb
          intro e; subst e; exact h ha
        have hS : (fun x => x ∈ sortInts false (r.lst ++ [i])) = (fun x => x ∈ r.lst ∨ x = i) := by
          funext x; rw [mem_sortInts, List.mem_append, List.mem_singleton]
        have := ih { r with lst := sortInts false (r.lst ++ [i]) } hn'
        simp only [runOps, Op.run, append_new h, specOps]
        simp only [hS] at this
        revert this
        cases runOps { r with lst := sortInts false (r.lst ++ [i]) } os with
        | ok r' =>
          rintro ⟨h1, S, h2, h3⟩
          exact ⟨h1, S, .inl ⟨h, h2⟩, h3⟩
        | error e => intro h2; exact .inl ⟨h, h2⟩
    | remove i =>
      by_cases h : i ∈ r.lst
      · have hn' : (r.lst.filter (fun x => x != i)).Nodup := hn.filter _
        have hS : (fun x => x ∈ r.lst.filter (fun x => x != i)) = (fun x => x ∈ r.lst ∧ x ≠ i) := by
          funext x; simp
        have := ih { r with lst := r.lst.filter (fun x => x != i) } hn'
        simp only [runOps, Op.run, remove_old h, specOps]
        simp only [hS] at this
        revert this
        cases runOps { r with lst := r.lst.filter (fun x => x != i) } os with
        | ok r' =>
          rintro ⟨h1, S, h2, h3⟩
          exact ⟨h1, S, .inl ⟨h, h2⟩, h3⟩
        | error e => intro h2; exact .inl ⟨h, h2⟩
      · simp only [runOps, Op.run, remove_new h, specOps]
        exact .inr ⟨h, trivial⟩

example : runOps ⟨[1, 2, 3], false⟩ [.append 7, .remove 2, .append 2, .remove 1] =
    .ok ⟨[2, 3, 7], false⟩ := by decide
example : runOps ⟨[1, 2, 3], false⟩ [.append 7, .append 7] = .error .duplicateMember := by decide

/-! ## C13 union and difference -/

/-- **C13 (union).** Sorted, without duplicates, exactly the members of either. -/
theorem C13_add_union (a b : R) :
    (∀ x, x ∈ (a.add b).lst ↔ x ∈ a.lst ∨ x ∈ b.lst) ∧ (a.add b).lst.Pairwise (· < ·) := by
  constructor
  · intro x
    show x ∈ sortInts false _ ↔ _
    rw [mem_sortInts, mem_dedupBy_of_eq beq_int_iff, List.mem_append]
  · exact sorted_lt (sortInts_false_le _) (nodup_sortInts (nodup_dedupBy_of_eq beq_int_iff))

/-- **C13 (difference, part).** For two different range objects. -/
theorem C13_sub_difference_partial (a b : R) (ha : a.lst.Nodup) :
    (∀ x, x ∈ (a.sub b).lst ↔ x ∈ a.lst ∧ x ∉ b.lst) ∧ (a.sub b).lst.Sublist a.lst := by
  unfold R.sub
  simp only
  generalize a.lst = l at ha ⊢
  generalize b.lst = m
  induction m generalizing l with
  | nil => simp
  | cons y ys ih =>
    simp only [List.foldl_cons]
    obtain ⟨h1, h2⟩ := ih (l.erase y) (ha.erase y)
    refine ⟨?_, h2.trans List.erase_sublist⟩
    intro x
    rw [h1 x, ha.mem_erase_iff, List.mem_cons]
    constructor
    · rintro ⟨⟨h3, h4⟩, h5⟩; exact ⟨h4, by rintro (h | h) <;> contradiction⟩
    · rintro ⟨h3, h4⟩
      exact ⟨⟨fun e => h4 (.inl e), h3⟩, fun e => h4 (.inr e)⟩

/-- The full statement fails when both operands are the same object: `r - r` leaves
members behind, because the loop shrinks the list it iterates over. -/
theorem C13_sub_self_fails : ∃ r : R, ofText "1-4".toList = .ok r ∧ r.subSelf.lst = [2, 4] :=
  ⟨⟨[1, 2, 3, 4], false⟩, by decide, by decide⟩

example : ((R.mk [1, 2, 3] false).add (R.mk [7, 3] false)).lst = [1, 2, 3, 7] ∧
    ((R.mk [1, 2, 3] false).sub (R.mk [7, 3] false)).lst = [1, 2] := by decide

end Range

import Verif.Diff.Text

/-! # Families, identifiers and marking -/

set_option linter.unusedSectionVars false

namespace Diff

open Py Conf Query

section
variable {P : Parsed} (ht : Tree P) (hd : Distinct P)
include ht hd

omit hd in
theorem gen_eq {i : Nat} (hi : i ∈ P.list) : geneology P i = allParents P i ++ [i] := by
  rw [geneology, sortObjs_of_ordered (allParents_ordered ht hi)]

theorem mem_gen {i x : Nat} (hi : i ∈ P.list) :
    x ∈ geneology P i ↔ x = i ∨ Query.Spec.Anc P i x := by
  rw [gen_eq ht hi, List.mem_append, List.mem_singleton, mem_allParents ht hd hi]
  exact Or.comm

omit ht hd in
theorem gen_self {i : Nat} : i ∈ geneology P i := by rw [geneology]; simp

omit hd in
theorem gen_le {i x : Nat} (hi : i ∈ P.list) (hx : x ∈ geneology P i) : x ∈ P.list ∧ x ≤ i := by
  rw [geneology, List.mem_append, mem_sortObjs, List.mem_singleton] at hx
  rcases hx.symm with h | h
  · subst h; exact ⟨hi, Nat.le_refl _⟩
  · have := anc_lt ht hi (mem_allParents_sound h)
    exact ⟨this.1, Nat.le_of_lt this.2⟩

theorem gen_root {i : Nat} (hi : i ∈ P.list) (hp : (P.h i).parent = i) : geneology P i = [i] := by
  have : allParents P i = [] := by
    rw [List.eq_nil_iff_forall_not_mem]
    intro x hx
    have := mem_allParents_sound hx
    cases this with
    | parent h => exact h hp
    | step h _ => exact h hp
  rw [gen_eq ht hi, this]; rfl

theorem gen_child {i : Nat} (hi : i ∈ P.list) (hp : (P.h i).parent ≠ i) :
    geneology P i = geneology P (P.h i).parent ++ [i] := by
  have hup := ht.up i hi
  rw [gen_eq ht hi, gen_eq ht hup.1]
  congr 1
  refine ordered_ext ht (fun x hx => (anc_lt ht hi (mem_allParents_sound hx)).1)
    (allParents_ordered ht hi) ?_ ?_
  · rw [Query.Spec.Ordered, List.pairwise_append]
    refine ⟨allParents_ordered ht hup.1, by simp, ?_⟩
    intro a ha b hb
    rw [List.mem_singleton.mp hb]
    have := anc_lt ht hup.1 (mem_allParents_sound ha)
    rw [ht.num a this.1, ht.num _ hup.1]
    omega
  · intro x
    rw [List.mem_append, List.mem_singleton, mem_allParents ht hd hi, mem_allParents ht hd hup.1]
    constructor
    · intro h
      cases h with
      | parent _ => exact .inr rfl
      | step _ h => exact .inl h
    · rintro (h | rfl)
      · exact .step hp h
      · exact .parent hp

omit ht hd in
theorem idList_eq (H : Str → Int) (i : Nat) :
    idList H P i = ((geneology P i).map (fun j => lineId H (P.h j))).reverse := by
  rw [idList]
  have : ∀ (l : List Nat) (r : List Int),
      l.foldl (fun r j => lineId H (P.h j) :: r) r = (l.map (fun j => lineId H (P.h j))).reverse ++ r := by
    intro l
    induction l with
    | nil => intro r; rfl
    | cons a l ih => intro r; rw [List.foldl_cons, ih, List.map_cons, List.reverse_cons,
        List.append_assoc]; rfl
  rw [this, List.append_nil]

theorem id_root (H : Str → Int) {i : Nat} (hi : i ∈ P.list) (hp : (P.h i).parent = i) :
    idList H P i = [lineId H (P.h i)] := by
  rw [idList_eq, gen_root ht hd hi hp]; rfl

theorem id_child (H : Str → Int) {i : Nat} (hi : i ∈ P.list) (hp : (P.h i).parent ≠ i) :
    idList H P i = lineId H (P.h i) :: idList H P (P.h i).parent := by
  rw [idList_eq, gen_child ht hd hi hp, List.map_append, List.reverse_append, idList_eq]; rfl

/-- The identifiers of the members of a family are the tails of the identifiers. -/
theorem id_tails (H : Str → Int) : ∀ (n i : Nat), i ≤ n → i ∈ P.list →
    (∀ x ∈ geneology P i, idList H P x <:+ idList H P i ∧ idList H P x ≠ []) ∧
    (∀ s, s <:+ idList H P i → s ≠ [] → ∃ x ∈ geneology P i, idList H P x = s) := by
  intro n
  induction n with
  | zero =>
    intro i hn hi
    have hp : (P.h i).parent = i := by have := (ht.up i hi).2; omega
    rw [gen_root ht hd hi hp, id_root ht hd H hi hp]
    refine ⟨?_, ?_⟩
    · intro x hx
      rw [List.mem_singleton.mp hx, id_root ht hd H hi hp]
      exact ⟨List.suffix_rfl, by simp⟩
    · intro s hs hne
      refine ⟨i, by simp, ?_⟩
      rcases List.suffix_cons_iff.mp hs with h | h
      · rw [id_root ht hd H hi hp, h]
      · exact absurd (List.suffix_nil.mp h) hne
  | succ n ih =>
    intro i hn hi
    by_cases hp : (P.h i).parent = i
    · rw [gen_root ht hd hi hp, id_root ht hd H hi hp]
      refine ⟨?_, ?_⟩
      · intro x hx
        rw [List.mem_singleton.mp hx, id_root ht hd H hi hp]
        exact ⟨List.suffix_rfl, by simp⟩
      · intro s hs hne
        refine ⟨i, by simp, ?_⟩
        rcases List.suffix_cons_iff.mp hs with h | h
        · rw [id_root ht hd H hi hp, h]
        · exact absurd (List.suffix_nil.mp h) hne
    · have hup := ht.up i hi
      obtain ⟨h1, h2⟩ := ih (P.h i).parent (by have := hup.2; omega) hup.1
      rw [gen_child ht hd hi hp, id_child ht hd H hi hp]
      refine ⟨?_, ?_⟩
      · intro x hx
        rcases List.mem_append.mp hx with h | h
        · exact ⟨(h1 x h).1.trans (List.suffix_cons _ _), (h1 x h).2⟩
        · rw [List.mem_singleton.mp h, id_child ht hd H hi hp]
          exact ⟨List.suffix_rfl, by simp⟩
      · intro s hs hne
        rcases List.suffix_cons_iff.mp hs with h | h
        · exact ⟨i, by simp, by rw [id_child ht hd H hi hp, h]⟩
        · obtain ⟨x, hx, he⟩ := h2 s h hne
          exact ⟨x, by simp [hx], he⟩

end

/-- If two lines have the same identifiers, each member of the family of one has a
partner in the family of the other. -/
theorem partner {A B : Parsed} (tA : Tree A) (dA : Distinct A) (tB : Tree B) (dB : Distinct B)
    (H : Str → Int) {a b x : Nat} (ha : a ∈ A.list) (hb : b ∈ B.list)
    (he : idList H B b = idList H A a) (hx : x ∈ geneology B b) :
    ∃ y ∈ geneology A a, idList H B x = idList H A y := by
  have h1 := (id_tails tB dB H b b (Nat.le_refl _) hb).1 x hx
  rw [he] at h1
  obtain ⟨y, hy, h2⟩ := (id_tails tA dA H a a (Nat.le_refl _) ha).2 _ h1.1 h1.2
  exact ⟨y, hy, h2.symm⟩

/-- Lines of `X` whose identifiers occur in `Y` have families whose identifiers occur in
`Y`. -/
def Partners (H : Str → Int) (X Y : Parsed) : Prop :=
  ∀ x ∈ X.list, ∀ y ∈ Y.list, idList H X x = idList H Y y → ∀ z ∈ geneology X x,
    ∃ u ∈ Y.list, idList H X z = idList H Y u

theorem partners_of {A B : Parsed} (tA : Tree A) (dA : Distinct A) (tB : Tree B) (dB : Distinct B)
    (H : Str → Int) : Partners H B A := by
  intro b hb a ha he z hz
  obtain ⟨u, hu, h⟩ := partner tA dA tB dB H ha hb he hz
  exact ⟨u, (gen_le tA ha hu).1, h⟩

theorem partners_self {A : Parsed} (tA : Tree A) (H : Str → Int) : Partners H A A := by
  intro x hx _ _ _ z hz
  exact ⟨z, (gen_le tA hx hz).1, rfl⟩

section
variable {A B : Parsed} (tA : Tree A) (tB : Tree B) (H : Str → Int)
  (pBA : Partners H B A) (pAB : Partners H A B)

/-- The words of the lines before are sound. -/
def InvB (A B : Parsed) (H : Str → Int) (wb : Words) : Prop :=
  ∀ b ∈ B.list, wb b = .remove ∨ (wb b = .keep ∧ ∃ a ∈ A.list, idList H B b = idList H A a)

/-- Two equal decisions. -/
def sameId (H : Str → Int) (B A : Parsed) (a : Nat) (b : Nat) : Bool := idList H B b == idList H A a

include tB pBA in
theorem mark_inv {wb : Words} (h : InvB A B H wb) {b : Nat} (hb : b ∈ B.list)
    (hk : ∃ a ∈ A.list, idList H B b = idList H A a) :
    InvB A B H (mark wb (geneology B b) .keep) := by
  intro x hx
  rw [mark]
  by_cases hg : x ∈ geneology B b
  · rw [if_pos hg]
    obtain ⟨a, ha, he⟩ := hk
    obtain ⟨y, hy, h2⟩ := pBA b hb a ha he x hg
    exact .inr ⟨rfl, y, hy, h2⟩
  · rw [if_neg hg]
    exact h x hx

theorem mark_mono {wb : Words} {l : List Nat} {b : Nat} (h : wb b = .keep) : mark wb l .keep b = .keep := by
  rw [mark]; split
  · rfl
  · exact h

include tA tB pBA pAB in
/-- ciscoconfparse.py:4549-4641: what one search does. -/
theorem findIn_spec {a : Nat} (ha : a ∈ A.list) (wa : Words) : ∀ (bs : List Nat) (wb : Words),
    (∀ b ∈ bs, b ∈ B.list) → InvB A B H wb →
    ∃ wb' wa', findIn H B A a bs wb wa = .ok (wb', wa') ∧ InvB A B H wb' ∧
      (∀ b, wb b = .keep → wb' b = .keep) ∧
      (∀ b, bs.find? (sameId H B A a) = some b →
        wb' b = .keep ∧ wa' = mark wa (geneology A a) .unchanged) ∧
      (bs.find? (sameId H B A a) = none → wa' = mark wa [a] .add)
  | [], wb, _, hI => ⟨wb, mark wa [a] .add, rfl, hI, fun _ h => h, by simp, fun _ => rfl⟩
  | b :: bs, wb, hl, hI => by
    have hb := hl b (by simp)
    have hl' : ∀ b ∈ bs, b ∈ B.list := fun x hx => hl x (List.mem_cons_of_mem _ hx)
    by_cases he : idList H B b = idList H A a
    · have hs : sameId H B A a b = true := by rw [sameId, he]; simp
      have hk := mark_inv tB H pBA hI hb ⟨a, ha, he⟩
      have hgb : mark wb (geneology B b) .keep b = .keep := by
        rw [mark, if_pos (gen_self)]
      rcases hI b hb with hw | ⟨hw, _⟩
      · refine ⟨_, mark (mark wa [a] .unchanged) (geneology A a) .unchanged, ?_, hk,
          fun _ => mark_mono, ?_, ?_⟩
        · simp [findIn, hw, he]
        · intro b' hb'
          rw [List.find?_cons, hs] at hb'
          cases hb'
          refine ⟨hgb, ?_⟩
          funext j
          rw [mark, mark, mark]
          by_cases hj : j ∈ geneology A a
          · rw [if_pos hj, if_pos hj]
          · rw [if_neg hj, if_neg hj, if_neg]
            intro h
            rw [List.mem_singleton.mp h] at hj
            exact hj (gen_self)
        · intro h
          rw [List.find?_cons, hs] at h
          cases h
      · refine ⟨_, mark wa (geneology A a) .unchanged, ?_, hk, fun _ => mark_mono, ?_, ?_⟩
        · simp [findIn, hw, he]
        · intro b' hb'
          rw [List.find?_cons, hs] at hb'
          cases hb'
          exact ⟨hgb, rfl⟩
        · intro h
          rw [List.find?_cons, hs] at h
          cases h
    · have hs : sameId H B A a b = false := by rw [sameId]; simpa using he
      rcases hI b hb with hw | ⟨hw, hex⟩
      · obtain ⟨wb', wa', h1, h2, h3, h4, h5⟩ := findIn_spec ha wa bs wb hl' hI
        refine ⟨wb', wa', ?_, h2, h3, ?_, ?_⟩
        · simp only [findIn, hw]
          simpa [he] using h1
        · intro b' hb'
          rw [List.find?_cons, hs] at hb'
          exact h4 b' hb'
        · intro h
          rw [List.find?_cons, hs] at h
          exact h5 h
      · obtain ⟨wb', wa', h1, h2, h3, h4, h5⟩ :=
          findIn_spec ha wa bs _ hl' (mark_inv tB H pBA hI hb hex)
        refine ⟨wb', wa', ?_, h2, fun x hx => h3 x (mark_mono hx), ?_, ?_⟩
        · simp only [findIn, hw]
          simpa [he] using h1
        · intro b' hb'
          rw [List.find?_cons, hs] at hb'
          exact h4 b' hb'
        · intro h
          rw [List.find?_cons, hs] at h
          exact h5 h

/-- The word of a line after is right. -/
def RightA (A B : Parsed) (H : Str → Int) (wa : Words) (j : Nat) : Prop :=
  (wa j = .unchanged ∧ ∃ b ∈ B.list, idList H B b = idList H A j) ∨
  (wa j = .add ∧ ¬ ∃ b ∈ B.list, idList H B b = idList H A j)

include tA tB pBA pAB in
/-- ciscoconfparse.py:4355-4371: what the whole loop does. -/
theorem findAll_spec : ∀ (as pre : List Nat) (wb wa : Words), A.list = pre ++ as → InvB A B H wb →
    (∀ j ∈ pre, RightA A B H wa j) → (∀ j ∈ as, wa j = .unknown) →
    (∀ j ∈ pre, ∀ b, B.list.find? (sameId H B A j) = some b → wb b = .keep) →
    ∃ wb' wa', findAll H B A as wb wa = .ok (wb', wa') ∧ InvB A B H wb' ∧
      (∀ j ∈ A.list, RightA A B H wa' j) ∧
      (∀ j ∈ A.list, ∀ b, B.list.find? (sameId H B A j) = some b → wb' b = .keep)
  | [], pre, wb, wa, hl, hI, hr, _, hk => by
    rw [List.append_nil] at hl
    exact ⟨wb, wa, rfl, hI, hl ▸ hr, hl ▸ hk⟩
  | a :: as, pre, wb, wa, hl, hI, hr, hu, hk => by
    have ha : a ∈ A.list := by rw [hl]; simp
    obtain ⟨wb', wa', h1, h2, h3, h4, h5⟩ :=
      findIn_spec tA tB H pBA pAB ha wa B.list wb (fun _ h => h) hI
    have hinc := tA.inc
    rw [hl, List.pairwise_append, List.pairwise_cons] at hinc
    have hlt : ∀ j ∈ as, a < j := hinc.2.1.1
    have hgt : ∀ j ∈ pre, j < a := fun j hj => hinc.2.2 j hj a (by simp)
    have hrest := findAll_spec as (pre ++ [a]) wb' wa' (by rw [hl]; simp) h2
    have hstep : findAll H B A (a :: as) wb wa = findAll H B A as wb' wa' := by
      rw [findAll, if_neg (by simp [hu a (by simp)]), h1]; rfl
    rw [hstep]
    cases hf : B.list.find? (sameId H B A a) with
    | none =>
      have hw := h5 hf
      have hno : ¬ ∃ b ∈ B.list, idList H B b = idList H A a := by
        rintro ⟨b, hb, he⟩
        have := List.find?_eq_none.mp hf b hb
        rw [sameId, he] at this
        simp at this
      refine hrest ?_ ?_ ?_
      · intro j hj
        rcases List.mem_append.mp hj with h | h
        · have : wa' j = wa j := by
            rw [hw, mark, if_neg]
            intro hm
            have := hgt j h
            rw [List.mem_singleton.mp hm] at this
            omega
          rw [RightA, this]
          exact hr j h
        · rw [List.mem_singleton.mp h]
          exact .inr ⟨by rw [hw, mark, if_pos (by simp)], hno⟩
      · intro j hj
        rw [hw, mark, if_neg]
        · exact hu j (by simp [hj])
        · intro hm
          have := hlt j hj
          rw [List.mem_singleton.mp hm] at this
          omega
      · intro j hj b hb
        rcases List.mem_append.mp hj with h | h
        · exact h3 b (hk j h b hb)
        · rw [List.mem_singleton.mp h, hf] at hb
          cases hb
    | some b =>
      obtain ⟨hkb, hw⟩ := h4 b hf
      have hb : b ∈ B.list := List.mem_of_find?_eq_some hf
      have he : idList H B b = idList H A a := by
        have := List.find?_some hf
        rw [sameId] at this
        simpa using this
      have hgen : ∀ j ∈ geneology A a, RightA A B H wa' j := by
        intro j hj
        obtain ⟨y, hy, h6⟩ := pAB a ha b hb he.symm j hj
        exact .inl ⟨by rw [hw, mark, if_pos hj], y, hy, h6.symm⟩
      refine hrest ?_ ?_ ?_
      · intro j hj
        by_cases hg : j ∈ geneology A a
        · exact hgen j hg
        · rcases List.mem_append.mp hj with h | h
          · have : wa' j = wa j := by rw [hw, mark, if_neg hg]
            rw [RightA, this]
            exact hr j h
          · rw [List.mem_singleton.mp h] at hg
            exact absurd (gen_self) hg
      · intro j hj
        rw [hw, mark, if_neg]
        · exact hu j (by simp [hj])
        · intro hm
          have := (gen_le tA ha hm).2
          have := hlt j hj
          omega
      · intro j hj c hc
        rcases List.mem_append.mp hj with h | h
        · exact h3 c (hk j h c hc)
        · rw [List.mem_singleton.mp h, hf] at hc
          cases hc
          exact hkb

end

end Diff

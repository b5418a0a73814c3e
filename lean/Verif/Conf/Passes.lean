import Verif.Conf.Lemmas

/-! # Lemmas about the brace, banner and macro passes -/

namespace Conf

open Py

set_option linter.unusedSimpArgs false

/-! ## Unchanged attributes -/

/-- The attributes that no pass changes. -/
def Same (b b' : Obj) : Prop :=
  b.text = b'.text ∧ b.indent = b'.indent ∧ b.isComment = b'.isComment ∧ b.linenum = b'.linenum ∧
  b.owned = b'.owned

theorem Same.refl (b : Obj) : Same b b := ⟨rfl, rfl, rfl, rfl, rfl⟩

theorem Same.trans {a b c : Obj} (h1 : Same a b) (h2 : Same b c) : Same a c :=
  ⟨h1.1.trans h2.1, h1.2.1.trans h2.2.1, h1.2.2.1.trans h2.2.2.1, h1.2.2.2.1.trans h2.2.2.2.1,
    h1.2.2.2.2.trans h2.2.2.2.2⟩

theorem same_upd {h : Heap} {i : Nat} {f : Obj → Obj} (hf : ∀ b, Same (f b) b) (j : Nat) :
    Same (upd h i f j) (h j) := by
  by_cases hj : j = i
  · rw [hj, upd_same]; exact hf _
  · rw [upd_ne _ _ hj]; exact Same.refl _

theorem same_upd2 {h : Heap} {i j : Nat} {f g : Obj → Obj} (hf : ∀ b, Same (f b) b)
    (hg : ∀ b, Same (g b) b) (k : Nat) : Same (upd (upd h i f) j g k) (h k) :=
  (same_upd hg k).trans (same_upd hf k)

/-! ## Take a list up to and including the first hit -/

/-- The list up to and including the first element that satisfies `f`. -/
def takeThrough {α : Type _} (f : α → Bool) : List α → List α
  | [] => []
  | x :: xs => if f x then [x] else x :: takeThrough f xs

theorem mem_takeThrough_range (f : Nat → Bool) : ∀ (m a i : Nat),
    i ∈ takeThrough f (List.range' a m) ↔
      a ≤ i ∧ i < a + m ∧ ∀ q, a ≤ q → q < i → f q = false
  | 0, a, i => by simp [takeThrough]; omega
  | m + 1, a, i => by
    rw [List.range'_succ, takeThrough]
    split
    · rename_i h
      rw [List.mem_singleton]
      constructor
      · rintro rfl; exact ⟨by omega, by omega, fun q h1 h2 => by omega⟩
      · rintro ⟨h1, h2, h3⟩
        by_cases hia : i = a
        · exact hia
        · have := h3 a (by omega) (by omega); simp [h] at this
    · rename_i h
      rw [List.mem_cons, mem_takeThrough_range f m (a + 1) i]
      constructor
      · rintro (rfl | ⟨h1, h2, h3⟩)
        · exact ⟨by omega, by omega, fun q h1 h2 => by omega⟩
        · refine ⟨by omega, by omega, fun q hq1 hq2 => ?_⟩
          by_cases hqa : q = a
          · rw [hqa]; simpa using h
          · exact h3 q (by omega) hq2
      · rintro ⟨h1, h2, h3⟩
        by_cases hia : i = a
        · exact .inl hia
        · exact .inr ⟨by omega, by omega, fun q hq1 hq2 => h3 q (by omega) hq2⟩

theorem takeThrough_subset {α : Type _} {f : α → Bool} : ∀ {l : List α} {a : α},
    a ∈ takeThrough f l → a ∈ l
  | x :: xs, a, h => by
    rw [takeThrough] at h
    split at h
    · exact (List.mem_singleton.mp h) ▸ List.mem_cons_self
    · rcases List.mem_cons.mp h with h | h
      · rw [h]; exact List.mem_cons_self
      · exact List.mem_cons_of_mem _ (takeThrough_subset h)

theorem takeThrough_sublist {α : Type _} (f : α → Bool) : ∀ (l : List α), (takeThrough f l).Sublist l
  | [] => List.Sublist.refl _
  | x :: xs => by
    rw [takeThrough]
    split
    · exact List.Sublist.cons_cons x (List.nil_sublist xs)
    · exact List.Sublist.cons_cons x (takeThrough_sublist f xs)

/-! ## Banner pass -/

/-- The body of the banner at `p`. -/
def bodyOf (T : Nat → Str) (n p : Nat) : List Nat :=
  match bannerDelim (T p) with
  | none => []
  | some d =>
    if closedOnLine d (T p) then []
    else takeThrough (fun i => decide (d ∈ strip (T i))) (List.range' (p + 1) (n - (p + 1)))

/-- A body line that does not end the banner. -/
def innerOf (T : Nat → Str) (n p i : Nat) : Bool :=
  decide (i ∈ bodyOf T n p) &&
    (match bannerDelim (T p) with
     | none => false
     | some d => !decide (d ∈ strip (T i)))

theorem bannerBody_spec {p : Nat} {d : Char} (T : Nat → Str) : ∀ (todo : List Nat) (h : Heap),
    p ∉ todo → todo.Nodup → (∀ i, (h i).text = T i) →
    ∀ j, bannerBody p d todo h j =
      { h j with
        parent := if j ∈ takeThrough (fun i => decide (d ∈ strip (T i))) todo then p else (h j).parent
        children := if j = p then (h j).children ++
          takeThrough (fun i => decide (d ∈ strip (T i))) todo else (h j).children
        childIndent := (bannerBody p d todo h j).childIndent
        blankKeep := (h j).blankKeep || (decide (j ∈ takeThrough (fun i => decide (d ∈ strip (T i))) todo)
          && !decide (d ∈ strip (T j))) }
  | [], h, _, _, _, j => by
    simp only [takeThrough, List.not_mem_nil, if_false, List.append_nil, decide_false,
      Bool.false_and, Bool.or_false, bannerBody]
    split <;> rfl
  | i :: todo, h, hp, hnd, hT, j => by
    simp only [List.mem_cons, not_or] at hp
    simp only [List.nodup_cons] at hnd
    have hpi : p ≠ i := hp.1
    -- one child
    have hone : ∀ keep, bannerChild h p i keep j =
        { h j with
          parent := if j = i then p else (h j).parent
          children := if j = p then (h j).children ++ [i] else (h j).children
          childIndent := (bannerChild h p i keep j).childIndent
          blankKeep := (h j).blankKeep || (decide (j = i) && keep) } := by
      intro keep
      rw [bannerChild]
      by_cases hji : j = i
      · subst hji
        rw [upd_same, upd_ne _ _ (Ne.symm hpi)]
        simp [Ne.symm hpi]
      · rw [upd_ne _ _ hji]
        by_cases hjp : j = p
        · subst hjp
          rw [upd_same]
          simp [hji]
        · rw [upd_ne _ _ hjp]
          simp [hji, hjp]
    rw [bannerBody, hT i]
    by_cases hd : d ∈ strip (T i)
    · have htt : takeThrough (fun i => decide (d ∈ strip (T i))) (i :: todo) = [i] := by
        rw [takeThrough, if_pos (by simpa using hd)]
      rw [if_pos hd, htt, hone]
      by_cases hji : j = i
      · subst hji; simp [hd]
      · simp [hji]
    · have htt : takeThrough (fun i => decide (d ∈ strip (T i))) (i :: todo)
          = i :: takeThrough (fun i => decide (d ∈ strip (T i))) todo := by
        rw [takeThrough, if_neg (by simpa using hd)]
      rw [if_neg hd, htt]
      have hT' : ∀ k, (bannerChild h p i true k).text = T k := by
        intro k
        have : Same (bannerChild h p i true k) (h k) := by
          rw [bannerChild]
          refine Same.trans (same_upd ?_ k) (same_upd ?_ k) <;>
            exact fun b => ⟨rfl, rfl, rfl, rfl, rfl⟩
        rw [this.1, hT k]
      rw [bannerBody_spec T todo (bannerChild h p i true) hp.2 hnd.2 hT' j, hone]
      by_cases hji : j = i
      · subst hji
        have hnot : j ∉ takeThrough (fun i => decide (d ∈ strip (T i))) todo :=
          fun hm => hnd.1 (takeThrough_subset hm)
        simp [hd, Ne.symm hpi, hnot]
      · by_cases hjp : j = p
        · subst hjp; simp [hji, List.append_assoc]
        · simp [hji, hjp]

theorem bannerOne_spec (T : Nat → Str) (n p : Nat) (h : Heap) (hT : ∀ i, (h i).text = T i) (j : Nat) :
    bannerOne n h p j =
      { h j with
        parent := if j ∈ bodyOf T n p then p else (h j).parent
        children := if j = p then (h j).children ++ bodyOf T n p else (h j).children
        childIndent := (bannerOne n h p j).childIndent
        blankKeep := (h j).blankKeep || decide (j = p) || innerOf T n p j } := by
  have hplain : (upd h p (fun b => { b with blankKeep := true })) j =
      { h j with blankKeep := (h j).blankKeep || decide (j = p) } := by
    by_cases hjp : j = p
    · subst hjp; rw [upd_same]; simp
    · rw [upd_ne _ _ hjp]; simp [hjp]
  rcases hd : bannerDelim (T p) with _ | d
  · have h1 : bannerOne n h p = upd h p (fun b => { b with blankKeep := true }) := by
      simp only [bannerOne, hT p, hd]
    have h2 : bodyOf T n p = [] := by simp only [bodyOf, hd]
    have h3 : innerOf T n p j = false := by rw [innerOf, h2]; simp
    rw [h1, hplain, h2, h3]
    simp
  · by_cases hc : closedOnLine d (T p) = true
    · have h1 : bannerOne n h p = upd h p (fun b => { b with blankKeep := true }) := by
        simp only [bannerOne, hT p, hd, if_pos hc]
      have h2 : bodyOf T n p = [] := by simp only [bodyOf, hd, if_pos hc]
      have h3 : innerOf T n p j = false := by rw [innerOf, h2]; simp
      rw [h1, hplain, h2, h3]
      simp
    · have h1 : bannerOne n h p = bannerBody p d (List.range' (p + 1) (n - (p + 1)))
          (upd h p (fun b => { b with blankKeep := true })) := by
        simp only [bannerOne, hT p, hd, if_neg hc]
      have h2 : bodyOf T n p = takeThrough (fun i => decide (d ∈ strip (T i)))
          (List.range' (p + 1) (n - (p + 1))) := by simp only [bodyOf, hd, if_neg hc]
      have h3 : innerOf T n p j = (decide (j ∈ bodyOf T n p) && !decide (d ∈ strip (T j))) := by
        rw [innerOf, hd]
      have hT' : ∀ k, (upd h p (fun b => { b with blankKeep := true }) k).text = T k := by
        intro k
        rw [(same_upd (f := fun b => { b with blankKeep := true })
          (fun b => ⟨rfl, rfl, rfl, rfl, rfl⟩) k : Same _ (h k)).1, hT k]
      rw [h1, bannerBody_spec T _ _ (by simp [List.mem_range']; omega) List.nodup_range' hT' j, hplain,
        h3, h2]

/-- The last banner of `ps` whose body contains `j`. -/
def bannerOwner (T : Nat → Str) (n : Nat) (ps : List Nat) (j : Nat) : Option Nat :=
  ps.reverse.find? (fun p => decide (j ∈ bodyOf T n p))

theorem find?_reverse_cons {α : Type _} (f : α → Bool) (a : α) (l : List α) :
    (a :: l).reverse.find? f = (l.reverse.find? f).or (if f a then some a else none) := by
  rw [List.reverse_cons, List.find?_append, List.find?_cons, List.find?_nil]
  cases f a <;> rfl

theorem bannerFold_spec (T : Nat → Str) (n : Nat) : ∀ (ps : List Nat) (h : Heap), ps.Nodup →
    (∀ i, (h i).text = T i) → ∀ j, ps.foldl (bannerOne n) h j =
      { h j with
        parent := (bannerOwner T n ps j).getD (h j).parent
        children := if j ∈ ps then (h j).children ++ bodyOf T n j else (h j).children
        childIndent := (ps.foldl (bannerOne n) h j).childIndent
        blankKeep := (h j).blankKeep || decide (j ∈ ps) || ps.any (fun p => innerOf T n p j) }
  | [], h, _, hT, j => by simp [bannerOwner]
  | p :: ps, h, hnd, hT, j => by
    simp only [List.nodup_cons] at hnd
    have hT' : ∀ k, (bannerOne n h p k).text = T k := by
      intro k
      rw [bannerOne_spec T n p h hT k]
      exact hT k
    rw [List.foldl_cons, bannerFold_spec T n ps (bannerOne n h p) hnd.2 hT' j,
      bannerOne_spec T n p h hT j, bannerOwner, bannerOwner, find?_reverse_cons]
    by_cases hjp : j = p
    · subst hjp
      cases hf : List.find? (fun p => decide (j ∈ bodyOf T n p)) ps.reverse <;>
        by_cases hb : j ∈ bodyOf T n j <;> simp [hnd.1, hf, hb, Bool.or_assoc]
    · cases hf : List.find? (fun p => decide (j ∈ bodyOf T n p)) ps.reverse <;>
        by_cases hb : j ∈ bodyOf T n p <;> by_cases hm : j ∈ ps <;>
          simp [hf, hb, hjp, hm, Bool.or_assoc, Bool.or_comm, Bool.or_left_comm]

/-- The banner lines. -/
def bannerLines (T : Nat → Str) (n : Nat) : List Nat := (List.range n).filter (fun i => isBanner (T i))

theorem bannerPass_spec (T : Nat → Str) (n : Nat) (h : Heap) (hT : ∀ i, (h i).text = T i) (j : Nat) :
    bannerPass n h j =
      { h j with
        parent := (bannerOwner T n (bannerLines T n) j).getD (h j).parent
        children := if j ∈ bannerLines T n then (h j).children ++ bodyOf T n j else (h j).children
        childIndent := (bannerPass n h j).childIndent
        blankKeep := (h j).blankKeep || decide (j ∈ bannerLines T n) ||
          (bannerLines T n).any (fun p => innerOf T n p j) } := by
  have hl : (List.range n).filter (fun i => isBanner (h i).text) = bannerLines T n := by
    rw [bannerLines]; simp only [hT]
  rw [bannerPass, hl]
  exact bannerFold_spec T n _ h (List.nodup_range.filter _) hT j

/-! ## Macro pass -/

/-- The body of the macro at `p`. -/
def macroOf (T : Nat → Str) (n p : Nat) : List Nat :=
  takeThrough (fun i => decide (rstrip (T i) = "@".toList)) (List.range' (p + 1) (n - (p + 1)))

theorem macroBody_ok {p : Nat} (T : Nat → Str) : ∀ (todo : List Nat) (h h' : Heap),
    p ∉ todo → todo.Nodup → (∀ i, (h i).text = T i) → macroBody p todo h = .ok h' →
    ∀ j, h' j =
      { h j with
        parent := if j ∈ takeThrough (fun i => decide (rstrip (T i) = "@".toList)) todo then p
          else (h j).parent
        children := if j = p then (h j).children ++
          takeThrough (fun i => decide (rstrip (T i) = "@".toList)) todo else (h j).children
        blankKeep := (h j).blankKeep ||
          decide (j ∈ takeThrough (fun i => decide (rstrip (T i) = "@".toList)) todo) }
  | [], h, h', _, _, _, he, j => by rw [macroBody] at he; simp at he
  | i :: todo, h, h', hp, hnd, hT, he, j => by
    simp only [List.mem_cons, not_or] at hp
    simp only [List.nodup_cons] at hnd
    have hpi : p ≠ i := hp.1
    generalize hg : upd (upd h i (fun b => { b with blankKeep := true, parent := p }))
      p (fun b => { b with children := b.children ++ [i] }) = g at he
    have hone : ∀ k, g k = { h k with
          parent := if k = i then p else (h k).parent
          children := if k = p then (h k).children ++ [i] else (h k).children
          blankKeep := (h k).blankKeep || decide (k = i) } := by
      intro k
      rw [← hg]
      by_cases hki : k = i
      · subst hki
        rw [upd_ne _ _ (Ne.symm hpi), upd_same]
        simp [Ne.symm hpi]
      · by_cases hkp : k = p
        · subst hkp
          rw [upd_same, upd_ne _ _ hki]
          simp [hki]
        · rw [upd_ne _ _ hkp, upd_ne _ _ hki]
          simp [hki, hkp]
    have hTg : ∀ k, (g k).text = T k := by intro k; rw [hone k]; exact hT k
    rw [macroBody, hg] at he
    simp only [hTg i] at he
    by_cases hd : rstrip (T i) = "@".toList
    · have htt : takeThrough (fun i => decide (rstrip (T i) = "@".toList)) (i :: todo) = [i] := by
        rw [takeThrough, if_pos (by simpa using hd)]
      rw [if_pos hd] at he
      simp only [Except.ok.injEq] at he
      rw [← he, hone j, htt]
      simp
    · have htt : takeThrough (fun i => decide (rstrip (T i) = "@".toList)) (i :: todo)
          = i :: takeThrough (fun i => decide (rstrip (T i) = "@".toList)) todo := by
        rw [takeThrough, if_neg (by simpa using hd)]
      rw [if_neg hd] at he
      rw [htt, macroBody_ok T todo g h' hp.2 hnd.2 hTg he j, hone j]
      by_cases hji : j = i
      · subst hji
        have hnot : j ∉ takeThrough (fun i => decide (rstrip (T i) = "@".toList)) todo :=
          fun hm => hnd.1 (takeThrough_subset hm)
        simp [Ne.symm hpi]
      · by_cases hjp : j = p
        · subst hjp; simp [hji, List.append_assoc]
        · simp [hji, hjp]

/-- The macro body succeeds exactly when there is an `@` line. -/
theorem macroBody_isOk {p : Nat} (T : Nat → Str) : ∀ (todo : List Nat) (h : Heap),
    (∀ i, (h i).text = T i) →
    ((∃ h', macroBody p todo h = .ok h') ↔ ∃ i ∈ todo, rstrip (T i) = "@".toList) ∧
    (¬ (∃ h', macroBody p todo h = .ok h') → macroBody p todo h = .error .indexError)
  | [], h, _ => by simp [macroBody]
  | i :: todo, h, hT => by
    rw [macroBody]
    generalize hg : upd (upd h i (fun b => { b with blankKeep := true, parent := p }))
      p (fun b => { b with children := b.children ++ [i] }) = g
    have hTg : ∀ k, (g k).text = T k := by
      intro k
      have hs : Same (g k) (h k) := by
        rw [← hg]
        refine same_upd2 ?_ ?_ k <;> exact fun b => ⟨rfl, rfl, rfl, rfl, rfl⟩
      rw [hs.1, hT k]
    simp only [hTg i]
    by_cases hd : rstrip (T i) = "@".toList
    · simp [hd]
    · rw [if_neg hd]
      have ih := macroBody_isOk (p := p) T todo g hTg
      refine ⟨?_, ih.2⟩
      rw [ih.1]
      constructor
      · rintro ⟨k, hk, ha⟩; exact ⟨k, List.mem_cons_of_mem _ hk, ha⟩
      · rintro ⟨k, hk, ha⟩
        rcases List.mem_cons.mp hk with hk | hk
        · rw [hk] at ha; exact absurd ha hd
        · exact ⟨k, hk, ha⟩

/-- The last macro of `ps` whose body contains `j`. -/
def macroOwner (T : Nat → Str) (n : Nat) (ps : List Nat) (j : Nat) : Option Nat :=
  ps.reverse.find? (fun p => decide (j ∈ macroOf T n p))

theorem macroOne_ok (T : Nat → Str) (n p : Nat) (h h' : Heap) (hT : ∀ i, (h i).text = T i)
    (he : macroOne n h p = .ok h') (j : Nat) : h' j =
      { h j with
        parent := if j ∈ macroOf T n p then p else (h j).parent
        children := if j = p then (h j).children ++ macroOf T n p else (h j).children
        childIndent := (h' j).childIndent
        blankKeep := (h j).blankKeep || decide (j = p) || decide (j ∈ macroOf T n p) } := by
  rw [macroOne] at he
  have hT' : ∀ k, (upd h p (fun b => { b with blankKeep := true, childIndent := 0 }) k).text = T k := by
    intro k
    rw [(same_upd (f := fun b => { b with blankKeep := true, childIndent := 0 })
      (fun b => ⟨rfl, rfl, rfl, rfl, rfl⟩) k : Same _ (h k)).1, hT k]
  have hb := macroBody_ok T _ _ h' (by simp [List.mem_range']; omega) List.nodup_range' hT' he j
  rw [← macroOf] at hb
  by_cases hjp : j = p
  · subst hjp
    rw [upd_same] at hb
    rw [hb]; simp
  · rw [upd_ne _ _ hjp] at hb
    rw [hb]; simp [hjp]

theorem macroPass_ok (T : Nat → Str) (n : Nat) : ∀ (ps : List Nat) (h h' : Heap), ps.Nodup →
    (∀ i, (h i).text = T i) → macroPass n ps h = .ok h' → ∀ j, h' j =
      { h j with
        parent := (macroOwner T n ps j).getD (h j).parent
        children := if j ∈ ps then (h j).children ++ macroOf T n j else (h j).children
        childIndent := (h' j).childIndent
        blankKeep := (h j).blankKeep || decide (j ∈ ps) || ps.any (fun p => decide (j ∈ macroOf T n p)) }
  | [], h, h', _, hT, he, j => by
    rw [macroPass] at he
    simp only [Except.ok.injEq] at he
    simp [← he, macroOwner]
  | p :: ps, h, h', hnd, hT, he, j => by
    simp only [List.nodup_cons] at hnd
    rw [macroPass] at he
    cases h1 : macroOne n h p with
    | error e => rw [h1] at he; cases he
    | ok g =>
      rw [h1] at he
      have he' : macroPass n ps g = .ok h' := he
      have hg := macroOne_ok T n p h g hT h1
      have hT' : ∀ k, (g k).text = T k := by intro k; rw [hg k]; exact hT k
      rw [macroPass_ok T n ps g h' hnd.2 hT' he' j, hg j, macroOwner, macroOwner, find?_reverse_cons]
      by_cases hjp : j = p
      · subst hjp
        cases hf : List.find? (fun p => decide (j ∈ macroOf T n p)) ps.reverse <;>
          by_cases hb : j ∈ macroOf T n j <;> simp [hnd.1, hf, hb, Bool.or_assoc]
      · cases hf : List.find? (fun p => decide (j ∈ macroOf T n p)) ps.reverse <;>
          by_cases hb : j ∈ macroOf T n p <;> by_cases hm : j ∈ ps <;>
            simp [hf, hb, hjp, hm, Bool.or_assoc, Bool.or_comm, Bool.or_left_comm]

/-- The macro pass succeeds exactly when every macro has an `@` line below it. -/
theorem macroPass_isOk (T : Nat → Str) (n : Nat) : ∀ (ps : List Nat) (h : Heap), ps.Nodup →
    (∀ i, (h i).text = T i) →
    ((∃ h', macroPass n ps h = .ok h') ↔
      ∀ p ∈ ps, ∃ i, p < i ∧ i < n ∧ rstrip (T i) = "@".toList) ∧
    (¬ (∃ h', macroPass n ps h = .ok h') → macroPass n ps h = .error .indexError)
  | [], h, _, _ => by simp [macroPass]
  | p :: ps, h, hnd, hT => by
    simp only [List.nodup_cons] at hnd
    have hT' : ∀ k, (upd h p (fun b => { b with blankKeep := true, childIndent := 0 }) k).text = T k := by
      intro k
      rw [(same_upd (f := fun b => { b with blankKeep := true, childIndent := 0 })
      (fun b => ⟨rfl, rfl, rfl, rfl, rfl⟩) k : Same _ (h k)).1, hT k]
    have h1 := macroBody_isOk (p := p) T (List.range' (p + 1) (n - (p + 1))) _ hT'
    have hex : (∃ i ∈ List.range' (p + 1) (n - (p + 1)), rstrip (T i) = "@".toList) ↔
        ∃ i, p < i ∧ i < n ∧ rstrip (T i) = "@".toList := by
      constructor
      · rintro ⟨i, hi, ha⟩
        rw [List.mem_range'_1] at hi
        exact ⟨i, by omega, by omega, ha⟩
      · rintro ⟨i, h1, h2, ha⟩
        exact ⟨i, by rw [List.mem_range'_1]; omega, ha⟩
    rw [hex] at h1
    rw [macroPass]
    cases hm : macroOne n h p with
    | error e =>
      rw [macroOne] at hm
      have hne : ¬ ∃ h', macroBody p (List.range' (p + 1) (n - (p + 1)))
          (upd h p fun b => { b with blankKeep := true, childIndent := 0 }) = .ok h' := by
        rintro ⟨h', hh⟩; rw [hm] at hh; cases hh
      have he := h1.2 hne
      rw [hm] at he
      injection he with he
      constructor
      · constructor
        · rintro ⟨h', hh⟩; cases hh
        · intro hall
          exact absurd (h1.1.mpr (hall p (by simp))) hne
      · intro _; rw [he]; rfl
    | ok g =>
      have hg := macroOne_ok T n p h g hT hm
      have hTg : ∀ k, (g k).text = T k := by intro k; rw [hg k]; exact hT k
      have ih := macroPass_isOk T n ps g hnd.2 hTg
      rw [macroOne] at hm
      have hp := h1.1.mp ⟨g, hm⟩
      have hbind : (do macroPass n ps (← (Except.ok g : Except Err Heap))) = macroPass n ps g := rfl
      rw [hbind]
      refine ⟨?_, ih.2⟩
      rw [ih.1]
      constructor
      · intro hall q hq
        rcases List.mem_cons.mp hq with hq | hq
        · rw [hq]; exact hp
        · exact hall q hq
      · intro hall q hq
        exact hall q (List.mem_cons_of_mem _ hq)

end Conf

import Verif.Edit.Spec
import Verif.Query.Lemmas

/-! # Lemmas for the edits -/

namespace Edit

open Py Conf Query

/-! ## Renumbering -/

theorem renumber_same (l : List Nat) (k : Nat) (h : Heap) (x : Nat) :
    { renumber k l h x with linenum := (h x).linenum } = h x := by
  induction l generalizing k h with
  | nil => rfl
  | cons i l ih =>
    rw [renumber]
    have := ih (k + 1) (upd h i (fun b => { b with linenum := k }))
    by_cases hx : x = i
    · subst hx
      have hu : upd h x (fun b => { b with linenum := (k : Int) }) x = { h x with linenum := (k : Int) } := by
        rw [upd, if_pos rfl]
      rw [hu] at this
      have h2 := congrArg (fun b : Obj => { b with linenum := (h x).linenum }) this
      exact h2
    · have hu : upd h i (fun b => { b with linenum := (k : Int) }) x = h x := by rw [upd, if_neg hx]
      rw [hu] at this
      exact this

theorem renumber_notMem {l : List Nat} {k : Nat} {h : Heap} {x : Nat} (hx : x ∉ l) :
    renumber k l h x = h x := by
  induction l generalizing k h with
  | nil => rfl
  | cons i l ih =>
    rw [List.mem_cons, not_or] at hx
    rw [renumber, ih hx.2, upd, if_neg hx.1]

theorem renumber_num {l : List Nat} (hl : l.Nodup) (k : Nat) (h : Heap) {m x : Nat}
    (hm : l[m]? = some x) : (renumber k l h x).linenum = (k + m : Nat) := by
  induction l generalizing k h m with
  | nil => simp at hm
  | cons i l ih =>
    rw [List.nodup_cons] at hl
    rw [renumber]
    cases m with
    | zero =>
      simp only [List.getElem?_cons_zero, Option.some.injEq] at hm
      subst hm
      rw [renumber_notMem hl.1, upd, if_pos rfl]; rfl
    | succ m =>
      rw [List.getElem?_cons_succ] at hm
      rw [ih hl.2 (k + 1) _ hm]
      congr 1; omega

theorem same_reassign (P : Parsed) : Spec.SameObjs P (reassign P) :=
  fun x => renumber_same P.list 0 P.h x

theorem numbered_reassign {P : Parsed} (h : P.list.Nodup) : Spec.Numbered (reassign P) := by
  intro k i hk
  have := renumber_num h 0 P.h (x := i) hk
  rw [Nat.zero_add] at this
  exact this

theorem numbered_inj {P : Parsed} (h : Spec.Numbered P) {a b : Nat} (ha : a ∈ P.list) (hb : b ∈ P.list)
    (he : (P.h a).linenum = (P.h b).linenum) : a = b := by
  obtain ⟨i, hi⟩ := List.mem_iff_getElem?.mp ha
  obtain ⟨j, hj⟩ := List.mem_iff_getElem?.mp hb
  have h1 := h i a hi
  have h2 := h j b hj
  have : i = j := by omega
  subst this
  rw [hi] at hj
  exact Option.some.inj hj

theorem numbered_nodup {P : Parsed} (h : Spec.Numbered P) : P.list.Nodup := by
  rw [List.Nodup, List.pairwise_iff_getElem]
  intro i j hi hj hij he
  have h1 := h i _ (List.getElem?_eq_getElem hi)
  have h2 := h j _ (List.getElem?_eq_getElem hj)
  rw [he, h2] at h1
  omega

section same
variable {P P' : Parsed} (h : Spec.SameObjs P P')
include h

theorem same_text (x : Nat) : (P'.h x).text = (P.h x).text := by
  have := congrArg Obj.text (h x)
  exact this
theorem same_children (x : Nat) : (P'.h x).children = (P.h x).children := by
  have := congrArg Obj.children (h x)
  exact this
theorem same_parent (x : Nat) : (P'.h x).parent = (P.h x).parent := by
  have := congrArg Obj.parent (h x)
  exact this
theorem same_owned (x : Nat) : (P'.h x).owned = (P.h x).owned := by
  have := congrArg Obj.owned (h x)
  exact this
theorem same_indent (x : Nat) : (P'.h x).indent = (P.h x).indent := by
  have := congrArg Obj.indent (h x)
  exact this

theorem same_desc {i x : Nat} : Query.Spec.Desc P' i x ↔ Query.Spec.Desc P i x := by
  constructor
  · intro hd
    induction hd with
    | child hc => exact .child (by rw [← same_children h]; exact hc)
    | step hc _ ih => exact .step (by rw [← same_children h]; exact hc) ih
  · intro hd
    induction hd with
    | child hc => exact .child (by rw [same_children h]; exact hc)
    | step hc _ ih => exact .step (by rw [same_children h]; exact hc) ih

theorem same_fam {i x : Nat} : Spec.Fam P' i x ↔ Spec.Fam P i x := or_congr Iff.rfl (same_desc h)

end same

theorem same_refl (P : Parsed) : Spec.SameObjs P P := fun _ => rfl

theorem same_trans {P Q R : Parsed} (h1 : Spec.SameObjs P Q) (h2 : Spec.SameObjs Q R) :
    Spec.SameObjs P R := by
  intro x
  have := congrArg (fun b : Obj => { b with linenum := (P.h x).linenum }) (h2 x)
  exact this.trans (h1 x)

/-! ## Well-formed states -/

/-- Names refer to objects, and children come after their parents. -/
structure Wf (P : Parsed) : Prop where
  list : ∀ i ∈ P.list, i < P.n
  kids : ∀ i < P.n, ∀ c ∈ (P.h i).children, i < c ∧ c < P.n

theorem wf_bootstrap {o : Opts} {lines : List Str} {P : Parsed} (h : bootstrap o lines = .ok P) : Wf P := by
  obtain ⟨_, _, hn, _, _⟩ := bootstrap_ok h
  refine ⟨?_, ?_⟩
  · intro i hi
    rw [hn]; exact ((mem_list h).mp hi).1
  · intro i hi c hc
    rw [hn] at hi ⊢
    exact children_range h hi hc

theorem wf_embed {P Q : Parsed} (hP : Wf P) (hQ : Wf Q) : Wf (embed P Q) := by
  refine ⟨?_, ?_⟩
  · intro i hi
    obtain ⟨j, hj, e⟩ := List.mem_map.mp hi
    have := hQ.list j hj
    show i < P.n + Q.n
    omega
  · intro i hi c hc
    have hi : i < P.n + Q.n := hi
    have hc : c ∈ (if i < P.n then P.h i else moveObj P.n (Q.h (i - P.n))).children := hc
    show i < c ∧ c < P.n + Q.n
    split at hc
    · rename_i h
      have := hP.kids i h c hc
      omega
    · have hc : c ∈ ((Q.h (i - P.n)).children.map (· + P.n)) := hc
      obtain ⟨j, hj, e⟩ := List.mem_map.mp hc
      have := hQ.kids (i - P.n) (by omega) j hj
      omega

theorem wf_reassign {P : Parsed} (h : Wf P) : Wf (reassign P) :=
  ⟨h.list, fun i hi c hc => h.kids i hi c (by rw [← same_children (same_reassign P)]; exact hc)⟩

/-! ## Descendants -/

theorem desc_lt' {P : Parsed} (hw : Wf P) {i x : Nat} (hi : i < P.n) (h : Query.Spec.Desc P i x) :
    i < x ∧ x < P.n := by
  induction h with
  | child hc => exact hw.kids _ hi _ hc
  | step hc _ ih =>
    have h1 := hw.kids _ hi _ hc
    have h2 := ih h1.2
    exact ⟨Nat.lt_trans h1.1 h2.1, h2.2⟩

theorem allAux_rep' {P : Parsed} (hw : Wf P) (f i : Nat) (hi : i < P.n) (hf : P.n ≤ f + i) {x : Nat}
    (hx : Query.Spec.Desc P i x) : ∃ y ∈ allChildrenAux P.h f i, objEq (P.h y) (P.h x) = true := by
  induction f generalizing i x with
  | zero => omega
  | succ f ih =>
    have key : ∃ z ∈ (P.h i).children.flatMap (fun c => c :: allChildrenAux P.h f c),
        objEq (P.h z) (P.h x) = true := by
      cases hx with
      | child hc => exact ⟨x, List.mem_flatMap.mpr ⟨x, hc, by simp⟩, objEq_refl _ _⟩
      | @step _ c _ hc hd =>
        obtain ⟨h1, h2⟩ := hw.kids i hi c hc
        obtain ⟨y, hy, he⟩ := ih c h2 (by omega) hd
        exact ⟨y, List.mem_flatMap.mpr ⟨c, hc, by simp [hy]⟩, he⟩
    obtain ⟨z, hz, he⟩ := key
    obtain ⟨y, hy, he2⟩ := set_rep (h := P.h) hz
    exact ⟨y, by rw [allChildrenAux, mem_sortObjs]; exact hy, objEq_trans _ _ _ _ he2 he⟩

/-- No two objects of the set compare equal. -/
def Keys (P : Parsed) (S : Nat → Prop) : Prop :=
  ∀ a b, S a → S b → objEq (P.h a) (P.h b) = true → a = b

theorem mem_allChildren' {P : Parsed} (hw : Wf P) {i x : Nat} (hi : i < P.n)
    (hk : Keys P (Query.Spec.Desc P i)) : x ∈ allChildren P i ↔ Query.Spec.Desc P i x := by
  refine ⟨allAux_sound P.n i, fun h => ?_⟩
  obtain ⟨y, hy, he⟩ := allAux_rep' hw P.n i hi (by omega) h
  rw [← hk y x (allAux_sound P.n i hy) h he]; exact hy

theorem keys_of {P : Parsed} (hn : Spec.Numbered P) {S : Nat → Prop} (hS : ∀ x, S x → x ∈ P.list)
    (hd : Spec.NoDigits P S) : Keys P S := by
  intro a b ha hb he
  obtain ⟨i, hi⟩ := List.mem_iff_getElem?.mp (hS a ha)
  obtain ⟨j, hj⟩ := List.mem_iff_getElem?.mp (hS b hb)
  rw [objEq, beq_iff_eq, hn i a hi, hn j b hj, intStr_ofNat, intStr_ofNat] at he
  have := natStr_inj (digits_append_inj (natStr_digits i) (natStr_digits j) (hd a ha) (hd b hb) he)
  subst this
  rw [hi] at hj
  exact Option.some.inj hj

/-! ## Deleting positions -/

theorem pyIndex_nat {n k : Nat} (h : k < n) : pyIndex n (k : Int) = some k := by
  rw [pyIndex, if_pos ⟨by omega, by omega⟩]; simp

theorem eraseIdx_eq_filter {l : List Nat} (hl : l.Nodup) {p j : Nat} (h : l[p]? = some j) :
    l.eraseIdx p = l.filter (fun x => !(x == j)) := by
  induction l generalizing p with
  | nil => simp at h
  | cons a l ih =>
    rw [List.nodup_cons] at hl
    cases p with
    | zero =>
      simp only [List.getElem?_cons_zero, Option.some.injEq] at h
      subst h
      rw [List.eraseIdx_cons_zero, List.filter_cons, if_neg (by simp)]
      symm
      rw [List.filter_eq_self]
      intro x hx
      simp only [Bool.not_eq_true', beq_eq_false_iff_ne, ne_eq]
      rintro rfl; exact hl.1 hx
    | succ p =>
      rw [List.getElem?_cons_succ] at h
      have hm : j ∈ l := List.mem_iff_getElem?.mpr ⟨p, h⟩
      have hne : a ≠ j := by rintro rfl; exact hl.1 hm
      rw [List.eraseIdx_cons_succ, ih hl.2 h, List.filter_cons, if_pos (by simpa using hne)]

theorem delAll_ok {h : Heap} {js l : List Nat} (hl : l.Nodup)
    (hpos : ∀ j ∈ js, ∃ p : Nat, (h j).linenum = p ∧ l[p]? = some j)
    (hdesc : js.Pairwise (fun a b => (h b).linenum < (h a).linenum)) :
    delAll h js l = .ok (l.filter (fun x => !js.contains x)) := by
  induction js generalizing l with
  | nil =>
    rw [delAll]
    congr 1
    symm
    rw [List.filter_eq_self]
    simp
  | cons j js ih =>
    obtain ⟨p, hp, hj⟩ := hpos j (by simp)
    rw [List.pairwise_cons] at hdesc
    have hlt : p < l.length := (List.getElem?_eq_some_iff.mp hj).1
    have he : delAt l (h j).linenum = .ok (l.eraseIdx p) := by
      rw [delAt, hp, pyIndex_nat hlt]
    have hf := eraseIdx_eq_filter hl hj
    have hrec := ih (l := l.eraseIdx p) (by rw [hf]; exact hl.filter _) (by
      intro j' hj'
      obtain ⟨p', hp', hl'⟩ := hpos j' (by simp [hj'])
      have := hdesc.1 j' hj'
      refine ⟨p', hp', ?_⟩
      rw [List.getElem?_eraseIdx, if_pos (by omega)]; exact hl') hdesc.2
    rw [delAll, he]
    show delAll h js (l.eraseIdx p) = _
    rw [hrec, hf, List.filter_filter]
    congr 1
    refine List.filter_congr ?_
    intro x _
    rw [List.contains_cons, Bool.not_or, Bool.and_comm]

theorem sortDesc_sorted (h : Heap) (l : List Nat) :
    (sortDesc h l).Pairwise (fun a b => (h b).linenum ≤ (h a).linenum) := by
  have := sortBy_sorted (le := fun a b => decide ((h b).linenum ≤ (h a).linenum))
    (fun a b => by simp only [decide_eq_true_eq]; omega)
    (fun a b c => by simp only [decide_eq_true_eq]; omega) l
  exact this.imp (fun hab => of_decide_eq_true hab)

/-- Deleting an object whose family is listed. -/
theorem delete_ok {P : Parsed} (hw : Wf P) (hn : Spec.Numbered P) {i : Nat}
    (hown : (P.h i).owned = true) (hfam : ∀ x, Spec.Fam P i x → x ∈ P.list)
    (hk : Keys P (Spec.Fam P i)) :
    ∃ P', delete P i true = .ok P' ∧ Spec.Removed P P' (Spec.Fam P i) ∧ P'.n = P.n := by
  have hi : i ∈ P.list := hfam i (Or.inl rfl)
  have hlt := hw.list i hi
  have hmem : ∀ x, x ∈ i :: allChildren P i ↔ Spec.Fam P i x := by
    intro x
    rw [List.mem_cons, mem_allChildren' hw hlt (fun a b ha hb => hk a b (Or.inr ha) (Or.inr hb))]
    exact Iff.rfl
  have hset : ∀ x, x ∈ sortDesc P.h (setObjs P.h (i :: allChildren P i)) ↔ Spec.Fam P i x := by
    intro x
    rw [← hmem, sortDesc, mem_sortBy, mem_set_on]
    intro a ha b hb
    exact hk a b ((hmem a).mp ha) ((hmem b).mp hb)
  have hnd : (sortDesc P.h (setObjs P.h (i :: allChildren P i))).Nodup :=
    (sortBy_perm _ _).nodup_iff.mpr (nodup_dedupBy (objEq_refl P.h))
  have hstrict : (sortDesc P.h (setObjs P.h (i :: allChildren P i))).Pairwise
      (fun a b => (P.h b).linenum < (P.h a).linenum) := by
    refine List.Pairwise.imp_of_mem ?_ (List.pairwise_and_iff.mpr ⟨sortDesc_sorted P.h _, hnd⟩)
    rintro a b ha hb ⟨h1, h2⟩
    have ha' := hfam a ((hset a).mp ha)
    have hb' := hfam b ((hset b).mp hb)
    have : (P.h a).linenum ≠ (P.h b).linenum := fun e => h2 (numbered_inj hn ha' hb' e)
    omega
  have hnl := numbered_nodup hn
  have hdel := delAll_ok (h := P.h) hnl (js := sortDesc P.h (setObjs P.h (i :: allChildren P i))) (by
    intro j hj
    obtain ⟨p, hp⟩ := List.mem_iff_getElem?.mp (hfam j ((hset j).mp hj))
    exact ⟨p, hn p j hp, hp⟩) hstrict
  refine ⟨reassign { P with list := P.list.filter (fun x =>
    !(sortDesc P.h (setObjs P.h (i :: allChildren P i))).contains x) }, ?_, ?_, rfl⟩
  · rw [delete, hown, if_neg (by simp), if_pos rfl, hdel]; rfl
  · refine ⟨List.filter_sublist, ?_, ?_, numbered_reassign (hnl.filter _)⟩
    · intro x
      show x ∈ P.list.filter _ ↔ _
      rw [List.mem_filter, ← hset]
      simp
    · exact fun x => renumber_same _ 0 P.h x

end Edit

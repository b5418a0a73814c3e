import Verif.Edit.ListOps

/-! # C265: how lists of lines and texts are compared -/

namespace Edit

open Py Conf Query

/-- `s` comes before `t`: `t` is longer and starts with `s`, or the first characters that differ decide. -/
def Spec.TextBefore (a b : Str) : Prop :=
  ∃ p, (∃ c r, a = p ∧ b = p ++ c :: r) ∨ ∃ x y r r', a = p ++ x :: r ∧ b = p ++ y :: r' ∧ x.toNat < y.toNat

/-- `k` comes before `l`: `l` is longer and starts with elements equal to those of `k`, or the first elements that are not equal decide. -/
def Spec.ListBefore {α : Type} (same before : α → α → Prop) (k l : List α) : Prop :=
  (k.length < l.length ∧ ∀ (i : Nat) x y, k[i]? = some x → l[i]? = some y → same x y) ∨
  ∃ (n : Nat) (x y : α), k[n]? = some x ∧ l[n]? = some y ∧ ¬ same x y ∧ before x y ∧
    ∀ i < n, ∀ x y, k[i]? = some x → l[i]? = some y → same x y

theorem strLt_before (a b : Str) : strLt a b = true ↔ Spec.TextBefore a b := by
  induction a generalizing b with
  | nil =>
    cases b with
    | nil =>
      constructor
      · intro h; cases h
      · rintro ⟨p, ⟨c, r, h1, h2⟩ | ⟨x, y, r, s, h1, h2, _⟩⟩
        · subst h1; simp at h2
        · simp at h1
    | cons c r => exact ⟨fun _ => ⟨[], Or.inl ⟨c, r, rfl, rfl⟩⟩, fun _ => rfl⟩
  | cons x a ih =>
    cases b with
    | nil =>
      constructor
      · intro h; cases h
      · rintro ⟨p, ⟨c, r, h1, h2⟩ | ⟨x, y, r, s, h1, h2, _⟩⟩
        · simp at h2
        · simp at h2
    | cons y b =>
      rw [strLt, Bool.or_eq_true, decide_eq_true_eq, Bool.and_eq_true, beq_iff_eq, ih b]
      constructor
      · rintro (h | ⟨rfl, p, h⟩)
        · exact ⟨[], Or.inr ⟨x, y, a, b, rfl, rfl, h⟩⟩
        · refine ⟨x :: p, ?_⟩
          rcases h with ⟨c, r, rfl, rfl⟩ | ⟨u, v, r, s, rfl, rfl, h⟩
          · exact Or.inl ⟨c, r, rfl, rfl⟩
          · exact Or.inr ⟨u, v, r, s, rfl, rfl, h⟩
      · rintro ⟨p, ⟨c, r, h1, h2⟩ | ⟨u, v, r, s, h1, h2, h3⟩⟩
        · subst h1
          simp only [List.cons_append, List.cons.injEq] at h2
          exact Or.inr ⟨h2.1.symm, a, Or.inl ⟨c, r, rfl, h2.2⟩⟩
        · cases p with
          | nil =>
            simp only [List.nil_append, List.cons.injEq] at h1 h2
            exact Or.inl (by rw [h1.1, h2.1]; exact h3)
          | cons z p =>
            simp only [List.cons_append, List.cons.injEq] at h1 h2
            exact Or.inr ⟨h1.1.trans h2.1.symm, p, Or.inr ⟨u, v, r, s, h1.2, h2.2, h3⟩⟩

theorem before_cons {α : Type} {same before : α → α → Prop} {x y : α} {k l : List α} :
    Spec.ListBefore same before (x :: k) (y :: l) ↔ (same x y ∧ Spec.ListBefore same before k l) ∨ (¬ same x y ∧ before x y) := by
  constructor
  · rintro (⟨h1, h2⟩ | ⟨n, u, v, h1, h2, h3, h4, h5⟩)
    · exact Or.inl ⟨h2 0 x y rfl rfl, Or.inl ⟨by simpa using h1, fun i a b ha hb => h2 (i + 1) a b (by simpa using ha) (by simpa using hb)⟩⟩
    · cases n with
      | zero => simp at h1 h2; subst h1; subst h2; exact Or.inr ⟨h3, h4⟩
      | succ n =>
        refine Or.inl ⟨h5 0 (by omega) x y rfl rfl, Or.inr ⟨n, u, v, by simpa using h1, by simpa using h2, h3, h4, fun i hi a b ha hb => ?_⟩⟩
        exact h5 (i + 1) (by omega) a b (by simpa using ha) (by simpa using hb)
  · rintro (⟨h0, ⟨h1, h2⟩ | ⟨n, u, v, h1, h2, h3, h4, h5⟩⟩ | ⟨h1, h2⟩)
    · refine Or.inl ⟨by simpa using h1, fun i a b ha hb => ?_⟩
      cases i with
      | zero => simp at ha hb; subst ha; subst hb; exact h0
      | succ i => exact h2 i a b (by simpa using ha) (by simpa using hb)
    · refine Or.inr ⟨n + 1, u, v, by simpa using h1, by simpa using h2, h3, h4, fun i hi a b ha hb => ?_⟩
      cases i with
      | zero => simp at ha hb; subst ha; subst hb; exact h0
      | succ i => exact h5 i (by omega) a b (by simpa using ha) (by simpa using hb)
    · exact Or.inr ⟨0, x, y, rfl, rfl, h1, h2, fun i hi => absurd hi (Nat.not_lt_zero _)⟩

theorem cmp_before {α : Type} {v : α → Val} {same before : α → α → Prop} (hs : ∀ a b, eqVal (v a) (v b) = true ↔ same a b)
    (hl : ∀ a b, ∃ r, ltVal (v a) (v b) = .ok r ∧ (r = true ↔ before a b)) : ∀ k l : List α,
    ∃ r, cmpLists ltVal (fun m n => decide (m < n)) (k.map v) (l.map v) = .ok r ∧ (r = true ↔ Spec.ListBefore same before k l)
  | [], l => by
    refine ⟨_, by rw [List.map_nil, cmpLists], ?_⟩
    rw [decide_eq_true_eq, List.length_map]
    constructor
    · exact fun h => Or.inl ⟨h, fun i a b h => by simp at h⟩
    · rintro (⟨h, _⟩ | ⟨n, a, b, h, _⟩)
      · exact h
      · simp at h
  | x :: k, [] => by
    refine ⟨false, rfl, iff_of_false (by simp) ?_⟩
    rintro (⟨h, _⟩ | ⟨n, a, b, _, h, _⟩) <;> simp at h
  | x :: k, y :: l => by
    rw [List.map_cons, List.map_cons, cmpLists, before_cons]
    by_cases h : eqVal (v x) (v y) = true
    · obtain ⟨r, h1, h2⟩ := cmp_before hs hl k l
      rw [if_pos h]
      exact ⟨r, h1, h2.trans ⟨fun hb => Or.inl ⟨(hs _ _).mp h, hb⟩, fun hb => hb.elim And.right (fun hn => absurd ((hs _ _).mp h) hn.1)⟩⟩
    · obtain ⟨r, h1, h2⟩ := hl x y
      rw [if_neg h]
      exact ⟨r, h1, h2.trans ⟨fun hb => Or.inr ⟨fun hn => h ((hs _ _).mpr hn), hb⟩, fun hb => hb.elim (fun hn => absurd ((hs _ _).mpr hn.1) h) And.right⟩⟩

theorem eqVal_comm : ∀ a b : Val, eqVal a b = eqVal b a
  | .obj a, .obj b => by rw [eqVal, eqVal, objEq, objEq, Bool.beq_comm]
  | .str a, .str b => by rw [eqVal, eqVal, Bool.beq_comm]
  | .obj _, .str _ => rfl
  | .str _, .obj _ => rfl

theorem gt_swap : ∀ a b : Val, gtVal a b = ltVal b a
  | .obj _, .obj _ => rfl
  | .str _, .str _ => rfl
  | .obj _, .str _ => rfl
  | .str _, .obj _ => rfl

theorem cmp_swap : ∀ k l : List Val, cmpLists gtVal (fun m n => decide (m > n)) k l = cmpLists ltVal (fun m n => decide (m < n)) l k
  | [], [] => rfl
  | [], _ :: _ => rfl
  | _ :: _, [] => rfl
  | x :: k, y :: l => by rw [cmpLists, cmpLists, eqVal_comm, gt_swap, cmp_swap k l]

theorem cmp_not {r : Bool} : ∀ k l : List Str,
    cmpLists ltVal (fun m n => decide (m < n)) (k.map .str) (l.map .str) = .ok r →
    cmpLists geVal (fun m n => decide (m ≥ n)) (k.map .str) (l.map .str) = .ok (!r)
  | [], l, h => by
    rw [List.map_nil, cmpLists] at h ⊢
    injection h with h
    subst h
    congr 1
    cases l <;> simp
  | x :: k, [], h => by
    have h' : (.ok false : Except Err Bool) = .ok r := h
    injection h' with h'
    subst h'; rfl
  | x :: k, y :: l, h => by
    rw [List.map_cons, List.map_cons, cmpLists] at h ⊢
    by_cases he : eqVal (.str x) (.str y) = true
    · rw [if_pos he] at h ⊢; exact cmp_not k l h
    · rw [if_neg he] at h ⊢
      rw [ltVal] at h
      injection h with h
      rw [geVal, h]

/-- C265: lists of texts are ordered as Python orders lists of strings, by `<`, `>` and `>=`. -/
theorem C265_texts_partial {c d : CList} {ts us : List Str} (hc : c.items = ts.map .str) (hd : d.items = us.map .str) :
    (∃ r, c.lt d = .ok r ∧ (r = true ↔ Spec.ListBefore (· = ·) Spec.TextBefore ts us)) ∧
    (∃ r, c.gt d = .ok r ∧ (r = true ↔ Spec.ListBefore (· = ·) Spec.TextBefore us ts)) ∧
    ∃ r, c.ge d = .ok r ∧ (r = true ↔ ¬ Spec.ListBefore (· = ·) Spec.TextBefore ts us) := by
  have h1 : c.vals = ts.map .str := by rw [CList.vals, hc, List.map_map]; rfl
  have h2 : d.vals = us.map .str := by rw [CList.vals, hd, List.map_map]; rfl
  have key := cmp_before (v := Val.str) (same := (· = ·)) (before := Spec.TextBefore)
    (fun a b => by rw [eqVal, beq_iff_eq]) (fun a b => ⟨_, rfl, strLt_before a b⟩)
  rw [CList.lt, CList.gt, CList.ge, h1, h2, cmp_swap]
  refine ⟨key ts us, key us ts, ?_⟩
  obtain ⟨r, h3, h4⟩ := key ts us
  exact ⟨_, cmp_not ts us h3, by rw [← h4]; cases r <;> simp⟩

/-- C265: lists of lines are ordered by the numbers of the first lines that are not equal, by `<` and `>`. -/
theorem C265_lines_partial {c d : CList} {is js : List Nat} (hc : c.items = is.map .obj) (hd : d.items = js.map .obj) :
    (∃ r, c.lt d = .ok r ∧ (r = true ↔ Spec.ListBefore (fun a b => objEq a b = true) (fun a b => a.linenum < b.linenum)
      (is.map c.h) (js.map d.h))) ∧
    ∃ r, c.gt d = .ok r ∧ (r = true ↔ Spec.ListBefore (fun a b => objEq a b = true) (fun a b => a.linenum < b.linenum)
      (js.map d.h) (is.map c.h)) := by
  have h1 : c.vals = (is.map c.h).map .obj := by rw [CList.vals, hc, List.map_map, List.map_map]; rfl
  have h2 : d.vals = (js.map d.h).map .obj := by rw [CList.vals, hd, List.map_map, List.map_map]; rfl
  have key := cmp_before (v := Val.obj) (same := fun a b => objEq a b = true) (before := fun a b => a.linenum < b.linenum)
    (fun a b => Iff.rfl) (fun a b => ⟨_, rfl, by rw [decide_eq_true_eq]⟩)
  rw [CList.lt, CList.gt, h1, h2, cmp_swap]
  exact ⟨key _ _, key _ _⟩

/-- C265 does not hold for `<=`: no list of texts is `<=` itself. -/
theorem C265_le_fails {c : CList} {ts : List Str} (hc : c.items = ts.map .str) : c.le c = .ok false := by
  obtain ⟨⟨r, h1, h2⟩, _⟩ := C265_texts_partial hc hc
  have h3 : r = false := by
    cases r with
    | false => rfl
    | true =>
      rcases h2.mp rfl with ⟨h, _⟩ | ⟨n, x, y, hx, hy, hne, _⟩
      · omega
      · rw [hx] at hy; exact absurd (Option.some.inj hy) hne
  rw [← h3, ← h1]; rfl

/-- C265 does not hold for a line and a text, which cannot be compared. -/
theorem C265_mixed_fails {c d : CList} {i : Nat} {t : Str} {k l : List Elem} (hc : c.items = .obj i :: k) (hd : d.items = .str t :: l) :
    c.lt d = .error .attributeError ∧ c.gt d = .error .attributeError ∧ d.lt c = .error .attributeError ∧
    d.gt c = .error .attributeError := by
  have h1 : c.vals = .obj (c.h i) :: k.map c.val := by rw [CList.vals, hc]; rfl
  have h2 : d.vals = .str t :: l.map d.val := by rw [CList.vals, hd]; rfl
  rw [CList.lt, CList.gt, CList.lt, CList.gt, h1, h2]
  exact ⟨rfl, rfl, rfl, rfl⟩

/-- A line that was removed: the second line of the shorter list has number 2. -/
example : ∃ P c, parse {} [s "a", s "b", s "c"] = .ok P ∧ (listOf P).pop 1 = .ok (.obj 1, c) ∧ (listOf P).lt c = .ok true ∧
    c.lt (listOf P) = .ok false ∧ c.gt (listOf P) = .ok true ∧
    (c.clear.extend [.str (s "a"), .str (s "b")]).lt (c.clear.extend [.str (s "ab")]) = .ok true ∧
    (c.clear.extend [.str (s "ab")]).ge (c.clear.extend [.str (s "a"), .str (s "b")]) = .ok true :=
  ⟨_, _, rfl, rfl, by decide +kernel, by decide +kernel, by decide +kernel, by decide +kernel, by decide +kernel⟩

end Edit

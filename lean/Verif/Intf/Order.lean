import Verif.Intf.Names

/-! # Comparing interfaces -/

namespace Intf.Spec

open Py

/-- A word comes before another in code point order: it is a proper prefix, or smaller at
the first difference. -/
def WordBefore (a b : Str) : Prop :=
  ∃ p, (∃ c r, a = p ∧ b = p ++ c :: r) ∨
       ∃ x y r s, a = p ++ x :: r ∧ b = p ++ y :: s ∧ x.toNat < y.toNat

/-- Both parts are there and the first is smaller. -/
def PartBefore (a b : Option Nat) : Prop := ∃ m n, a = some m ∧ b = some n ∧ m < n

/-- Order by slot, then card, port, subinterface, channel and class. -/
def Before (a b : Intf) : Prop :=
  PartBefore a.slot b.slot ∨ a.slot = b.slot ∧
  (PartBefore a.card b.card ∨ a.card = b.card ∧
  (a.port < b.port ∨ a.port = b.port ∧
  (PartBefore a.sub b.sub ∨ a.sub = b.sub ∧
  (PartBefore a.chan b.chan ∨ a.chan = b.chan ∧
  ∃ v w, a.cls = some v ∧ b.cls = some w ∧ WordBefore v w))))

end Intf.Spec

namespace Intf

open Py

theorem strLt_iff (a b : Str) : strLt a b = true ↔ Spec.WordBefore a b := by
  induction a generalizing b with
  | nil =>
    cases b with
    | nil =>
      constructor
      · intro h; cases h
      · rintro ⟨p, ⟨c, r, h1, h2⟩ | ⟨x, y, r, s, h1, h2, _⟩⟩
        · subst h1; simp at h2
        · simp at h1
    | cons c r => exact ⟨fun _ => ⟨[], Or.inl ⟨c, r, rfl, rfl⟩⟩, fun _ => rfl⟩
  | cons x a ih =>
    cases b with
    | nil =>
      constructor
      · intro h; cases h
      · rintro ⟨p, ⟨c, r, h1, h2⟩ | ⟨x, y, r, s, h1, h2, _⟩⟩
        · simp at h2
        · simp at h2
    | cons y b =>
      rw [strLt, Bool.or_eq_true, decide_eq_true_eq, Bool.and_eq_true, beq_iff_eq, ih b]
      constructor
      · rintro (h | ⟨rfl, p, h⟩)
        · exact ⟨[], Or.inr ⟨x, y, a, b, rfl, rfl, h⟩⟩
        · refine ⟨x :: p, ?_⟩
          rcases h with ⟨c, r, rfl, rfl⟩ | ⟨u, v, r, s, rfl, rfl, h⟩
          · exact Or.inl ⟨c, r, rfl, rfl⟩
          · exact Or.inr ⟨u, v, r, s, rfl, rfl, h⟩
      · rintro ⟨p, h⟩
        cases p with
        | nil =>
          rcases h with ⟨c, r, h1, _⟩ | ⟨u, v, r, s, h1, h2, h⟩
          · cases h1
          · simp at h1 h2
            rw [h1.1, h2.1]; exact Or.inl h
        | cons q p =>
          right
          rcases h with ⟨c, r, h1, h2⟩ | ⟨u, v, r, s, h1, h2, h⟩
          · simp at h1 h2
            exact ⟨by rw [h1.1, h2.1], p, Or.inl ⟨c, r, h1.2, h2.2⟩⟩
          · simp at h1 h2
            exact ⟨by rw [h1.1, h2.1], p, Or.inr ⟨u, v, r, s, h1.2, h2.2, h⟩⟩

theorem char_toNat_inj {a b : Char} (h : a.toNat = b.toNat) : a = b := Char.toNat_inj.mp h

theorem strLt_irrefl (a : Str) : strLt a a = false := by
  induction a with
  | nil => rfl
  | cons x a ih => rw [strLt, ih]; simp

theorem strLt_trans : ∀ {a b c : Str}, strLt a b = true → strLt b c = true → strLt a c = true
  | [], [], _, h, _ => by cases h
  | [], _ :: _, [], _, h => by cases h
  | [], _ :: _, _ :: _, _, _ => rfl
  | _ :: _, [], _, h, _ => by cases h
  | _ :: _, _ :: _, [], _, h => by cases h
  | x :: a, y :: b, z :: c, h1, h2 => by
    rw [strLt, Bool.or_eq_true, decide_eq_true_eq, Bool.and_eq_true, beq_iff_eq] at *
    rcases h1 with h1 | ⟨rfl, h1⟩
    · rcases h2 with h2 | ⟨rfl, h2⟩
      · exact Or.inl (by omega)
      · exact Or.inl h1
    · rcases h2 with h2 | ⟨rfl, h2⟩
      · exact Or.inl h2
      · exact Or.inr ⟨rfl, strLt_trans h1 h2⟩

theorem strLt_total : ∀ {a b : Str}, a ≠ b → strLt a b = true ∨ strLt b a = true
  | [], [], h => absurd rfl h
  | [], _ :: _, _ => Or.inl rfl
  | _ :: _, [], _ => Or.inr rfl
  | x :: a, y :: b, h => by
    rw [strLt, strLt]
    by_cases hx : x = y
    · subst hx
      have : a ≠ b := fun e => h (by rw [e])
      rcases strLt_total this with h | h
      · left; simp [h]
      · right; simp [h]
    · have : x.toNat ≠ y.toNat := fun e => hx (char_toNat_inj e)
      rcases Nat.lt_or_gt_of_ne this with h | h
      · left; simp [h]
      · right; simp [h]

theorem keyLt_irrefl (a : Option Key) : keyLt a a ≠ .ok true := by
  match a with
  | none => simp [keyLt]
  | some (.num n) => simp [keyLt]
  | some (.word w) => simp [keyLt, strLt_irrefl]

theorem keyLt_trans {a b c : Option Key} (h1 : keyLt a b = .ok true) (h2 : keyLt b c = .ok true) :
    keyLt a c = .ok true := by
  match a, b, c with
  | some (.num _), some (.num _), some (.num _) => simp [keyLt] at *; omega
  | some (.word _), some (.word _), some (.word _) =>
    simp only [keyLt, Except.ok.injEq] at *
    exact strLt_trans h1 h2
  | none, _, _ => simp [keyLt] at h1
  | some (.num _), none, _ => simp [keyLt] at h1
  | some (.num _), some (.word _), _ => simp [keyLt] at h1
  | some (.word _), none, _ => simp [keyLt] at h1
  | some (.word _), some (.num _), _ => simp [keyLt] at h1
  | _, some (.num _), none => simp [keyLt] at h2
  | _, some (.num _), some (.word _) => simp [keyLt] at h2
  | _, some (.word _), none => simp [keyLt] at h2
  | _, some (.word _), some (.num _) => simp [keyLt] at h2

/-- Two keys of one kind. -/
def SameKind : Option Key → Option Key → Prop
  | none, none => True
  | some (.num _), some (.num _) => True
  | some (.word _), some (.word _) => True
  | _, _ => False

/-- Two lists with keys of the same kinds. -/
inductive Alike : List (Option Key) → List (Option Key) → Prop where
  | nil : Alike [] []
  | cons {a b : Option Key} {l m : List (Option Key)} : SameKind a b → Alike l m → Alike (a :: l) (b :: m)

theorem keyLt_total {a b : Option Key} (hk : SameKind a b) (hne : a ≠ b) :
    (keyLt a b = .ok true ∧ keyLt b a = .ok false) ∨ (keyLt b a = .ok true ∧ keyLt a b = .ok false) := by
  match a, b with
  | none, none => exact absurd rfl hne
  | some (.num m), some (.num n) =>
    have : m ≠ n := fun e => hne (by rw [e])
    simp only [keyLt, Except.ok.injEq, decide_eq_true_eq, decide_eq_false_iff_not]
    omega
  | some (.word v), some (.word w) =>
    have : v ≠ w := fun e => hne (by rw [e])
    simp only [keyLt, Except.ok.injEq]
    rcases strLt_total this with h | h
    · refine Or.inl ⟨h, ?_⟩
      cases hb : strLt w v with
      | false => rfl
      | true => have := strLt_trans h hb; rw [strLt_irrefl] at this; cases this
    · refine Or.inr ⟨h, ?_⟩
      cases hb : strLt v w with
      | false => rfl
      | true => have := strLt_trans h hb; rw [strLt_irrefl] at this; cases this

/-- When keys compare, different keys are ordered one way. -/
theorem keyLt_ok {a b : Option Key} (hne : a ≠ b) {x : Bool} (h : keyLt a b = .ok x) : keyLt b a = .ok (!x) := by
  have hk : SameKind a b := by
    match a, b with
    | some (.num _), some (.num _) => trivial
    | some (.word _), some (.word _) => trivial
    | none, _ => simp [keyLt] at h
    | some (.num _), none => simp [keyLt] at h
    | some (.num _), some (.word _) => simp [keyLt] at h
    | some (.word _), none => simp [keyLt] at h
    | some (.word _), some (.num _) => simp [keyLt] at h
  rcases keyLt_total hk hne with ⟨h1, h2⟩ | ⟨h1, h2⟩
  · rw [h1] at h; cases h; exact h2
  · rw [h2] at h; cases h; exact h1

theorem listLt_irrefl (l : List (Option Key)) : listLt l l = .ok false := by
  induction l with
  | nil => rfl
  | cons a l ih => rw [listLt, if_pos rfl, ih]

theorem listLt_trans : ∀ {a b c : List (Option Key)}, listLt a b = .ok true → listLt b c = .ok true →
    listLt a c = .ok true
  | [], [], _, h, _ => by cases h
  | [], _ :: _, [], _, h => by cases h
  | [], _ :: _, _ :: _, _, _ => rfl
  | _ :: _, [], _, h, _ => by cases h
  | _ :: _, _ :: _, [], _, h => by cases h
  | x :: a, y :: b, z :: c, h1, h2 => by
    rw [listLt] at *
    by_cases hxy : x = y
    · subst hxy
      rw [if_pos rfl] at h1
      by_cases hz : x = z
      · rw [if_pos hz] at *; exact listLt_trans h1 h2
      · rw [if_neg hz] at *; exact h2
    · rw [if_neg hxy] at h1
      by_cases hz : y = z
      · subst hz
        rw [if_neg hxy]; exact h1
      · rw [if_neg hz] at h2
        have h3 := keyLt_trans h1 h2
        rw [if_neg (fun e => keyLt_irrefl z (by rw [e] at h3; exact h3))]
        exact h3

theorem listGt_eq : ∀ a b : List (Option Key), listGt a b = listLt b a
  | [], [] => rfl
  | [], _ :: _ => rfl
  | _ :: _, [] => rfl
  | x :: a, y :: b => by
    rw [listGt, listLt]
    by_cases h : x = y
    · rw [if_pos h, if_pos h.symm]; exact listGt_eq a b
    · rw [if_neg h, if_neg (fun e => h e.symm)]

/-- When lists compare, different lists are ordered one way. -/
theorem listLt_ok : ∀ {a b : List (Option Key)}, a ≠ b → ∀ {x : Bool}, listLt a b = .ok x →
    listLt b a = .ok (!x)
  | [], [], h, _, _ => absurd rfl h
  | [], _ :: _, _, _, h => by cases h; rfl
  | _ :: _, [], _, _, h => by cases h; rfl
  | x :: a, y :: b, hne, v, h => by
    rw [listLt] at *
    by_cases hxy : x = y
    · subst hxy
      rw [if_pos rfl] at *
      exact listLt_ok (fun e => hne (by rw [e])) h
    · rw [if_neg hxy] at h
      rw [if_neg (fun e => hxy e.symm)]
      exact keyLt_ok hxy h

theorem listLt_total : ∀ {a b : List (Option Key)}, Alike a b → ∃ x, listLt a b = .ok x
  | _, _, .nil => ⟨false, rfl⟩
  | _, _, .cons (a := x) (b := y) hk hr => by
    rw [listLt]
    by_cases hxy : x = y
    · rw [if_pos hxy]; exact listLt_total hr
    · rw [if_neg hxy]
      rcases keyLt_total hk hxy with ⟨h, _⟩ | ⟨_, h⟩
      · exact ⟨_, h⟩
      · exact ⟨_, h⟩

theorem sortList_inj {a b : Intf} : sortList a = sortList b ↔ Spec.parts a = Spec.parts b := by
  have hn : ∀ {x y : Option Nat}, x.map Key.num = y.map Key.num ↔ x = y := by
    intro x y
    cases x <;> cases y <;> simp
  have hw : ∀ {x y : Option Str}, x.map Key.word = y.map Key.word ↔ x = y := by
    intro x y
    cases x <;> cases y <;> simp
  simp only [sortList, Spec.parts, List.cons.injEq, Prod.mk.injEq, hn, hw, Option.some.injEq, Key.num.injEq,
    and_true]

theorem sameKind_of {a b : Intf} (h : Spec.SameShape a b) : Alike (sortList a) (sortList b) := by
  obtain ⟨h1, h2, h3, h4, h5⟩ := h
  have hn : ∀ {x y : Option Nat}, x.isSome = y.isSome → SameKind (x.map Key.num) (y.map Key.num) := by
    intro x y h
    cases x <;> cases y <;> first | trivial | (cases h)
  have hw : ∀ {x y : Option Str}, x.isSome = y.isSome → SameKind (x.map Key.word) (y.map Key.word) := by
    intro x y h
    cases x <;> cases y <;> first | trivial | (cases h)
  exact .cons (hn h1) (.cons (hn h2) (.cons trivial (.cons (hn h3) (.cons (hn h4) (.cons (hw h5) .nil)))))

theorem listLt_cons {x y : Option Key} {a b : List (Option Key)} :
    listLt (x :: a) (y :: b) = .ok true ↔ keyLt x y = .ok true ∨ x = y ∧ listLt a b = .ok true := by
  rw [listLt]
  by_cases h : x = y
  · rw [if_pos h]
    constructor
    · exact fun hl => Or.inr ⟨h, hl⟩
    · rintro (hk | hl)
      · rw [h] at hk; exact absurd hk (keyLt_irrefl y)
      · exact hl.2
  · rw [if_neg h]
    constructor
    · exact Or.inl
    · rintro (hk | hl)
      · exact hk
      · exact absurd hl.1 h

theorem keyLt_num {x y : Option Nat} : keyLt (x.map Key.num) (y.map Key.num) = .ok true ↔ Spec.PartBefore x y := by
  cases x <;> cases y <;> simp [keyLt, Spec.PartBefore]

theorem keyLt_word {x y : Option Str} :
    keyLt (x.map Key.word) (y.map Key.word) = .ok true ↔ ∃ v w, x = some v ∧ y = some w ∧ Spec.WordBefore v w := by
  cases x <;> cases y <;> simp [keyLt, strLt_iff]

theorem map_num_inj {x y : Option Nat} : x.map Key.num = y.map Key.num ↔ x = y := by
  cases x <;> cases y <;> simp

theorem lt_before (a b : Intf) : lt a b = .ok true ↔ Spec.Before a b := by
  rw [lt, sortList, sortList, listLt_cons, listLt_cons, listLt_cons, listLt_cons, listLt_cons, listLt_cons,
    keyLt_num, keyLt_num, keyLt_num, keyLt_num, keyLt_word, map_num_inj, map_num_inj, map_num_inj, map_num_inj]
  simp [Spec.Before, keyLt, listLt]

end Intf

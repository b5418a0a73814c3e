import Verif.Re.Lazy

/-! # Which groups a match can set, and where a match lies -/

namespace Re

open Py

/-- The numbers of the groups of an expression. -/
def Rgx.ids : Rgx → List Nat
  | .seq a b => a.ids ++ b.ids
  | .alt a b => a.ids ++ b.ids
  | .star _ a => a.ids
  | .opt _ a => a.ids
  | .grp k a => k :: a.ids
  | _ => []

theorem runStar_ids {g : Bool} {f : Str → Caps → List (Str × Caps)} {k : Nat}
    (H : ∀ u c v d, (v, d) ∈ f u c → d.lookup k = c.lookup k) (m : Nat) :
    ∀ u c v d, (v, d) ∈ runStar g f m u c → d.lookup k = c.lookup k := by
  induction m with
  | zero =>
    intro u c v d h
    rw [runStar, List.mem_singleton, Prod.mk.injEq] at h
    rw [h.2]
  | succ m ih =>
    intro u c v d h
    have h' : (v, d) = (u, c) ∨ (v, d) ∈ (f u c).flatMap (fun p => if p.1.length < u.length then runStar g f m p.1 p.2 else []) := by
      rw [runStar] at h
      cases g with
      | true =>
        simp only [if_true, List.mem_append, List.mem_singleton] at h
        exact h.symm
      | false =>
        simp only [Bool.false_eq_true, if_false, List.mem_cons] at h
        exact h
    rcases h' with h' | h'
    · rw [Prod.mk.injEq] at h'; rw [h'.2]
    · obtain ⟨⟨w, e⟩, hw, hv⟩ := List.mem_flatMap.mp h'
      by_cases hl : w.length < u.length
      · rw [if_pos hl] at hv
        rw [ih w e v d hv, H u c w e hw]
      · rw [if_neg hl] at hv; cases hv

/-- A match leaves the groups alone that are not in the expression. -/
theorem run_ids (n k : Nat) (r : Rgx) : k ∉ r.ids → ∀ u c v d, (v, d) ∈ run n r u c → d.lookup k = c.lookup k := by
  induction r with
  | eps =>
    intro _ u c v d h
    rw [run, List.mem_singleton, Prod.mk.injEq] at h; rw [h.2]
  | cls q =>
    intro _ u c v d h
    rw [run.eq_def] at h
    cases u with
    | nil => cases h
    | cons a u =>
      simp only at h
      split at h
      · rw [List.mem_singleton, Prod.mk.injEq] at h; rw [h.2]
      · cases h
  | seq a b iha ihb =>
    intro hk u c v d h
    rw [Rgx.ids, List.mem_append, not_or] at hk
    rw [run] at h
    obtain ⟨⟨w, e⟩, hw, hv⟩ := List.mem_flatMap.mp h
    rw [ihb hk.2 w e v d hv, iha hk.1 u c w e hw]
  | alt a b iha ihb =>
    intro hk u c v d h
    rw [Rgx.ids, List.mem_append, not_or] at hk
    rw [run] at h
    rcases List.mem_append.mp h with h | h
    · exact iha hk.1 u c v d h
    · exact ihb hk.2 u c v d h
  | star g a ih =>
    intro hk u c v d h
    rw [run] at h
    exact runStar_ids (ih hk) u.length u c v d h
  | opt g a ih =>
    intro hk u c v d h
    rw [run] at h
    have h' : (v, d) ∈ run n a u c ∨ (v, d) = (u, c) := by
      cases g with
      | true => simpa using h
      | false => simpa [or_comm] using h
    rcases h' with h' | h'
    · exact ih hk u c v d h'
    · rw [Prod.mk.injEq] at h'; rw [h'.2]
  | grp j a ih =>
    intro hk u c v d h
    rw [Rgx.ids, List.mem_cons, not_or] at hk
    rw [run] at h
    obtain ⟨⟨w, e⟩, hw, he⟩ := List.mem_map.mp h
    rw [Prod.mk.injEq] at he
    rw [← he.2, List.lookup_cons, beq_false_of_ne hk.1]
    exact ih hk.2 u c w e hw
  | bol =>
    intro _ u c v d h
    rw [run] at h
    split at h
    · rw [List.mem_singleton, Prod.mk.injEq] at h; rw [h.2]
    · cases h
  | eol =>
    intro _ u c v d h
    rw [run] at h
    split at h
    · rw [List.mem_singleton, Prod.mk.injEq] at h; rw [h.2]
    · cases h
  | nla a _ =>
    intro _ u c v d h
    rw [run] at h
    split at h
    · rw [List.mem_singleton, Prod.mk.injEq] at h; rw [h.2]
    · cases h

/-- A search ends at a place of the text with a match. -/
theorem search_found {r : Rgx} {g : Nat} {names : List (Str × Nat)} {t : Str} {m : Found} (h : search ⟨r, g, names⟩ t = some m) :
    ∃ pre u v, t = pre ++ u ∧ (v, m.caps) ∈ run t.length r u [] := by
  have key : ∀ (n k : Nat) (u : Str), searchFrom n r k u = some m → ∃ pre u' v, u = pre ++ u' ∧ (v, m.caps) ∈ run n r u' [] := by
    intro n k u
    induction u generalizing k with
    | nil =>
      intro h
      rw [searchFrom] at h
      cases hr : run n r [] [] with
      | nil => rw [hr] at h; cases h
      | cons p l =>
        rw [hr] at h
        simp only [Option.some.injEq] at h
        subst h
        exact ⟨[], [], p.1, rfl, by rw [hr]; simp⟩
    | cons a u ih =>
      intro h
      rw [searchFrom] at h
      cases hr : run n r (a :: u) [] with
      | nil =>
        rw [hr] at h
        obtain ⟨pre, u', v, e, hv⟩ := ih _ h
        exact ⟨a :: pre, u', v, by rw [e]; rfl, hv⟩
      | cons p l =>
        rw [hr] at h
        simp only [Option.some.injEq] at h
        subst h
        exact ⟨[], a :: u, p.1, rfl, by rw [hr]; simp⟩
  exact key t.length 0 t h

/-- What is left is the end of what was there. -/
theorem lang_suffix (n : Nat) (r : Rgx) : ∀ u v, Lang n r u v → ∃ w, u = w ++ v := by
  induction r with
  | eps => intro u v h; exact ⟨[], h⟩
  | cls k => intro u v h; obtain ⟨a, rfl, _⟩ := h; exact ⟨[a], rfl⟩
  | seq a b iha ihb =>
    intro u v h
    obtain ⟨w, h1, h2⟩ := h
    obtain ⟨x, rfl⟩ := iha _ _ h1
    obtain ⟨y, rfl⟩ := ihb _ _ h2
    exact ⟨x ++ y, by simp⟩
  | alt a b iha ihb =>
    intro u v h
    rcases h with h | h
    · exact iha _ _ h
    · exact ihb _ _ h
  | star g a ih =>
    intro u v h
    rw [Lang] at h
    induction h with
    | nil u => exact ⟨[], rfl⟩
    | cons h1 _ _ ih' =>
      obtain ⟨x, rfl⟩ := ih _ _ h1
      obtain ⟨y, rfl⟩ := ih'
      exact ⟨x ++ y, by simp⟩
  | opt g a ih =>
    intro u v h
    rcases h with h | h
    · exact ⟨[], h⟩
    · exact ih _ _ h
  | grp k a ih => exact ih
  | bol => intro u v h; exact ⟨[], h.1⟩
  | eol => intro u v h; exact ⟨[], h.1⟩
  | nla a _ => intro u v h; exact ⟨[], h.1⟩

end Re

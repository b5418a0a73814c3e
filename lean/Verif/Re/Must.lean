import Verif.Re.Caps
import Verif.Re.Lang

/-! # Which groups a match must set, and to what

Three analyses of an expression, each proved right for all its matches: the expression in a group
(`bodies`), sets of groups of which every match sets one (`covers`), and sets of groups that no
match sets together (`excl`). -/

namespace Re

open Py

/-- The groups with what is in them. -/
def Rgx.bodies : Rgx → List (Nat × Rgx)
  | .seq a b => a.bodies ++ b.bodies
  | .alt a b => a.bodies ++ b.bodies
  | .star _ a => a.bodies
  | .opt _ a => a.bodies
  | .grp k a => (k, a) :: a.bodies
  | _ => []

/-- Every match sets a group of `S`. -/
def Rgx.covers (S : List Nat) : Rgx → Bool
  | .seq a b => a.covers S || b.covers S
  | .alt a b => a.covers S && b.covers S
  | .grp k a => S.contains k || a.covers S
  | _ => false

/-- The expression has a group of `J`. -/
def Rgx.hits (J : List Nat) (r : Rgx) : Bool := r.bodies.any (fun q => J.contains q.1)

/-- No match sets a group of `J` and a group of `K`. -/
def Rgx.excl (J K : List Nat) : Rgx → Bool
  | .seq a b => a.excl J K && b.excl J K && !(a.hits J && b.hits K) && !(a.hits K && b.hits J)
  | .alt a b => a.excl J K && b.excl J K
  | .star _ a => !(a.hits J && a.hits K)
  | .opt _ a => a.excl J K
  | .grp k a => a.excl J K && !(J.contains k && K.contains k) && !(J.contains k && a.hits K) && !(K.contains k && a.hits J)
  | _ => true

/-- The groups `e` set one of `S`. -/
def Sets (S : List Nat) (e : Caps) : Prop := ∃ k ∈ S, ∃ w, (k, w) ∈ e

theorem sets_append {S : List Nat} {e f : Caps} : Sets S (e ++ f) ↔ Sets S e ∨ Sets S f := by
  constructor
  · rintro ⟨k, hk, w, h⟩
    rcases List.mem_append.mp h with h | h
    · exact .inl ⟨k, hk, w, h⟩
    · exact .inr ⟨k, hk, w, h⟩
  · rintro (⟨k, hk, w, h⟩ | ⟨k, hk, w, h⟩)
    · exact ⟨k, hk, w, by simp [h]⟩
    · exact ⟨k, hk, w, by simp [h]⟩

theorem sets_nil {S : List Nat} : ¬ Sets S [] := by rintro ⟨_, _, _, h⟩; cases h

/-- A text that the expression `b` can read. -/
def Read (n : Nat) (b : Rgx) (w : Str) : Prop := ∃ v, Lang n b (w ++ v) v

/-- The groups `e` come from groups of `r`. -/
def From (n : Nat) (r : Rgx) (e : Caps) : Prop := ∀ q ∈ e, ∃ b, (q.1, b) ∈ r.bodies ∧ Read n b q.2

theorem from_hits {n : Nat} {r : Rgx} {e : Caps} {J : List Nat} (h : From n r e) (hs : Sets J e) : r.hits J = true := by
  obtain ⟨k, hk, w, hw⟩ := hs
  obtain ⟨b, hb, _⟩ := h _ hw
  exact List.any_eq_true.mpr ⟨_, hb, by simpa using hk⟩

/-- What is known of a match of `r` that adds the groups `e`. -/
def Obeys (n : Nat) (r : Rgx) (u v : Str) (e : Caps) : Prop :=
  (∃ w, u = w ++ v) ∧ From n r e ∧ (∀ S, r.covers S = true → Sets S e) ∧ (∀ J K, r.excl J K = true → ¬ (Sets J e ∧ Sets K e))

theorem obeys_nil {n : Nat} {r : Rgx} {u v : Str} (h : ∃ w, u = w ++ v) (hc : ∀ S, r.covers S = false) : Obeys n r u v [] :=
  ⟨h, (fun q hq => by cases hq), (fun S hS => by rw [hc] at hS; cases hS), fun _ _ _ h => sets_nil h.1⟩

theorem runStar_from {n : Nat} {g : Bool} {f : Str → Caps → List (Str × Caps)} {r : Rgx}
    (H : ∀ u c v d, (v, d) ∈ f u c → ∃ e, d = e ++ c ∧ (∃ w, u = w ++ v) ∧ From n r e) (m : Nat) :
    ∀ u c v d, (v, d) ∈ runStar g f m u c → ∃ e, d = e ++ c ∧ (∃ w, u = w ++ v) ∧ From n r e := by
  induction m with
  | zero =>
    intro u c v d h
    rw [runStar, List.mem_singleton, Prod.mk.injEq] at h
    exact ⟨[], by rw [h.2]; rfl, ⟨[], by rw [h.1]; rfl⟩, (fun q hq => by cases hq)⟩
  | succ m ih =>
    intro u c v d h
    have h' : (v, d) = (u, c) ∨ (v, d) ∈ (f u c).flatMap (fun p => if p.1.length < u.length then runStar g f m p.1 p.2 else []) := by
      rw [runStar] at h
      cases g with
      | true =>
        simp only [if_true, List.mem_append, List.mem_singleton] at h
        exact h.symm
      | false =>
        simp only [Bool.false_eq_true, if_false, List.mem_cons] at h
        exact h
    rcases h' with h' | h'
    · rw [Prod.mk.injEq] at h'
      exact ⟨[], by rw [h'.2]; rfl, ⟨[], by rw [h'.1]; rfl⟩, (fun q hq => by cases hq)⟩
    · obtain ⟨⟨w, e⟩, hw, hv⟩ := List.mem_flatMap.mp h'
      by_cases hl : w.length < u.length
      · rw [if_pos hl] at hv
        obtain ⟨e1, h1, ⟨x, hx⟩, h3⟩ := H u c w e hw
        obtain ⟨e2, h4, ⟨y, hy⟩, h6⟩ := ih w e v d hv
        refine ⟨e2 ++ e1, by rw [h4, h1, List.append_assoc], ⟨x ++ y, by rw [hx, hy, List.append_assoc]⟩, ?_⟩
        intro q hq
        rcases List.mem_append.mp hq with hq | hq
        · exact h6 q hq
        · exact h3 q hq
      · rw [if_neg hl] at hv; cases hv

/-- Every match is as the analyses say. -/
theorem run_obeys (n : Nat) (r : Rgx) : ∀ u c v d, (v, d) ∈ run n r u c → ∃ e, d = e ++ c ∧ Obeys n r u v e := by
  induction r with
  | eps =>
    intro u c v d h
    rw [run, List.mem_singleton, Prod.mk.injEq] at h
    exact ⟨[], by rw [h.2]; rfl, obeys_nil ⟨[], by rw [h.1]; rfl⟩ (fun _ => rfl)⟩
  | cls q =>
    intro u c v d h
    rw [run.eq_def] at h
    cases u with
    | nil => cases h
    | cons a u =>
      simp only at h
      split at h
      · rw [List.mem_singleton, Prod.mk.injEq] at h
        exact ⟨[], by rw [h.2]; rfl, obeys_nil ⟨[a], by rw [h.1]; rfl⟩ (fun _ => rfl)⟩
      · cases h
  | seq a b iha ihb =>
    intro u c v d h
    rw [run] at h
    obtain ⟨⟨w, e⟩, hw, hv⟩ := List.mem_flatMap.mp h
    obtain ⟨e1, h1, ⟨x, hx⟩, h2, h3, h4⟩ := iha u c w e hw
    obtain ⟨e2, k1, ⟨y, hy⟩, k2, k3, k4⟩ := ihb w e v d hv
    refine ⟨e2 ++ e1, by rw [k1, h1, List.append_assoc], ⟨x ++ y, by rw [hx, hy, List.append_assoc]⟩, ?_, ?_, ?_⟩
    · intro q hq
      rcases List.mem_append.mp hq with hq | hq
      · obtain ⟨b', m1, m2⟩ := k2 q hq
        exact ⟨b', by simp [Rgx.bodies, m1], m2⟩
      · obtain ⟨b', m1, m2⟩ := h2 q hq
        exact ⟨b', by simp [Rgx.bodies, m1], m2⟩
    · intro S hS
      rw [Rgx.covers, Bool.or_eq_true] at hS
      rw [sets_append]
      rcases hS with hS | hS
      · exact .inr (h3 S hS)
      · exact .inl (k3 S hS)
    · intro J K hJ ⟨s1, s2⟩
      simp only [Rgx.excl, Bool.and_eq_true, Bool.not_eq_true', Bool.and_eq_false_iff] at hJ
      obtain ⟨⟨⟨j1, j2⟩, j3⟩, j4⟩ := hJ
      rcases sets_append.mp s1 with s1 | s1 <;> rcases sets_append.mp s2 with s2 | s2
      · exact k4 J K j2 ⟨s1, s2⟩
      · have m1 := from_hits k2 s1
        have m2 := from_hits h2 s2
        rcases j4 with j4 | j4
        · rw [m2] at j4; cases j4
        · rw [m1] at j4; cases j4
      · have m1 := from_hits h2 s1
        have m2 := from_hits k2 s2
        rcases j3 with j3 | j3
        · rw [m1] at j3; cases j3
        · rw [m2] at j3; cases j3
      · exact h4 J K j1 ⟨s1, s2⟩
  | alt a b iha ihb =>
    intro u c v d h
    rw [run] at h
    rcases List.mem_append.mp h with h | h
    · obtain ⟨e, h1, h0, h2, h3, h4⟩ := iha u c v d h
      refine ⟨e, h1, h0, ?_, ?_, ?_⟩
      · intro q hq
        obtain ⟨b', m1, m2⟩ := h2 q hq
        exact ⟨b', by simp [Rgx.bodies, m1], m2⟩
      · intro S hS
        rw [Rgx.covers, Bool.and_eq_true] at hS
        exact h3 S hS.1
      · intro J K hJ
        rw [Rgx.excl, Bool.and_eq_true] at hJ
        exact h4 J K hJ.1
    · obtain ⟨e, h1, h0, h2, h3, h4⟩ := ihb u c v d h
      refine ⟨e, h1, h0, ?_, ?_, ?_⟩
      · intro q hq
        obtain ⟨b', m1, m2⟩ := h2 q hq
        exact ⟨b', by simp [Rgx.bodies, m1], m2⟩
      · intro S hS
        rw [Rgx.covers, Bool.and_eq_true] at hS
        exact h3 S hS.2
      · intro J K hJ
        rw [Rgx.excl, Bool.and_eq_true] at hJ
        exact h4 J K hJ.2
  | star g a ih =>
    intro u c v d h
    rw [run] at h
    obtain ⟨e, h1, h0, h2⟩ := runStar_from (r := a) (n := n) (fun u c v d h => by
      obtain ⟨e, h1, h0, h2, _⟩ := ih u c v d h
      exact ⟨e, h1, h0, h2⟩) u.length u c v d h
    refine ⟨e, h1, h0, h2, (fun S hS => by cases hS), ?_⟩
    intro J K hJ ⟨s1, s2⟩
    simp only [Rgx.excl, Bool.not_eq_true', Bool.and_eq_false_iff] at hJ
    have m1 := from_hits h2 s1
    have m2 := from_hits h2 s2
    rcases hJ with hJ | hJ
    · rw [m1] at hJ; cases hJ
    · rw [m2] at hJ; cases hJ
  | opt g a ih =>
    intro u c v d h
    rw [run] at h
    have h' : (v, d) ∈ run n a u c ∨ (v, d) = (u, c) := by
      cases g with
      | true => simpa using h
      | false => simpa [or_comm] using h
    rcases h' with h' | h'
    · obtain ⟨e, h1, h0, h2, h3, h4⟩ := ih u c v d h'
      exact ⟨e, h1, h0, h2, (fun S hS => by cases hS), h4⟩
    · rw [Prod.mk.injEq] at h'
      exact ⟨[], by rw [h'.2]; rfl, obeys_nil ⟨[], by rw [h'.1]; rfl⟩ (fun _ => rfl)⟩
  | grp j a ih =>
    intro u c v d h
    rw [run] at h
    obtain ⟨⟨w, e⟩, hw, he⟩ := List.mem_map.mp h
    rw [Prod.mk.injEq] at he
    obtain ⟨e1, h1, ⟨x, hx⟩, h2, h3, h4⟩ := ih u c w e hw
    obtain ⟨rfl, hd⟩ := he
    have ht : u.take (u.length - w.length) = x := by rw [hx]; simp
    have hl : Read n a x := ⟨w, by rw [← hx]; exact (lang_run n a u c w).mp ⟨e, hw⟩⟩
    simp only at hd ht
    rw [ht] at hd
    refine ⟨(j, x) :: e1, by rw [← hd, h1]; rfl, ⟨x, hx⟩, ?_, ?_, ?_⟩
    · intro q hq
      rcases List.mem_cons.mp hq with rfl | hq
      · exact ⟨a, by simp [Rgx.bodies], hl⟩
      · obtain ⟨b', m1, m2⟩ := h2 q hq
        exact ⟨b', by simp [Rgx.bodies, m1], m2⟩
    · intro S hS
      rw [Rgx.covers, Bool.or_eq_true] at hS
      rcases hS with hS | hS
      · exact ⟨j, by simpa using hS, x, by simp⟩
      · obtain ⟨k, hk, y, hy⟩ := h3 S hS
        exact ⟨k, hk, y, by simp [hy]⟩
    · intro J K hJ ⟨s1, s2⟩
      simp only [Rgx.excl, Bool.and_eq_true, Bool.not_eq_true', Bool.and_eq_false_iff] at hJ
      obtain ⟨⟨⟨j1, j2⟩, j3⟩, j4⟩ := hJ
      have sp : ∀ {S}, Sets S ((j, x) :: e1) → S.contains j = true ∨ Sets S e1 := by
        rintro S ⟨k, hk, y, hy⟩
        rcases List.mem_cons.mp hy with hy | hy
        · cases hy; exact .inl (by simpa using hk)
        · exact .inr ⟨k, hk, y, hy⟩
      rcases sp s1 with s1 | s1 <;> rcases sp s2 with s2 | s2
      · rcases j2 with j2 | j2
        · rw [s1] at j2; cases j2
        · rw [s2] at j2; cases j2
      · have m2 := from_hits h2 s2
        rcases j3 with j3 | j3
        · rw [s1] at j3; cases j3
        · rw [m2] at j3; cases j3
      · have m1 := from_hits h2 s1
        rcases j4 with j4 | j4
        · rw [s2] at j4; cases j4
        · rw [m1] at j4; cases j4
      · exact h4 J K j1 ⟨s1, s2⟩
  | bol =>
    intro u c v d h
    rw [run] at h
    split at h
    · rw [List.mem_singleton, Prod.mk.injEq] at h
      exact ⟨[], by rw [h.2]; rfl, obeys_nil ⟨[], by rw [h.1]; rfl⟩ (fun _ => rfl)⟩
    · cases h
  | eol =>
    intro u c v d h
    rw [run] at h
    split at h
    · rw [List.mem_singleton, Prod.mk.injEq] at h
      exact ⟨[], by rw [h.2]; rfl, obeys_nil ⟨[], by rw [h.1]; rfl⟩ (fun _ => rfl)⟩
    · cases h
  | nla a _ =>
    intro u c v d h
    rw [run] at h
    split at h
    · rw [List.mem_singleton, Prod.mk.injEq] at h
      exact ⟨[], by rw [h.2]; rfl, obeys_nil ⟨[], by rw [h.1]; rfl⟩ (fun _ => rfl)⟩
    · cases h

theorem mem_of_lookup {k : Nat} {w : Str} : ∀ {e : Caps}, e.lookup k = some w → (k, w) ∈ e
  | [], h => by cases h
  | (j, x) :: e, h => by
    rw [List.lookup_cons] at h
    split at h
    · rename_i hk
      have : k = j := by simpa using hk
      cases h
      rw [this]
      simp
    · exact List.mem_cons_of_mem _ (mem_of_lookup h)

theorem lookup_of_mem {k : Nat} {w : Str} : ∀ {e : Caps}, (k, w) ∈ e → ∃ w', e.lookup k = some w'
  | (j, x) :: e, h => by
    rw [List.lookup_cons]
    split
    · exact ⟨x, rfl⟩
    · rename_i hk
      rcases List.mem_cons.mp h with h | h
      · cases h; simp at hk
      · exact lookup_of_mem h

/-- The groups of a search. -/
theorem search_obeys {r : Rgx} {g : Nat} {names : List (Str × Nat)} {t : Str} {m : Found} (h : search ⟨r, g, names⟩ t = some m) :
    (∀ k w, m.caps.lookup k = some w → ∃ b, (k, b) ∈ r.bodies ∧ Read t.length b w) ∧
    (∀ S, r.covers S = true → ∃ k ∈ S, ∃ w, m.caps.lookup k = some w) ∧
    (∀ J K, r.excl J K = true → ∀ j ∈ J, ∀ k ∈ K, ∀ w w', m.caps.lookup j = some w → m.caps.lookup k = some w' → False) := by
  obtain ⟨pre, u, v, _, hv⟩ := search_found h
  obtain ⟨e, he, _, h2, h3, h4⟩ := run_obeys t.length r u [] v m.caps hv
  rw [List.append_nil] at he
  rw [he]
  refine ⟨?_, ?_, ?_⟩
  · intro k w hk
    exact h2 _ (mem_of_lookup hk)
  · intro S hS
    obtain ⟨k, hk, w, hw⟩ := h3 S hS
    exact ⟨k, hk, lookup_of_mem hw⟩
  · intro J K hJ j hj k hk w w' h1 h2
    exact h4 J K hJ ⟨⟨j, hj, w, mem_of_lookup h1⟩, ⟨k, hk, w', mem_of_lookup h2⟩⟩

end Re

import Verif.Edit.More
import Verif.Query.Props

/-! # C61 right after parsing -/

namespace Edit

open Py Conf Query

variable {o : Opts} {lines : List Str} {P : Parsed}

/-- Going down from a child does not lead above it. -/
theorem desc_root (h : parse o lines = .ok P) (h1 : ∀ l ∈ lines, ∀ d, ¬ Conf.Spec.BannerHead (rstrip l) d)
    (h2 : ∀ l ∈ lines, ¬ "macro name ".toList <+: l) (h3 : ∀ l ∈ lines, ¬ Conf.Spec.closes l) {a x : Nat} (ha : a ∈ P.list)
    (hd : Query.Spec.Desc P a x) : ∃ c, Spec.Fam P a c ∧ c ∈ P.list ∧ (P.h x).parent = c ∧ x ≠ c ∧ x ∈ P.list := by
  induction hd with
  | child hc =>
    obtain ⟨k1, k2, k3⟩ := ((C22_agree_partial h h1 h2 h3 ha).2 _).mp hc
    exact ⟨_, .inl rfl, ha, k2, k3, k1⟩
  | step hc _ ih =>
    obtain ⟨k1, _, _⟩ := ((C22_agree_partial h h1 h2 h3 ha).2 _).mp hc
    obtain ⟨c, m1, m2⟩ := ih k1
    refine ⟨c, ?_, m2⟩
    rcases m1 with rfl | m1
    · exact .inr (.child hc)
    · exact .inr (.step hc m1)

/-- Two families with a common line are one inside the other. -/
theorem fam_linear (h : parse o lines = .ok P) (h1 : ∀ l ∈ lines, ∀ d, ¬ Conf.Spec.BannerHead (rstrip l) d)
    (h2 : ∀ l ∈ lines, ¬ "macro name ".toList <+: l) (h3 : ∀ l ∈ lines, ¬ Conf.Spec.closes l) {a b : Nat} (ha : a ∈ P.list)
    (hb : b ∈ P.list) (x : Nat) (hx : Spec.Fam P a x) (hy : Spec.Fam P b x) : Spec.Fam P a b ∨ Spec.Fam P b a := by
  induction x using Nat.strongRecOn with
  | ind x ih =>
    rcases hx with rfl | hx
    · exact .inr hy
    · rcases hy with rfl | hy
      · exact .inl (.inr hx)
      · obtain ⟨c, f1, l1, p1, n1, lx⟩ := desc_root h h1 h2 h3 ha hx
        obtain ⟨c', f2, _, p2, _, _⟩ := desc_root h h1 h2 h3 hb hy
        have : c' = c := p2.symm.trans p1
        subst this
        have := (C22_parent_before h lx).1
        exact ih c' (by rw [p1] at this; omega) f1 f2

/-- C61 right after parsing, for a configuration without banners, macros and closing braces
from which no blank line was dropped: `delete_children_matching` removes exactly the matching
children and everything below them, and the rest is renumbered. -/
theorem C61_parse_partial (h : parse o lines = .ok P) (hb : Spec.NoBlank o (Conf.Spec.input o lines))
    (h1 : ∀ l ∈ lines, ∀ d, ¬ Conf.Spec.BannerHead (rstrip l) d)
    (h2 : ∀ l ∈ lines, ¬ "macro name ".toList <+: l) (h3 : ∀ l ∈ lines, ¬ Conf.Spec.closes l)
    {i : Nat} (hi : i ∈ P.list) (rx : Rx) (hnorm : Query.Spec.Normal rx) :
    ∃ P', deleteChildrenMatching P i rx = .ok P' ∧ Spec.Removed P P' (fun x =>
      ∃ c ∈ (P.h i).children, Spec.hits rx (P.h c).text = true ∧ Spec.Fam P c x) := by
  have hag := C22_agree_partial h h1 h2 h3 hi
  have ht := tree_of_parse h
  have kid : ∀ c ∈ (P.h i).children, c ∈ P.list ∧ (P.h c).parent = i ∧ c ≠ i := fun c hc => (hag.2 c).mp hc
  have digit : ∀ c ∈ (P.h i).children, Spec.NoDigits P (Spec.Fam P c) := by
    intro c hc x hx a hax
    have hp : x ∈ P.list ∧ (P.h x).parent ≠ x := by
      rcases hx with rfl | hx
      · obtain ⟨k1, k2, k3⟩ := kid x hc
        exact ⟨k1, by rw [k2]; exact Ne.symm k3⟩
      · obtain ⟨c', _, _, p1, n1, lx⟩ := desc_root h h1 h2 h3 (kid c hc).1 hx
        exact ⟨lx, by rw [p1]; exact Ne.symm n1⟩
    exact Query.C33_kids h h1 h2 _ (ht.up x hp.1).1 x
      (((C22_agree_partial h h1 h2 h3 (ht.up x hp.1).1).2 x).mpr ⟨hp.1, rfl, Ne.symm hp.2⟩) a hax
  refine C61_delete_children_partial (C := fun _ => none) (.parse h) (numbered_parse h hb) (owned_parse h hi) rx hnorm
    (hag.1.imp (fun h => Nat.ne_of_lt h)) (fun c hc _ => owned_parse h (kid c hc).1)
    (fun c hc _ x hx => fam_parse h (kid c hc).1 hx) (fun c hc _ => digit c hc) ?_
  intro c hc _ e he _ hne x hx hy
  obtain ⟨c1, c2, c3⟩ := kid c hc
  obtain ⟨e1, e2, e3⟩ := kid e he
  have key : ∀ a b, a ∈ P.list → (P.h a).parent = i → a ≠ i → (P.h b).parent = i → b ≠ i → a ≠ b → ¬ Spec.Fam P a b := by
    intro a b ha pa na pb nb hab hf
    rcases hf with rfl | hf
    · exact hab rfl
    · obtain ⟨c', f1, _, p1, n1, _⟩ := desc_root h h1 h2 h3 ha hf
      rw [pb] at p1
      subst p1
      have hia := (C22_parent_before h ha).1
      rw [pa] at hia
      rcases f1 with rfl | f1
      · exact na rfl
      · have := (desc_lt ht ha f1).2
        omega
  rcases fam_linear h h1 h2 h3 c1 e1 x hx hy with hf | hf
  · exact key c e c1 c2 c3 e2 e3 hne hf
  · exact key e c e1 e2 e3 c2 c3 (Ne.symm hne) hf

/-- The configuration of this example is as the theorem asks. -/
example : ∃ P, parse {} [s "interface a", s " 1x", s "  y", s " z", s "b"] = .ok P ∧
    Spec.NoBlank {} (Conf.Spec.input {} [s "interface a", s " 1x", s "  y", s " z", s "b"]) ∧
    (∀ l ∈ [s "interface a", s " 1x", s "  y", s " z", s "b"], ∀ d, ¬ Conf.Spec.BannerHead (rstrip l) d) ∧
    (∀ l ∈ [s "interface a", s " 1x", s "  y", s " z", s "b"], ¬ "macro name ".toList <+: l) ∧
    (∀ l ∈ [s "interface a", s " 1x", s "  y", s " z", s "b"], ¬ Conf.Spec.closes l) := by
  refine ⟨_, rfl, .inr (by simp only [Conf.Spec.blank]; decide), ?_, by decide, ?_⟩
  rotate_left
  · rintro l hl ⟨⟨ws, rest, e, _⟩, _⟩
    have : ∀ l ∈ [s "interface a", s " 1x", s "  y", s " z", s "b"], '}' ∉ l := by decide
    exact this l hl (by rw [e]; simp)
  intro l hl d hd
  have h := ((bannerHead_iff _ _).mpr hd).1
  have : ∀ l ∈ [s "interface a", s " 1x", s "  y", s " z", s "b"], isBanner (rstrip l) = false := by decide
  rw [this l hl] at h
  cases h

/-- C61 does not hold as stated: a line of blanks before the object is dropped after the
lines were numbered, and then the wrong line is deleted. -/
theorem C61_gap_fails : ∃ P P', parse {} [s "a", s " ", s "b", s " x", s " y"] = .ok P ∧
    P.texts = [s "a", s "b", s " x", s " y"] ∧ (P.h 2).children = [3, 4] ∧
    deleteChildrenMatching P 2 (lit "x") = .ok P' ∧ P'.texts = [s "a", s "b", s " x"] :=
  ⟨_, _, rfl, by decide, by decide, rfl, by decide⟩

end Edit

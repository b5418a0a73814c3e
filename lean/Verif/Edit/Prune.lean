import Verif.Edit.Child
import Verif.Edit.Fresh

/-! # C252: deleting families leaves the parents of all other lines as they are -/

namespace Edit.Spec

open Py Conf

/-- What `commit()` after a deletion gives: the lines of `P'` in their order, each configuration line with the parent it
had in `P`. -/
def Kept (o : Opts) (P P' P'' : Parsed) : Prop :=
  ∃ w, P''.list = (List.range P'.list.length).map (w + ·) ∧
    ∀ (k x : Nat), P'.list[k]? = some x → (P''.h (w + k)).text = (P.h x).text ∧
      (Conf.Spec.config o.delims (P.h x).text →
        ∃ k' : Nat, P'.list[k']? = some (P.h x).parent ∧ (P''.h (w + k)).parent = w + k')

end Edit.Spec

namespace Edit

open Py Conf Query

variable {o : Opts} {lines : List Str} {P P' P'' : Parsed} {D : Nat → Prop}

/-- C252: lines are removed, each with its children, and `commit()` is called.  The other lines are there in their order,
and each configuration line among them has the parent it had. -/
theorem C252_removed (h : parse o lines = .ok P) (hpl : Query.Spec.Plain lines)
    (hc : ∀ l ∈ lines, ¬ Conf.Spec.blank l ∧ rstrip l = l) (hrem : Spec.Removed P P' D)
    (hD : ∀ x ∈ P.list, D (P.h x).parent → D x) (hat : atomic o P' = .ok P'') :
    Spec.Kept o P P' P'' := by
  have hnil : ∀ t ∈ lines, t ≠ [] := fun t ht => by rintro rfl; exact (hc [] ht).1 (fun _ hc => by cases hc)
  have hboot := h
  rw [texts_parse hnil] at hboot
  have hl := list_full hboot (keep_of_noBlank (Or.inr (fun l hl => (hc l hl).1)))
  have htext : ∀ x < lines.length, (P.h x).text = lineAt lines x := by
    intro x hx
    rw [show (P.h x).text = rstrip (lineAt lines x) from (attrs hboot hx).1]
    exact (hc _ (at_mem hx)).2
  obtain ⟨hsub, hmem, hsame, _⟩ := hrem
  have hlt : ∀ x ∈ P'.list, x < lines.length := fun x hx => by
    have := ((hmem x).mp hx).1
    rw [hl] at this; simpa using this
  have htx : P'.texts = P'.list.map (lineAt lines) := by
    rw [Parsed.texts]
    refine List.map_congr_left (fun x hx => ?_)
    rw [← htext x (hlt x hx)]
    have := congrArg Obj.text (hsame x)
    exact this
  obtain ⟨K, hK⟩ : ∃ K, K = P'.list := ⟨_, rfl⟩
  have hmono : ∀ (a b x y : Nat), K[a]? = some x → K[b]? = some y → (a < b ↔ x < y) := by
    have hp : K.Pairwise (· < ·) := by
      rw [hK]; refine List.Pairwise.sublist hsub ?_
      rw [hl]; exact List.pairwise_lt_range
    have one : ∀ (a b x y : Nat), K[a]? = some x → K[b]? = some y → a < b → x < y := by
      intro a b x y ha hb hab
      obtain ⟨h1, rfl⟩ := List.getElem?_eq_some_iff.mp ha
      obtain ⟨h2, rfl⟩ := List.getElem?_eq_some_iff.mp hb
      exact List.pairwise_iff_getElem.mp hp a b h1 h2 hab
    intro a b x y ha hb
    refine ⟨one a b x y ha hb, fun hxy => ?_⟩
    rcases Nat.lt_trichotomy a b with h1 | h1 | h1
    · exact h1
    · subst h1; rw [ha] at hb; cases hb; omega
    · have := one b a y x hb ha h1; omega
  have hT : ∀ (k x : Nat), K[k]? = some x → lineAt (K.map (lineAt lines)) k = lineAt lines x := by
    intro k x hx
    rw [lineAt, List.getD_eq_getElem?_getD, List.getElem?_map, hx]; rfl
  have hmem' : ∀ l ∈ K.map (lineAt lines), l ∈ lines := by
    intro l hl
    obtain ⟨x, hx, rfl⟩ := List.mem_map.mp hl
    exact at_mem (hlt x (hK ▸ hx))
  have hnil' : ∀ t ∈ K.map (lineAt lines), t ≠ [] := fun t ht => hnil t (hmem' t ht)
  have hpl' : Query.Spec.Plain (K.map (lineAt lines)) :=
    ⟨fun l hl => hpl.1 l (hmem' l hl), fun l hl => hpl.2.1 l (hmem' l hl), fun l hl => hpl.2.2 l (hmem' l hl)⟩
  obtain ⟨S, hS, rfl⟩ := atomic_shape hat
  rw [htx, ← hK] at hS
  have hSp : parse o (K.map (lineAt lines)) = .ok S := by rw [texts_parse hnil']; exact hS
  have hSl := list_full hS (keep_of_noBlank (Or.inr (fun l hl => (hc l (hmem' l hl)).1)))
  rw [List.length_map] at hSl
  refine ⟨P'.n, ?_, fun k x hx => ?_⟩
  · show S.list.map (· + P'.n) = _
    rw [hSl, hK]
    exact List.map_congr_left (fun x _ => Nat.add_comm _ _)
  rw [← hK] at hx
  have hk : k < K.length := (List.getElem?_eq_some_iff.mp hx).1
  have hxK : x ∈ P'.list := by rw [← hK]; exact List.mem_of_getElem? hx
  have hxl := hlt x hxK
  rw [Nat.add_comm, embed_new]
  refine ⟨?_, fun hxc => ?_⟩
  · show (S.h k).text = _
    rw [show (S.h k).text = rstrip (lineAt (K.map (lineAt lines)) k) from (attrs hS (by simpa using hk)).1, hT k x hx,
      htext x hxl, (hc _ (at_mem hxl)).2]
  rw [htext x hxl] at hxc
  have rule' : ∀ p, (S.h k).parent = p ↔ Conf.Spec.ParentRule o.delims (lineAt (K.map (lineAt lines))) k p := by
    intro p
    have := C21_indent hSp hpl'.1 hpl'.2.1 hpl'.2.2 (i := k) (by rw [hSl]; simpa using hk) p
    rw [input_id hnil'] at this
    exact this
  have rule : ∀ p, (P.h x).parent = p ↔ Conf.Spec.ParentRule o.delims (lineAt lines) x p := by
    intro p
    have := C21_indent h hpl.1 hpl.2.1 hpl.2.2 ((hmem x).mp hxK).1 p
    rw [input_id hnil] at this
    exact this
  have hnu : ¬ Conf.Spec.Unattached o.delims (lineAt (K.map (lineAt lines))) k := fun hu => by
    have := hu.1
    rw [hT k x hx] at this
    exact hxc.2 this
  rcases (rule _).mp rfl with ⟨_, hp⟩ | ⟨hp, hself⟩
  · have hpK : (P.h x).parent ∈ K := by
      rw [hK, hmem]
      refine ⟨by rw [hl]; have := hp.1; simp; omega, fun hd => ?_⟩
      exact ((hmem x).mp hxK).2 (hD x ((hmem x).mp hxK).1 hd)
    obtain ⟨k', hk'⟩ := List.mem_iff_getElem?.mp hpK
    refine ⟨k', by rw [← hK]; exact hk', ?_⟩
    show (S.h k).parent + P'.n = _
    rw [Nat.add_comm P'.n]
    congr 1
    rw [rule']
    obtain ⟨h1, h2, h3, h4⟩ := hp
    refine .inl ⟨hnu, (hmono _ _ _ _ hk' hx).mpr h1, by rw [hT _ _ hk']; exact h2, by rw [hT _ _ hk', hT _ _ hx]; exact h3,
      fun q h5 h6 h7 => ?_⟩
    obtain ⟨y, hy⟩ : ∃ y, K[q]? = some y := ⟨_, List.getElem?_eq_getElem (by omega)⟩
    rw [hT _ _ hy] at h7 ⊢
    rw [hT _ _ hx]
    exact h4 y ((hmono _ _ _ _ hk' hy).mp h5) ((hmono _ _ _ _ hy hx).mp h6) h7
  · refine ⟨k, by rw [← hK, hself]; exact hx, ?_⟩
    show (S.h k).parent + P'.n = _
    rw [Nat.add_comm P'.n]
    congr 1
    rw [rule']
    refine .inr ⟨.inr (fun q hq => ?_), rfl⟩
    obtain ⟨h1, h2, h3, _⟩ := hq
    obtain ⟨y, hy⟩ : ∃ y, K[q]? = some y := ⟨_, List.getElem?_eq_getElem (by omega)⟩
    rw [hT _ _ hy] at h2 h3
    rw [hT _ _ hx] at h3
    obtain ⟨p, _, hnp⟩ := nearest_exists ((hmono _ _ _ _ hy hx).mp h1) h2 h3
    rcases hp with hp | hp
    · exact hxc.2 hp.1
    · exact hp p hnp

/-- The families of lines are closed under children. -/
theorem fam_closed (h : parse o lines = .ok P) (hpl : Query.Spec.Plain lines) {i x : Nat} (hx : x ∈ P.list)
    (hf : Spec.Fam P i (P.h x).parent) : Spec.Fam P i x := by
  by_cases e : x = (P.h x).parent
  · rw [e]; exact hf
  · have hup := ((tree_of_parse h).up x hx).1
    have hk := ((C22_agree_partial h hpl.1 hpl.2.1 hpl.2.2 hup).2 x).mpr ⟨hx, rfl, e⟩
    rcases hf with hf | hf
    · exact .inr (hf ▸ .child hk)
    · exact .inr (desc_tail hf hk)

/-- C252: `obj.delete()`. -/
theorem C252_delete_partial (h : parse o lines = .ok P) (hpl : Query.Spec.Plain lines)
    (hc : ∀ l ∈ lines, ¬ Conf.Spec.blank l ∧ rstrip l = l) {i : Nat} (hi : i ∈ P.list)
    (hd : Spec.NoDigits P (Spec.Fam P i)) (hdel : delete P i true = .ok P') (hat : atomic o P' = .ok P'') :
    Spec.Kept o P P' P'' := by
  have hnil : ∀ t ∈ lines, t ≠ [] := fun t ht => by rintro rfl; exact (hc [] ht).1 (fun _ hc => by cases hc)
  obtain ⟨Q, h1, h2⟩ := C37_parse_partial h (by rw [input_id hnil]; exact Or.inr (fun l hl => (hc l hl).1)) hi hd
  cases h1.symm.trans hdel
  exact C252_removed h hpl hc h2 (fun x hx hf => fam_closed h hpl hx hf) hat

/-- C252: `delete_lines()`. -/
theorem C252_delete_lines_partial (h : parse o lines = .ok P) (hpl : Query.Spec.Plain lines)
    (hc : ∀ l ∈ lines, ¬ Conf.Spec.blank l ∧ rstrip l = l) (rx : Rx)
    (hd : ∀ i ∈ P.list, Spec.hits rx (P.h i).text = true → Spec.NoDigits P (Spec.Fam P i))
    (hdis : ∀ i ∈ P.list, Spec.hits rx (P.h i).text = true → ∀ j ∈ P.list,
      Spec.hits rx (P.h j).text = true → i ≠ j → ∀ x, Spec.Fam P i x → ¬ Spec.Fam P j x)
    (hdel : deleteLines P rx = .ok P') (hat : atomic o P' = .ok P'') : Spec.Kept o P P' P'' := by
  have hnil : ∀ t ∈ lines, t ≠ [] := fun t ht => by rintro rfl; exact (hc [] ht).1 (fun _ hc => by cases hc)
  obtain ⟨Q, h1, h2⟩ := C38_parse_partial h (by rw [input_id hnil]; exact Or.inr (fun l hl => (hc l hl).1)) rx hd hdis
  cases h1.symm.trans hdel
  exact C252_removed h hpl hc h2 (fun x hx ⟨i, hi, hm, hf⟩ => ⟨i, hi, hm, fam_closed h hpl hx hf⟩) hat

/-- C252: `delete_children_matching()`. -/
theorem C252_delete_children_partial (h : parse o lines = .ok P) (hpl : Query.Spec.Plain lines)
    (hc : ∀ l ∈ lines, ¬ Conf.Spec.blank l ∧ rstrip l = l) {i : Nat} (hi : i ∈ P.list) (rx : Rx) (hnorm : Query.Spec.Normal rx)
    (hdel : deleteChildrenMatching P i rx = .ok P') (hat : atomic o P' = .ok P'') : Spec.Kept o P P' P'' := by
  have hnil : ∀ t ∈ lines, t ≠ [] := fun t ht => by rintro rfl; exact (hc [] ht).1 (fun _ hc => by cases hc)
  obtain ⟨Q, h1, h2⟩ := C61_parse_partial h (by rw [input_id hnil]; exact Or.inr (fun l hl => (hc l hl).1))
    hpl.1 hpl.2.1 hpl.2.2 hi rx hnorm
  cases h1.symm.trans hdel
  exact C252_removed h hpl hc h2 (fun x hx ⟨c, hc, hm, hf⟩ => ⟨c, hc, hm, fam_closed h hpl hx hf⟩) hat

/-- ` b` goes with `  x`; `  z` keeps its parent ` c`, and ` c` its parent `a`. -/
example : ∃ P P' P'', parse {} [s "a", s " b", s "  x", s " c", s "  z"] = .ok P ∧ delete P 1 true = .ok P' ∧
    atomic {} P' = .ok P'' ∧ P'.list = [0, 3, 4] ∧ (P.h 4).parent = 3 ∧ (P.h 3).parent = 0 ∧
    P''.texts = [s "a", s " c", s "  z"] ∧ P''.list = [5, 6, 7] ∧ P''.list.map (fun x => (P''.h x).parent) = [5, 5, 6] :=
  ⟨_, _, _, rfl, rfl, rfl, by decide +kernel, by decide +kernel, by decide +kernel, by decide +kernel, by decide +kernel,
    by decide +kernel⟩

/-- C252 does not hold for comments: a comment behind a deeper line has no parent; it gets one when this line is deleted. -/
theorem C252_comment_fails : ∃ P P' P'', parse {} [s "a", s "  b", s " !c"] = .ok P ∧ delete P 1 true = .ok P' ∧
    atomic {} P' = .ok P'' ∧ (P.h 2).parent = 2 ∧ P''.texts = [s "a", s " !c"] ∧ P''.list = [3, 4] ∧ (P''.h 4).parent = 3 :=
  ⟨_, _, _, rfl, rfl, rfl, by decide +kernel, by decide +kernel, by decide +kernel, by decide +kernel⟩

/-- C252 does not hold for `delete(recurse=False)`: the children of the deleted line go to another line. -/
theorem C252_recurse_fails : ∃ P P' P'', parse {} [s "a", s " x", s "b", s " y"] = .ok P ∧ delete P 2 false = .ok P' ∧
    atomic {} P' = .ok P'' ∧ (P.h 3).parent = 2 ∧ P''.texts = [s "a", s " x", s " y"] ∧ P''.list = [4, 5, 6] ∧
    (P''.h 6).parent = 4 :=
  ⟨_, _, _, rfl, rfl, rfl, by decide +kernel, by decide +kernel, by decide +kernel, by decide +kernel⟩

end Edit

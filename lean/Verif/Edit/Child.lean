import Verif.Edit.Undo

/-! # C250: a line that is appended to a family becomes a child -/

namespace Edit.Spec

open Py Conf

/-- Where line `x` stands when a line has been put behind line `j`. -/
def moved (j x : Nat) : Nat := if x ≤ j then x else x + 1

end Edit.Spec

namespace Edit

open Py Conf Query

/-- `L'` is `L` with `t` put behind line `j`. -/
structure Put (L L' : Nat → Str) (j : Nat) (t : Str) : Prop where
  lo : ∀ x, x ≤ j → L' x = L x
  new : L' (j + 1) = t
  hi : ∀ x, j < x → L' (x + 1) = L x

variable {ds : List Char} {L L' : Nat → Str} {i j : Nat} {t : Str}

theorem Put.at (h : Put L L' j t) (x : Nat) : L' (Spec.moved j x) = L x := by
  rw [Spec.moved]; split
  · exact h.lo x ‹_›
  · exact h.hi x (by omega)

theorem nearest_new (h : Put L L' j t) (hij : i ≤ j) (hi : Conf.Spec.config ds (L i))
    (hin : Conf.Spec.indent (L i) < Conf.Spec.indent t)
    (hk : ∀ q, i < q → q ≤ j → Conf.Spec.config ds (L q) → Conf.Spec.indent t ≤ Conf.Spec.indent (L q)) :
    Conf.Spec.Nearest ds L' (j + 1) i := by
  refine ⟨by omega, by rw [h.lo i hij]; exact hi, by rw [h.lo i hij, h.new]; exact hin, fun q h1 h2 hq => ?_⟩
  rw [h.lo q (by omega)] at hq ⊢
  rw [h.new]
  exact hk q h1 (by omega) hq

/-- The nearest line stays the nearest, if the new line does not come between. -/
theorem nearest_old (h : Put L L' j t) {x p : Nat}
    (hx : j < x → ¬ (Conf.Spec.config ds t ∧ Conf.Spec.indent t < Conf.Spec.indent (L x) ∧
      ∀ q, j < q → q < x → Conf.Spec.config ds (L q) → Conf.Spec.indent (L x) ≤ Conf.Spec.indent (L q))) :
    Conf.Spec.Nearest ds L' (Spec.moved j x) p ↔ ∃ q, p = Spec.moved j q ∧ Conf.Spec.Nearest ds L x q := by
  constructor
  · rintro ⟨h1, h2, h3, h4⟩
    rw [h.at] at h3
    have hp : p ≠ j + 1 := by
      rintro rfl
      have hjx : j < x := by rw [Spec.moved] at h1; split at h1 <;> omega
      rw [h.new] at h2 h3
      refine hx hjx ⟨h2, h3, fun q h5 h6 h7 => ?_⟩
      have := h4 (q + 1) (by omega) (by rw [Spec.moved, if_neg (by omega)]; omega) (by rw [h.hi q h5]; exact h7)
      rw [h.at, h.hi q h5] at this
      exact this
    obtain ⟨q, rfl⟩ : ∃ q, p = Spec.moved j q := by
      by_cases hpj : p ≤ j
      · exact ⟨p, by rw [Spec.moved, if_pos hpj]⟩
      · exact ⟨p - 1, by rw [Spec.moved, if_neg (by omega)]; omega⟩
    refine ⟨q, rfl, ?_, by rw [h.at] at h2; exact h2, by rw [h.at] at h3; exact h3, fun r h5 h6 h7 => ?_⟩
    · rw [Spec.moved, Spec.moved] at h1; split at h1 <;> split at h1 <;> omega
    · have := h4 (Spec.moved j r) (by rw [Spec.moved, Spec.moved]; split <;> split <;> omega)
        (by rw [Spec.moved, Spec.moved]; split <;> split <;> omega) (by rw [h.at]; exact h7)
      rw [h.at, h.at] at this
      exact this
  · rintro ⟨q, rfl, h1, h2, h3, h4⟩
    refine ⟨by rw [Spec.moved, Spec.moved]; split <;> split <;> omega, by rw [h.at]; exact h2, by rw [h.at, h.at]; exact h3,
      fun r h5 h6 h7 => ?_⟩
    rw [h.at]
    by_cases hr : r = j + 1
    · subst hr
      rw [h.new] at h7 ⊢
      have hjx : j < x := by rw [Spec.moved] at h6; split at h6 <;> omega
      have hqj : q ≤ j := by rw [Spec.moved] at h5; split at h5 <;> omega
      by_cases hlt : Conf.Spec.indent t < Conf.Spec.indent (L x)
      · exact absurd ⟨h7, hlt, fun q' h8 h9 h10 => h4 q' (by omega) h9 h10⟩ (hx hjx)
      · omega
    · obtain ⟨r', rfl⟩ : ∃ r', r = Spec.moved j r' := by
        by_cases hpj : r ≤ j
        · exact ⟨r, by rw [Spec.moved, if_pos hpj]⟩
        · exact ⟨r - 1, by rw [Spec.moved, if_neg (by omega)]; omega⟩
      rw [h.at] at h7 ⊢
      refine h4 r' ?_ ?_ h7
      · rw [Spec.moved, Spec.moved] at h5; split at h5 <;> split at h5 <;> omega
      · rw [Spec.moved, Spec.moved] at h6; split at h6 <;> split at h6 <;> omega

/-- Among the lines from `i` on there is a nearest one. -/
theorem nearest_exists {r x : Nat} (hix : r < x) (hi : Conf.Spec.config ds (L r)) (hin : Conf.Spec.indent (L r) < Conf.Spec.indent (L x)) :
    ∃ p, r ≤ p ∧ Conf.Spec.Nearest ds L x p := by
  by_cases h : ∃ q, r < q ∧ q < x ∧ Conf.Spec.config ds (L q) ∧ Conf.Spec.indent (L q) < Conf.Spec.indent (L x)
  · obtain ⟨q, h1, h2, h3, h4⟩ := h
    obtain ⟨p, h5, h6⟩ := nearest_exists (r := q) h2 h3 h4
    exact ⟨p, by omega, h6⟩
  · refine ⟨r, Nat.le_refl _, hix, hi, hin, fun q h1 h2 h3 => ?_⟩
    rcases Nat.lt_or_ge (Conf.Spec.indent (L q)) (Conf.Spec.indent (L x)) with h4 | h4
    · exact absurd ⟨q, h1, h2, h3, h4⟩ h
    · exact h4
termination_by x - r

variable {o : Opts} {lines : List Str} {P P' P'' : Parsed}

/-- What is committed after a line has been put in. -/
theorem put_setup (h : parse o lines = .ok P) (hpl : Query.Spec.Plain (t :: lines))
    (hc : ∀ l ∈ t :: lines, ¬ Conf.Spec.blank l ∧ rstrip l = l) (hput : Spec.PutAfter P P' j t)
    (hat : atomic o P' = .ok P'') :
    ∃ S T, parse o T = .ok S ∧ bootstrap o T = .ok S ∧ P'' = embed P' S ∧ T.length = lines.length + 1 ∧ j < lines.length ∧
      Put (lineAt lines) (lineAt T) j t ∧ Query.Spec.Plain T ∧ (∀ l ∈ T, l ∈ t :: lines) ∧
      S.list = List.range (lines.length + 1) ∧ P.list = List.range lines.length := by
  have hcl : ∀ l ∈ lines, ¬ Conf.Spec.blank l ∧ rstrip l = l := fun l hl => hc l (by simp [hl])
  have hnil : ∀ t ∈ lines, t ≠ [] := fun t ht => by rintro rfl; exact (hcl [] ht).1 (fun _ hc => by cases hc)
  have hnb : ∀ t ∈ lines, ¬ Conf.Spec.blank t := fun t ht => (hcl t ht).1
  have hpl0 : Query.Spec.Plain lines :=
    ⟨fun l hl => hpl.1 l (by simp [hl]), fun l hl => hpl.2.1 l (by simp [hl]), fun l hl => hpl.2.2 l (by simp [hl])⟩
  have hboot := h
  rw [texts_parse hnil] at hboot
  have hl := list_full hboot (keep_of_noBlank (Or.inr hnb))
  have htext : ∀ x < lines.length, (P.h x).text = lineAt lines x := by
    intro x hx
    rw [show (P.h x).text = rstrip (lineAt lines x) from (attrs hboot hx).1]
    exact (hcl _ (at_mem hx)).2
  have hPt : P.texts = lines := by
    rw [Parsed.texts, hl]
    refine List.ext_getElem (by simp) (fun k h1 h2 => ?_)
    rw [List.getElem_map, List.getElem_range, htext k h2, lineAt, List.getD_eq_getElem?_getD, List.getElem?_eq_getElem h2]; rfl
  obtain ⟨A, B, new, e1, e2, e3, e4, e5, _⟩ := hput
  have hA : A.length = j := by
    have : P.list[A.length]? = some j := by rw [e1]; simp
    rw [hl] at this
    obtain ⟨_, hh⟩ := List.getElem?_eq_some_iff.mp this
    simpa using hh
  have hjl : j < lines.length := by
    have : j ∈ P.list := by rw [e1]; simp
    rw [hl] at this; simpa using this
  have tx : ∀ l : List Nat, (∀ x ∈ l, x ∈ P.list) → l.map (fun x => (P'.h x).text) = l.map (fun x => (P.h x).text) :=
    fun l hl => List.map_congr_left (fun x hx => by have := congrArg Obj.text (e5 x (hl x hx)); exact this)
  obtain ⟨a, ea⟩ : ∃ a, a = (A ++ [j]).map (fun x => (P.h x).text) := ⟨_, rfl⟩
  obtain ⟨b, eb⟩ : ∃ b, b = B.map (fun x => (P.h x).text) := ⟨_, rfl⟩
  have hab : lines = a ++ b := by
    rw [← hPt, Parsed.texts, e1, ea, eb, ← List.map_append]; simp
  have halen : a.length = j + 1 := by rw [ea]; simp [hA]
  have hP't : P'.texts = a ++ t :: b := by
    rw [Parsed.texts, e2, List.append_cons, List.map_append, List.map_cons, e4, ea, eb, tx, tx]
    · intro x hx; rw [e1]; simp [hx]
    · intro x hx
      rw [e1]
      rcases List.mem_append.mp hx with hx | hx
      · simp [hx]
      · simp at hx; simp [hx]
  have hmem' : ∀ l ∈ a ++ t :: b, l ∈ t :: lines := by
    intro l hl
    rw [hab]
    simp only [List.mem_append, List.mem_cons] at hl ⊢
    rcases hl with hl | hl | hl <;> simp [hl]
  have hc' : ∀ l ∈ a ++ t :: b, ¬ Conf.Spec.blank l ∧ rstrip l = l := fun l hl => hc l (hmem' l hl)
  have hnil' : ∀ t' ∈ a ++ t :: b, t' ≠ [] := fun t ht => by rintro rfl; exact (hc' [] ht).1 (fun _ hc => by cases hc)
  have hnb' : ∀ t' ∈ a ++ t :: b, ¬ Conf.Spec.blank t' := fun t ht => (hc' t ht).1
  have hpl' : Query.Spec.Plain (a ++ t :: b) :=
    ⟨fun l hl => hpl.1 l (hmem' l hl), fun l hl => hpl.2.1 l (hmem' l hl), fun l hl => hpl.2.2 l (hmem' l hl)⟩
  obtain ⟨S, hS, rfl⟩ := atomic_shape hat
  rw [hP't] at hS
  have hSp : parse o (a ++ t :: b) = .ok S := by rw [texts_parse hnil']; exact hS
  have hSl := list_full hS (keep_of_noBlank (Or.inr hnb'))
  have hlen : (a ++ t :: b).length = lines.length + 1 := by rw [hab]; simp; omega
  have put : Put (lineAt lines) (lineAt (a ++ t :: b)) j t := by
    have low : ∀ {x : Nat} (l : List Str), x < a.length → lineAt (a ++ l) x = lineAt a x := fun {x} l hx => by
      rw [lineAt, lineAt, List.getD_eq_getElem?_getD, List.getD_eq_getElem?_getD, List.getElem?_append_left hx]
    refine ⟨fun x hx => ?_, ?_, fun x hx => ?_⟩
    · rw [hab, low _ (by omega), low _ (by omega)]
    · rw [lineAt, List.getD_eq_getElem?_getD, ← halen]; simp
    · rw [hab, lineAt, lineAt, List.getD_eq_getElem?_getD, List.getD_eq_getElem?_getD, List.getElem?_append_right (by omega),
        List.getElem?_append_right (by omega), show x + 1 - a.length = (x - a.length) + 1 by omega, List.getElem?_cons_succ]
  exact ⟨S, a ++ t :: b, hSp, hS, rfl, hlen, hjl, put, hpl', hmem', by rw [hSl, hlen], hl⟩

/-- C250: a configuration line `t` is put behind the last line of the family of line `i`; `t` is indented more than
line `i` and not more than the lines of its family.  After `commit()` it is a child of line `i`, and all other
configuration lines have the parents they had. -/
theorem C250_put (h : parse o lines = .ok P) (hpl : Query.Spec.Plain (t :: lines))
    (hc : ∀ l ∈ t :: lines, ¬ Conf.Spec.blank l ∧ rstrip l = l) (hi : i < lines.length)
    (hic : Conf.Spec.config o.delims (lineAt lines i)) (hj : Spec.LastOf P i j) (hput : Spec.PutAfter P P' j t)
    (hat : atomic o P' = .ok P'') (htc : Conf.Spec.config o.delims t)
    (hin : Conf.Spec.indent (lineAt lines i) < Conf.Spec.indent t)
    (hk : ∀ d, Query.Spec.Desc P i d → Conf.Spec.config o.delims (lineAt lines d) →
      Conf.Spec.indent t ≤ Conf.Spec.indent (lineAt lines d)) :
    ∃ w, P''.list = (List.range (lines.length + 1)).map (w + ·) ∧
      (P''.h (w + (j + 1))).text = t ∧ (P''.h (w + (j + 1))).parent = w + i ∧
      w + (j + 1) ∈ (P''.h (w + i)).children ∧
      ∀ x < lines.length, Conf.Spec.config o.delims (lineAt lines x) →
        (P''.h (w + Spec.moved j x)).text = lineAt lines x ∧
        (P''.h (w + Spec.moved j x)).parent = w + Spec.moved j (P.h x).parent := by
  have hcl : ∀ l ∈ lines, ¬ Conf.Spec.blank l ∧ rstrip l = l := fun l hl => hc l (by simp [hl])
  have hnil : ∀ t ∈ lines, t ≠ [] := fun t ht => by rintro rfl; exact (hcl [] ht).1 (fun _ hc => by cases hc)
  have hpl0 : Query.Spec.Plain lines :=
    ⟨fun l hl => hpl.1 l (by simp [hl]), fun l hl => hpl.2.1 l (by simp [hl]), fun l hl => hpl.2.2 l (by simp [hl])⟩
  obtain ⟨S, T, hSp, hS, rfl, hlen, hjl, put, hpl', hmem', hSl, hl⟩ := put_setup h hpl hc hput hat
  have hnil' : ∀ t' ∈ T, t' ≠ [] := fun t ht => by rintro rfl; exact (hc [] (hmem' [] ht)).1 (fun _ hc => by cases hc)
  have hSm : ∀ x < lines.length + 1, x ∈ S.list := fun x hx => by rw [hSl]; simpa using hx
  have hPm : ∀ x < lines.length, x ∈ P.list := fun x hx => by rw [hl]; simpa using hx
  have ht := tree_of_parse h
  have hij : i ≤ j := by
    rcases hj with ⟨_, e⟩ | ⟨hd, _⟩
    · omega
    · have := (desc_lt ht (hPm i hi) hd).2; omega
  have hdesc : ∀ q, i < q → q ≤ j → Conf.Spec.config o.delims (lineAt lines q) → Query.Spec.Desc P i q := by
    intro q h1 h2 h3
    rcases hj with ⟨_, e⟩ | ⟨hd, _⟩
    · omega
    · exact C34_contiguous h hpl0 (hPm i hi) hd h1 h2 (by rw [input_id hnil]; exact h3)
  have rule' : ∀ x < lines.length + 1, ∀ p, (S.h x).parent = p ↔ Conf.Spec.ParentRule o.delims (lineAt T) x p := by
    intro x hx p
    have := C21_indent hSp hpl'.1 hpl'.2.1 hpl'.2.2 (hSm x hx) p
    rw [input_id hnil'] at this
    exact this
  have rule : ∀ x < lines.length, ∀ p, (P.h x).parent = p ↔ Conf.Spec.ParentRule o.delims (lineAt lines) x p := by
    intro x hx p
    have := C21_indent h hpl0.1 hpl0.2.1 hpl0.2.2 (hPm x hx) p
    rw [input_id hnil] at this
    exact this
  have hnew : (S.h (j + 1)).parent = i := by
    rw [rule' _ (by omega)]
    refine .inl ⟨fun hu => ?_, nearest_new put hij hic hin (fun q h1 h2 h3 => hk q (hdesc q h1 h2 h3) h3)⟩
    have := hu.1
    rw [put.new] at this
    exact htc.2 this
  have moved_lt : ∀ x < lines.length, Spec.moved j x < lines.length + 1 := fun x hx => by
    rw [Spec.moved]; split <;> omega
  refine ⟨P'.n, ?_, ?_, ?_, ?_, ?_⟩
  · show S.list.map (· + P'.n) = _
    rw [hSl]
    exact List.map_congr_left (fun x _ => Nat.add_comm _ _)
  · rw [Nat.add_comm, embed_new]
    show (S.h (j + 1)).text = t
    rw [show (S.h (j + 1)).text = rstrip (lineAt T (j + 1)) from (attrs hS (by omega)).1, put.new]
    exact (hc t (by simp)).2
  · rw [Nat.add_comm, embed_new]
    show (S.h (j + 1)).parent + P'.n = _
    rw [hnew, Nat.add_comm]
  · rw [Nat.add_comm P'.n i, embed_new]
    show _ ∈ (S.h i).children.map (· + P'.n)
    rw [List.mem_map]
    refine ⟨j + 1, ?_, Nat.add_comm _ _⟩
    exact ((C22_agree_partial hSp hpl'.1 hpl'.2.1 hpl'.2.2 (hSm i (by omega))).2 _).mpr ⟨hSm _ (by omega), hnew, by omega⟩
  · intro x hx hxc
    rw [Nat.add_comm, embed_new]
    refine ⟨?_, ?_⟩
    · show (S.h (Spec.moved j x)).text = _
      rw [show (S.h (Spec.moved j x)).text = rstrip (lineAt T (Spec.moved j x)) from
        (attrs hS (by rw [hlen]; exact moved_lt x hx)).1, put.at]
      exact (hcl _ (at_mem hx)).2
    · show (S.h (Spec.moved j x)).parent + P'.n = _
      rw [Nat.add_comm P'.n]
      congr 1
      rw [rule' _ (moved_lt x hx)]
      have hnu : ¬ Conf.Spec.Unattached o.delims (lineAt T) (Spec.moved j x) := fun hu => by
        have := hu.1
        rw [put.at] at this
        exact hxc.2 this
      have hnu0 : ¬ Conf.Spec.Unattached o.delims (lineAt lines) x := fun hu => hxc.2 hu.1
      have hold := fun p => nearest_old (ds := o.delims) put (x := x) (p := p) (fun hjx ⟨_, h2, h3⟩ => by
        obtain ⟨p, hp1, hp2⟩ := nearest_exists (ds := o.delims) (L := lineAt lines) (r := i) (x := x) (by omega) hic (by omega)
        have hpj : p ≤ j := by
          rcases Nat.lt_or_ge j p with h4 | h4
          · have := h3 p h4 hp2.1 hp2.2.1
            have := hp2.2.2.1
            omega
          · exact h4
        have hxp : (P.h x).parent = p := (rule x hx p).mpr (.inl ⟨hnu0, hp2⟩)
        have hxk : x ∈ (P.h p).children := ((C22_agree_partial h hpl0.1 hpl0.2.1 hpl0.2.2 (hPm p (by omega))).2 _).mpr
          ⟨hPm x hx, hxp, by omega⟩
        have hxd : Query.Spec.Desc P i x := by
          rcases Nat.eq_or_lt_of_le hp1 with e | e
          · subst e; exact .child hxk
          · exact desc_tail (hdesc p e hpj hp2.2.1) hxk
        rcases hj with ⟨hno, _⟩ | ⟨_, hm⟩
        · exact hno x hxd
        · have := hm x hxd
          rw [ht.num x (hPm x hx), ht.num j (hPm j hjl)] at this
          omega)
      rcases (rule x hx _).mp rfl with ⟨_, hp⟩ | ⟨hp, hself⟩
      · exact .inl ⟨hnu, (hold _).mpr ⟨_, rfl, hp⟩⟩
      · refine .inr ⟨.inr (fun q hq => ?_), by rw [hself]⟩
        obtain ⟨q', _, hq'⟩ := (hold q).mp hq
        rcases hp with hp | hp
        · exact hnu0 hp
        · exact hp q' hq'

theorem desc_indent (h : parse o lines = .ok P) (hp : Query.Spec.Plain lines) (hnil : ∀ t ∈ lines, t ≠ []) {i d : Nat}
    (hi : i ∈ P.list) (hd : Query.Spec.Desc P i d) : Conf.Spec.indent (lineAt lines i) < Conf.Spec.indent (lineAt lines d) := by
  have key : ∀ {i c : Nat}, i ∈ P.list → c ∈ (P.h i).children →
      Conf.Spec.indent (lineAt lines i) < Conf.Spec.indent (lineAt lines c) := fun {i c} hi hc => by
    have := (child_nearest h hp hi hc).2.2.1
    rw [input_id hnil] at this
    exact this
  induction hd with
  | child hc => exact key hi hc
  | step hc _ ih => exact Nat.lt_trans (key hi hc) (ih ((tree_of_parse h).kids _ hi _ hc).1)

/-- C250: `append_to_family(new, auto_indent=True)` and a `commit()`: the new line is there, it is a child of the line,
and all other configuration lines have the parents they had.  (The text of the last line of the family must match that
line only, see C40.) -/
theorem C250_append_partial {C : Compile} {rx : Rx} (h : parse o lines = .ok P) (hi : i < lines.length)
    (hic : Conf.Spec.config o.delims (lineAt lines i)) (hj : Spec.LastOf P i j) (hC : C (P.h j).text = some rx)
    (ho : Spec.Only P rx j) (hd : Spec.NoDigits P (Spec.Fam P i)) (new : Str) (k : Int)
    (ht : t = List.replicate (Conf.Spec.indent (lineAt lines i) + 1) ' ' ++ lstrip new) (htc : Conf.Spec.config o.delims t)
    (hpl : Query.Spec.Plain (t :: lines)) (hc : ∀ l ∈ t :: lines, ¬ Conf.Spec.blank l ∧ rstrip l = l) :
    ∃ P' P'', appendToFamily o C P i new k 1 true = .ok P' ∧ atomic o P' = .ok P'' ∧
      ∃ w, P''.list = (List.range (lines.length + 1)).map (w + ·) ∧
        (P''.h (w + (j + 1))).text = t ∧ (P''.h (w + (j + 1))).parent = w + i ∧
        w + (j + 1) ∈ (P''.h (w + i)).children ∧
        ∀ x < lines.length, Conf.Spec.config o.delims (lineAt lines x) →
          (P''.h (w + Spec.moved j x)).text = lineAt lines x ∧
          (P''.h (w + Spec.moved j x)).parent = w + Spec.moved j (P.h x).parent := by
  have hcl : ∀ l ∈ lines, ¬ Conf.Spec.blank l ∧ rstrip l = l := fun l hl => hc l (by simp [hl])
  have hnil : ∀ t ∈ lines, t ≠ [] := fun t ht => by rintro rfl; exact (hcl [] ht).1 (fun _ hc => by cases hc)
  have hnb : ∀ t ∈ lines, ¬ Conf.Spec.blank t := fun t ht => (hcl t ht).1
  have hpl0 : Query.Spec.Plain lines :=
    ⟨fun l hl => hpl.1 l (by simp [hl]), fun l hl => hpl.2.1 l (by simp [hl]), fun l hl => hpl.2.2 l (by simp [hl])⟩
  have hboot := h
  rw [texts_parse hnil] at hboot
  have hl := list_full hboot (keep_of_noBlank (Or.inr hnb))
  have hPm : i ∈ P.list := by rw [hl]; simpa using hi
  have hat := attrs hboot hi
  have hind : (P.h i).indent = Conf.Spec.indent (lineAt lines i) := by
    rw [hat.2.1]; exact lineIndent_eq _
  have hnum : Spec.Numbered P := by
    intro k x hx
    have hx' : x ∈ P.list := List.mem_of_getElem? hx
    rw [(tree_of_parse h).num x hx']
    rw [hl] at hx
    obtain ⟨_, hh⟩ := List.getElem?_eq_some_iff.mp hx
    have : k = x := by simpa using hh
    omega
  obtain ⟨P', hP', hput⟩ := C40_append_partial (C := C) (.parse h) hnum (i := i) (j := j) (hat.2.2.2.2.trans rfl)
    (fun x hx => by
      rcases hx with rfl | hx
      · exact hPm
      · exact (desc_lt (tree_of_parse h) hPm hx).1) hd hj hC ho new k 1 true t (by rw [ht, hind]; rfl)
    (.inr (fun l hl => by simp only [List.mem_singleton] at hl; subst hl; exact (hc l (by simp)).1))
  rw [(hc t (by simp)).2] at hput
  have htx : ∀ l ∈ P'.texts, l ∈ t :: lines := by
    obtain ⟨A, B, n, e1, e2, -, e4, e5, -⟩ := hput
    intro l hl'
    rw [Parsed.texts, e2] at hl'
    obtain ⟨x, hx, rfl⟩ := List.mem_map.mp hl'
    by_cases e : x = n
    · subst e; rw [e4]; simp
    · have hxP : x ∈ P.list := by rw [e1]; simp only [List.mem_append, List.mem_cons] at hx ⊢; grind
      have := congrArg Obj.text (e5 x hxP)
      have this : (P'.h x).text = (P.h x).text := this
      rw [this]
      have hxl : x < lines.length := by rw [hl] at hxP; simpa using hxP
      rw [show (P.h x).text = rstrip (lineAt lines x) from (attrs hboot hxl).1, (hcl _ (at_mem hxl)).2]
      exact List.mem_cons_of_mem _ (at_mem hxl)
  obtain ⟨P'', hP''⟩ := C59_ok o P' (fun l hl => hpl.2.2 l (htx l hl)) (fun l hl => hpl.2.1 l (htx l hl))
    (fun l hl e => (hc l (htx l hl)).1 (by subst e; intro c hc; cases hc))
  have htind : Conf.Spec.indent t = Conf.Spec.indent (lineAt lines i) + 1 := by
    have hr := (hc t (by simp)).2
    rw [Conf.Spec.indent, hr, ht, List.takeWhile_append_of_pos (fun c hc => by
      rw [(List.mem_replicate.mp hc).2]; rfl), List.length_append, List.length_replicate]
    have : (lstrip new).takeWhile isSpace = [] := by
      cases hn : lstrip new with
      | nil => rfl
      | cons c r => rw [List.takeWhile_cons_of_neg]; rw [head?_lstrip new c (by rw [hn]; rfl)]; simp
    rw [this]; rfl
  exact ⟨P', P'', hP', hP'', C250_put h hpl hc hi hic hj hput hP'' htc (by omega) (fun d hd _ => by
    have := desc_indent h hpl0 hnil hPm hd
    omega)⟩

/-- A case of `C250_append_partial`, in the middle of a configuration and below a grandchild. -/
example : ∃ P P' P'', parse {} [s "a", s "  b", s "   c", s "d", s "  e"] = .ok P ∧
    allChildren P 0 = [1, 2] ∧
    (∃ rx, plainC (P.h 2).text = some rx ∧ P.list.filter (fun x => Spec.hits rx (P.h x).text) = [2]) ∧
    appendToFamily {} plainC P 0 (s "x") (-1) 1 true = .ok P' ∧ atomic {} P' = .ok P'' ∧
    P''.texts = [s "a", s "  b", s "   c", s " x", s "d", s "  e"] ∧
    P''.list.map (fun x => (P''.h x).parent) = [6, 6, 7, 6, 10, 10] :=
  ⟨_, _, _, rfl, by decide +kernel, ⟨_, rfl, by decide +kernel⟩, rfl, rfl, by decide +kernel, by decide +kernel⟩

/-- C250 fails for a wider indent than that of the children: the new line becomes a child of the last line of the
family. -/
theorem C250_width_fails : ∃ P P' P'', parse {} [s "interface a", s " b"] = .ok P ∧
    appendToFamily {} plainC P 0 (s "x") (-1) 2 true = .ok P' ∧ atomic {} P' = .ok P'' ∧
    P''.texts = [s "interface a", s " b", s "  x"] ∧ P''.list = [3, 4, 5] ∧ (P''.h 5).parent = 4 :=
  ⟨_, _, _, rfl, rfl, rfl, by decide +kernel, by decide +kernel, by decide +kernel⟩

end Edit

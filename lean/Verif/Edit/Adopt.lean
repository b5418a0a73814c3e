import Verif.Edit.Child

/-! # C251: what an inserted line changes in the tree -/

namespace Edit.Spec

open Py Conf

/-- Line `x` comes after the line `j`, is deeper than `t`, and no line between is less deep than `x`: when `t` is a
configuration line and is put behind line `j`, it becomes the parent of `x`. -/
def Adopted (delims : List Char) (L : Nat → Str) (j : Nat) (t : Str) (x : Nat) : Prop :=
  Conf.Spec.config delims t ∧ j < x ∧ Conf.Spec.indent t < Conf.Spec.indent (L x) ∧
  ∀ q, j < q → q < x → Conf.Spec.config delims (L q) → Conf.Spec.indent (L x) ≤ Conf.Spec.indent (L q)

end Edit.Spec

namespace Edit

open Py Conf Query

variable {o : Opts} {lines : List Str} {P P' P'' : Parsed} {j : Nat} {t : Str}

/-- C251: a line `t` is put behind line `j`, and `commit()` is called.  The lines are there in their order.  The parent
of the new configuration line is the last configuration line up to `j` that is less deep.  Of the other configuration
lines exactly those that are adopted have the new line as their parent; all others have the parents they had. -/
theorem C251_put_partial (h : parse o lines = .ok P) (hpl : Query.Spec.Plain (t :: lines))
    (hc : ∀ l ∈ t :: lines, ¬ Conf.Spec.blank l ∧ rstrip l = l) (hput : Spec.PutAfter P P' j t)
    (hat : atomic o P' = .ok P'') :
    ∃ w, P''.list = (List.range (lines.length + 1)).map (w + ·) ∧ (P''.h (w + (j + 1))).text = t ∧
      (Conf.Spec.config o.delims t → ∀ p ≤ j, (P''.h (w + (j + 1))).parent = w + p ↔
        Conf.Spec.config o.delims (lineAt lines p) ∧ Conf.Spec.indent (lineAt lines p) < Conf.Spec.indent t ∧
          ∀ q, p < q → q ≤ j → Conf.Spec.config o.delims (lineAt lines q) → Conf.Spec.indent t ≤ Conf.Spec.indent (lineAt lines q)) ∧
      ∀ x < lines.length, Conf.Spec.config o.delims (lineAt lines x) →
        (P''.h (w + Spec.moved j x)).text = lineAt lines x ∧
        (Spec.Adopted o.delims (lineAt lines) j t x → (P''.h (w + Spec.moved j x)).parent = w + (j + 1)) ∧
        (¬ Spec.Adopted o.delims (lineAt lines) j t x →
          (P''.h (w + Spec.moved j x)).parent = w + Spec.moved j (P.h x).parent) := by
  have hcl : ∀ l ∈ lines, ¬ Conf.Spec.blank l ∧ rstrip l = l := fun l hl => hc l (by simp [hl])
  have hnil : ∀ t ∈ lines, t ≠ [] := fun t ht => by rintro rfl; exact (hcl [] ht).1 (fun _ hc => by cases hc)
  have hpl0 : Query.Spec.Plain lines :=
    ⟨fun l hl => hpl.1 l (by simp [hl]), fun l hl => hpl.2.1 l (by simp [hl]), fun l hl => hpl.2.2 l (by simp [hl])⟩
  obtain ⟨S, T, hSp, hS, rfl, hlen, hjl, put, hpl', hmem', hSl, hl⟩ := put_setup h hpl hc hput hat
  have hnil' : ∀ t' ∈ T, t' ≠ [] := fun t ht => by rintro rfl; exact (hc [] (hmem' [] ht)).1 (fun _ hc => by cases hc)
  have hSm : ∀ x < lines.length + 1, x ∈ S.list := fun x hx => by rw [hSl]; simpa using hx
  have hPm : ∀ x < lines.length, x ∈ P.list := fun x hx => by rw [hl]; simpa using hx
  have rule' : ∀ x < lines.length + 1, ∀ p, (S.h x).parent = p ↔ Conf.Spec.ParentRule o.delims (lineAt T) x p := by
    intro x hx p
    have := C21_indent hSp hpl'.1 hpl'.2.1 hpl'.2.2 (hSm x hx) p
    rw [input_id hnil'] at this
    exact this
  have rule : ∀ x < lines.length, ∀ p, (P.h x).parent = p ↔ Conf.Spec.ParentRule o.delims (lineAt lines) x p := by
    intro x hx p
    have := C21_indent h hpl0.1 hpl0.2.1 hpl0.2.2 (hPm x hx) p
    rw [input_id hnil] at this
    exact this
  have moved_lt : ∀ x < lines.length, Spec.moved j x < lines.length + 1 := fun x hx => by
    rw [Spec.moved]; split <;> omega
  refine ⟨P'.n, ?_, ?_, ?_, ?_⟩
  · show S.list.map (· + P'.n) = _
    rw [hSl]
    exact List.map_congr_left (fun x _ => Nat.add_comm _ _)
  · rw [Nat.add_comm, embed_new]
    show (S.h (j + 1)).text = t
    rw [show (S.h (j + 1)).text = rstrip (lineAt T (j + 1)) from (attrs hS (by omega)).1, put.new]
    exact (hc t (by simp)).2
  · intro htc p hp
    rw [Nat.add_comm, embed_new]
    show (S.h (j + 1)).parent + P'.n = P'.n + p ↔ _
    rw [Nat.add_comm, Nat.add_left_cancel_iff, rule' _ (by omega)]
    constructor
    · rintro (⟨_, h1⟩ | ⟨_, h1⟩)
      · obtain ⟨h2, h3, h4, h5⟩ := h1
        rw [put.new, put.lo p hp] at h4
        rw [put.lo p hp] at h3
        refine ⟨h3, h4, fun q h6 h7 h8 => ?_⟩
        have := h5 q h6 (by omega) (by rw [put.lo q h7]; exact h8)
        rw [put.new, put.lo q h7] at this
        exact this
      · omega
    · rintro ⟨h1, h2, h3⟩
      exact .inl ⟨fun hu => htc.2 (by have := hu.1; rwa [put.new] at this), nearest_new put hp h1 h2 h3⟩
  · intro x hx hxc
    rw [Nat.add_comm, embed_new]
    have hnu : ¬ Conf.Spec.Unattached o.delims (lineAt T) (Spec.moved j x) := fun hu => by
      have := hu.1
      rw [put.at] at this
      exact hxc.2 this
    have hnu0 : ¬ Conf.Spec.Unattached o.delims (lineAt lines) x := fun hu => hxc.2 hu.1
    refine ⟨?_, fun ⟨h1, h2, h3, h4⟩ => ?_, fun hna => ?_⟩
    · show (S.h (Spec.moved j x)).text = _
      rw [show (S.h (Spec.moved j x)).text = rstrip (lineAt T (Spec.moved j x)) from
        (attrs hS (by rw [hlen]; exact moved_lt x hx)).1, put.at]
      exact (hcl _ (at_mem hx)).2
    · show (S.h (Spec.moved j x)).parent + P'.n = _
      rw [Nat.add_comm P'.n]
      congr 1
      rw [rule' _ (moved_lt x hx)]
      refine .inl ⟨hnu, by rw [Spec.moved, if_neg (by omega)]; omega, by rw [put.new]; exact h1,
        by rw [put.new, put.at]; exact h3, fun q h5 h6 h7 => ?_⟩
      obtain ⟨r, rfl⟩ : ∃ r, q = r + 1 := ⟨q - 1, by omega⟩
      rw [put.hi r (by omega)] at h7 ⊢
      rw [put.at]
      rw [Spec.moved, if_neg (by omega)] at h6
      exact h4 r (by omega) (by omega) h7
    · show (S.h (Spec.moved j x)).parent + P'.n = _
      rw [Nat.add_comm P'.n]
      congr 1
      rw [rule' _ (moved_lt x hx)]
      have hold := fun p => nearest_old (ds := o.delims) put (x := x) (p := p)
        (fun hjx ⟨h1, h2, h3⟩ => hna ⟨h1, hjx, h2, h3⟩)
      rcases (rule x hx _).mp rfl with ⟨_, hp⟩ | ⟨hp, hself⟩
      · exact .inl ⟨hnu, (hold _).mpr ⟨_, rfl, hp⟩⟩
      · refine .inr ⟨.inr (fun q hq => ?_), by rw [hself]⟩
        obtain ⟨q', _, hq'⟩ := (hold q).mp hq
        rcases hp with hp | hp
        · exact hnu0 hp
        · exact hp q' hq'

/-- C251: a comment that is put in changes the parent of no configuration line. -/
theorem C251_comment_partial (h : parse o lines = .ok P) (hpl : Query.Spec.Plain (t :: lines))
    (hc : ∀ l ∈ t :: lines, ¬ Conf.Spec.blank l ∧ rstrip l = l) (hput : Spec.PutAfter P P' j t)
    (hat : atomic o P' = .ok P'') (ht : Conf.Spec.comment o.delims t) :
    ∃ w, P''.list = (List.range (lines.length + 1)).map (w + ·) ∧
      ∀ x < lines.length, Conf.Spec.config o.delims (lineAt lines x) →
        (P''.h (w + Spec.moved j x)).parent = w + Spec.moved j (P.h x).parent := by
  obtain ⟨w, h1, _, _, h2⟩ := C251_put_partial h hpl hc hput hat
  exact ⟨w, h1, fun x hx hxc => (h2 x hx hxc).2.2 (fun ha => ha.1.2 ht)⟩

/-- In a parsed configuration "directly before line `j + 1`" is "directly behind line `j`". -/
theorem after_of_before (hl : P.list = List.range lines.length) (h : Spec.PutBefore P P' (j + 1) t) :
    Spec.PutAfter P P' j t := by
  obtain ⟨A, B, new, h1, h2, h3⟩ := h
  have hA : A = List.range (j + 1) := by
    have h4 : A.length = j + 1 := by
      have := congrArg (fun l => l[A.length]?) (hl.symm.trans h1)
      simp at this
      rw [List.getElem?_eq_some_iff] at this
      obtain ⟨_, h5⟩ := this
      simpa using h5
    have := congrArg (List.take (j + 1)) (hl.symm.trans h1)
    rw [List.take_range, List.take_left' h4] at this
    have h6 : j + 1 ≤ lines.length := by
      have := congrArg List.length (hl.symm.trans h1)
      simp at this; omega
    rw [← this, Nat.min_eq_left h6]
  refine ⟨List.range j, (j + 1) :: B, new, ?_, ?_, h3⟩
  · rw [h1, hA, List.range_succ]; simp
  · rw [h2, hA, List.range_succ]; simp

/-- C251: and the same for a line that is put before line `j + 1`. -/
theorem C251_before_partial (h : parse o lines = .ok P) (hpl : Query.Spec.Plain (t :: lines))
    (hc : ∀ l ∈ t :: lines, ¬ Conf.Spec.blank l ∧ rstrip l = l) (hput : Spec.PutBefore P P' (j + 1) t)
    (hat : atomic o P' = .ok P'') :
    ∃ w, P''.list = (List.range (lines.length + 1)).map (w + ·) ∧ (P''.h (w + (j + 1))).text = t ∧
      ∀ x < lines.length, Conf.Spec.config o.delims (lineAt lines x) →
        (Spec.Adopted o.delims (lineAt lines) j t x → (P''.h (w + Spec.moved j x)).parent = w + (j + 1)) ∧
        (¬ Spec.Adopted o.delims (lineAt lines) j t x →
          (P''.h (w + Spec.moved j x)).parent = w + Spec.moved j (P.h x).parent) := by
  have hl : P.list = List.range lines.length := by
    have hnil : ∀ t ∈ lines, t ≠ [] := fun t ht => by
      rintro rfl; exact (hc [] (by simp [ht])).1 (fun _ hc => by cases hc)
    have hboot := h
    rw [texts_parse hnil] at hboot
    exact list_full hboot (keep_of_noBlank (Or.inr (fun l hl => (hc l (by simp [hl])).1)))
  obtain ⟨w, h1, h2, _, h3⟩ := C251_put_partial h hpl hc (after_of_before hl hput) hat
  exact ⟨w, h1, h2, fun x hx hxc => (h3 x hx hxc).2⟩

/-- Both cases: ` x` behind `a` adopts `  b` and not ` c`. -/
example : ∃ P P' P'', parse {} [s "a", s "  b", s " c", s "  d"] = .ok P ∧
    listInsertAfter {} P (lit "a") (s " x") = .ok P' ∧ atomic {} P' = .ok P'' ∧ P'.list = [0, 4, 1, 2, 3] ∧
    P''.list = [5, 6, 7, 8, 9] ∧ P''.list.map (fun x => (P''.h x).parent) = [5, 5, 6, 5, 8] :=
  ⟨_, _, _, rfl, rfl, rfl, by decide +kernel, by decide +kernel, by decide +kernel⟩

/-- C251 does not hold in a macro: a line that is put in there has the macro as its parent, whatever the indents are. -/
theorem C251_macro_fails : ∃ P P' P'', parse {} [s "macro name m", s "z", s "@"] = .ok P ∧
    listInsertAfter {} P (lit "z") (s " x") = .ok P' ∧ atomic {} P' = .ok P'' ∧
    P''.texts = [s "macro name m", s "z", s " x", s "@"] ∧ P''.list.map (fun x => (P''.h x).parent) = [4, 4, 4, 4] :=
  ⟨_, _, _, rfl, rfl, rfl, by decide +kernel, by decide +kernel⟩

end Edit

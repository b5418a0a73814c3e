import Verif.Edit.Reparse
import Verif.Edit.Props

/-! # C247, C248: what is left behind when `commit()` or an insertion raises

The models of `Edit/Model.lean` give the exception only.  Here the state is kept. -/

namespace Edit

open Py Conf Query

/-! ## The model -/

/-- ciscoconfparse.py:5663-5672: the loop over the lines of a macro; the objects it has marked, and whether it has found
the end (else `self._list[idx]` raises an `IndexError`). -/
def macroBodyS (p : Nat) : List Nat → Heap → Heap × Bool
  | [], h => (h, false)
  | i :: todo, h =>
    let h1 := upd (upd h i (fun b => { b with blankKeep := true, parent := p }))
      p (fun b => { b with children := b.children ++ [i] })
    if rstrip (h1 i).text = "@".toList then (h1, true) else macroBodyS p todo h1

/-- ciscoconfparse.py:5648-5672 `_macro_mark_children`. -/
def macroPassS (n : Nat) : List Nat → Heap → Heap × Bool
  | [], h => (h, true)
  | p :: ps, h =>
    let r := macroBodyS p (List.range' (p + 1) (n - (p + 1))) (upd h p (fun b => { b with blankKeep := true, childIndent := 0 }))
    if r.2 then macroPassS n ps r.1 else r

/-- How `bootstrap_obj_init_ng` ends: with the new list; with an exception before `self._list` is changed; with an
exception after that. -/
inductive Outcome where
  | done (Q : Parsed)
  | early (e : Err)
  | late (Q : Parsed) (e : Err)

/-- ciscoconfparse.py:5737-5831 `bootstrap_obj_init_ng`, with the assignments to `self._list` (5804, 5829). -/
def bootS (o : Opts) (lines : List Str) : Outcome :=
  let s := indentPass o lines
  match bracePass (List.range s.n) [] s.h with
  | .error e => .early e
  | .ok h1 =>
    let r := if o.syn = .junos then (h1, true)
      else macroPassS s.n (if o.syn = .ios then macroLines lines else []) (bannerPass s.n h1)
    if r.2 then .done { h := r.1, n := s.n, list := (List.range s.n).filter (fun i => keepLine o (r.1 i)) }
    else .late { h := r.1, n := s.n, list := List.range s.n } .indexError

/-- ciscoconfparse.py:981-1010 `atomic` and `commit`: the configuration afterwards, and the exception. -/
def atomicS (o : Opts) (P : Parsed) : Parsed × Option Err :=
  match bootS o P.texts with
  | .done Q => (embed P Q, none)
  | .early e => (P, some e)
  | .late Q e => (embed P Q, some e)

/-- ciscoconfparse.py:2863-2886, 3010-3033: the loop of `insert_before` and `insert_after`. -/
def insertEachS (ins : Parsed → Except Err Parsed) : List Nat → Parsed → Parsed × Option Err
  | [], P => (P, none)
  | i :: is, P =>
    if indentOk (P.h i) then
      match ins P with
      | .ok Q => insertEachS ins is Q
      | .error e => (P, some e)
    else (P, some .requirement)

/-- ciscoconfparse.py:2776-2894 `insert_before`: the configuration afterwards, and the exception. -/
def insertBeforeS (o : Opts) (P : Parsed) (found rx : Rx) (new : Str) (newIndent : Int) (atom : Bool) : Parsed × Option Err :=
  if rx.lit = [] ∨ new = [] then (P, some .valueError)
  else
    let r := insertEachS (fun Q => listInsertBefore o Q rx (indented new newIndent)) (findObjects P found) P
    if r.2 = none ∧ atom = true then atomicS o r.1 else r

/-- ciscoconfparse.py:2923-3041 `insert_after`: the configuration afterwards, and the exception. -/
def insertAfterS (o : Opts) (P : Parsed) (found rx : Rx) (new : Str) (newIndent : Int) (atom : Bool) : Parsed × Option Err :=
  let r := insertEachS (fun Q => listInsertAfter o Q rx (indented new newIndent)) (findObjects P found) P
  if r.2 = none ∧ atom = true then atomicS o r.1 else r

/-- A result that is an exception or a configuration. -/
def result (r : Parsed × Option Err) : Except Err Parsed :=
  match r.2 with
  | none => .ok r.1
  | some e => .error e

/-! ## The models agree -/

theorem macroBody_result (p : Nat) : ∀ (todo : List Nat) (h : Heap), macroBody p todo h =
    if (macroBodyS p todo h).2 then .ok (macroBodyS p todo h).1 else .error .indexError
  | [], h => rfl
  | i :: todo, h => by
    rw [macroBody, macroBodyS]
    split
    · rfl
    · exact macroBody_result p todo _

theorem macroPass_result (n : Nat) : ∀ (ps : List Nat) (h : Heap), macroPass n ps h =
    if (macroPassS n ps h).2 then .ok (macroPassS n ps h).1 else .error .indexError
  | [], h => rfl
  | p :: ps, h => by
    rw [macroPass, macroOne, macroBody_result, macroPassS]
    split
    · exact macroPass_result n ps _
    · rename_i hf
      rfl

theorem boot_result (o : Opts) (lines : List Str) : bootstrap o lines =
    match bootS o lines with
    | .done Q => .ok Q
    | .early e => .error e
    | .late _ e => .error e := by
  rw [bootstrap, bootS]
  simp only []
  cases hb : bracePass (List.range (indentPass o lines).n) [] (indentPass o lines).h with
  | error e => rfl
  | ok h1 =>
    simp only [bind, Except.bind]
    by_cases hj : o.syn = .junos
    · simp [hj]
    · simp only [if_neg hj, macroPass_result]
      cases hm : (macroPassS (indentPass o lines).n (if o.syn = .ios then macroLines lines else [])
        (bannerPass (indentPass o lines).n h1)).2 <;> simp

/-- C247: this is the `commit()` of the other theorems. -/
theorem C247_agree (o : Opts) (P : Parsed) : atomic o P = result (atomicS o P) := by
  rw [atomic, atomicS, boot_result]
  cases bootS o P.texts <;> rfl

theorem macroBodyS_text (p : Nat) : ∀ (todo : List Nat) (h : Heap) (j : Nat), ((macroBodyS p todo h).1 j).text = (h j).text
  | [], _, _ => rfl
  | i :: todo, h, j => by
    have hu : ((upd (upd h i (fun b => { b with blankKeep := true, parent := p })) p
        (fun b => { b with children := b.children ++ [i] })) j).text = (h j).text := by
      rw [upd]; split
      · rename_i e; subst e; show (upd h i _ j).text = _; rw [upd]; split
        · rename_i e; subst e; rfl
        · rfl
      · rw [upd]; split
        · rename_i e; subst e; rfl
        · rfl
    rw [macroBodyS]
    split
    · exact hu
    · rw [macroBodyS_text p todo]; exact hu

theorem macroPassS_text (n : Nat) : ∀ (ps : List Nat) (h : Heap) (j : Nat), ((macroPassS n ps h).1 j).text = (h j).text
  | [], _, _ => rfl
  | p :: ps, h, j => by
    have hu : ∀ j, ((upd h p (fun b => { b with blankKeep := true, childIndent := 0 })) j).text = (h j).text := by
      intro j; rw [upd]; split
      · rename_i e; subst e; rfl
      · rfl
    rw [macroPassS]
    split
    · rw [macroPassS_text n ps, macroBodyS_text, hu]
    · rw [macroBodyS_text, hu]

theorem late_texts {o : Opts} {lines : List Str} {Q : Parsed} {e : Err} (h : bootS o lines = .late Q e) :
    Q.texts = lines.map rstrip ∧ e = .indexError := by
  rw [bootS] at h
  simp only [] at h
  cases hb : bracePass (List.range (indentPass o lines).n) [] (indentPass o lines).h with
  | error e => rw [hb] at h; cases h
  | ok h1 =>
    rw [hb] at h
    simp only [] at h
    have ht := (brace_heap o lines).1 h1 hb |>.text
    have hr : ∀ j, ((if o.syn = .junos then (h1, true) else macroPassS (indentPass o lines).n
        (if o.syn = .ios then macroLines lines else []) (bannerPass (indentPass o lines).n h1)).1 j).text =
        rstrip (lineAt lines j) := by
      intro j
      by_cases hj : o.syn = .junos
      · rw [if_pos hj]; exact ht j
      · rw [if_neg hj, macroPassS_text, bannerPass_spec _ _ _ ht]
        exact ht j
    revert h hr
    generalize (if o.syn = .junos then (h1, true) else macroPassS (indentPass o lines).n
        (if o.syn = .ios then macroLines lines else []) (bannerPass (indentPass o lines).n h1)) = r
    intro h hr
    by_cases h2 : r.2 = true
    · rw [if_pos h2] at h; cases h
    · rw [if_neg h2] at h
      cases h
      refine ⟨?_, rfl⟩
      show (List.range (indentPass o lines).n).map (fun i => (r.1 i).text) = _
      rw [indentPass_n]
      simp only [hr]
      apply List.ext_getElem?
      intro j
      rw [List.getElem?_map, List.getElem?_map]
      by_cases hj : j < lines.length
      · rw [List.getElem?_range hj, List.getElem?_eq_getElem hj]
        simp [lineAt, hj]
      · rw [List.getElem?_eq_none (by simp; omega), List.getElem?_eq_none (by omega)]; rfl

theorem texts_embed (P Q : Parsed) : (embed P Q).texts = Q.texts := by
  rw [Parsed.texts, Parsed.texts]
  show (Q.list.map (· + P.n)).map _ = _
  rw [List.map_map]
  refine List.map_congr_left (fun i _ => ?_)
  exact text_embed i

/-! ## C247 -/

/-- C247: when `commit()` raises, no line is lost, added or changed (up to blanks at its end, which no line has). -/
theorem C247_lines {o : Opts} {P : Parsed} {e : Err} (h : (atomicS o P).2 = some e) :
    (atomicS o P).1.texts.map rstrip = P.texts.map rstrip ∧
    ((∀ t ∈ P.texts, rstrip t = t) → (atomicS o P).1.texts = P.texts) := by
  have key : (atomicS o P).1.texts = P.texts ∨ (atomicS o P).1.texts = P.texts.map rstrip := by
    rw [atomicS] at h ⊢
    cases hb : bootS o P.texts with
    | done Q => rw [hb] at h; cases h
    | early e' => exact .inl rfl
    | late Q e' => exact .inr (by rw [texts_embed, (late_texts hb).1])
  rcases key with k | k
  · exact ⟨by rw [k], fun _ => k⟩
  · refine ⟨?_, fun ht => ?_⟩
    · rw [k, List.map_map]
      refine List.map_congr_left (fun t _ => ?_)
      exact rstrip_rstrip t
    · rw [k]
      conv => rhs; rw [← List.map_id P.texts]
      exact List.map_congr_left ht

/-- C247: when it raises because a closing brace has no opening brace, nothing at all has changed. -/
theorem C247_brace {o : Opts} {P : Parsed} (h : (atomicS o P).2 = some .valueError) : (atomicS o P).1 = P := by
  rw [atomicS] at h ⊢
  cases hb : bootS o P.texts with
  | done Q => rw [hb] at h; cases h
  | early e' => rfl
  | late Q e' =>
    rw [hb] at h
    have := (late_texts hb).2
    subst this
    cases h

/-- C247: and the next `commit()` raises the same. -/
theorem C247_again {o : Opts} {P : Parsed} {e : Err} (h : (atomicS o P).2 = some e) (ht : ∀ t ∈ P.texts, rstrip t = t) :
    (atomicS o (atomicS o P).1).2 = some e := by
  have k := (C247_lines h).2 ht
  have : ∀ {P Q : Parsed}, P.texts = Q.texts → (atomicS o P).2 = (atomicS o Q).2 := by
    intro P Q hPQ
    rw [atomicS, atomicS, hPQ]
    cases bootS o Q.texts <;> rfl
  rw [this k, h]

/-- The configuration `a`, ` b` with a line `macro name m` put in front, not committed. -/
def unfinished : Option Parsed :=
  (parse {} [s "a", s " b"]).toOption.bind fun P => (listInsertBefore {} P (lit "a") (s "macro name m")).toOption

/-- C247 does not hold for the tree: after `commit()` has raised, ` b` (the third line) is among the children of `a`,
and its parent is the macro line. -/
theorem C247_tree_fails : ∃ P i a m, unfinished = some P ∧ (atomicS {} P).2 = some .indexError ∧
    (atomicS {} P).1.texts = [s "macro name m", s "a", s " b"] ∧ (atomicS {} P).1.list = [m, a, i] ∧
    i ∈ ((atomicS {} P).1.h a).children ∧ ((atomicS {} P).1.h i).parent = m ∧ m ≠ a :=
  ⟨_, 5, 4, 3, rfl, by decide +kernel, by decide +kernel, by decide +kernel, by decide +kernel, by decide +kernel,
    by decide⟩

/-- The hypotheses of `C247_brace` and `C247_again` are met: a brace is put in that closes nothing. -/
example : ∃ P Q, parse {} [s "a", s " b"] = .ok P ∧ listInsertAfter {} P (lit "a") (s "}") = .ok Q ∧
    (atomicS {} Q).2 = some .valueError ∧ ∀ t ∈ Q.texts, rstrip t = t :=
  ⟨_, _, rfl, rfl, by decide +kernel, by decide +kernel⟩

/-! ## C248 -/

theorem each_result (ins : Parsed → Except Err Parsed) : ∀ (is : List Nat) (P : Parsed),
    insertEach ins is P = result (insertEachS ins is P)
  | [], _ => rfl
  | i :: is, P => by
    rw [insertEach, insertEachS]
    split
    · cases h : ins P with
      | error e => rfl
      | ok Q => exact each_result ins is Q
    · rfl

theorem result_then (r : Parsed × Option Err) (o : Opts) (a : Bool) :
    (do let Q ← result r; if a then atomic o Q else .ok Q) =
      result (if r.2 = none ∧ a = true then atomicS o r.1 else r) := by
  obtain ⟨P, e⟩ := r
  cases e with
  | some e => simp [result, bind, Except.bind]
  | none =>
    cases a with
    | false => simp [result, bind, Except.bind]
    | true => simp [result, bind, Except.bind, C247_agree]

/-- C248: these are the insertions of the other theorems. -/
theorem C248_agree (o : Opts) (P : Parsed) (found rx : Rx) (new : Str) (k : Int) (a : Bool) :
    insertBefore o P found rx new k a = result (insertBeforeS o P found rx new k a) ∧
    insertAfter o P found rx new k a = result (insertAfterS o P found rx new k a) := by
  constructor
  · rw [insertBefore, insertBeforeS]
    split
    · rfl
    · rw [each_result]; exact result_then _ o a
  · rw [insertAfter, insertAfterS, each_result]; exact result_then _ o a

theorem each_raise {ins : Parsed → Except Err Parsed}
    (hins : (∃ e, ∀ Q, ins Q = .error e) ∨ (∃ f : Parsed → Parsed, ∀ Q, ins Q = .ok (f Q) ∧ Q.n ≤ (f Q).n ∧
      ∀ x < Q.n, ((f Q).h x).text = (Q.h x).text ∧ ((f Q).h x).indent = (Q.h x).indent))
    {is : List Nat} {P : Parsed} (hi : ∀ i ∈ is, i < P.n ∧ indentOk (P.h i) = true) {e : Err}
    (h : (insertEachS ins is P).2 = some e) : (insertEachS ins is P).1 = P := by
  rcases hins with ⟨e', he⟩ | ⟨f, hf⟩
  · cases is with
    | nil => cases h
    | cons i is => rw [insertEachS, if_pos (hi i (by simp)).2, he]
  · exfalso
    induction is generalizing P with
    | nil => cases h
    | cons i is ih =>
      rw [insertEachS, if_pos (hi i (by simp)).2, (hf P).1] at h
      refine ih (fun j hj => ?_) h
      obtain ⟨h1, h2⟩ := hi j (by simp [hj])
      refine ⟨Nat.lt_of_lt_of_le h1 (hf P).2.1, ?_⟩
      obtain ⟨h3, h4⟩ := (hf P).2.2 j h1
      rw [indentOk, h3, h4]; exact h2

theorem before_kind (o : Opts) (rx : Rx) (new : Str) :
    (∃ e, ∀ Q, listInsertBefore o Q rx new = .error e) ∨ (∃ f : Parsed → Parsed, ∀ Q, listInsertBefore o Q rx new = .ok (f Q) ∧
      Q.n ≤ (f Q).n ∧ ∀ x < Q.n, ((f Q).h x).text = (Q.h x).text ∧ ((f Q).h x).indent = (Q.h x).indent) := by
  by_cases h1 : blankNew o new = true
  · exact .inl ⟨_, fun Q => by rw [listInsertBefore, if_pos h1]⟩
  · by_cases h2 : rx.lit = []
    · exact .inl ⟨_, fun Q => by rw [listInsertBefore, if_neg h1, if_pos h2]⟩
    · exact .inr ⟨fun Q => putNew o Q new (matchIdx Q rx), fun Q =>
        ⟨by rw [listInsertBefore, if_neg h1, if_neg h2], putNew_keep o Q new _⟩⟩

theorem after_kind (o : Opts) (rx : Rx) (new : Str) :
    (∃ e, ∀ Q, listInsertAfter o Q rx new = .error e) ∨ (∃ f : Parsed → Parsed, ∀ Q, listInsertAfter o Q rx new = .ok (f Q) ∧
      Q.n ≤ (f Q).n ∧ ∀ x < Q.n, ((f Q).h x).text = (Q.h x).text ∧ ((f Q).h x).indent = (Q.h x).indent) := by
  by_cases h1 : blankNew o new = true
  · exact .inl ⟨_, fun Q => by rw [listInsertAfter, if_pos h1]⟩
  · by_cases h2 : rx.lit = []
    · exact .inl ⟨_, fun Q => by rw [listInsertAfter, if_neg h1, if_pos h2]⟩
    · exact .inr ⟨fun Q => putNew o Q new ((matchIdx Q rx).map (· + 1)), fun Q =>
        ⟨by rw [listInsertAfter, if_neg h1, if_neg h2], putNew_keep o Q new _⟩⟩

/-- C248 without `atomic=True`: an `insert_before` or `insert_after` that raises has changed nothing. -/
theorem C248_same_partial {o : Opts} {C : Compile} {P : Parsed} (hr : Spec.Reach o C P) (hin : Spec.Indents P)
    (found rx : Rx) (new : Str) (k : Int) (e : Err) :
    ((insertBeforeS o P found rx new k false).2 = some e → (insertBeforeS o P found rx new k false).1 = P) ∧
    ((insertAfterS o P found rx new k false).2 = some e → (insertAfterS o P found rx new k false).1 = P) := by
  have hw := wf_reach hr
  have hi : ∀ i ∈ findObjects P found, i < P.n ∧ indentOk (P.h i) = true := fun i hm => by
    have hm := (List.mem_filter.mp hm).1
    exact ⟨hw.list i hm, indentOk_of hin hm⟩
  constructor
  · intro h
    rw [insertBeforeS] at h ⊢
    split
    · rfl
    · rename_i hc
      simp only [if_neg hc, Bool.false_eq_true, and_false, if_false] at h ⊢
      exact each_raise (before_kind o rx _) hi h
  · intro h
    simp only [insertAfterS, Bool.false_eq_true, and_false, if_false] at h ⊢
    exact each_raise (after_kind o rx _) hi h

/-- C248 with `atomic=True`: when it raises, nothing has changed, or the insertion has been made in full and the
`commit()` after it has raised. -/
theorem C248_atomic_partial {o : Opts} {C : Compile} {P : Parsed} (hr : Spec.Reach o C P) (hin : Spec.Indents P)
    (found rx : Rx) (new : Str) (k : Int) (e : Err) :
    ((insertBeforeS o P found rx new k true).2 = some e → (insertBeforeS o P found rx new k true).1 = P ∨
      ∃ Q, insertBefore o P found rx new k false = .ok Q ∧ atomic o Q = .error e ∧
        (insertBeforeS o P found rx new k true).1.texts.map rstrip = Q.texts.map rstrip) ∧
    ((insertAfterS o P found rx new k true).2 = some e → (insertAfterS o P found rx new k true).1 = P ∨
      ∃ Q, insertAfter o P found rx new k false = .ok Q ∧ atomic o Q = .error e ∧
        (insertAfterS o P found rx new k true).1.texts.map rstrip = Q.texts.map rstrip) := by
  have hw := wf_reach hr
  have hi : ∀ i ∈ findObjects P found, i < P.n ∧ indentOk (P.h i) = true := fun i hm => by
    have hm := (List.mem_filter.mp hm).1
    exact ⟨hw.list i hm, indentOk_of hin hm⟩
  have hat : ∀ Q, (atomicS o Q).2 = some e → atomic o Q = .error e := fun Q h => by
    rw [C247_agree, result, h]
  constructor
  · intro h
    rw [(C248_agree o P found rx new k false).1]
    rw [insertBeforeS] at h ⊢
    rw [insertBeforeS]
    split
    · exact .inl rfl
    · rename_i hc
      simp only [if_neg hc, Bool.false_eq_true, and_false, if_false, and_true] at h ⊢
      split at h
      · rename_i h0
        rw [if_pos h0]
        exact .inr ⟨_, by rw [result, h0], hat _ h, (C247_lines h).1⟩
      · rename_i h0
        rw [if_neg h0]
        exact .inl (each_raise (before_kind o rx _) hi h)
  · intro h
    rw [(C248_agree o P found rx new k false).2]
    rw [insertAfterS] at h ⊢
    rw [insertAfterS]
    simp only [Bool.false_eq_true, and_false, if_false, and_true] at h ⊢
    split at h
    · rename_i h0
      rw [if_pos h0]
      exact .inr ⟨_, by rw [result, h0], hat _ h, (C247_lines h).1⟩
    · rename_i h0
      rw [if_neg h0]
      exact .inl (each_raise (after_kind o rx _) hi h)

/-- Both outcomes of C248 are met: a blank line is refused, and a brace that closes nothing stays. -/
example : ∃ P, parse {} [s "a", s " b"] = .ok P ∧
    (insertAfterS {} P (lit "a") (lit "a") (s " ") (-1) false).2 = some .invalidParameters ∧
    (insertAfterS {} P (lit "a") (lit "a") (s "}") (-1) true).2 = some .valueError :=
  ⟨_, rfl, by decide +kernel, by decide +kernel⟩

/-- C248 fails with `atomic=True`: `insert_after("a", "}", atomic=True)` raises a `ValueError`, and the brace stays in
the configuration. -/
theorem C248_atomic_fails : ∃ P, parse {} [s "a", s " b"] = .ok P ∧
    insertAfter {} P (lit "a") (lit "a") (s "}") (-1) true = .error .valueError ∧
    (insertAfterS {} P (lit "a") (lit "a") (s "}") (-1) true).1.texts = [s "a", s "}", s " b"] :=
  ⟨_, rfl, rfl, by decide +kernel⟩

end Edit

import Verif.Vlan.Spec
import Verif.Range.Props
import Verif.Conf.Braces

/-! # Lemmas about the allowed VLANs -/

namespace Vlan

open Py Range Spec

/-! ## Reading a line -/

theorem splitWs_gap {w r v : Str} (hw : Gap w) (hv : IsWord v) : splitWs (v ++ (w ++ r)) = v :: splitWs r := by
  obtain ⟨h1, h2⟩ := hw
  cases w with
  | nil => exact absurd rfl h1
  | cons c w =>
    rw [List.cons_append, splitWs_word_space hv (h2 c (by simp)), splitWs_spaces _ _ (fun x hx => h2 x (by simp [hx]))]

theorem gap_head {w r : Str} (hw : Gap w) : ∃ c t, w ++ r = c :: t ∧ isSpace c = true := by
  obtain ⟨h1, h2⟩ := hw
  cases w with
  | nil => exact absurd rfl h1
  | cons c w => exact ⟨c, w ++ r, rfl, h2 c (by simp)⟩

theorem dropWord_gap {w0 w r v : Str} (h0 : ∀ c ∈ w0, isSpace c = true) (hw : Gap w) (hv : IsWord v) :
    dropWord (w0 ++ (v ++ (w ++ r))) = w ++ r := by
  rw [dropWord, Conf.lstrip_pre h0]
  · obtain ⟨c, t, e, hc⟩ := gap_head (r := r) hw
    rw [e]
    have : ∀ (v : Str), (∀ c ∈ v, isSpace c = false) →
        (v ++ c :: t).dropWhile (fun c => !isSpace c) = c :: t := by
      intro v hv
      induction v with
      | nil => rw [List.nil_append, List.dropWhile_cons, if_neg (by simp [hc])]
      | cons x v ih =>
        rw [List.cons_append, List.dropWhile_cons, if_pos (by simp [hv x (by simp)]),
          ih (fun c hc => hv c (by simp [hc]))]
    exact this v hv.2
  · intro a ha
    obtain ⟨x, u, e⟩ := List.exists_cons_of_ne_nil hv.1
    rw [e] at ha
    simp at ha
    rw [← ha]; exact hv.2 x (by rw [e]; simp)

theorem word_of {v : Str} (h : v ≠ [] ∧ ∀ c ∈ v, isSpace c = false) : IsWord v := h

/-- The words and the rest of a statement line. -/
theorem reads_words {w0 w1 w2 w3 w4 a : Str} (h0 : Gap w0) (h1 : Gap w1) (h2 : Gap w2) (h3 : Gap w3)
    (h4 : Gap w4) :
    let t := w0 ++ "switchport".toList ++ w1 ++ "trunk".toList ++ w2 ++ "allowed".toList ++ w3 ++
        "vlan".toList ++ w4 ++ a
    splitWs t = fourWords ++ splitWs a ∧ dropWords 4 t = w4 ++ a ∧ indented t = true := by
  intro t
  have e : t = w0 ++ ("switchport".toList ++ (w1 ++ ("trunk".toList ++ (w2 ++ ("allowed".toList ++ (w3 ++
        ("vlan".toList ++ (w4 ++ a)))))))) := by simp only [t, List.append_assoc]
  have k1 : IsWord "switchport".toList := word_of (by decide)
  have k2 : IsWord "trunk".toList := word_of (by decide)
  have k3 : IsWord "allowed".toList := word_of (by decide)
  have k4 : IsWord "vlan".toList := word_of (by decide)
  refine ⟨?_, ?_, ?_⟩
  · rw [e, splitWs_spaces _ _ h0.2, splitWs_gap h1 k1, splitWs_gap h2 k2, splitWs_gap h3 k3, splitWs_gap h4 k4]
    rfl
  · rw [e, dropWords, dropWord_gap h0.2 h1 k1, dropWords, dropWord_gap h1.2 h2 k2, dropWords,
      dropWord_gap h2.2 h3 k3, dropWords, dropWord_gap h3.2 h4 k4, dropWords]
  · obtain ⟨c, u, e', hc⟩ := gap_head (r := "switchport".toList ++ (w1 ++ ("trunk".toList ++ (w2 ++
      ("allowed".toList ++ (w3 ++ ("vlan".toList ++ (w4 ++ a)))))))) h0
    rw [e, e', indented]
    simp [hc]

theorem splitWsAux_head : ∀ (s acc : Str), acc ≠ [] → ∃ v rest, splitWsAux s acc = (acc.reverse ++ v) :: rest
  | [], acc, h => ⟨[], [], by rw [splitWsAux]; simp [h]⟩
  | x :: s, acc, h => by
    rw [splitWsAux]
    split
    · exact ⟨[], splitWsAux s [], by simp [h]⟩
    · obtain ⟨v, rest, e⟩ := splitWsAux_head s (x :: acc) (by simp)
      exact ⟨x :: v, rest, by rw [e]; simp⟩

theorem splitWs_head {c : Char} (hc : isSpace c = false) (s : Str) : ∃ v rest, splitWs (c :: s) = (c :: v) :: rest := by
  obtain ⟨v, rest, e⟩ := splitWsAux_head s [c] (by simp)
  refine ⟨v, rest, ?_⟩
  rw [splitWs, splitWsAux, if_neg (by simp [hc]), e]
  rfl

theorem text_cons {l : List Item} (h : Good l) : ∃ c r, text l = c :: r ∧ isDigit c = true := by
  cases e : text l with
  | nil =>
    exfalso
    obtain ⟨i, r, el⟩ := List.exists_cons_of_ne_nil h.ne
    have hi : i.text ≠ [] := by
      have := h.valid i (by rw [el]; simp)
      cases i with
      | single w1 d w2 =>
        obtain ⟨_, h2, _⟩ := this
        intro hn
        simp [Item.text] at hn
        rw [hn.2.1] at h2; revert h2; decide
      | span => simp [Item.text]
    rw [text, el] at e
    cases r with
    | nil => simp [join] at e; exact hi e
    | cons j r => simp [join] at e
  | cons c r => exact ⟨c, r, rfl, h.first c (by rw [e]; rfl)⟩

theorem vlanChar_item {i : Item} (h : i.Valid) : ∀ c ∈ i.text, isVlanChar c = true := by
  have hs : ∀ {w : Str}, allSpace w → ∀ c ∈ w, isVlanChar c = true := fun hw c hc => by
    simp [isVlanChar, hw c hc]
  have hd : ∀ {d : Str}, allDigits d = true → ∀ c ∈ d, isVlanChar c = true := fun hd c hc => by
    simp [isVlanChar, allDigits_mem hd c hc]
  intro c hc
  cases i with
  | single w1 d w2 =>
    obtain ⟨h1, h2, h3⟩ := h
    simp only [Item.text, List.mem_append] at hc
    rcases hc with (hc | hc) | hc
    · exact hs h1 c hc
    · exact hd h2 c hc
    · exact hs h3 c hc
  | span w1 d1 w2 w3 d2 w4 =>
    obtain ⟨h1, h2, h3, h4, h5, h6⟩ := h
    simp only [Item.text, List.mem_append, List.mem_cons] at hc
    rcases hc with ((hc | hc) | hc) | hc | (hc | hc) | hc
    · exact hs h1 c hc
    · exact hd h2 c hc
    · exact hs h3 c hc
    · subst hc; decide
    · exact hs h4 c hc
    · exact hd h5 c hc
    · exact hs h6 c hc

theorem vlanChar_join : ∀ (l : List Str), (∀ s ∈ l, ∀ c ∈ s, isVlanChar c = true) →
    ∀ c ∈ join [','] l, isVlanChar c = true
  | [], _, c, hc => by cases hc
  | [s], h, c, hc => h s (by simp) c hc
  | s :: t :: r, h, c, hc => by
    simp only [join, List.mem_append, List.mem_singleton] at hc
    rcases hc with (hc | hc) | hc
    · exact h s (by simp) c hc
    · subst hc; decide
    · exact vlanChar_join (t :: r) (fun u hu => h u (by simp at hu ⊢; exact Or.inr hu)) c hc

theorem listArg_text {l : List Item} (h : Good l) : listArg (text l) = some (text l) := by
  rw [listArg, if_pos]
  rw [Bool.and_eq_true]
  constructor
  · obtain ⟨c, r, e, hc⟩ := text_cons h
    rw [e]; simp [hc]
  · rw [List.all_eq_true]
    refine vlanChar_join _ ?_
    intro s hs
    obtain ⟨i, hi, rfl⟩ := List.mem_map.mp hs
    exact vlanChar_item (h.valid i hi)

theorem text_head_space {l : List Item} (h : Good l) : ∀ c, (text l).head? = some c → isSpace c = false :=
  fun c hc => isDigit_not_space (h.first c hc)

/-- One statement on `vdict`. -/
def stepS (v : VD) : Stmt → VD
  | .none => { v with allowed := [] }
  | .all => { v with allowed := allVlans }
  | .list l =>
    if v.allowed = allVlans ∨ v.allowed = [] then { v with allowed := text l }
    else { v with allowed := v.allowed ++ ',' :: text l }
  | .add l => { v with add := plus v.add (text l) }
  | .except l => { v with exc := plus v.exc (text l) }
  | .remove l => { v with rem := plus v.rem (text l) }

theorem step_reads {t : Str} {s : Stmt} (h : Reads t s) (v : VD) : step v t = stepS v s := by
  cases h with
  | mk h0 h1 h2 h3 h4 ha =>
    rename_i w0 w1 w2 w3 w4 a
    obtain ⟨hw, hd, hi⟩ := reads_words (a := a) h0 h1 h2 h3 h4
    generalize w0 ++ "switchport".toList ++ w1 ++ "trunk".toList ++ w2 ++ "allowed".toList ++ w3 ++
        "vlan".toList ++ w4 ++ a = t at hw hd hi
    have take5 : ∀ {x : Str} {r : List Str}, splitWs a = x :: r → (splitWs t).take 5 = fourWords ++ [x] := by
      intro x r e
      rw [hw, e]; simp [fourWords]
    -- a plain argument
    have plain : ∀ {x : Str} {r : List Str}, splitWs a = x :: r → x ≠ "add".toList → x ≠ "except".toList →
        x ≠ "remove".toList → (∀ c, a.head? = some c → isSpace c = false) → step v t = stepAllowed v a := by
      intro x r e n1 n2 n3 hh
      have inj : ∀ {y : Str}, fourWords ++ [x] = fourWords ++ [y] → x = y := by
        intro y h
        simpa using h
      unfold step
      dsimp only
      rw [take5 e, if_neg (fun h => n1 (inj h)), if_neg (fun h => n2 (inj h)), if_neg (fun h => n3 (inj h)),
        if_pos (by simp [fourWords]), if_pos hi, hd, Conf.lstrip_pre h4.2 hh]
    -- an argument with a key word
    have keyed : ∀ {k w : Str} {l : List Item}, a = k ++ w ++ text l → IsWord k → Gap w → Good l →
        (splitWs t).take 5 = fourWords ++ [k] ∧ arg 5 t = some (text l) := by
      intro k w l e hk hg hl
      have e' : a = k ++ (w ++ text l) := by rw [e, List.append_assoc]
      refine ⟨take5 (by rw [e', splitWs_gap hg hk]), ?_⟩
      have d5 : dropWords 5 t = dropWord (dropWords 4 t) := rfl
      rw [arg, if_pos hi, d5, hd, e', dropWord_gap h4.2 hg hk, Conf.lstrip_pre hg.2 (text_head_space hl),
        listArg_text hl]
    cases ha with
    | none =>
      rw [plain (x := "none".toList) (r := []) (by decide) (by decide) (by decide) (by decide)
        (by intro c hc; have : "none".toList.head? = some 'n' := rfl
            rw [this] at hc; cases hc; rfl)]
      rfl
    | all =>
      rw [plain (x := "all".toList) (r := []) (by decide) (by decide) (by decide) (by decide)
        (by intro c hc; have : "all".toList.head? = some 'a' := rfl
            rw [this] at hc; cases hc; rfl)]
      rfl
    | list hl =>
      rename_i l
      obtain ⟨c, r, e, hc⟩ := text_cons hl
      obtain ⟨x, rest, ex⟩ := splitWs_head (isDigit_not_space hc) r
      have ne : ∀ {y : Char} {ys : Str}, isDigit y = false → c :: x ≠ y :: ys := by
        intro y ys hy h
        have := (List.cons.inj h).1
        rw [this, hy] at hc; cases hc
      have ne' : ∀ {y : Char} {ys : Str}, isDigit y = false → text l ≠ y :: ys := by
        intro y ys hy h
        rw [e] at h
        have := (List.cons.inj h).1
        rw [this, hy] at hc; cases hc
      rw [plain (x := c :: x) (r := rest) (by rw [e, ex]) (ne (y := 'a') (by decide)) (ne (y := 'e') (by decide))
        (ne (y := 'r') (by decide)) (text_head_space hl)]
      have n1 : text l ≠ "none".toList := ne' (y := 'n') (by decide)
      have n2 : text l ≠ "all".toList := ne' (y := 'a') (by decide)
      rw [stepAllowed, if_neg n1, if_neg n2, listArg_text hl]
      rfl
    | add hl hg =>
      obtain ⟨k1, k2⟩ := keyed rfl (word_of (by decide)) hg hl
      unfold step
      dsimp only
      rw [k1, if_pos rfl, k2]
      rfl
    | except hl hg =>
      obtain ⟨k1, k2⟩ := keyed rfl (word_of (by decide)) hg hl
      unfold step
      dsimp only
      rw [k1, if_neg (by decide), if_pos rfl, k2]
      rfl
    | remove hl hg =>
      obtain ⟨k1, k2⟩ := keyed rfl (word_of (by decide)) hg hl
      unfold step
      dsimp only
      rw [k1, if_neg (by decide), if_neg (by decide), if_pos rfl, k2]
      rfl

theorem step_other {t : Str} (h : Other t) (v : VD) : step v t = v := by
  have h4 : ((splitWs t).take 5).take 4 ≠ fourWords := by
    rw [List.take_take]; exact h
  have h5 : ∀ k : Str, (splitWs t).take 5 ≠ fourWords ++ [k] := by
    intro k e
    apply h4
    rw [e]; rfl
  unfold step
  dsimp only
  rw [if_neg (h5 _), if_neg (h5 _), if_neg (h5 _), if_neg h4]

theorem fold_lines {ts : List Str} {ss : List Stmt} (h : Lines ts ss) (v : VD) :
    ts.foldl step v = ss.foldl stepS v := by
  induction h generalizing v with
  | nil => rfl
  | stmt hr _ ih => rw [List.foldl_cons, List.foldl_cons, step_reads hr, ih]
  | other ho _ ih => rw [List.foldl_cons, step_other ho, ih]

end Vlan

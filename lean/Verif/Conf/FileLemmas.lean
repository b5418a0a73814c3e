import Verif.Conf.File
import Verif.Conf.Reparse

/-! # Splitting a saved file into lines -/

namespace Conf

open Py

theorem universal_append {t : Str} (ht : '\r' ∉ t) (r : Str) :
    universal (t ++ r) = t ++ universal r := by
  induction t with
  | nil => rfl
  | cons c t ih =>
    have hc : c ≠ '\r' := fun h => ht (by rw [h]; simp)
    rw [List.cons_append, universal, ih (fun h => ht (by simp [h])), List.cons_append]
    · rintro r' rfl; exact absurd rfl hc
    · exact hc

theorem universal_save {ts : List Str} (h : ∀ t ∈ ts, '\r' ∉ t) : universal (saveText ts) = saveText ts := by
  induction ts with
  | nil => rfl
  | cons t ts ih =>
    rw [saveText, List.flatMap_cons, universal_append]
    · rw [show ts.flatMap (fun t => t ++ ['\n']) = saveText ts from rfl, ih (fun u hu => h u (by simp [hu]))]
    · intro hm
      rcases List.mem_append.mp hm with h1 | h1
      · exact h t (by simp) h1
      · exact absurd h1 (by decide)

theorem matchNl_other {c : Char} {r : Str} (m : Bool) (h1 : c ≠ '\n') (h2 : c ≠ '\r') :
    matchNl m (c :: r) = none := by
  rw [matchNl, List.dropWhile_cons, if_neg (by simpa using h2)]
  split
  · rename_i heq
    exact absurd (List.cons.inj heq).1 h1
  · rfl

theorem matchNl_nl (m : Bool) (r : Str) :
    matchNl m ('\n' :: r) = some (if m then r.dropWhile (fun c => c == '\n') else r) := by
  rw [matchNl, List.dropWhile_cons, if_neg (by decide)]
  rfl

theorem splitNl_line (m : Bool) : ∀ (t : Str) (f : Nat) (cur r : Str), Spec.oneLine t →
    (t ++ '\n' :: r).length ≤ f → ∃ f', r.length ≤ f' ∧ splitNl m f cur (t ++ '\n' :: r) =
      (cur ++ t) :: splitNl m f' [] (if m then r.dropWhile (fun c => c == '\n') else r)
  | [], f, cur, r, _, hf => by
    cases f with
    | zero => simp at hf
    | succ f =>
      refine ⟨f, by simpa using hf, ?_⟩
      rw [List.nil_append, splitNl, matchNl_nl, List.append_nil]
  | c :: t, f, cur, r, ht, hf => by
    cases f with
    | zero => simp at hf
    | succ f =>
      have h1 : c ≠ '\n' := fun h => ht.1 (by rw [h]; simp)
      have h2 : c ≠ '\r' := fun h => ht.2 (by rw [h]; simp)
      obtain ⟨f', h3, h4⟩ := splitNl_line m t f (cur ++ [c]) r
        ⟨fun h => ht.1 (by simp [h]), fun h => ht.2 (by simp [h])⟩ (by simpa using hf)
      refine ⟨f', h3, ?_⟩
      rw [List.cons_append, splitNl, matchNl_other m h1 h2]
      simp only [h4]
      simp

theorem splitNl_nil (m : Bool) (f : Nat) (cur : Str) : splitNl m f cur [] = [cur] := by
  cases f with
  | zero => rw [splitNl, List.append_nil]
  | succ f => rw [splitNl]

theorem saveText_cons (t : Str) (ts : List Str) : saveText (t :: ts) = t ++ '\n' :: saveText ts := by
  rw [saveText, List.flatMap_cons, saveText, List.append_assoc]; rfl

theorem split_single : ∀ (ts : List Str) (f : Nat), (∀ t ∈ ts, Spec.oneLine t) →
    (saveText ts).length ≤ f → splitNl false f [] (saveText ts) = ts ++ [[]]
  | [], f, _, _ => splitNl_nil _ _ _
  | t :: ts, f, h, hf => by
    rw [saveText_cons] at hf ⊢
    obtain ⟨f', h1, h2⟩ := splitNl_line false t f [] (saveText ts) (h t (by simp)) hf
    rw [h2]
    simp only [List.nil_append, Bool.false_eq_true, if_false, List.cons_append]
    rw [split_single ts f' (fun u hu => h u (by simp [hu])) h1]

theorem dropNl_save {ts : List Str} (h : ∀ t ∈ ts, Spec.oneLine t) :
    (saveText ts).dropWhile (fun c => c == '\n') = saveText (ts.dropWhile (fun t => decide (t = []))) := by
  induction ts with
  | nil => rfl
  | cons t ts ih =>
    rw [saveText_cons]
    cases t with
    | nil =>
      rw [List.nil_append, List.dropWhile_cons, if_pos (by decide), ih (fun u hu => h u (by simp [hu])),
        List.dropWhile_cons, if_pos (by simp)]
    | cons c t =>
      have : c ≠ '\n' := fun hc => (h (c :: t) (by simp)).1 (by rw [hc]; simp)
      rw [List.cons_append, List.dropWhile_cons, if_neg (by simpa using this), List.dropWhile_cons,
        if_neg (by simp), saveText_cons]
      rfl

theorem filter_dropWhile (ts : List Str) :
    (ts.dropWhile (fun t => decide (t = []))).filter (fun t => decide (t ≠ [])) =
      ts.filter (fun t => decide (t ≠ [])) := by
  induction ts with
  | nil => rfl
  | cons t ts ih =>
    by_cases h : t = []
    · rw [List.dropWhile_cons, if_pos (by simp [h]), ih, List.filter_cons, if_neg (by simp [h])]
    · rw [List.dropWhile_cons, if_neg (by simp [h])]

theorem split_multi : ∀ (n : Nat) (ts : List Str) (f : Nat), ts.length ≤ n → (∀ t ∈ ts, Spec.oneLine t) →
    ts.head? ≠ some [] → (saveText ts).length ≤ f →
    splitNl true f [] (saveText ts) = ts.filter (fun t => decide (t ≠ [])) ++ [[]]
  | _, [], f, _, _, _, _ => splitNl_nil _ _ _
  | 0, _ :: _, _, hn, _, _, _ => by simp at hn
  | n + 1, t :: ts, f, hn, h, hh, hf => by
    have ht : t ≠ [] := fun h => hh (by rw [h]; rfl)
    rw [saveText_cons] at hf ⊢
    obtain ⟨f', h1, h2⟩ := splitNl_line true t f [] (saveText ts) (h t (by simp)) hf
    rw [h2]
    have hts := fun u hu => h u (List.mem_cons_of_mem t hu)
    simp only [List.nil_append, if_true]
    rw [dropNl_save hts]
    have hsub : ∀ u ∈ ts.dropWhile (fun t => decide (t = [])), u ∈ ts := fun u hu =>
      (List.dropWhile_sublist _).subset hu
    rw [split_multi n _ f' _ (fun u hu => hts u (hsub u hu)) _ _, filter_dropWhile, List.filter_cons,
      if_pos (by simp [ht])]
    · rfl
    · refine Nat.le_trans (List.dropWhile_sublist _).length_le ?_
      simpa using hn
    · intro hc
      have h3 := List.head?_dropWhile_not (fun t : Str => decide (t = [])) ts
      rw [hc] at h3
      simp at h3
    · rw [← dropNl_save hts]
      exact Nat.le_trans (List.dropWhile_sublist _).length_le h1

theorem read_save {o : Opts} {ts : List Str} (h : ∀ t ∈ ts, Spec.oneLine t) (hh : o.ignoreBlank = true → ts.head? ≠ some []) :
    readLines o (saveText ts) = Spec.input o ts ++ [[]] := by
  rw [readLines]
  rw [universal_save (fun t ht => (h t ht).2), Spec.input]
  by_cases hb : o.ignoreBlank = true ∧ o.factory = false
  · rw [if_pos hb, hb.1, hb.2]
    exact split_multi _ ts _ (Nat.le_refl _) h (hh hb.1) (Nat.le_refl _)
  · rw [if_neg hb]
    have : (o.ignoreBlank && !o.factory) = false := by
      cases h1 : o.ignoreBlank <;> cases h2 : o.factory <;> simp_all
    rw [this]
    exact split_single ts _ h (Nat.le_refl _)

end Conf

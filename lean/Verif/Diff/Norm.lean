import Verif.Diff.Out

/-! # The lines that `HDiff` compares, and their paths -/

namespace Diff

open Py Conf Query

section
variable {o : Opts} {lines : List Str} {P : Parsed} (h : parse o lines = .ok P)
include h

theorem obj_of {i : Nat} (hi : i ∈ P.list) : rstrip (P.h i).text = (P.h i).text ∧
    (P.h i).indent = Conf.Spec.indent (P.h i).text := by
  have hb := h
  rw [parse, input_eq] at hb
  have ha := attrs hb ((mem_list hb).mp hi).1
  have h1 : (P.h i).text = rstrip (lineAt (Conf.Spec.input o lines) i) := ha.1
  have h2 : (P.h i).indent = lineIndent (lineAt (Conf.Spec.input o lines) i) := ha.2.1
  rw [h1, rstrip_rstrip, h2, lineIndent_eq]
  refine ⟨rfl, ?_⟩
  rw [Conf.Spec.indent, Conf.Spec.indent, rstrip_rstrip]

theorem normText_eq {i : Nat} (hi : i ∈ P.list) : normText (P.h i) = norm (P.h i).text := by
  obtain ⟨h1, h2⟩ := obj_of h hi
  rw [normText, norm, h2, splitWs_strip h1]

theorem norm_obj {i : Nat} (hi : i ∈ P.list) : (normParsed o P).h i =
    { P.h i with
      text := norm (P.h i).text
      isComment := isCommentText o.delims (P.h i).text
      parent := if isCommentText o.delims (P.h i).text = true then i else (P.h i).parent } := by
  obtain ⟨h1, h2⟩ := obj_of h hi
  have h3 : lineText (norm (P.h i).text) = norm (P.h i).text := norm_rstrip h1
  rw [normParsed]
  dsimp only
  rw [if_pos hi, setText, normText_eq h hi, h3, norm_indent h1, norm_comment, ← h2]

omit h in
theorem norm_list : (normParsed o P).list = P.list := rfl

theorem norm_id (H : Str → Int) {i : Nat} (hi : i ∈ P.list) :
    lineId H ((normParsed o P).h i) = H (norm (P.h i).text) := by
  obtain ⟨h1, h2⟩ := obj_of h hi
  rw [lineId, norm_obj h hi]
  dsimp only
  rw [norm_words h1, h2]; rfl

theorem norm_tree : Tree (normParsed o P) := by
  have ht := tree_of_parse h
  refine ⟨ht.lt, ?_, ?_, ht.inc, ?_⟩
  · intro i hi c hc
    rw [norm_obj h hi] at hc
    exact ht.kids i hi c hc
  · intro i hi
    rw [norm_obj h hi]
    dsimp only
    split
    · exact ⟨hi, Nat.le_refl _⟩
    · exact ht.up i hi
  · intro i hi
    rw [norm_obj h hi]
    exact ht.num i hi

theorem norm_distinct (hd : Query.Spec.NoDigits P) : Distinct (normParsed o P) := by
  intro i hi j hj he
  have ht := tree_of_parse h
  have key : ∀ k ∈ P.list, ∀ c, (norm (P.h k).text).head? = some c → isDigit c = false := by
    intro k hk c hc
    rcases norm_first (obj_of h hk).1 hc with h1 | h1
    · cases hdg : isDigit c with
      | false => rfl
      | true => rw [isDigit_not_space hdg] at h1; cases h1
    · exact hd k hk c h1
  rw [objEq, beq_iff_eq, norm_obj h hi, norm_obj h hj] at he
  dsimp only at he
  rw [ht.num i hi, ht.num j hj, intStr_ofNat, intStr_ofNat] at he
  exact natStr_inj (digits_append_inj (natStr_digits i) (natStr_digits j) (key i hi) (key j hj) he)

/-- The texts of a line and its parents, from the line to the outermost parent. -/
def pathOf (N : Parsed) (i : Nat) : List Str := ((geneology N i).map (fun j => (N.h j).text)).reverse

theorem comment_text {i : Nat} (hi : i ∈ P.list) :
    isCommentText o.delims (P.h i).text = true ↔ Conf.Spec.comment o.delims (P.h i).text := by
  have := comment_iff o.delims (P.h i).text
  rw [(obj_of h hi).1] at this
  exact this

theorem path_root (hd : Query.Spec.NoDigits P) {i : Nat} (hi : i ∈ P.list)
    (hp : (P.h i).parent = i ∨ Conf.Spec.comment o.delims (P.h i).text) :
    pathOf (normParsed o P) i = [norm (P.h i).text] := by
  have hr : ((normParsed o P).h i).parent = i := by
    rw [norm_obj h hi]
    dsimp only
    rcases hp with hp | hp
    · rw [hp]; split <;> rfl
    · rw [if_pos ((comment_text h hi).mpr hp)]
  rw [pathOf, gen_root (norm_tree h) (norm_distinct h hd) hi hr]
  rw [List.map_cons, List.map_nil, norm_obj h hi]; rfl

theorem path_child (hd : Query.Spec.NoDigits P) {i : Nat} (hi : i ∈ P.list)
    (hp : (P.h i).parent ≠ i) (hc : ¬ Conf.Spec.comment o.delims (P.h i).text) :
    pathOf (normParsed o P) i = norm (P.h i).text :: pathOf (normParsed o P) (P.h i).parent := by
  have hr : ((normParsed o P).h i).parent = (P.h i).parent := by
    rw [norm_obj h hi]
    dsimp only
    rw [if_neg (fun h' => hc ((comment_text h hi).mp h'))]
  have hr' : ((normParsed o P).h i).parent ≠ i := by rw [hr]; exact hp
  rw [pathOf, gen_child (norm_tree h) (norm_distinct h hd) hi hr', hr, List.map_append,
    List.reverse_append, List.map_cons, List.map_nil, norm_obj h hi]; rfl

theorem path_iff (hd : Query.Spec.NoDigits P) (i : Nat) (l : List Str) :
    Spec.Path o P i l ↔ i ∈ P.list ∧ l = pathOf (normParsed o P) i := by
  constructor
  · intro hp
    induction hp with
    | root hi hp hn => exact ⟨hi, by rw [path_root h hd hi hp, (norm_iff _ _).mp hn]⟩
    | child hi hp hc hn _ ih => exact ⟨hi, by rw [path_child h hd hi hp hc, (norm_iff _ _).mp hn, ih.2]⟩
  · have ht := tree_of_parse h
    have : ∀ (n i : Nat), i ≤ n → i ∈ P.list → Spec.Path o P i (pathOf (normParsed o P) i) := by
      intro n
      induction n with
      | zero =>
        intro i hn hi
        have hp : (P.h i).parent = i := by have := (ht.up i hi).2; omega
        rw [path_root h hd hi (.inl hp)]
        exact .root hi (.inl hp) ((norm_iff _ _).mpr rfl)
      | succ n ih =>
        intro i hn hi
        by_cases hp : (P.h i).parent = i
        · rw [path_root h hd hi (.inl hp)]
          exact .root hi (.inl hp) ((norm_iff _ _).mpr rfl)
        · by_cases hc : Conf.Spec.comment o.delims (P.h i).text
          · rw [path_root h hd hi (.inr hc)]
            exact .root hi (.inr hc) ((norm_iff _ _).mpr rfl)
          · rw [path_child h hd hi hp hc]
            have hup := ht.up i hi
            exact .child hi hp hc ((norm_iff _ _).mpr rfl) (ih _ (by omega) hup.1)
    rintro ⟨hi, rfl⟩
    exact this i i (Nat.le_refl _) hi

theorem idList_path (H : Str → Int) {i : Nat} (hi : i ∈ P.list) :
    idList H (normParsed o P) i = (pathOf (normParsed o P) i).map H := by
  rw [idList_eq, pathOf, List.map_reverse, List.map_map]
  congr 1
  refine List.map_congr_left (fun j hj => ?_)
  have hj' : j ∈ P.list := (gen_le (norm_tree h) hi hj).1
  rw [norm_id h H hj', Function.comp, norm_obj h hj']

theorem entry_indent (H : Str → Int) (side : Side) (w : Word) (num : Int) {i : Nat} (hi : i ∈ P.list) :
    (entry H (normParsed o P) side w num i).indent =
      Conf.Spec.indent (entry H (normParsed o P) side w num i).text := by
  obtain ⟨h1, h2⟩ := obj_of h hi
  rw [entry, norm_obj h hi]
  dsimp only
  rw [h2, ← lineIndent_eq (norm _), norm_indent h1]

theorem entry_path (H : Str → Int) (side : Side) (w : Word) (num : Int)
    {i : Nat} (hi : i ∈ P.list) :
    (entry H (normParsed o P) side w num i).path = pathOf (normParsed o P) i := by
  rw [Entry.path, pathOf, gen_eq (norm_tree h) hi]
  simp [entry]

end

theorem map_inj {H : Str → Int} : ∀ {l m : List Str}, (∀ s ∈ l, ∀ t ∈ m, H s = H t → s = t) →
    l.map H = m.map H → l = m
  | [], [], _, _ => rfl
  | [], b :: m, _, h => by simp at h
  | a :: l, [], _, h => by simp at h
  | a :: l, b :: m, hH, h => by
    rw [List.map_cons, List.map_cons, List.cons.injEq] at h
    rw [hH a (by simp) b (by simp) h.1,
      map_inj (fun s hs t ht => hH s (List.mem_cons_of_mem _ hs) t (List.mem_cons_of_mem _ ht)) h.2]

end Diff

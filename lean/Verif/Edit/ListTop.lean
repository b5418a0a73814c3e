import Verif.Edit.ListMore

/-! # C132, C133: `config_hierarchy` and the iterators of the list -/

namespace Edit

open Py Conf Query Re

theorem compile_top : Re.compile "^\\S+" =
    .ok ⟨seqs [.bol, .seq (.cls (K.cls .nonspace)) (.star true (.cls (K.cls .nonspace)))], 0, []⟩ := by
  decide +kernel

/-- The text begins with a character that is not a blank. -/
def Spec.Flush (t : Str) : Prop := ∃ c rest, t = c :: rest ∧ isSpace c = false

theorem top_true (t : Str) : ∃ b, Cisco.reTrue "^\\S+" t = .ok b ∧ (b = true ↔ Spec.Flush t) := by
  obtain ⟨b, hb, he⟩ := Cisco.reTrue_bol compile_top t
  refine ⟨b, hb, he.trans ?_⟩
  simp only [lang_cons, lang_nil, lang_plus]
  constructor
  · rintro ⟨v, _, ⟨w, rfl, hw, hs⟩, _⟩
    cases w with
    | nil => exact absurd rfl hw
    | cons c w =>
      refine ⟨c, _, rfl, ?_⟩
      have := hs c (by simp)
      simpa [K.has] using this
  · rintro ⟨c, rest, rfl, hc⟩
    refine ⟨rest, rest, ⟨[c], rfl, by simp, ?_⟩, rfl⟩
    intro x hx
    rw [List.mem_singleton] at hx
    subst hx
    simpa [K.has] using hc

theorem mem_top (P : Parsed) (i : Nat) : i ∈ topObjects P ↔ i ∈ P.list ∧ Spec.Flush (P.h i).text := by
  rw [topObjects, List.mem_filter]
  obtain ⟨b, hb, he⟩ := top_true (P.h i).text
  rw [hb]
  exact and_congr Iff.rfl he

theorem isComment_iff {o : Opts} {lines : List Str} {P : Parsed} (h : parse o lines = .ok P) {i : Nat}
    (hi : i ∈ P.list) : (P.h i).isComment = true ↔ Conf.Spec.comment o.delims (P.h i).text := by
  rw [parse, input_eq] at h
  have ha := attrs h ((mem_list h).mp hi).1
  have h1 : (P.h i).text = rstrip (lineAt (Conf.Spec.input o lines) i) := by
    have := ha.1; rw [this]; rfl
  have h2 : (P.h i).isComment = isCommentText o.delims (rstrip (lineAt (Conf.Spec.input o lines) i)) := by
    have := ha.2.2.1; rw [this]; rfl
  rw [h2, h1, ← comment_iff o.delims (rstrip _), rstrip_rstrip]

/-- C132: `config_hierarchy` splits the lines of a parsed configuration that begin without a
blank and are no comments into those with children and those without; both lists are in the
order of the configuration. -/
theorem C132_hierarchy {o : Opts} {lines : List Str} {P : Parsed} (h : parse o lines = .ok P) :
    (configHierarchy P).1.Sublist P.list ∧ (configHierarchy P).2.Sublist P.list ∧
    (∀ i, i ∈ (configHierarchy P).1 ↔ i ∈ P.list ∧ Spec.Flush (P.h i).text ∧
      ¬ Conf.Spec.comment o.delims (P.h i).text ∧ (P.h i).children ≠ []) ∧
    (∀ i, i ∈ (configHierarchy P).2 ↔ i ∈ P.list ∧ Spec.Flush (P.h i).text ∧
      ¬ Conf.Spec.comment o.delims (P.h i).text ∧ (P.h i).children = []) := by
  have hsub : ((topObjects P).filter (fun i => !(P.h i).isComment)).Sublist P.list :=
    List.filter_sublist.trans List.filter_sublist
  have hmem : ∀ i, i ∈ (topObjects P).filter (fun i => !(P.h i).isComment) ↔
      i ∈ P.list ∧ Spec.Flush (P.h i).text ∧ ¬ Conf.Spec.comment o.delims (P.h i).text := by
    intro i
    rw [List.mem_filter, mem_top, and_assoc]
    constructor
    · rintro ⟨h1, h2, h3⟩
      refine ⟨h1, h2, fun hc => ?_⟩
      rw [(isComment_iff h h1).mpr hc] at h3
      cases h3
    · rintro ⟨h1, h2, h3⟩
      refine ⟨h1, h2, ?_⟩
      cases hc : (P.h i).isComment with
      | false => rfl
      | true => exact absurd ((isComment_iff h h1).mp hc) h3
  refine ⟨List.filter_sublist.trans hsub, List.filter_sublist.trans hsub, fun i => ?_, fun i => ?_⟩
  · show i ∈ List.filter _ _ ↔ _
    rw [List.mem_filter, hmem, and_assoc, and_assoc]
    simp
  · show i ∈ List.filter _ _ ↔ _
    rw [List.mem_filter, hmem, and_assoc, and_assoc]
    simp

/-- C132: `iter_no_comments(b)` yields the lines from position `b` on that are no comments,
`iter_with_comments(b)` all lines from there on, `all_parents` the lines with children, each
in order. -/
theorem C132_iterators {o : Opts} {lines : List Str} {P : Parsed} (h : parse o lines = .ok P) (b : Nat) :
    (∀ j : Nat, (iterWithComments P b)[j]? = P.list[b + j]?) ∧
    (iterNoComments P b).Sublist (iterWithComments P b) ∧
    (∀ i, i ∈ iterNoComments P b ↔ (∃ k : Nat, b ≤ k ∧ P.list[k]? = some i) ∧
      ¬ Conf.Spec.comment o.delims (P.h i).text) ∧
    (listAllParents P).Sublist P.list ∧
    (∀ i, i ∈ listAllParents P ↔ i ∈ P.list ∧ (P.h i).children ≠ []) := by
  refine ⟨fun j => ?_, List.filter_sublist, fun i => ?_, List.filter_sublist, fun i => ?_⟩
  · rw [iterWithComments, List.getElem?_drop]
  · have hk : i ∈ P.list.drop b ↔ ∃ k : Nat, b ≤ k ∧ P.list[k]? = some i := by
      rw [List.mem_iff_getElem?]
      constructor
      · rintro ⟨j, hj⟩
        rw [List.getElem?_drop] at hj
        exact ⟨b + j, by omega, hj⟩
      · rintro ⟨k, hb, hk⟩
        refine ⟨k - b, ?_⟩
        rw [List.getElem?_drop, ← hk]; congr 1; omega
    rw [iterNoComments, List.mem_filter, hk]
    refine and_congr_right (fun hx => ?_)
    have hi : i ∈ P.list := List.mem_of_mem_drop (hk.mpr hx)
    rw [← isComment_iff h hi]
    simp
  · rw [listAllParents, List.mem_filter]
    refine and_congr_right (fun _ => ?_)
    rw [decide_eq_true_iff]
    exact List.length_pos_iff

example : ∃ P, parse {} [s "hostname x", s "! note", s "interface a", s " shutdown", s "end"] = .ok P ∧
    configHierarchy P = ([2], [0, 4]) ∧ iterNoComments P 1 = [2, 3, 4] ∧ listAllParents P = [2] :=
  ⟨_, rfl, by decide +kernel, by decide, by decide⟩

/-- C133: a line in `config_hierarchy` that neither closes a brace nor belongs to a banner
or a macro has no parent. -/
theorem C133_top_partial {o : Opts} {lines : List Str} {P : Parsed} (h : parse o lines = .ok P) {i : Nat}
    (hi : i ∈ (configHierarchy P).1 ∨ i ∈ (configHierarchy P).2)
    (h1 : ∀ q, ¬ Conf.Spec.banners o.syn (lineAt (Conf.Spec.input o lines)) i q)
    (h2 : ∀ q, ¬ Conf.Spec.macros o.syn (lineAt (Conf.Spec.input o lines)) i q)
    (h3 : ¬ Conf.Spec.closes (lineAt (Conf.Spec.input o lines) i)) : (P.h i).parent = i := by
  obtain ⟨_, _, ha, hb⟩ := C132_hierarchy h
  have hm : i ∈ P.list ∧ Spec.Flush (P.h i).text := by
    rcases hi with hi | hi
    · exact ⟨((ha i).mp hi).1, ((ha i).mp hi).2.1⟩
    · exact ⟨((hb i).mp hi).1, ((hb i).mp hi).2.1⟩
  refine C21_root h hm.1 ?_ h1 h2 h3
  obtain ⟨c, rest, ht, hc⟩ := hm.2
  rw [parse, input_eq] at h
  have := (attrs h ((mem_list h).mp hm.1).1).1
  rw [Conf.Spec.indent]
  have hr : rstrip (lineAt (Conf.Spec.input o lines) i) = c :: rest := by rw [← ht, this]; rfl
  rw [hr, List.takeWhile_cons, hc]; rfl

/-- C133: and every line without blanks in front that has no parent and is no comment is
in it. -/
theorem C133_complete_partial {o : Opts} {lines : List Str} {P : Parsed} (h : parse o lines = .ok P) {i : Nat}
    (hi : i ∈ P.list) (hf : Spec.Flush (P.h i).text) (hc : ¬ Conf.Spec.comment o.delims (P.h i).text) :
    i ∈ (configHierarchy P).1 ∨ i ∈ (configHierarchy P).2 := by
  obtain ⟨_, _, ha, hb⟩ := C132_hierarchy h
  cases hk : (P.h i).children with
  | nil => exact Or.inr ((hb i).mpr ⟨hi, hf, hc, hk⟩)
  | cons _ _ => exact Or.inl ((ha i).mpr ⟨hi, hf, hc, by rw [hk]; simp⟩)

/-- C133 does not hold as stated: *every* line of a banner's text that begins without a
blank and is no comment is in `config_hierarchy`, although its parent is the banner. -/
theorem C133_banner_fails {o : Opts} {lines : List Str} {P : Parsed} (h : parse o lines = .ok P)
    (ho : o.syn ≠ .junos) {p i : Nat} (hi : i ∈ P.list)
    (hb : Conf.Spec.InBanner (lineAt (Conf.Spec.input o lines)) p i)
    (hlast : ∀ q, Conf.Spec.InBanner (lineAt (Conf.Spec.input o lines)) q i → q ≤ p)
    (hm : ∀ q, ¬ Conf.Spec.macros o.syn (lineAt (Conf.Spec.input o lines)) i q)
    (hf : Spec.Flush (P.h i).text) (hc : ¬ Conf.Spec.comment o.delims (P.h i).text) :
    (P.h i).parent = p ∧ (i ∈ (configHierarchy P).1 ∨ i ∈ (configHierarchy P).2) :=
  ⟨C25_parent h ho hi hb hlast hm, C133_complete_partial h hi hf hc⟩

example : ∃ P, parse {} [s "banner motd ^", s "hello", s "^", s "end"] = .ok P ∧
    (P.h 1).parent = 0 ∧ configHierarchy P = ([0], [1, 2, 3]) :=
  ⟨_, rfl, by decide, by decide +kernel⟩

/-- C133 does not hold as stated: an indented first line has no parent either, and is not
in `config_hierarchy`. -/
theorem C133_indented_fails : ∃ P, parse {} [s " a", s "b"] = .ok P ∧ (P.h 0).parent = 0 ∧
    configHierarchy P = ([], [1]) := ⟨_, rfl, by decide, by decide +kernel⟩

end Edit

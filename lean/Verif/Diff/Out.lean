import Verif.Diff.Mark

/-! # The output of `HDiff` -/

namespace Diff

open Py Conf Query

theorem collect_map {α β : Type} {f : α → Except Err β} {g : α → β} : ∀ {l : List α},
    (∀ a ∈ l, f a = .ok (g a)) → collect f l = .ok (l.map g)
  | [], _ => rfl
  | a :: l, h => by
    rw [collect, h a (by simp), collect_map (fun x hx => h x (List.mem_cons_of_mem _ hx))]; rfl

/-! ## `compress_dict_diffs` -/

/-- The first entry with each list of identifiers, except those already seen. -/
def firsts : List (List Int) → List Entry → List Entry
  | _, [] => []
  | seen, e :: es => if e.ids ∈ seen then firsts seen es else e :: firsts (e.ids :: seen) es

/-- The entries that `compress_dict_diffs` can handle. -/
def Entry.Good (e : Entry) : Prop :=
  (e.side = .before ∧ (e.word = .keep ∨ e.word = .remove)) ∨
  (e.side = .after ∧ (e.word = .unchanged ∨ e.word = .add))

theorem insertAdd_perm (e : Entry) : ∀ l : List Entry, (insertAdd e l).Perm (e :: l)
  | [] => List.Perm.refl _
  | x :: l => by
    rw [insertAdd]
    split
    · exact List.Perm.swap _ _ _
    · exact ((insertAdd_perm e l).cons x).trans (List.Perm.swap _ _ _)

theorem insertAdd_filter {e : Entry} {p : Entry → Bool} (he : p e = false) : ∀ l : List Entry,
    (insertAdd e l).filter p = l.filter p
  | [] => by rw [insertAdd, List.filter_cons, he]; rfl
  | x :: l => by
    rw [insertAdd]
    split
    · rw [List.filter_cons, List.filter_cons, List.filter_cons, he]; rfl
    · rw [List.filter_cons, insertAdd_filter he l, List.filter_cons]

/-- Not an added line. -/
def old (e : Entry) : Bool := e.word != .add

theorem compressLoop_spec : ∀ (es out : List Entry) (seen : List (List Int)), (∀ e ∈ es, e.Good) →
    ∃ out' seen', compressLoop es (out, seen) = .ok (out', seen') ∧
      out'.Perm (out ++ firsts seen es) ∧
      out'.filter old = out.filter old ++ (firsts seen es).filter old
  | [], out, seen, _ => ⟨out, seen, rfl, by simp [firsts], by simp [firsts]⟩
  | e :: es, out, seen, hg => by
    have hg' : ∀ x ∈ es, x.Good := fun x hx => hg x (List.mem_cons_of_mem _ hx)
    by_cases hs : e.ids ∈ seen
    · obtain ⟨o', s', h1, h2, h3⟩ := compressLoop_spec es out seen hg'
      refine ⟨o', s', ?_, ?_, ?_⟩
      · rw [compressLoop, compressStep, if_pos hs]; exact h1
      · rw [firsts, if_pos hs]; exact h2
      · rw [firsts, if_pos hs]; exact h3
    · rw [firsts, if_neg hs]
      have happ : compressStep (out, seen) e = .ok (out ++ [e], e.ids :: seen) →
          ∃ out' seen', compressLoop (e :: es) (out, seen) = .ok (out', seen') ∧
            out'.Perm (out ++ e :: firsts (e.ids :: seen) es) ∧
            out'.filter old = out.filter old ++ (e :: firsts (e.ids :: seen) es).filter old := by
        intro h
        obtain ⟨o', s', h1, h2, h3⟩ := compressLoop_spec es (out ++ [e]) (e.ids :: seen) hg'
        refine ⟨o', s', ?_, ?_, ?_⟩
        · rw [compressLoop, h]; exact h1
        · simpa using h2
        · rw [h3, List.filter_append, List.append_assoc, ← List.filter_append]; rfl
      rcases hg e (by simp) with ⟨h1, h2 | h2⟩ | ⟨h1, h2 | h2⟩
      · exact happ (by rw [compressStep, if_neg hs, h1, h2])
      · exact happ (by rw [compressStep, if_neg hs, h1, h2])
      · exact happ (by rw [compressStep, if_neg hs, h1, h2])
      · obtain ⟨o', s', h3, h4, h5⟩ := compressLoop_spec es (insertAdd e out) (e.ids :: seen) hg'
        have hold : old e = false := by rw [old, h2]; rfl
        refine ⟨o', s', ?_, ?_, ?_⟩
        · rw [compressLoop, compressStep, if_neg hs, h1, h2]; exact h3
        · refine h4.trans (((insertAdd_perm e out).append_right _).trans ?_)
          rw [List.cons_append]
          exact List.perm_middle.symm
        · rw [h5, insertAdd_filter hold, List.filter_cons, hold]; rfl

theorem mem_firsts {e : Entry} : ∀ {es : List Entry} {seen : List (List Int)},
    e ∈ firsts seen es ↔ e.ids ∉ seen ∧ es.find? (fun x => x.ids == e.ids) = some e
  | [], seen => by simp [firsts]
  | x :: es, seen => by
    rw [firsts, List.find?_cons]
    by_cases hs : x.ids ∈ seen
    · rw [if_pos hs, mem_firsts]
      by_cases hx : x.ids = e.ids
      · rw [← hx]; simp [hs]
      · have : (x.ids == e.ids) = false := by simpa using hx
        rw [this]
    · rw [if_neg hs, List.mem_cons, mem_firsts]
      by_cases hx : x.ids = e.ids
      · have : (x.ids == e.ids) = true := by simpa using hx
        rw [this, ← hx]
        constructor
        · rintro (h | h)
          · exact ⟨hs, by rw [h]⟩
          · exact absurd (List.mem_cons_self) h.1
        · intro h
          exact .inl (by simpa using h.2.symm)
      · have : (x.ids == e.ids) = false := by simpa using hx
        rw [this]
        constructor
        · rintro (h | h)
          · exact absurd (by rw [h]) hx
          · exact ⟨fun hm => h.1 (List.mem_cons_of_mem _ hm), h.2⟩
        · intro h
          refine .inr ⟨fun hm => ?_, h.2⟩
          rcases List.mem_cons.mp hm with h' | h'
          · exact hx h'.symm
          · exact h.1 h'

theorem nodup_firsts : ∀ (es : List Entry) (seen : List (List Int)),
    ((firsts seen es).map Entry.ids).Nodup
  | [], _ => by simp [firsts]
  | e :: es, seen => by
    rw [firsts]
    split
    · exact nodup_firsts es seen
    · rw [List.map_cons, List.nodup_cons]
      refine ⟨?_, nodup_firsts es _⟩
      intro h
      obtain ⟨x, hx, he⟩ := List.mem_map.mp h
      have := (mem_firsts.mp hx).1
      rw [he] at this
      exact this (List.mem_cons_self)

theorem firsts_sublist : ∀ (es : List Entry) (seen : List (List Int)), (firsts seen es).Sublist es
  | [], _ => List.Sublist.refl _
  | e :: es, seen => by
    rw [firsts]
    split
    · exact (firsts_sublist es seen).cons e
    · exact (firsts_sublist es _).cons_cons e

/-! ## The whole comparison -/

section
variable {A B : Parsed} (tA : Tree A) (tB : Tree B) (H : Str → Int)
  (pBA : Partners H B A) (pAB : Partners H A B)

/-- The entry of a line before. -/
def eb (H : Str → Int) (B : Parsed) (wb : Words) (b : Nat) : Entry := entry H B .before (wb b) (-1) b

/-- The entries of a line after. -/
def ea (H : Str → Int) (A : Parsed) (wa : Words) (a : Nat) : List Entry :=
  if wa a = .unchanged ∧ (A.h a).children.length = 0 then []
  else [entry H A .after (wa a) (A.h a).linenum a]

include tA tB pBA pAB in
/-- ciscoconfparse.py:4353-4383: the comparison succeeds; its result has the first entry
for each list of identifiers. -/
theorem buildIos_spec : ∃ wb wa out, buildIos H B A = .ok (wb, wa, out) ∧ InvB A B H wb ∧
    (∀ j ∈ A.list, RightA A B H wa j) ∧
    (∀ j ∈ A.list, ∀ b, B.list.find? (sameId H B A j) = some b → wb b = .keep) ∧
    out.Perm (firsts [] (B.list.map (eb H B wb) ++ A.list.flatMap (ea H A wa))) ∧
    out.filter old = (firsts [] (B.list.map (eb H B wb) ++ A.list.flatMap (ea H A wa))).filter old := by
  obtain ⟨wb, wa, h1, h2, h3, h4⟩ := findAll_spec tA tB H pBA pAB A.list [] (fun _ => .remove)
    (fun _ => .unknown) rfl (fun _ _ => .inl rfl) (by simp) (fun _ _ => rfl) (by simp)
  have hb : collect (renderBefore H B wb) B.list = .ok (B.list.map (eb H B wb)) := by
    refine collect_map (fun b hb => ?_)
    rcases h2 b hb with h | ⟨h, _⟩
    · rw [renderBefore, eb, h]
    · rw [renderBefore, eb, h]
  have ha : collect (renderAfter H A wa) A.list = .ok (A.list.map (ea H A wa)) := by
    refine collect_map (fun a ha => ?_)
    rcases h3 a ha with ⟨h, _⟩ | ⟨h, _⟩
    · rw [renderAfter, ea, h]
      dsimp only
      by_cases hc : (A.h a).children.length = 0
      · rw [if_neg (by omega), if_pos ⟨rfl, hc⟩]
      · rw [if_pos (by omega), if_neg (fun h => hc h.2)]
    · rw [renderAfter, ea, h]
      dsimp only
      rw [if_neg (fun h => by cases h.1)]
  have hg : ∀ e ∈ B.list.map (eb H B wb) ++ A.list.flatMap (ea H A wa), e.Good := by
    intro e he
    rcases List.mem_append.mp he with he | he
    · obtain ⟨b, hb, rfl⟩ := List.mem_map.mp he
      refine .inl ⟨rfl, ?_⟩
      rcases h2 b hb with h | ⟨h, _⟩
      · exact .inr h
      · exact .inl h
    · obtain ⟨a, ha, he⟩ := List.mem_flatMap.mp he
      rw [ea] at he
      split at he
      · simp at he
      · rw [List.mem_singleton.mp he]
        refine .inr ⟨rfl, ?_⟩
        rcases h3 a ha with ⟨h, _⟩ | ⟨h, _⟩
        · exact .inl h
        · exact .inr h
  obtain ⟨out, seen, h5, h6, h7⟩ := compressLoop_spec _ [] [] hg
  refine ⟨wb, wa, out, ?_, h2, h3, h4, by simpa using h6, by simpa using h7⟩
  rw [buildIos, h1]
  simp only [Bind.bind, Except.bind, dictDiffs, hb, ha, compress]
  rw [← List.flatMap_def, h5]

end

end Diff

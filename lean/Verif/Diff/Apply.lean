import Verif.Diff.Props

/-! # C236: both configurations can be read off the unified diff -/

namespace Diff

open Py Conf

/-- ciscoconfparse.py:4405-4444 `unified_diff_header`: its three lines; `time` is the text of the current time. -/
def headerLines (time : Str) (n : Nat × Nat × Nat × Nat) : List Str :=
  ["--- /tmp/before ".toList ++ time, "+++ /tmp/after  ".toList ++ time,
    "@@ -".toList ++ natStr n.1 ++ ",".toList ++ natStr n.2.1 ++ " +".toList ++ natStr n.2.2.1 ++ ",".toList ++
      natStr n.2.2.2 ++ " @@".toList]

/-- ciscoconfparse.py:4448-4463 `HDiff(..).unified_diffs(header)` for ios and nxos. -/
def unifiedDiffs (H : Str → Int) (syn : Conf.Syntax) (ign : Bool) (before after : List Str) (head : Bool) (time : Str) :
    Except Err (List Str) := do
  let out ← hdiff H syn ign before after
  let n ← hdiffHeader H syn ign before after
  .ok ((if head then headerLines time n else []) ++ unified out)

/-- The lines of a diff that do not start with this sign, without their first character. -/
def Spec.side (sign : Char) (txt : List Str) : List Str := (txt.filter (fun x => x.head? != some sign)).map List.tail

/-- `us` are these lines, in this order, with one blank between the words. -/
def Spec.Lines (us ts : List Str) : Prop :=
  us.length = ts.length ∧ ∀ (k : Nat) t u, ts[k]? = some t → us[k]? = some u → Spec.Norm t u

/-- No two lines have the same text and the same parents. -/
def Spec.NoRepeat (o : Opts) (P : Parsed) : Prop := ∀ i j l, Spec.Path o P i l → Spec.Path o P j l → i = j

theorem side_add (out : List Entry) : Spec.side '+' (unified out) = (out.filter (fun e => e.word != .add)).map Entry.text := by
  induction out with
  | nil => rfl
  | cons e out ih =>
    rw [Spec.side, unified] at ih ⊢
    rw [List.map_cons, List.filter_cons, List.filter_cons]
    cases h : e.word
    all_goals
      simp only [unifiedLine, h]
      first
      | exact ih
      | (show _ :: _ = _ :: _; exact congrArg (e.text :: ·) ih)

theorem side_remove (out : List Entry) :
    Spec.side '-' (unified out) = (out.filter (fun e => e.word != .remove)).map Entry.text := by
  induction out with
  | nil => rfl
  | cons e out ih =>
    rw [Spec.side, unified] at ih ⊢
    rw [List.map_cons, List.filter_cons, List.filter_cons]
    cases h : e.word
    all_goals
      simp only [unifiedLine, h]
      first
      | exact ih
      | (show _ :: _ = _ :: _; exact congrArg (e.text :: ·) ih)

section
variable {H : Str → Int} {syn : Conf.Syntax} {ign : Bool} {before after : List Str} {P Q : Parsed}

theorem paths_nodup {o : Opts} (h : parse o before = .ok P) (hd : Query.Spec.NoDigits P) (hr : Spec.NoRepeat o P) :
    (P.list.map (pathOf (normParsed o P))).Nodup := by
  have ht := Query.tree_of_parse h
  rw [List.Nodup, List.pairwise_map]
  refine List.Pairwise.imp_of_mem ?_ ht.inc
  intro a b ha hb hab e
  have := hr a b _ ((path_iff h hd a _).mpr ⟨ha, rfl⟩) ((path_iff h hd b _).mpr ⟨hb, e⟩)
  omega

theorem path_head {o : Opts} (h : parse o before = .ok P) (hd : Query.Spec.NoDigits P) {i : Nat} (hi : i ∈ P.list) :
    (pathOf (normParsed o P) i).head? = some (norm (P.h i).text) := by
  by_cases h1 : (P.h i).parent = i
  · rw [path_root h hd hi (.inl h1)]; rfl
  · by_cases h2 : Conf.Spec.comment o.delims (P.h i).text
    · rw [path_root h hd hi (.inr h2)]; rfl
    · rw [path_child h hd hi h1 h2]; rfl

theorem lines_texts {o : Opts} (h : parse o before = .ok P) (hd : Query.Spec.NoDigits P) :
    (P.list.map (pathOf (normParsed o P))).filterMap List.head? = P.list.map (fun i => norm (P.h i).text) := by
  have : ∀ l : List Nat, (∀ i ∈ l, i ∈ P.list) →
      (l.map (pathOf (normParsed o P))).filterMap List.head? = l.map (fun i => norm (P.h i).text) := by
    intro l
    induction l with
    | nil => intro _; rfl
    | cons a l ih =>
      intro hl
      rw [List.map_cons, List.filterMap_cons, path_head h hd (hl a (by simp)), ih (fun i hi => hl i (by simp [hi]))]
      rfl
  exact this P.list (fun _ h => h)

theorem lines_spec : Spec.Lines (P.list.map (fun i => norm (P.h i).text)) P.texts := by
  refine ⟨by rw [Parsed.texts, List.length_map, List.length_map], fun k t u h1 h2 => ?_⟩
  rw [Parsed.texts, List.getElem?_map] at h1
  rw [List.getElem?_map] at h2
  cases hk : P.list[k]? with
  | none => rw [hk] at h1; cases h1
  | some i =>
    rw [hk] at h1 h2
    cases h1
    cases h2
    exact (norm_iff _ _).mpr rfl

theorem heads (l : List Entry) : l.map Entry.text = (l.map Entry.path).filterMap List.head? := by
  induction l with
  | nil => rfl
  | cons e l ih => rw [List.map_cons, List.map_cons, List.filterMap_cons, ih]; rfl

variable (R : Spec.Ready H syn ign before after P Q)
include R

theorem before_paths (hr : Spec.NoRepeat (opts syn ign) P) {out : List Entry} (ho : hdiff H syn ign before after = .ok out) :
    (out.filter (fun e => e.word != .add)).map Entry.path = P.list.map (pathOf (normParsed (opts syn ign) P)) := by
  have hit := path_iff R.before R.digitsP
  have hmem : ∀ l, l ∈ (out.filter (fun e => e.word != .add)).map Entry.path ↔ Spec.Has (opts syn ign) P l := by
    intro l
    constructor
    · intro hl
      obtain ⟨e, he, rfl⟩ := List.mem_map.mp hl
      obtain ⟨he, hw⟩ := List.mem_filter.mp he
      by_cases h2 : e.word = .remove
      · exact (C48_minus_partial R ho he h2).1
      · exact (C48_same_partial R ho he (by simpa using hw) h2).1
    · intro hl
      by_cases hq : Spec.Has (opts syn ign) Q l
      · obtain ⟨e, he, h1, h2, _⟩ := (C64_complete_partial R ho l).2.2 hl hq
        exact List.mem_map.mpr ⟨e, List.mem_filter.mpr ⟨he, by simpa using h2⟩, h1⟩
      · obtain ⟨e, he, h1, h2⟩ := (C64_complete_partial R ho l).2.1 hl hq
        exact List.mem_map.mpr ⟨e, List.mem_filter.mpr ⟨he, by rw [h2]; rfl⟩, h1⟩
  have hfirst : ∀ {i : Nat} {l : List Str}, Spec.Path (opts syn ign) P i l → Spec.First (opts syn ign) P i l :=
    fun {i l} h => ⟨h, fun j hj => by rw [hr i j l h hj]; exact Nat.le_refl _⟩
  -- The line with a given path.
  let ix : List Str → Nat := fun l => (P.list.find? (fun i => pathOf (normParsed (opts syn ign) P) i == l)).getD 0
  have hix : ∀ l, Spec.Has (opts syn ign) P l → Spec.Path (opts syn ign) P (ix l) l := by
    rintro l ⟨i, hi⟩
    obtain ⟨h1, h2⟩ := (hit i l).mp hi
    cases hf : P.list.find? (fun i => pathOf (normParsed (opts syn ign) P) i == l) with
    | none => exact absurd (List.find?_eq_none.mp hf i h1) (by simp [h2])
    | some j =>
      have e : ix l = j := by show (P.list.find? _).getD 0 = j; rw [hf]; rfl
      rw [e]
      exact (hit j l).mpr ⟨List.mem_of_find?_eq_some hf, by have := List.find?_some hf; simpa using (beq_iff_eq.mp this).symm⟩
  have hinc : (((out.filter (fun e => e.word != .add)).map Entry.path).map ix).Pairwise (· < ·) := by
    rw [List.map_map, List.pairwise_map]
    refine List.Pairwise.imp_of_mem ?_ (C65_order_partial R ho)
    intro e f he hf hef
    have h1 := (hmem e.path).mp (List.mem_map_of_mem he)
    have h2 := (hmem f.path).mp (List.mem_map_of_mem hf)
    exact hef _ _ (hfirst (hix _ h1)) (hfirst (hix _ h2))
  have heq : ((out.filter (fun e => e.word != .add)).map Entry.path).map ix = P.list := by
    refine increasing_ext hinc (Query.tree_of_parse R.before).inc (fun i => ⟨fun h => ?_, fun h => ?_⟩)
    · obtain ⟨l, hl, rfl⟩ := List.mem_map.mp h
      exact ((hit _ l).mp (hix l ((hmem l).mp hl))).1
    · have hp := (hit i _).mpr ⟨h, rfl⟩
      have hh : Spec.Has (opts syn ign) P (pathOf (normParsed (opts syn ign) P) i) := ⟨i, hp⟩
      exact List.mem_map.mpr ⟨_, (hmem _).mpr hh, hr _ _ _ (hix _ hh) hp⟩
  rw [← heq, List.map_map]
  refine (List.map_id _).symm.trans (List.map_congr_left (fun l hl => ?_))
  exact ((hit _ l).mp (hix l ((hmem l).mp hl))).2

theorem after_paths (hr : Spec.NoRepeat (opts syn ign) Q) {out : List Entry} (ho : hdiff H syn ign before after = .ok out) :
    ((out.filter (fun e => e.word != .remove)).map Entry.path).Perm (Q.list.map (pathOf (normParsed (opts syn ign) Q))) := by
  have hit := path_iff R.after R.digitsQ
  refine (List.perm_ext_iff_of_nodup ?_ (paths_nodup R.after R.digitsQ hr)).mpr (fun l => ⟨fun hl => ?_, fun hl => ?_⟩)
  · exact List.Pairwise.sublist (List.Sublist.map _ List.filter_sublist) (C64_once_partial R ho)
  · obtain ⟨e, he, rfl⟩ := List.mem_map.mp hl
    obtain ⟨he, hw⟩ := List.mem_filter.mp he
    have hh : Spec.Has (opts syn ign) Q e.path := by
      by_cases h2 : e.word = .add
      · exact (C48_plus_partial R ho he h2).1
      · exact (C48_same_partial R ho he h2 (by simpa using hw)).2
    obtain ⟨i, hi⟩ := hh
    obtain ⟨h1, h2⟩ := (hit i _).mp hi
    exact List.mem_map.mpr ⟨i, h1, h2.symm⟩
  · obtain ⟨i, hi, rfl⟩ := List.mem_map.mp hl
    have hh : Spec.Has (opts syn ign) Q (pathOf (normParsed (opts syn ign) Q) i) := ⟨i, (hit i _).mpr ⟨hi, rfl⟩⟩
    by_cases hp : Spec.Has (opts syn ign) P (pathOf (normParsed (opts syn ign) Q) i)
    · obtain ⟨e, he, h1, _, h2⟩ := (C64_complete_partial R ho _).2.2 hp hh
      exact List.mem_map.mpr ⟨e, List.mem_filter.mpr ⟨he, by simpa using h2⟩, h1⟩
    · obtain ⟨e, he, h1, h2⟩ := (C64_complete_partial R ho _).1 hh hp
      exact List.mem_map.mpr ⟨e, List.mem_filter.mpr ⟨he, by rw [h2]; rfl⟩, h1⟩

/-- C236: the lines of the unified diff below its header that do not start with `+` are the lines of before, in their order.
Partial: no line of before occurs twice with the same parents, and the hypotheses of C48. -/
theorem C236_before_partial (hr : Spec.NoRepeat (opts syn ign) P) (time : Str) (head : Bool) : ∃ txt,
    unifiedDiffs H syn ign before after head time = .ok txt ∧
    Spec.Lines (Spec.side '+' (if head then txt.drop 3 else txt)) P.texts := by
  obtain ⟨wb, wa, out, ho, hn, _⟩ := out_spec R
  generalize header _ _ wb wa = n at hn
  refine ⟨_, by rw [unifiedDiffs, ho, hn]; rfl, ?_⟩
  have e : (if head = true then ((if head = true then headerLines time n else []) ++ unified out).drop 3
      else (if head = true then headerLines time n else []) ++ unified out) = unified out := by
    cases head <;> rfl
  rw [e, side_add, heads, before_paths R hr ho, lines_texts R.before R.digitsP]
  exact lines_spec

/-- C236: the lines that do not start with `-` are the lines of after, in some order.  Partial: no line of after occurs twice
with the same parents, and the hypotheses of C48. -/
theorem C236_after_partial (hr : Spec.NoRepeat (opts syn ign) Q) (time : Str) (head : Bool) : ∃ txt us,
    unifiedDiffs H syn ign before after head time = .ok txt ∧ Spec.Lines us Q.texts ∧
    (Spec.side '-' (if head then txt.drop 3 else txt)).Perm us := by
  obtain ⟨wb, wa, out, ho, hn, _⟩ := out_spec R
  generalize header _ _ wb wa = n at hn
  refine ⟨_, _, by rw [unifiedDiffs, ho, hn]; rfl, lines_spec, ?_⟩
  have e : (if head = true then ((if head = true then headerLines time n else []) ++ unified out).drop 3
      else (if head = true then headerLines time n else []) ++ unified out) = unified out := by
    cases head <;> rfl
  rw [e, side_remove, heads, ← lines_texts R.after R.digitsQ]
  exact (after_paths R hr ho).filterMap _

end

theorem inj_of_nodup {α β : Type _} {f : α → β} {l : List α} (h : (l.map f).Nodup) {a b : α} (ha : a ∈ l) (hb : b ∈ l)
    (e : f a = f b) : a = b := by
  induction l with
  | nil => cases ha
  | cons x l ih =>
    rw [List.map_cons, List.nodup_cons] at h
    rcases List.mem_cons.mp ha with ha' | ha' <;> rcases List.mem_cons.mp hb with hb' | hb'
    · rw [ha', hb']
    · exact absurd (List.mem_map.mpr ⟨b, hb', by rw [← ha']; exact e.symm⟩) h.1
    · exact absurd (List.mem_map.mpr ⟨a, ha', by rw [← hb']; exact e⟩) h.1
    · exact ih h.2 ha' hb'

/-- The example of `Diff/Props.lean`. -/
example : unifiedDiffs code .ios false exBefore exAfter true (s "12:00") =
    .ok [s "--- /tmp/before 12:00", s "+++ /tmp/after  12:00", s "@@ -2,2 +2,3 @@", s " interface a", s "+ z z", s "- x", s "  y",
      s "-log 1", s "+log 2"] := by decide +kernel

example : ∃ P Q, Spec.Ready code .ios false exBefore exAfter P Q ∧ Spec.NoRepeat (opts .ios false) P ∧
    Spec.NoRepeat (opts .ios false) Q := by
  obtain ⟨P, Q, R⟩ := exReady
  have key : ∀ {c : List Str} {P : Parsed}, parse (opts .ios false) c = .ok P → Query.Spec.NoDigits P →
      (P.list.map (pathOf (normParsed (opts .ios false) P))).Nodup → Spec.NoRepeat (opts .ios false) P := by
    intro c P h hd hn i j l hi hj
    obtain ⟨h1, h2⟩ := (path_iff h hd i l).mp hi
    obtain ⟨h3, h4⟩ := (path_iff h hd j l).mp hj
    exact inj_of_nodup hn h1 h3 (h2.symm.trans h4)
  refine ⟨P, Q, R, key R.before R.digitsP ?_, key R.after R.digitsQ ?_⟩
  · have h := R.before
    have : parse (opts .ios false) exBefore = .ok _ := rfl
    rw [this] at h; cases h
    decide +kernel
  · have h := R.after
    have : parse (opts .ios false) exAfter = .ok _ := rfl
    rw [this] at h; cases h
    decide +kernel

/-- C236: a line that before has twice is in the diff only once. -/
theorem C236_repeat_fails : (unifiedDiffs code .ios false [s "a", s "b", s "a"] [s "a"] false []).map (Spec.side '+') =
    .ok [s "a", s "b"] := by decide +kernel

/-- C236: the lines of after come in another order. -/
theorem C236_order_fails : (unifiedDiffs code .ios false [s "i"] [s "i", s " p", s " q"] false []).map (Spec.side '-') =
    .ok [s "i", s " q", s " p"] := by decide +kernel

end Diff

import Verif.Query.Props
import Verif.Edit.Block
import Verif.Conf.Reparse

/-! # C243 – C245: blanks at the end of lines, the depth of the indentation, comments and blank lines -/

namespace Query

open Py Conf

variable {o : Opts} {P Q : Parsed}

/-! ## C243 -/

/-- C243: two configurations whose lines differ only in blanks at their ends are parsed to the same result. -/
theorem C243_same_partial {l m : List Str} (h : l.map rstrip = m.map rstrip)
    (hm : ∀ t ∈ l ++ m, rstrip t ≠ "macro name".toList) (hb : o.ignoreBlank = false ∨ ∀ t ∈ l ++ m, ¬ Conf.Spec.blank t) :
    parse o l = parse o m := by
  have hin : ∀ k : List Str, (o.ignoreBlank = false ∨ ∀ t ∈ k, ¬ Conf.Spec.blank t) → preFilter o k = k := by
    intro k hk
    rw [preFilter]
    split
    · rename_i hi
      rcases hk with hk | hk
      · rw [hk] at hi; cases hi.1
      · rw [List.filter_eq_self]
        intro t ht
        cases t with
        | nil => exact absurd (fun _ hc => by cases hc) (hk [] ht)
        | cons c r => rfl
    · rfl
  rw [parse, parse, hin l (hb.imp id (fun hh t ht => hh t (by simp [ht]))), hin m (hb.imp id (fun hh t ht => hh t (by simp [ht]))),
    ← bootstrap_rstrip o l (fun t ht => macro_rstrip (hm t (by simp [ht]))),
    ← bootstrap_rstrip o m (fun t ht => macro_rstrip (hm t (by simp [ht]))), h]

/-- The hypotheses are met. -/
example : [s "a  ", s " b", s "!"].map rstrip = [s "a", s " b ", s "!\t"].map rstrip ∧
    (∀ t ∈ [s "a  ", s " b", s "!"] ++ [s "a", s " b ", s "!\t"], rstrip t ≠ "macro name".toList) := by decide +kernel

/-- C243 does not hold as stated: with `ignore_blank_lines` an empty line of a banner is taken out, a line of blanks is not. -/
theorem C243_blank_fails : ∃ P Q, parse { ignoreBlank := true } [s "banner login ^", s "", s "^"] = .ok P ∧
    parse { ignoreBlank := true } [s "banner login ^", s " ", s "^"] = .ok Q ∧ P.list = [0, 1] ∧ Q.list = [0, 1, 2] :=
  ⟨_, _, rfl, rfl, by decide +kernel, by decide +kernel⟩

/-- C243 does not hold as stated: `macro name` with a blank behind it starts a macro. -/
theorem C243_macro_fails : ∃ P Q, parse {} [s "macro name ", s "x", s "@"] = .ok P ∧
    parse {} [s "macro name", s "x", s "@"] = .ok Q ∧ (P.h 1).parent = 0 ∧ (Q.h 1).parent = 1 :=
  ⟨_, _, rfl, rfl, by decide +kernel, by decide +kernel⟩

/-! ## C244 -/

theorem rstrip_inside {x : Char} (hx : isSpace x = false) (a r : Str) : rstrip (a ++ x :: r) = a ++ x :: rstrip r := by
  have : ∀ u v : Str, (u ++ x :: v).dropWhile isSpace = u.dropWhile isSpace ++ x :: v := by
    intro u v
    induction u with
    | nil => rw [List.nil_append, List.dropWhile_cons_of_neg (by simp [hx])]; rfl
    | cons y u ih =>
      cases hy : isSpace y with
      | true => rw [List.cons_append, List.dropWhile_cons_of_pos hy, List.dropWhile_cons_of_pos hy, ih]
      | false => rw [List.cons_append, List.dropWhile_cons_of_neg (by simp [hy]), List.dropWhile_cons_of_neg (by simp [hy])]; rfl
  rw [rstrip, rstrip, List.reverse_append, List.reverse_cons, List.append_assoc, List.singleton_append, this]
  simp

theorem indent_blanks {k : Nat} {c : Char} {r : Str} (hc : isSpace c = false) :
    Conf.Spec.indent (List.replicate k ' ' ++ c :: r) = k := by
  rw [Conf.Spec.indent, rstrip_inside hc, List.takeWhile_append_of_pos (by
    intro x hx
    rw [(List.mem_replicate.mp hx).2]; decide), List.takeWhile_cons_of_neg (by simp [hc])]
  simp

theorem kind_blanks {ds : List Char} {k : Nat} {c : Char} {r : Str} (hc : isSpace c = false) :
    (Conf.Spec.comment ds (List.replicate k ' ' ++ c :: r) ↔ c ∈ ds) ∧ ¬ Conf.Spec.blank (List.replicate k ' ' ++ c :: r) := by
  refine ⟨⟨?_, fun hd => ⟨_, c, r, rfl, fun x hx => by rw [(List.mem_replicate.mp hx).2]; decide, hc, hd⟩⟩, fun hb => ?_⟩
  · rintro ⟨ws, d, rest, e, h1, h2, h3⟩
    have t1 := congrArg (List.dropWhile isSpace) e
    rw [List.dropWhile_append_of_pos (by intro x hx; rw [(List.mem_replicate.mp hx).2]; decide),
      List.dropWhile_append_of_pos h1, List.dropWhile_cons_of_neg (by simp [hc]), List.dropWhile_cons_of_neg (by simp [h2])] at t1
    simp only [List.cons.injEq] at t1
    rw [t1.1]; exact h3
  · have := hb c (by simp)
    rw [hc] at this; cases this

/-- The parent rule sees the lines only through their kinds and the order of their indents. -/
theorem rule_congr {ds : List Char} {L M : Nat → Str} {n : Nat}
    (h1 : ∀ j < n, (Conf.Spec.config ds (L j) ↔ Conf.Spec.config ds (M j)) ∧ (Conf.Spec.comment ds (L j) ↔ Conf.Spec.comment ds (M j)))
    (h2 : ∀ j < n, ∀ k < n, (Conf.Spec.indent (L j) < Conf.Spec.indent (L k) ↔ Conf.Spec.indent (M j) < Conf.Spec.indent (M k)))
    {i : Nat} (hi : i < n) (p : Nat) : Conf.Spec.ParentRule ds L i p ↔ Conf.Spec.ParentRule ds M i p := by
  have hn : ∀ q, Conf.Spec.Nearest ds L i q ↔ Conf.Spec.Nearest ds M i q := by
    intro q
    rw [Conf.Spec.Nearest, Conf.Spec.Nearest]
    by_cases hq : q < i
    · rw [(h1 q (by omega)).1, h2 q (by omega) i hi]
      have : (∀ r, q < r → r < i → Conf.Spec.config ds (L r) → Conf.Spec.indent (L i) ≤ Conf.Spec.indent (L r)) ↔
          (∀ r, q < r → r < i → Conf.Spec.config ds (M r) → Conf.Spec.indent (M i) ≤ Conf.Spec.indent (M r)) := by
        refine forall_congr' (fun r => forall_congr' (fun _ => forall_congr' (fun hr => ?_)))
        rw [(h1 r (by omega)).1, ← Nat.not_lt, ← Nat.not_lt, h2 r (by omega) i hi]
      rw [this]
    · simp [hq]
  have hu : Conf.Spec.Unattached ds L i ↔ Conf.Spec.Unattached ds M i := by
    rw [Conf.Spec.Unattached, Conf.Spec.Unattached, (h1 i hi).2]
    by_cases h0 : 0 < i
    · rw [h2 i hi (i - 1) (by omega)]
    · simp [h0]
  rw [Conf.Spec.ParentRule, Conf.Spec.ParentRule, hu, hn]
  simp only [hn]

/-- The lines with these depths and these texts. -/
def Spec.indented (f : Nat → Nat) (ls : List (Nat × Str)) : List Str :=
  ls.map (fun x => List.replicate (f x.1) ' ' ++ x.2)

theorem indented_at (f : Nat → Nat) (ls : List (Nat × Str)) {i : Nat} (hi : i < ls.length) :
    lineAt (Spec.indented f ls) i = List.replicate (f ls[i].1) ' ' ++ ls[i].2 := by
  simp [lineAt, Spec.indented, hi]

/-- C244: a change of the indentation that keeps deeper lines deeper changes no parent and no children. -/
theorem C244_tree_partial {f g : Nat → Nat} {ls : List (Nat × Str)} (hf : ∀ a b, a < b → f a < f b)
    (hg : ∀ a b, a < b → g a < g b) (hb : ∀ x ∈ ls, ∃ c r, x.2 = c :: r ∧ isSpace c = false)
    (h : parse o (Spec.indented f ls) = .ok P) (h' : parse o (Spec.indented g ls) = .ok Q)
    (hp : Spec.Plain (Spec.indented f ls)) (hp' : Spec.Plain (Spec.indented g ls)) :
    P.list = Q.list ∧ ∀ i ∈ P.list, (P.h i).parent = (Q.h i).parent ∧ (P.h i).children = (Q.h i).children ∧
      strip (P.h i).text = strip (Q.h i).text := by
  have mono : ∀ {f : Nat → Nat}, (∀ a b, a < b → f a < f b) → ∀ a b, (f a < f b ↔ a < b) := by
    intro f hf a b
    refine ⟨fun hlt => ?_, hf a b⟩
    rcases Nat.lt_trichotomy a b with h1 | h1 | h1
    · exact h1
    · rw [h1] at hlt; omega
    · have := hf b a h1; omega
  have at_ : ∀ (f : Nat → Nat) {i : Nat}, i < ls.length → ∃ c r, isSpace c = false ∧ ls[i]?.map (·.2) = some (c :: r) ∧
      ∃ k, ls[i]?.map (·.1) = some k ∧ lineAt (Spec.indented f ls) i = List.replicate (f k) ' ' ++ c :: r := by
    intro f i hi
    obtain ⟨c, r, e, hc⟩ := hb ls[i] (List.getElem_mem hi)
    refine ⟨c, r, hc, by rw [List.getElem?_eq_getElem hi, Option.map_some, e], ls[i].1,
      by rw [List.getElem?_eq_getElem hi, Option.map_some], ?_⟩
    rw [indented_at f ls hi, e]
  have hne : ∀ f, ∀ t ∈ Spec.indented f ls, t ≠ [] := by
    intro f t ht
    obtain ⟨x, hx, rfl⟩ := List.mem_map.mp ht
    obtain ⟨c, r, e, _⟩ := hb x hx
    rw [e]; simp
  have hlen : ∀ f, (Spec.indented f ls).length = ls.length := fun f => by rw [Spec.indented, List.length_map]
  have listed : ∀ {f : Nat → Nat} {P : Parsed}, parse o (Spec.indented f ls) = .ok P →
      (∀ j, j ∈ P.list ↔ j < ls.length) ∧ ∀ j < ls.length, (P.h j).text = rstrip (lineAt (Spec.indented f ls) j) := by
    intro f P h
    have hb' := h
    rw [parse, input_eq, Edit.input_id (hne f)] at hb'
    refine ⟨fun j => ?_, fun j hj => (attrs hb' (by rw [hlen]; exact hj)).1⟩
    rw [mem_list hb', hlen]
    refine ⟨fun hh => hh.1, fun hh => ⟨hh, .inr (.inl ?_)⟩⟩
    obtain ⟨c, r, hc, _, k, _, e⟩ := at_ f hh
    rw [e]; exact (kind_blanks (ds := o.delims) hc).2
  obtain ⟨lP, tP⟩ := listed h
  obtain ⟨lQ, tQ⟩ := listed h'
  have tree := tree_of_parse h
  have tree' := tree_of_parse h'
  have hlist : P.list = Q.list := increasing_ext tree.inc tree'.inc (fun j => by rw [lP, lQ])
  have hpar : ∀ i ∈ P.list, (P.h i).parent = (Q.h i).parent := by
    intro i hi
    have hlt := (lP i).mp hi
    rw [C21_indent h hp.1 hp.2.1 hp.2.2 hi, Edit.input_id (hne f)]
    have e := (C21_indent h' hp'.1 hp'.2.1 hp'.2.2 ((lQ i).mpr hlt) (Q.h i).parent).mp rfl
    rw [Edit.input_id (hne g)] at e
    refine (rule_congr (n := ls.length) (fun j hj => ?_) (fun j hj k hk => ?_) hlt _).mpr e
    · obtain ⟨c, r, hc, e1, k, _, e2⟩ := at_ f hj
      obtain ⟨c', r', hc', e3, k', _, e4⟩ := at_ g hj
      rw [e1] at e3
      simp only [Option.some.injEq, List.cons.injEq] at e3
      rw [e2, e4, Conf.Spec.config, Conf.Spec.config, (kind_blanks hc).1, (kind_blanks hc').1, e3.1]
      have b1 := (kind_blanks (ds := o.delims) (k := f k) (r := r) hc).2
      have b2 := (kind_blanks (ds := o.delims) (k := g k') (r := r') hc').2
      rw [e3.1] at b1
      simp [b1, b2]
    · obtain ⟨c, r, hc, _, a, a1, e2⟩ := at_ f hj
      obtain ⟨c', r', hc', _, a', a2, e4⟩ := at_ g hj
      obtain ⟨d, s, hd, _, b, b1, e6⟩ := at_ f hk
      obtain ⟨d', s', hd', _, b', b2, e8⟩ := at_ g hk
      rw [a1] at a2; rw [b1] at b2
      cases a2; cases b2
      rw [e2, e4, e6, e8, indent_blanks hc, indent_blanks hc', indent_blanks hd, indent_blanks hd', mono hf, mono hg]
  refine ⟨hlist, fun i hi => ⟨hpar i hi, ?_, ?_⟩⟩
  · have c1 := C22_agree_partial h hp.1 hp.2.1 hp.2.2 hi
    have c2 := C22_agree_partial h' hp'.1 hp'.2.1 hp'.2.2 (hlist ▸ hi)
    refine increasing_ext c1.1 c2.1 (fun k => ?_)
    rw [c1.2, c2.2, ← hlist]
    constructor
    · rintro ⟨x1, x2, x3⟩; exact ⟨x1, by rw [← hpar k x1]; exact x2, x3⟩
    · rintro ⟨x1, x2, x3⟩; exact ⟨x1, by rw [hpar k x1]; exact x2, x3⟩
  · have hlt := (lP i).mp hi
    obtain ⟨c, r, hc, e1, k, _, e2⟩ := at_ f hlt
    obtain ⟨c', r', hc', e3, k', _, e4⟩ := at_ g hlt
    rw [e1] at e3
    simp only [Option.some.injEq, List.cons.injEq] at e3
    have st : ∀ n, strip (rstrip (List.replicate n ' ' ++ c :: r)) = c :: rstrip r := by
      intro n
      rw [strip, rstrip_rstrip, rstrip_inside hc, lstrip, List.dropWhile_append_of_pos (by
        intro x hx; rw [(List.mem_replicate.mp hx).2]; decide), List.dropWhile_cons_of_neg (by simp [hc])]
    rw [tP i hlt, tQ i hlt, e2, e4, ← e3.1, ← e3.2, st, st]

/-- The hypotheses are met: one blank for each level, and two. -/
example : ∃ P Q, parse {} (Spec.indented id [(0, s "a"), (1, s "b"), (2, s "c"), (1, s "!d"), (0, s "e")]) = .ok P ∧
    parse {} (Spec.indented (fun n => 2 * n + 1) [(0, s "a"), (1, s "b"), (2, s "c"), (1, s "!d"), (0, s "e")]) = .ok Q ∧
    Spec.indented (fun n => 2 * n) [(0, s "a"), (1, s "b"), (2, s "c")] = [s "a", s "  b", s "    c"] ∧
    (List.range 5).map (fun i => (P.h i).parent) = [0, 0, 1, 3, 4] ∧
    (List.range 5).map (fun i => (Q.h i).parent) = [0, 0, 1, 3, 4] :=
  ⟨_, _, rfl, rfl, by decide +kernel, by decide +kernel, by decide +kernel⟩

/-- C244 does not hold as stated: macros are only recognised at the left margin. -/
theorem C244_macro_fails : ∃ P Q, parse {} (Spec.indented id [(0, s "macro name m"), (0, s "x"), (0, s "@")]) = .ok P ∧
    parse {} (Spec.indented (fun n => n + 1) [(0, s "macro name m"), (0, s "x"), (0, s "@")]) = .ok Q ∧
    (P.h 1).parent = 0 ∧ (Q.h 1).parent = 1 :=
  ⟨_, _, rfl, rfl, by decide +kernel, by decide +kernel⟩

/-! ## C245 -/

/-- Where line `i` of `a ++ b` is in `a ++ c :: b`. -/
def Spec.moved (a : List Str) (i : Nat) : Nat := if i < a.length then i else i + 1

theorem at_moved (a b : List Str) (c : Str) (i : Nat) : lineAt (a ++ c :: b) (Spec.moved a i) = lineAt (a ++ b) i := by
  rw [lineAt, lineAt, Spec.moved, List.getD_eq_getElem?_getD, List.getD_eq_getElem?_getD]
  split
  · rename_i h
    rw [List.getElem?_append_left h, List.getElem?_append_left h]
  · rename_i h
    rw [List.getElem?_append_right (by omega), List.getElem?_append_right (by omega),
      show i + 1 - a.length = (i - a.length) + 1 by omega, List.getElem?_cons_succ]

theorem nearest_moved {ds : List Char} {a b : List Str} {c : Str} (hc : ¬ Conf.Spec.config ds c) {i q : Nat} :
    Conf.Spec.Nearest ds (lineAt (a ++ c :: b)) (Spec.moved a i) (Spec.moved a q) ↔ Conf.Spec.Nearest ds (lineAt (a ++ b)) i q := by
  have hlt : ∀ x y, Spec.moved a x < Spec.moved a y ↔ x < y := by
    intro x y; rw [Spec.moved, Spec.moved]; split <;> split <;> omega
  rw [Conf.Spec.Nearest, Conf.Spec.Nearest, at_moved, at_moved, hlt]
  refine and_congr Iff.rfl (and_congr Iff.rfl (and_congr Iff.rfl ⟨fun h r h1 h2 h3 => ?_, fun h r h1 h2 h3 => ?_⟩))
  · have := h (Spec.moved a r) ((hlt _ _).mpr h1) ((hlt _ _).mpr h2) (by rw [at_moved]; exact h3)
    rwa [at_moved] at this
  · have hr : r ≠ a.length := by
      rintro rfl
      apply hc
      have : lineAt (a ++ c :: b) a.length = c := by simp [lineAt]
      rwa [this] at h3
    obtain ⟨x, rfl⟩ : ∃ x, r = Spec.moved a x := by
      by_cases hx : r < a.length
      · exact ⟨r, by rw [Spec.moved, if_pos hx]⟩
      · exact ⟨r - 1, by rw [Spec.moved, if_neg (by omega)]; omega⟩
    rw [at_moved] at h3 ⊢
    exact h x ((hlt _ _).mp h1) ((hlt _ _).mp h2) h3

section
variable {a b : List Str} {c : Str} (h : parse o (a ++ c :: b) = .ok P) (h' : parse o (a ++ b) = .ok Q)
  (hp : Spec.Plain (a ++ c :: b)) (hc : ¬ Conf.Spec.config o.delims c)
  (hb : o.ignoreBlank = false ∨ ∀ t ∈ a ++ c :: b, t ≠ [])
include h h' hp hc hb

/-- C245: a comment or a blank line, wherever it is added or taken out, does not change the parent of a configuration
line. -/
theorem C245_parent_partial {i : Nat} (hi : i < (a ++ b).length) (hcfg : Conf.Spec.config o.delims (lineAt (a ++ b) i)) :
    i ∈ Q.list ∧ Spec.moved a i ∈ P.list ∧ (P.h (Spec.moved a i)).text = (Q.h i).text ∧
    (P.h (Spec.moved a i)).parent = Spec.moved a (Q.h i).parent := by
  have hp' : Spec.Plain (a ++ b) := by
    have : ∀ t ∈ a ++ b, t ∈ a ++ c :: b := fun t ht => by
      rcases List.mem_append.mp ht with ht | ht <;> simp [ht]
    exact ⟨fun t ht => hp.1 t (this t ht), fun t ht => hp.2.1 t (this t ht), fun t ht => hp.2.2 t (this t ht)⟩
  have hin : Conf.Spec.input o (a ++ c :: b) = a ++ c :: b := by
    rcases hb with hb | hb
    · rw [Conf.Spec.input, if_neg (by rw [hb]; rintro ⟨x, _⟩; cases x)]
    · exact Edit.input_id hb
  have hin' : Conf.Spec.input o (a ++ b) = a ++ b := by
    rcases hb with hb | hb
    · rw [Conf.Spec.input, if_neg (by rw [hb]; rintro ⟨x, _⟩; cases x)]
    · exact Edit.input_id (fun t ht => hb t (by rcases List.mem_append.mp ht with ht | ht <;> simp [ht]))
  have hbs := h
  have hbs' := h'
  rw [parse, input_eq, hin] at hbs
  rw [parse, input_eq, hin'] at hbs'
  have hm : Spec.moved a i < (a ++ c :: b).length := by
    rw [List.length_append] at hi
    rw [Spec.moved, List.length_append, List.length_cons]
    split <;> omega
  have l1 : i ∈ Q.list := (mem_list hbs').mpr ⟨hi, .inr (.inl hcfg.1)⟩
  have l2 : Spec.moved a i ∈ P.list := (mem_list hbs).mpr ⟨hm, .inr (.inl (by rw [at_moved]; exact hcfg.1))⟩
  refine ⟨l1, l2, ?_, ?_⟩
  · have e1 : (P.h (Spec.moved a i)).text = rstrip _ := (attrs hbs hm).1
    have e2 : (Q.h i).text = rstrip _ := (attrs hbs' hi).1
    rw [e1, e2, at_moved]
  · rw [C21_indent h hp.1 hp.2.1 hp.2.2 l2, hin]
    have e := (C21_indent h' hp'.1 hp'.2.1 hp'.2.2 l1 (Q.h i).parent).mp rfl
    rw [hin'] at e
    have hu : ∀ {L : Nat → Str} {j : Nat}, Conf.Spec.config o.delims (L j) → ¬ Conf.Spec.Unattached o.delims L j :=
      fun hx hy => hx.2 hy.1
    rcases e with ⟨_, e⟩ | ⟨e | e, e2⟩
    · exact .inl ⟨hu (by rw [at_moved]; exact hcfg), (nearest_moved hc).mpr e⟩
    · exact absurd e (hu hcfg)
    · refine .inr ⟨.inr (fun q hq => ?_), by rw [e2]⟩
      have hne : q ≠ a.length := by
        rintro rfl
        apply hc
        have : lineAt (a ++ c :: b) a.length = c := by simp [lineAt]
        rw [← this]; exact hq.2.1
      obtain ⟨x, rfl⟩ : ∃ x, q = Spec.moved a x := by
        by_cases hx : q < a.length
        · exact ⟨q, by rw [Spec.moved, if_pos hx]⟩
        · exact ⟨q - 1, by rw [Spec.moved, if_neg (by omega)]; omega⟩
      exact e x ((nearest_moved hc).mp hq)

/-- C245: nor does it change which configuration lines are children of a configuration line. -/
theorem C245_children_partial {i k : Nat} (hi : i < (a ++ b).length) (hk : k < (a ++ b).length)
    (ci : Conf.Spec.config o.delims (lineAt (a ++ b) i)) (ck : Conf.Spec.config o.delims (lineAt (a ++ b) k)) :
    Spec.moved a k ∈ (P.h (Spec.moved a i)).children ↔ k ∈ (Q.h i).children := by
  have hp' : Spec.Plain (a ++ b) := by
    have : ∀ t ∈ a ++ b, t ∈ a ++ c :: b := fun t ht => by
      rcases List.mem_append.mp ht with ht | ht <;> simp [ht]
    exact ⟨fun t ht => hp.1 t (this t ht), fun t ht => hp.2.1 t (this t ht), fun t ht => hp.2.2 t (this t ht)⟩
  have hinj : ∀ x y, Spec.moved a x = Spec.moved a y ↔ x = y := by
    intro x y; rw [Spec.moved, Spec.moved]; split <;> split <;> omega
  obtain ⟨i1, i2, _, i4⟩ := C245_parent_partial h h' hp hc hb hi ci
  obtain ⟨k1, k2, _, k4⟩ := C245_parent_partial h h' hp hc hb hk ck
  rw [(C22_agree_partial h hp.1 hp.2.1 hp.2.2 i2).2, (C22_agree_partial h' hp'.1 hp'.2.1 hp'.2.2 i1).2, k4, hinj]
  simp only [k1, k2, true_and, ne_eq, hinj]

end

/-- The hypotheses are met. -/
example : ∃ P Q, parse {} ([s "a", s " b"] ++ s "! x" :: [s "  c", s " d"]) = .ok P ∧
    parse {} ([s "a", s " b"] ++ [s "  c", s " d"]) = .ok Q ∧ (P.h 3).parent = 1 ∧ (Q.h 2).parent = 1 ∧
    ¬ Conf.Spec.config ['!'] (s "! x") :=
  ⟨_, _, rfl, rfl, by decide +kernel, by decide +kernel, fun hh => hh.2 ⟨[], '!', s " x", rfl, by simp, by decide, by simp⟩⟩

/-- C245 does not hold as stated: a line that starts with `!` may be the end of a banner. -/
theorem C245_banner_fails : ∃ P Q, parse {} [s "banner login ^", s "! ^", s "x"] = .ok P ∧
    parse {} [s "banner login ^", s "x"] = .ok Q ∧ (P.h 2).parent = 2 ∧ (Q.h 1).parent = 0 :=
  ⟨_, _, rfl, rfl, by decide +kernel, by decide +kernel⟩

/-- C245 does not hold as stated: the parent of a *comment* may change with the comment in front of it. -/
theorem C245_comment_fails : ∃ P Q, parse {} [s "a", s " b", s "   !x", s "  !y"] = .ok P ∧
    parse {} [s "a", s " b", s "  !y"] = .ok Q ∧ (P.h 3).parent = 3 ∧ (Q.h 2).parent = 1 :=
  ⟨_, _, rfl, rfl, by decide +kernel, by decide +kernel⟩

end Query

import Verif.Diff.Blocks
import Verif.Diff.Apply

/-! # C239, C240: the commands of `sync_diff`, entered in a configuration -/

namespace Diff.Spec

open Py Conf

/-- The blocks have no comments and no blank lines; no line ends with a blank, and there is one blank between two words. -/
def Tidy (o : Opts) (Bs : List (List Str)) : Prop :=
  Blocks o Bs ∧ ∀ b ∈ Bs, ∀ t ∈ b, Conf.Spec.config o.delims t ∧ rstrip t = t ∧ Norm t t

end Diff.Spec

namespace Diff

open Py Conf Query

variable {o : Opts} {P Q : Parsed}

/-- From a line to its outermost parent, each indented less than the one before, the last not at all. -/
inductive Down : List Str → Prop
  | root {u} : Conf.Spec.indent u = 0 → Down [u]
  | step {u v l} : Conf.Spec.indent v < Conf.Spec.indent u → Down (v :: l) → Down (u :: v :: l)

theorem lineAt_get {lines : List Str} {i : Nat} (hi : i < lines.length) : lineAt lines i = lines[i] := by
  simp [lineAt, hi]

theorem last_below {A : Nat → Prop} : ∀ (i : Nat), (∃ q, q < i ∧ A q) → ∃ q, q < i ∧ A q ∧ ∀ r, q < r → r < i → ¬ A r
  | 0, ⟨_, h, _⟩ => by omega
  | i + 1, ⟨q, h, ha⟩ => by
    by_cases hi : A i
    · exact ⟨i, by omega, hi, fun r h1 h2 => by omega⟩
    · have hne : q ≠ i := fun e => hi (e ▸ ha)
      obtain ⟨p, h1, h2, h3⟩ := last_below i ⟨q, by omega, ha⟩
      refine ⟨p, by omega, h2, fun r h4 h5 => ?_⟩
      by_cases he : r = i
      · exact he ▸ hi
      · exact h3 r h4 (by omega)

section
variable {lines : List Str} (h : parse o lines = .ok P) (hp : Query.Spec.Plain lines)
  (hc : ∀ t ∈ lines, Conf.Spec.config o.delims t ∧ rstrip t = t ∧ Spec.Norm t t)
include h hp hc

omit h hp in
theorem config_ne {t : Str} (ht : t ∈ lines) : t ≠ [] := fun e => (hc t ht).1.1 (fun _ hx => by rw [e] at hx; cases hx)

omit h hp in
theorem tidy_input : Conf.Spec.input o lines = lines := Edit.input_id (fun _ ht => config_ne hc ht)

omit hp in
theorem tidy_list {i : Nat} : i ∈ P.list ↔ i < lines.length := by
  have hb := h
  rw [parse, input_eq, tidy_input hc] at hb
  rw [mem_list hb]
  refine ⟨fun hh => hh.1, fun hh => ⟨hh, .inr (.inl ?_)⟩⟩
  have : lineAt lines i ∈ lines := by rw [lineAt_get hh]; exact List.getElem_mem hh
  exact (hc _ this).1.1

omit hp in
theorem tidy_text {i : Nat} (hi : i < lines.length) : (P.h i).text = lineAt lines i ∧ lineAt lines i ∈ lines := by
  have hb := h
  rw [parse, input_eq, tidy_input hc] at hb
  have : lineAt lines i ∈ lines := by rw [lineAt_get hi]; exact List.getElem_mem hi
  have h1 : (P.h i).text = rstrip (lineAt lines i) := (attrs hb hi).1
  rw [(hc _ this).2.1] at h1
  exact ⟨h1, this⟩

theorem tidy_parent {i : Nat} (hi : i < lines.length) (p : Nat) :
    (P.h i).parent = p ↔ (Conf.Spec.Nearest o.delims (lineAt lines) i p ∨
      ((∀ q, ¬ Conf.Spec.Nearest o.delims (lineAt lines) i q) ∧ p = i)) := by
  rw [C21_indent h hp.1 hp.2.1 hp.2.2 ((tidy_list h hc).mpr hi), tidy_input hc, Conf.Spec.ParentRule]
  have hu : ¬ Conf.Spec.Unattached o.delims (lineAt lines) i := fun hh => (hc _ (tidy_text h hc hi).2).1.2 hh.1
  simp only [hu, not_false_eq_true, true_and, false_or]

/-- The path of a line consists of lines, each indented less than the one before. -/
theorem path_down (hcl : Query.Spec.Closed o lines) {i : Nat} {l : List Str} (hl : Spec.Path o P i l) :
    Down l ∧ (∀ t ∈ l, t ∈ lines) ∧ l.head? = some (lineAt lines i) := by
  induction hl with
  | @root i u hi hcase hn =>
    have hlt := (tidy_list h hc).mp hi
    obtain ⟨ht, hm⟩ := tidy_text h hc hlt
    rw [ht] at hcase hn
    have e : u = lineAt lines i := by
      rw [norm_iff] at hn
      have := (norm_iff _ _).mp (hc _ hm).2.2
      rw [hn, ← this]
    subst e
    refine ⟨.root ?_, fun t hh => by rw [List.mem_singleton.mp hh]; exact hm, rfl⟩
    rcases hcase with hs | hs
    · rcases (tidy_parent h hp hc hlt i).mp hs with hs | ⟨hs, _⟩
      · have := hs.1; omega
      · refine Classical.byContradiction (fun h0 => ?_)
        have hsplit : lines = lines.take i ++ lineAt lines i :: lines.drop (i + 1) := by
          rw [lineAt_get hlt, List.getElem_cons_drop, List.take_append_drop]
        obtain ⟨w, hw, w1, w2⟩ := hcl _ _ _ hsplit (by omega)
        obtain ⟨q, hq, e⟩ := List.getElem_of_mem hw
        rw [List.length_take] at hq
        rw [List.getElem_take] at e
        have eq : lineAt lines q = w := by rw [lineAt_get (show q < lines.length by omega), e]
        obtain ⟨p, p1, p2, p3⟩ := last_below (A := fun q => Conf.Spec.config o.delims (lineAt lines q) ∧
          Conf.Spec.indent (lineAt lines q) < Conf.Spec.indent (lineAt lines i)) i
          ⟨q, by omega, by rw [eq]; exact w1, by rw [eq]; omega⟩
        refine hs p ⟨p1, p2.1, p2.2, fun r r1 r2 r3 => ?_⟩
        have := p3 r r1 r2
        exact Nat.not_lt.mp (fun hlt => this ⟨r3, hlt⟩)
    · exact absurd hs (hc _ hm).1.2
  | @child i u l hi hne _ hn hl ih =>
    have hlt := (tidy_list h hc).mp hi
    obtain ⟨ht, hm⟩ := tidy_text h hc hlt
    rw [ht] at hn
    have e : u = lineAt lines i := by
      rw [norm_iff] at hn
      have := (norm_iff _ _).mp (hc _ hm).2.2
      rw [hn, ← this]
    subst e
    obtain ⟨i1, i2, i3⟩ := ih
    cases l with
    | nil => cases i3
    | cons v l =>
      rw [List.head?_cons, Option.some.injEq] at i3
      refine ⟨.step ?_ i1, fun t hh => ?_, rfl⟩
      · rcases (tidy_parent h hp hc hlt _).mp rfl with hs | ⟨_, hs⟩
        · rw [i3]; exact hs.2.2.1
        · exact absurd hs hne
      · rcases List.mem_cons.mp hh with e | hh
        · rw [e]; exact hm
        · exact i2 t hh

/-- Lines that are indented more and more: the path of each is the lines before it. -/
theorem path_chain (hs : lines.Pairwise (fun a b => Conf.Spec.indent a < Conf.Spec.indent b)) :
    ∀ (k : Nat), k < lines.length → ∀ m, (Spec.Path o P k m ↔ m = (lines.take (k + 1)).reverse) := by
  have hlt : ∀ a b, a < b → b < lines.length → Conf.Spec.indent (lineAt lines a) < Conf.Spec.indent (lineAt lines b) := by
    intro a b hab hb
    rw [lineAt_get hb, lineAt_get (show a < lines.length by omega)]
    exact List.pairwise_iff_getElem.mp hs a b (by omega) hb hab
  have hnorm : ∀ k < lines.length, ∀ u, Spec.Norm (P.h k).text u ↔ u = lineAt lines k := by
    intro k hk u
    obtain ⟨ht, hm⟩ := tidy_text h hc hk
    rw [ht, norm_iff]
    have := (norm_iff _ _).mp (hc _ hm).2.2
    rw [← this]
  have hcom : ∀ k < lines.length, ¬ Conf.Spec.comment o.delims (P.h k).text := by
    intro k hk
    obtain ⟨ht, hm⟩ := tidy_text h hc hk
    rw [ht]; exact (hc _ hm).1.2
  intro k
  induction k with
  | zero =>
    intro hk m
    have hpar : (P.h 0).parent = 0 := by
      rw [tidy_parent h hp hc hk]
      exact .inr ⟨fun q hq => absurd hq.1 (by omega), rfl⟩
    have htk : (lines.take (0 + 1)).reverse = [lineAt lines 0] := by
      rw [lineAt_get hk]
      cases lines with
      | nil => simp at hk
      | cons a r => rfl
    rw [htk]
    constructor
    · intro hh
      cases hh with
      | root _ _ hn => rw [(hnorm 0 hk _).mp hn]
      | child _ hne => exact absurd hpar hne
    · rintro rfl
      exact .root ((tidy_list h hc).mpr hk) (.inl hpar) ((hnorm 0 hk _).mpr rfl)
  | succ k ih =>
    intro hk m
    have hpar : (P.h (k + 1)).parent = k := by
      rw [tidy_parent h hp hc hk]
      exact .inl ⟨by omega, (hc _ (tidy_text h hc (by omega)).2).1, hlt _ _ (by omega) hk, fun q h1 h2 => by omega⟩
    have htk : (lines.take (k + 1 + 1)).reverse = lineAt lines (k + 1) :: (lines.take (k + 1)).reverse := by
      rw [lineAt_get hk, List.take_succ_eq_append_getElem hk, List.reverse_append]
      rfl
    rw [htk]
    constructor
    · intro hh
      cases hh with
      | root _ hcase _ =>
        rcases hcase with hcase | hcase
        · omega
        · exact absurd hcase (hcom _ hk)
      | child _ _ _ hn hl =>
        rw [hpar] at hl
        rw [(hnorm _ hk _).mp hn, (ih (by omega) _).mp hl]
    · rintro rfl
      refine .child ((tidy_list h hc).mpr hk) (by omega) (hcom _ hk) ((hnorm _ hk _).mpr rfl) ?_
      rw [hpar]
      exact (ih (by omega) _).mpr rfl

theorem has_chain (hs : lines.Pairwise (fun a b => Conf.Spec.indent a < Conf.Spec.indent b)) (m : List Str) :
    Spec.Has o P m ↔ m ≠ [] ∧ m <:+ lines.reverse := by
  have hpc := path_chain h hp hc hs
  constructor
  · rintro ⟨k, hk⟩
    have hlt := (tidy_list h hc).mp (path_listed hk)
    rw [(hpc k hlt m).mp hk]
    refine ⟨?_, List.reverse_suffix.mpr (List.take_prefix _ _)⟩
    intro e
    have := congrArg List.length e
    simp only [List.length_reverse, List.length_take, List.length_nil] at this
    omega
  · rintro ⟨hne, hsuf⟩
    have hpre : m.reverse <+: lines := by
      rw [← List.reverse_suffix, List.reverse_reverse]; exact hsuf
    have hlen := hpre.length_le
    have hpos : 0 < m.length := List.length_pos_iff.mpr hne
    rw [List.length_reverse] at hlen
    refine ⟨m.length - 1, (hpc _ (by omega) m).mpr ?_⟩
    rw [Nat.sub_add_cancel hpos]
    have := List.prefix_iff_eq_take.mp hpre
    rw [List.length_reverse] at this
    rw [← this, List.reverse_reverse]

end

theorem down_pairwise : ∀ {l : List Str}, Down l → l.Pairwise (fun a b => Conf.Spec.indent b < Conf.Spec.indent a)
  | _, .root _ => List.pairwise_singleton _ _
  | _, .step h1 h2 => by
    have ih := down_pairwise h2
    refine List.pairwise_cons.mpr ⟨fun x hx => ?_, ih⟩
    rcases List.mem_cons.mp hx with rfl | hx
    · exact h1
    · have := (List.pairwise_cons.mp ih).1 x hx
      omega

theorem down_reverse : ∀ {l : List Str}, Down l → ∃ t r, l.reverse = t :: r ∧ Conf.Spec.indent t = 0
  | _, .root (u := u) h => ⟨u, [], rfl, h⟩
  | _, .step (u := u) _ h2 => by
    obtain ⟨t, r, h3, h4⟩ := down_reverse h2
    exact ⟨t, r ++ [u], by rw [List.reverse_cons, h3]; rfl, h4⟩

theorem tidy_plain {Bs : List (List Str)} (hB : Spec.Blocks o Bs) : Query.Spec.Plain Bs.flatten := by
  have : ∀ t ∈ Bs.flatten, ∃ b ∈ Bs, t ∈ b := fun t ht => by
    obtain ⟨b, h1, h2⟩ := List.mem_flatten.mp ht; exact ⟨b, h1, h2⟩
  refine ⟨fun t ht => ?_, fun t ht => ?_, fun t ht => ?_⟩ <;> obtain ⟨b, h1, h2⟩ := this t ht
  · exact (hB b h1).1.banner t h2
  · exact (hB b h1).1.mac t h2
  · exact (hB b h1).2 t h2

/-- The lines of a path, outermost first, are a block. -/
theorem chain_block {Cs : List (List Str)} (hC : Spec.Tidy o Cs) (hQ : parse o Cs.flatten = .ok Q) {m : List Str}
    (hm : Spec.Has o Q m) : (Query.Spec.Block o m.reverse ∧ ∀ t ∈ m.reverse, ¬ Conf.Spec.closes t) ∧
    (∀ t ∈ m, t ∈ Cs.flatten) ∧ ∀ l, (Spec.HasAlone o m.reverse l ↔ l ≠ [] ∧ l <:+ m) := by
  have hp := tidy_plain hC.1
  have hc : ∀ t ∈ Cs.flatten, Conf.Spec.config o.delims t ∧ rstrip t = t ∧ Spec.Norm t t := fun t ht => by
    obtain ⟨b, h1, h2⟩ := List.mem_flatten.mp ht; exact hC.2 b h1 t h2
  obtain ⟨i, hi⟩ := hm
  obtain ⟨h1, h2, _⟩ := path_down hQ hp hc (closed_blocks (fun b hb => (hC.1 b hb).1)) hi
  have hpl : Query.Spec.Plain m.reverse := ⟨fun t ht => hp.1 t (h2 t (List.mem_reverse.mp ht)),
    fun t ht => hp.2.1 t (h2 t (List.mem_reverse.mp ht)), fun t ht => hp.2.2 t (h2 t (List.mem_reverse.mp ht))⟩
  have hcm : ∀ t ∈ m.reverse, Conf.Spec.config o.delims t ∧ rstrip t = t ∧ Spec.Norm t t :=
    fun t ht => hc t (h2 t (List.mem_reverse.mp ht))
  have hpw : m.reverse.Pairwise (fun a b => Conf.Spec.indent a < Conf.Spec.indent b) :=
    List.pairwise_reverse.mpr (down_pairwise h1)
  refine ⟨⟨⟨?_, hpl.1, hpl.2.1⟩, hpl.2.2⟩, h2, fun l => ?_⟩
  · obtain ⟨t, r, e, h0⟩ := down_reverse h1
    rw [e] at hpw hcm
    refine ⟨t, r, e, (hcm t (by simp)).1, h0, fun u hu => ?_⟩
    have := (List.pairwise_cons.mp hpw).1 u hu
    omega
  · obtain ⟨X, hX⟩ := plain_parses (o := o) hpl.2.1 hpl.2.2
    have := has_chain hX hpl hcm hpw l
    rw [List.reverse_reverse] at this
    rw [← this]
    constructor
    · rintro ⟨Y, hY, hh⟩
      rw [hX] at hY; cases hY; exact hh
    · exact fun hh => ⟨X, hX, hh⟩

section
variable {H : Str → Int} {syn : Conf.Syntax} {Cs : List (List Str)} {P' : Parsed} {line unc : Rx} {cmds : List Str}
  (R : Spec.Ready H syn false P.texts Cs.flatten P' Q) (hC : Spec.Tidy (opts syn false) Cs)
  (h : syncDiff H syn P Cs.flatten line unc false = .ok cmds)
include R hC h

/-- The commands are blocks, with the missing lines and their parents. -/
theorem commands_blocks : ∃ Ds : List (List Str), cmds = Ds.flatten ∧ Spec.Blocks (opts syn false) Ds ∧
    (∀ t ∈ cmds, t ∈ Cs.flatten) ∧
    ∀ l, (∃ b ∈ Ds, Spec.HasAlone (opts syn false) b l) ↔ l ≠ [] ∧ ∃ t ps, Spec.Has (opts syn false) Q (t :: ps) ∧
      ¬ Spec.Has (opts syn false) P' (t :: ps) ∧ Query.Spec.Match line t ∧ l <:+ t :: ps := by
  obtain ⟨blocks, e, h1, h2, h5⟩ := C67_commands_partial R h
  have hadd : ∀ b ∈ blocks.filter (fun b => !b.isEmpty), ∃ t ps, Spec.Has (opts syn false) Q (t :: ps) ∧
      ¬ Spec.Has (opts syn false) P' (t :: ps) ∧ Query.Spec.Match line t ∧ b = (t :: ps).reverse := by
    intro b hb
    obtain ⟨hb, hne⟩ := List.mem_filter.mp hb
    rcases h1 b hb with hb' | ⟨t, ps, a1, a2, a3, a4⟩ | ⟨hf, _⟩
    · rw [hb'] at hne; cases hne
    · exact ⟨t, ps, a1, a2, a3, by rw [a4, List.reverse_cons]⟩
    · cases hf
  have eflat : (blocks.filter (fun b => !b.isEmpty)).flatten = blocks.flatten := by
    clear h1 h2 h5 hadd e
    induction blocks with
    | nil => rfl
    | cons b bs ih =>
      rw [List.filter_cons, List.flatten_cons, ← ih]
      cases b <;> simp
  refine ⟨blocks.filter (fun b => !b.isEmpty), by rw [eflat, e], fun b hb => ?_, fun t ht => ?_, fun l => ?_⟩
  · obtain ⟨t, ps, a1, _, _, rfl⟩ := hadd b hb
    exact (chain_block hC R.after a1).1
  · rw [e, ← eflat] at ht
    obtain ⟨b, hb, ht⟩ := List.mem_flatten.mp ht
    obtain ⟨u, ps, a1, _, _, rfl⟩ := hadd b hb
    exact (chain_block hC R.after a1).2.1 t (List.mem_reverse.mp ht)
  · constructor
    · rintro ⟨b, hb, hh⟩
      obtain ⟨t, ps, a1, a2, a3, rfl⟩ := hadd b hb
      obtain ⟨b1, b2⟩ := ((chain_block hC R.after a1).2.2 l).mp hh
      exact ⟨b1, t, ps, a1, a2, a3, b2⟩
    · rintro ⟨hne, t, ps, a1, a2, a3, a4⟩
      have := h2 t ps a1 a2 a3
      refine ⟨(t :: ps).reverse, List.mem_filter.mpr ⟨by rw [List.reverse_cons]; exact this, by simp⟩,
        ((chain_block hC R.after a1).2.2 l).mpr ⟨hne, a4⟩⟩

/-! ## C239 -/

/-- C239: the commands can be parsed as a configuration, and its lines are the wanted lines that are missing, and their
parents. -/
theorem C239_lines_partial : ∃ X, parse (opts syn false) cmds = .ok X ∧
    ∀ l, Spec.Has (opts syn false) X l ↔ l ≠ [] ∧ ∃ t ps, Spec.Has (opts syn false) Q (t :: ps) ∧
      ¬ Spec.Has (opts syn false) P' (t :: ps) ∧ Query.Spec.Match line t ∧ l <:+ t :: ps := by
  obtain ⟨Ds, rfl, hD, _, hh⟩ := commands_blocks R hC h
  have hp := tidy_plain hD
  obtain ⟨X, hX⟩ := plain_parses (o := opts syn false) hp.2.1 hp.2.2
  exact ⟨X, hX, fun l => by rw [has_blocks hD hX, hh]⟩

/-- C239: the commands have only lines of the wanted configuration. -/
theorem C239_nothing_else_partial : ∀ t ∈ cmds, t ∈ Cs.flatten := by
  obtain ⟨_, _, _, h3, _⟩ := commands_blocks R hC h
  exact h3

end

/-! ## C240 -/

theorem no_adds {H : Str → Int} {syn : Conf.Syntax} {cfg : List Str} {line unc : Rx} {out : List Entry}
    (ho : hdiff H syn false P.texts cfg = .ok out) (h1 : ∀ e ∈ out, e.word = .add → ¬ Query.Spec.Match line e.text) :
    syncDiff H syn P cfg line unc false = .ok [] := by
  rw [syncDiff, ho]
  simp only [Bind.bind, Except.bind]
  have : collect (syncEntry line unc false) out = .ok (out.map (fun _ => [])) := by
    refine collect_map (fun e he => ?_)
    rw [syncEntry]
    split
    · rfl
    · rename_i hm
      by_cases hw : e.word = .add
      · exact absurd ((search_iff line e.text).mp (by simpa using hm)) (h1 e he hw)
      · simp [hw]
  rw [this]
  dsimp only
  congr 1
  rw [List.flatten_eq_nil_iff]
  intro l hl
  obtain ⟨_, _, h⟩ := List.mem_map.mp hl
  exact h.symm

theorem noDigits_iff {syn : Conf.Syntax} {lines : List Str} (h : parse (opts syn false) lines = .ok P) :
    Query.Spec.NoDigits P ↔ ∀ t ∈ lines, ∀ c, (rstrip t).head? = some c → isDigit c = false := by
  have hb := h
  have hi : Conf.Spec.input (opts syn false) lines = lines := by
    rw [Conf.Spec.input, if_neg]; rintro ⟨h1, _⟩; cases h1
  rw [parse, input_eq, hi] at hb
  constructor
  · intro hd t ht
    obtain ⟨i, hi, e⟩ := List.getElem_of_mem ht
    have h1 : (P.h i).text = rstrip (lineAt lines i) := (attrs hb hi).1
    have := hd i ((mem_list hb).mpr ⟨hi, .inl rfl⟩)
    rwa [h1, lineAt_get hi, e] at this
  · intro hd i hl
    have hi := ((mem_list hb).mp hl).1
    have h1 : (P.h i).text = rstrip (lineAt lines i) := (attrs hb hi).1
    rw [h1, lineAt_get hi]
    exact hd _ (List.getElem_mem hi)

section
variable {H : Str → Int} {syn : Conf.Syntax} {Bs Cs : List (List Str)} {P' : Parsed} {line unc : Rx} {cmds : List Str}
  (hP : P.texts = Bs.flatten) (R : Spec.Ready H syn false P.texts Cs.flatten P' Q) (hB : Spec.Blocks (opts syn false) Bs)
  (hC : Spec.Tidy (opts syn false) Cs) (h : syncDiff H syn P Cs.flatten line unc false = .ok cmds)
include hP R hB hC h

/-- C240: the configuration with the commands after it has its own lines, the wanted lines that were missing and their
parents, and no others. -/
theorem C240_lines_partial : ∃ X, parse (opts syn false) (P.texts ++ cmds) = .ok X ∧
    ∀ l, Spec.Has (opts syn false) X l ↔ Spec.Has (opts syn false) P' l ∨ (l ≠ [] ∧ ∃ t ps,
      Spec.Has (opts syn false) Q (t :: ps) ∧ ¬ Spec.Has (opts syn false) P' (t :: ps) ∧ Query.Spec.Match line t ∧
      l <:+ t :: ps) := by
  obtain ⟨Ds, rfl, hD, _, hh⟩ := commands_blocks R hC h
  have hBD : Spec.Blocks (opts syn false) (Bs ++ Ds) := fun b hb => by
    rcases List.mem_append.mp hb with hb | hb
    · exact hB b hb
    · exact hD b hb
  have hp := tidy_plain hBD
  obtain ⟨X, hX⟩ := plain_parses (o := opts syn false) hp.2.1 hp.2.2
  have hPp := R.before
  rw [hP] at hPp
  refine ⟨X, by rw [hP, ← List.flatten_append]; exact hX, fun l => ?_⟩
  rw [has_blocks hBD hX, has_blocks hB hPp, ← hh]
  constructor
  · rintro ⟨b, hb, hx⟩
    rcases List.mem_append.mp hb with hb | hb
    · exact .inl ⟨b, hb, hx⟩
    · exact .inr ⟨b, hb, hx⟩
  · rintro (⟨b, hb, hx⟩ | ⟨b, hb, hx⟩)
    · exact ⟨b, List.mem_append_left _ hb, hx⟩
    · exact ⟨b, List.mem_append_right _ hb, hx⟩

/-- C240: given the configuration with the commands after it, `sync_diff` asks for nothing more. -/
theorem C240_again_partial {P₂ : Parsed} (h2 : P₂.texts = P.texts ++ cmds) :
    syncDiff H syn P₂ Cs.flatten line unc false = .ok [] := by
  obtain ⟨X, hX, hh⟩ := C240_lines_partial hP R hB hC h
  have hcm := C239_nothing_else_partial R hC h
  have hmem : ∀ l, Spec.Has (opts syn false) X l → ∀ t ∈ l, ∃ m, (Spec.Has (opts syn false) P' m ∨ Spec.Has (opts syn false) Q m) ∧ t ∈ m := by
    intro l hl t ht
    rcases (hh l).mp hl with hl | ⟨_, u, ps, hq, _, _, hs⟩
    · exact ⟨l, .inl hl, ht⟩
    · exact ⟨_, .inr hq, hs.subset ht⟩
  have hmem' : ∀ l, Spec.Has (opts syn false) X l ∨ Spec.Has (opts syn false) Q l → ∀ t ∈ l,
      ∃ m, (Spec.Has (opts syn false) P' m ∨ Spec.Has (opts syn false) Q m) ∧ t ∈ m := by
    rintro l (hl | hl) t ht
    · exact hmem l hl t ht
    · exact ⟨l, .inr hl, ht⟩
  have R2 : Spec.Ready H syn false P₂.texts Cs.flatten X Q := by
    refine ⟨by rw [h2]; exact hX, R.after, ?_, R.digitsQ, fun l m hl hm a ha b hb e => ?_, R.syn⟩
    · rw [noDigits_iff hX]
      intro t ht
      rcases List.mem_append.mp ht with ht | ht
      · exact (noDigits_iff R.before).mp R.digitsP t ht
      · exact (noDigits_iff R.after).mp R.digitsQ t (hcm t ht)
    · obtain ⟨l', hl', ha'⟩ := hmem' l hl a ha
      obtain ⟨m', hm', hb'⟩ := hmem' m hm b hb
      exact R.hash l' m' hl' hm' a ha' b hb' e
  obtain ⟨out, ho⟩ := C48_succeeds_partial R2
  refine no_adds ho (fun e he hw hm => ?_)
  obtain ⟨h3, h4⟩ := C48_plus_partial R2 ho he hw
  have hpath : e.path = e.text :: e.parents.reverse := rfl
  rw [hpath] at h3 h4
  rw [hh] at h4
  by_cases h5 : Spec.Has (opts syn false) P' (e.text :: e.parents.reverse)
  · exact h4 (.inl h5)
  · exact h4 (.inr ⟨by simp, _, _, h3, h5, hm, List.suffix_refl _⟩)

end

/-- The hypotheses are met. -/
theorem exTidy : Spec.Tidy (opts .ios false) [exTwo, [s "i", s " p", s "  q"]] := by
  have hb : ∀ b ∈ [exTwo, [s "i", s " p", s "  q"]], Query.Spec.Block (opts .ios false) b ∧ ∀ t ∈ b, ¬ Conf.Spec.closes t := by
    intro b hb
    rcases List.mem_cons.mp hb with rfl | hb
    · exact exBlocks _ (by simp)
    · rw [List.mem_singleton.mp hb]
      exact exBlock (by decide +kernel)
        ⟨_, _, rfl, config_head (c := 'i') (by decide +kernel) (by decide) (by decide), by decide +kernel, by decide +kernel⟩
  refine ⟨hb, ?_⟩
  have key : ∀ b ∈ [exTwo, [s "i", s " p", s "  q"]], ∀ t ∈ b, (strip (rstrip t)).isEmpty = false ∧ isCommentText (opts .ios false).delims t = false ∧
      rstrip t = t ∧ t = norm t := by decide +kernel
  intro b hb t ht
  obtain ⟨h1, h2, h3, h4⟩ := key b hb t ht
  refine ⟨⟨fun hb => ?_, fun hb => ?_⟩, h3, (norm_iff _ _).mpr h4⟩
  · rw [(blank_iff t).mpr hb] at h1; cases h1
  · rw [(Edit.isCommentText_iff _ t).mpr hb] at h2; cases h2

example : ∃ P P' Q cmds, parse (opts .ios false) [exOne, exTwo].flatten = .ok P ∧ P.texts = [exOne, exTwo].flatten ∧
    Spec.Ready code .ios false P.texts [exTwo, [s "i", s " p", s "  q"]].flatten P' Q ∧
    syncDiff code .ios P [exTwo, [s "i", s " p", s "  q"]].flatten rxAll rxAll false = .ok cmds ∧
    cmds = [s "i", s "i", s " p", s "i", s " p", s "  q"] :=
  ⟨_, _, _, _, rfl, by decide +kernel, ⟨rfl, rfl, noDigits_of (by decide), noDigits_of (by decide), noCollision_code _ _ _, .inl rfl⟩,
    rfl, by decide +kernel⟩


/-- C239 does not hold as stated: of the commands for a banner the first two lines and the last two are banners, the
second is text of the first, and nothing ends the last. -/
theorem C239_banner_fails : ∃ P X, parse (opts .ios false) [] = .ok P ∧
    syncDiff code .ios P [s "banner login ^", s "hello", s "^"] rxAll rxAll false =
      .ok [s "banner login ^", s "banner login ^", s "^", s "banner login ^", s "hello"] ∧
    parse (opts .ios false) [s "banner login ^", s "banner login ^", s "^", s "banner login ^", s "hello"] = .ok X ∧
    X.list.map (fun i => (X.h i).parent) = [0, 0, 1, 3, 3] :=
  ⟨_, _, rfl, by decide +kernel, rfl, by decide +kernel⟩

/-- C240 does not hold as stated: the first wanted line is indented, so it is not the same line behind others. -/
theorem C240_indent_fails : ∃ P P₂, parse (opts .ios false) [s "x"] = .ok P ∧
    syncDiff code .ios P [s " a", s "b"] rxAll rxAll false = .ok [s " a", s "b"] ∧
    parse (opts .ios false) [s "x", s " a", s "b"] = .ok P₂ ∧
    syncDiff code .ios P₂ [s " a", s "b"] rxAll rxAll false = .ok [s " a"] :=
  ⟨_, _, rfl, by decide +kernel, rfl, by decide +kernel⟩

/-- C240 does not hold as stated when lines are to be removed: the command is entered below `j`. -/
theorem C240_remove_fails : ∃ P P₂, parse (opts .ios false) [s "i", s " x", s "j"] = .ok P ∧
    syncDiff code .ios P [s "i", s "j"] rxAll rxAll true = .ok [s " no x"] ∧
    parse (opts .ios false) [s "i", s " x", s "j", s " no x"] = .ok P₂ ∧
    syncDiff code .ios P₂ [s "i", s "j"] rxAll rxAll true = .ok [s " no x", s " no no x"] :=
  ⟨_, _, rfl, by decide +kernel, rfl, by decide +kernel⟩

end Diff

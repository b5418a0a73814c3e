import Verif.Query.Blocks
import Verif.Diff.Props
import Verif.Diff.SyncProps

/-! # C230, C231: diffs of configurations that consist of blocks -/

namespace Diff.Spec

open Py Conf

/-- Each is a block (C217), without closing braces. -/
def Blocks (o : Opts) (Bs : List (List Str)) : Prop :=
  ∀ b ∈ Bs, Query.Spec.Block o b ∧ ∀ t ∈ b, ¬ Conf.Spec.closes t

/-- The block, parsed alone, has a line with this path. -/
def HasAlone (o : Opts) (b : List Str) (l : List Str) : Prop := ∃ X, parse o b = .ok X ∧ Has o X l

end Diff.Spec

namespace Diff

open Py Conf Query

variable {o : Opts} {P Q : Parsed}

theorem plain_parses {l : List Str} (h2 : ∀ t ∈ l, ¬ "macro name ".toList <+: t) (h3 : ∀ t ∈ l, ¬ Conf.Spec.closes t) :
    ∃ P, parse o l = .ok P := by
  cases hp : parse o l with
  | ok P => exact ⟨P, rfl⟩
  | error e =>
    exfalso
    rw [parse, input_eq] at hp
    have hmem := input_mem o l
    rcases bootstrap_error hp with ⟨_, j, hj, hc, _⟩ | ⟨_, _, p, hp, hm, _⟩
    · exact h3 _ (hmem j hj) hc
    · exact h2 _ (hmem p hp) hm

theorem block_plain {pre b post : List Str} (h : Query.Spec.Plain (pre ++ b ++ post)) : Query.Spec.Plain b := by
  have : ∀ t ∈ b, t ∈ pre ++ b ++ post := fun t ht => by simp [ht]
  exact ⟨fun t ht => h.1 t (this t ht), fun t ht => h.2.1 t (this t ht), fun t ht => h.2.2 t (this t ht)⟩

section
variable {pre b post : List Str} (h : parse o (pre ++ b ++ post) = .ok P) (h' : parse o b = .ok Q) (hb : Query.Spec.Block o b)
  (hp : Query.Spec.Closed o post) (hpl : Query.Spec.Plain (pre ++ b ++ post))
include h h' hb hp hpl

theorem parent_block {k : Nat} (hk : k < b.length) :
    k ∈ Q.list ∧ (Conf.Spec.input o pre).length + k ∈ P.list ∧ (Q.h k).parent < b.length ∧
      (P.h ((Conf.Spec.input o pre).length + k)).parent = (Conf.Spec.input o pre).length + (Q.h k).parent := by
  have hpb := block_plain hpl
  have tP := tree_of_parse h
  have tQ := tree_of_parse h'
  have hq : parse o ([] ++ b ++ []) = .ok Q := by rw [List.nil_append, List.append_nil]; exact h'
  have hnil : Query.Spec.Closed o [] := by intro a t c e; cases a <;> cases e
  have hql := placed_listed (placed_of hq hb hnil) hk
  have hi : Conf.Spec.input o [] = [] := by unfold Conf.Spec.input; split <;> rfl
  rw [hi, List.length_nil, Nat.zero_add] at hql
  have hpp := placed_of h hb hp
  have hal := alike_block h h' hb hp
  have hpk := placed_listed hpp hk
  generalize Conf.Spec.input o pre = A at hpp hal hpk ⊢
  have hup := tQ.up k hql
  have hdown : ∀ {j m : Nat}, j < b.length → m < b.length → ((P.h (A.length + m)).parent = A.length + j ∧ m ≠ j ↔
      (Q.h m).parent = j ∧ m ≠ j) := by
    intro j m hj hm
    have hj' := placed_listed hpp hj
    have hm' := placed_listed hpp hm
    have hjq := placed_listed (placed_of hq hb hnil) hj
    have hmq := placed_listed (placed_of hq hb hnil) hm
    rw [hi, List.length_nil, Nat.zero_add] at hjq hmq
    have e1 := (C22_agree_partial h' hpb.1 hpb.2.1 hpb.2.2 hjq).2 m
    have e2 := (C22_agree_partial h hpl.1 hpl.2.1 hpl.2.2 hj').2 (A.length + m)
    obtain ⟨_, ⟨C, _, c1, c2⟩, _⟩ := hal j hj
    simp only [Nat.zero_add, List.map_id'] at c2
    rw [c2] at e1
    rw [c1, List.mem_map] at e2
    constructor
    · rintro ⟨h1, h2⟩
      obtain ⟨x, hx, hxe⟩ := e2.mpr ⟨hm', h1, by omega⟩
      have : x = m := by omega
      subst this
      exact (e1.mp hx).2
    · rintro ⟨h1, h2⟩
      have := e2.mp ⟨m, e1.mpr ⟨hmq, h1, h2⟩, rfl⟩
      exact ⟨this.2.1, h2⟩
  refine ⟨hql, hpk, by omega, ?_⟩
  by_cases hself : (P.h (A.length + k)).parent = A.length + k
  · by_cases hs : (Q.h k).parent = k
    · rw [hself, hs]
    · exact ((hdown (show (Q.h k).parent < b.length by omega) hk).mpr ⟨rfl, fun e => hs e.symm⟩).1
  · have hu := tP.up _ hpk
    have hc := ((C22_agree_partial h hpl.1 hpl.2.1 hpl.2.2 hu.1).2 (A.length + k)).mpr ⟨hpk, rfl, fun e => hself e.symm⟩
    obtain ⟨q, hq', e⟩ := parent_inside hpp hpl.1 hpl.2.1 hu.1 hk hc
    have := ((hdown hq' hk).mp ⟨e, by omega⟩).1
    rw [e, this]

theorem path_block (l : List Str) : ∀ k < b.length,
    (Spec.Path o P ((Conf.Spec.input o pre).length + k) l ↔ Spec.Path o Q k l) := by
  have hal := alike_block h h' hb hp
  have ht : ∀ k < b.length, (P.h ((Conf.Spec.input o pre).length + k)).text = (Q.h k).text := fun k hk => by
    have := (hal k hk).1
    rwa [Nat.zero_add] at this
  induction l with
  | nil => intro k _; constructor <;> intro hh <;> cases hh
  | cons u l ih =>
    intro k hk
    obtain ⟨h1, h2, h3, h4⟩ := parent_block h h' hb hp hpl hk
    constructor
    · intro hh
      cases hh with
      | root _ hc hn =>
        rw [ht k hk] at hc hn
        exact .root h1 (hc.imp (fun e => by omega) id) hn
      | child _ hne hc hn hl =>
        rw [ht k hk] at hc hn
        rw [h4] at hl hne
        exact .child h1 (by omega) hc hn ((ih _ h3).mp hl)
    · intro hh
      cases hh with
      | root _ hc hn =>
        rw [← ht k hk] at hc hn
        exact .root h2 (hc.imp (fun e => by omega) id) hn
      | child _ hne hc hn hl =>
        rw [← ht k hk] at hc hn
        refine .child h2 (by omega) hc hn ?_
        rw [h4]
        exact (ih _ h3).mpr hl

end

theorem index_split : ∀ (Bs : List (List Str)) (i : Nat), i < Bs.flatten.length →
    ∃ As b Cs k, Bs = As ++ b :: Cs ∧ k < b.length ∧ i = As.flatten.length + k
  | [], i, h => by simp at h
  | b :: Bs, i, h => by
    by_cases hi : i < b.length
    · exact ⟨[], b, Bs, i, rfl, hi, by simp⟩
    · rw [List.flatten_cons, List.length_append] at h
      obtain ⟨As, c, Cs, k, e, hk, hi⟩ := index_split Bs (i - b.length) (by omega)
      refine ⟨b :: As, c, Cs, k, by rw [e]; rfl, hk, ?_⟩
      rw [List.flatten_cons, List.length_append]
      omega

theorem path_listed {i : Nat} {l : List Str} (h : Spec.Path o P i l) : i ∈ P.list := by
  cases h <;> assumption

/-- A configuration of blocks has the paths of its blocks. -/
theorem has_blocks {Bs : List (List Str)} (hB : Spec.Blocks o Bs) (h : parse o Bs.flatten = .ok P) (l : List Str) :
    Spec.Has o P l ↔ ∃ b ∈ Bs, Spec.HasAlone o b l := by
  have hplain : Query.Spec.Plain Bs.flatten := by
    have : ∀ t ∈ Bs.flatten, ∃ b ∈ Bs, t ∈ b := fun t ht => by
      obtain ⟨b, h1, h2⟩ := List.mem_flatten.mp ht; exact ⟨b, h1, h2⟩
    refine ⟨fun t ht => ?_, fun t ht => ?_, fun t ht => ?_⟩ <;> obtain ⟨b, h1, h2⟩ := this t ht
    · exact (hB b h1).1.banner t h2
    · exact (hB b h1).1.mac t h2
    · exact (hB b h1).2 t h2
  have key : ∀ As b Cs, Bs = As ++ b :: Cs → ∃ Q, parse o b = .ok Q ∧
      ∀ k < b.length, (Spec.Path o P (As.flatten.length + k) l ↔ Spec.Path o Q k l) := by
    rintro As b Cs rfl
    have e : (As ++ b :: Cs).flatten = As.flatten ++ b ++ Cs.flatten := by simp
    rw [e] at h hplain
    have hb := hB b (by simp)
    have hpb := block_plain hplain
    obtain ⟨Q, hQ⟩ := plain_parses (o := o) hpb.2.1 hpb.2.2
    have hcl : Query.Spec.Closed o Cs.flatten := closed_blocks (fun c hc => (hB c (by simp [hc])).1)
    have hid : Conf.Spec.input o As.flatten = As.flatten := Edit.input_id (fun t ht => by
      obtain ⟨c, h1, h2⟩ := List.mem_flatten.mp ht
      exact block_lines (hB c (by simp [h1])).1 t h2)
    have := path_block h hQ hb.1 hcl hplain l
    rw [hid] at this
    exact ⟨Q, hQ, this⟩
  constructor
  · rintro ⟨i, hi⟩
    have hb := h
    rw [Conf.parse, input_eq, Edit.input_id (fun t ht => by
      obtain ⟨c, h1, h2⟩ := List.mem_flatten.mp ht
      exact block_lines (hB c h1).1 t h2)] at hb
    obtain ⟨As, b, Cs, k, e, hk, rfl⟩ := index_split Bs i ((mem_list hb).mp (path_listed hi)).1
    obtain ⟨Q, hQ, hh⟩ := key As b Cs e
    exact ⟨b, by rw [e]; simp, Q, hQ, k, (hh k hk).mp hi⟩
  · rintro ⟨b, hb, X, hX, k, hk⟩
    obtain ⟨As, Cs, e⟩ := List.append_of_mem hb
    obtain ⟨Q, hQ, hh⟩ := key As b Cs e
    rw [hX] at hQ; cases hQ
    have hb' := hX
    rw [Conf.parse, input_eq, Edit.input_id (block_lines (hB b hb).1)] at hb'
    exact ⟨_, (hh k ((mem_list hb').mp (path_listed hk)).1).mpr hk⟩

/-! ## C230 -/

section
variable {H : Str → Int} {syn : Conf.Syntax} {ign : Bool} {Bs Cs : List (List Str)}
  (R : Spec.Ready H syn ign Bs.flatten Cs.flatten P Q) (hB : Spec.Blocks (opts syn ign) Bs) (hC : Spec.Blocks (opts syn ign) Cs)
include R hB hC

/-- C230: a line that is shown as added is in a block that only the configuration after has. -/
theorem C230_plus_partial {out : List Entry} (ho : hdiff H syn ign Bs.flatten Cs.flatten = .ok out) {e : Entry}
    (he : e ∈ out) (hw : e.word = .add) :
    (∃ c ∈ Cs, c ∉ Bs ∧ Spec.HasAlone (opts syn ign) c e.path) ∧ ∀ b ∈ Bs, ¬ Spec.HasAlone (opts syn ign) b e.path := by
  obtain ⟨h1, h2⟩ := C48_plus_partial R ho he hw
  rw [has_blocks hC R.after] at h1
  rw [has_blocks hB R.before] at h2
  obtain ⟨c, hc, h1⟩ := h1
  exact ⟨⟨c, hc, fun hb => h2 ⟨c, hb, h1⟩, h1⟩, fun b hb hh => h2 ⟨b, hb, hh⟩⟩

/-- C230: a line that is shown as removed is in a block that only the configuration before has. -/
theorem C230_minus_partial {out : List Entry} (ho : hdiff H syn ign Bs.flatten Cs.flatten = .ok out) {e : Entry}
    (he : e ∈ out) (hw : e.word = .remove) :
    (∃ b ∈ Bs, b ∉ Cs ∧ Spec.HasAlone (opts syn ign) b e.path) ∧ ∀ c ∈ Cs, ¬ Spec.HasAlone (opts syn ign) c e.path := by
  obtain ⟨h1, h2⟩ := C48_minus_partial R ho he hw
  rw [has_blocks hC R.after] at h2
  rw [has_blocks hB R.before] at h1
  obtain ⟨c, hc, h1⟩ := h1
  exact ⟨⟨c, hc, fun hb => h2 ⟨c, hb, h1⟩, h1⟩, fun b hb hh => h2 ⟨b, hb, hh⟩⟩

/-- C230: if the two configurations have the same blocks, in whatever order and however often, no line of the unified diff
starts with `+` or `-`. -/
theorem C230_order_partial (hs : ∀ b, b ∈ Bs ↔ b ∈ Cs) : ∃ out, hdiff H syn ign Bs.flatten Cs.flatten = .ok out ∧
    ∀ x ∈ unified out, x.head? = some ' ' := by
  obtain ⟨out, ho⟩ := C48_succeeds_partial R
  refine ⟨out, ho, fun x hx => ?_⟩
  obtain ⟨e, he, rfl⟩ := List.mem_map.mp hx
  have h1 : e.word ≠ .add := fun hw => by
    obtain ⟨⟨c, hc, hn, _⟩, _⟩ := C230_plus_partial R hB hC ho he hw
    exact hn ((hs c).mpr hc)
  have h2 : e.word ≠ .remove := fun hw => by
    obtain ⟨⟨c, hc, hn, _⟩, _⟩ := C230_minus_partial R hB hC ho he hw
    exact hn ((hs c).mp hc)
  rw [unifiedLine]
  split
  · exact absurd (by assumption) h1
  · exact absurd (by assumption) h2
  · rfl

end

/-- Two blocks. -/
def exOne : List Str := [s "interface a", s " y"]
def exTwo : List Str := [s "log 2", s " z"]

theorem exBlock {b : List Str} (hh : ∀ t ∈ b, ¬ "banner".toList <:+: rstrip t ∧ ¬ "macro name ".toList <+: t ∧ '}' ∉ t)
    (hd : ∃ t r, b = t :: r ∧ Conf.Spec.config (opts .ios false).delims t ∧ Conf.Spec.indent t = 0 ∧ ∀ u ∈ r, 0 < Conf.Spec.indent u) :
    Query.Spec.Block (opts .ios false) b ∧ ∀ t ∈ b, ¬ Conf.Spec.closes t := by
  refine ⟨⟨hd, ?_, fun t ht => (hh t ht).2.1⟩, ?_⟩
  · rintro t ht d ⟨sets, c, word, ws, rest, e, _⟩
    exact (hh t ht).1 ⟨sets, [c] ++ word ++ ws ++ d :: rest, by rw [e]; simp⟩
  · rintro t ht ⟨⟨ws, rest, e, _⟩, _⟩
    exact (hh t ht).2.2 (by rw [e]; simp)

theorem exBlocks : ∀ b ∈ [exOne, exTwo], Query.Spec.Block (opts .ios false) b ∧ ∀ t ∈ b, ¬ Conf.Spec.closes t := by
  intro b hb
  rcases List.mem_cons.mp hb with rfl | hb
  · exact exBlock (by decide +kernel)
      ⟨_, _, rfl, config_head (c := 'i') (by decide +kernel) (by decide) (by decide), by decide +kernel, by decide +kernel⟩
  · rw [List.mem_singleton.mp hb]
    exact exBlock (by decide +kernel)
      ⟨_, _, rfl, config_head (c := 'l') (by decide +kernel) (by decide) (by decide), by decide +kernel, by decide +kernel⟩

example : ∃ P Q, Spec.Ready code .ios false [exOne, exTwo].flatten [exTwo, exOne, exTwo].flatten P Q ∧
    Spec.Blocks (opts .ios false) [exOne, exTwo] ∧ Spec.Blocks (opts .ios false) [exTwo, exOne, exTwo] ∧
    ∀ b, b ∈ [exOne, exTwo] ↔ b ∈ [exTwo, exOne, exTwo] :=
  ⟨_, _, ⟨rfl, rfl, noDigits_of (by decide), noDigits_of (by decide), noCollision_code _ _ _, .inl rfl⟩, exBlocks,
    fun b hb => exBlocks b (by grind), fun b => by grind⟩

example : ∃ e, (hdiff code .ios false [exOne].flatten [exTwo, exOne].flatten).map (fun out => (out.filter (fun e => e.word == .add)).length) =
    .ok e ∧ e = 2 := ⟨_, rfl, by decide +kernel⟩

/-- C230 does not hold as stated: in one order line 11 ` x` compares equal to its parent, line 1 `1 x` (C48), in the other
it does not, so it is reported as removed and added. -/
theorem C230_digits_fails :
    (hdiff code .ios false [[s "a"], s "1 x" :: (List.replicate 9 (s " b") ++ [s " x"])].flatten
      [s "1 x" :: (List.replicate 9 (s " b") ++ [s " x"]), [s "a"]].flatten).map unified =
    .ok [s " a", s " 1 x", s "+ x", s "  b", s "- x"] := by decide +kernel

/-! ## C231 -/

theorem no_commands {H : Str → Int} {syn : Conf.Syntax} {cfg : List Str} {line unc : Rx} {remove : Bool} {out : List Entry}
    (ho : hdiff H syn false P.texts cfg = .ok out) (h1 : ∀ e ∈ out, e.word ≠ .add)
    (h2 : remove = true → ∀ e ∈ out, e.word ≠ .remove) : syncDiff H syn P cfg line unc remove = .ok [] := by
  rw [syncDiff, ho]
  simp only [Bind.bind, Except.bind]
  have : collect (syncEntry line unc remove) out = .ok (out.map (fun _ => [])) := by
    refine collect_map (fun e he => ?_)
    rw [syncEntry]
    split
    · rfl
    · cases remove with
      | false => simp [h1 e he]
      | true => simp [h1 e he, h2 rfl e he]
  rw [this]
  dsimp only
  congr 1
  rw [List.flatten_eq_nil_iff]
  intro l hl
  obtain ⟨_, _, h⟩ := List.mem_map.mp hl
  exact h.symm

section
variable {H : Str → Int} {syn : Conf.Syntax} {Bs Cs : List (List Str)} {P' : Parsed}
  (hP : P.texts = Bs.flatten) (R : Spec.Ready H syn false P.texts Cs.flatten P' Q) (hB : Spec.Blocks (opts syn false) Bs)
  (hC : Spec.Blocks (opts syn false) Cs)
include R hB hC hP

/-- C231: if the configuration has all wanted blocks, `sync_diff` without removals asks for nothing. -/
theorem C231_present_partial (hs : ∀ c ∈ Cs, c ∈ Bs) (line unc : Rx) :
    syncDiff H syn P Cs.flatten line unc false = .ok [] := by
  obtain ⟨out, ho⟩ := C48_succeeds_partial R
  refine no_commands ho (fun e he hw => ?_) (fun h => by cases h)
  rw [hP] at R ho
  obtain ⟨⟨c, hc, hn, _⟩, _⟩ := C230_plus_partial R hB hC ho he hw
  exact hn (hs c hc)

/-- C231: if it has the wanted blocks and no others, in whatever order, `sync_diff` asks for nothing. -/
theorem C231_order_partial (hs : ∀ b, b ∈ Bs ↔ b ∈ Cs) (line unc : Rx) (remove : Bool) :
    syncDiff H syn P Cs.flatten line unc remove = .ok [] := by
  obtain ⟨out, ho⟩ := C48_succeeds_partial R
  refine no_commands ho (fun e he hw => ?_) (fun _ e he hw => ?_) <;> rw [hP] at R ho
  · obtain ⟨⟨c, hc, hn, _⟩, _⟩ := C230_plus_partial R hB hC ho he hw
    exact hn ((hs c).mpr hc)
  · obtain ⟨⟨c, hc, hn, _⟩, _⟩ := C230_minus_partial R hB hC ho he hw
    exact hn ((hs c).mp hc)

end

example : ∃ P P' Q, parse (opts .ios false) [exOne, exTwo].flatten = .ok P ∧ P.texts = [exOne, exTwo].flatten ∧
    Spec.Ready code .ios false P.texts [exTwo, exOne].flatten P' Q ∧
    syncDiff code .ios P [exTwo, exOne].flatten rxAll rxAll true = .ok [] :=
  ⟨_, _, _, rfl, by decide +kernel, ⟨rfl, rfl, noDigits_of (by decide), noDigits_of (by decide), noCollision_code _ _ _, .inl rfl⟩,
    by decide +kernel⟩

/-- C231 does not hold as stated, for the same reason as C230: the wanted blocks are there, and commands are given. -/
theorem C231_digits_fails : ∃ P, parse (opts .ios false) [[s "a"], s "1 x" :: (List.replicate 9 (s " b") ++ [s " x"])].flatten = .ok P ∧
    P.texts = [[s "a"], s "1 x" :: (List.replicate 9 (s " b") ++ [s " x"])].flatten ∧
    syncDiff code .ios P [s "1 x" :: (List.replicate 9 (s " b") ++ [s " x"]), [s "a"]].flatten rxAll rxAll false =
      .ok [s "1 x", s " x"] := ⟨_, rfl, by decide +kernel, by decide +kernel⟩

end Diff

import Verif.Diff.Result
import Verif.Conf.Reparse

/-! # C48, C64 – C69: `HDiff` and `sync_diff`

`Spec.Ready H syn ign before after P Q`: the two configurations parse as `P` and `Q`,
their texts have no leading digits and no colliding hashes, the syntax is ios or nxos.
`Spec.Has o P l`: configuration `P` has a line with path `l`. -/

namespace Diff

open Py Conf Query

/-- A string as a line. -/
abbrev s (x : String) : Str := x.toList

/-- A hash without collisions, for the examples. -/
def code (t : Str) : Int := (t.foldr (fun c n => n * 1114112 + (c.toNat + 1)) 0 : Nat)

theorem code_inj : ∀ a b : Str, code a = code b → a = b := by
  have key : ∀ a b : Str, a.foldr (fun c n => n * 1114112 + (c.toNat + 1)) 0 =
      b.foldr (fun c n => n * 1114112 + (c.toNat + 1)) 0 → a = b := by
    have hc : ∀ c : Char, c.toNat < 1114112 := by
      intro c
      have h := c.valid
      have h2 : c.toNat = c.val.toNat := rfl
      rcases h with h | ⟨_, h⟩ <;> omega
    intro a
    induction a with
    | nil =>
      intro b h
      cases b with
      | nil => rfl
      | cons c b => simp only [List.foldr_nil, List.foldr_cons] at h; omega
    | cons c a ih =>
      intro b h
      cases b with
      | nil => simp only [List.foldr_nil, List.foldr_cons] at h; omega
      | cons d b =>
        simp only [List.foldr_cons] at h
        have h1 := hc c
        have h2 := hc d
        generalize hx : a.foldr (fun c n => n * 1114112 + (c.toNat + 1)) 0 = x at h
        generalize hy : b.foldr (fun c n => n * 1114112 + (c.toNat + 1)) 0 = y at h
        have hxy : x = y := by omega
        have hcd : c = d := Char.ext (UInt32.toNat_inj.mp (show c.toNat = d.toNat by omega))
        rw [hcd, ih b (by rw [hx, hy, hxy])]
  intro a b h
  exact key a b (Int.ofNat.inj h)

theorem noDigits_of {P : Parsed}
    (h : P.list.all (fun i => (P.h i).text.head?.all (fun c => !isDigit c)) = true) :
    Query.Spec.NoDigits P := by
  intro i hi c hc
  have := List.all_eq_true.mp h i hi
  rw [hc] at this
  simpa using this

theorem noCollision_code (o : Opts) (P Q : Parsed) : Spec.NoCollision code o P Q :=
  fun _ _ _ _ a _ b _ h => code_inj a b h

/-- The example configurations. -/
def exBefore : List Str := [s "interface  a", s " x", s " y", s "log 1"]
def exAfter : List Str := [s "interface a", s " y", s " z  z", s "log 2"]

theorem exReady : ∃ P Q, Spec.Ready code .ios false exBefore exAfter P Q :=
  ⟨_, _, rfl, rfl, noDigits_of (by decide), noDigits_of (by decide), noCollision_code _ _ _, .inl rfl⟩

section
variable {H : Str → Int} {syn : Conf.Syntax} {ign : Bool} {before after : List Str} {P Q : Parsed}
  (R : Spec.Ready H syn ign before after P Q)
include R

/-! ## C48 -/

/-- C48: the comparison never raises. -/
theorem C48_succeeds_partial : ∃ out, hdiff H syn ign before after = .ok out := by
  obtain ⟨_, _, out, h, _⟩ := out_spec R
  exact ⟨out, h⟩

/-- C48: a `+` line is in after and not in before. -/
theorem C48_plus_partial {out : List Entry} (ho : hdiff H syn ign before after = .ok out) {e : Entry}
    (he : e ∈ out) (hw : e.word = .add) :
    Spec.Has (opts syn ign) Q e.path ∧ ¬ Spec.Has (opts syn ign) P e.path := by
  obtain ⟨_, _, out', h, _, _, _, _, _, h2, _⟩ := out_spec R
  rw [h] at ho; cases ho
  rcases h2 e he with h | h | h
  · rw [h.1] at hw; cases hw
  · rw [h.1] at hw; cases hw
  · exact h.2.symm

/-- C48: a `-` line is in before and not in after. -/
theorem C48_minus_partial {out : List Entry} (ho : hdiff H syn ign before after = .ok out) {e : Entry}
    (he : e ∈ out) (hw : e.word = .remove) :
    Spec.Has (opts syn ign) P e.path ∧ ¬ Spec.Has (opts syn ign) Q e.path := by
  obtain ⟨_, _, out', h, _, _, _, _, _, h2, _⟩ := out_spec R
  rw [h] at ho; cases ho
  rcases h2 e he with h | h | h
  · rw [h.1] at hw; cases hw
  · exact h.2
  · rw [h.1] at hw; cases hw

/-- C48: any other line is in both. -/
theorem C48_same_partial {out : List Entry} (ho : hdiff H syn ign before after = .ok out) {e : Entry}
    (he : e ∈ out) (h1 : e.word ≠ .add) (h2 : e.word ≠ .remove) :
    Spec.Has (opts syn ign) P e.path ∧ Spec.Has (opts syn ign) Q e.path := by
  obtain ⟨_, _, out', h, _, _, _, _, _, h3, _⟩ := out_spec R
  rw [h] at ho; cases ho
  rcases h3 e he with h | h | h
  · exact h.2
  · exact absurd h.1 h2
  · exact absurd h.1 h1

/-- C48, as text: `unified_diffs` puts `+` before the texts of lines that only after has,
`-` before the texts of lines that only before has, and a blank before the others. -/
theorem C48_signs_partial {out : List Entry} (ho : hdiff H syn ign before after = .ok out) {x : Str}
    (hx : x ∈ unified out) : ∃ sign t ps, x = sign :: t ∧
      ((sign = '+' ∧ Spec.Has (opts syn ign) Q (t :: ps) ∧ ¬ Spec.Has (opts syn ign) P (t :: ps)) ∨
       (sign = '-' ∧ Spec.Has (opts syn ign) P (t :: ps) ∧ ¬ Spec.Has (opts syn ign) Q (t :: ps)) ∨
       (sign = ' ' ∧ Spec.Has (opts syn ign) P (t :: ps) ∧ Spec.Has (opts syn ign) Q (t :: ps))) := by
  obtain ⟨e, he, rfl⟩ := List.mem_map.mp hx
  obtain ⟨_, _, out', h, _, _, _, _, _, h2, _⟩ := out_spec R
  rw [h] at ho; cases ho
  rcases h2 e he with h | h | h
  · exact ⟨' ', e.text, e.parents.reverse, by rw [unifiedLine, h.1], .inr (.inr ⟨rfl, h.2⟩)⟩
  · exact ⟨'-', e.text, e.parents.reverse, by rw [unifiedLine, h.1], .inr (.inl ⟨rfl, h.2⟩)⟩
  · exact ⟨'+', e.text, e.parents.reverse, by rw [unifiedLine, h.1], .inl ⟨rfl, h.2.2, h.2.1⟩⟩

/-! ## C64 -/

/-- C64: every line that only after has is reported as `+`, every line that only before
has as `-`, every line that both have without a sign. -/
theorem C64_complete_partial {out : List Entry} (ho : hdiff H syn ign before after = .ok out)
    (l : List Str) :
    (Spec.Has (opts syn ign) Q l → ¬ Spec.Has (opts syn ign) P l → ∃ e ∈ out, e.path = l ∧ e.word = .add) ∧
    (Spec.Has (opts syn ign) P l → ¬ Spec.Has (opts syn ign) Q l →
      ∃ e ∈ out, e.path = l ∧ e.word = .remove) ∧
    (Spec.Has (opts syn ign) P l → Spec.Has (opts syn ign) Q l →
      ∃ e ∈ out, e.path = l ∧ e.word ≠ .add ∧ e.word ≠ .remove) := by
  obtain ⟨_, _, out', h, _, _, _, _, _, h3, h4, _⟩ := out_spec R
  rw [h] at ho; cases ho
  refine ⟨fun hq hp => ?_, fun hp hq => ?_, fun hp hq => ?_⟩
  · obtain ⟨e, he, hl⟩ := h4 l (.inr hq)
    refine ⟨e, he, hl, ?_⟩
    rcases h3 e he with h | h | h
    · rw [hl] at h; exact absurd h.2.1 hp
    · rw [hl] at h; exact absurd h.2.1 hp
    · exact h.1
  · obtain ⟨e, he, hl⟩ := h4 l (.inl hp)
    refine ⟨e, he, hl, ?_⟩
    rcases h3 e he with h | h | h
    · rw [hl] at h; exact absurd h.2.2 hq
    · exact h.1
    · rw [hl] at h; exact absurd hp h.2.1
  · obtain ⟨e, he, hl⟩ := h4 l (.inl hp)
    refine ⟨e, he, hl, ?_⟩
    rcases h3 e he with h | h | h
    · rw [h.1]; decide
    · rw [hl] at h; exact absurd hq h.2.2
    · rw [hl] at h; exact absurd hp h.2.1

/-- C64: every path is reported once. -/
theorem C64_once_partial {out : List Entry} (ho : hdiff H syn ign before after = .ok out) :
    (out.map Entry.path).Nodup := by
  obtain ⟨_, _, out', h, _, _, _, _, _, _, _, h5, _⟩ := out_spec R
  rw [h] at ho; cases ho
  exact h5

/-! ## C65 -/

/-- C65: the lines without a `+` stand in the order of their first occurrences in before. -/
theorem C65_order_partial {out : List Entry} (ho : hdiff H syn ign before after = .ok out) :
    (out.filter (fun e => e.word != .add)).Pairwise (fun e f => ∀ i j,
      Spec.First (opts syn ign) P i e.path → Spec.First (opts syn ign) P j f.path → i < j) := by
  obtain ⟨wb, _, out', h, _, _, _, _, _, _, _, _, h6⟩ := out_spec R
  rw [h] at ho; cases ho
  have hsh : ∀ e ∈ out.filter old, Shown (opts syn ign) P Q H e := by
    intro e he
    have := (firsts_sublist _ []).subset (h6.subset he)
    obtain ⟨b, hb, rfl⟩ := List.mem_map.mp this
    exact (shown_eb R wb hb).2
  refine List.Pairwise.imp_of_mem ?_
    ((firsts_order _ P.list [] (tree_of_parse R.before).inc).sublist h6)
  intro e f he hf hef i j hi hj
  obtain ⟨hi1, hi2⟩ := (path_iff R.before R.digitsP _ _).mp hi.1
  obtain ⟨hj1, hj2⟩ := (path_iff R.before R.digitsP _ _).mp hj.1
  have conv : ∀ k ∈ P.list, ∀ x, Shown (opts syn ign) P Q H x →
      ((eb H (normParsed (opts syn ign) P) wb k).ids = x.ids ↔
        x.path = pathOf (normParsed (opts syn ign) P) k) := by
    intro k hk x hx
    rw [shown_ids R (shown_eb R wb hk).2 hx, (shown_eb R wb hk).1]
    exact eq_comm
  refine hef i hi1 j hj1 ((conv i hi1 e (hsh e he)).mpr hi2) ?_ ((conv j hj1 f (hsh f hf)).mpr hj2)
  intro k hk hke
  exact hi.2 k ((path_iff R.before R.digitsP _ _).mpr ⟨hk, (conv k hk e (hsh e he)).mp hke⟩)

end

/-- The example meets the hypotheses; what is reported for it. -/
example : (hdiff code .ios false exBefore exAfter).map unified =
    .ok [s " interface a", s "+ z z", s "- x", s "  y", s "-log 1", s "+log 2"] := by decide +kernel

/-! ## C48, equal configurations -/

/-- C48: comparing a configuration with itself reports no change, for every
configuration, hash and syntax. -/
theorem C48_identical {H : Str → Int} {syn : Conf.Syntax} {ign : Bool} {c : List Str} {out : List Entry}
    (ho : hdiff H syn ign c c = .ok out) : ∀ e ∈ out, e.word ≠ .add ∧ e.word ≠ .remove := by
  rw [hdiff] at ho
  cases hp : parse (opts syn ign) c with
  | error e => rw [hp] at ho; cases ho
  | ok P =>
    rw [hp] at ho
    simp only [Bind.bind, Except.bind] at ho
    split at ho
    · have ht := norm_tree hp
      obtain ⟨wb, wa, out', h1, h2, h3, h4, h5, h6⟩ :=
        buildIos_spec ht ht H (partners_self ht H) (partners_self ht H)
      rw [h1] at ho
      cases ho
      intro e he
      rw [h5.mem_iff, mem_firsts, List.find?_append, List.find?_map] at he
      have he := he.2
      cases hf : (normParsed (opts syn ign) P).list.find?
          ((fun x => x.ids == e.ids) ∘ eb H (normParsed (opts syn ign) P) wb) with
      | some b =>
        rw [hf] at he
        have heb : eb H (normParsed (opts syn ign) P) wb b = e := by simpa using he
        have hb := List.mem_of_find?_eq_some hf
        have hk := h4 b hb b (by
          rw [← hf, ← heb]
          congr 1)
        rw [← heb]
        change wb b ≠ _ ∧ wb b ≠ _
        rw [hk]; decide
      | none =>
        rw [hf] at he
        simp only [Option.map_none, Option.none_or] at he
        obtain ⟨a, ha, hea⟩ := List.mem_flatMap.mp (List.mem_of_find?_eq_some he)
        rw [ea] at hea
        split at hea
        · simp at hea
        · have := List.find?_eq_none.mp hf a ha
          rw [List.mem_singleton.mp hea] at this
          simp [eb, entry] at this
    · cases ho
      simp

/-- C48: comparing a configuration that parses with itself never raises. -/
theorem C48_identical_succeeds {H : Str → Int} {syn : Conf.Syntax} {ign : Bool} {c : List Str} {P : Parsed}
    (hp : parse (opts syn ign) c = .ok P) : ∃ out, hdiff H syn ign c c = .ok out := by
  have ht := norm_tree hp
  rw [hdiff, hp]
  simp only [Bind.bind, Except.bind]
  split
  · obtain ⟨wb, wa, out', h1, _⟩ :=
      buildIos_spec ht ht H (partners_self ht H) (partners_self ht H)
    rw [h1]
    exact ⟨out', rfl⟩
  · exact ⟨[], rfl⟩

/-- C48, as text: every line of the unified diff of equal configurations starts with a
blank. -/
theorem C48_identical_text {H : Str → Int} {syn : Conf.Syntax} {ign : Bool} {c : List Str}
    {out : List Entry} (ho : hdiff H syn ign c c = .ok out) : ∀ x ∈ unified out, x.head? = some ' ' := by
  intro x hx
  obtain ⟨e, he, rfl⟩ := List.mem_map.mp hx
  obtain ⟨h1, h2⟩ := C48_identical ho e he
  rw [unifiedLine]
  split
  · exact absurd (by assumption) h1
  · exact absurd (by assumption) h2
  · rfl

example : (hdiff code .ios false exBefore exBefore).map unified =
    .ok [s " interface a", s "  x", s "  y", s " log 1"] := by decide +kernel

/-- C48 does not hold as stated: line 11 ` x` compares equal to its parent, line 1 `1 x`,
so it loses its parents, and is reported as removed and added although both
configurations have it below the same parent. -/
theorem C48_digits_fails :
    (hdiff code .ios false [s "a", s "1 x", s " x"]
      ([s "a", s "1 x"] ++ List.replicate 9 (s " b") ++ [s " x"])).map unified =
    .ok [s " a", s " 1 x", s "+ b", s "- x", s "+ x"] := by decide +kernel

/-- C64 does not hold as stated: for asa and iosxr nothing is ever reported. -/
theorem C64_syntax_fails (H : Str → Int) : hdiff H .asa false [s "a"] [s "b"] = .ok [] ∧
    hdiff H .iosxr false [s "a"] [s "b"] = .ok [] := ⟨rfl, rfl⟩

/-- C65 does not hold as stated: added siblings come out in the reverse order. -/
theorem C65_reverse_fails :
    (hdiff code .ios false [s "i"] [s "i", s " p", s " q", s " r"]).map unified =
    .ok [s " i", s "+ r", s "+ q", s "+ p"] := by decide +kernel

/-- C65 does not hold as stated: when a parent occurs twice in before, its later child
is shown below another line. -/
theorem C65_parent_fails :
    (hdiff code .ios false [s "i", s " x", s "j", s "i", s " y"] []).map unified =
    .ok [s "-i", s "- x", s "-j", s "- y"] := by decide +kernel

end Diff

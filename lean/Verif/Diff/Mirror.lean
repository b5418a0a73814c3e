import Verif.Diff.Props

/-! # C232: the diff the other way round, C233: diffs compose -/

namespace Diff

open Py Conf

/-- What stands in front of the line with this path in a diff. -/
def Spec.Sign (out : List Entry) (l : List Str) (w : Word) : Prop := ∃ e ∈ out, e.path = l ∧ e.word = w

section
variable {H : Str → Int} {syn : Conf.Syntax} {ign : Bool} {before after : List Str} {P Q : Parsed}
  (R : Spec.Ready H syn ign before after P Q)
include R

theorem ready_swap : Spec.Ready H syn ign after before Q P :=
  ⟨R.after, R.before, R.digitsQ, R.digitsP, fun l m hl hm => R.hash l m hl.symm hm.symm, R.syn⟩

/-- What is shown for a path depends on which configuration has it. -/
theorem sign_iff {out : List Entry} (ho : hdiff H syn ign before after = .ok out) (l : List Str) :
    (Spec.Sign out l .add ↔ ¬ Spec.Has (opts syn ign) P l ∧ Spec.Has (opts syn ign) Q l) ∧
    (Spec.Sign out l .remove ↔ Spec.Has (opts syn ign) P l ∧ ¬ Spec.Has (opts syn ign) Q l) ∧
    (Spec.Sign out l .keep ↔ Spec.Has (opts syn ign) P l ∧ Spec.Has (opts syn ign) Q l) := by
  obtain ⟨_, _, out', h, _, _, _, _, _, h2, h3, _⟩ := out_spec R
  rw [h] at ho; cases ho
  refine ⟨⟨?_, fun hh => ?_⟩, ⟨?_, fun hh => ?_⟩, ⟨?_, fun hh => ?_⟩⟩
  · rintro ⟨e, he, rfl, hw⟩
    rcases h2 e he with h | h | h
    · rw [h.1] at hw; cases hw
    · rw [h.1] at hw; cases hw
    · exact h.2
  · obtain ⟨e, he, rfl⟩ := h3 l (.inr hh.2)
    rcases h2 e he with h | h | h
    · exact absurd h.2.1 hh.1
    · exact absurd h.2.1 hh.1
    · exact ⟨e, he, rfl, h.1⟩
  · rintro ⟨e, he, rfl, hw⟩
    rcases h2 e he with h | h | h
    · rw [h.1] at hw; cases hw
    · exact h.2
    · rw [h.1] at hw; cases hw
  · obtain ⟨e, he, rfl⟩ := h3 l (.inl hh.1)
    rcases h2 e he with h | h | h
    · exact absurd h.2.2 hh.2
    · exact ⟨e, he, rfl, h.1⟩
    · exact absurd hh.1 h.2.1
  · rintro ⟨e, he, rfl, hw⟩
    rcases h2 e he with h | h | h
    · exact h.2
    · rw [h.1] at hw; cases hw
    · rw [h.1] at hw; cases hw
  · obtain ⟨e, he, rfl⟩ := h3 l (.inl hh.1)
    rcases h2 e he with h | h | h
    · exact ⟨e, he, rfl, h.1⟩
    · exact absurd hh.2 h.2.2
    · exact absurd hh.1 h.2.1

/-- C232: with the arguments the other way round the same lines are shown, `+` is `-` and `-` is `+`. -/
theorem C232_mirror_partial : ∃ out back, hdiff H syn ign before after = .ok out ∧ hdiff H syn ign after before = .ok back ∧
    ∀ l, (Spec.Sign out l .add ↔ Spec.Sign back l .remove) ∧ (Spec.Sign out l .remove ↔ Spec.Sign back l .add) ∧
      (Spec.Sign out l .keep ↔ Spec.Sign back l .keep) := by
  obtain ⟨out, ho⟩ := C48_succeeds_partial R
  obtain ⟨back, hb⟩ := C48_succeeds_partial (ready_swap R)
  refine ⟨out, back, ho, hb, fun l => ?_⟩
  obtain ⟨h1, h2, h3⟩ := sign_iff R ho l
  obtain ⟨g1, g2, g3⟩ := sign_iff (ready_swap R) hb l
  rw [h1, h2, h3, g1, g2, g3]
  exact ⟨And.comm, And.comm, And.comm⟩

/-- C232: so both have as many lines, and as many `+` as there are `-` the other way round. -/
theorem C232_count_partial {out back : List Entry} (ho : hdiff H syn ign before after = .ok out)
    (hb : hdiff H syn ign after before = .ok back) :
    out.length = back.length ∧ (out.filter (fun e => e.word == .add)).length = (back.filter (fun e => e.word == .remove)).length := by
  obtain ⟨out', back', ho', hb', hm⟩ := C232_mirror_partial R
  rw [ho] at ho'; rw [hb] at hb'
  cases ho'; cases hb'
  have n1 := C64_once_partial R ho
  have n2 := C64_once_partial (ready_swap R) hb
  have cnt : ∀ {x y : List (List Str)}, x.Nodup → y.Nodup → (∀ l, l ∈ x ↔ l ∈ y) → x.length = y.length := fun hx hy h =>
    ((List.perm_ext_iff_of_nodup hx hy).mpr h).length_eq
  have words : ∀ {o : List Entry}, (∀ e ∈ o, e.word = .keep ∨ e.word = .remove ∨ e.word = .add) → ∀ l,
      (l ∈ o.map Entry.path ↔ Spec.Sign o l .keep ∨ Spec.Sign o l .remove ∨ Spec.Sign o l .add) := by
    intro o ho l
    rw [List.mem_map]
    constructor
    · rintro ⟨e, he, rfl⟩
      exact (ho e he).imp (fun h => ⟨e, he, rfl, h⟩) (Or.imp (fun h => ⟨e, he, rfl, h⟩) (fun h => ⟨e, he, rfl, h⟩))
    · rintro (⟨e, he, h, _⟩ | ⟨e, he, h, _⟩ | ⟨e, he, h, _⟩) <;> exact ⟨e, he, h⟩
  have w1 : ∀ e ∈ out, e.word = .keep ∨ e.word = .remove ∨ e.word = .add := by
    obtain ⟨_, _, out', h, _, _, _, _, _, h2, _⟩ := out_spec R
    rw [h] at ho; cases ho
    exact fun e he => (h2 e he).imp And.left (Or.imp And.left And.left)
  have w2 : ∀ e ∈ back, e.word = .keep ∨ e.word = .remove ∨ e.word = .add := by
    obtain ⟨_, _, out', h, _, _, _, _, _, h2, _⟩ := out_spec (ready_swap R)
    rw [h] at hb; cases hb
    exact fun e he => (h2 e he).imp And.left (Or.imp And.left And.left)
  constructor
  · have := cnt n1 n2 (fun l => by
      rw [words w1, words w2, (hm l).1, (hm l).2.1, (hm l).2.2]
      exact or_congr Iff.rfl Or.comm)
    simpa using this
  · have sub : ∀ (o : List Entry) (w : Word) (l : List Str), l ∈ (o.filter (fun e => e.word == w)).map Entry.path ↔ Spec.Sign o l w := by
      intro o w l
      rw [List.mem_map]
      constructor
      · rintro ⟨e, he, rfl⟩
        obtain ⟨h1, h2⟩ := List.mem_filter.mp he
        exact ⟨e, h1, rfl, by simpa using h2⟩
      · rintro ⟨e, he, rfl, h⟩
        exact ⟨e, List.mem_filter.mpr ⟨he, by simpa using h⟩, rfl⟩
    have := cnt (n1.sublist (List.filter_sublist.map _)) (n2.sublist (List.filter_sublist.map _)) (fun l => by
      rw [sub out .add, sub back .remove, (hm l).1])
    simpa using this

end

/-! ## C233 -/

/-- C233: what is added from the first configuration to the second and not removed from the second to the third is added
from the first to the third, and so on: a line is added from the first to the third exactly if it is added on one of the
two ways and not removed on the other. -/
theorem C233_compose_partial {H : Str → Int} {syn : Conf.Syntax} {ign : Bool} {a b c : List Str} {P Q S : Parsed}
    (R1 : Spec.Ready H syn ign a b P Q) (R2 : Spec.Ready H syn ign b c Q S) (R3 : Spec.Ready H syn ign a c P S) :
    ∃ x y z, hdiff H syn ign a b = .ok x ∧ hdiff H syn ign b c = .ok y ∧ hdiff H syn ign a c = .ok z ∧ ∀ l,
      (Spec.Sign z l .add ↔ (Spec.Sign x l .add ∧ ¬ Spec.Sign y l .remove) ∨ (Spec.Sign y l .add ∧ ¬ Spec.Sign x l .remove)) ∧
      (Spec.Sign z l .remove ↔ (Spec.Sign x l .remove ∧ ¬ Spec.Sign y l .add) ∨ (Spec.Sign y l .remove ∧ ¬ Spec.Sign x l .add)) := by
  obtain ⟨x, hx⟩ := C48_succeeds_partial R1
  obtain ⟨y, hy⟩ := C48_succeeds_partial R2
  obtain ⟨z, hz⟩ := C48_succeeds_partial R3
  refine ⟨x, y, z, hx, hy, hz, fun l => ?_⟩
  obtain ⟨h1, h2, _⟩ := sign_iff R1 hx l
  obtain ⟨g1, g2, _⟩ := sign_iff R2 hy l
  obtain ⟨k1, k2, _⟩ := sign_iff R3 hz l
  rw [h1, h2, g1, g2, k1, k2]
  by_cases p : Spec.Has (opts syn ign) P l <;> by_cases q : Spec.Has (opts syn ign) Q l <;>
    by_cases r : Spec.Has (opts syn ign) S l <;> simp [p, q, r]

example : ∃ P Q S, Spec.Ready code .ios false exBefore exAfter P Q ∧ Spec.Ready code .ios false exAfter [s "log 1"] Q S ∧
    Spec.Ready code .ios false exBefore [s "log 1"] P S :=
  ⟨_, _, _, ⟨rfl, rfl, noDigits_of (by decide), noDigits_of (by decide), noCollision_code _ _ _, .inl rfl⟩,
    ⟨rfl, rfl, noDigits_of (by decide), noDigits_of (by decide), noCollision_code _ _ _, .inl rfl⟩,
    ⟨rfl, rfl, noDigits_of (by decide), noDigits_of (by decide), noCollision_code _ _ _, .inl rfl⟩⟩

example : (hdiff code .ios false exBefore exAfter).map unified =
      .ok [s " interface a", s "+ z z", s "- x", s "  y", s "-log 1", s "+log 2"] ∧
    (hdiff code .ios false exAfter exBefore).map unified =
      .ok [s " interface a", s "+ x", s "  y", s "- z z", s "-log 2", s "+log 1"] := by decide +kernel

end Diff

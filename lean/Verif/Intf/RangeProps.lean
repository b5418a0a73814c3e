import Verif.Intf.Ranges
import Verif.Intf.Props

/-! # C16: interface ranges -/

namespace Intf

open Py

/-- A range text over one slot and card, with any number of elements `a` or `a-b`, holds
exactly the listed interfaces, each once, in the order of the port. -/
theorem C16_members_partial {pfx w : Str} {slot card : Option Nat} {cls : Option Str}
    (h : Spec.RangeOk pfx w slot card cls) (first : Spec.Item) (rest : List (Str × Spec.Item))
    (hw : ∀ x ∈ rest, Spec.White x.1) (hne : ∃ k, Spec.Listed first rest k) :
    ∃ ks : List Nat, range (Spec.rangeText pfx w slot card first rest cls) =
        .ok (ks.map (Spec.member pfx slot card cls)) ∧
      ks.Pairwise (· < ·) ∧ ∀ k, k ∈ ks ↔ Spec.Listed first rest k := by
  have heq : ∀ a b : Nat, (a == b) = true ↔ a = b := fun a b => beq_iff_eq
  refine ⟨sortBy (fun i j => !decide (j < i)) (dedupBy (· == ·) (allNums first rest)), ?_, ?_, ?_⟩
  · rw [range_text h first rest hw, if_neg]
    intro e
    obtain ⟨k, hk⟩ := hne
    rw [← mem_allNums, e] at hk
    cases hk
  · have h1 : (sortBy (fun i j => !decide (j < i)) (dedupBy (· == ·) (allNums first rest))).Pairwise
        (fun x y => (!decide (y < x)) = true) := by
      refine sortBy_sorted (fun a b => ?_) (fun a b c h1 h2 => ?_) _
      · simp; omega
      · simp at *; omega
    have h2 : (sortBy (fun i j => !decide (j < i)) (dedupBy (· == ·) (allNums first rest))).Nodup :=
      (sortBy_perm _ _).nodup_iff.2 (nodup_dedupBy_of_eq heq)
    refine (h1.and h2).imp ?_
    rintro a b ⟨h, hn⟩
    simp at h
    omega
  · intro k
    rw [mem_sortBy, mem_dedupBy_of_eq heq, mem_allNums]

/-- A range text that lists nothing (all its runs go downward) is an error. -/
theorem C16_nothing {pfx w : Str} {slot card : Option Nat} {cls : Option Str}
    (h : Spec.RangeOk pfx w slot card cls) (first : Spec.Item) (rest : List (Str × Spec.Item))
    (hw : ∀ x ∈ rest, Spec.White x.1) (hne : ¬ ∃ k, Spec.Listed first rest k) :
    range (Spec.rangeText pfx w slot card first rest cls) = .error .valueError := by
  rw [range_text h first rest hw, if_pos]
  cases hl : allNums first rest with
  | nil => rfl
  | cons a l => exact absurd ⟨a, (mem_allNums _ _ a).mp (by rw [hl]; simp)⟩ hne

/-- `Ethernet 1/3-5,2, 4-7`. -/
theorem sample_range : Spec.RangeOk "Ethernet".toList " ".toList (some 1) none none where
  chars := by decide
  first := by
    intro c hc
    have : "Ethernet".toList.head? = some 'E' := rfl
    rw [this] at hc
    cases hc; rfl
  last := by
    intro c hc
    have : "Ethernet".toList.getLast? = some 't' := rfl
    rw [this] at hc
    cases hc; rfl
  white := by unfold Spec.White; decide
  slotted := fun _ => rfl
  word := by intro v hv; cases hv

example : Spec.rangeText "Ethernet".toList " ".toList (some 1) none (.run 3 5) [([], .one 2), ([' '], .run 4 7)] none
    = "Ethernet 1/3-5,2, 4-7".toList := rfl
example : ∃ k, Spec.Listed (.run 3 5) [([], .one 2), ([' '], .run 4 7)] k :=
  ⟨2, Or.inr ⟨([], .one 2), by simp, rfl⟩⟩
example : range "Ethernet 1/3-5,2, 4-7".toList =
    .ok ([2, 3, 4, 5, 6, 7].map (Spec.member "Ethernet".toList (some 1) none none)) := rfl

/-- With a hyphen in the prefix, or in the class, a range is not accepted. -/
theorem C16_hyphen_fails :
    range "Port-channel1-3".toList = .error .noRegexMatch ∧
    range "Port-channel1,2".toList = .error .noRegexMatch ∧
    range "Serial1,2 point-to-point".toList = .error .invalidRange := ⟨rfl, rfl, rfl⟩

/-- Channels and subinterfaces can only be given as one run: a second element is taken for
a port. -/
theorem C16_channel_fails :
    range "Serial1:1,3".toList = .error .typeError ∧ range "Serial1.1,3".toList = .error .typeError ∧
    ∃ l, range "Serial1.1-2".toList = .ok l ∧ l.length = 2 :=
  ⟨rfl, rfl, _, rfl, rfl⟩

/-- The interfaces behind a comma keep the first slot: `Ethernet1/1,2/5` is read as
`Ethernet1/1` and `Ethernet1/5`. -/
theorem C16_slot_fails :
    range "Ethernet1/1,2/5".toList =
      .ok ([1, 5].map (Spec.member "Ethernet".toList (some 1) none none)) := rfl

end Intf

import Verif.Cisco.HsrpTrack

/-! # Comparing HSRP groups and tracked interfaces -/

namespace Cisco

open Py Conf Query Re

/-! ## Model -/

/-- models_cisco.py:209-217 `HSRPInterfaceGroup.__eq__` (with 339-345 `group`): groups `g` of line `i` in
`P` and `g'` of line `j` in `Q`. -/
def groupEq (P : Parsed) (i : Nat) (g : Int) (Q : Parsed) (j : Nat) (g' : Int) : Bool :=
  if g == g' && groupInterfaceName P i == groupInterfaceName Q j then true else false

/-- models_cisco.py:203-206 `HSRPInterfaceGroup.__hash__`; `hs` and `hi` are the hashes of strings
and integers. -/
def groupHash (hs : Str → Int) (hi : Int → Int) (P : Parsed) (i : Nat) (g : Int) : Int :=
  hs (groupInterfaceName P i) * hi g

/-- `TrackingInterface` has no attribute `group`: ccp_abc.py:136-143 `__getattr__` raises AttributeError. -/
def Track.groupAttr (_ : Track) : Except Err Int := .error .attributeError

/-- models_cisco.py:100-108 `TrackingInterface.__eq__`; `_linterface` does not exist. -/
def Track.eq (a b : Track) : Except Err Bool := do
  if a.name == b.name then
    if (← a.groupAttr) == (← b.groupAttr) then .error .attributeError else .ok false
  else .ok false

/-- models_cisco.py:89-97 `TrackingInterface.__hash__`; `hv` is the hash of a value. -/
def Track.hash (hv : Val → Int) (t : Track) : Int :=
  hv t.name * hv (.int t.group) * hv t.name * hv (.int t.decr) * hv .none

/-- models_cisco.py:79-82 `TrackingInterface.__str__`, also 85-87 `__repr__`: the text is not modelled further than the
attributes it reads. -/
def Track.str (t : Track) : Except Err Str := do
  let g ← t.groupAttr
  .ok (intStr g)

/-! ## C206: groups -/

/-- The words of a line behind the first. -/
def Spec.behind (t : Str) : List Str := (splitWs t).drop 1

/-- C206: two groups are equal exactly if they have the same number and the interface lines have the same words
behind `interface`. -/
theorem C206_eq (P Q : Parsed) (i j : Nat) (g g' : Int) :
    groupEq P i g Q j g' = true ↔ g = g' ∧ Spec.behind (P.h i).text = Spec.behind (Q.h j).text := by
  have hn : ∀ (P : Parsed) i, groupInterfaceName P i = join [' '] (Spec.behind (P.h i).text) := by
    intro P i
    rw [groupInterfaceName, strip, splitWs_lstrip, splitWs_rstrip, Spec.behind]
  have hw : ∀ t : Str, ∀ w ∈ Spec.behind t, IsWord w := fun t w hm => splitWs_words t w (List.mem_of_mem_drop hm)
  have he : groupEq P i g Q j g' = true ↔ g = g' ∧ groupInterfaceName P i = groupInterfaceName Q j := by
    rw [groupEq]; simp
  rw [he, hn, hn]
  refine and_congr Iff.rfl ⟨fun h => ?_, fun h => by rw [h]⟩
  rw [← splitWs_join _ (hw (P.h i).text), ← splitWs_join _ (hw (Q.h j).text), h]

/-- C206: equality of groups is an equivalence relation. -/
theorem C206_equivalence (P Q R : Parsed) (i j k : Nat) (a b c : Int) :
    groupEq P i a P i a = true ∧
    (groupEq P i a Q j b = true → groupEq Q j b P i a = true) ∧
    (groupEq P i a Q j b = true → groupEq Q j b R k c = true → groupEq P i a R k c = true) := by
  rw [C206_eq, C206_eq, C206_eq, C206_eq, C206_eq]
  exact ⟨⟨rfl, rfl⟩, fun h => ⟨h.1.symm, h.2.symm⟩, fun h h' => ⟨h.1.trans h'.1, h.2.trans h'.2⟩⟩

/-- C206: equal groups have equal hashes, whatever the hashes of strings and integers are. -/
theorem C206_hash (hs : Str → Int) (hi : Int → Int) (P Q : Parsed) (i j : Nat) (g g' : Int)
    (h : groupEq P i g Q j g' = true) : groupHash hs hi P i g = groupHash hs hi Q j g' := by
  have he : g = g' ∧ groupInterfaceName P i = groupInterfaceName Q j := by
    rw [groupEq] at h; simpa using h
  rw [groupHash, groupHash, he.1, he.2]

/-- `interface  Gi0/1` and `interface Gi0/1` of two configurations, and another interface. -/
example : ∃ P Q, parse { factory := true } ["interface  Gi0/1".toList, " standby 1 ip 10.0.0.1".toList] = .ok P ∧
    parse { factory := true } ["interface Gi0/2".toList, " standby 1 ip 10.0.0.1".toList, "interface Gi0/1".toList] = .ok Q ∧
    groupEq P 0 1 Q 2 1 = true ∧ groupEq P 0 1 Q 0 1 = false ∧ groupEq P 0 1 Q 2 2 = false := by
  obtain ⟨P, h1, h2⟩ := of_shows (lines := ["interface  Gi0/1".toList, " standby 1 ip 10.0.0.1".toList])
    (Q := fun P => (P.h 0).text == "interface  Gi0/1".toList) (by decide +kernel)
  obtain ⟨Q, h3, h4⟩ := of_shows (lines := ["interface Gi0/2".toList, " standby 1 ip 10.0.0.1".toList, "interface Gi0/1".toList])
    (Q := fun P => (P.h 0).text == "interface Gi0/2".toList && (P.h 2).text == "interface Gi0/1".toList) (by decide +kernel)
  simp only [Bool.and_eq_true, beq_iff_eq] at h2 h4
  refine ⟨P, Q, h1, h3, ?_, ?_, ?_⟩
  · rw [C206_eq, h2, h4.2]; decide
  · rw [Bool.eq_false_iff, Ne, C206_eq, h2, h4.1]; decide
  · rw [Bool.eq_false_iff, Ne, C206_eq, h2, h4.2]; decide

/-! ## C207: tracked interfaces -/

/-- C207: tracked interfaces with different names are different, and the same name, group and decrement give the same
hash.  Missing: tracked interfaces with the same name. -/
theorem C207_different_partial (a b : Track) :
    (a.name ≠ b.name → a.eq b = .ok false) ∧
    ∀ hv, a.name = b.name → a.group = b.group → a.decr = b.decr → a.hash hv = b.hash hv := by
  constructor
  · intro h; rw [Track.eq, if_neg (by simpa using h)]
  · intro hv h1 h2 h3; rw [Track.hash, Track.hash, h1, h2, h3]

theorem intStr_inj {m n : Int} (h : intStr m = intStr n) : m = n := by
  have minus : ∀ {a b : Nat}, natStr a ≠ '-' :: natStr b := fun {a b} e => by
    have := allDigits_mem (allDigits_natStr a) '-' (by rw [e]; simp)
    exact absurd this (by decide)
  cases m with
  | ofNat a =>
    cases n with
    | ofNat b => rw [natStr_inj h]
    | negSucc b => exact absurd h minus
  | negSucc a =>
    cases n with
    | ofNat b => exact absurd h.symm minus
    | negSucc b => rw [Nat.succ.inj (natStr_inj (List.cons.inj h).2)]

/-- C207: two tracked objects that are given by their numbers have the same name only if the numbers are equal. -/
theorem C207_number {a b : Track} {m n : Int} (ha : a.intf = .int m) (hb : b.intf = .int n) : a.name = b.name ↔ m = n := by
  rw [Track.name, Track.name, ha, hb]
  exact ⟨fun h => intStr_inj (Val.str.inj h), fun h => by rw [h]⟩

example : (⟨1, .int 12, 10⟩ : Track).name ≠ (⟨1, .int 13, 10⟩ : Track).name := by
  rw [Ne, C207_number (m := 12) (n := 13) rfl rfl]; decide

/-- C207 fails: comparing two tracked interfaces of the same name raises AttributeError, also one with itself, and so
does printing one. -/
theorem C207_same_fails (a b : Track) (h : a.name = b.name) : a.eq b = .error .attributeError ∧ a.str = .error .attributeError := by
  constructor
  · rw [Track.eq, if_pos (by simpa using h)]; rfl
  · rfl

example : (Hsrp.trackObj 1 ("Gi0/2".toList, some "20".toList)).eq (Hsrp.trackObj 1 ("Tu1".toList, none)) = .ok false :=
  (C207_different_partial _ _).1 (by decide)

end Cisco

import Verif.Intf.StateProps

/-! # C266: repr of interfaces -/

namespace Intf.State
open Py

/-- C266: `repr()` shows the name, and `str()` of an interface that was read is read back as the same interface. -/
theorem C266_repr {t : Str} {i : Intf} (h : parse t = .ok i) :
    repr (ofIntf i) = .ok ("<CiscoIOSInterface ".toList ++ (Intf.Spec.name i ++ ['>'])) ∧ parse (Intf.Spec.name i) = .ok i := by
  obtain ⟨h1, h2⟩ := shows (parse_valid h) rfl
  refine ⟨?_, h2⟩
  rw [repr, h1, ← List.append_assoc]; rfl

/-- C266: two interfaces with the same `repr()` are the same. -/
theorem C266_identifies {t u : Str} {i j : Intf} (hi : parse t = .ok i) (hj : parse u = .ok j) (h : repr (ofIntf i) = repr (ofIntf j)) :
    i = j := by
  obtain ⟨h1, h2⟩ := C266_repr hi
  obtain ⟨h3, h4⟩ := C266_repr hj
  rw [h1, h3] at h
  injection h with h
  rw [List.append_right_inj, List.append_left_inj] at h
  rw [h, h4] at h2
  exact (Except.ok.inj h2).symm

example : ∃ i, parse "GigabitEthernet 1/2/3.4 multipoint".toList = .ok i ∧
    repr (ofIntf i) = .ok "<CiscoIOSInterface GigabitEthernet1/2/3.4 multipoint>".toList := ⟨_, rfl, by decide +kernel⟩

end Intf.State

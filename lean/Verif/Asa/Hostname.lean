import Verif.Asa.ClassProps
import Verif.Cisco.AccessProps

/-! # C267: host names of ASA configurations -/

namespace Asa
open Py Conf Query Re Cisco

/-- C267: the host name is the word behind hostname. -/
theorem C267_hostname {t : Str} (h : "hostname".toList <+: t) :
    (∀ v, Cisco.Spec.Next ["hostname"] t v → Asa.hostname t = .ok v) ∧ ((∀ v, ¬ Cisco.Spec.Next ["hostname"] t v) → Asa.hostname t = .ok []) :=
  C82_hostname h

example : Asa.hostname "hostname fw1 x".toList = .ok "fw1".toList := by decide +kernel

end Asa

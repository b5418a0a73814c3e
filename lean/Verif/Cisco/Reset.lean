import Verif.Cisco.AccessProps
import Verif.Conf.Final

/-! # C268: port channels and the commands that reset -/

namespace Cisco
open Py

/-- C268: an interface is a port channel if the word channel, in capital letters or not, is in the name: the words behind the
first one, with one blank between them. -/
theorem C268_channel (t : Str) : isPortchannelIntf t = true ↔
    ∃ a w b, join [' '] ((splitWs t).drop 1) = a ++ w ++ b ∧ w.map lowerChar = "channel".toList := by
  rw [isPortchannelIntf, Conf.isInfix_iff]
  show _ <:+: (join [' '] ((splitWs t).drop 1)).map lowerChar ↔ _
  generalize join [' '] ((splitWs t).drop 1) = n
  constructor
  · rintro ⟨x, y, h⟩
    obtain ⟨l, b, rfl, h1, rfl⟩ := List.map_eq_append_iff.mp h.symm
    obtain ⟨a, w, rfl, rfl, h2⟩ := List.map_eq_append_iff.mp h1
    exact ⟨a, w, b, rfl, h2⟩
  · rintro ⟨a, w, b, rfl, h⟩
    exact ⟨a.map lowerChar, b.map lowerChar, by rw [← h, List.map_append, List.map_append]⟩

/-- C268: the command that resets an interface or an access line has the words of the line behind the word default. -/
theorem C268_reset (t : Str) : splitWs (intfReset t) = "default".toList :: splitWs t ∧ splitWs (accessReset t) = "default".toList :: splitWs t := by
  have : splitWs ("default ".toList ++ t) = "default".toList :: splitWs t :=
    splitWs_word_space (w := "default".toList) (by decide) (x := ' ') (by decide) t
  exact ⟨this, this⟩

example : isPortchannelIntf "interface Port-Channel 3".toList = true ∧ isPortchannelIntf "interface Ethernet 3".toList = false := by
  decide +kernel

end Cisco

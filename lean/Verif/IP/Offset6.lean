import Verif.IP.Repr

/-! # C263: network_offset of IPv6 objects -/

namespace IP

open Py

/-- **C263 (part).** For `k >= 0`: the assignment succeeds exactly when `network + k` is an address of the subnet, keeps the subnet,
and puts the address at that offset.  Reading it back gives `k` unless the address is the last one of a /0../126. -/
theorem C263_offset_partial (o : V6) (ho : o.Regular) (k : Nat) :
    ((∃ o', o.setNetworkOffset k = .ok o') ↔ InNet 128 o.net o.plen (o.net + k)) ∧
    ∀ o', o.setNetworkOffset k = .ok o' →
      o'.net = o.net ∧ o'.plen = o.plen ∧ o'.ip = o.net + k ∧ InNet 128 o.net o.plen o'.ip ∧
      (¬ (o.plen ≤ 126 ∧ o'.ip = o.asDecimalNetworkMaxint) → o'.networkOffset = .ok k) := by
  have w := ho.wf
  have hpos := two_pow_pos (128 - o.plen)
  have htop := w.top
  have hm : maxInt6 = 2 ^ 128 - 1 := by decide
  have hdn := V6.asDecimalNetwork_eq w
  have hin : ∀ x, InNet 128 o.net o.plen x ↔ o.net ≤ x ∧ x ≤ o.net + (2 ^ (128 - o.plen) - 1) := by
    intro x
    unfold InNet
    rw [block_iff, w.aligned]
    exact ⟨fun h => h.2, fun h => ⟨by omega, h⟩⟩
  have hval : k ≤ 2 ^ (128 - o.plen) - 1 → o.setNetworkOffset k = .ok { o with ip := o.net + k } := by
    intro hk
    unfold V6.setNetworkOffset
    simp only [V6.asDecimalNetworkMaxint, hdn]
    rw [if_pos (by omega), if_pos (by omega)]
    congr 2
  have hbig : ¬ k ≤ 2 ^ (128 - o.plen) - 1 → ∀ o', o.setNetworkOffset k ≠ .ok o' := by
    intro hk o' h
    unfold V6.setNetworkOffset at h
    simp only [V6.asDecimalNetworkMaxint, hdn] at h
    rw [if_neg (by omega)] at h
    cases h
  refine ⟨⟨?_, ?_⟩, ?_⟩
  · rintro ⟨o', h⟩
    rw [hin]
    by_cases hk : k ≤ 2 ^ (128 - o.plen) - 1
    · omega
    · exact absurd h (hbig hk o')
  · intro h
    rw [hin] at h
    exact ⟨_, hval (by omega)⟩
  · intro o' h
    by_cases hk : k ≤ 2 ^ (128 - o.plen) - 1
    · rw [hval hk] at h
      injection h with h
      have hR : o'.Regular := .setNetworkOffset (k := (k : Int)) ho (by omega) (by rw [hval hk, h])
      subst h
      refine ⟨rfl, rfl, rfl, ?_, ?_⟩
      · rw [hin]; show o.net ≤ o.net + k ∧ o.net + k ≤ _; omega
      · intro hnb
        have w' := hR.wf
        have hnb' : ¬ (o.plen ≤ 126 ∧ k = 2 ^ (128 - o.plen) - 1) := by
          rintro ⟨h1, h2⟩
          apply hnb
          refine ⟨h1, ?_⟩
          show o.net + k = o.asDecimalNetworkMaxint
          simp only [V6.asDecimalNetworkMaxint, hdn]; omega
        unfold V6.networkOffset V6.numhosts
        simp only [V6.asDecimal_eq w', V6.asDecimalNetwork_eq w']
        have hsub : ((o.net + k : Nat) : Int) - (o.net : Int) = k := by omega
        by_cases h30 : o.plen ≤ 126
        · simp only [if_pos h30, bind, Except.bind, hsub]
          rw [if_neg (by omega)]
        · rw [if_neg h30]
          by_cases h31 : o.plen = 127
          · simp only [if_pos h31, bind, Except.bind, hsub]
            rw [h31] at hk
            rw [if_neg (by omega)]
          · have h32 : o.plen = 128 := by have := w.plen_le; omega
            simp only [if_neg h31, if_pos h32, bind, Except.bind, hsub]
            rw [h32] at hk
            rw [if_neg (by omega)]
    · exact absurd h (hbig hk o')

/-- The full statement fails twice: the last offset can be set but not read, and a negative offset is accepted although it leaves the
subnet. -/
theorem C263_offset_fails :
    (∃ o o' : V6, o.Regular ∧ o.setNetworkOffset 3 = .ok o' ∧ o'.networkOffset = .error .requirement) ∧
    (∃ o o' : V6, o.Regular ∧ o.setNetworkOffset (-1) = .ok o' ∧ ¬ InNet 128 o'.net o'.plen o'.ip) := by
  refine ⟨⟨V6.make 0xfe800000000000000000000000000000 126, V6.make 0xfe800000000000000000000000000003 126,
      .make (by decide) (by decide), by decide +kernel, by decide +kernel⟩,
    ⟨V6.make 0xfe800000000000000000000000000000 126, ⟨0xfe7fffffffffffffffffffffffffffff, 126, 0xfe800000000000000000000000000000⟩,
      .make (by decide) (by decide), by decide +kernel, ?_⟩⟩
  unfold InNet
  decide +kernel

example : (V6.make 0xfe800000000000000000000000000000 64).setNetworkOffset 17 = .ok (V6.make 0xfe800000000000000000000000000011 64) ∧
    (V6.make 0xfe800000000000000000000000000011 64).networkOffset = .ok 17 := by decide +kernel

end IP

import Verif.IP.Lemmas

/-! Invariants of objects obtained through the API. -/

namespace IP

open Py

theorem ofInt4_inv {n : Int} {o : V4} (h : V4.ofInt n = .ok o) :
    0 ≤ n ∧ n ≤ maxInt4 ∧ o = V4.make n.toNat 32 := by
  unfold V4.ofInt at h
  split at h
  · rename_i hc; injection h with h; exact ⟨hc.1, hc.2, h.symm⟩
  · cases h

theorem toNat_lt4 {n : Int} (h0 : 0 ≤ n) (h1 : n ≤ maxInt4) : n.toNat < 2 ^ 32 := by
  simp only [maxInt4] at h1; omega

theorem add4_inv {o r : V4} {n : Int} (h : o.add n = .ok r) :
    0 ≤ (o.asDecimal : Int) + n ∧ (o.asDecimal : Int) + n ≤ maxInt4 ∧
      r = V4.make ((o.asDecimal : Int) + n).toNat o.plen := by
  unfold V4.add at h
  simp only at h
  split at h
  · cases h
  · split at h
    · cases h
    · rename_i h1 h2
      have h1' : (o.asDecimal : Int) + n ≤ maxInt4 := by omega
      have h2' : 0 ≤ (o.asDecimal : Int) + n := by omega
      unfold V4.ofInt at h
      rw [if_pos ⟨h2', h1'⟩] at h
      injection h with h
      exact ⟨h2', h1', h.symm⟩

theorem sub4_inv {o r : V4} {n : Int} (h : o.sub n = .ok r) :
    0 ≤ (o.asDecimal : Int) - n ∧ (o.asDecimal : Int) - n < maxInt4 ∧
      r = V4.make ((o.asDecimal : Int) - n).toNat o.plen := by
  unfold V4.sub at h
  simp only at h
  split at h
  · cases h
  · split at h
    · cases h
    · rename_i h1 h2
      have h1' : (o.asDecimal : Int) - n < maxInt4 := by omega
      have h2' : 0 ≤ (o.asDecimal : Int) - n := by omega
      unfold V4.ofInt at h
      rw [if_pos ⟨h2', by omega⟩] at h
      injection h with h
      exact ⟨h2', h1', h.symm⟩

theorem setOffset4_inv {o r : V4} {k : Int} (h : o.setNetworkOffset k = .ok r) :
    k ≤ (o.asDecimalBroadcast : Int) - o.asDecimalNetwork ∧
    0 ≤ (o.asDecimalNetwork : Int) + k ∧ (o.asDecimalNetwork : Int) + k ≤ maxInt4 ∧
      r = { o with ip := ((o.asDecimalNetwork : Int) + k).toNat } := by
  unfold V4.setNetworkOffset at h
  simp only at h
  split at h
  · split at h
    · rename_i h1 h2; injection h with h; exact ⟨h1, h2.1, h2.2, h.symm⟩
    · cases h
  · cases h

theorem setPrefixlen4_inv {o r : V4} {n : Int} (h : o.setPrefixlen n = .ok r) :
    0 ≤ n ∧ n ≤ 32 ∧ r = V4.make o.ip n.toNat := by
  unfold V4.setPrefixlen at h
  split at h
  · rename_i hc; injection h with h; exact ⟨hc.1, hc.2, h.symm⟩
  · cases h

theorem V4.Reachable.wf {o : V4} (h : o.Reachable) : o.WF := by
  induction h with
  | ofStr h =>
    obtain ⟨ip, p, h1, h2, rfl⟩ := ofStr_inv h
    exact V4.WF.of_network h1 h2 h1
  | ofInt h =>
    obtain ⟨h0, h1, rfl⟩ := ofInt4_inv h
    exact V4.WF.of_network (toNat_lt4 h0 h1) (by omega) (toNat_lt4 h0 h1)
  | copy _ ih => exact V4.WF.of_network ih.net_lt ih.plen_le ih.ip_lt
  | setPrefixlen _ h ih =>
    obtain ⟨h0, h1, rfl⟩ := setPrefixlen4_inv h
    exact V4.WF.of_network ih.ip_lt (by omega) ih.ip_lt
  | add _ h ih =>
    obtain ⟨h0, h1, rfl⟩ := add4_inv h
    exact V4.WF.of_network (toNat_lt4 h0 h1) ih.plen_le (toNat_lt4 h0 h1)
  | sub _ h ih =>
    obtain ⟨h0, h1, rfl⟩ := sub4_inv h
    exact V4.WF.of_network (toNat_lt4 h0 (by omega)) ih.plen_le (toNat_lt4 h0 (by omega))
  | setNetworkOffset _ h ih =>
    obtain ⟨_, h0, h1, rfl⟩ := setOffset4_inv h
    exact ⟨toNat_lt4 h0 h1, ih.plen_le, ih.net_lt, ih.aligned⟩

theorem V4.Regular.reachable {o : V4} (h : o.Regular) : o.Reachable := by
  induction h with
  | ofStr h => exact .ofStr h
  | ofInt h => exact .ofInt h
  | copy _ ih => exact .copy ih
  | setPrefixlen _ h ih => exact .setPrefixlen ih h
  | add _ h ih => exact .add ih h
  | sub _ h ih => exact .sub ih h
  | setNetworkOffset _ _ h ih => exact .setNetworkOffset ih h

theorem V4.Regular.wf {o : V4} (h : o.Regular) : o.WF := h.reachable.wf

theorem make4_block {ip p : Nat} (h : ip < 2 ^ 32) (hp : p ≤ 32) :
    (V4.make ip p).net = ip / 2 ^ (32 - p) * 2 ^ (32 - p) := networkOf_eq 32 ip p hp h

/-- The network is the block of the host address. -/
theorem V4.Regular.block {o : V4} (h : o.Regular) :
    o.net = o.ip / 2 ^ (32 - o.plen) * 2 ^ (32 - o.plen) := by
  induction h with
  | ofStr h =>
    obtain ⟨ip, p, h1, h2, rfl⟩ := ofStr_inv h
    exact make4_block h1 h2
  | ofInt h =>
    obtain ⟨h0, h1, rfl⟩ := ofInt4_inv h
    exact make4_block (toNat_lt4 h0 h1) (by omega)
  | @copy o h ih =>
    have hw := h.wf
    show networkOf 32 o.net o.plen = _
    rw [networkOf_eq 32 _ _ hw.plen_le hw.net_lt, hw.aligned]
    exact ih
  | setPrefixlen ho h ih =>
    obtain ⟨h0, h1, rfl⟩ := setPrefixlen4_inv h
    exact make4_block ho.wf.ip_lt (by omega)
  | add ho h ih =>
    obtain ⟨h0, h1, rfl⟩ := add4_inv h
    exact make4_block (toNat_lt4 h0 h1) ho.wf.plen_le
  | sub ho h ih =>
    obtain ⟨h0, h1, rfl⟩ := sub4_inv h
    exact make4_block (toNat_lt4 h0 (by omega)) ho.wf.plen_le
  | @setNetworkOffset o k o' ho hk h ih =>
    obtain ⟨hb, h0, h1, rfl⟩ := setOffset4_inv h
    have hw := ho.wf
    simp only [V4.asDecimalBroadcast, V4.asDecimalNetwork_eq hw] at hb h0 h1 ⊢
    have hpos := two_pow_pos (32 - o.plen)
    have : ((o.net : Int) + k).toNat / 2 ^ (32 - o.plen) = o.net / 2 ^ (32 - o.plen) := by
      rw [block_iff, hw.aligned]
      omega
    rw [this, hw.aligned]

theorem V4.WF.top {o : V4} (h : o.WF) : o.net + 2 ^ (32 - o.plen) ≤ 2 ^ 32 := by
  have := block_le 32 (32 - o.plen) o.net (by omega) h.net_lt
  rwa [h.aligned] at this

theorem V4.WF.inNet_iff {o : V4} (h : o.WF) (x : Nat) :
    InNet 32 o.net o.plen x ↔ o.net ≤ x ∧ x ≤ o.net + (2 ^ (32 - o.plen) - 1) := by
  unfold InNet
  rw [block_iff, h.aligned]
  have := h.top
  have hpos := two_pow_pos (32 - o.plen)
  constructor
  · exact fun h => h.2
  · exact fun h => ⟨by omega, h⟩

/-! ## IPv6 -/

theorem ofInt6_inv {n : Int} {o : V6} (h : V6.ofInt n = .ok o) :
    0 ≤ n ∧ n ≤ maxInt6 ∧ o = V6.make n.toNat 128 := by
  unfold V6.ofInt at h
  split at h
  · rename_i hc; injection h with h; exact ⟨hc.1, hc.2, h.symm⟩
  · cases h

theorem toNat_lt6 {n : Int} (h0 : 0 ≤ n) (h1 : n ≤ maxInt6) : n.toNat < 2 ^ 128 := by
  simp only [maxInt6] at h1; omega

theorem add6_inv {o r : V6} {n : Int} (h : o.add n = .ok r) :
    0 ≤ (o.asDecimal : Int) + n ∧ (o.asDecimal : Int) + n ≤ maxInt6 ∧
      r = V6.make ((o.asDecimal : Int) + n).toNat o.plen := by
  unfold V6.add at h
  simp only at h
  split at h
  · cases h
  · split at h
    · cases h
    · rename_i h1 h2
      have h1' : (o.asDecimal : Int) + n ≤ maxInt6 := by omega
      have h2' : 0 ≤ (o.asDecimal : Int) + n := by omega
      unfold V6.ofInt at h
      rw [if_pos ⟨h2', h1'⟩] at h
      injection h with h
      exact ⟨h2', h1', h.symm⟩

theorem sub6_inv {o r : V6} {n : Int} (h : o.sub n = .ok r) :
    0 ≤ (o.asDecimal : Int) - n ∧ (o.asDecimal : Int) - n < maxInt6 ∧
      r = V6.make ((o.asDecimal : Int) - n).toNat o.plen := by
  unfold V6.sub at h
  simp only at h
  split at h
  · cases h
  · split at h
    · cases h
    · rename_i h1 h2
      have h1' : (o.asDecimal : Int) - n < maxInt6 := by omega
      have h2' : 0 ≤ (o.asDecimal : Int) - n := by omega
      unfold V6.ofInt at h
      rw [if_pos ⟨h2', by omega⟩] at h
      injection h with h
      exact ⟨h2', h1', h.symm⟩

theorem setOffset6_inv {o r : V6} {k : Int} (h : o.setNetworkOffset k = .ok r) :
    k ≤ (o.asDecimalNetworkMaxint : Int) - o.asDecimalNetwork ∧
    0 ≤ (o.asDecimalNetwork : Int) + k ∧ (o.asDecimalNetwork : Int) + k ≤ maxInt6 ∧
      r = { o with ip := ((o.asDecimalNetwork : Int) + k).toNat } := by
  unfold V6.setNetworkOffset at h
  simp only at h
  split at h
  · split at h
    · rename_i h1 h2; injection h with h; exact ⟨h1, h2.1, h2.2, h.symm⟩
    · cases h
  · cases h

theorem setPrefixlen6_inv {o r : V6} {n : Int} (h : o.setPrefixlen n = .ok r) :
    0 ≤ n ∧ n ≤ 128 ∧ r = V6.make o.ip n.toNat := by
  unfold V6.setPrefixlen at h
  split at h
  · rename_i hc; injection h with h; exact ⟨hc.1, hc.2, h.symm⟩
  · cases h

theorem V6.Regular.wf {o : V6} (h : o.Regular) : o.WF := by
  induction h with
  | make h1 h2 => exact V6.WF.of_network h1 h2 h1
  | ofInt h =>
    obtain ⟨h0, h1, rfl⟩ := ofInt6_inv h
    exact V6.WF.of_network (toNat_lt6 h0 h1) (by omega) (toNat_lt6 h0 h1)
  | copy _ ih => exact V6.WF.of_network ih.net_lt ih.plen_le ih.ip_lt
  | setPrefixlen _ h ih =>
    obtain ⟨h0, h1, rfl⟩ := setPrefixlen6_inv h
    exact V6.WF.of_network ih.ip_lt (by omega) ih.ip_lt
  | add _ h ih =>
    obtain ⟨h0, h1, rfl⟩ := add6_inv h
    exact V6.WF.of_network (toNat_lt6 h0 h1) ih.plen_le (toNat_lt6 h0 h1)
  | sub _ h ih =>
    obtain ⟨h0, h1, rfl⟩ := sub6_inv h
    exact V6.WF.of_network (toNat_lt6 h0 (by omega)) ih.plen_le (toNat_lt6 h0 (by omega))
  | setNetworkOffset _ _ h ih =>
    obtain ⟨_, h0, h1, rfl⟩ := setOffset6_inv h
    exact ⟨toNat_lt6 h0 h1, ih.plen_le, ih.net_lt, ih.aligned⟩

theorem make6_block {ip p : Nat} (h : ip < 2 ^ 128) (hp : p ≤ 128) :
    (V6.make ip p).net = ip / 2 ^ (128 - p) * 2 ^ (128 - p) := networkOf_eq 128 ip p hp h

theorem V6.Regular.block {o : V6} (h : o.Regular) :
    o.net = o.ip / 2 ^ (128 - o.plen) * 2 ^ (128 - o.plen) := by
  induction h with
  | make h1 h2 => exact make6_block h1 h2
  | ofInt h =>
    obtain ⟨h0, h1, rfl⟩ := ofInt6_inv h
    exact make6_block (toNat_lt6 h0 h1) (by omega)
  | @copy o h ih =>
    have hw := h.wf
    show networkOf 128 o.net o.plen = _
    rw [networkOf_eq 128 _ _ hw.plen_le hw.net_lt, hw.aligned]
    exact ih
  | setPrefixlen ho h ih =>
    obtain ⟨h0, h1, rfl⟩ := setPrefixlen6_inv h
    exact make6_block ho.wf.ip_lt (by omega)
  | add ho h ih =>
    obtain ⟨h0, h1, rfl⟩ := add6_inv h
    exact make6_block (toNat_lt6 h0 h1) ho.wf.plen_le
  | sub ho h ih =>
    obtain ⟨h0, h1, rfl⟩ := sub6_inv h
    exact make6_block (toNat_lt6 h0 (by omega)) ho.wf.plen_le
  | @setNetworkOffset o k o' ho hk h ih =>
    obtain ⟨hb, h0, h1, rfl⟩ := setOffset6_inv h
    have hw := ho.wf
    simp only [V6.asDecimalNetworkMaxint, V6.asDecimalNetwork_eq hw] at hb h0 h1 ⊢
    have hpos := two_pow_pos (128 - o.plen)
    have : ((o.net : Int) + k).toNat / 2 ^ (128 - o.plen) = o.net / 2 ^ (128 - o.plen) := by
      rw [block_iff, hw.aligned]
      omega
    rw [this, hw.aligned]

theorem V6.WF.top {o : V6} (h : o.WF) : o.net + 2 ^ (128 - o.plen) ≤ 2 ^ 128 := by
  have := block_le 128 (128 - o.plen) o.net (by omega) h.net_lt
  rwa [h.aligned] at this

theorem V6.WF.inNet_iff {o : V6} (h : o.WF) (x : Nat) :
    InNet 128 o.net o.plen x ↔ o.net ≤ x ∧ x ≤ o.net + (2 ^ (128 - o.plen) - 1) := by
  unfold InNet
  rw [block_iff, h.aligned]
  have := h.top
  have hpos := two_pow_pos (128 - o.plen)
  constructor
  · exact fun h => h.2
  · exact fun h => ⟨by omega, h⟩

end IP

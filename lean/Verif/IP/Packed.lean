import Verif.IP.Props

/-! # C238: the packed form of an address -/

namespace IP

/-- `int.to_bytes(k, "big")`: `k` bytes, the most significant one first. -/
def bytesOf : Nat → Nat → List Nat
  | 0, _ => []
  | k + 1, n => n / 256 ^ k % 256 :: bytesOf k n

/-- ccp_util.py:1527-1529 `IPv4Obj.packed`. -/
def V4.packed (o : V4) : List Nat := bytesOf 4 o.ip

/-- ccp_util.py:2216-2218 `IPv6Obj.packed`. -/
def V6.packed (o : V6) : List Nat := bytesOf 16 o.ip

/-- The number that these bytes stand for. -/
def Spec.bytesVal (l : List Nat) : Nat := l.foldl (fun v b => 256 * v + b) 0

theorem bytes_length (k n : Nat) : (bytesOf k n).length = k := by
  induction k with
  | zero => rfl
  | succ k ih => rw [bytesOf, List.length_cons, ih]

theorem bytes_lt (k n : Nat) : ∀ b ∈ bytesOf k n, b < 256 := by
  induction k with
  | zero => intro b hb; cases hb
  | succ k ih =>
    intro b hb
    rcases List.mem_cons.mp hb with rfl | hb
    · exact Nat.mod_lt _ (by decide)
    · exact ih b hb

theorem val_from (l : List Nat) (v : Nat) : l.foldl (fun v b => 256 * v + b) v = 256 ^ l.length * v + Spec.bytesVal l := by
  induction l generalizing v with
  | nil => simp [Spec.bytesVal]
  | cons b l ih =>
    rw [Spec.bytesVal, List.foldl_cons, List.foldl_cons, ih, ih (256 * 0 + b), List.length_cons, Nat.pow_succ,
      Nat.mul_add, Nat.mul_assoc, Nat.mul_zero, Nat.zero_add]
    omega

theorem bytes_val (k n : Nat) : Spec.bytesVal (bytesOf k n) = n % 256 ^ k := by
  induction k with
  | zero => rw [Nat.pow_zero, Nat.mod_one]; rfl
  | succ k ih =>
    rw [bytesOf, Spec.bytesVal, List.foldl_cons, val_from, ih, bytes_length, Nat.mod_pow_succ, Nat.mul_zero, Nat.zero_add]
    omega

theorem digit_lt {B r s a b : Nat} (hr : r < B) (hs : s < B) : r + B * a < s + B * b ↔ a < b ∨ a = b ∧ r < s := by
  constructor
  · intro h
    rcases Nat.lt_trichotomy a b with h1 | h1 | h1
    · exact .inl h1
    · exact .inr ⟨h1, by subst h1; omega⟩
    · exfalso
      have : B * (b + 1) ≤ B * a := Nat.mul_le_mul_left B h1
      rw [Nat.mul_add, Nat.mul_one] at this
      omega
  · rintro (h | ⟨rfl, h⟩)
    · have : B * (a + 1) ≤ B * b := Nat.mul_le_mul_left B h
      rw [Nat.mul_add, Nat.mul_one] at this
      omega
    · omega

theorem bytes_order (k n m : Nat) : bytesOf k n < bytesOf k m ↔ n % 256 ^ k < m % 256 ^ k := by
  induction k with
  | zero => rw [Nat.pow_zero, Nat.mod_one, Nat.mod_one]; simp [bytesOf]
  | succ k ih =>
    rw [bytesOf, bytesOf, List.cons_lt_cons_iff, ih, Nat.mod_pow_succ, Nat.mod_pow_succ,
      digit_lt (Nat.mod_lt _ (Nat.pow_pos (by decide))) (Nat.mod_lt _ (Nat.pow_pos (by decide)))]

theorem bytes_inj (k : Nat) {n m : Nat} (h : bytesOf k n = bytesOf k m) : n % 256 ^ k = m % 256 ^ k := by
  rw [← bytes_val, h, bytes_val]

/-- C238: `packed` of an IPv4 object is four bytes, which stand for its `as_decimal`. -/
theorem C238_v4 {o : V4} (h : o.WF) :
    o.packed.length = 4 ∧ (∀ b ∈ o.packed, b < 256) ∧ Spec.bytesVal o.packed = o.asDecimal := by
  refine ⟨bytes_length 4 _, bytes_lt 4 _, ?_⟩
  rw [V4.packed, bytes_val, V4.asDecimal_eq h]
  exact Nat.mod_eq_of_lt h.ip_lt

/-- C238: `packed` of an IPv6 object is sixteen bytes, which stand for its `as_decimal`. -/
theorem C238_v6 {o : V6} (h : o.WF) :
    o.packed.length = 16 ∧ (∀ b ∈ o.packed, b < 256) ∧ Spec.bytesVal o.packed = o.asDecimal := by
  refine ⟨bytes_length 16 _, bytes_lt 16 _, ?_⟩
  rw [V6.packed, bytes_val, V6.asDecimal_eq h]
  exact Nat.mod_eq_of_lt h.ip_lt

/-- C238: packed IPv4 addresses are ordered (as `bytes`, byte by byte) and equal as the addresses are. -/
theorem C238_order4 {a b : V4} (ha : a.WF) (hb : b.WF) :
    (a.packed < b.packed ↔ a.asDecimal < b.asDecimal) ∧ (a.packed = b.packed ↔ a.asDecimal = b.asDecimal) := by
  have e1 : a.ip % 256 ^ 4 = a.ip := Nat.mod_eq_of_lt ha.ip_lt
  have e2 : b.ip % 256 ^ 4 = b.ip := Nat.mod_eq_of_lt hb.ip_lt
  rw [V4.packed, V4.packed, bytes_order, e1, e2, V4.asDecimal_eq ha, V4.asDecimal_eq hb]
  refine ⟨Iff.rfl, fun h => ?_, fun h => by rw [h]⟩
  have := bytes_inj 4 h
  rwa [e1, e2] at this

/-- C238: and so are packed IPv6 addresses. -/
theorem C238_order6 {a b : V6} (ha : a.WF) (hb : b.WF) :
    (a.packed < b.packed ↔ a.asDecimal < b.asDecimal) ∧ (a.packed = b.packed ↔ a.asDecimal = b.asDecimal) := by
  have e1 : a.ip % 256 ^ 16 = a.ip := Nat.mod_eq_of_lt ha.ip_lt
  have e2 : b.ip % 256 ^ 16 = b.ip := Nat.mod_eq_of_lt hb.ip_lt
  rw [V6.packed, V6.packed, bytes_order, e1, e2, V6.asDecimal_eq ha, V6.asDecimal_eq hb]
  refine ⟨Iff.rfl, fun h => ?_, fun h => by rw [h]⟩
  have := bytes_inj 16 h
  rwa [e1, e2] at this

example : ∃ a b, V4.ofStr "10.0.2.1/24".toList = .ok a ∧ V4.ofStr "10.0.1.200".toList = .ok b ∧
    a.packed = [10, 0, 2, 1] ∧ b.packed < a.packed :=
  ⟨⟨167772673, 24, 167772672⟩, ⟨167772616, 32, 167772616⟩, by decide +kernel, by decide +kernel, by decide, by decide⟩

end IP

import Verif.IP.Views
import Verif.IP.Text6Props
import Verif.IP.Props

/-! # Lemmas: masks, networks and texts of IPv4 addresses -/

namespace IP

open Py

/-! ## Masks -/

theorem shr_ones (W p : Nat) (hp : p ≤ W) : (2 ^ W - 1) >>> p = 2 ^ (W - p) - 1 := by
  apply Nat.eq_of_testBit_eq
  intro i
  rw [Nat.testBit_shiftRight, Nat.testBit_two_pow_sub_one, Nat.testBit_two_pow_sub_one]
  by_cases h : p + i < W
  · have : i < W - p := by omega
    simp [h, this]
  · have : ¬ i < W - p := by omega
    simp [h, this]

theorem maskOf_eq (W p : Nat) (hp : p ≤ W) : maskOf W p = 2 ^ W - 2 ^ (W - p) := by
  have hpos := two_pow_pos (W - p)
  have hle : 2 ^ (W - p) ≤ 2 ^ W := Nat.pow_le_pow_right (by omega) (by omega)
  have e : 2 ^ W - 2 ^ (W - p) = 2 ^ W - ((2 ^ (W - p) - 1) + 1) := by omega
  rw [e]
  apply Nat.eq_of_testBit_eq
  intro i
  rw [testBit_maskOf W p i hp, Nat.testBit_two_pow_sub_succ (by omega), Nat.testBit_two_pow_sub_one]
  by_cases h1 : W - p ≤ i <;> by_cases h2 : i < W <;> simp [h1, h2] <;> omega

theorem hostmaskOf_eq (W p : Nat) (hp : p ≤ W) : hostmaskOf W p = 2 ^ (W - p) - 1 := by
  apply Nat.eq_of_testBit_eq
  intro i
  rw [hostmaskOf, Nat.testBit_xor, testBit_maskOf W p i hp, Nat.testBit_two_pow_sub_one, Nat.testBit_two_pow_sub_one]
  by_cases h1 : W - p ≤ i <;> by_cases h2 : i < W <;> simp [h1, h2] <;> omega

theorem lastOf_eq (W net p : Nat) (hp : p ≤ W) (ha : net / 2 ^ (W - p) * 2 ^ (W - p) = net) :
    lastOf W net p = net + (2 ^ (W - p) - 1) := by
  have hpos := two_pow_pos (W - p)
  rw [lastOf, hostmaskOf_eq W p hp]
  conv => lhs; rw [← ha]
  conv => rhs; rw [← ha]
  rw [Nat.mul_comm, Nat.two_pow_add_eq_or_of_lt (by omega)]

theorem inBlock_iff {W base q x : Nat} (hq : q ≤ W) (hb : base / 2 ^ (W - q) * 2 ^ (W - q) = base) (hx : x < 2 ^ W) :
    inBlock W base q x = true ↔ InNet W base q x := by
  have hpos := two_pow_pos (W - q)
  rw [inBlock, beq_iff_eq, networkOf_eq W x q hq hx, InNet]
  constructor
  · intro h
    refine ⟨hx, ?_⟩
    rw [← h, Nat.mul_div_cancel _ hpos]
  · rintro ⟨_, h⟩
    rw [h, hb]

theorem inNet_range {W net p x : Nat} (hp : p ≤ W) (ha : net / 2 ^ (W - p) * 2 ^ (W - p) = net) (hn : net < 2 ^ W) :
    InNet W net p x ↔ net ≤ x ∧ x ≤ lastOf W net p := by
  have hpos := two_pow_pos (W - p)
  have hl := block_le W (W - p) net (by omega) hn
  rw [lastOf_eq W net p hp ha, InNet, block_iff, ha]
  rw [ha] at hl
  constructor
  · exact fun h => h.2
  · exact fun h => ⟨by omega, h⟩

/-- A block of addresses contains a network exactly when it contains its ends. -/
theorem bothIn_iff {W base q net p : Nat} (hq : q ≤ W) (hb : base / 2 ^ (W - q) * 2 ^ (W - q) = base)
    (hp : p ≤ W) (ha : net / 2 ^ (W - p) * 2 ^ (W - p) = net) (hn : net < 2 ^ W) :
    bothIn W base q net p = true ↔ ∀ x, InNet W net p x → InNet W base q x := by
  have hpos := two_pow_pos (W - p)
  have hlast : lastOf W net p < 2 ^ W := by
    have hl := block_le W (W - p) net (by omega) hn
    rw [ha] at hl
    rw [lastOf_eq W net p hp ha]; omega
  have hle : net ≤ lastOf W net p := by rw [lastOf_eq W net p hp ha]; omega
  rw [bothIn, Bool.and_eq_true, inBlock_iff hq hb hn, inBlock_iff hq hb hlast]
  constructor
  · rintro ⟨⟨_, h1⟩, ⟨_, h2⟩⟩ x hx
    have hr := (inNet_range hp ha hn).mp hx
    refine ⟨hx.1, ?_⟩
    have e1 : net / 2 ^ (W - q) ≤ x / 2 ^ (W - q) := Nat.div_le_div_right hr.1
    have e2 : x / 2 ^ (W - q) ≤ lastOf W net p / 2 ^ (W - q) := Nat.div_le_div_right hr.2
    omega
  · intro h
    exact ⟨h _ ((inNet_range hp ha hn).mpr ⟨Nat.le_refl _, hle⟩), h _ ((inNet_range hp ha hn).mpr ⟨hle, Nat.le_refl _⟩)⟩

theorem mem_addrsOf {W net p x : Nat} (hp : p ≤ W) (ha : net / 2 ^ (W - p) * 2 ^ (W - p) = net) (hn : net < 2 ^ W) :
    x ∈ addrsOf W net p ↔ InNet W net p x := by
  rw [inNet_range hp ha hn, addrsOf, List.mem_map]
  constructor
  · rintro ⟨j, hj, rfl⟩
    rw [List.mem_range] at hj
    omega
  · rintro ⟨h1, h2⟩
    exact ⟨x - net, List.mem_range.mpr (by omega), by omega⟩

theorem addrsOf_sorted (W net p : Nat) : (addrsOf W net p).Pairwise (· < ·) := by
  rw [addrsOf, List.pairwise_map]
  exact (List.pairwise_lt_range).imp (by intro a b h; omega)

/-! ## Hexadecimal -/

theorem hexAux_spec : ∀ (f n : Nat), n < f → hexAux f n ≠ [] ∧ valBase 16 (hexAux f n) = n ∧
    (∀ c ∈ hexAux f n, ∃ d, d < 16 ∧ c = baseDigit d) ∧ (hexAux f n = ['0'] ∨ (hexAux f n).head? ≠ some '0') := by
  intro f
  induction f with
  | zero => intro n h; omega
  | succ f ih =>
    intro n h
    rw [hexAux]
    split
    · rename_i hn
      refine ⟨by simp, ?_, ?_, ?_⟩
      · have := hexVal_baseDigit ⟨n, hn⟩
        simp only at this
        simp [valBase, this]
      · intro c hc
        exact ⟨n, hn, List.mem_singleton.mp hc⟩
      · by_cases h0 : n = 0
        · subst h0; exact .inl rfl
        · right
          have : ∀ m : Fin 16, m.val ≠ 0 → baseDigit m.val ≠ '0' := by decide
          intro e
          exact this ⟨n, hn⟩ h0 (by simpa using e)
    · rename_i hn
      obtain ⟨h1, h2, h3, h4⟩ := ih (n / 16) (by omega)
      refine ⟨by simp, ?_, ?_, ?_⟩
      · have := hexVal_baseDigit ⟨n % 16, Nat.mod_lt _ (by decide)⟩
        simp only at this
        rw [valBase, List.foldl_append, ← valBase, h2, List.foldl_cons, List.foldl_nil, this]; omega
      · intro c hc
        rcases List.mem_append.mp hc with hc | hc
        · exact h3 c hc
        · exact ⟨n % 16, Nat.mod_lt _ (by decide), List.mem_singleton.mp hc⟩
      · right
        rcases h4 with h4 | h4
        · exfalso
          rw [h4] at h2
          have : n / 16 = 0 := h2.symm
          omega
        · cases hx : hexAux f (n / 16) with
          | nil => exact absurd hx h1
          | cons a t => rw [hx] at h4; exact h4

/-! ## Dotted texts -/

theorem Quad.dotted {s : Str} {n : Nat} : Quad s n ↔ n < 2 ^ 32 ∧ s = IP.dotted n := by
  constructor
  · rintro ⟨a, b, c, d, ha, hb, hc, hd, rfl, rfl⟩
    refine ⟨by omega, ?_⟩
    rw [IP.dotted, octets]
    simp only [List.map_cons, List.map_nil]
    have e1 : (((a * 256 + b) * 256 + c) * 256 + d) / 2 ^ 24 % 256 = a := by omega
    have e2 : (((a * 256 + b) * 256 + c) * 256 + d) / 2 ^ 16 % 256 = b := by omega
    have e3 : (((a * 256 + b) * 256 + c) * 256 + d) / 2 ^ 8 % 256 = c := by omega
    have e4 : (((a * 256 + b) * 256 + c) * 256 + d) % 256 = d := by omega
    rw [e1, e2, e3, e4]
  · rintro ⟨h, rfl⟩
    refine ⟨n / 2 ^ 24 % 256, n / 2 ^ 16 % 256, n / 2 ^ 8 % 256, n % 256, by omega, by omega, by omega, by omega, rfl, by omega⟩

theorem rightZeros_dvd : ∀ (b n : Nat), n / 2 ^ rightZeros b n * 2 ^ rightZeros b n = n
  | 0, n => by simp [rightZeros]
  | b + 1, n => by
    rw [rightZeros]
    split
    · simp
    · rename_i h
      have ih := rightZeros_dvd b (n / 2)
      rw [Nat.add_comm 1, Nat.pow_succ, Nat.mul_comm _ 2, ← Nat.div_div_eq_div_mul]
      rw [show n / 2 / 2 ^ rightZeros b (n / 2) * (2 * 2 ^ rightZeros b (n / 2)) = 2 * (n / 2 / 2 ^ rightZeros b (n / 2) * 2 ^ rightZeros b (n / 2)) by
        rw [Nat.mul_left_comm], ih]
      omega

theorem rightZeros_le : ∀ (b n : Nat), rightZeros b n ≤ b
  | 0, n => by simp [rightZeros]
  | b + 1, n => by
    rw [rightZeros]
    split
    · omega
    · have := rightZeros_le b (n / 2); omega

theorem prefixFromInt_some {m p : Nat} (h : prefixFromInt m = some p) : p ≤ 32 ∧ m = 2 ^ 32 - 2 ^ (32 - p) := by
  rw [prefixFromInt] at h
  split at h
  · rename_i e
    have hle := rightZeros_le 32 m
    have hd := rightZeros_dvd 32 m
    generalize rightZeros 32 m = z at *
    cases h
    rw [Nat.shiftRight_eq_div_pow] at e
    refine ⟨by omega, ?_⟩
    rw [e] at hd
    rw [← hd, show 32 - (32 - z) = z by omega, Nat.sub_mul, ← Nat.pow_add, Nat.one_mul, show 32 - z + z = 32 by omega]
  · cases h

theorem prefixFromInt_host : ∀ p : Fin 33, 0 < p.val → p.val < 32 →
    prefixFromInt (2 ^ (32 - p.val) - 1) = none ∧ (2 ^ (32 - p.val) - 1) ^^^ (2 ^ 32 - 1) = maskOf 32 p.val := by
  decide +kernel

theorem dotted_not_digits (n : Nat) : prefixFromDigits (dotted n) = none := by
  have : allDigits (dotted n) = false := by
    cases hx : allDigits (dotted n) with
    | false => rfl
    | true =>
      have hm : '.' ∈ dotted n := by rw [dotted_eq]; simp
      exact absurd (allDigits_mem hx _ hm) (by decide)
  simp [prefixFromDigits, this]

theorem xor_ones (n : Nat) : (n ^^^ (2 ^ 32 - 1)) ^^^ (2 ^ 32 - 1) = n := by
  rw [Nat.xor_assoc, Nat.xor_self, Nat.xor_zero]

theorem makeNetmask_iff {m : Str} {p : Nat} : makeNetmask m = .ok p ↔ Mask4 m p := by
  constructor
  · intro h
    rw [makeNetmask] at h
    cases hd : prefixFromDigits m with
    | some q =>
      rw [hd] at h
      simp only [Except.ok.injEq] at h
      subst h
      rw [prefixFromDigits] at hd
      split at hd
      · rename_i hh
        rw [Bool.and_eq_true, decide_eq_true_eq] at hh
        cases hd
        refine Mask4.digits ?_ (allDigits_mem hh.1) hh.2
        rintro rfl; exact absurd hh.1 (by decide)
      · cases hd
    | none =>
      rw [hd] at h
      simp only at h
      cases ha : parseAddr m with
      | error e => rw [ha] at h; cases h
      | ok n =>
        rw [ha] at h
        simp only at h
        have hq := parseAddr_quad ha
        cases hp : prefixFromInt n with
        | some q =>
          rw [hp] at h
          simp only [Except.ok.injEq] at h
          subst h
          obtain ⟨h1, h2⟩ := prefixFromInt_some hp
          rw [h2] at hq
          exact Mask4.net h1 hq
        | none =>
          rw [hp] at h
          simp only at h
          cases hp' : prefixFromInt (n ^^^ (2 ^ 32 - 1)) with
          | none => rw [hp'] at h; cases h
          | some q =>
            rw [hp'] at h
            simp only [Except.ok.injEq] at h
            subst h
            obtain ⟨h1, h2⟩ := prefixFromInt_some hp'
            have hn : n = 2 ^ (32 - q) - 1 := by
              have := xor_ones n
              rw [h2, ← maskOf_eq 32 q h1] at this
              rw [← this]
              exact hostmaskOf_eq 32 q h1
            have h0 : 0 < q := by
              rcases Nat.eq_zero_or_pos q with rfl | h
              · rw [hn] at hp; exact absurd hp (by decide +kernel)
              · exact h
            have h32 : q < 32 := by
              rcases Nat.lt_or_ge q 32 with h | h
              · exact h
              · have : q = 32 := by omega
                subst this
                rw [hn] at hp; exact absurd hp (by decide +kernel)
            rw [hn] at hq
            exact Mask4.host h0 h32 hq
  · intro h
    cases h with
    | digits h1 h2 h3 =>
      have ha : allDigits m = true := by
        rw [allDigits, Bool.and_eq_true, List.all_eq_true]
        exact ⟨by cases m with | nil => exact absurd rfl h1 | cons _ _ => rfl, h2⟩
      rw [makeNetmask, prefixFromDigits, ha]
      simp [h3]
    | net h1 h2 =>
      rw [← maskOf_eq 32 p h1] at h2
      rw [(Quad.dotted.mp h2).2]
      exact makeNetmask_mask h1
    | host h1 h2 hq =>
      obtain ⟨hlt, rfl⟩ := Quad.dotted.mp hq
      obtain ⟨e1, e2⟩ := prefixFromInt_host ⟨p, by omega⟩ h1 h2
      simp only at e1 e2
      rw [makeNetmask, dotted_not_digits]
      simp only
      rw [parseAddr_dotted hlt]
      simp only
      rw [e1]
      simp only
      rw [e2, prefixFromInt_mask ⟨p, by omega⟩]

theorem matchV4_digits (ip : Nat) {m : Str} (h : allDigits m = true) : matchV4 (dotted ip ++ '/' :: m) = some (dotted ip, m) := by
  unfold matchV4
  rw [scanQuad_dotted ip ('/' :: m) (by intro c hc; simp at hc; subst hc; decide)]
  simp only [scanSep]
  rw [scanQuad_digits h]
  simp [h]

theorem Mask4.text {m : Str} {p : Nat} (h : Mask4 m p) : (allDigits m = true ∨ ∃ n, m = dotted n) ∧ m ≠ [] ∧ ∀ c ∈ m, isDigit c = true ∨ c = '.' := by
  cases h with
  | digits h1 h2 h3 =>
    refine ⟨.inl ?_, h1, fun c hc => .inl (h2 c hc)⟩
    rw [allDigits, Bool.and_eq_true, List.all_eq_true]
    exact ⟨by cases m with | nil => exact absurd rfl h1 | cons _ _ => rfl, h2⟩
  | net h1 hq =>
    obtain ⟨_, rfl⟩ := Quad.dotted.mp hq
    exact ⟨.inr ⟨_, rfl⟩, dotted_ne_nil _, dotted_chars _⟩
  | host h1 h2 hq =>
    obtain ⟨_, rfl⟩ := Quad.dotted.mp hq
    exact ⟨.inr ⟨_, rfl⟩, dotted_ne_nil _, dotted_chars _⟩

theorem numeric_noSpace {s : Str} (h : ∀ c ∈ s, isDigit c = true ∨ c = '.') : ∀ c ∈ s, isSpace c = false := by
  intro c hc
  rcases h c hc with h | rfl
  · exact isDigit_not_space h
  · decide

/-- An address and a mask with a slash between them. -/
theorem ofStr_slash {n p : Nat} {m : Str} (hn : n < 2 ^ 32) (hm : Mask4 m p) : V4.ofStr (dotted n ++ '/' :: m) = .ok (V4.make n p) := by
  obtain ⟨h1, h2, h3⟩ := hm.text
  have hmatch : matchV4 (dotted n ++ '/' :: m) = some (dotted n, m) := by
    rcases h1 with h1 | ⟨k, rfl⟩
    · exact matchV4_digits n h1
    · exact matchV4_mask n k '/' (.inl rfl)
  refine ofStr_of_match (head_dotted_space _ _) ?_ hmatch (parseAddr_dotted hn) (makeNetmask_iff.mpr hm)
  rw [show dotted n ++ '/' :: m = (dotted n ++ ['/']) ++ m by simp]
  exact last_append_ne h2 (numeric_noSpace h3)

theorem ofStr_alone {n : Nat} (hn : n < 2 ^ 32) : V4.ofStr (dotted n) = .ok (V4.make n 32) := by
  refine ofStr_of_match ?_ ?_ (matchV4_plain n) (parseAddr_dotted hn) (by decide)
  · have := head_dotted_space n []
    rwa [List.append_nil] at this
  · exact fun c hc => dotted_noSpace _ c (List.mem_of_getLast? hc)

theorem padBase10_digits : ∀ (w n : Nat), ∀ c ∈ padBase 10 w n, isDigit c = true := by
  intro w
  induction w with
  | zero => intro n c hc; simp [padBase] at hc
  | succ w ih =>
    intro n c hc
    simp only [padBase, List.mem_append, List.mem_singleton] at hc
    rcases hc with hc | rfl
    · exact ih _ _ hc
    · have : ∀ d : Fin 10, isDigit (baseDigit d.val) = true := by decide
      exact this ⟨n % 10, Nat.mod_lt _ (by decide)⟩

end IP

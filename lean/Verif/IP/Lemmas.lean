import Verif.IP.Model
import Verif.PyLemmas
import Verif.IP.Spec

/-! Helper lemmas for the IP model. -/

namespace IP

open Py

/-! ## masks and networks -/

theorem testBit_maskOf (W p i : Nat) (hp : p ≤ W) :
    (maskOf W p).testBit i = (decide (W - p ≤ i) && decide (i < W)) := by
  unfold maskOf
  rw [Nat.testBit_xor, Nat.testBit_shiftRight, Nat.testBit_two_pow_sub_one,
    Nat.testBit_two_pow_sub_one]
  by_cases h1 : W - p ≤ i <;> by_cases h2 : i < W <;> simp [h1, h2] <;> omega

theorem networkOf_eq (W ip p : Nat) (hp : p ≤ W) (hip : ip < 2 ^ W) :
    networkOf W ip p = ip / 2 ^ (W - p) * 2 ^ (W - p) := by
  apply Nat.eq_of_testBit_eq
  intro i
  unfold networkOf
  rw [Nat.testBit_and, testBit_maskOf W p i hp, ← Nat.shiftRight_eq_div_pow, ← Nat.shiftLeft_eq,
    Nat.testBit_shiftLeft, Nat.testBit_shiftRight]
  by_cases h1 : W - p ≤ i
  · by_cases h2 : i < W
    · rw [show W - p + (i - (W - p)) = i by omega]
      simp [h1, h2]
    · have hz : ip.testBit i = false := by
        apply Nat.testBit_lt_two_pow
        exact Nat.lt_of_lt_of_le hip (Nat.pow_le_pow_right (by omega) (by omega))
      rw [show W - p + (i - (W - p)) = i by omega]
      simp [hz]
  · simp [h1]

theorem two_pow_pos (k : Nat) : 0 < 2 ^ k := Nat.two_pow_pos k

/-- A value is in the aligned block of `a` exactly when it lies between its ends. -/
theorem block_iff (k a x : Nat) :
    x / 2 ^ k = a / 2 ^ k ↔ a / 2 ^ k * 2 ^ k ≤ x ∧ x ≤ a / 2 ^ k * 2 ^ k + (2 ^ k - 1) := by
  have hk := two_pow_pos k
  rw [Nat.div_eq_iff hk]
  omega

/-- The block ends below `2 ^ W`. -/
theorem block_le (W k a : Nat) (hk : k ≤ W) (ha : a < 2 ^ W) :
    a / 2 ^ k * 2 ^ k + 2 ^ k ≤ 2 ^ W := by
  have hdiv : 2 ^ W = 2 ^ (W - k) * 2 ^ k := by rw [← Nat.pow_add]; congr 1; omega
  rw [hdiv] at ha ⊢
  have : a / 2 ^ k < 2 ^ (W - k) := by
    rw [Nat.div_lt_iff_lt_mul (two_pow_pos k)]; exact ha
  calc a / 2 ^ k * 2 ^ k + 2 ^ k = (a / 2 ^ k + 1) * 2 ^ k := by rw [Nat.add_mul, Nat.one_mul]
    _ ≤ _ := Nat.mul_le_mul_right _ this

/-! ## decimal value of a rendering -/

theorem dot_not_mem_natStr (n : Nat) : '.' ∉ natStr n := fun h => by
  have := natStr_digits n _ h
  exact absurd this (by decide)

theorem splitOn_dotted (ip : Nat) : splitOn '.' (dotted ip) = (octets ip).map natStr := by
  unfold dotted
  apply splitOn_join
  · simp [octets]
  · intro p hp
    simp only [List.mem_map] at hp
    obtain ⟨n, _, rfl⟩ := hp
    exact dot_not_mem_natStr n

theorem base_split (b : Nat) (n : Nat) (k m : Nat) (hm : m = k * b) :
   n / k % b * k + n / m * m = n / k * k := by
  subst hm
  have := Nat.div_add_mod (n / k) b
  rw [Nat.div_div_eq_div_mul] at this
  calc n / k % b * k + n / (k * b) * (k * b) = (b * (n / (k * b)) + n / k % b) * k := by
        rw [Nat.add_mul, Nat.add_comm]; congr 1; rw [Nat.mul_comm b, Nat.mul_assoc, Nat.mul_comm b]
    _ = n / k * k := by rw [this]

theorem octet_sum (ip : Nat) (h : ip < 2 ^ 32) :
  ip % 256 + (ip / 2 ^ 8 % 256 * 2 ^ 8 + (ip / 2 ^ 16 % 256 * 2 ^ 16 + ip / 2 ^ 24 % 256 * 2 ^ 24)) = ip := by
  have h4 : ip / 2 ^ 32 = 0 := Nat.div_eq_of_lt h
  have e3 := base_split 256 ip (2^24) (2^32) (by decide)
  rw [h4, Nat.zero_mul, Nat.add_zero] at e3
  have e2 := base_split 256 ip (2^16) (2^24) (by decide)
  have e1 := base_split 256 ip (2^8) (2^16) (by decide)
  have e0 := base_split 256 ip 1 (2^8) (by decide)
  rw [e3, e2, e1]
  rw [Nat.div_one, Nat.mul_one, Nat.mul_one] at e0
  exact e0

theorem hextet_sum (ip : Nat) (h : ip < 2 ^ 128) :
  ip % 65536 + (ip / 2 ^ 16 % 65536 * 2 ^ 16 + (ip / 2 ^ 32 % 65536 * 2 ^ 32 +
   (ip / 2 ^ 48 % 65536 * 2 ^ 48 + (ip / 2 ^ 64 % 65536 * 2 ^ 64 + (ip / 2 ^ 80 % 65536 * 2 ^ 80 +
   (ip / 2 ^ 96 % 65536 * 2 ^ 96 + ip / 2 ^ 112 % 65536 * 2 ^ 112)))))) = ip := by
  have h4 : ip / 2 ^ 128 = 0 := Nat.div_eq_of_lt h
  have e7 := base_split 65536 ip (2^112) (2^128) (by decide)
  rw [h4, Nat.zero_mul, Nat.add_zero] at e7
  have e6 := base_split 65536 ip (2^96) (2^112) (by decide)
  have e5 := base_split 65536 ip (2^80) (2^96) (by decide)
  have e4 := base_split 65536 ip (2^64) (2^80) (by decide)
  have e3 := base_split 65536 ip (2^48) (2^64) (by decide)
  have e2 := base_split 65536 ip (2^32) (2^48) (by decide)
  have e1 := base_split 65536 ip (2^16) (2^32) (by decide)
  have e0 := base_split 65536 ip 1 (2^16) (by decide)
  rw [e7, e6, e5, e4, e3, e2, e1]
  rw [Nat.div_one, Nat.mul_one, Nat.mul_one] at e0
  exact e0
theorem sum4 (a b c d : Nat) : [a, b, c, d].sum = a + (b + (c + d)) := rfl
theorem sum8 (a b c d e f g h : Nat) :
    [a, b, c, d, e, f, g, h].sum = a + (b + (c + (d + (e + (f + (g + h)))))) := rfl

theorem decOfDotted_dotted (ip : Nat) (h : ip < 2 ^ 32) : decOfDotted (dotted ip) = ip := by
  unfold decOfDotted
  rw [splitOn_dotted]
  simp only [octets]
  simp only [List.map_cons, List.map_nil, List.reverse_cons, List.reverse_nil, List.nil_append,
    List.cons_append]
  simp only [List.zipIdx_cons, List.zipIdx_nil]
  simp only [List.map_cons, List.map_nil]
  simp only [natVal_natStr]
  rw [sum4]
  rw [show (256 : Nat) ^ 0 = 1 from rfl, show (256 : Nat) ^ (0 + 1) = 2 ^ 8 by decide,
    show (256 : Nat) ^ (0 + 1 + 1) = 2 ^ 16 by decide,
    show (256 : Nat) ^ (0 + 1 + 1 + 1) = 2 ^ 24 by decide, Nat.mul_one]
  exact octet_sum ip h

theorem decOfHextets_hextets (ip : Nat) (h : ip < 2 ^ 128) : decOfHextets (hextets ip) = ip := by
  unfold decOfHextets
  simp only [hextets]
  simp only [List.reverse_cons, List.reverse_nil, List.nil_append, List.cons_append]
  simp only [List.zipIdx_cons, List.zipIdx_nil]
  simp only [List.map_cons, List.map_nil]
  rw [sum8]
  rw [show (65536 : Nat) ^ 0 = 1 from rfl, show (65536 : Nat) ^ (0 + 1) = 2 ^ 16 by decide,
    show (65536 : Nat) ^ (0 + 1 + 1) = 2 ^ 32 by decide,
    show (65536 : Nat) ^ (0 + 1 + 1 + 1) = 2 ^ 48 by decide,
    show (65536 : Nat) ^ (0 + 1 + 1 + 1 + 1) = 2 ^ 64 by decide,
    show (65536 : Nat) ^ (0 + 1 + 1 + 1 + 1 + 1) = 2 ^ 80 by decide,
    show (65536 : Nat) ^ (0 + 1 + 1 + 1 + 1 + 1 + 1) = 2 ^ 96 by decide,
    show (65536 : Nat) ^ (0 + 1 + 1 + 1 + 1 + 1 + 1 + 1) = 2 ^ 112 by decide, Nat.mul_one]
  exact hextet_sum ip h

/-! ## representation invariant -/

/-- What every sequence of operations keeps: sizes, and an aligned network. -/
structure V4.WF (o : V4) : Prop where
  ip_lt : o.ip < 2 ^ 32
  plen_le : o.plen ≤ 32
  net_lt : o.net < 2 ^ 32
  aligned : o.net / 2 ^ (32 - o.plen) * 2 ^ (32 - o.plen) = o.net

structure V6.WF (o : V6) : Prop where
  ip_lt : o.ip < 2 ^ 128
  plen_le : o.plen ≤ 128
  net_lt : o.net < 2 ^ 128
  aligned : o.net / 2 ^ (128 - o.plen) * 2 ^ (128 - o.plen) = o.net

theorem aligned_block (k a : Nat) : (a / 2 ^ k * 2 ^ k) / 2 ^ k * 2 ^ k = a / 2 ^ k * 2 ^ k := by
  rw [Nat.mul_div_cancel _ (two_pow_pos k)]

theorem block_self_le (k a : Nat) : a / 2 ^ k * 2 ^ k ≤ a := Nat.div_mul_le_self a _

theorem V4.WF.of_network {ip p : Nat} (h : ip < 2 ^ 32) (hp : p ≤ 32) {ip' : Nat}
    (h' : ip' < 2 ^ 32) : V4.WF ⟨ip', p, networkOf 32 ip p⟩ := by
  refine ⟨h', hp, ?_, ?_⟩
  · show networkOf 32 ip p < _
    rw [networkOf_eq 32 ip p hp h]
    exact Nat.lt_of_le_of_lt (block_self_le _ _) h
  · show networkOf 32 ip p / _ * _ = networkOf 32 ip p
    rw [networkOf_eq 32 ip p hp h, aligned_block]

theorem V6.WF.of_network {ip p : Nat} (h : ip < 2 ^ 128) (hp : p ≤ 128) {ip' : Nat}
    (h' : ip' < 2 ^ 128) : V6.WF ⟨ip', p, networkOf 128 ip p⟩ := by
  refine ⟨h', hp, ?_, ?_⟩
  · show networkOf 128 ip p < _
    rw [networkOf_eq 128 ip p hp h]
    exact Nat.lt_of_le_of_lt (block_self_le _ _) h
  · show networkOf 128 ip p / _ * _ = networkOf 128 ip p
    rw [networkOf_eq 128 ip p hp h, aligned_block]

theorem V4.asDecimal_eq {o : V4} (h : o.WF) : o.asDecimal = o.ip := decOfDotted_dotted _ h.ip_lt
theorem V4.asDecimalNetwork_eq {o : V4} (h : o.WF) : o.asDecimalNetwork = o.net :=
  decOfDotted_dotted _ h.net_lt
theorem V6.asDecimal_eq {o : V6} (h : o.WF) : o.asDecimal = o.ip := decOfHextets_hextets _ h.ip_lt
theorem V6.asDecimalNetwork_eq {o : V6} (h : o.WF) : o.asDecimalNetwork = o.net :=
  decOfHextets_hextets _ h.net_lt

/-! ## the text constructor -/

theorem parseOctet_lt {s : Str} {n : Nat} (h : parseOctet s = .ok n) : n < 256 := by
  unfold parseOctet at h
  split at h
  · cases h
  · split at h
    · cases h
    · split at h
      · cases h
      · split at h
        · cases h
        · injection h with h; omega

theorem parseAddr_lt {s : Str} {n : Nat} (h : parseAddr s = .ok n) : n < 2 ^ 32 := by
  unfold parseAddr at h
  split at h
  · rename_i a b c d _
    cases ha : parseOctet a with
    | error e => rw [ha] at h; cases h
    | ok a' =>
    cases hb : parseOctet b with
    | error e => rw [ha, hb] at h; cases h
    | ok b' =>
    cases hc : parseOctet c with
    | error e => rw [ha, hb, hc] at h; cases h
    | ok c' =>
    cases hd : parseOctet d with
    | error e => rw [ha, hb, hc, hd] at h; cases h
    | ok d' =>
      rw [ha, hb, hc, hd] at h
      have e : a' * 2 ^ 24 + b' * 2 ^ 16 + c' * 2 ^ 8 + d' = n := by injection h
      have := parseOctet_lt ha; have := parseOctet_lt hb
      have := parseOctet_lt hc; have := parseOctet_lt hd
      omega
  · cases h

theorem prefixFromInt_le {m p : Nat} (h : prefixFromInt m = some p) : p ≤ 32 := by
  unfold prefixFromInt at h
  simp only at h
  split at h
  · injection h with h; omega
  · cases h

theorem makeNetmask_le {s : Str} {p : Nat} (h : makeNetmask s = .ok p) : p ≤ 32 := by
  unfold makeNetmask at h
  split at h
  · rename_i p' hp'
    injection h with h
    subst h
    unfold prefixFromDigits at hp'
    split at hp'
    · rename_i hc
      injection hp' with hp'
      simp at hc
      omega
    · cases hp'
  · split at h
    · cases h
    · split at h
      · rename_i p' hp'; injection h with h; subst h; exact prefixFromInt_le hp'
      · split at h
        · rename_i p' hp'; injection h with h; subst h; exact prefixFromInt_le hp'
        · cases h

theorem ofStr_inv {s : Str} {o : V4} (h : V4.ofStr s = .ok o) :
    ∃ ip p, ip < 2 ^ 32 ∧ p ≤ 32 ∧ o = V4.make ip p := by
  unfold V4.ofStr at h
  split at h
  · cases h
  · rename_i addr mask _
    cases ha : parseAddr addr with
    | error e => rw [ha] at h; cases h
    | ok ip =>
    cases hm : makeNetmask mask with
    | error e => rw [ha, hm] at h; cases h
    | ok p =>
      rw [ha, hm] at h
      have e : V4.make ip p = o := by injection h
      exact ⟨ip, p, parseAddr_lt ha, makeNetmask_le hm, e.symm⟩

theorem parseOctet_natStr {n : Nat} (h : n < 256) : parseOctet (natStr n) = .ok n := by
  have hl : (natStr n).length ≤ 3 := by
    by_cases h1 : n < 10
    · rw [natStr_lt10 h1]; simp
    · by_cases h2 : n / 10 < 10
      · rw [natStr_ge10 (by omega), natStr_lt10 h2]; simp
      · rw [natStr_ge10 (by omega), natStr_ge10 (by omega), natStr_lt10 (by omega)]; simp
  have hz : (natStr n != ['0'] && (natStr n).head? == some '0') = false := by
    by_cases h0 : n = 0
    · subst h0; decide
    · have := natStr_head n h0
      simp [this]
  unfold parseOctet
  rw [allDigits_natStr, hz, natVal_natStr]
  simp
  rw [if_neg (by omega), if_neg (by omega)]

theorem parseAddr_dotted {ip : Nat} (h : ip < 2 ^ 32) : parseAddr (dotted ip) = .ok ip := by
  unfold parseAddr
  rw [splitOn_dotted]
  simp only [octets, List.map]
  rw [parseOctet_natStr (by omega), parseOctet_natStr (by omega), parseOctet_natStr (by omega),
    parseOctet_natStr (by omega)]
  show Except.ok _ = Except.ok _
  congr 1
  have := octet_sum ip h
  omega

theorem takeDigits_append {d r : Str} (hd : ∀ c ∈ d, isDigit c = true)
    (hr : ∀ c, r.head? = some c → isDigit c = false) : takeDigits (d ++ r) = (d, r) := by
  unfold takeDigits
  have h1 : r.takeWhile isDigit = [] := by
    cases r with
    | nil => rfl
    | cons c t => simp [List.takeWhile, hr c rfl]
  have h2 : r.dropWhile isDigit = r := dropWhile_of_head hr
  rw [List.takeWhile_append_of_pos hd, List.dropWhile_append_of_pos hd, h1, h2, List.append_nil]

theorem scanOctetDot_natStr (n : Nat) (r : Str) :
    scanOctetDot (natStr n ++ '.' :: r) = some (natStr n, r) := by
  unfold scanOctetDot
  rw [takeDigits_append (natStr_digits n) (by intro c hc; simp at hc; subst hc; decide)]
  cases h : natStr n with
  | nil => exact absurd h (natStr_ne_nil n)
  | cons a t => rfl

theorem dotted_eq (ip : Nat) : dotted ip = natStr (ip / 2 ^ 24 % 256) ++ '.' ::
    (natStr (ip / 2 ^ 16 % 256) ++ '.' :: (natStr (ip / 2 ^ 8 % 256) ++ '.' ::
      natStr (ip % 256))) := by
  simp [dotted, octets, join, List.append_assoc]

theorem scanQuad_dotted (ip : Nat) (r : Str) (hr : ∀ c, r.head? = some c → isDigit c = false) :
    scanQuad (dotted ip ++ r) = some (dotted ip, r) := by
  rw [dotted_eq]
  simp only [List.append_assoc, List.cons_append, scanQuad, scanOctetDot_natStr,
    Option.bind_eq_bind, Option.bind_some]
  rw [takeDigits_append (natStr_digits _) hr]
  cases h : natStr (ip % 256) with
  | nil => exact absurd h (natStr_ne_nil _)
  | cons a t => simp

theorem dotted_chars (ip : Nat) : ∀ c ∈ dotted ip, isDigit c = true ∨ c = '.' := by
  intro c hc
  rw [dotted_eq] at hc
  simp only [List.mem_append, List.mem_cons] at hc
  rcases hc with h | h | h | h | h | h | h
  · exact .inl (natStr_digits _ _ h)
  · exact .inr h
  · exact .inl (natStr_digits _ _ h)
  · exact .inr h
  · exact .inl (natStr_digits _ _ h)
  · exact .inr h
  · exact .inl (natStr_digits _ _ h)

theorem dotted_ne_nil (ip : Nat) : dotted ip ≠ [] := by
  rw [dotted_eq]
  intro h
  exact natStr_ne_nil _ (List.append_eq_nil_iff.1 h).1

theorem dotted_noSpace (ip : Nat) : ∀ c ∈ dotted ip, isSpace c = false := by
  intro c hc
  rcases dotted_chars ip c hc with h | h
  · exact isDigit_not_space h
  · subst h; decide

theorem dotted_head (ip : Nat) : ∃ c t, dotted ip = c :: t ∧ isDigit c = true := by
  rw [dotted_eq]
  cases h : natStr (ip / 2 ^ 24 % 256) with
  | nil => exact absurd h (natStr_ne_nil _)
  | cons a t => exact ⟨a, _, rfl, natStr_digits _ a (by rw [h]; simp)⟩

theorem scanQuad_digits {s : Str} (h : allDigits s = true) : scanQuad s = none := by
  have ht : takeDigits s = (s, []) := by
    have := takeDigits_append (d := s) (r := []) (allDigits_mem h) (by simp)
    simpa using this
  have : scanOctetDot s = none := by
    unfold scanOctetDot
    rw [ht]
    cases s with
    | nil => rfl
    | cons a t => rfl
  simp [scanQuad, this]

theorem matchV4_cidr (ip p : Nat) :
    matchV4 (dotted ip ++ '/' :: natStr p) = some (dotted ip, natStr p) := by
  unfold matchV4
  rw [scanQuad_dotted ip ('/' :: natStr p) (by intro c hc; simp at hc; subst hc; decide)]
  simp only [scanSep]
  rw [scanQuad_digits (allDigits_natStr p)]
  simp [allDigits_natStr]

theorem matchV4_plain (ip : Nat) : matchV4 (dotted ip) = some (dotted ip, ['3', '2']) := by
  unfold matchV4
  have := scanQuad_dotted ip [] (by simp)
  rw [List.append_nil] at this
  rw [this]

theorem matchV4_mask (ip m : Nat) (sep : Char) (hsep : sep = '/' ∨ isSpace sep = true) :
    matchV4 (dotted ip ++ sep :: dotted m) = some (dotted ip, dotted m) := by
  have hd : isDigit sep = false := by
    rcases hsep with rfl | h
    · decide
    · cases hx : isDigit sep with
      | false => rfl
      | true => rw [isDigit_not_space hx] at h; cases h
  have hq := scanQuad_dotted m [] (by simp)
  rw [List.append_nil] at hq
  unfold matchV4
  rw [scanQuad_dotted ip (sep :: dotted m) (by intro c hc; simp at hc; subst hc; exact hd)]
  have hs : scanSep (sep :: dotted m) = some (dotted m) := by
    by_cases he : sep = '/'
    · subst he; rfl
    · have hsp := hsep.resolve_left he
      have hdw : (dotted m).dropWhile isSpace = dotted m := by
        obtain ⟨c, t, e, hc⟩ := dotted_head m
        rw [e]; simp [List.dropWhile, isDigit_not_space hc]
      unfold scanSep
      split
      · rename_i h; injection h with h1 h2; exact absurd h1 he
      · rename_i h; injection h with h1 h2; subst h1; subst h2; simp [hsp, hdw]
      · rename_i h; cases h
  simp only [hs, hq]

theorem makeNetmask_natStr {p : Nat} (h : p ≤ 32) : makeNetmask (natStr p) = .ok p := by
  simp [makeNetmask, prefixFromDigits, allDigits_natStr, natVal_natStr, h]

theorem prefixFromInt_mask : ∀ p : Fin 33, prefixFromInt (maskOf 32 p.val) = some p.val := by
  decide +kernel

theorem maskOf_lt {p : Nat} (_h : p ≤ 32) : maskOf 32 p < 2 ^ 32 := by
  unfold maskOf
  apply Nat.xor_lt_two_pow
  · decide
  · rw [Nat.shiftRight_eq_div_pow]
    exact Nat.lt_of_le_of_lt (Nat.div_le_self _ _) (by decide)

theorem makeNetmask_mask {p : Nat} (h : p ≤ 32) : makeNetmask (dotted (maskOf 32 p)) = .ok p := by
  have hnd : prefixFromDigits (dotted (maskOf 32 p)) = none := by
    have : allDigits (dotted (maskOf 32 p)) = false := by
      cases hx : allDigits (dotted (maskOf 32 p)) with
      | false => rfl
      | true =>
        have hm : '.' ∈ dotted (maskOf 32 p) := by rw [dotted_eq]; simp
        exact absurd (allDigits_mem hx _ hm) (by decide)
    simp [prefixFromDigits, this]
  unfold makeNetmask
  rw [hnd]
  simp only
  rw [parseAddr_dotted (maskOf_lt h)]
  simp only
  rw [prefixFromInt_mask ⟨p, by omega⟩]

/-! ## fixed-width renderings -/

theorem length_padBase (b : Nat) : ∀ w n, (padBase b w n).length = w := by
  intro w
  induction w with
  | zero => intro n; rfl
  | succ w ih => intro n; simp [padBase, ih]

theorem hexVal_baseDigit : ∀ d : Fin 16, hexVal (baseDigit d.val) = d.val := by decide

theorem valBase_padBase (b : Nat) (hb : 0 < b) (hb' : b ≤ 16) :
    ∀ w n, valBase b (padBase b w n) = n % b ^ w := by
  intro w
  induction w with
  | zero => intro n; simp [padBase, valBase, Nat.mod_one]
  | succ w ih =>
    intro n
    have hd : hexVal (baseDigit (n % b)) = n % b :=
      hexVal_baseDigit ⟨n % b, Nat.lt_of_lt_of_le (Nat.mod_lt _ hb) hb'⟩
    have hv : valBase b (padBase b w (n / b) ++ [baseDigit (n % b)]) =
        b * valBase b (padBase b w (n / b)) + n % b := by
      simp [valBase, List.foldl_append, hd]
    rw [padBase, hv, ih, Nat.pow_succ, Nat.mul_comm (b ^ w) b, Nat.mod_mul, Nat.add_comm]

theorem map_octets_read (ip : Nat) (f : Nat → Str) :
    (splitOn '.' (dotted ip)).map (fun num => f (natVal num)) = (octets ip).map f := by
  rw [splitOn_dotted, List.map_map]
  apply List.map_congr_left
  intro n _
  simp [natVal_natStr]

theorem octets_lt (ip : Nat) : ∀ n ∈ octets ip, n < 256 := by
  intro n hn
  simp only [octets, List.mem_cons, List.not_mem_nil, or_false] at hn
  rcases hn with rfl | rfl | rfl | rfl <;> exact Nat.mod_lt _ (by decide)

theorem baseDigit_ne_dot : ∀ d : Fin 16, baseDigit d.val ≠ '.' := by decide

theorem padBase_no_dot (b : Nat) (hb : 0 < b) (hb' : b ≤ 16) : ∀ w n, '.' ∉ padBase b w n := by
  intro w
  induction w with
  | zero => intro n; simp [padBase]
  | succ w ih =>
    intro n h
    simp only [padBase, List.mem_append, List.mem_singleton] at h
    rcases h with h | h
    · exact ih _ h
    · exact baseDigit_ne_dot ⟨n % b, Nat.lt_of_lt_of_le (Nat.mod_lt _ hb) hb'⟩ h.symm

theorem fold_octets (ip : Nat) (h : ip < 2 ^ 32) :
    (octets ip).foldl (fun a x => 256 * a + x) 0 = ip := by
  have := octet_sum ip h
  simp only [octets, List.foldl_cons, List.foldl_nil]
  omega

end IP

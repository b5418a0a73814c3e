import Verif.IP.Invariant

/-! # Properties C01-C08: IPv4Obj and IPv6Obj -/

namespace IP

open Py

/-! ## C01 containment is set inclusion -/

/-- Interval inclusion for aligned blocks. -/
theorem incl_iff (na nb sa sb : Nat) :
    (∀ x, nb ≤ x ∧ x ≤ nb + (sb - 1) → na ≤ x ∧ x ≤ na + (sa - 1)) ↔
      na ≤ nb ∧ nb + (sb - 1) ≤ na + (sa - 1) := by
  constructor
  · intro h
    exact ⟨(h nb ⟨Nat.le_refl _, by omega⟩).1, (h (nb + (sb - 1)) ⟨by omega, Nat.le_refl _⟩).2⟩
  · intro h x hx; omega

/-- **C01.** For any two IPv4 objects, however obtained: `b in a` is True exactly
when every address of b's network is an address of a's network. -/
theorem C01_contains_iff_subset (a b : V4) (ha : a.Reachable) (hb : b.Reachable) :
    V4.contains (some a) (some b) = true ↔
      ∀ x, InNet 32 b.net b.plen x → InNet 32 a.net a.plen x := by
  have wa := ha.wf; have wb := hb.wf
  have hsb := two_pow_pos (32 - b.plen)
  have hsa := two_pow_pos (32 - a.plen)
  simp only [wa.inNet_iff, wb.inNet_iff]
  rw [incl_iff]
  unfold V4.contains
  simp only [V4.asDecimalBroadcast, V4.asDecimalNetwork_eq wa, V4.asDecimalNetwork_eq wb]
  have ta := wa.top; have tb := wb.top
  by_cases h0 : a.plen = 0
  · have hs : 2 ^ (32 - a.plen) = 2 ^ 32 := by rw [h0]
    rw [hs] at ta ⊢
    rw [if_pos h0]
    simp only [true_iff]
    omega
  · simp only [h0, if_false]
    by_cases hp : a.plen > b.plen
    · simp only [hp, if_true]
      have hlt : 2 ^ (32 - a.plen) < 2 ^ (32 - b.plen) :=
        Nat.pow_lt_pow_right (by omega) (by have := wa.plen_le; omega)
      constructor
      · intro h; cases h
      · intro h; omega
    · simp only [hp, if_false, Bool.and_eq_true, decide_eq_true_eq]
      omega

/-- An IPv4 object reached by construction, arithmetic and offset changes. -/
example : ∃ a b : V4, a.Reachable ∧ b.Reachable ∧ V4.contains (some a) (some b) = true ∧
    V4.contains (some b) (some a) = false :=
  ⟨V4.make 0x0a000000 8, V4.make 0x0a010203 24,
    .ofStr (s := "10.0.0.0/8".toList) (by decide), .ofStr (s := "10.1.2.3 255.255.255.0".toList) (by decide),
    by decide, by decide⟩

/-! ## C02 order -/

theorem lt4_iff {a b : V4} (wa : a.WF) (wb : b.WF) : a.lt b = true ↔ Before a b := by
  unfold V4.lt Before
  simp only [V4.asDecimal_eq wa, V4.asDecimal_eq wb, V4.asDecimalNetwork_eq wa,
    V4.asDecimalNetwork_eq wb]
  split
  · simp only [decide_eq_true_eq]; omega
  · split <;> simp only [decide_eq_true_eq] <;> omega

theorem gt4_iff {a b : V4} (wa : a.WF) (wb : b.WF) : a.gt b = true ↔ Before b a := by
  unfold V4.gt Before
  simp only [V4.asDecimal_eq wa, V4.asDecimal_eq wb, V4.asDecimalNetwork_eq wa,
    V4.asDecimalNetwork_eq wb]
  split
  · simp only [decide_eq_true_eq]; omega
  · split <;> simp only [decide_eq_true_eq] <;> omega

theorem eq4_iff {a b : V4} (wa : a.WF) (wb : b.WF) :
    V4.eq (some a) (some b) = true ↔ a.ip = b.ip ∧ a.plen = b.plen := by
  simp [V4.eq, V4.asDecimal_eq wa, V4.asDecimal_eq wb]

/-- **C02 (order).** `<` sorts by network, then prefix length, then host; `>` is its
converse; it is transitive. -/
theorem C02_lt_order (a b c : V4) (ha : a.Reachable) (hb : b.Reachable) (hc : c.Reachable) :
    (a.lt b = true ↔ Before a b) ∧ (a.lt b = b.gt a) ∧ a.lt a = false ∧
      (a.lt b = true → b.lt c = true → a.lt c = true) := by
  have wa := ha.wf; have wb := hb.wf; have wc := hc.wf
  refine ⟨lt4_iff wa wb, ?_, ?_, ?_⟩
  · rw [Bool.eq_iff_iff, lt4_iff wa wb, gt4_iff wb wa]
  · cases h : a.lt a with
    | false => rfl
    | true => rw [lt4_iff wa wa] at h; unfold Before at h; omega
  · rw [lt4_iff wa wb, lt4_iff wb wc, lt4_iff wa wc]; unfold Before; omega

/-- **C02 (trichotomy).** Exactly one of `a<b`, `a==b`, `a>b` holds, for objects on
which no negative `network_offset` was ever set. -/
theorem C02_trichotomy_partial (a b : V4) (ha : a.Regular) (hb : b.Regular) :
    (a.lt b = true ∧ V4.eq (some a) (some b) = false ∧ a.gt b = false) ∨
    (a.lt b = false ∧ V4.eq (some a) (some b) = true ∧ a.gt b = false) ∨
    (a.lt b = false ∧ V4.eq (some a) (some b) = false ∧ a.gt b = true) := by
  have wa := ha.wf; have wb := hb.wf
  have ea := ha.block; have eb := hb.block
  simp only [← Bool.not_eq_true, lt4_iff wa wb, gt4_iff wa wb, eq4_iff wa wb]
  have key : a.ip = b.ip → a.plen = b.plen → a.net = b.net := by
    intro h1 h2; rw [ea, eb, h1, h2]
  unfold Before
  by_cases h1 : a.net = b.net <;> by_cases h2 : a.plen = b.plen <;> by_cases h3 : a.ip = b.ip <;>
    simp only [h1, h2, h3, true_and, false_and, and_true, and_false, not_true, not_false_iff,
      Nat.lt_irrefl, or_false, false_or, or_true] <;>
    (try (exfalso; exact h1 (key h3 h2))) <;> omega

/-- Without that condition it fails: after `a.network_offset = -1`, `a == b` and `a > b`. -/
theorem C02_trichotomy_fails : ∃ a b : V4, a.Reachable ∧ b.Reachable ∧
    V4.eq (some a) (some b) = true ∧ a.gt b = true :=
  ⟨⟨0x0a0000ff, 24, 0x0a000100⟩, V4.make 0x0a0000ff 24,
    .setNetworkOffset (o := V4.make 0x0a000100 24) (k := -1)
      (.ofStr (s := "10.0.1.0/24".toList) (by decide)) (by decide),
    .ofStr (s := "10.0.0.255/24".toList) (by decide), by decide, by decide⟩

/-- Equal objects have equal hash keys (so they collapse in a set or dict). -/
theorem C02_eq_hash (a b : V4) (ha : a.Reachable) (hb : b.Reachable)
    (h : V4.eq (some a) (some b) = true) : a.hashKey = b.hashKey := by
  obtain ⟨h1, h2⟩ := (eq4_iff ha.wf hb.wf).1 h
  simp [V4.hashKey, h1, h2]

theorem sortBy_sorted_on {α : Type _} {le : α → α → Bool} (P : α → Prop)
    (tot : ∀ a b, P a → P b → le a b = true ∨ le b a = true)
    (tr : ∀ a b c, P a → P b → P c → le a b = true → le b c = true → le a c = true) :
    ∀ (l : List α), (∀ x ∈ l, P x) → (sortBy le l).Pairwise (fun x y => le x y = true) := by
  have ins : ∀ (a : α) (l : List α), P a → (∀ x ∈ l, P x) → l.Pairwise (fun x y => le x y = true) →
      (insertBy le a l).Pairwise (fun x y => le x y = true) := by
    intro a l ha
    induction l with
    | nil => intro _ _; simp [insertBy]
    | cons b bs ih =>
      intro hl hs
      have hb := hl b (by simp)
      rw [List.pairwise_cons] at hs
      unfold insertBy
      split
      · rename_i hab
        rw [List.pairwise_cons]
        refine ⟨?_, List.pairwise_cons.2 hs⟩
        intro y hy
        rcases List.mem_cons.1 hy with rfl | hy
        · exact hab
        · exact tr a b y ha hb (hl y (by simp [hy])) hab (hs.1 y hy)
      · rename_i hab
        rw [List.pairwise_cons]
        refine ⟨?_, ih (fun x hx => hl x (by simp [hx])) hs.2⟩
        intro y hy
        rcases mem_insertBy.1 hy with rfl | hy
        · exact (tot y b ha hb).resolve_left hab
        · exact hs.1 y hy
  intro l
  induction l with
  | nil => intro _; simp [sortBy]
  | cons a as ih =>
    intro hl
    exact ins a _ (hl a (by simp)) (fun x hx => hl x (by simp [mem_sortBy.1 hx]))
      (ih (fun x hx => hl x (by simp [hx])))

theorem find?_first {α : Type _} {p : α → Bool} {r : α → α → Prop} :
    ∀ {l : List α} {x : α}, l.Pairwise r → l.find? p = some x →
      ∀ y ∈ l, p y = true → y = x ∨ r x y := by
  intro l
  induction l with
  | nil => intro x _ h; simp at h
  | cons a as ih =>
    intro x hp hf y hy hpy
    rw [List.pairwise_cons] at hp
    by_cases ha : p a = true
    · rw [List.find?_cons_of_pos ha] at hf
      injection hf with hf; subst hf
      rcases List.mem_cons.1 hy with rfl | hy
      · exact .inl rfl
      · exact .inr (hp.1 y hy)
    · rw [List.find?_cons_of_neg ha] at hf
      rcases List.mem_cons.1 hy with rfl | hy
      · exact absurd hpy ha
      · exact ih hp.2 hf y hy hpy

/-- **C02 (longest match).** The first route of the reverse-sorted table that contains
the target has the longest prefix among all routes that contain it; and a match
is found whenever one exists. -/
theorem C02_longest_match (routes : List V4) (hr : ∀ r ∈ routes, r.Reachable) (t : V4)
    (ht : t.Reachable) :
    (∀ best, (sortedReverse routes).find? (fun r => V4.contains (some r) (some t)) = some best →
      best ∈ routes ∧ V4.contains (some best) (some t) = true ∧
        ∀ r ∈ routes, V4.contains (some r) (some t) = true → r.plen ≤ best.plen) ∧
    ((sortedReverse routes).find? (fun r => V4.contains (some r) (some t)) = none →
      ∀ r ∈ routes, V4.contains (some r) (some t) = false) := by
  have hs : (sortedReverse routes).Pairwise (fun x y => (!(x.lt y)) = true) := by
    apply sortBy_sorted_on (fun r : V4 => r.WF)
    · intro a b wa wb
      simp only [Bool.not_eq_true', ← Bool.not_eq_true, lt4_iff wa wb, lt4_iff wb wa]
      unfold Before; omega
    · intro a b c wa wb wc
      simp only [Bool.not_eq_true', ← Bool.not_eq_true, lt4_iff wa wb, lt4_iff wb wc,
        lt4_iff wa wc]
      unfold Before; omega
    · exact fun r h => (hr r h).wf
  constructor
  · intro best hf
    have hm := mem_sortBy.1 (List.mem_of_find?_eq_some hf)
    have hc := List.find?_some hf
    refine ⟨hm, hc, ?_⟩
    intro r hrm hrc
    rcases find?_first hs hf r (mem_sortBy.2 hrm) hrc with rfl | h
    · exact Nat.le_refl _
    · have wb := (hr best hm).wf
      have wr := (hr r hrm).wf
      simp only [Bool.not_eq_true', ← Bool.not_eq_true, lt4_iff wb wr] at h
      -- both contain the first address of `t`
      have hc' := (C01_contains_iff_subset best t (hr best hm) ht).1 hc t.net ⟨ht.wf.net_lt, rfl⟩
      have hr' := (C01_contains_iff_subset r t (hr r hrm) ht).1 hrc t.net ⟨ht.wf.net_lt, rfl⟩
      rw [wb.inNet_iff] at hc'
      rw [wr.inNet_iff] at hr'
      by_cases hlt : r.plen ≤ best.plen
      · exact hlt
      · exfalso
        -- then the (aligned, shorter) network of r starts inside best's network
        have hsz : 32 - r.plen ≤ 32 - best.plen := by omega
        have hrb : r.net / 2 ^ (32 - best.plen) = best.net / 2 ^ (32 - best.plen) := by
          have e1 : t.net / 2 ^ (32 - best.plen) = best.net / 2 ^ (32 - best.plen) := by
            rw [block_iff, wb.aligned]; exact hc'
          have e2 : t.net / 2 ^ (32 - r.plen) = r.net / 2 ^ (32 - r.plen) := by
            rw [block_iff, wr.aligned]; exact hr'
          have hexp : (2 : Nat) ^ (32 - best.plen) =
              2 ^ (32 - r.plen) * 2 ^ (r.plen - best.plen) := by
            rw [← Nat.pow_add]; congr 1; have := wr.plen_le; omega
          rw [← e1, hexp, ← Nat.div_div_eq_div_mul, ← Nat.div_div_eq_div_mul, e2]
        rw [block_iff, wb.aligned] at hrb
        unfold Before at h
        omega
  · intro hn r hrm
    have := List.find?_eq_none.1 hn r (mem_sortBy.2 hrm)
    simpa using this

example : (sortedReverse [V4.make 0x0a000000 8, V4.make 0 0, V4.make 0x0a010000 16]).find?
    (fun r => V4.contains (some r) (some (V4.make 0x0a010203 32))) =
      some (V4.make 0x0a010000 16) := by decide

/-! ## C03 integer arithmetic -/

/-- **C03 (addition).** In range: the address moves by exactly `n`, the prefix length is
kept and the result is a regular object; out of range: an exception. -/
theorem C03_add_exact (a : V4) (ha : a.Regular) (n : Int) :
    (0 ≤ (a.ip : Int) + n ∧ (a.ip : Int) + n ≤ 2 ^ 32 - 1 →
      ∃ r, a.add n = .ok r ∧ (r.ip : Int) = a.ip + n ∧ r.plen = a.plen ∧ r.Regular) ∧
    (¬ (0 ≤ (a.ip : Int) + n ∧ (a.ip : Int) + n ≤ 2 ^ 32 - 1) →
      a.add n = .error .requirement) := by
  have hd := V4.asDecimal_eq ha.wf
  have hm : (maxInt4 : Int) = 2 ^ 32 - 1 := by decide
  constructor
  · intro ⟨h0, h1⟩
    have : a.add n = .ok (V4.make ((a.ip : Int) + n).toNat a.plen) := by
      unfold V4.add
      simp only [hd, V4.ofInt]
      rw [if_neg (by omega), if_neg (by omega), if_pos (by omega)]
      rfl
    refine ⟨_, this, ?_, rfl, .add ha this⟩
    show (((a.ip : Int) + n).toNat : Int) = _
    omega
  · intro h
    unfold V4.add
    simp only [hd]
    split
    · rfl
    · split
      · rfl
      · exfalso; apply h; omega

/-- **C03 (subtraction, part).** As for addition, except that the code also rejects the
result 255.255.255.255. -/
theorem C03_sub_exact_partial (a : V4) (ha : a.Regular) (n : Int) :
    (0 ≤ (a.ip : Int) - n ∧ (a.ip : Int) - n < 2 ^ 32 - 1 →
      ∃ r, a.sub n = .ok r ∧ (r.ip : Int) = a.ip - n ∧ r.plen = a.plen ∧ r.Regular) ∧
    (¬ (0 ≤ (a.ip : Int) - n ∧ (a.ip : Int) - n < 2 ^ 32 - 1) →
      a.sub n = .error .requirement) := by
  have hd := V4.asDecimal_eq ha.wf
  have hm : (maxInt4 : Int) = 2 ^ 32 - 1 := by decide
  constructor
  · intro ⟨h0, h1⟩
    have : a.sub n = .ok (V4.make ((a.ip : Int) - n).toNat a.plen) := by
      unfold V4.sub
      simp only [hd, V4.ofInt]
      rw [if_neg (by omega), if_neg (by omega), if_pos (by omega)]
      rfl
    refine ⟨_, this, ?_, rfl, .sub ha this⟩
    show (((a.ip : Int) - n).toNat : Int) = _
    omega
  · intro h
    unfold V4.sub
    simp only [hd]
    split
    · rfl
    · split
      · rfl
      · exfalso; apply h; omega

/-- The full statement fails: `IPv4Obj("255.255.255.255") - 0` raises. -/
theorem C03_sub_fails : ∃ a : V4, a.Regular ∧ a.sub 0 = .error .requirement :=
  ⟨V4.make 0xffffffff 32, .ofStr (s := "255.255.255.255".toList) (by decide), by decide⟩

/-- **C03 (round trip).** `(a + n) - n == a` whenever `a + n` exists and `a` is not
255.255.255.255. -/
theorem C03_add_sub_partial (a r : V4) (ha : a.Regular) (n : Int) (hne : a.ip ≠ 2 ^ 32 - 1)
    (h : a.add n = .ok r) : ∃ b, r.sub n = .ok b ∧ b = a := by
  have hd := V4.asDecimal_eq ha.wf
  have hip := ha.wf.ip_lt
  obtain ⟨h0, h1, hr⟩ := add4_inv h
  rw [hd] at h0 h1 hr
  have hrR : r.Regular := .add ha h
  have hri : (r.ip : Int) = a.ip + n := by rw [hr]; show (((a.ip : Int) + n).toNat : Int) = _; omega
  have hrp : r.plen = a.plen := by rw [hr]; rfl
  obtain ⟨b, hb1, hb2, hb3, hb4⟩ := (C03_sub_exact_partial r hrR n).1 (by omega)
  refine ⟨b, hb1, ?_⟩
  have e1 : b.ip = a.ip := by omega
  have e2 : b.plen = a.plen := by omega
  have e3 : b.net = a.net := by rw [hb4.block, ha.block, e1, e2]
  cases b; cases a; simp_all

example : (V4.make 0x0a000001 24).add 300 = .ok (V4.make 0x0a00012d 24) ∧
    (V4.make 0x0a000001 24).sub (-300) = .ok (V4.make 0x0a00012d 24) ∧
    (V4.make 0x0a000001 24).Regular :=
  ⟨by decide, by decide, .ofStr (s := "10.0.0.1/24".toList) (by decide)⟩

/-! ## C04 network arithmetic -/

/-- **C04.** The network address is the lowest and the broadcast address the highest
address of the network, the network has `2^(32-p)` addresses, starts at a
multiple of that, and contains the host address. -/
theorem C04_network_bounds (o : V4) (ho : o.Regular) :
    o.asDecimalNetwork ≤ o.asDecimal ∧ o.asDecimal ≤ o.asDecimalBroadcast ∧
    o.asDecimalNetwork % 2 ^ (32 - o.plen) = 0 ∧
    o.asDecimalBroadcast - o.asDecimalNetwork + 1 = 2 ^ (32 - o.plen) ∧
    o.asDecimalBroadcast < 2 ^ 32 ∧
    (∀ x, InNet 32 o.ip o.plen x ↔ o.asDecimalNetwork ≤ x ∧ x ≤ o.asDecimalBroadcast) ∧
    V4.contains (some o) (some o) = true := by
  have w := ho.wf
  have hpos := two_pow_pos (32 - o.plen)
  have hb := ho.block
  have htop := w.top
  have hin := (block_iff (32 - o.plen) o.ip o.ip).1 rfl
  rw [← hb] at hin
  simp only [V4.asDecimalBroadcast, V4.asDecimal_eq w, V4.asDecimalNetwork_eq w]
  refine ⟨hin.1, hin.2, ?_, by omega, by omega, ?_, ?_⟩
  · rw [hb]; exact Nat.mul_mod_left _ _
  · intro x
    unfold InNet
    rw [block_iff, ← hb]
    constructor
    · exact fun h => h.2
    · exact fun h => ⟨by omega, h⟩
  · exact (C01_contains_iff_subset o o ho.reachable ho.reachable).2 (fun _ h => h)

/-- **C04 (numhosts).** The number of addresses of the network that a host can use:
all but the first and the last for /0../30, both for /31, the only one for /32. -/
theorem C04_numhosts (o : V4) (ho : o.Regular) :
    ∃ n, o.numhosts = .ok n ∧
      n = if o.plen ≤ 30 then
            ((List.range (o.asDecimalBroadcast + 1 - o.asDecimalNetwork)).map
              (o.asDecimalNetwork + ·)).countP
              (fun x => x != o.asDecimalNetwork && x != o.asDecimalBroadcast)
          else o.asDecimalBroadcast + 1 - o.asDecimalNetwork := by
  have w := ho.wf
  have hp := w.plen_le
  have hpos := two_pow_pos (32 - o.plen)
  have hsize : o.asDecimalBroadcast + 1 - o.asDecimalNetwork = 2 ^ (32 - o.plen) := by
    simp only [V4.asDecimalBroadcast]; omega
  have hcount : ∀ m N, 2 ≤ m → ((List.range m).map (N + ·)).countP
      (fun x => x != N && x != N + (m - 1)) = m - 2 := by
    intro m N hm
    rw [List.countP_map]
    obtain ⟨k, rfl⟩ : ∃ k, m = k + 2 := ⟨m - 2, by omega⟩
    rw [List.range_succ, List.countP_append, List.range_succ_eq_map, List.countP_cons,
      List.countP_map]
    have : (List.range k).countP (((fun x => x != N && x != N + (k + 2 - 1)) ∘ (N + ·)) ∘ Nat.succ)
        = k := by
      rw [List.countP_eq_length.2, List.length_range]
      intro a ha
      have := List.mem_range.1 ha
      simp
      omega
    rw [this]
    simp
  unfold V4.numhosts
  by_cases h30 : o.plen ≤ 30
  · refine ⟨_, if_pos h30, ?_⟩
    rw [if_pos h30, hsize]
    have h2 : 2 ≤ 2 ^ (32 - o.plen) :=
      Nat.le_trans (by decide : 2 ≤ 2 ^ 1) (Nat.pow_le_pow_right (by decide) (by omega))
    rw [show o.asDecimalBroadcast = o.asDecimalNetwork + (2 ^ (32 - o.plen) - 1) from rfl]
    exact (hcount _ _ h2).symm
  · rw [if_neg h30, if_neg h30, hsize]
    by_cases h31 : o.plen = 31
    · exact ⟨2, if_pos h31, by rw [h31]⟩
    · have h32 : o.plen = 32 := by omega
      exact ⟨1, by rw [if_neg h31, if_pos h32], by rw [h32]⟩

example : (V4.make 0x0a000005 30).numhosts = .ok 2 ∧ (V4.make 0x0a000005 30).Regular :=
  ⟨by decide, .ofStr (s := "10.0.0.5/30".toList) (by decide)⟩

/-! ## C05 network_offset -/

/-- **C05 (part).** For `k >= 0`: the assignment succeeds exactly when `network + k` is an
address of the subnet, keeps the subnet, and puts the address at that offset.
Reading it back gives `k` unless `k` is larger than the number of hosts (that is,
unless the address is the broadcast address of a /0../30). -/
theorem C05_offset_partial (o : V4) (ho : o.Regular) (k : Nat) :
    ((∃ o', o.setNetworkOffset k = .ok o') ↔ InNet 32 o.net o.plen (o.net + k)) ∧
    ∀ o', o.setNetworkOffset k = .ok o' →
      o'.net = o.net ∧ o'.plen = o.plen ∧ o'.ip = o.net + k ∧ InNet 32 o.net o.plen o'.ip ∧
      (¬ (o.plen ≤ 30 ∧ o'.ip = o.asDecimalBroadcast) → o'.networkOffset = .ok k) := by
  have w := ho.wf
  have hpos := two_pow_pos (32 - o.plen)
  have htop := w.top
  have hm : maxInt4 = 2 ^ 32 - 1 := by decide
  have hdn := V4.asDecimalNetwork_eq w
  have hval : k ≤ 2 ^ (32 - o.plen) - 1 → o.setNetworkOffset k = .ok { o with ip := o.net + k } := by
    intro hk
    unfold V4.setNetworkOffset
    simp only [V4.asDecimalBroadcast, hdn]
    rw [if_pos (by omega), if_pos (by omega)]
    congr 2
  refine ⟨⟨?_, ?_⟩, ?_⟩
  · rintro ⟨o', h⟩
    obtain ⟨h0, h1, h2, h3⟩ := setOffset4_inv h
    simp only [V4.asDecimalBroadcast, hdn] at h0
    rw [w.inNet_iff]; omega
  · intro h
    rw [w.inNet_iff] at h
    exact ⟨_, hval (by omega)⟩
  · intro o' h
    obtain ⟨h0, h1, h2, h3⟩ := setOffset4_inv h
    simp only [V4.asDecimalBroadcast, hdn] at h0
    have hk : k ≤ 2 ^ (32 - o.plen) - 1 := by omega
    rw [hval hk] at h
    injection h with h
    have hR : o'.Regular := .setNetworkOffset (k := (k : Int)) ho (by omega) (by rw [hval hk, h])
    subst h
    refine ⟨rfl, rfl, rfl, ?_, ?_⟩
    · rw [w.inNet_iff]; show o.net ≤ o.net + k ∧ o.net + k ≤ _; omega
    · intro hnb
      have w' := hR.wf
      have hnb' : ¬ (o.plen ≤ 30 ∧ k = 2 ^ (32 - o.plen) - 1) := by
        rintro ⟨h1, h2⟩
        apply hnb
        refine ⟨h1, ?_⟩
        show o.net + k = o.asDecimalBroadcast
        simp only [V4.asDecimalBroadcast, hdn]; omega
      unfold V4.networkOffset V4.numhosts
      simp only [V4.asDecimal_eq w', V4.asDecimalNetwork_eq w']
      have hsub : ((o.net + k : Nat) : Int) - (o.net : Int) = k := by omega
      by_cases h30 : o.plen ≤ 30
      · simp only [if_pos h30, bind, Except.bind, hsub]
        rw [if_neg (by omega)]
      · rw [if_neg h30]
        by_cases h31 : o.plen = 31
        · simp only [if_pos h31, bind, Except.bind, hsub]
          rw [h31] at hk
          rw [if_neg (by omega)]
        · have h32 : o.plen = 32 := by have := w.plen_le; omega
          simp only [if_neg h31, if_pos h32, bind, Except.bind, hsub]
          rw [h32] at hk
          rw [if_neg (by omega)]

/-- The full statement fails twice: the broadcast offset can be set but not read, and a
negative offset is accepted although it leaves the subnet. -/
theorem C05_offset_fails :
    (∃ o o' : V4, o.Regular ∧ o.setNetworkOffset 3 = .ok o' ∧
      o'.networkOffset = .error .requirement) ∧
    (∃ o o' : V4, o.Regular ∧ o.setNetworkOffset (-1) = .ok o' ∧
      ¬ InNet 32 o'.net o'.plen o'.ip) := by
  refine ⟨⟨V4.make 0x0a000000 30, V4.make 0x0a000003 30,
      .ofStr (s := "10.0.0.0/30".toList) (by decide), by decide, by decide⟩,
    ⟨V4.make 0x0a000000 30, ⟨0x09ffffff, 30, 0x0a000000⟩,
      .ofStr (s := "10.0.0.0/30".toList) (by decide), by decide, ?_⟩⟩
  unfold InNet
  decide

example : (V4.make 0x0a000000 24).setNetworkOffset 17 = .ok (V4.make 0x0a000011 24) ∧
    (V4.make 0x0a000011 24).networkOffset = .ok 17 := by decide

/-! ## C06 renderings -/

/-- **C06 (fixed width).** Each rendering has four fields of fixed width whose digits
read back to the address. -/
theorem C06_fixed_width (o : V4) (ho : o.Reachable) :
    (∃ f : List Str, o.asZeropadded = join ['.'] f ∧ splitOn '.' o.asZeropadded = f ∧
      f.length = 4 ∧ (∀ s ∈ f, s.length = 3) ∧ addrOfOctets 10 f = o.asDecimal) ∧
    (o.asBinaryTuple.length = 4 ∧ (∀ s ∈ o.asBinaryTuple, s.length = 8) ∧
      addrOfOctets 2 o.asBinaryTuple = o.asDecimal) ∧
    (o.asHexTuple.length = 4 ∧ (∀ s ∈ o.asHexTuple, s.length = 2) ∧
      addrOfOctets 16 o.asHexTuple = o.asDecimal) := by
  have w := ho.wf
  have hd := V4.asDecimal_eq w
  have hfold : ∀ (b wd : Nat), 0 < b → b ≤ 16 → 256 ≤ b ^ wd →
      addrOfOctets b ((octets o.ip).map (padBase b wd)) = o.asDecimal := by
    intro b wd hb hb' h256
    rw [hd]
    conv => rhs; rw [← fold_octets o.ip w.ip_lt]
    unfold addrOfOctets
    rw [List.foldl_map]
    have : ∀ (l : List Nat) (z : Nat), (∀ n ∈ l, n < 256) →
        l.foldl (fun a s => 256 * a + valBase b (padBase b wd s)) z =
          l.foldl (fun a x => 256 * a + x) z := by
      intro l
      induction l with
      | nil => intro z _; rfl
      | cons x xs ih =>
        intro z hx
        have hxl := hx x (by simp)
        simp only [List.foldl_cons]
        rw [valBase_padBase b hb hb', Nat.mod_eq_of_lt (by omega)]
        exact ih _ (fun n hn => hx n (by simp [hn]))
    exact this _ 0 (octets_lt o.ip)
  have hlen : ∀ (b wd : Nat), ∀ s ∈ (octets o.ip).map (padBase b wd), s.length = wd := by
    intro b wd s hs
    obtain ⟨n, _, rfl⟩ := List.mem_map.1 hs
    exact length_padBase b wd n
  unfold V4.asZeropadded V4.asBinaryTuple V4.asHexTuple
  rw [map_octets_read, map_octets_read, map_octets_read]
  refine ⟨⟨(octets o.ip).map (padBase 10 3), rfl, ?_, rfl, hlen 10 3, hfold 10 3 (by decide) (by decide) (by decide)⟩,
    ⟨rfl, hlen 2 8, hfold 2 8 (by decide) (by decide) (by decide)⟩,
    ⟨rfl, hlen 16 2, hfold 16 2 (by decide) (by decide) (by decide)⟩⟩
  apply splitOn_join
  · simp [octets]
  · intro p hp
    obtain ⟨n, _, rfl⟩ := List.mem_map.1 hp
    exact padBase_no_dot 10 (by decide) (by decide) 3 n

theorem ofStr_of_match {s addr mask : Str} {ip p : Nat} (hs : ∀ c, s.head? = some c → isSpace c = false)
    (hl : ∀ c, s.getLast? = some c → isSpace c = false) (h : matchV4 s = some (addr, mask))
    (h1 : parseAddr addr = .ok ip) (h2 : makeNetmask mask = .ok p) :
    V4.ofStr s = .ok (V4.make ip p) := by
  unfold V4.ofStr
  rw [strip_of_ends hs hl, h]
  simp only [h1, h2]
  rfl

theorem head_dotted_space (ip : Nat) (r : Str) :
    ∀ c, (dotted ip ++ r).head? = some c → isSpace c = false := by
  intro c hc
  obtain ⟨d, t, e, hd⟩ := dotted_head ip
  rw [e] at hc
  simp at hc
  subst hc
  exact isDigit_not_space hd

theorem last_append_ne {l r : Str} (hr : r ≠ []) (h : ∀ c ∈ r, isSpace c = false) :
    ∀ c, (l ++ r).getLast? = some c → isSpace c = false := by
  intro c hc
  apply h
  rw [List.getLast?_append] at hc
  cases hx : r.getLast? with
  | none => exact absurd (List.getLast?_eq_none_iff.1 hx) hr
  | some d =>
    rw [hx] at hc
    simp at hc
    subst hc
    exact List.mem_of_getLast? hx

/-- **C06 (constructor).** Parsing `as_cidr_addr` gives the object back. -/
theorem C06_cidr_roundtrip (o : V4) (ho : o.Regular) : V4.ofStr o.asCidrAddr = .ok o := by
  have w := ho.wf
  unfold V4.asCidrAddr
  rw [ofStr_of_match (head_dotted_space _ _) ?_ (matchV4_cidr o.ip o.plen)
    (parseAddr_dotted w.ip_lt) (makeNetmask_natStr w.plen_le)]
  · have : (V4.make o.ip o.plen).net = o.net := by rw [make4_block w.ip_lt w.plen_le, ← ho.block]
    cases o
    simp only [V4.make] at this ⊢
    rw [this]
  · rw [show dotted o.ip ++ '/' :: natStr o.plen = (dotted o.ip ++ ['/']) ++ natStr o.plen by simp]
    exact last_append_ne (natStr_ne_nil _)
      (fun c hc => isDigit_not_space (natStr_digits _ c hc))

/-- **C06 (mask notation).** The three documented spellings of the same address and mask
build the same object: `addr/len`, `addr netmask` and `addr/netmask`. -/
theorem C06_mask_notations (o : V4) (ho : o.Regular) :
    V4.ofStr (dotted o.ip ++ ' ' :: o.netmaskStr) = .ok o ∧
    V4.ofStr (dotted o.ip ++ '/' :: o.netmaskStr) = .ok o ∧
    (o.plen = 32 → V4.ofStr (dotted o.ip) = .ok o) := by
  have w := ho.wf
  have hmk : V4.make o.ip o.plen = o := by
    have : (V4.make o.ip o.plen).net = o.net := by rw [make4_block w.ip_lt w.plen_le, ← ho.block]
    cases o
    simp only [V4.make] at this ⊢
    rw [this]
  have hsep : ∀ sep : Char, (sep = '/' ∨ isSpace sep = true) →
      V4.ofStr (dotted o.ip ++ sep :: o.netmaskStr) = .ok o := by
    intro sep hs
    unfold V4.netmaskStr
    rw [ofStr_of_match (head_dotted_space _ _) ?_ (matchV4_mask o.ip (maskOf 32 o.plen) sep hs)
      (parseAddr_dotted w.ip_lt) (makeNetmask_mask w.plen_le), hmk]
    rw [show dotted o.ip ++ sep :: dotted (maskOf 32 o.plen) =
      (dotted o.ip ++ [sep]) ++ dotted (maskOf 32 o.plen) by simp]
    exact last_append_ne (dotted_ne_nil _) (dotted_noSpace _)
  refine ⟨hsep ' ' (.inr (by decide)), hsep '/' (.inl rfl), ?_⟩
  intro h32
  have := ofStr_of_match (s := dotted o.ip) (ip := o.ip) (p := 32) ?_ ?_ (matchV4_plain o.ip)
    (parseAddr_dotted w.ip_lt) (by decide)
  · rw [this, ← h32, hmk]
  · have := head_dotted_space o.ip []
    rwa [List.append_nil] at this
  · exact fun c hc => dotted_noSpace _ c (List.mem_of_getLast? hc)

example : (V4.make 0x0a0b0c0d 20).asCidrAddr = "10.11.12.13/20".toList ∧
    (V4.make 0x0a0b0c0d 20).netmaskStr = "255.255.240.0".toList ∧
    (V4.make 0x0a0b0c0d 20).asZeropadded = "010.011.012.013".toList ∧
    (V4.make 0x0a0b0c0d 20).asHexTuple = ["0a".toList, "0b".toList, "0c".toList, "0d".toList] := by
  decide

/-! ## C07 IPv6 containment -/

/-- **C07 (soundness).** A True answer is never wrong. -/
theorem C07_contains_sound_partial (a b : V6) (ha : a.Regular) (hb : b.Regular)
    (h : V6.contains a b = .ok true) :
    ∀ x, InNet 128 b.net b.plen x → InNet 128 a.net a.plen x := by
  have wa := ha.wf; have wb := hb.wf
  have hsb := two_pow_pos (128 - b.plen)
  have hsa := two_pow_pos (128 - a.plen)
  have ta := wa.top; have tb := wb.top
  simp only [wa.inNet_iff, wb.inNet_iff]
  rw [incl_iff]
  unfold V6.contains at h
  simp only [V6.asDecimalNetwork_eq wa, V6.asDecimalNetwork_eq wb] at h
  by_cases h0 : a.plen = 0
  · have : a.net = 0 := by rw [h0] at ta; omega
    rw [h0, this]; omega
  · rw [if_neg h0] at h
    by_cases hp : a.plen > b.plen
    · rw [if_pos hp] at h; cases h
    · rw [if_neg hp] at h
      -- sizes as multiples: the block of b is inside the block of a or disjoint from it
      have hk : 128 - b.plen ≤ 128 - a.plen := by omega
      have hexp : (2 : Nat) ^ (128 - a.plen) = 2 ^ (128 - b.plen) * 2 ^ (b.plen - a.plen) := by
        rw [← Nat.pow_add]; congr 1; have := wb.plen_le; omega
      have key : a.net ≤ b.net ∧ b.net < a.net + 2 ^ (128 - a.plen) →
          a.net ≤ b.net ∧ b.net + (2 ^ (128 - b.plen) - 1) ≤ a.net + (2 ^ (128 - a.plen) - 1) := by
        rintro ⟨h1, h2⟩
        refine ⟨h1, ?_⟩
        have e1 := wa.aligned; have e2 := wb.aligned
        rw [hexp] at h2 e1 ⊢
        generalize 2 ^ (128 - b.plen) = s at *
        generalize 2 ^ (b.plen - a.plen) = t at *
        generalize b.net / s = y at *
        generalize a.net / (s * t) = x at *
        rw [← e1, ← e2] at h2 ⊢
        have h3 : y < (x + 1) * t := by
          have : y * s < ((x + 1) * t) * s := by
            calc y * s < x * (s * t) + s * t := h2
              _ = ((x + 1) * t) * s := by
                rw [Nat.add_mul, Nat.add_mul, Nat.one_mul, Nat.mul_assoc x t s, Nat.mul_comm t s]
          exact Nat.lt_of_mul_lt_mul_right this
        have h4 : (y + 1) * s ≤ ((x + 1) * t) * s := Nat.mul_le_mul_right s h3
        have h5 : ((x + 1) * t) * s = x * (s * t) + s * t := by
          rw [Nat.add_mul, Nat.add_mul, Nat.one_mul, Nat.mul_assoc x t s, Nat.mul_comm t s]
        rw [Nat.add_mul, Nat.one_mul, h5] at h4
        omega
      apply key
      have hle : a.net ≤ b.net ∧ b.net < a.net + 2 ^ (128 - a.plen) := by
        have ha2 : ∃ n, a.numhosts = .ok n ∧ n ≤ 2 ^ (128 - a.plen) := by
          unfold V6.numhosts
          by_cases h1 : a.plen ≤ 126
          · exact ⟨_, if_pos h1, by omega⟩
          · by_cases h2 : a.plen = 127
            · exact ⟨2, by rw [if_neg h1, if_pos h2], by rw [h2]; decide⟩
            · have h3 : a.plen = 128 := by have := wa.plen_le; omega
              exact ⟨1, by rw [if_neg h1, if_neg h2, if_pos h3], by rw [h3]; decide⟩
        have hb2 : ∃ n, b.numhosts = .ok n ∧ 1 ≤ n := by
          unfold V6.numhosts
          by_cases h1 : b.plen ≤ 126
          · have h2 : 4 ≤ 2 ^ (128 - b.plen) :=
              Nat.le_trans (by decide : 4 ≤ 2 ^ 2) (Nat.pow_le_pow_right (by decide) (by omega))
            exact ⟨_, if_pos h1, by omega⟩
          · by_cases h2 : b.plen = 127
            · exact ⟨2, by rw [if_neg h1, if_pos h2], by omega⟩
            · have h3 : b.plen = 128 := by have := wb.plen_le; omega
              exact ⟨1, by rw [if_neg h1, if_neg h2, if_pos h3], by omega⟩
        obtain ⟨n, hn, hn'⟩ := ha2
        obtain ⟨m, hm, hm'⟩ := hb2
        rw [hn, hm] at h
        simp only [bind, Except.bind, Except.ok.injEq, Bool.and_eq_true, decide_eq_true_eq] at h
        omega
      exact hle

/-- **C07 (completeness, part).** A False answer is right when the tested network is /126
or shorter, or the containing one is /127, /128 or the object's own length. -/
theorem C07_contains_complete_partial (a b : V6) (ha : a.Regular) (hb : b.Regular)
    (hlen : b.plen ≤ 126 ∨ 127 ≤ a.plen ∨ a.plen = b.plen ∨ a.plen = 0)
    (h : ∀ x, InNet 128 b.net b.plen x → InNet 128 a.net a.plen x) :
    V6.contains a b = .ok true := by
  have wa := ha.wf; have wb := hb.wf
  have hsb := two_pow_pos (128 - b.plen)
  have hsa := two_pow_pos (128 - a.plen)
  have ta := wa.top; have tb := wb.top
  have pa := wa.plen_le; have pb := wb.plen_le
  simp only [wa.inNet_iff, wb.inNet_iff] at h
  rw [incl_iff] at h
  have hple : a.plen ≤ b.plen := by
    by_cases hp : a.plen ≤ b.plen
    · exact hp
    · have hlt : 2 ^ (128 - a.plen) < 2 ^ (128 - b.plen) :=
        Nat.pow_lt_pow_right (by omega) (by omega)
      omega
  unfold V6.contains
  simp only [V6.asDecimalNetwork_eq wa, V6.asDecimalNetwork_eq wb]
  by_cases h0 : a.plen = 0
  · rw [if_pos h0]
  rw [if_neg h0, if_neg (by omega)]
  have hk : ∀ p, p ≤ 126 → 4 ≤ 2 ^ (128 - p) := fun p hp =>
    Nat.le_trans (by decide : 4 ≤ 2 ^ 2) (Nat.pow_le_pow_right (by decide) (by omega))
  have fin : ∀ n m, a.numhosts = .ok n → b.numhosts = .ok m →
      (b.net : Int) + m - 1 ≤ (a.net : Int) + n - 1 →
      (do let hs ← a.numhosts; let hv ← b.numhosts
          Except.ok (decide (a.net ≤ b.net) &&
            decide ((a.net : Int) + hs - 1 ≥ (b.net : Int) + hv - 1))) = Except.ok (ε := Err) true := by
    intro n m hn hm hle
    rw [hn, hm]
    simp only [bind, Except.bind, Except.ok.injEq, Bool.and_eq_true, decide_eq_true_eq]
    omega
  by_cases hb126 : b.plen ≤ 126
  · have ha126 : a.plen ≤ 126 := by omega
    have := hk _ hb126
    have := hk _ ha126
    exact fin _ _ (if_pos ha126) (if_pos hb126) (by omega)
  · by_cases hb127 : b.plen = 127
    · have hbn : b.numhosts = .ok 2 := by unfold V6.numhosts; rw [if_neg hb126, if_pos hb127]
      have han : a.plen = 127 := by omega
      have hano : a.numhosts = .ok 2 := by
        unfold V6.numhosts; rw [if_neg (by omega), if_pos han]
      rw [hb127, han] at h
      exact fin _ _ hano hbn (by omega)
    · have hb128 : b.plen = 128 := by omega
      have hbn : b.numhosts = .ok 1 := by
        unfold V6.numhosts; rw [if_neg hb126, if_neg hb127, if_pos hb128]
      by_cases ha127 : a.plen = 127
      · have hano : a.numhosts = .ok 2 := by
          unfold V6.numhosts; rw [if_neg (by omega), if_pos ha127]
        rw [hb128, ha127] at h
        exact fin _ _ hano hbn (by omega)
      · have ha128 : a.plen = 128 := by omega
        have hano : a.numhosts = .ok 1 := by
          unfold V6.numhosts; rw [if_neg (by omega), if_neg ha127, if_pos ha128]
        rw [hb128, ha128] at h
        exact fin _ _ hano hbn (by omega)

/-- The full statement fails: `IPv6Obj("::3/128") in IPv6Obj("::/126")` is False. -/
theorem C07_contains_fails : ∃ a b : V6, a.Regular ∧ b.Regular ∧
    (∀ x, InNet 128 b.net b.plen x → InNet 128 a.net a.plen x) ∧ V6.contains a b = .ok false := by
  have ha : (V6.make 0 126).Regular := .make (by decide) (by decide)
  have hb : (V6.make 3 128).Regular := .make (by decide) (by decide)
  refine ⟨_, _, ha, hb, ?_, by decide⟩
  intro x hx
  rw [hb.wf.inNet_iff] at hx
  rw [ha.wf.inNet_iff]
  have e1 : (V6.make 3 128).net = 3 := by decide
  have e2 : (V6.make 0 126).net = 0 := by decide
  have e3 : (V6.make 3 128).plen = 128 := rfl
  have e4 : (V6.make 0 126).plen = 126 := rfl
  rw [e1, e3] at hx
  rw [e2, e4]
  omega

example : V6.contains (V6.make 0 64) (V6.make 5 120) = .ok true := by decide

/-! ## C08 IPv6 order, arithmetic, bounds -/

theorem lt6_iff {a b : V6} (wa : a.WF) (wb : b.WF) : a.lt b = true ↔ Before6 a b := by
  unfold V6.lt Before6
  simp only [V6.asDecimal_eq wa, V6.asDecimal_eq wb, V6.asDecimalNetwork_eq wa,
    V6.asDecimalNetwork_eq wb]
  split
  · simp only [decide_eq_true_eq]; omega
  · split <;> simp only [decide_eq_true_eq] <;> omega

theorem gt6_iff {a b : V6} (wa : a.WF) (wb : b.WF) : a.gt b = true ↔ Before6 b a := by
  unfold V6.gt Before6
  simp only [V6.asDecimal_eq wa, V6.asDecimal_eq wb, V6.asDecimalNetwork_eq wa,
    V6.asDecimalNetwork_eq wb]
  split
  · simp only [decide_eq_true_eq]; omega
  · split <;> simp only [decide_eq_true_eq] <;> omega

theorem eq6_iff {a b : V6} (wa : a.WF) (wb : b.WF) :
    a.eq b = true ↔ a.ip = b.ip ∧ a.plen = b.plen := by
  simp [V6.eq, V6.asDecimal_eq wa, V6.asDecimal_eq wb]

/-- **C08 (order).** -/
theorem C08_order (a b c : V6) (ha : a.Regular) (hb : b.Regular) (hc : c.Regular) :
    (a.lt b = true ↔ Before6 a b) ∧ (a.lt b = b.gt a) ∧
    (a.lt b = true → b.lt c = true → a.lt c = true) ∧
    ((a.lt b = true ∧ a.eq b = false ∧ a.gt b = false) ∨
     (a.lt b = false ∧ a.eq b = true ∧ a.gt b = false) ∨
     (a.lt b = false ∧ a.eq b = false ∧ a.gt b = true)) := by
  have wa := ha.wf; have wb := hb.wf; have wc := hc.wf
  have ea := ha.block; have eb := hb.block
  refine ⟨lt6_iff wa wb, ?_, ?_, ?_⟩
  · rw [Bool.eq_iff_iff, lt6_iff wa wb, gt6_iff wb wa]
  · rw [lt6_iff wa wb, lt6_iff wb wc, lt6_iff wa wc]; unfold Before6; omega
  · simp only [← Bool.not_eq_true, lt6_iff wa wb, gt6_iff wa wb, eq6_iff wa wb]
    have key : a.ip = b.ip → a.plen = b.plen → a.net = b.net := by
      intro h1 h2; rw [ea, eb, h1, h2]
    unfold Before6
    by_cases h1 : a.net = b.net <;> by_cases h2 : a.plen = b.plen <;> by_cases h3 : a.ip = b.ip <;>
      simp only [h1, h2, h3, true_and, false_and, and_true, and_false, not_true, not_false_iff,
        Nat.lt_irrefl, or_false, false_or, or_true] <;>
      (try (exfalso; exact h1 (key h3 h2))) <;> omega

/-- **C08 (addition).** -/
theorem C08_add_exact (a : V6) (ha : a.Regular) (n : Int) :
    (0 ≤ (a.ip : Int) + n ∧ (a.ip : Int) + n ≤ 2 ^ 128 - 1 →
      ∃ r, a.add n = .ok r ∧ (r.ip : Int) = a.ip + n ∧ r.plen = a.plen ∧ r.Regular) ∧
    (¬ (0 ≤ (a.ip : Int) + n ∧ (a.ip : Int) + n ≤ 2 ^ 128 - 1) →
      a.add n = .error .requirement) := by
  have hd := V6.asDecimal_eq ha.wf
  have hm : (maxInt6 : Int) = 2 ^ 128 - 1 := by decide
  constructor
  · intro ⟨h0, h1⟩
    have : a.add n = .ok (V6.make ((a.ip : Int) + n).toNat a.plen) := by
      unfold V6.add
      simp only [hd, V6.ofInt]
      rw [if_neg (by omega), if_neg (by omega), if_pos (by omega)]
      rfl
    refine ⟨_, this, ?_, rfl, .add ha this⟩
    show (((a.ip : Int) + n).toNat : Int) = _
    omega
  · intro h
    unfold V6.add
    simp only [hd]
    split
    · rfl
    · split
      · rfl
      · exfalso; apply h; omega

/-- **C08 (subtraction, part).** As for IPv4, the all-ones result is rejected. -/
theorem C08_sub_exact_partial (a : V6) (ha : a.Regular) (n : Int) :
    (0 ≤ (a.ip : Int) - n ∧ (a.ip : Int) - n < 2 ^ 128 - 1 →
      ∃ r, a.sub n = .ok r ∧ (r.ip : Int) = a.ip - n ∧ r.plen = a.plen ∧ r.Regular) ∧
    (¬ (0 ≤ (a.ip : Int) - n ∧ (a.ip : Int) - n < 2 ^ 128 - 1) →
      a.sub n = .error .requirement) := by
  have hd := V6.asDecimal_eq ha.wf
  have hm : (maxInt6 : Int) = 2 ^ 128 - 1 := by decide
  constructor
  · intro ⟨h0, h1⟩
    have : a.sub n = .ok (V6.make ((a.ip : Int) - n).toNat a.plen) := by
      unfold V6.sub
      simp only [hd, V6.ofInt]
      rw [if_neg (by omega), if_neg (by omega), if_pos (by omega)]
      rfl
    refine ⟨_, this, ?_, rfl, .sub ha this⟩
    show (((a.ip : Int) - n).toNat : Int) = _
    omega
  · intro h
    unfold V6.sub
    simp only [hd]
    split
    · rfl
    · split
      · rfl
      · exfalso; apply h; omega

theorem C08_sub_fails : ∃ a : V6, a.Regular ∧ a.sub 0 = .error .requirement :=
  ⟨V6.make (2 ^ 128 - 1) 128, .make (by decide) (by decide), by decide⟩

/-- **C08 (bounds).** -/
theorem C08_network_bounds (o : V6) (ho : o.Regular) :
    o.asDecimalNetwork ≤ o.asDecimal ∧ o.asDecimal ≤ o.asDecimalNetworkMaxint ∧
    o.asDecimalNetworkMaxint < 2 ^ 128 ∧
    (∀ x, InNet 128 o.ip o.plen x ↔ o.asDecimalNetwork ≤ x ∧ x ≤ o.asDecimalNetworkMaxint) := by
  have w := ho.wf
  have hpos := two_pow_pos (128 - o.plen)
  have hb := ho.block
  have htop := w.top
  have hin := (block_iff (128 - o.plen) o.ip o.ip).1 rfl
  rw [← hb] at hin
  simp only [V6.asDecimalNetworkMaxint, V6.asDecimal_eq w, V6.asDecimalNetwork_eq w]
  refine ⟨hin.1, hin.2, by omega, ?_⟩
  intro x
  unfold InNet
  rw [block_iff, ← hb]
  constructor
  · exact fun h => h.2
  · exact fun h => ⟨by omega, h⟩

example : (V6.make 0x20010db8000000000000000000000005 64).add 7 =
    .ok (V6.make 0x20010db800000000000000000000000c 64) ∧
    (V6.make 0x20010db8000000000000000000000005 64).lt (V6.make 0x20010db8000000000000000000000006 64)
      = true := by decide

end IP

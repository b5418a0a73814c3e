import Verif.IP.CollapseSpec
import Verif.IP.ViewsLemmas
import Verif.PyLemmas

/-!
# Lemmas about `collapse_addresses`
-/

namespace IP

open Py

/-! ## Blocks -/

theorem has_iff {W : Nat} {n : Net} (h : Block W n) (a : Nat) :
    Has W n a ↔ a / 2 ^ (W - n.plen) = n.net / 2 ^ (W - n.plen) := by
  have hpos := two_pow_pos (W - n.plen)
  obtain ⟨q, hq⟩ := h.2.2
  rw [Has, hq, Nat.mul_div_cancel_left _ hpos, Nat.div_eq_iff hpos]
  rw [Nat.mul_comm]
  omega

theorem Block.has_self {W : Nat} {n : Net} : Has W n n.net :=
  ⟨Nat.le_refl _, by have := two_pow_pos (W - n.plen); omega⟩

theorem Block.top {W : Nat} {n : Net} (h : Block W n) : n.net + 2 ^ (W - n.plen) ≤ 2 ^ W := by
  have := block_le W (W - n.plen) n.net (by omega) h.2.1
  rwa [Nat.div_mul_cancel h.2.2] at this

theorem Block.last {W : Nat} {n : Net} (h : Block W n) :
    lastOf W n.net n.plen + 1 = n.net + 2 ^ (W - n.plen) := by
  have := two_pow_pos (W - n.plen)
  rw [lastOf_eq W n.net n.plen h.1 (Nat.div_mul_cancel h.2.2)]
  omega

theorem nested {W : Nat} {n m : Net} (hn : Block W n) (hm : Block W m) {a : Nat}
    (h1 : Has W n a) (h2 : Has W m a) (h : m.plen ≤ n.plen) : Within W n m := by
  intro x hx
  rw [has_iff hn] at h1 hx
  rw [has_iff hm] at h2 ⊢
  have e : 2 ^ (W - m.plen) = 2 ^ (W - n.plen) * 2 ^ (n.plen - m.plen) := by
    rw [← Nat.pow_add]; congr 1; have := hn.1; omega
  rw [e, ← Nat.div_div_eq_div_mul] at h2 ⊢
  rw [hx, ← h1, h2, ← Nat.div_div_eq_div_mul]

theorem within_plen {W : Nat} {n m : Net} (hn : Block W n) (hm : Block W m)
    (h : Within W n m) : m.plen ≤ n.plen := by
  have hpos := two_pow_pos (W - n.plen)
  have h1 := h n.net Block.has_self
  have h2 := h (n.net + 2 ^ (W - n.plen) - 1) ⟨by omega, by omega⟩
  have : 2 ^ (W - n.plen) ≤ 2 ^ (W - m.plen) := by
    have := h1.1; have := h2.2; omega
  have := (Nat.pow_le_pow_iff_right (by omega : 1 < 2)).mp this
  have := hn.1; have := hm.1
  omega

theorem within_antisymm {W : Nat} {n m : Net} (hn : Block W n) (hm : Block W m)
    (h1 : Within W n m) (h2 : Within W m n) : n = m := by
  have e : n.plen = m.plen := Nat.le_antisymm (within_plen hm hn h2) (within_plen hn hm h1)
  have a := (h1 n.net Block.has_self).1
  have b := (h2 m.net Block.has_self).1
  obtain ⟨a1, a2⟩ := n
  obtain ⟨b1, b2⟩ := m
  simp only [Net.mk.injEq] at *
  exact ⟨by omega, e⟩

theorem Within.trans {W : Nat} {a b c : Net} (h1 : Within W a b) (h2 : Within W b c) : Within W a c :=
  fun x hx => h2 x (h1 x hx)

theorem Within.refl {W : Nat} (a : Net) : Within W a a := fun _ h => h

/-! ## Supernets -/

theorem superOf_net {W : Nat} {n : Net} (h : Block W n) (hp : n.plen ≠ 0) :
    superOf W n = ⟨n.net / 2 ^ (W - (n.plen - 1)) * 2 ^ (W - (n.plen - 1)), n.plen - 1⟩ := by
  have hle := h.1
  rw [superOf, if_neg hp]
  congr 1
  rw [← networkOf_eq W n.net (n.plen - 1) (by omega) h.2.1, networkOf]
  apply Nat.eq_of_testBit_eq
  intro i
  rw [Nat.testBit_and, Nat.testBit_and, Nat.testBit_shiftLeft, testBit_maskOf W n.plen _ hle,
    testBit_maskOf W (n.plen - 1) _ (by omega)]
  cases hb : n.net.testBit i with
  | false => simp
  | true =>
    have hi : i < W := by
      rcases Nat.lt_or_ge i W with hi | hi
      · exact hi
      · have : n.net.testBit i = false :=
          Nat.testBit_lt_two_pow (Nat.lt_of_lt_of_le h.2.1 (Nat.pow_le_pow_right (by omega) hi))
        rw [this] at hb; cases hb
    rw [Bool.true_and, Bool.true_and, Bool.eq_iff_iff]
    simp only [Bool.and_eq_true, decide_eq_true_eq]
    omega

theorem superOf_block {W : Nat} {n : Net} (h : Block W n) : Block W (superOf W n) := by
  by_cases hp : n.plen = 0
  · rw [superOf, if_pos hp]; exact h
  · rw [superOf_net h hp]
    have := h.1
    refine ⟨by simp only; omega, ?_, Nat.dvd_mul_left _ _⟩
    exact Nat.lt_of_le_of_lt (Nat.div_mul_le_self _ _) h.2.1

theorem superOf_within {W : Nat} {n : Net} (h : Block W n) : Within W n (superOf W n) := by
  by_cases hp : n.plen = 0
  · rw [superOf, if_pos hp]; exact Within.refl n
  · have hb := superOf_block h
    have hw : Has W (superOf W n) n.net := by
      rw [superOf_net h hp]
      have hpos := two_pow_pos (W - (n.plen - 1))
      have := Nat.div_add_mod n.net (2 ^ (W - (n.plen - 1)))
      have hm := Nat.mod_lt n.net hpos
      rw [Nat.mul_comm] at this
      exact ⟨Nat.div_mul_le_self _ _, by simp only; omega⟩
    refine nested h hb Block.has_self hw ?_
    rw [superOf_net h hp]; simp only; omega

theorem superOf_split {W : Nat} {a b : Net} (ha : Block W a) (hb : Block W b)
    (e : superOf W a = superOf W b) (hne : a ≠ b) {x : Nat} (hx : Has W (superOf W a) x) :
    Has W a x ∨ Has W b x := by
  by_cases hp : a.plen = 0
  · rw [superOf, if_pos hp] at hx; exact .inl hx
  by_cases hq : b.plen = 0
  · rw [e, superOf, if_pos hq] at hx; exact .inr hx
  have hsb := superOf_block ha
  rw [has_iff hsb] at hx
  rw [has_iff ha, has_iff hb]
  rw [superOf_net ha hp, superOf_net hb hq] at e
  rw [superOf_net ha hp] at hx
  simp only [Net.mk.injEq] at e hx
  obtain ⟨e1, e2⟩ := e
  have ep : b.plen = a.plen := by omega
  have hle := ha.1
  rw [ep] at e1 ⊢
  have ek : W - (a.plen - 1) = (W - a.plen) + 1 := by omega
  rw [ek] at e1 hx
  have hpos := two_pow_pos (W - a.plen)
  have hpos2 := two_pow_pos (W - a.plen + 1)
  have e3 := Nat.eq_of_mul_eq_mul_right hpos2 e1
  rw [Nat.mul_div_cancel _ hpos2] at hx
  rw [Nat.pow_succ, ← Nat.div_div_eq_div_mul, ← Nat.div_div_eq_div_mul] at e3 hx
  have hne' : a.net / 2 ^ (W - a.plen) ≠ b.net / 2 ^ (W - a.plen) := by
    intro h
    apply hne
    have h2 := hb.2.2
    rw [ep] at h2
    have : a.net = b.net := by
      rw [← Nat.div_mul_cancel ha.2.2, h, Nat.div_mul_cancel h2]
    obtain ⟨a1, a2⟩ := a
    obtain ⟨b1, b2⟩ := b
    simp only [Net.mk.injEq] at *
    exact ⟨this, ep.symm⟩
  omega

/-- A block that is not a single address is made of two blocks below it. -/
theorem halves {W : Nat} {n : Net} (h : Block W n) (hp : n.plen < W) :
    ∃ l r, Block W l ∧ Block W r ∧ l ≠ r ∧ l.plen = n.plen + 1 ∧ r.plen = n.plen + 1 ∧
      superOf W l = n ∧ superOf W r = n := by
  obtain ⟨q, hq⟩ := h.2.2
  have ek : W - n.plen = (W - (n.plen + 1)) + 1 := by omega
  have hpos := two_pow_pos (W - (n.plen + 1))
  have htop := h.top
  have hs : ∀ i, i < 2 → ∃ l, Block W l ∧ l.plen = n.plen + 1 ∧ l.net = n.net + i * 2 ^ (W - (n.plen + 1)) ∧
      superOf W l = n := by
    intro i hi
    have hb : Block W ⟨n.net + i * 2 ^ (W - (n.plen + 1)), n.plen + 1⟩ := by
      refine ⟨hp, ?_, ?_⟩
      · rw [ek, Nat.pow_succ] at htop
        simp only
        have : i * 2 ^ (W - (n.plen + 1)) ≤ 1 * 2 ^ (W - (n.plen + 1)) := Nat.mul_le_mul_right _ (by omega)
        omega
      · simp only
        rw [hq, ek, Nat.pow_succ]
        exact Nat.dvd_add (Nat.dvd_mul_right_of_dvd (Nat.dvd_mul_right _ _) _) (Nat.dvd_mul_left _ _)
    refine ⟨_, hb, rfl, rfl, ?_⟩
    rw [superOf_net hb (by simp)]
    simp only [Nat.add_sub_cancel]
    have : n.net + i * 2 ^ (W - (n.plen + 1)) = i * 2 ^ (W - (n.plen + 1)) + 2 ^ (W - n.plen) * q := by omega
    rw [this, Nat.add_mul_div_left _ _ (two_pow_pos _), Nat.div_eq_of_lt, Nat.zero_add, Nat.mul_comm, ← hq]
    rw [ek, Nat.pow_succ, Nat.mul_comm i]
    exact Nat.mul_lt_mul_of_pos_left hi hpos
  obtain ⟨l, l1, l2, l3, l4⟩ := hs 0 (by omega)
  obtain ⟨r, r1, r2, r3, r4⟩ := hs 1 (by omega)
  refine ⟨l, r, l1, r1, ?_, l2, r2, l4, r4⟩
  intro he
  rw [he] at l3
  omega

/-! ## The merging loop -/

/-- What the dictionary of the merging loop satisfies. -/
structure Dict (W : Nat) (d : List (Net × Net)) : Prop where
  key : ∀ e ∈ d, e.1 = superOf W e.2
  block : ∀ e ∈ d, Block W e.2
  uniq : d.Pairwise (fun x y => x.1 ≠ y.1)

theorem uniq_key {d : List (Net × Net)} (h : d.Pairwise (fun x y => x.1 ≠ y.1)) :
    ∀ {e f}, e ∈ d → f ∈ d → e.1 = f.1 → e = f := by
  induction d with
  | nil => intro e f he; simp at he
  | cons x d ih =>
    intro e f he hf hk
    rw [List.pairwise_cons] at h
    rcases List.mem_cons.mp he with h1 | h1 <;> rcases List.mem_cons.mp hf with h2 | h2
    · rw [h1, h2]
    · subst h1; exact absurd hk (h.1 f h2)
    · subst h2; exact absurd hk.symm (h.1 e h1)
    · exact ih h.2 h1 h2 hk

theorem dictGet_some {d : List (Net × Net)} {k e : Net} (h : dictGet d k = some e) : (k, e) ∈ d := by
  rw [dictGet, Option.map_eq_some_iff] at h
  obtain ⟨⟨a, b⟩, h1, rfl⟩ := h
  have h2 := List.find?_some h1
  simp only [decide_eq_true_eq] at h2
  subst h2
  exact List.mem_of_find?_eq_some h1

theorem dictGet_none {d : List (Net × Net)} {k : Net} (h : dictGet d k = none) : ∀ e ∈ d, e.1 ≠ k := by
  rw [dictGet, Option.map_eq_none_iff, List.find?_eq_none] at h
  intro e he
  simpa using h e he

theorem mergeLoop_spec {W : Nat} : ∀ (fuel : Nat) (st : List Net) (d : List (Net × Net)),
    2 * st.length + d.length ≤ fuel → (∀ n ∈ st, Block W n) → Dict W d →
    Dict W (mergeLoop W fuel st d) ∧
      ∀ a, Covered W ((mergeLoop W fuel st d).map (·.2)) a ↔ Covered W (st ++ d.map (·.2)) a
  | 0, st, d, hf, _, hd => by
    have : st = [] := List.eq_nil_of_length_eq_zero (by omega)
    subst this
    exact ⟨hd, fun a => by simp [mergeLoop]⟩
  | fuel + 1, [], d, _, _, hd => ⟨hd, fun a => by simp [mergeLoop]⟩
  | fuel + 1, n :: st, d, hf, hb, hd => by
    have hn : Block W n := hb n (by simp)
    have hst : ∀ m ∈ st, Block W m := fun m hm => hb m (by simp [hm])
    rw [List.length_cons] at hf
    rw [mergeLoop]
    cases hg : dictGet d (superOf W n) with
    | none =>
      have hk := dictGet_none hg
      have hd' : Dict W (d ++ [(superOf W n, n)]) := by
        refine ⟨?_, ?_, ?_⟩
        · intro e he
          rcases List.mem_append.mp he with he | he
          · exact hd.key e he
          · simp only [List.mem_singleton] at he; subst he; rfl
        · intro e he
          rcases List.mem_append.mp he with he | he
          · exact hd.block e he
          · simp only [List.mem_singleton] at he; subst he; exact hn
        · rw [List.pairwise_append]
          refine ⟨hd.uniq, by simp, ?_⟩
          intro x hx y hy
          simp only [List.mem_singleton] at hy; subst hy
          exact hk x hx
      obtain ⟨r1, r2⟩ := mergeLoop_spec fuel st _ (by simp; omega) hst hd'
      refine ⟨r1, fun a => ?_⟩
      rw [r2 a]
      simp only [Covered, List.map_append, List.mem_append, List.map_cons, List.map_nil, List.mem_cons,
        List.not_mem_nil, or_false]
      constructor
      · rintro ⟨m, h1 | h1 | rfl, h2⟩
        · exact ⟨m, .inl (.inr h1), h2⟩
        · exact ⟨m, .inr h1, h2⟩
        · exact ⟨m, .inl (.inl rfl), h2⟩
      · rintro ⟨m, (rfl | h1) | h1, h2⟩
        · exact ⟨m, .inr (.inr rfl), h2⟩
        · exact ⟨m, .inl h1, h2⟩
        · exact ⟨m, .inr (.inl h1), h2⟩
    | some e =>
      have hm := dictGet_some hg
      simp only
      by_cases hne : e = n
      · rw [if_neg (by simpa using hne)]
        obtain ⟨r1, r2⟩ := mergeLoop_spec fuel st d (by omega) hst hd
        refine ⟨r1, fun a => ?_⟩
        rw [r2 a]
        simp only [Covered, List.mem_append, List.mem_cons, List.mem_map]
        constructor
        · rintro ⟨m, h1 | h1, h2⟩
          · exact ⟨m, .inl (.inr h1), h2⟩
          · exact ⟨m, .inr h1, h2⟩
        · rintro ⟨m, (rfl | h1) | h1, h2⟩
          · exact ⟨m, .inr ⟨_, hm, hne⟩, h2⟩
          · exact ⟨m, .inl h1, h2⟩
          · exact ⟨m, .inr h1, h2⟩
      · rw [if_pos (by simpa using hne)]
        have hlen : (d.filter (fun x => x.1 ≠ superOf W n)).length < d.length := by
          apply List.length_filter_lt_length_iff_exists.mpr
          exact ⟨_, hm, by simp⟩
        have hd' : Dict W (d.filter (fun x => x.1 ≠ superOf W n)) :=
          ⟨fun e he => hd.key e (List.mem_filter.mp he).1, fun e he => hd.block e (List.mem_filter.mp he).1,
            hd.uniq.sublist List.filter_sublist⟩
        obtain ⟨r1, r2⟩ := mergeLoop_spec fuel (superOf W n :: st) _
          (by rw [List.length_cons]; omega)
          (by
            intro m hm
            rcases List.mem_cons.mp hm with rfl | hm
            · exact superOf_block hn
            · exact hst m hm) hd'
        refine ⟨r1, fun a => ?_⟩
        rw [r2 a]
        have hke := hd.key _ hm
        have hbe := hd.block _ hm
        simp only at hke hbe
        have hsplit : Has W (superOf W n) a ↔ Has W n a ∨ Has W e a :=
          ⟨fun h => superOf_split hn hbe hke (fun h' => hne h'.symm) h,
            fun h => h.elim (superOf_within hn a) (fun h => by rw [hke]; exact superOf_within hbe a h)⟩
        have huniq : ∀ x ∈ d, x.1 = superOf W n → x.2 = e := by
          intro x hx he
          rw [uniq_key hd.uniq hx hm he]
        simp only [Covered, List.mem_append, List.mem_cons, List.mem_map, List.mem_filter, ne_eq,
          decide_eq_true_eq]
        constructor
        · rintro ⟨m, (rfl | h1) | ⟨x, ⟨hx, _⟩, rfl⟩, h2⟩
          · rcases hsplit.mp h2 with h2 | h2
            · exact ⟨n, .inl (.inl rfl), h2⟩
            · exact ⟨e, .inr ⟨_, hm, rfl⟩, h2⟩
          · exact ⟨m, .inl (.inr h1), h2⟩
          · exact ⟨_, .inr ⟨x, hx, rfl⟩, h2⟩
        · rintro ⟨m, (rfl | h1) | ⟨x, hx, rfl⟩, h2⟩
          · exact ⟨_, .inl (.inl rfl), hsplit.mpr (.inl h2)⟩
          · exact ⟨m, .inl (.inr h1), h2⟩
          · by_cases hxk : x.1 = superOf W n
            · rw [huniq x hx hxk] at h2
              exact ⟨_, .inl (.inl rfl), hsplit.mpr (.inr h2)⟩
            · exact ⟨_, .inr ⟨x, ⟨hx, by simpa using hxk⟩, rfl⟩, h2⟩

/-- A covered block lies in one value of the dictionary. -/
theorem absorb {W : Nat} {V : List Net} (hV : ∀ v ∈ V, Block W v)
    (inj : ∀ v ∈ V, ∀ w ∈ V, superOf W v = superOf W w → v = w) :
    ∀ (k : Nat) (n : Net), Block W n → W - n.plen = k → (∀ a, Has W n a → Covered W V a) →
      ∃ v ∈ V, Within W n v
  | 0, n, hn, hk, hc => by
    obtain ⟨v, hv, ha⟩ := hc n.net Block.has_self
    refine ⟨v, hv, nested hn (hV v hv) Block.has_self ha ?_⟩
    have := (hV v hv).1
    omega
  | k + 1, n, hn, hk, hc => by
    obtain ⟨l, r, hl, hr, hne, lp, rp, ls, rs⟩ := halves hn (by omega)
    have hln : Within W l n := by have := superOf_within hl; rwa [ls] at this
    have hrn : Within W r n := by have := superOf_within hr; rwa [rs] at this
    obtain ⟨v, hv, h1⟩ := absorb hV inj k l hl (by omega) (fun a ha => hc a (hln a ha))
    obtain ⟨w, hw, h2⟩ := absorb hV inj k r hr (by omega) (fun a ha => hc a (hrn a ha))
    have up : ∀ (x h : Net), x ∈ V → Block W h → Within W h n → Within W h x → h.plen = n.plen + 1 →
        Within W n x ∨ h = x := by
      intro x h hx hh hhn hhx hp
      have hle := within_plen hh (hV x hx) hhx
      rcases Nat.lt_or_ge n.plen x.plen with hlt | hge
      · refine .inr (within_antisymm hh (hV x hx) hhx ?_)
        exact nested (hV x hx) hh (hhx h.net Block.has_self) Block.has_self (by omega)
      · exact .inl (nested hn (hV x hx) (hhn h.net Block.has_self) (hhx h.net Block.has_self) hge)
    rcases up v l hv hl hln h1 lp with h | h
    · exact ⟨v, hv, h⟩
    rcases up w r hw hr hrn h2 rp with h' | h'
    · exact ⟨w, hw, h'⟩
    subst h; subst h'
    exact absurd (inj l hv r hw (by rw [ls, rs])) hne

/-! ## Sorting and dropping -/

theorem netLe_iff {W : Nat} {a b : Net} (ha : Block W a) (hb : Block W b) :
    netLe W a b = true ↔ a.net < b.net ∨ (a.net = b.net ∧ a.plen ≤ b.plen) := by
  rw [netLe]
  split
  · rename_i h
    simp only [decide_eq_true_eq]
    constructor
    · exact .inl
    · rintro (h' | ⟨h', _⟩)
      · exact h'
      · exact absurd h' h
  · rename_i h
    simp only [ne_eq, Decidable.not_not] at h
    rw [decide_eq_true_eq, maskOf_eq W _ ha.1, maskOf_eq W _ hb.1, h]
    have h1 : 2 ^ (W - a.plen) ≤ 2 ^ W := Nat.pow_le_pow_right (by omega) (by omega)
    have h2 : 2 ^ (W - b.plen) ≤ 2 ^ W := Nat.pow_le_pow_right (by omega) (by omega)
    have h3 : 2 ^ W - 2 ^ (W - a.plen) ≤ 2 ^ W - 2 ^ (W - b.plen) ↔ 2 ^ (W - b.plen) ≤ 2 ^ (W - a.plen) := by
      omega
    rw [h3, Nat.pow_le_pow_iff_right (by omega : 1 < 2)]
    have := ha.1; have := hb.1
    omega

/-- `a` ends before `b` starts. -/
def EndsBefore (W : Nat) (a b : Net) : Prop := a.net + 2 ^ (W - a.plen) ≤ b.net

theorem dropSubsumed_spec {W : Nat} : ∀ (l : List Net) (p : Net), Block W p → (∀ n ∈ l, Block W n) →
    (p :: l).Pairwise (fun x y => netLe W x y = true) →
    (∀ n ∈ dropSubsumed W (some p) l, n ∈ l) ∧
    (∀ n ∈ l, ∃ m ∈ p :: dropSubsumed W (some p) l, Within W n m) ∧
    (p :: dropSubsumed W (some p) l).Pairwise (EndsBefore W)
  | [], p, _, _, _ => by simp [dropSubsumed]
  | n :: l, p, hp, hl, hs => by
    have hn := hl n (by simp)
    have hl' : ∀ m ∈ l, Block W m := fun m hm => hl m (by simp [hm])
    rw [List.pairwise_cons] at hs
    obtain ⟨hs1, hs2⟩ := hs
    have hle := (netLe_iff hp hn).mp (hs1 n (by simp))
    have lp := hp.last
    have ln := hn.last
    rw [dropSubsumed]
    split
    · rename_i h
      have hpl : (p :: l).Pairwise (fun x y => netLe W x y = true) := by
        rw [List.pairwise_cons]
        exact ⟨fun m hm => hs1 m (by simp [hm]), (List.pairwise_cons.mp hs2).2⟩
      obtain ⟨r1, r2, r3⟩ := dropSubsumed_spec l p hp hl' hpl
      refine ⟨fun m hm => by simp [r1 m hm], ?_, r3⟩
      intro m hm
      rcases List.mem_cons.mp hm with rfl | hm
      · refine ⟨p, by simp, fun a ha => ?_⟩
        have := ha.1; have := ha.2
        exact ⟨by omega, by omega⟩
      · exact r2 m hm
    · rename_i h
      have hend : EndsBefore W p n := by
        rcases Nat.lt_or_ge n.net (p.net + 2 ^ (W - p.plen)) with hlt | hge
        · exfalso
          have h1 : Has W p n.net := ⟨by omega, hlt⟩
          rcases Nat.le_total p.plen n.plen with hpl | hpl
          · have hw := nested hn hp Block.has_self h1 hpl
            have hpos := two_pow_pos (W - n.plen)
            have := (hw (n.net + 2 ^ (W - n.plen) - 1) ⟨by omega, by omega⟩).2
            omega
          · have hw := nested hp hn h1 Block.has_self hpl
            have := (hw p.net Block.has_self).1
            have e1 : p.net = n.net := by omega
            have e2 : p.plen = n.plen := by omega
            rw [e1, e2] at lp
            rw [e1, e2] at h
            omega
        · exact hge
      obtain ⟨r1, r2, r3⟩ := dropSubsumed_spec l n hn hl' hs2
      refine ⟨?_, ?_, ?_⟩
      · intro m hm
        rcases List.mem_cons.mp hm with rfl | hm
        · simp
        · simp [r1 m hm]
      · intro m hm
        rcases List.mem_cons.mp hm with rfl | hm
        · exact ⟨m, by simp, Within.refl m⟩
        · obtain ⟨x, hx, hw⟩ := r2 m hm
          exact ⟨x, List.mem_cons_of_mem _ hx, hw⟩
      · rw [List.pairwise_cons]
        refine ⟨?_, r3⟩
        intro m hm
        rcases List.mem_cons.mp hm with rfl | hm
        · exact hend
        · have := (List.pairwise_cons.mp r3).1 m hm
          rw [EndsBefore] at *
          have := two_pow_pos (W - n.plen)
          omega

/-- The result for a list of blocks. -/
theorem collapseNets_spec {W : Nat} {l : List Net} (hl : ∀ n ∈ l, Block W n) :
    (∀ n ∈ collapseNets W l, Block W n) ∧
    (∀ a, Covered W (collapseNets W l) a ↔ Covered W l a) ∧
    (collapseNets W l).Pairwise (EndsBefore W) ∧
    (∀ n, Block W n → (∀ a, Has W n a → Covered W l a) → ∃ m ∈ collapseNets W l, Within W n m) := by
  obtain ⟨hd, hc⟩ := mergeLoop_spec (W := W) (2 * l.length) l.reverse [] (by simp)
    (fun n hn => hl n (by simpa using hn)) ⟨by simp, by simp, by simp⟩
  have hrw : collapseNets W l = dropSubsumed W none
      (sortBy (netLe W) ((mergeLoop W (2 * l.length) l.reverse []).map (·.2))) := rfl
  rw [hrw]
  generalize hD : mergeLoop W (2 * l.length) l.reverse [] = D at *
  have hcV : ∀ a, Covered W (D.map (·.2)) a ↔ Covered W l a := by
    intro a; rw [hc a]; simp [Covered]
  have hVb : ∀ v ∈ D.map (·.2), Block W v := by
    intro v hv
    obtain ⟨e, he, rfl⟩ := List.mem_map.mp hv
    exact hd.block e he
  have inj : ∀ v ∈ D.map (·.2), ∀ w ∈ D.map (·.2), superOf W v = superOf W w → v = w := by
    intro v hv w hw h
    obtain ⟨e, he, rfl⟩ := List.mem_map.mp hv
    obtain ⟨f, hf, rfl⟩ := List.mem_map.mp hw
    rw [← hd.key e he, ← hd.key f hf] at h
    rw [uniq_key hd.uniq he hf h]
  have hsort : (sortBy (netLe W) (D.map (·.2))).Pairwise (fun x y => netLe W x y = true) := by
    have tot : ∀ a b, netLe W a b = true ∨ netLe W b a = true := by
      intro a b
      rw [netLe, netLe]
      by_cases h : a.net = b.net
      · simp only [h, ne_eq, not_true, if_false, decide_eq_true_eq]; omega
      · have h' : b.net ≠ a.net := fun e => h e.symm
        simp only [ne_eq, h, not_false_eq_true, if_true, h', decide_eq_true_eq]; omega
    have tr : ∀ a b c, netLe W a b = true → netLe W b c = true → netLe W a c = true := by
      intro a b c
      have key : ∀ a b, netLe W a b = true ↔
          a.net < b.net ∨ (a.net = b.net ∧ maskOf W a.plen ≤ maskOf W b.plen) := by
        intro a b
        rw [netLe]
        by_cases h : a.net = b.net
        · simp [h]
        · simp [h]
      rw [key, key, key]
      omega
    exact sortBy_sorted tot tr _
  have hmem : ∀ n, n ∈ sortBy (netLe W) (D.map (·.2)) ↔ n ∈ D.map (·.2) := fun n => mem_sortBy
  have hfin : ∀ S : List Net, (∀ n, n ∈ S ↔ n ∈ D.map (·.2)) →
      S.Pairwise (fun x y => netLe W x y = true) →
      (∀ n ∈ dropSubsumed W none S, n ∈ D.map (·.2)) ∧
      (∀ n ∈ D.map (·.2), ∃ m ∈ dropSubsumed W none S, Within W n m) ∧
      (dropSubsumed W none S).Pairwise (EndsBefore W) := by
    intro S hS hp
    cases S with
    | nil =>
      refine ⟨by simp [dropSubsumed], ?_, by simp [dropSubsumed]⟩
      intro n hn
      have := (hS n).mpr hn
      simp at this
    | cons p S =>
      rw [dropSubsumed]
      obtain ⟨r1, r2, r3⟩ := dropSubsumed_spec S p (hVb p ((hS p).mp (by simp)))
        (fun n hn => hVb n ((hS n).mp (by simp [hn]))) hp
      refine ⟨?_, ?_, r3⟩
      · intro n hn
        rcases List.mem_cons.mp hn with rfl | hn
        · exact (hS _).mp (by simp)
        · exact (hS n).mp (by simp [r1 n hn])
      · intro n hn
        rcases List.mem_cons.mp ((hS n).mpr hn) with rfl | hn
        · exact ⟨_, by simp, Within.refl _⟩
        · exact r2 n hn
  obtain ⟨r1, r2, r3⟩ := hfin _ hmem hsort
  refine ⟨fun n hn => hVb n (r1 n hn), ?_, r3, ?_⟩
  · intro a
    rw [← hcV a]
    constructor
    · rintro ⟨n, hn, h⟩
      exact ⟨n, r1 n hn, h⟩
    · rintro ⟨n, hn, h⟩
      obtain ⟨m, hm, hw⟩ := r2 n hn
      exact ⟨m, hm, hw a h⟩
  · intro n hn hcov
    obtain ⟨v, hv, hw⟩ := absorb hVb inj _ n hn rfl (fun a ha => (hcV a).mpr (hcov a ha))
    obtain ⟨m, hm, hw'⟩ := r2 v hv
    exact ⟨m, hm, hw.trans hw'⟩

/-! ## Host addresses -/

theorem pow_bitLength {n : Nat} (h : 0 < n) : 2 ^ (bitLength n - 1) ≤ n := by
  rw [bitLength, if_neg (by omega), Nat.add_sub_cancel]
  exact Nat.log2_self_le (by omega)

theorem summarize_spec {W : Nat} : ∀ (fuel first last : Nat), last + 1 - first ≤ fuel → last < 2 ^ W →
    (∀ n ∈ summarize W fuel first last, Block W n) ∧
    ∀ a, Covered W (summarize W fuel first last) a ↔ first ≤ a ∧ a ≤ last
  | 0, first, last, hf, _ => by
    refine ⟨by simp [summarize], fun a => ?_⟩
    simp only [summarize, Covered, List.not_mem_nil, false_and, exists_false, false_iff]
    omega
  | fuel + 1, first, last, hf, hW => by
    rw [summarize]
    by_cases hle : first ≤ last
    · rw [if_pos hle]
      simp only
      generalize hk : min (rightZeros W first) (bitLength (last - first + 1) - 1) = k
      have hkW : k ≤ W := by have := rightZeros_le W first; omega
      have hdvd : 2 ^ k ∣ first := by
        have h1 : 2 ^ k ∣ 2 ^ rightZeros W first := Nat.pow_dvd_pow 2 (by omega)
        have h2 : 2 ^ rightZeros W first ∣ first := ⟨first / 2 ^ rightZeros W first, by
          rw [Nat.mul_comm]; exact (rightZeros_dvd W first).symm⟩
        exact Nat.dvd_trans h1 h2
      have hsz : 2 ^ k ≤ last - first + 1 := by
        have h1 := pow_bitLength (n := last - first + 1) (by omega)
        exact Nat.le_trans (Nat.pow_le_pow_right (by omega) (by omega)) h1
      have hpos := two_pow_pos k
      have hsub : W - (W - k) = k := by omega
      have hb : Block W ⟨first, W - k⟩ := ⟨by simp only; omega, by simp only; omega, by simpa only [hsub] using hdvd⟩
      rw [Nat.one_shiftLeft]
      by_cases hend : first + 2 ^ k - 1 = 2 ^ W - 1
      · rw [if_pos hend]
        refine ⟨by intro n hn; simp only [List.mem_singleton] at hn; subst hn; exact hb, fun a => ?_⟩
        simp only [Covered, List.mem_singleton, exists_eq_left, Has, hsub]
        omega
      · rw [if_neg hend]
        obtain ⟨r1, r2⟩ := summarize_spec (W := W) fuel (first + 2 ^ k) last (by omega) hW
        refine ⟨?_, fun a => ?_⟩
        · intro n hn
          rcases List.mem_cons.mp hn with rfl | hn
          · exact hb
          · exact r1 n hn
        · have : Covered W (⟨first, W - k⟩ :: summarize W fuel (first + 2 ^ k) last) a ↔
              Has W ⟨first, W - k⟩ a ∨ Covered W (summarize W fuel (first + 2 ^ k) last) a := by
            simp [Covered]
          rw [this, r2 a]
          simp only [Has, hsub]
          omega
    · rw [if_neg hle]
      refine ⟨by simp, fun a => ?_⟩
      simp only [Covered, List.not_mem_nil, false_and, exists_false, false_iff]
      omega

theorem addrRanges_spec : ∀ (l : List Nat) (first last : Nat), first ≤ last →
    (∀ a, (∃ r ∈ addrRanges first last l, r.1 ≤ a ∧ a ≤ r.2) ↔ (first ≤ a ∧ a ≤ last) ∨ a ∈ l) ∧
    (∀ r ∈ addrRanges first last l, r.2 = last ∨ r.2 ∈ l)
  | [], first, last, h => by simp [addrRanges]
  | ip :: l, first, last, h => by
    rw [addrRanges]
    split
    · obtain ⟨r1, r2⟩ := addrRanges_spec l ip ip (Nat.le_refl _)
      refine ⟨fun a => ?_, ?_⟩
      · simp only [List.mem_cons, exists_eq_or_imp, r1 a]
        constructor
        · rintro (h | h | h)
          · exact .inl h
          · exact .inr (.inl (by omega))
          · exact .inr (.inr h)
        · rintro (h | h | h)
          · exact .inl h
          · exact .inr (.inl (by omega))
          · exact .inr (.inr h)
      · intro r hr
        rcases List.mem_cons.mp hr with rfl | hr
        · exact .inl rfl
        · rcases r2 r hr with h | h
          · exact .inr (by simp [h])
          · exact .inr (by simp [h])
    · rename_i hip
      simp only [ne_eq, Decidable.not_not] at hip
      obtain ⟨r1, r2⟩ := addrRanges_spec l first ip (by omega)
      refine ⟨fun a => ?_, ?_⟩
      · rw [r1 a, List.mem_cons]
        constructor
        · rintro (h | h)
          · by_cases ha : a = ip
            · exact .inr (.inl ha)
            · exact .inl (by omega)
          · exact .inr (.inr h)
        · rintro (h | h | h)
          · exact .inl (by omega)
          · exact .inl (by omega)
          · exact .inr h
      · intro r hr
        rcases r2 r hr with h | h
        · exact .inr (by simp [h])
        · exact .inr (by simp [h])

theorem collapseSplit_spec {W : Nat} {ips nets : List Net} (hi : ∀ n ∈ ips, Block W n ∧ n.plen = W)
    (hn : ∀ n ∈ nets, Block W n) :
    ∃ l, collapseSplit W ips nets = collapseNets W l ∧ (∀ n ∈ l, Block W n) ∧
      ∀ a, Covered W l a ↔ Covered W (ips ++ nets) a := by
  generalize hA : sortBy (fun a b => decide (a ≤ b)) (dedupBy (fun a b => decide (a = b)) (ips.map (·.net))) = A
  have hmem : ∀ a, a ∈ A ↔ ∃ n ∈ ips, n.net = a := by
    intro a
    rw [← hA, mem_sortBy, mem_dedupBy_of_eq (by simp), List.mem_map]
  have hips : ∀ a, a ∈ A ↔ Covered W ips a := by
    intro a
    rw [hmem a]
    constructor
    · rintro ⟨n, hn, rfl⟩
      exact ⟨n, hn, Block.has_self⟩
    · rintro ⟨n, hn, ha⟩
      refine ⟨n, hn, ?_⟩
      obtain ⟨h1, h2⟩ := ha
      rw [(hi n hn).2] at h2
      simp only [Nat.sub_self, Nat.pow_zero] at h2
      omega
  have happ : ∀ (x y : List Net) a, Covered W (x ++ y) a ↔ Covered W x a ∨ Covered W y a := by
    intro x y a
    simp only [Covered, List.mem_append]
    constructor
    · rintro ⟨n, h | h, h'⟩
      · exact .inl ⟨n, h, h'⟩
      · exact .inr ⟨n, h, h'⟩
    · rintro (⟨n, h, h'⟩ | ⟨n, h, h'⟩)
      · exact ⟨n, .inl h, h'⟩
      · exact ⟨n, .inr h, h'⟩
  have hcs : collapseSplit W ips nets = collapseNets W (summaries W A ++ nets) := by
    rw [← hA]; rfl
  cases A with
  | nil =>
    refine ⟨_, hcs, ?_, ?_⟩
    · intro n h
      exact hn n (by simpa [summaries] using h)
    · intro a
      rw [happ, happ, ← hips a]
      simp [Covered, summaries]
  | cons x A =>
    obtain ⟨r1, r2⟩ := addrRanges_spec A x x (Nat.le_refl _)
    have hlt : ∀ r ∈ addrRanges x x A, r.2 < 2 ^ W := by
      intro r hr
      have : r.2 ∈ x :: A := by
        rcases r2 r hr with h | h
        · simp [h]
        · simp [h]
      obtain ⟨n, h1, h2⟩ := (hmem _).mp this
      rw [← h2]
      exact (hi n h1).1.2.1
    refine ⟨_, hcs, ?_, ?_⟩
    · intro n h
      rcases List.mem_append.mp h with h | h
      · obtain ⟨r, hr, h⟩ := List.mem_flatMap.mp h
        exact (summarize_spec _ _ _ (Nat.le_refl _) (hlt r hr)).1 n h
      · exact hn n h
    · intro a
      rw [happ, happ, ← hips a]
      apply or_congr _ Iff.rfl
      have e : (x ≤ a ∧ a ≤ x) ∨ a ∈ A ↔ a ∈ x :: A := by
        rw [List.mem_cons]
        apply or_congr _ Iff.rfl
        omega
      rw [← e, ← r1 a]
      constructor
      · rintro ⟨n, h, ha⟩
        obtain ⟨r, hr, h⟩ := List.mem_flatMap.mp h
        exact ⟨r, hr, ((summarize_spec _ _ _ (Nat.le_refl _) (hlt r hr)).2 a).mp ⟨n, h, ha⟩⟩
      · rintro ⟨r, hr, h⟩
        obtain ⟨n, h1, h2⟩ := ((summarize_spec _ _ _ (Nat.le_refl _) (hlt r hr)).2 a).mpr h
        exact ⟨n, List.mem_flatMap.mpr ⟨r, hr, h1⟩, h2⟩

/-! ## Splitting -/

theorem clash_same {l : List (Bool × Net)} {v : Bool} (h : ∀ x ∈ l, x.1 = v) : clash l v = false := by
  rw [clash]
  split
  · rfl
  · rename_i x hx
    rw [h x (List.mem_of_getLast? hx)]
    simp

/-- The networks as pairs. -/
def pairOf (n : ANet) : Bool × Net := (n.v6, ⟨n.net, n.plen⟩)

theorem splitNets_cases : ∀ (l : List ANet) (ips nets : List (Bool × Net)),
    splitNets l ips nets = .error .typeError ∨
    splitNets l ips nets = .ok (ips ++ (l.filter (fun n => n.plen = width n.v6)).map pairOf,
      nets ++ (l.filter (fun n => ¬ n.plen = width n.v6)).map pairOf)
  | [], ips, nets => by simp [splitNets]
  | n :: l, ips, nets => by
    rw [splitNets]
    split
    · rename_i h
      split
      · exact .inl rfl
      · rcases splitNets_cases l (ips ++ [(n.v6, ⟨n.net, n.plen⟩)]) nets with r | r
        · exact .inl r
        · right
          rw [r]
          simp [h, pairOf]
    · rename_i h
      split
      · exact .inl rfl
      · rcases splitNets_cases l ips (nets ++ [(n.v6, ⟨n.net, n.plen⟩)]) with r | r
        · exact .inl r
        · right
          rw [r]
          simp [h, pairOf]

theorem splitNets_same (v : Bool) : ∀ (l : List ANet) (ips nets : List (Bool × Net)),
    (∀ n ∈ l, n.v6 = v) → (∀ x ∈ ips, x.1 = v) → (∀ x ∈ nets, x.1 = v) →
    splitNets l ips nets = .ok (ips ++ (l.filter (fun n => n.plen = width n.v6)).map pairOf,
      nets ++ (l.filter (fun n => ¬ n.plen = width n.v6)).map pairOf)
  | [], ips, nets, _, _, _ => by simp [splitNets]
  | n :: l, ips, nets, hl, hi, hn => by
    have hv := hl n (by simp)
    have hl' : ∀ m ∈ l, m.v6 = v := fun m hm => hl m (by simp [hm])
    have add : ∀ L : List (Bool × Net), (∀ x ∈ L, x.1 = v) → ∀ x ∈ L ++ [(n.v6, (⟨n.net, n.plen⟩ : Net))], x.1 = v := by
      intro L hL x hx
      rcases List.mem_append.mp hx with h | h
      · exact hL x h
      · simp only [List.mem_singleton] at h; subst h; exact hv
    rw [splitNets]
    split
    · rename_i h
      rw [hv, clash_same hi, if_neg (by simp), ← hv]
      rw [splitNets_same v l _ nets hl' (add ips hi) hn]
      simp [h, pairOf]
    · rename_i h
      rw [hv, clash_same hn, if_neg (by simp), ← hv]
      rw [splitNets_same v l ips _ hl' hi (add nets hn)]
      simp [h, pairOf]

end IP

import Verif.IP.Text6Forms
import Verif.IP.Invariant
import Verif.Re.Caps

/-! # Lemmas: what a text must contain to be read as an IPv6 address -/

namespace IP

open Py Re

theorem hex_digit {c : Char} (h : isHex c = true) : ∃ d, (c, d) ∈ hexDigits := by
  have hc : (48 ≤ c.toNat ∧ c.toNat ≤ 57) ∨ (97 ≤ c.toNat ∧ c.toNat ≤ 102) ∨ (65 ≤ c.toNat ∧ c.toNat ≤ 70) := by
    simp only [isHex, hexCls, Cls.has, Item.has, List.any_cons, List.any_nil, Bool.or_false, Bool.false_and, Bool.or_eq_true,
      bne_iff_ne, ne_eq, Bool.not_eq_false, Bool.and_eq_true, decide_eq_true_eq] at h
    rcases h with h | h | h
    · exact .inl h
    · exact .inr (.inl h)
    · exact .inr (.inr h)
  have key : ∀ x ∈ hexDigits, c.toNat = x.1.toNat → ∃ d, (c, d) ∈ hexDigits := by
    intro x hx e
    refine ⟨x.2, ?_⟩
    have : c = x.1 := Char.ext (UInt32.toNat.inj e)
    rw [this]; exact hx
  have hall : ∀ n, ((48 ≤ n ∧ n ≤ 57) ∨ (97 ≤ n ∧ n ≤ 102) ∨ (65 ≤ n ∧ n ≤ 70)) → ∃ x ∈ hexDigits, n = x.1.toNat := by
    intro n hn
    have hb : n < 103 := by omega
    have : ∀ m : Fin 103, ((48 ≤ m.val ∧ m.val ≤ 57) ∨ (97 ≤ m.val ∧ m.val ≤ 102) ∨ (65 ≤ m.val ∧ m.val ≤ 70)) → ∃ x ∈ hexDigits, m.val = x.1.toNat := by
      decide +kernel
    exact this ⟨n, hb⟩ hn
  obtain ⟨x, hx, e⟩ := hall c.toNat hc
  exact key x hx e

theorem grp_group {s : Str} (h : Grp s) : ∃ g : Group, g.Valid ∧ g.text = s := by
  obtain ⟨h1, h2, h3⟩ := h
  have key : ∀ t : Str, (∀ c ∈ t, isHex c = true) → ∃ g : Group, (∀ d ∈ g, d ∈ hexDigits) ∧ g.text = t := by
    intro t
    induction t with
    | nil => intro _; exact ⟨[], by simp, rfl⟩
    | cons c t ih =>
      intro h
      obtain ⟨g, hg, e⟩ := ih (fun c hc => h c (by simp [hc]))
      obtain ⟨d, hd⟩ := hex_digit (h c (by simp))
      refine ⟨(c, d) :: g, ?_, by simp only [Group.text, List.map_cons]; rw [← e]; rfl⟩
      intro x hx
      rcases List.mem_cons.mp hx with rfl | hx
      · exact hd
      · exact hg x hx
  obtain ⟨g, hg, e⟩ := key s h3
  have hl : g.length = s.length := by rw [← e]; simp [Group.text]
  refine ⟨g, ⟨?_, by omega, hg⟩, e⟩
  rintro rfl
  exact h1 e.symm

theorem grps_groups : ∀ (l : List Str), (∀ s ∈ l, Grp s) → ∃ gs : List Group, (∀ g ∈ gs, g.Valid) ∧ gs.map Group.text = l
  | [], _ => ⟨[], by simp, rfl⟩
  | s :: l, h => by
    obtain ⟨g, hg, e⟩ := grp_group (h s (by simp))
    obtain ⟨gs, hgs, e'⟩ := grps_groups l (fun s hs => h s (by simp [hs]))
    refine ⟨g :: gs, ?_, by rw [List.map_cons, e, e']⟩
    intro x hx
    rcases List.mem_cons.mp hx with rfl | hx
    · exact hg
    · exact hgs x hx

theorem lang_cgs {n : Nat} : ∀ (m : Nat) (u v : Str), Lang n (seqs (List.replicate m cg)) u v →
    ∃ gs, gs.length = m ∧ (∀ g ∈ gs, Grp g) ∧ u = tails gs ++ v
  | 0, u, v, h => ⟨[], rfl, by simp, (lang_nil n u v).mp h⟩
  | m + 1, u, v, h => by
    rw [List.replicate_succ] at h
    obtain ⟨w, h1, h2⟩ := (lang_cons ..).mp h
    obtain ⟨g, rfl, hg⟩ := (lang_cg n u w).mp h1
    obtain ⟨gs, hl, hgs, rfl⟩ := lang_cgs m w v h2
    refine ⟨g :: gs, by simp [hl], ?_, by simp [tails]⟩
    intro x hx
    rcases List.mem_cons.mp hx with rfl | hx
    · exact hg
    · exact hgs x hx

theorem lang_gcs' {n : Nat} : ∀ (m : Nat) (u v : Str), Lang n (seqs (List.replicate m gc)) u v →
    ∃ gs, gs.length = m ∧ (∀ g ∈ gs, Grp g) ∧ u = heads gs ++ v
  | 0, u, v, h => ⟨[], rfl, by simp, (lang_nil n u v).mp h⟩
  | m + 1, u, v, h => by
    rw [List.replicate_succ] at h
    obtain ⟨w, h1, h2⟩ := (lang_cons ..).mp h
    obtain ⟨g, rfl, hg⟩ := (lang_gc n u w).mp h1
    obtain ⟨gs, hl, hgs, rfl⟩ := lang_gcs' m w v h2
    refine ⟨g :: gs, by simp [hl], ?_, by simp [heads]⟩
    intro x hx
    rcases List.mem_cons.mp hx with rfl | hx
    · exact hg
    · exact hgs x hx

theorem lang_upTo_cg {n : Nat} (k : Nat) : ∀ (u v : Str), Lang n (upTo true cg k) u v →
    ∃ gs, gs.length ≤ k ∧ (∀ g ∈ gs, Grp g) ∧ u = tails gs ++ v := by
  induction k with
  | zero => intro u v h; exact ⟨[], by simp, by simp, h⟩
  | succ k ih =>
    intro u v h
    have h' : u = v ∨ ∃ w, Lang n cg u w ∧ Lang n (upTo true cg k) w v := by
      cases k with
      | zero =>
        rcases h with h | h
        · exact .inl h
        · exact .inr ⟨v, h, rfl⟩
      | succ k => exact h
    rcases h' with h' | ⟨w, h1, h2⟩
    · exact ⟨[], by simp, by simp, h'⟩
    · obtain ⟨g, rfl, hg⟩ := (lang_cg n u w).mp h1
      obtain ⟨gs, hl, hgs, rfl⟩ := ih w v h2
      refine ⟨g :: gs, by simp; omega, ?_, by simp [tails]⟩
      intro x hx
      rcases List.mem_cons.mp hx with rfl | hx
      · exact hg
      · exact hgs x hx

theorem lang_upTo_gc {n : Nat} (k : Nat) : ∀ (u v : Str), Lang n (upTo true gc k) u v →
    ∃ gs, gs.length ≤ k ∧ (∀ g ∈ gs, Grp g) ∧ u = heads gs ++ v := by
  induction k with
  | zero => intro u v h; exact ⟨[], by simp, by simp, h⟩
  | succ k ih =>
    intro u v h
    have h' : u = v ∨ ∃ w, Lang n gc u w ∧ Lang n (upTo true gc k) w v := by
      cases k with
      | zero =>
        rcases h with h | h
        · exact .inl h
        · exact .inr ⟨v, h, rfl⟩
      | succ k => exact h
    rcases h' with h' | ⟨w, h1, h2⟩
    · exact ⟨[], by simp, by simp, h'⟩
    · obtain ⟨g, rfl, hg⟩ := (lang_gc n u w).mp h1
      obtain ⟨gs, hl, hgs, rfl⟩ := ih w v h2
      refine ⟨g :: gs, by simp; omega, ?_, by simp [heads]⟩
      intro x hx
      rcases List.mem_cons.mp hx with rfl | hx
      · exact hg
      · exact hgs x hx

theorem lang_times_cg {n k : Nat} (hk : 1 ≤ k) {u v : Str} (h : Lang n (times true cg 1 (some k)) u v) :
    ∃ gs, gs ≠ [] ∧ gs.length ≤ k ∧ (∀ g ∈ gs, Grp g) ∧ u = tails gs ++ v := by
  have : ∃ w, Lang n cg u w ∧ Lang n (upTo true cg (k - 1)) w v := by
    rw [times] at h
    split at h
    · rename_i e
      exact ⟨v, h, by rw [← e]; rfl⟩
    · have h' : Lang n (seqs [cg, upTo true cg (k - 1)]) u v := h
      exact h'
  obtain ⟨w, h1, h2⟩ := this
  obtain ⟨g, rfl, hg⟩ := (lang_cg n u w).mp h1
  obtain ⟨gs, hl, hgs, rfl⟩ := lang_upTo_cg _ w v h2
  refine ⟨g :: gs, by simp, by simp; omega, ?_, by simp [tails]⟩
  intro x hx
  rcases List.mem_cons.mp hx with rfl | hx
  · exact hg
  · exact hgs x hx

theorem lang_times_gc {n k : Nat} (hk : 1 < k) {u v : Str} (h : Lang n (times true gc 1 (some k)) u v) :
    ∃ gs, gs ≠ [] ∧ gs.length ≤ k ∧ (∀ g ∈ gs, Grp g) ∧ u = heads gs ++ v := by
  have : ∃ w, Lang n gc u w ∧ Lang n (upTo true gc (k - 1)) w v := by
    rw [times] at h
    split at h
    · omega
    · have h' : Lang n (seqs [gc, upTo true gc (k - 1)]) u v := h
      exact h'
  obtain ⟨w, h1, h2⟩ := this
  obtain ⟨g, rfl, hg⟩ := (lang_gc n u w).mp h1
  obtain ⟨gs, hl, hgs, rfl⟩ := lang_upTo_gc _ w v h2
  refine ⟨g :: gs, by simp, by simp; omega, ?_, by simp [heads]⟩
  intro x hx
  rcases List.mem_cons.mp hx with rfl | hx
  · exact hg
  · exact hgs x hx

/-- Groups around `::`. -/
theorem text_short {hs ls : List Str} (hh : ∀ g ∈ hs, Grp g) (hl : ∀ g ∈ ls, Grp g) (h : hs.length + ls.length ≤ 7) :
    ∃ n, Text6 (join [':'] hs ++ "::".toList ++ join [':'] ls) n := by
  obtain ⟨gs, hgs, rfl⟩ := grps_groups hs hh
  obtain ⟨gs', hgs', rfl⟩ := grps_groups ls hl
  exact ⟨_, Text6.short (by simpa using h) hgs hgs'⟩

theorem text_short' {hs ls : List Str} (h0 : hs ≠ []) (h1 : ls ≠ []) (hh : ∀ g ∈ hs, Grp g) (hl : ∀ g ∈ ls, Grp g)
    (h : hs.length + ls.length ≤ 7) : ∃ n, Text6 (heads hs ++ tails ls) n := by
  have := text_short hh hl h
  rwa [show join [':'] hs ++ "::".toList ++ join [':'] ls = heads hs ++ tails ls by
    rw [heads_join hs h0, tails_join ls h1, show "::".toList = [':', ':'] by decide +kernel]; simp] at this

/-- Whatever the alternatives read, free of dots, is the text of an address. -/
theorem lang_opts6 {n : Nat} {u v : Str} (h : Lang n (alts opts6) u v) (hd : '.' ∉ u) : ∃ a m, u = a ++ v ∧ Text6 a m := by
  have hI : ∀ i, 1 ≤ i → i ≤ 6 → Lang n (optI i) u v → ∃ a m, u = a ++ v ∧ Text6 a m := by
    intro i h1 h2 h
    rw [optI, Lang, replicate_times] at h
    obtain ⟨w, ha, hb⟩ := (lang_cons ..).mp h
    obtain ⟨w', hb, hc⟩ := (lang_cons ..).mp hb
    rw [lang_nil] at hc; subst hc
    obtain ⟨hs, hl, hg, rfl⟩ := lang_gcs' i u w ha
    obtain ⟨ls, hne, hl', hg', rfl⟩ := lang_times_cg (by omega) hb
    obtain ⟨m, hm⟩ := text_short' (hs := hs) (ls := ls) (by rintro rfl; simp at hl; omega) hne hg hg' (by omega)
    exact ⟨_, m, by simp, hm⟩
  rcases h with h | h | h | h | h | h | h | h | h | h | h
  · rw [opt1, Lang, replicate_times] at h
    obtain ⟨w, ha, hb⟩ := (lang_cons ..).mp h
    obtain ⟨w', hb, hc⟩ := (lang_cons ..).mp hb
    rw [lang_nil] at hc; subst hc
    obtain ⟨g, rfl, hg⟩ := (lang_hexG n u w).mp ha
    obtain ⟨ls, hl, hg', rfl⟩ := lang_cgs 7 w _ hb
    obtain ⟨G, hG, eG⟩ := grp_group hg
    obtain ⟨Gs, hGs, eGs⟩ := grps_groups ls hg'
    have hlen : Gs.length = 7 := by rw [← hl, ← eGs]; simp
    have ht : Text6 (colons (G :: Gs)) (valOf (G :: Gs)) := Text6.full (by simp [hlen]) (by
      intro x hx
      rcases List.mem_cons.mp hx with rfl | hx
      · exact hG
      · exact hGs x hx)
    refine ⟨colons (G :: Gs), _, ?_, ht⟩
    rw [← List.append_assoc]
    congr 1
    have hls : ls ≠ [] := by rintro rfl; cases hl
    rw [tails_join ls hls, ← eG, ← eGs]
    cases Gs with
    | nil => cases hlen
    | cons G' Gs => simp [colons, join]
  · exfalso
    have hm : Miss n opt2 u [] := miss_opt2 hd
    exact (miss_iff n opt2 u []).mp hm v h
  · exact hI 1 (by omega) (by omega) h
  · exact hI 2 (by omega) (by omega) h
  · exact hI 3 (by omega) (by omega) h
  · exact hI 4 (by omega) (by omega) h
  · exact hI 5 (by omega) (by omega) h
  · exact hI 6 (by omega) (by omega) h
  · rw [opt9, Lang] at h
    obtain ⟨w, ha, hb⟩ := (lang_cons ..).mp h
    obtain ⟨w', hb, hc⟩ := (lang_cons ..).mp hb
    rw [lang_nil] at hc; subst hc
    obtain rfl := (lang_col n u w).mp ha
    obtain ⟨ls, hne, hl', hg', rfl⟩ := lang_times_cg (by omega) hb
    obtain ⟨m, hm⟩ := text_short (hs := []) (ls := ls) (by simp) hg' (by simpa using hl')
    refine ⟨_, m, ?_, hm⟩
    rw [tails_join ls hne, show "::".toList = [':', ':'] by decide +kernel]
    simp [join]
  · rw [opt10, Lang] at h
    obtain ⟨w, ha, hb⟩ := (lang_cons ..).mp h
    obtain ⟨w', hb, hc⟩ := (lang_cons ..).mp hb
    rw [lang_nil] at hc; subst hc
    obtain ⟨hs, hne, hl, hg, rfl⟩ := lang_times_gc (by omega) ha
    obtain rfl := (lang_col n w _).mp hb
    obtain ⟨m, hm⟩ := text_short (hs := hs) (ls := []) hg (by simp) (by simpa using hl)
    refine ⟨_, m, ?_, hm⟩
    rw [heads_join hs hne, show "::".toList = [':', ':'] by decide +kernel]
    simp [join]
  · have h : Lang n (seqs [col, col]) u v := h
    obtain ⟨w, ha, hb⟩ := (lang_cons ..).mp h
    obtain ⟨w', hb, hc⟩ := (lang_cons ..).mp hb
    rw [lang_nil] at hc; subst hc
    obtain rfl := (lang_col n u w).mp ha
    obtain rfl := (lang_col n w _).mp hb
    obtain ⟨m, hm⟩ := text_short (hs := []) (ls := []) (by simp) (by simp) (by simp)
    refine ⟨_, m, ?_, hm⟩
    rw [show "::".toList = [':', ':'] by decide +kernel]
    simp [join]

theorem not_mem_ids_mask : 1 ∉ maskR.ids := by decide +kernel

theorem find6_sound {t a : Str} {mk : Option Str} (h : find6 t = .ok (a, mk)) :
    ∃ pre post, t = pre ++ a ++ post ∧ Lang t.length (alts opts6) (a ++ post) post := by
  obtain ⟨names, hc⟩ := compile6
  unfold find6 at h
  rw [hc] at h
  simp only [] at h
  cases hs : search ⟨seqs [nla6, .grp 1 (alts opts6), maskR], 14, names⟩ t with
  | none => rw [hs] at h; cases h
  | some m =>
    rw [hs] at h
    simp only [Except.ok.injEq, Prod.mk.injEq] at h
    obtain ⟨pre, u, v, e, hv⟩ := search_found hs
    rw [run_seqs_cons'] at hv
    obtain ⟨⟨u1, c1⟩, h1, hv⟩ := List.mem_flatMap.mp hv
    rw [nla6, run] at h1
    split at h1
    · rw [List.mem_singleton, Prod.mk.injEq] at h1
      obtain ⟨rfl, rfl⟩ := h1
      rw [run_seqs_cons'] at hv
      obtain ⟨⟨u2, c2⟩, h2, hv⟩ := List.mem_flatMap.mp hv
      rw [run] at h2
      obtain ⟨⟨w, d⟩, hw, e2⟩ := List.mem_map.mp h2
      simp only [Prod.mk.injEq] at e2
      obtain ⟨rfl, rfl⟩ := e2
      have hv' : (v, m.caps) ∈ run t.length maskR w ((1, u1.take (u1.length - w.length)) :: d) := hv
      have hl := run_ids t.length 1 maskR not_mem_ids_mask _ _ _ _ hv'
      rw [List.lookup_cons, beq_self_eq_true] at hl
      have hL : Lang t.length (alts opts6) u1 w := (lang_run t.length (alts opts6) u1 [] w).mp ⟨d, hw⟩
      obtain ⟨x, rfl⟩ := lang_suffix _ _ _ _ hL
      rw [List.length_append, Nat.add_sub_cancel, List.take_left] at hl
      have ha : a = x := by rw [← h.1, hl]; rfl
      subst ha
      exact ⟨pre, w, by rw [e]; simp, hL⟩
    · cases h1

/-! ## The value of a text fits -/

theorem hexDigit_lt {c : Char} {d : Nat} (h : hexDigit c = some d) : d < 16 := by
  rw [hexDigit] at h
  split at h
  · simp only [Option.some.injEq] at h; omega
  · split at h
    · simp only [Option.some.injEq] at h; omega
    · split at h
      · simp only [Option.some.injEq] at h; omega
      · cases h

theorem hexNat_lt : ∀ (s : Str) (acc k n : Nat), acc < 16 ^ k → hexNat s acc = some n → n < 16 ^ (k + s.length)
  | [], acc, k, n, ha, h => by rw [hexNat] at h; cases h; exact ha
  | c :: s, acc, k, n, ha, h => by
    rw [hexNat] at h
    cases hd : hexDigit c with
    | none => rw [hd] at h; cases h
    | some d =>
      rw [hd] at h
      have hlt := hexDigit_lt hd
      have := hexNat_lt s (acc * 16 + d) (k + 1) n (by rw [Nat.pow_succ]; omega) h
      rw [List.length_cons, show k + (s.length + 1) = k + 1 + s.length by omega]
      exact this

theorem parseHextet_lt {s : Str} {n : Nat} (h : parseHextet s = .ok n) : n < 65536 := by
  rw [parseHextet] at h
  split at h
  · cases h
  · rename_i hl
    cases hx : hexNat s 0 with
    | none => rw [hx] at h; cases h
    | some m =>
      rw [hx] at h
      cases h
      have := hexNat_lt s 0 0 n (by decide) hx
      rw [Nat.zero_add] at this
      have h4 : s.length ≤ 4 := by
        rcases Nat.lt_or_ge 4 s.length with h' | h'
        · exact absurd (Or.inl h') hl
        · exact h'
      exact Nat.lt_of_lt_of_le this (show 16 ^ s.length ≤ 16 ^ 4 from Nat.pow_le_pow_right (by decide) h4)

theorem parseHextets_lt : ∀ (l : List Str) (acc k n : Nat), acc < 65536 ^ k → parseHextets l acc = .ok n → n < 65536 ^ (k + l.length)
  | [], acc, k, n, ha, h => by rw [parseHextets] at h; cases h; exact ha
  | s :: l, acc, k, n, ha, h => by
    rw [parseHextets] at h
    cases hp : parseHextet s with
    | error e => rw [hp] at h; cases h
    | ok d =>
      rw [hp] at h
      have hlt := parseHextet_lt hp
      have := parseHextets_lt l (acc * 65536 + d) (k + 1) n (by rw [Nat.pow_succ]; omega) h
      rw [List.length_cons, show k + (l.length + 1) = k + 1 + l.length by omega]
      exact this

theorem parseParts_lt {parts : List Str} {n : Nat} (h : parseParts parts = .ok n) : n < 65536 ^ 8 := by
  rw [parseParts] at h
  simp only at h
  split at h
  · cases h
  · split at h
    · split at h
      · cases h
      · rename_i h8
        have := parseHextets_lt parts 0 0 n (by decide) h
        rwa [Nat.zero_add, show parts.length = 8 by omega] at this
    · rename_i k _
      revert h
      generalize (if parts.head? = some [] then (if k = 1 then (Except.ok 0 : Except Err Nat) else .error .addressValue) else .ok k) = eh
      generalize (if parts.getLast? = some [] then (if parts.length - k - 1 = 1 then (Except.ok 0 : Except Err Nat) else .error .addressValue)
        else .ok (parts.length - k - 1)) = el
      intro h
      cases eh with
      | error e => cases h
      | ok hi =>
        cases el with
        | error e => cases h
        | ok lo =>
          have h : (if 8 < hi + lo + 1 then _ else _) = Except.ok n := h
          split at h
          · cases h
          · rename_i h8
            cases hp : parseHextets (parts.take hi) 0 with
            | error e => rw [hp] at h; cases h
            | ok a =>
              rw [hp] at h
              have h : parseHextets (parts.drop (parts.length - lo)) (a * 65536 ^ (8 - (hi + lo))) = .ok n := h
              have ha := parseHextets_lt _ 0 0 a (by decide) hp
              have ha' : a < 65536 ^ hi := Nat.lt_of_lt_of_le ha (Nat.pow_le_pow_right (by decide) (by rw [List.length_take]; omega))
              have := parseHextets_lt _ (a * 65536 ^ (8 - (hi + lo))) (hi + (8 - (hi + lo))) n
                (by rw [Nat.pow_add]; exact Nat.mul_lt_mul_of_pos_right ha' (Nat.pow_pos (by decide))) h
              refine Nat.lt_of_lt_of_le this (Nat.pow_le_pow_right (by decide) ?_)
              rw [List.length_drop]; omega
    · cases h

theorem parse6_ok {s : Str} {n : Nat} (h : parse6 s = .ok n) :
    3 ≤ (splitOn ':' s).length ∧ ∃ parts, expandQuad (splitOn ':' s) = .ok parts ∧ parseParts parts = .ok n := by
  rw [parse6] at h
  split at h
  · cases h
  · refine ⟨by omega, ?_⟩
    cases he : expandQuad (splitOn ':' s) with
    | error e => rw [he] at h; cases h
    | ok parts => rw [he] at h; exact ⟨parts, rfl, h⟩

theorem parse6_lt {s : Str} {n : Nat} (h : parse6 s = .ok n) : n < 2 ^ 128 := by
  rw [show (2 : Nat) ^ 128 = 65536 ^ 8 by decide]
  obtain ⟨_, parts, _, h⟩ := parse6_ok h
  exact parseParts_lt h

end IP

import Verif.IP.Text6Sound

/-! # Lemmas: IPv6 addresses that end with a dotted IPv4 address, and what `parse6` accepts -/

namespace IP

open Py Re

/-! ## Dotted texts -/

theorem join_splitOn (c : Char) : ∀ s : Str, join [c] (splitOn c s) = s
  | [] => rfl
  | x :: xs => by
    have ih := join_splitOn c xs
    have hne := splitOn_ne_nil c xs
    rw [splitOn]
    split
    · rename_i e
      subst e
      obtain ⟨y, ys, e⟩ := List.exists_cons_of_ne_nil hne
      rw [e] at ih ⊢
      rw [join, ih]; rfl
    · cases hs : splitOn c xs with
      | nil => exact absurd hs hne
      | cons h t =>
        rw [hs] at ih
        cases t with
        | nil => simp only [join] at ih ⊢; rw [ih]
        | cons y t => simp only [join] at ih ⊢; rw [← ih]; simp

theorem natStr_natVal {s : Str} (h0 : s ≠ []) (hd : ∀ x ∈ s, isDigit x = true) (hz : s = ['0'] ∨ s.head? ≠ some '0') : natStr (natVal s) = s := by
  have dc : ∀ c : Char, isDigit c = true → digitChar (digitVal c) = c ∧ digitVal c < 10 := by
    intro c hc
    have h : 48 ≤ c.toNat ∧ c.toNat ≤ 57 := by simpa [isDigit] using hc
    refine ⟨?_, by unfold digitVal; omega⟩
    have key : ∀ m : Fin 10, digitChar m.val = Char.ofNat (m.val + 48) := by decide +kernel
    have := key ⟨digitVal c, by unfold digitVal; omega⟩
    simp only at this
    rw [this, digitVal, Nat.sub_add_cancel h.1]
    exact Char.ofNat_toNat c
  have key : ∀ (k : Nat) (s : Str), s.length = k → s ≠ [] → (∀ x ∈ s, isDigit x = true) → s.head? ≠ some '0' →
      natStr (natVal s) = s ∧ 0 < natVal s := by
    intro k
    induction k with
    | zero => intro s hl h0; exact absurd (List.length_eq_zero_iff.mp hl) h0
    | succ k ih =>
      intro s hl h0 hd hz
      have es := (List.dropLast_concat_getLast h0).symm
      generalize ht : s.dropLast = t at es
      generalize hc : s.getLast h0 = c at es
      have hcd : isDigit c = true := hd c (by rw [es]; simp)
      obtain ⟨hdc, hlt⟩ := dc c hcd
      have hv : natVal s = 10 * natVal t + digitVal c := by rw [es, natVal, List.foldl_append]; rfl
      have hne0 : t = [] → digitVal c ≠ 0 := by
        rintro rfl e
        rw [es] at hz
        have : c = '0' := by rw [← hdc, e]; rfl
        exact hz (by rw [this]; rfl)
      cases t with
      | nil =>
        have e0 : natVal s = digitVal c := by rw [hv]; simp [natVal]
        rw [e0, natStr_lt10 hlt, hdc, es]
        exact ⟨rfl, by have := hne0 rfl; omega⟩
      | cons x t =>
        have hlen : (x :: t).length = k := by
          have := congrArg List.length es
          rw [List.length_append] at this
          simp at this hl ⊢; omega
        obtain ⟨h1, h2⟩ := ih (x :: t) hlen (by simp) (fun y hy => hd y (by rw [es]; exact List.mem_append_left _ hy))
          (by rw [es] at hz; exact hz)
        rw [hv, natStr_ge10 (by omega)]
        refine ⟨?_, by omega⟩
        rw [show (10 * natVal (x :: t) + digitVal c) / 10 = natVal (x :: t) by omega,
          show (10 * natVal (x :: t) + digitVal c) % 10 = digitVal c by omega, h1, hdc, ← es]
  rcases hz with rfl | hz
  · decide +kernel
  · exact (key s.length s rfl h0 hd hz).1

theorem parseOctet_ok {s : Str} {v : Nat} (h : parseOctet s = .ok v) : v ≤ 255 ∧ s = natStr v := by
  rw [parseOctet] at h
  split at h
  · cases h
  · rename_i h1
    split at h
    · cases h
    · split at h
      · cases h
      · rename_i h2
        split at h
        · cases h
        · rename_i h3
          cases h
          refine ⟨by omega, (natStr_natVal ?_ ?_ ?_).symm⟩
          · rintro rfl; exact h1 (by decide)
          · have : allDigits s = true := by simpa using h1
            rw [allDigits, Bool.and_eq_true, List.all_eq_true] at this
            exact this.2
          · by_cases e : s = ['0']
            · exact .inl e
            · refine .inr ?_
              intro e'
              refine h2 ?_
              rw [Bool.and_eq_true, bne_iff_ne, beq_iff_eq]
              exact ⟨e, e'⟩

theorem parseAddr_quad {s : Str} {q : Nat} (h : parseAddr s = .ok q) : Quad s q := by
  have hj := join_splitOn '.' s
  rw [parseAddr] at h
  split at h
  · rename_i a b c d e
    rw [e] at hj
    cases ha : parseOctet a with
    | error e => rw [ha] at h; cases h
    | ok va =>
      cases hb : parseOctet b with
      | error e => rw [ha, hb] at h; cases h
      | ok vb =>
        cases hc : parseOctet c with
        | error e => rw [ha, hb, hc] at h; cases h
        | ok vc =>
          cases hd : parseOctet d with
          | error e => rw [ha, hb, hc, hd] at h; cases h
          | ok vd =>
            rw [ha, hb, hc, hd] at h
            obtain ⟨la, ea⟩ := parseOctet_ok ha
            obtain ⟨lb, eb⟩ := parseOctet_ok hb
            obtain ⟨lc, ec⟩ := parseOctet_ok hc
            obtain ⟨ld, ed⟩ := parseOctet_ok hd
            refine ⟨va, vb, vc, vd, la, lb, lc, ld, by rw [← hj, ea, eb, ec, ed], ?_⟩
            have : va * 2 ^ 24 + vb * 2 ^ 16 + vc * 2 ^ 8 + vd = q := Except.ok.inj h
            omega
  · cases h

theorem Quad.parse {s : Str} {q : Nat} (h : Quad s q) : parseAddr s = .ok q := by
  obtain ⟨a, b, c, d, ha, hb, hc, hd, rfl, rfl⟩ := h
  have hn : ∀ x, '.' ∉ natStr x := fun x => dot_not_mem_natStr x
  have hs : splitOn '.' (join ['.'] [natStr a, natStr b, natStr c, natStr d]) = [natStr a, natStr b, natStr c, natStr d] :=
    splitOn_join '.' _ (by simp) (by
      intro p hp
      simp only [List.mem_cons, List.not_mem_nil, or_false] at hp
      rcases hp with rfl | rfl | rfl | rfl <;> exact hn _)
  rw [parseAddr, hs]
  simp only
  rw [parseOctet_natStr (by omega : a < 256), parseOctet_natStr (by omega : b < 256), parseOctet_natStr (by omega : c < 256),
    parseOctet_natStr (by omega : d < 256)]
  have e : ((a * 256 + b) * 256 + c) * 256 + d = a * 2 ^ 24 + b * 2 ^ 16 + c * 2 ^ 8 + d := by omega
  rw [e]
  rfl

theorem Quad.lt {s : Str} {q : Nat} (h : Quad s q) : q < 2 ^ 32 := by
  obtain ⟨a, b, c, d, ha, hb, hc, hd, _, rfl⟩ := h
  omega

theorem Quad.chars {s : Str} {q : Nat} (h : Quad s q) : ∀ x ∈ s, isDigit x = true ∨ x = '.' := by
  obtain ⟨a, b, c, d, _, _, _, _, rfl, _⟩ := h
  intro x hx
  have hn := fun n => natStr_digits n x
  simp only [join, List.mem_append, List.mem_cons, List.not_mem_nil, or_false] at hx
  rcases hx with ((hx | hx) | ((hx | hx) | ((hx | hx) | hx)))
  all_goals first
    | exact .inl (hn _ hx)
    | exact .inr hx

theorem Quad.no_colon {s : Str} {q : Nat} (h : Quad s q) : ':' ∉ s := by
  intro hc
  rcases h.chars _ hc with h | h
  · exact absurd h (by decide)
  · exact absurd h (by decide)

theorem Quad.dot {s : Str} {q : Nat} (h : Quad s q) : '.' ∈ s := by
  obtain ⟨a, b, c, d, _, _, _, _, rfl, _⟩ := h
  simp [join]

/-! ## Reading -/

/-- The two groups of a 32-bit number. -/
def quadGroups (q : Nat) : List Group := [plainGroup (q / 65536 % 65536), plainGroup (q % 65536)]

theorem quadGroups_valid (q : Nat) : ∀ g ∈ quadGroups q, g.Valid := by
  intro g hg
  simp only [quadGroups, List.mem_cons, List.not_mem_nil, or_false] at hg
  rcases hg with rfl | rfl
  · exact (plainGroup_spec _ (Nat.mod_lt _ (by decide))).2.1
  · exact (plainGroup_spec _ (Nat.mod_lt _ (by decide))).2.1

theorem quadGroups_text (q : Nat) : (quadGroups q).map Group.text = [hexStr (q / 65536 % 65536), hexStr (q % 65536)] := by
  have h1 := (plainGroup_spec (q / 65536 % 65536) (Nat.mod_lt _ (by decide))).1
  have h2 := (plainGroup_spec (q % 65536) (Nat.mod_lt _ (by decide))).1
  simp only [quadGroups, List.map_cons, List.map_nil, h1, h2]

theorem valOf_append (a b : List Group) : valOf (a ++ b) = valOf a * 65536 ^ b.length + valOf b := by
  rw [valOf, List.foldl_append, foldl_acc]; rfl

theorem valOf_two (g h : Group) : valOf [g, h] = g.val * 65536 + h.val := by
  simp only [valOf, List.foldl_cons, List.foldl_nil]; omega

theorem valOf_quadGroups (gs : List Group) (q : Nat) (h : q < 2 ^ 32) : valOf (gs ++ quadGroups q) = valOf gs * 2 ^ 32 + q := by
  have h1 := (plainGroup_spec (q / 65536 % 65536) (Nat.mod_lt _ (by decide))).2.2.1
  have h2 := (plainGroup_spec (q % 65536) (Nat.mod_lt _ (by decide))).2.2.1
  rw [valOf_append, show valOf (quadGroups q) = _ from valOf_two _ _, h1, h2, show (quadGroups q).length = 2 from rfl,
    show (65536 : Nat) ^ 2 = 2 ^ 32 by decide]
  omega

theorem expandQuad_quad {ps : List Str} {s : Str} {q : Nat} (h : Quad s q) :
    expandQuad (ps ++ [s]) = .ok (ps ++ (quadGroups q).map Group.text) := by
  rw [expandQuad]
  have e : (ps ++ [s]).getLast?.getD [] = s := by simp
  rw [e, if_pos h.dot, h.parse, quadGroups_text]
  show Except.ok ((ps ++ [s]).dropLast ++ _) = _
  rw [List.dropLast_concat]

theorem shortParts_snoc (A B : List Str) (s : Str) :
    ∃ X, shortParts A (B ++ [s]) = X ++ [s] ∧ ∀ t : List Str, t ≠ [] → shortParts A (B ++ t) = X ++ t := by
  refine ⟨(if A = [] then [[]] else A) ++ [] :: B, ?_, ?_⟩
  · rw [shortParts, if_neg (c := B ++ [s] = []) (by simp)]; simp
  · intro t ht
    rw [shortParts, if_neg (c := B ++ t = []) (by simp [ht])]; simp

theorem mem_append_valid {a b : List Group} (ha : ∀ g ∈ a, g.Valid) (hb : ∀ g ∈ b, g.Valid) : ∀ g ∈ a ++ b, g.Valid := by
  intro g hg
  rcases List.mem_append.mp hg with h | h
  · exact ha g h
  · exact hb g h

theorem Quad6.parse {s : Str} {n : Nat} (h : Quad6 s n) : parse6 s = .ok n := by
  cases h with
  | @full gs s q hl hg hq =>
    have hsp : splitOn ':' (colonsQuad gs s) = gs.map Group.text ++ [s] := by
      refine splitOn_join ':' _ (by simp) ?_
      intro p hp
      rcases List.mem_append.mp hp with hp | hp
      · exact (texts_chars hg p hp).2.1
      · rw [List.mem_singleton.mp hp]; exact hq.no_colon
    rw [parse6, hsp]
    rw [if_neg (by simp [hl]), expandQuad_quad hq]
    show parseParts (gs.map Group.text ++ (quadGroups q).map Group.text) = _
    rw [← List.map_append, parseParts_full (by simp [hl, quadGroups]) (mem_append_valid hg (quadGroups_valid q)), valOf_quadGroups _ _ hq.lt]
  | @short hi lo s q hl hh hlo hq =>
    have hsp : splitOn ':' (colons hi ++ "::".toList ++ colonsQuad lo s) = shortParts (hi.map Group.text) (lo.map Group.text ++ [s]) := by
      refine shortParts_split (fun p hp => (texts_chars hh p hp).2.1) ?_
      intro p hp
      rcases List.mem_append.mp hp with hp | hp
      · exact (texts_chars hlo p hp).2.1
      · rw [List.mem_singleton.mp hp]; exact hq.no_colon
    obtain ⟨X, e1, e2⟩ := shortParts_snoc (hi.map Group.text) (lo.map Group.text) s
    have h3 := shortParts_len (hi.map Group.text) (lo.map Group.text ++ [s])
    rw [parse6, hsp]
    rw [if_neg (by omega), e1, expandQuad_quad hq]
    show parseParts (X ++ (quadGroups q).map Group.text) = _
    rw [← e2 _ (by simp [quadGroups]), ← List.map_append,
      parseParts_short (by simp [quadGroups]; omega) hh (mem_append_valid hlo (quadGroups_valid q)), valOf_quadGroups _ _ hq.lt]

/-! ## What is accepted -/

theorem hexDigit_mem {c : Char} {d : Nat} (h : hexDigit c = some d) : (c, d) ∈ hexDigits := by
  have : isHex c = true := by
    rw [hexDigit] at h
    simp only [isHex, hexCls, Cls.has, Item.has, List.any_cons, List.any_nil, Bool.or_false, Bool.false_and, Bool.or_eq_true,
      bne_iff_ne, ne_eq, Bool.not_eq_false, Bool.and_eq_true, decide_eq_true_eq]
    split at h
    · rename_i h'; exact .inl h'
    · split at h
      · rename_i h'; exact .inr (.inl h')
      · split at h
        · rename_i h'; exact .inr (.inr h')
        · cases h
  obtain ⟨d', hd⟩ := hex_digit this
  have := (hexDigits_facts _ hd).2.1
  rw [h] at this
  cases this
  exact hd

theorem hexNat_some : ∀ (s : Str) (acc n : Nat), hexNat s acc = some n → ∃ g : Group, (∀ d ∈ g, d ∈ hexDigits) ∧ g.text = s
  | [], _, _, _ => ⟨[], by simp, rfl⟩
  | c :: s, acc, n, h => by
    rw [hexNat] at h
    cases hd : hexDigit c with
    | none => rw [hd] at h; cases h
    | some d =>
      rw [hd] at h
      obtain ⟨g, hg, e⟩ := hexNat_some s _ n h
      refine ⟨(c, d) :: g, ?_, by show c :: Group.text g = _; rw [e]⟩
      intro x hx
      rcases List.mem_cons.mp hx with rfl | hx
      · exact hexDigit_mem hd
      · exact hg x hx

theorem parseHextet_ok {s : Str} {n : Nat} (h : parseHextet s = .ok n) : ∃ g : Group, g.Valid ∧ g.text = s ∧ g.val = n := by
  have h0 := h
  rw [parseHextet] at h
  split at h
  · cases h
  · rename_i hl
    cases hx : hexNat s 0 with
    | none => rw [hx] at h; cases h
    | some m =>
      obtain ⟨g, hg, e⟩ := hexNat_some s 0 m hx
      have hlen : g.length = s.length := by rw [← e]; exact (List.length_map _).symm
      have hv : g.Valid := by
        refine ⟨?_, ?_, hg⟩
        · rintro rfl; exact hl (.inr e.symm)
        · rcases Nat.lt_or_ge 4 s.length with h' | h'
          · exact absurd (Or.inl h') hl
          · omega
      refine ⟨g, hv, e, ?_⟩
      have := parseHextet_group hv
      rw [e, h0] at this
      exact (Except.ok.inj this).symm

theorem parseHextets_ok : ∀ (l : List Str) (acc n : Nat), parseHextets l acc = .ok n →
    ∃ gs : List Group, (∀ g ∈ gs, g.Valid) ∧ gs.map Group.text = l ∧ n = acc * 65536 ^ gs.length + valOf gs
  | [], acc, n, h => by
    rw [parseHextets] at h; cases h
    exact ⟨[], by simp, rfl, by simp [valOf]⟩
  | s :: l, acc, n, h => by
    rw [parseHextets] at h
    cases hp : parseHextet s with
    | error e => rw [hp] at h; cases h
    | ok d =>
      rw [hp] at h
      obtain ⟨g, hg, e, hv⟩ := parseHextet_ok hp
      obtain ⟨gs, hgs, e', hn⟩ := parseHextets_ok l (acc * 65536 + d) n h
      refine ⟨g :: gs, ?_, by rw [List.map_cons, e, e'], ?_⟩
      · intro x hx
        rcases List.mem_cons.mp hx with rfl | hx
        · exact hg
        · exact hgs x hx
      · have := valOf_append [g] gs
        rw [List.singleton_append] at this
        rw [this, hn, show valOf [g] = g.val by simp [valOf], hv, List.length_cons, Nat.add_mul, Nat.pow_succ, Nat.mul_assoc, Nat.mul_comm 65536]
        omega

theorem parseParts_ok {parts : List Str} {n : Nat} (h3 : 3 ≤ parts.length) (h : parseParts parts = .ok n) :
    (∃ gs : List Group, gs.length = 8 ∧ (∀ g ∈ gs, g.Valid) ∧ parts = gs.map Group.text ∧ n = valOf gs) ∨
    (∃ hi lo : List Group, hi.length + lo.length ≤ 7 ∧ (∀ g ∈ hi, g.Valid) ∧ (∀ g ∈ lo, g.Valid) ∧
      parts = shortParts (hi.map Group.text) (lo.map Group.text) ∧ n = valOf hi * 65536 ^ (8 - hi.length) + valOf lo) := by
  rw [parseParts] at h
  simp only at h
  split at h
  · cases h
  · split at h
    · split at h
      · cases h
      · rename_i h8
        obtain ⟨gs, hg, e, hn⟩ := parseHextets_ok parts 0 n h
        have : gs.length = parts.length := by rw [← e, List.length_map]
        exact .inl ⟨gs, by omega, hg, e.symm, by rw [hn]; simp⟩
    · rename_i k hf
      right
      have hk : k ∈ (List.range parts.length).filter (fun i => decide (1 ≤ i ∧ i + 1 < parts.length) && parts[i]? == some []) := by rw [hf]; simp
      rw [List.mem_filter, Bool.and_eq_true, decide_eq_true_eq, beq_iff_eq] at hk
      obtain ⟨_, ⟨hk1, hk2⟩, hk3⟩ := hk
      have hsplit : parts = parts.take k ++ [] :: parts.drop (k + 1) := by
        conv => lhs; rw [← List.take_append_drop k parts]
        congr 1
        rw [List.drop_eq_getElem_cons (by omega)]
        congr 1
        rw [List.getElem?_eq_getElem (by omega)] at hk3
        exact Option.some.inj hk3
      cases eh : (if parts.head? = some [] then (if k = 1 then (Except.ok 0 : Except Err Nat) else .error .addressValue) else .ok k) with
      | error e => rw [eh] at h; cases h
      | ok hi =>
        cases el : (if parts.getLast? = some [] then (if parts.length - k - 1 = 1 then (Except.ok 0 : Except Err Nat) else .error .addressValue)
            else .ok (parts.length - k - 1)) with
        | error e => rw [eh] at h; simp only [el] at h; cases h
        | ok lo =>
          rw [eh] at h
          simp only [el] at h
          have h : (if 8 < hi + lo + 1 then _ else _) = Except.ok n := h
          split at h
          · cases h
          · rename_i h8
            cases hp : parseHextets (parts.take hi) 0 with
            | error e => rw [hp] at h; cases h
            | ok a =>
              rw [hp] at h
              have h : parseHextets (parts.drop (parts.length - lo)) (a * 65536 ^ (8 - (hi + lo))) = .ok n := h
              obtain ⟨hs, hhs, eA, hn1⟩ := parseHextets_ok _ _ _ hp
              obtain ⟨ls, hls, eB, hn2⟩ := parseHextets_ok _ _ _ h
              have e1 : parts.take k = if hs.map Group.text = [] then [[]] else hs.map Group.text := by
                rw [eA]
                split at eh
                · rename_i hd
                  split at eh
                  · rename_i hk'
                    have e0 : 0 = hi := Except.ok.inj eh
                    subst hk' e0
                    rw [if_pos (by simp)]
                    cases parts with
                    | nil => cases hd
                    | cons x ps => simp at hd; rw [hd]; rfl
                  · cases eh
                · have e0 : k = hi := Except.ok.inj eh
                  rw [← e0, if_neg]
                  intro e
                  have := congrArg List.length e
                  rw [List.length_take, List.length_nil] at this
                  omega
              have lh : hs.length = hi := by
                have := congrArg List.length eA
                rw [List.length_map, List.length_take] at this
                have : hi ≤ k := by
                  split at eh
                  · split at eh
                    · cases eh; omega
                    · cases eh
                  · cases eh; omega
                omega
              have hlo : lo ≤ parts.length - k - 1 := by
                split at el
                · split at el
                  · cases el; omega
                  · cases el
                · cases el; omega
              have ll : ls.length = lo := by
                have := congrArg List.length eB
                rw [List.length_map, List.length_drop] at this
                omega
              have e2 : parts.drop (k + 1) = if ls.map Group.text = [] then [[]] else ls.map Group.text := by
                rw [eB]
                split at el
                · rename_i hd
                  split at el
                  · rename_i hk'
                    cases el
                    rw [if_pos (by simp)]
                    have hl1 : (parts.drop (k + 1)).length = 1 := by rw [List.length_drop]; omega
                    have hlast : (parts.drop (k + 1)).getLast? = some [] := by
                      rw [List.getLast?_drop, if_neg (by omega), hd]
                    match hdr : parts.drop (k + 1) with
                    | [] => rw [hdr] at hl1; cases hl1
                    | [x] => rw [hdr] at hlast; simp at hlast; rw [hlast]
                    | _ :: _ :: _ => rw [hdr] at hl1; simp at hl1
                  · cases el
                · cases el
                  rw [if_neg]
                  · congr 1; omega
                  · intro e
                    have := congrArg List.length e
                    rw [List.length_drop] at this
                    simp at this; omega
              refine ⟨hs, ls, by omega, hhs, hls, ?_, ?_⟩
              · rw [shortParts, ← e1, ← e2]; exact hsplit
              · rw [hn2, hn1, Nat.zero_mul, Nat.zero_add, Nat.mul_assoc, ← Nat.pow_add, ll, lh]
                have : 8 - (hi + lo) + lo = 8 - hi := by omega
                rw [this]
    · cases h

theorem hexStr_ne_nil (q : Nat) (h : q < 65536) : hexStr q ≠ [] := by
  obtain ⟨e, hp⟩ := plainGroup_spec q h
  rw [e]; exact hp.1.grp.1

theorem groups_text_val {a b : List Group} (ha : ∀ g ∈ a, g.Valid) (hb : ∀ g ∈ b, g.Valid) (h : a.map Group.text = b.map Group.text) :
    valOf a = valOf b := by
  have h1 := parseHextets_groups a 0 ha
  rw [h, parseHextets_groups b 0 hb] at h1
  exact (Except.ok.inj h1).symm

/-- What `parse6` accepts are the texts of addresses. -/
theorem parse6_text {s : Str} {n : Nat} (h : parse6 s = .ok n) : Text6 s n ∨ Quad6 s n := by
  obtain ⟨h3, parts, he, hp⟩ := parse6_ok h
  have hj := join_splitOn ':' s
  rw [expandQuad] at he
  split at he
  · rename_i hdot
    right
    have hne : splitOn ':' s ≠ [] := splitOn_ne_nil ':' s
    have es := (List.dropLast_concat_getLast hne).symm
    rw [List.getLast?_eq_some_getLast hne, Option.getD_some] at hdot he
    generalize (splitOn ':' s).dropLast = X at es he
    generalize (splitOn ':' s).getLast hne = l at es he hdot
    cases ha : parseAddr l with
    | error e => rw [ha] at he; cases he
    | ok q =>
      rw [ha] at he
      have he : X ++ [hexStr (q / 65536 % 65536), hexStr (q % 65536)] = parts := Except.ok.inj he
      have hq := parseAddr_quad ha
      have hlX : 2 ≤ X.length := by
        rw [es, List.length_append] at h3; simp at h3; omega
      have hl3 : 3 ≤ parts.length := by rw [← he, List.length_append]; simp; omega
      rw [es] at hj
      rw [← quadGroups_text] at he
      rcases parseParts_ok hl3 hp with ⟨gs, hl, hg, e, hn⟩ | ⟨hi, lo, hl, hh, hlo, e, hn⟩
      · rw [← he] at e
        obtain ⟨g1, g2, e1, e2, e3⟩ := List.map_eq_append_iff.mp e.symm
        subst e1
        have hg1 : ∀ g ∈ g1, g.Valid := fun g h => hg g (List.mem_append_left _ h)
        have hg2 : ∀ g ∈ g2, g.Valid := fun g h => hg g (List.mem_append_right _ h)
        have l2 : g2.length = 2 := by have := congrArg List.length e3; simpa [quadGroups] using this
        have := groups_text_val hg2 (quadGroups_valid q) e3
        have hv : n = valOf g1 * 2 ^ 32 + q := by
          rw [hn, ← valOf_quadGroups g1 q hq.lt, valOf_append, valOf_append, this, l2]; rfl
        rw [hv, ← hj, ← e2]
        exact Quad6.full (by rw [List.length_append] at hl; omega) hg1 hq
      · rw [← he] at e
        have hlast : ∀ B : List Str, B = lo.map Group.text → ∃ B', B = B' ++ (quadGroups q).map Group.text ∧
            X = (if hi.map Group.text = [] then [[]] else hi.map Group.text) ++ [] :: B' := by
          intro B eB
          rw [← eB] at e
          rw [quadGroups_text] at e ⊢
          have hne1 := hexStr_ne_nil (q / 65536 % 65536) (Nat.mod_lt _ (by decide))
          have hne2 := hexStr_ne_nil (q % 65536) (Nat.mod_lt _ (by decide))
          generalize hexStr (q / 65536 % 65536) = x1 at *
          generalize hexStr (q % 65536) = x2 at *
          rw [shortParts] at e
          generalize (if hi.map Group.text = [] then [[]] else hi.map Group.text) = A at *
          rcases List.eq_nil_or_concat B with rfl | ⟨B1, b, rfl⟩
          · rw [if_pos rfl] at e
            have := congrArg List.getLast? e
            simp at this
            exact absurd this hne2
          · rw [List.concat_eq_append, if_neg (by simp)] at e
            have e' : (X ++ [x1]) ++ [x2] = (A ++ [] :: B1) ++ [b] := by simpa using e
            obtain ⟨e4, e5⟩ := List.append_inj' e' rfl
            cases e5
            rcases List.eq_nil_or_concat B1 with rfl | ⟨B2, b, rfl⟩
            · have := (List.append_inj' e4 rfl).2
              simp at this
              exact absurd this hne1
            · rw [List.concat_eq_append] at e4 ⊢
              have e'' : X ++ [x1] = (A ++ [] :: B2) ++ [b] := by simpa using e4
              obtain ⟨e6, e7⟩ := List.append_inj' e'' rfl
              cases e7
              exact ⟨B2, by simp, e6⟩
        obtain ⟨B', e1, eX⟩ := hlast _ rfl
        obtain ⟨l1, l2, rfl, e2, e3⟩ := List.map_eq_append_iff.mp e1
        subst e2
        have hl1 : ∀ g ∈ l1, g.Valid := fun g h => hlo g (List.mem_append_left _ h)
        have hl2 : ∀ g ∈ l2, g.Valid := fun g h => hlo g (List.mem_append_right _ h)
        have hlen2 : l2.length = 2 := by have := congrArg List.length e3; simpa [quadGroups] using this
        have := groups_text_val hl2 (quadGroups_valid q) e3
        have hv : n = valOf hi * 65536 ^ (8 - hi.length) + (valOf l1 * 2 ^ 32 + q) := by
          rw [hn, ← valOf_quadGroups l1 q hq.lt, valOf_append, valOf_append, this, hlen2]; rfl
        have hs : s = colons hi ++ "::".toList ++ colonsQuad l1 l := by
          rw [colons, colonsQuad, short_join, ← hj, eX, shortParts, if_neg (c := l1.map Group.text ++ [l] = []) (by simp)]
          simp
        rw [hv, hs]
        exact Quad6.short (by rw [List.length_append] at hl; omega) hh hl1 hq
  · left
    have he : splitOn ':' s = parts := Except.ok.inj he
    rw [he] at h3 hj
    rcases parseParts_ok h3 hp with ⟨gs, hl, hg, e, hn⟩ | ⟨hi, lo, hl, hh, hlo, e, hn⟩
    · rw [hn, ← hj, e]; exact Text6.full hl hg
    · rw [hn, ← hj, e, ← short_join]; exact Text6.short hl hh hlo

/-! ## What is found in a text -/

theorem natStr_digs (n : Nat) : natStr n ≠ [] ∧ ∀ x ∈ natStr n, isDigit x = true := ⟨natStr_ne_nil n, natStr_digits n⟩

theorem colon_hexCol : hexColCls.has ':' = true := by decide

theorem hex_hexCol {c : Char} (h : isHex c = true) : hexColCls.has c = true := by
  obtain ⟨d, hd⟩ := hex_digit h
  have : ∀ d ∈ hexDigits, hexColCls.has d.1 = true := by decide +kernel
  exact this _ hd

theorem heads_chars {gs : List Str} (h : ∀ g ∈ gs, Grp g) : ∀ z ∈ heads gs, z = ':' ∨ isHex z = true := by
  intro z hz
  rw [heads, List.mem_flatten] at hz
  obtain ⟨l, hl, hz⟩ := hz
  obtain ⟨g, hg, rfl⟩ := List.mem_map.mp hl
  rcases List.mem_append.mp hz with hz | hz
  · exact .inr ((h g hg).2.2 z hz)
  · exact .inl (List.mem_singleton.mp hz)

theorem colonsQuad_heads (gs : List Group) (s : Str) : colonsQuad gs s = heads (gs.map Group.text) ++ s := by
  rw [colonsQuad]
  by_cases h : gs.map Group.text = []
  · rw [h]; rfl
  · rw [join_append h (by simp), heads_join _ h]; simp [join]

theorem colons_heads (gs : List Group) : colons gs ++ "::".toList = heads (gs.map Group.text) ++ (if gs = [] then [':', ':'] else [':']) := by
  rw [show "::".toList = [':', ':'] by decide +kernel]
  by_cases h : gs = []
  · subst h; rfl
  · rw [if_neg h, colons, heads_join _ (by simpa using h)]; simp

theorem dot_not_hex : isHex '.' = false := by decide

theorem Quad6.find {s : Str} {n : Nat} (h : Quad6 s n) :
    find6 s = .ok (s, none) ∧ ∀ p : Str, p ≠ [] → (∀ x ∈ p, isDigit x = true) → find6 (s ++ '/' :: p) = .ok (s, some p) := by
  have hquad : ∀ {l : Str} {q : Nat}, Quad l q → ∀ {x : Str}, x ≠ [] → (∃ y, x = y ++ [':']) → (∀ z ∈ x, z = ':' ∨ isHex z = true) →
      (∀ n r, ':' ∉ r → Miss n opt1 ((x ++ l) ++ r) []) → (∀ v, x ++ l ≠ ':' :: ':' :: ':' :: v) → (∀ r v, x ++ l ++ r ≠ ':' :: ':' :: ':' :: v) →
      find6 (x ++ l) = .ok (x ++ l, none) ∧ ∀ p : Str, p ≠ [] → (∀ x ∈ p, isDigit x = true) → find6 (x ++ l ++ '/' :: p) = .ok (x ++ l, some p) := by
    intro l q hq x hx hxe hxc hm _ h3
    obtain ⟨a, b, c, d, _, _, _, _, rfl, _⟩ := hq
    have el : join ['.'] [natStr a, natStr b, natStr c, natStr d] = natStr a ++ '.' :: (natStr b ++ '.' :: (natStr c ++ '.' :: natStr d)) := by
      simp [join]
    rw [el] at hm h3 ⊢
    refine find6_of (fun r v _ => h3 r v) ?_
    intro m r hr _ hc
    refine finds_quad m hx hxe ?_ ?_ (natStr_digs a) (natStr_digs b) (natStr_digs c) (natStr_digs d) hr (hm m r hc)
    · intro z hz
      rcases hxc z hz with rfl | h
      · exact colon_hexCol
      · exact hex_hexCol h
    · intro hdot
      rcases hxc _ hdot with h | h
      · exact absurd h (by decide)
      · rw [dot_not_hex] at h; cases h
  cases h with
  | @full gs l q hl hg hq =>
    have hne : gs ≠ [] := by rintro rfl; cases hl
    have hne' : gs.map Group.text ≠ [] := by simpa using hne
    have h3 : ∀ t v, heads (gs.map Group.text) ++ t ≠ ':' :: v := by
      intro t v
      obtain ⟨g, gs', rfl⟩ := List.exists_cons_of_ne_nil hne
      rw [heads, List.map_cons, List.map_cons, List.flatten_cons, List.append_assoc, List.append_assoc]
      exact grp_not_colon (hg g (by simp)).grp
    rw [colonsQuad_heads]
    refine hquad hq ?_ ⟨_, heads_join _ hne'⟩ (heads_chars (grps hg)) ?_ (fun v => h3 _ _) (fun r v => by rw [List.append_assoc]; exact h3 _ _)
    · rw [heads_join _ hne']; simp
    · intro m r hr
      refine miss_grp ?_
      intro v hv
      rw [replicate_times] at hv
      obtain ⟨w, h1, h2⟩ := (lang_cons ..).mp hv
      obtain ⟨w', h2, h3⟩ := (lang_cons ..).mp h2
      rw [lang_nil] at h3; subst h3
      obtain ⟨x, h4, h5⟩ := hexG_shift m 7 _ _ ((lang_cons ..).mpr ⟨w, h1, h2⟩)
      rw [List.append_assoc] at h4
      have h6 := ((lang_gcs 7 (gs.map Group.text) (l ++ r) x (grps hg) (by
        intro g v _ e
        have : ':' ∈ l ++ r := by rw [e]; simp
        rcases List.mem_append.mp this with h | h
        · exact hq.no_colon h
        · exact hr h)).mp h4).1
      rw [List.length_map] at h6
      omega
  | @short hi lo l q hl hh hlo hq =>
    have e : colons hi ++ "::".toList ++ colonsQuad lo l =
        (heads (hi.map Group.text) ++ (if hi = [] then [':', ':'] else [':']) ++ heads (lo.map Group.text)) ++ l := by
      rw [colonsQuad_heads, colons_heads]; simp
    have hhead : ∀ t v, heads (lo.map Group.text) ++ l ++ t ≠ ':' :: v := by
      intro t v
      cases lo with
      | nil =>
        intro e
        obtain ⟨a, b, c, d, _, _, _, _, rfl, _⟩ := hq
        have : ':' ∈ join ['.'] [natStr a, natStr b, natStr c, natStr d] := by
          have hne := natStr_ne_nil a
          cases hs : natStr a with
          | nil => exact absurd hs hne
          | cons x xs => rw [hs] at e; simp [heads, join] at e ⊢; exact .inl e.1.symm
        exact Quad.no_colon ⟨a, b, c, d, by assumption, by assumption, by assumption, by assumption, rfl, rfl⟩ this
      | cons g gs' =>
        rw [heads, List.map_cons, List.map_cons, List.flatten_cons, List.append_assoc, List.append_assoc, List.append_assoc]
        exact grp_not_colon (hlo g (by simp)).grp
    have h3 : ∀ t v, (heads (hi.map Group.text) ++ (if hi = [] then [':', ':'] else [':']) ++ heads (lo.map Group.text)) ++ l ++ t ≠ ':' :: ':' :: ':' :: v := by
      intro t v
      cases hi with
      | nil =>
        rw [if_pos rfl]
        intro e
        have e : ':' :: ':' :: (heads (lo.map Group.text) ++ l ++ t) = ':' :: ':' :: ':' :: v := by
          simpa [heads] using e
        rw [List.cons.injEq, List.cons.injEq] at e
        exact hhead t v e.2.2
      | cons g gs' =>
        rw [heads, List.map_cons, List.map_cons, List.flatten_cons]
        simp only [List.append_assoc]
        exact grp_not_colon (hh g (by simp)).grp
    rw [e]
    refine hquad hq ?_ ?_ ?_ ?_ (fun v => by have := h3 [] v; rwa [List.append_nil] at this) h3
    · intro e
      have := (List.append_eq_nil_iff.mp (List.append_eq_nil_iff.mp e).1).2
      split at this <;> cases this
    · by_cases h0 : lo = []
      · subst h0
        by_cases h1 : hi = []
        · subst h1; exact ⟨[':'], rfl⟩
        · rw [if_neg h1]; exact ⟨_, by simp [heads]; rfl⟩
      · rw [heads_join (lo.map Group.text) (by simpa using h0)]
        exact ⟨_, (List.append_assoc ..).symm⟩
    · intro z hz
      rcases List.mem_append.mp hz with hz | hz
      · rcases List.mem_append.mp hz with hz | hz
        · exact heads_chars (grps hh) z hz
        · left
          split at hz <;> simpa using hz
      · exact heads_chars (grps hlo) z hz
    · intro m r _
      have : ∃ y, (heads (hi.map Group.text) ++ (if hi = [] then [':', ':'] else [':']) ++ heads (lo.map Group.text)) ++ l ++ r =
          ((hi.map Group.text).map (· ++ [':'])).flatten ++ ':' :: y := by
        by_cases h1 : hi = []
        · subst h1; exact ⟨_, by simp [heads]; rfl⟩
        · rw [if_neg h1]; exact ⟨_, by simp [heads]; rfl⟩
      obtain ⟨y, ey⟩ := this
      rw [ey]
      exact miss_opt1 (grps hh) (by rw [List.length_map]; omega)

theorem Quad6.chars {s : Str} {n : Nat} (h : Quad6 s n) : ∀ c ∈ s, isSpace c = false := by
  have hq' : ∀ {l : Str} {q : Nat}, Quad l q → ∀ c ∈ l, isSpace c = false := by
    intro l q hq c hc
    rcases hq.chars c hc with h | rfl
    · exact isDigit_not_space h
    · decide
  have hhd : ∀ {gs : List Group}, (∀ g ∈ gs, g.Valid) → ∀ c ∈ heads (gs.map Group.text), isSpace c = false := by
    intro gs hg c hc
    rcases heads_chars (grps hg) c hc with rfl | h
    · decide
    · obtain ⟨d, hd⟩ := hex_digit h
      exact (hexDigits_facts _ hd).2.2.2.2.1
  cases h with
  | full hl hg hq =>
    rw [colonsQuad_heads]
    intro c hc
    rcases List.mem_append.mp hc with hc | hc
    · exact hhd hg c hc
    · exact hq' hq c hc
  | short hl hh hlo hq =>
    rw [colonsQuad_heads]
    intro c hc
    rcases List.mem_append.mp hc with hc | hc
    · rcases List.mem_append.mp hc with hc | hc
      · exact (colons_chars hh c hc).2
      · have : c = ':' := by
          rw [show "::".toList = [':', ':'] by decide +kernel] at hc
          simpa using hc
        rw [this]; decide
    · rcases List.mem_append.mp hc with hc | hc
      · exact hhd hlo c hc
      · exact hq' hq c hc

theorem Quad6.ne_nil {s : Str} {n : Nat} (h : Quad6 s n) : s ≠ [] := by
  rintro rfl
  have := h.parse
  cases this

theorem Quad6.lt {s : Str} {n : Nat} (h : Quad6 s n) : n < 2 ^ 128 := parse6_lt h.parse

end IP

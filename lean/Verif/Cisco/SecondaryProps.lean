import Verif.Cisco.SubnetProps
import Verif.Cisco.KindProps

/-! # Properties of IOS interfaces: secondary addresses and autonegotiation -/

namespace Cisco

open Py Conf Query Re

variable {o : Opts} {lines : List Str} {P : Parsed}

/-! ## Specification -/

/-- The line is `ip address A M secondary`. -/
def Spec.Secondary (t : Str) (a : Str × Str) : Prop :=
  splitWs t = Spec.wd ["ip", "address"] ++ [a.1, a.2, "secondary".toList]

/-- The texts of an address and of a dotted mask. -/
def Spec.Pair (a : Str × Str) (n p : Nat) : Prop := IP.Quad a.1 n ∧ '.' ∈ a.2 ∧ IP.Mask4 a.2 p

/-! ## Lemmas -/

theorem det_word {v rest : Str} (hv : IsWord v) (hr : ∀ c, rest.head? = some c → isSpace c = true) (p : Prog) (c : Caps) :
    (Prog.plus .nonspace p).det (v ++ rest) c = p.det rest c := by
  cases v with
  | nil => exact absurd rfl hv.1
  | cons x v =>
    have hx : K.nonspace.has x = true := by simp [K.has, hv.2 x (by simp)]
    rw [List.cons_append, Prog.det.eq_def]
    simp only [if_pos hx]
    rw [List.dropWhile_append_of_pos (fun c hc => by simp [K.has, hv.2 c (by simp [hc])])]
    cases rest with
    | nil => rfl
    | cons y s => rw [List.dropWhile_cons_of_neg (by simp [K.has, hr y rfl])]

theorem gap_split (rest : Str) : ∃ g, rest = g ++ lstrip rest ∧ ∀ c ∈ g, isSpace c = true :=
  ⟨rest.takeWhile isSpace, List.takeWhile_append_dropWhile.symm, fun _ hc => of_mem_takeWhile hc⟩

/-- `(\S+\s+\S+)\s+secondary\s*$`. -/
def secTail : Prog :=
  .grp 1 (.plus .nonspace (.plus .space (.plus .nonspace .done))) (ends true ["secondary".toList])

theorem secWord : ∀ w ∈ ["secondary".toList], IsWord w := by
  intro w hw
  rw [List.mem_singleton.mp hw]
  exact isWord_iff.mp (by decide)

theorem sec_tail {r : Str} (h0 : lstrip r = r) (hl : Line r) (c : Caps) :
    (∀ q, secTail.det r c = some q → ∃ a m g, splitWs r = [a, m, "secondary".toList] ∧ g ≠ [] ∧ (∀ x ∈ g, isSpace x = true) ∧
      q.2.lookup 1 = some (a ++ g ++ m)) ∧
    (∀ a m, splitWs r = [a, m, "secondary".toList] → ∃ q, secTail.det r c = some q) := by
  by_cases hne : r = []
  · subst hne
    exact ⟨fun q hq => (by cases hq), fun a m h => (by cases h)⟩
  obtain ⟨a, rest, e1, e2, e3, e4⟩ := split_cons h0 hne
  by_cases hr0 : lstrip rest = []
  · have hs : splitWs rest = [] := by rw [← splitWs_lstrip, hr0]; rfl
    constructor
    · intro q hq
      obtain ⟨x, s, b1, b2, b3⟩ := (det_grp 1 _ _ rfl _ _ _).mp hq
      rw [e1, det_word e2 e3, det_sp _ e3, hr0] at b2
      split at b2 <;> cases b2
    · intro a m h
      rw [e4, hs] at h
      cases h
  obtain ⟨m, rest2, f1, f2, f3, f4⟩ := split_cons (lstrip_lstrip rest) hr0
  obtain ⟨g, g1, g2⟩ := gap_split rest
  have hg : g ≠ [] := by
    rintro rfl
    rw [List.nil_append, f1] at g1
    obtain ⟨x, m', rfl⟩ := List.exists_cons_of_ne_nil f2.1
    have := e3 x (by rw [g1]; rfl)
    rw [f2.2 x (by simp)] at this
    cases this
  have hr1 : rest ≠ [] := by rintro rfl; exact hr0 rfl
  have er : r = a ++ g ++ m ++ rest2 := by
    rw [f1] at g1
    rw [e1, g1]; simp
  have hl2 : Line rest2 := line_suffix ⟨a ++ g ++ m, er.symm⟩ hl
  have key : ∀ q, secTail.det r c = some q ↔
      splitWs rest2 = ["secondary".toList] ∧ q = ([], (1, a ++ g ++ m) :: c) := by
    intro q
    rw [secTail, det_grp 1 _ _ rfl]
    have hb : (Prog.plus .nonspace (.plus .space (.plus .nonspace .done))).det r c = some (rest2, c) := by
      rw [e1, det_word e2 e3, det_sp _ e3, if_neg hr1, f1, det_word f2 f3, Prog.det]
    rw [hb]
    constructor
    · rintro ⟨x, s, b1, b2, b3⟩
      cases b2
      have hx : x = a ++ g ++ m := by
        apply List.append_cancel_right (bs := rest2)
        rw [← b1, er]
      subst hx
      exact (det_ends true secWord f3 hl2 _ _).mp b3
    · intro hq
      exact ⟨a ++ g ++ m, rest2, er, rfl, (det_ends true secWord f3 hl2 _ _).mpr hq⟩
  have hsp : splitWs r = a :: m :: splitWs rest2 := by rw [e4, ← splitWs_lstrip rest, f4]
  constructor
  · intro q hq
    obtain ⟨k1, rfl⟩ := (key q).mp hq
    exact ⟨a, m, g, by rw [hsp, k1], hg, g2, rfl⟩
  · intro a' m' h
    rw [hsp] at h
    exact ⟨_, (key _).mpr ⟨by simpa using (List.cons.inj (List.cons.inj h).2).2, rfl⟩⟩

theorem pair_text {a m g : Str} {ob : IP.V4} (ha : IsWord a) (hm : IsWord m) (hg : g ≠ []) (hs : ∀ x ∈ g, isSpace x = true) :
    IP.V4.ofStr (a ++ g ++ m) = .ok ob ↔ ∃ n p, Spec.Pair (a, m) n p ∧ ob = IP.obj4 n p := by
  rw [IP.C93_exact]
  have hstrip : strip (a ++ g ++ m) = a ++ g ++ m := by
    apply strip_of_ends
    · intro x hx
      obtain ⟨y, a', rfl⟩ := List.exists_cons_of_ne_nil ha.1
      cases hx
      exact ha.2 _ (by simp)
    · intro x hx
      rw [List.getLast?_append] at hx
      cases hl : m.getLast? with
      | none => exact absurd (List.getLast?_eq_none_iff.mp hl) hm.1
      | some y =>
        rw [hl] at hx
        cases hx
        exact hm.2 _ (List.mem_of_getLast? hl)
  rw [hstrip]
  obtain ⟨y, g', rfl⟩ := List.exists_cons_of_ne_nil hg
  have hy := hs y (by simp)
  constructor
  · rintro ⟨n, p, h, rfl⟩
    refine ⟨n, p, ?_, rfl⟩
    rcases h with ⟨a', hq, h⟩ | ⟨a', w, m', hq, hw, hsp, hd, hm', e⟩
    · exfalso
      have hns : ∀ c ∈ a ++ (y :: g') ++ m, isSpace c = false := by
        have hqa : ∀ c ∈ a', isSpace c = false := by
          rw [(IP.Quad.dotted.mp hq).2]; exact IP.dotted_noSpace n
        rcases h with ⟨h, _⟩ | ⟨m', hm', h⟩
        · rw [h]; exact hqa
        · rw [h]
          intro c hc
          rcases List.mem_append.mp hc with hc | hc
          · rcases List.mem_append.mp hc with hc | hc
            · exact hqa c hc
            · rw [show c = '/' by simpa using hc]; decide
          · rcases hm'.text.1 with h | ⟨k, rfl⟩
            · exact isDigit_not_space (allDigits_mem h _ hc)
            · exact IP.dotted_noSpace k c hc
      have := hns y (by simp)
      rw [hy] at this; cases this
    · have ha' : IsWord a' := by
        rw [(IP.Quad.dotted.mp hq).2]
        refine ⟨?_, IP.dotted_noSpace n⟩
        intro e
        have := IP.scanQuad_dotted n [] (by simp)
        rw [e] at this
        cases this
      have hr1 : ∀ c, ((y :: g') ++ m).head? = some c → isSpace c = true := by
        intro c hc; cases hc; exact hy
      have hr2 : ∀ c, (w ++ m').head? = some c → isSpace c = true := by
        obtain ⟨z, w', rfl⟩ := List.exists_cons_of_ne_nil hw
        intro c hc; cases hc; exact hsp _ (by simp)
      have d1 := (prefix_word ha (List.prefix_append a ((y :: g') ++ m)) (by rw [List.drop_left]; exact hr1)).1
      have d2 := (prefix_word ha' (List.prefix_append a' (w ++ m')) (by rw [List.drop_left]; exact hr2)).1
      rw [← List.append_assoc, e, List.append_assoc, d2] at d1
      subst d1
      have e' : (y :: g') ++ m = w ++ m' := by
        apply List.append_cancel_left (as := a')
        rw [← List.append_assoc, e, List.append_assoc]
      have hmw : ∀ c ∈ m', isSpace c = false := by
        rcases hm'.text.1 with h | ⟨k, rfl⟩
        · exact fun c hc => isDigit_not_space (allDigits_mem h _ hc)
        · exact IP.dotted_noSpace k
      have hmne : m' ≠ [] := List.ne_nil_of_mem hd
      have l1 : lstrip ((y :: g') ++ m) = m := by
        rw [lstrip, List.dropWhile_append_of_pos (p := isSpace) hs]
        obtain ⟨z, m2, rfl⟩ := List.exists_cons_of_ne_nil hm.1
        rw [List.dropWhile_cons_of_neg (by rw [hm.2 z (by simp)]; simp)]
      have l2 : lstrip (w ++ m') = m' := by
        rw [lstrip, List.dropWhile_append_of_pos (p := isSpace) hsp]
        obtain ⟨z, m2, rfl⟩ := List.exists_cons_of_ne_nil hmne
        rw [List.dropWhile_cons_of_neg (by rw [hmw z (by simp)]; simp)]
      rw [e', l2] at l1
      subst l1
      exact ⟨hq, hd, hm'⟩
  · rintro ⟨n, p, ⟨h1, h2, h3⟩, rfl⟩
    exact ⟨n, p, .inr ⟨a, y :: g', m, h1, hg, hs, h2, h3, rfl⟩, rfl⟩

/-- The object of one line, by its words. -/
theorem secondary_of (h : parse o lines = .ok P) (hn : ∀ l ∈ lines, '\n' ∉ l) (j : Nat) :
    ∃ v, Spec.First Spec.Secondary (Spec.family P j) v ∧
      (v = none → secondaryOf P j = .ok none) ∧
      (∀ a n p, v = some a → Spec.Pair a n p → secondaryOf P j = .ok (some (IP.obj4 n p))) ∧
      (∀ a, v = some a → (∀ n p, ¬ Spec.Pair a n p) → ∃ e, secondaryOf P j = .error e) := by
  have hi : Is reSecondary (lead false (wordsG (gaps true ["ip", "address"]) secTail)) 1 [("secondary".toList, 1)] := by
    decide +kernel
  have hnil : ∀ c, secTail.det [] c = none := fun _ => rfl
  obtain ⟨v, h1, h2⟩ := firstDet_first (S := Spec.Secondary) (p := lead false (wordsG (gaps true ["ip", "address"]) secTail))
    (C := fun c a => ∃ g, g ≠ [] ∧ (∀ x ∈ g, isSpace x = true) ∧ IsWord a.1 ∧ IsWord a.2 ∧ c.lookup 1 = some (a.1 ++ g ++ a.2))
    (Spec.family P j) (by
      intro t ht q hq
      obtain ⟨b1, b2, b3⟩ := (det_chain false (words_of ipGaps) _ hnil (ipFits t) [] q).mp hq
      obtain ⟨a, m, g, c1, c2, c3, c4⟩ := (sec_tail (lstrip_skip _ (lstrip_lstrip t))
        (line_suffix ((skip_suffix _ _).trans (lstrip_suffix t)) (line_family h hn j t ht)) _).1 q b3
      rw [splitWs_skip _ (lstrip_lstrip t), splitWs_lstrip] at c1
      rw [fst_gaps] at b2
      have e : splitWs t = Spec.wd ["ip", "address"] ++ [a, m, "secondary".toList] := by
        rw [prefix_append_drop b2, ← c1]; rfl
      have hw := splitWs_words t
      rw [e] at hw
      exact ⟨(a, m), e, g, c2, c3, hw a (by simp), hw m (by simp), c4⟩) (by
      rintro t ht ⟨a, m⟩ hs
      obtain ⟨q, hq⟩ := (sec_tail (lstrip_skip (gaps true ["ip", "address"]).length (lstrip_lstrip t))
        (line_suffix ((skip_suffix _ _).trans (lstrip_suffix t)) (line_family h hn j t ht)) []).2 a m (by
        rw [splitWs_skip _ (lstrip_lstrip t), splitWs_lstrip, hs]; rfl)
      refine ⟨q, (det_chain false (words_of ipGaps) _ hnil (ipFits t) [] q).mpr ⟨fun h => (by cases h), ?_, hq⟩⟩
      rw [fst_gaps, hs]
      exact List.prefix_append _ _)
  have hdict := firstMatch_det _ hi.2 1 [("secondary".toList, 1)] (texts P j)
  have key : secondaryOf P j = match firstDet (lead false (wordsG (gaps true ["ip", "address"]) secTail)) (Spec.family P j) with
      | none => .ok none
      | some c => match c.lookup 1 with
        | some s => (IP.V4.ofStr s).map some
        | none => .error .addressValue := by
    rw [← texts_family, ← hdict, secondaryOf, hi.1]
    dsimp only
    cases firstMatch ⟨seqs (.bol :: (lead false (wordsG (gaps true ["ip", "address"]) secTail)).toL), 1, [("secondary".toList, 1)]⟩ (texts P j) with
    | none => rfl
    | some m =>
      show (match (List.map (fun x : Str × Nat => (x.1, m.caps.lookup x.2)) [("secondary".toList, 1)]).lookup "secondary".toList with
        | some (some s) => (IP.V4.ofStr s).map some
        | _ => .error .addressValue) = _
      rw [show (List.map (fun x : Str × Nat => (x.1, m.caps.lookup x.2)) [("secondary".toList, 1)]).lookup "secondary".toList = some (m.caps.lookup 1) from rfl]
      show _ = (match m.caps.lookup 1 with
        | some s => (IP.V4.ofStr s).map some
        | none => .error .addressValue)
      cases m.caps.lookup 1 <;> rfl
  refine ⟨v, h1, ?_⟩
  rcases h2 with ⟨rfl, h3⟩ | ⟨a, c, rfl, h3, g, g1, g2, g3, g4, g5⟩
  · rw [key, h3]
    exact ⟨fun _ => rfl, fun _ _ _ h => (by cases h), fun _ h => (by cases h)⟩
  · rw [key, h3]
    dsimp only
    rw [g5]
    dsimp only
    refine ⟨fun h => (by cases h), ?_, ?_⟩
    · intro b n p e hp
      cases e
      rw [(pair_text g3 g4 g1 g2).mpr ⟨n, p, hp, rfl⟩]
      rfl
    · intro b e hp
      cases e
      cases hof : IP.V4.ofStr (a.1 ++ g ++ a.2) with
      | error e => exact ⟨e, rfl⟩
      | ok ob =>
        obtain ⟨n, p, h, _⟩ := (pair_text g3 g4 g1 g2).mp hof
        exact absurd h (hp n p)

theorem desc_trans {a b c : Nat} (h1 : Query.Spec.Desc P a b) (h2 : Query.Spec.Desc P b c) : Query.Spec.Desc P a c := by
  induction h1 with
  | child h => exact .step h h2
  | step h _ ih => exact .step h (ih h2)

theorem first_secondary {ts : List Str} {v : Option (Str × Str)} (h : Spec.First Spec.Secondary ts v) :
    (∀ a, v = some a → ∃ t ∈ ts, Spec.Secondary t a) ∧ (v = none → ∀ t ∈ ts, ∀ a, ¬ Spec.Secondary t a) :=
  ⟨(first_exists h).2, (first_exists h).1.mp⟩

theorem secondary_unique {t : Str} {a b : Str × Str} (h1 : Spec.Secondary t a) (h2 : Spec.Secondary t b) : a = b := by
  have := List.append_cancel_left (h1.symm.trans h2)
  simp only [List.cons.injEq, and_true] at this
  exact Prod.ext this.1 this.2

theorem family_desc {j : Nat} {t : Str} (h : t ∈ Spec.family P j) :
    t = (P.h j).text ∨ ∃ k, Query.Spec.Desc P j k ∧ t = (P.h k).text := by
  rcases List.mem_cons.mp h with h | h
  · exact .inl h
  · obtain ⟨k, hk, rfl⟩ := List.mem_map.mp h
    exact .inr ⟨k, allAux_sound _ _ hk, rfl⟩

/-- The loop over lines that are below `r`. -/
theorem secondary_loop (h : parse o lines = .ok P) (hn : ∀ l ∈ lines, '\n' ∉ l) (f : IP.V4 → Str) {r : Nat} (js : List Nat)
    (acc : List Str) (hj : ∀ j ∈ js, Query.Spec.Desc P r j) :
    ((∀ k a, Query.Spec.Desc P r k → Spec.Secondary (P.h k).text a → ∃ n p, Spec.Pair a n p) →
      acc.Nodup → ∃ S, secondaryLoop P f js acc = .ok S ∧ S.Nodup ∧ (∀ x ∈ acc, x ∈ S) ∧
        (∀ x ∈ S, x ∈ acc ∨ ∃ k a n p, Query.Spec.Desc P r k ∧ Spec.Secondary (P.h k).text a ∧ Spec.Pair a n p ∧ x = f (IP.obj4 n p)) ∧
        (∀ j ∈ js, ∀ a n p, Spec.Secondary (P.h j).text a → Spec.Pair a n p → f (IP.obj4 n p) ∈ S)) ∧
    ((∃ j ∈ js, ∃ a, Spec.Secondary (P.h j).text a ∧ ∀ n p, ¬ Spec.Pair a n p) → ∃ e, secondaryLoop P f js acc = .error e) := by
  induction js generalizing acc with
  | nil => exact ⟨fun _ hd => ⟨acc, rfl, hd, fun _ h => h, fun _ h => .inl h, fun j hj => (by simp at hj)⟩, fun ⟨j, hj, _⟩ => (by simp at hj)⟩
  | cons j js ih =>
    have hjr := hj j (by simp)
    have ih' := fun acc => ih acc (fun k hk => hj k (by simp [hk]))
    obtain ⟨v, h1, h2, h3, h4⟩ := secondary_of h hn j
    obtain ⟨m1, m2⟩ := first_secondary h1
    have hself : ∀ a, Spec.Secondary (P.h j).text a → v = some a := by
      intro a ha
      rcases h1 with ⟨b, hb, hv⟩ | ⟨hb, _⟩
      · rw [hv, secondary_unique hb ha]
      · exact absurd ha (hb a)
    have hdesc : ∀ t ∈ Spec.family P j, ∃ k, Query.Spec.Desc P r k ∧ t = (P.h k).text := by
      intro t ht
      rcases family_desc ht with rfl | ⟨k, hk, rfl⟩
      · exact ⟨j, hjr, rfl⟩
      · exact ⟨k, desc_trans hjr hk, rfl⟩
    constructor
    · intro hall hd
      cases v with
      | none =>
        obtain ⟨S, s1, s2, s3, s4, s5⟩ := (ih' acc).1 hall hd
        refine ⟨S, ?_, s2, s3, s4, ?_⟩
        · rw [secondaryLoop, h2 rfl]; exact s1
        · intro k hk a n p ha hp
          rcases List.mem_cons.mp hk with rfl | hk
          · cases hself a ha
          · exact s5 k hk a n p ha hp
      | some a =>
        obtain ⟨t, ht, hs⟩ := m1 a rfl
        obtain ⟨k, hk, rfl⟩ := hdesc t ht
        obtain ⟨n, p, hp⟩ := hall k a hk hs
        have hd' : (if f (IP.obj4 n p) ∈ acc then acc else acc ++ [f (IP.obj4 n p)]).Nodup := by
          split
          · exact hd
          · rename_i hx
            exact List.nodup_append.mpr ⟨hd, by simp, by rintro x hx' y hy rfl; simp at hy; exact hx (hy ▸ hx')⟩
        have hmem : ∀ x, x ∈ (if f (IP.obj4 n p) ∈ acc then acc else acc ++ [f (IP.obj4 n p)]) ↔ x ∈ acc ∨ x = f (IP.obj4 n p) := by
          intro x
          split
          · rename_i hx
            exact ⟨.inl, fun hh => hh.elim id (fun e => e ▸ hx)⟩
          · simp
        obtain ⟨S, s1, s2, s3, s4, s5⟩ := (ih' _).1 hall hd'
        refine ⟨S, ?_, s2, fun x hx => s3 x ((hmem x).mpr (.inl hx)), ?_, ?_⟩
        · rw [secondaryLoop, h3 a n p rfl hp]; exact s1
        · intro x hx
          rcases s4 x hx with h | h
          · rcases (hmem x).mp h with h | rfl
            · exact .inl h
            · exact .inr ⟨k, a, n, p, hk, hs, hp, rfl⟩
          · exact .inr h
        · intro k' hk' a' n' p' ha' hp'
          rcases List.mem_cons.mp hk' with rfl | hk'
          · cases hself a' ha'
            have e : IP.obj4 n' p' = IP.obj4 n p := by
              have := (h3 a n' p' rfl hp').symm.trans (h3 a n p rfl hp)
              exact Option.some.inj (Except.ok.inj this)
            rw [e]
            exact s3 _ ((hmem _).mpr (.inr rfl))
          · exact s5 k' hk' a' n' p' ha' hp'
    · rintro ⟨k, hk, a, ha, hbad⟩
      rcases List.mem_cons.mp hk with rfl | hk
      · obtain ⟨e, he⟩ := h4 a (hself a ha) hbad
        exact ⟨e, by rw [secondaryLoop, he]; rfl⟩
      · cases hso : secondaryOf P j with
        | error e => exact ⟨e, by rw [secondaryLoop, hso]; rfl⟩
        | ok w =>
          cases w with
          | none =>
            obtain ⟨e, he⟩ := (ih' acc).2 ⟨k, hk, a, ha, hbad⟩
            exact ⟨e, by rw [secondaryLoop, hso]; exact he⟩
          | some ob =>
            obtain ⟨e, he⟩ := (ih' (if f ob ∈ acc then acc else acc ++ [f ob])).2 ⟨k, hk, a, ha, hbad⟩
            exact ⟨e, by rw [secondaryLoop, hso]; exact he⟩

/-! ## C171: `ip_secondary_addresses` and `ip_secondary_networks` -/

/-- The sets, with `all_children`. -/
theorem secondary_sets (h : parse o lines = .ok P) (hn : ∀ l ∈ lines, '\n' ∉ l) (i : Nat) (hi : (P.h i).parent = i)
    (hv : ∀ k a, Query.Spec.Desc P i k → Spec.Secondary (P.h k).text a → ∃ n p, Spec.Pair a n p) :
    (∃ S, ipSecondaryAddresses P i = .ok S ∧ S.Nodup ∧
      (∀ x ∈ S, ∃ k a n p, Query.Spec.Desc P i k ∧ Spec.Secondary (P.h k).text a ∧ Spec.Pair a n p ∧ x = a.1) ∧
      (∀ k ∈ allChildren P i, ∀ a, Spec.Secondary (P.h k).text a → a.1 ∈ S)) ∧
    ∃ S, ipSecondaryNetworks P i = .ok S ∧ S.Nodup ∧
      (∀ x ∈ S, ∃ k a n p, Query.Spec.Desc P i k ∧ Spec.Secondary (P.h k).text a ∧ Spec.Pair a n p ∧
        x = a.1 ++ "/".toList ++ natStr p) ∧
      (∀ k ∈ allChildren P i, ∀ a n p, Spec.Secondary (P.h k).text a → Spec.Pair a n p → a.1 ++ "/".toList ++ natStr p ∈ S) := by
  have hd : ∀ {a : Str × Str} {n p : Nat}, Spec.Pair a n p → IP.dotted (IP.obj4 n p).ip = a.1 := fun hp => (IP.Quad.dotted.mp hp.1).2.symm
  have hkd : ∀ k ∈ allChildren P i, Query.Spec.Desc P i k := fun k hk => allAux_sound _ _ hk
  constructor
  · obtain ⟨S, s1, s2, -, s4, s5⟩ := (secondary_loop h hn (fun ob => IP.dotted ob.ip) (allChildren P i) [] hkd).1 hv .nil
    refine ⟨S, by rw [ipSecondaryAddresses, hi, s1], s2, ?_, ?_⟩
    · intro x hx
      rcases s4 x hx with h | ⟨k, a, n, p, b1, b2, b3, rfl⟩
      · cases h
      · exact ⟨k, a, n, p, b1, b2, b3, hd b3⟩
    · intro k hk a ha
      obtain ⟨n, p, hp⟩ := hv k a (hkd k hk) ha
      rw [← hd hp]
      exact s5 k hk a n p ha hp
  · obtain ⟨S, s1, s2, -, s4, s5⟩ := (secondary_loop h hn (fun ob => IP.dotted ob.ip ++ '/' :: natStr ob.plen) (allChildren P i) [] hkd).1 hv .nil
    refine ⟨S, by rw [ipSecondaryNetworks, hi, s1], s2, ?_, ?_⟩
    · intro x hx
      rcases s4 x hx with h | ⟨k, a, n, p, b1, b2, b3, rfl⟩
      · cases h
      · exact ⟨k, a, n, p, b1, b2, b3, by rw [hd b3]; simp [IP.obj4]⟩
    · intro k hk a n p ha hp
      have := s5 k hk a n p ha hp
      rw [hd hp] at this
      simpa [IP.obj4] using this

/-- An exception, with `all_children`. -/
theorem secondary_invalid (h : parse o lines = .ok P) (hn : ∀ l ∈ lines, '\n' ∉ l) (i : Nat) (hi : (P.h i).parent = i)
    (hv : ∃ k ∈ allChildren P i, ∃ a, Spec.Secondary (P.h k).text a ∧ ∀ n p, ¬ Spec.Pair a n p) :
    (∃ e, ipSecondaryAddresses P i = .error e) ∧ ∃ e, ipSecondaryNetworks P i = .error e := by
  have hkd : ∀ k ∈ allChildren P i, Query.Spec.Desc P i k := fun k hk => allAux_sound _ _ hk
  refine ⟨?_, ?_⟩
  · rw [ipSecondaryAddresses, hi]
    exact (secondary_loop h hn _ (allChildren P i) [] hkd).2 hv
  · rw [ipSecondaryNetworks, hi]
    exact (secondary_loop h hn _ (allChildren P i) [] hkd).2 hv

/-- C171: for an interface that is a line of its own (not below another line), if every line `ip
address A M secondary` below it has a valid address and mask, `ip_secondary_addresses` is the set
of these addresses, each once, and `ip_secondary_networks` is the set of the same addresses with
their mask lengths. -/
theorem C171_sets (h : parse o lines = .ok P) (hn : ∀ l ∈ lines, '\n' ∉ l) (i : Nat) (hl : i ∈ P.list) (hi : (P.h i).parent = i)
    (hd : Query.Spec.KidsNoDigits P)
    (hv : ∀ k a, Query.Spec.Desc P i k → Spec.Secondary (P.h k).text a → ∃ n p, Spec.Pair a n p) :
    (∃ S, ipSecondaryAddresses P i = .ok S ∧ S.Nodup ∧
      (∀ x ∈ S, ∃ k a n p, Query.Spec.Desc P i k ∧ Spec.Secondary (P.h k).text a ∧ Spec.Pair a n p ∧ x = a.1) ∧
      (∀ k a, Query.Spec.Desc P i k → Spec.Secondary (P.h k).text a → a.1 ∈ S)) ∧
    ∃ S, ipSecondaryNetworks P i = .ok S ∧ S.Nodup ∧
      (∀ x ∈ S, ∃ k a n p, Query.Spec.Desc P i k ∧ Spec.Secondary (P.h k).text a ∧ Spec.Pair a n p ∧
        x = a.1 ++ "/".toList ++ natStr p) ∧
      (∀ k a n p, Query.Spec.Desc P i k → Spec.Secondary (P.h k).text a → Spec.Pair a n p → a.1 ++ "/".toList ++ natStr p ∈ S) := by
  have hm : ∀ {k}, Query.Spec.Desc P i k → k ∈ allChildren P i := fun hk =>
    (mem_allChildren (tree_of_parse h) (kidsDistinct_of_parse h hd) hl).mpr hk
  obtain ⟨⟨S, a1, a2, a3, a4⟩, S', b1, b2, b3, b4⟩ := secondary_sets h hn i hi hv
  exact ⟨⟨S, a1, a2, a3, fun k a hk ha => a4 k (hm hk) a ha⟩, S', b1, b2, b3, fun k a n p hk ha => b4 k (hm hk) a n p ha⟩

/-- C171: a line `ip address A M secondary` without a valid address and dotted mask makes both
raise an exception. -/
theorem C171_invalid (h : parse o lines = .ok P) (hn : ∀ l ∈ lines, '\n' ∉ l) (i : Nat) (hl : i ∈ P.list) (hi : (P.h i).parent = i)
    (hd : Query.Spec.KidsNoDigits P)
    (hv : ∃ k a, Query.Spec.Desc P i k ∧ Spec.Secondary (P.h k).text a ∧ ∀ n p, ¬ Spec.Pair a n p) :
    (∃ e, ipSecondaryAddresses P i = .error e) ∧ ∃ e, ipSecondaryNetworks P i = .error e := by
  obtain ⟨k, a, hk, ha⟩ := hv
  exact secondary_invalid h hn i hi ⟨k, (mem_allChildren (tree_of_parse h) (kidsDistinct_of_parse h hd) hl).mpr hk, a, ha⟩

/-- C171: `has_ip_secondary` is true exactly if the interface has a line `ip address A M
secondary`. -/
theorem C171_has (h : parse o lines = .ok P) (hn : ∀ l ∈ lines, '\n' ∉ l) (i : Nat) :
    ∃ b, hasIpSecondary P i = .ok (.bool b) ∧ (b = true ↔ ∃ t ∈ Spec.family P i, ∃ a, Spec.Secondary t a) := by
  have hT := tail_skip (tail_skip (tail_exact 1 (secWord "secondary".toList (by simp)) true))
  have hi : Is "^\\s*ip\\s+address\\s+\\S+\\s+\\S+\\s+(?P<secondary>secondary)\\s*$"
    (lead false (wordsG (gaps true ["ip", "address"]) (.plus .nonspace (.plus .space (.plus .nonspace (.plus .space
      (.grp 1 (str "secondary".toList .done) (ends true [])))))))) 1 [("secondary".toList, 1)] := by decide +kernel
  obtain ⟨v, h1, h2⟩ := firstDet_first (S := Spec.Secondary) (C := fun c _ => c.lookup 1 = some "secondary".toList)
    (p := (lead false (wordsG (gaps true ["ip", "address"]) (.plus .nonspace (.plus .space (.plus .nonspace (.plus .space
      (.grp 1 (str "secondary".toList .done) (ends true [])))))))))
    (Spec.family P i) (by
      intro t ht q hq
      obtain ⟨more, v, b1, b2, b3, b4⟩ := (chain_tail false ipGaps hT (line_family h hn i t ht) (ipFits t) []).1 q hq
      obtain ⟨a, more', rfl, m, more'', rfl, rfl, rfl⟩ := b3
      rw [fst_gaps] at b2
      exact ⟨(a, m), b2, b4⟩) (by
      rintro t ht a ha
      exact (chain_tail false ipGaps hT (line_family h hn i t ht) (ipFits t) []).2 _ "secondary".toList (by simp) (by rw [fst_gaps]; exact ha)
        ⟨a.1, _, rfl, a.2, _, rfl, rfl, rfl⟩)
  rw [hasIpSecondary, dict_det hi]
  obtain ⟨m1, m2⟩ := first_secondary h1
  rcases h2 with ⟨rfl, h3⟩ | ⟨a, c, rfl, h3, h4⟩
  · refine ⟨false, by rw [h3]; rfl, ?_⟩
    simp only [Bool.false_eq_true, false_iff, not_exists, not_and]
    exact m2 rfl
  · refine ⟨true, ?_, ?_⟩
    · rw [h3]
      dsimp only
      rw [show List.map (fun x : Str × Nat => (x.1, List.lookup x.2 c)) [("secondary".toList, 1)] = [("secondary".toList, some "secondary".toList)] by
        simp only [List.map_cons, List.map_nil, h4]]
      rfl
    · obtain ⟨t, ht, hs⟩ := m1 a rfl
      exact ⟨fun _ => ⟨t, ht, a, hs⟩, fun _ => rfl⟩

example : ∃ P, parse { factory := true } subLines = .ok P ∧
    ((P.h 0).parent == 0 && ipSecondaryAddresses P 0 == .ok ["10.9.8.7".toList, "10.9.8.8".toList] &&
      ipSecondaryNetworks P 0 == .ok ["10.9.8.7/16".toList, "10.9.8.8/16".toList] && ipSecondaryAddresses P 4 == .ok [] &&
      hasIpSecondary P 0 == .ok (.bool true) && hasIpSecondary P 4 == .ok (.bool false)) = true :=
  of_shows (by decide +kernel)

/-! ## C172: `has_autonegotiation` -/

/-- A line `duplex` and a value of at least two letters. -/
def Spec.DuplexLine (t : Str) : Prop := ∃ r, Spec.Rest "duplex" t r ∧ 2 ≤ r.length

theorem duplex_flag (h : parse o lines = .ok P) (hn : ∀ l ∈ lines, '\n' ∉ l) (i : Nat) :
    ∃ b, hasManualDuplex P i = .ok b ∧ (b = true ↔ ∃ t ∈ Spec.family P i, Spec.DuplexLine t) := by
  have hi : Is "^\\s*duplex\\s+(\\S.+)$" (restProg "duplex" true) 1 [] ∧ isWord "duplex".toList = true := by decide +kernel
  refine iter_flag hi.1 (by decide) (by decide) P i ?_ ?_
  · intro t ht q hq
    obtain ⟨r, h1, h2, rfl⟩ := (rest_det hi.2 true (line_family h hn i t ht) q).mp hq
    have := h2 rfl
    exact ⟨⟨r, h1, this⟩, r, rfl, by rintro rfl; simp at this⟩
  · rintro t ht ⟨r, h1, h2⟩
    exact ⟨_, (rest_det hi.2 true (line_family h hn i t ht) _).mpr ⟨r, h1, fun _ => h2, rfl⟩⟩

/-- C172: `has_autonegotiation` is true exactly if the interface is an Ethernet one, and it has
neither a line `speed` with a number nor a line `duplex` with a value. -/
theorem C172_auto_partial (h : parse o lines = .ok P) (hn : ∀ l ∈ lines, '\n' ∉ l) (i : Nat)
    (ht : ¬ Spec.Indented (P.h i).text) :
    ∃ b, hasAutonegotiation P i = .ok b ∧ (b = true ↔
      (∃ more, splitWs (P.h i).text = "interface".toList :: more ∧ ∃ w ∈ more, ∃ a x s, w = a ++ x :: "thernet".toList ++ s) ∧
      (¬ ∃ t ∈ Spec.family P i, ∃ n, Spec.Number ["speed"] [] t n) ∧ ¬ ∃ t ∈ Spec.family P i, Spec.DuplexLine t) := by
  have hl := line_family h hn i (P.h i).text (List.mem_cons_self ..)
  have hs : lstrip (P.h i).text = (P.h i).text := by
    cases e : (P.h i).text with
    | nil => rfl
    | cons x s =>
      rw [lstrip, List.dropWhile_cons_of_neg]
      intro hx
      exact ht ⟨x, by rw [e]; rfl, hx⟩
  obtain ⟨b1, h1, h2⟩ := C84_ethernet hl hs
  obtain ⟨b2, h3, h4⟩ := C73_speed h hn i
  obtain ⟨b3, h5, h6⟩ := duplex_flag h hn i
  rw [hasAutonegotiation, h1, h3, h5, ← h2, ← h4, ← h6]
  cases b1 <;> cases b2 <;> cases b3 <;> exact ⟨_, rfl, by simp⟩

/-- C172 fails for `duplex auto`: it asks for negotiation, and `has_autonegotiation` is false. -/
theorem C172_duplex_auto_fails : ∃ P, parse { factory := true }
      ["interface FastEthernet0/1".toList, " speed auto".toList, " duplex auto".toList] = .ok P ∧
    (hasAutonegotiation P 0 == .ok false) = true :=
  of_shows (by decide +kernel)

example : ∃ P, parse { factory := true } subLines = .ok P ∧
    (hasAutonegotiation P 0 == .ok true && hasAutonegotiation P 4 == .ok false) = true :=
  of_shows (by decide +kernel)

end Cisco

import Verif.Cisco.RouteProps
import Verif.IP.Text6Forms

/-! # Lemmas on the expression for IPv6 static routes -/

namespace Cisco
open Py Re IP

/-- The forms of an address, as groups `b + 1` to `b + 10`. -/
def v6optI (b i : Nat) : Rgx := .grp (b + i + 1) (seqs [times true gc i (some i), times true cg 1 (some (7 - i))])
def v6alts (b : Nat) : List Rgx :=
  [.grp (b + 1) (seqs [hexG, times true cg 7 (some 7)]), v6optI b 1, v6optI b 2, v6optI b 3, v6optI b 4, v6optI b 5, v6optI b 6,
    .grp (b + 8) (seqs [col, times true cg 1 (some 7)]), .grp (b + 9) (seqs [times true gc 1 (some 7), col]), .grp (b + 10) (seqs [col, col])]

/-- `\s+`, `\S+`. -/
def spR6 : Rgx := .seq (.cls K.space.cls) (.star true (.cls K.space.cls))
def nsR6 : Rgx := .seq (.cls K.nonspace.cls) (.star true (.cls K.nonspace.cls))

/-- An address as the groups `b` and `b + 1`. -/
def v6R (b : Nat) : Rgx := .grp b (seqs [nla6, .grp (b + 1) (alts (v6alts (b + 1)))])

/-- ` 0/1` behind the name of an interface. -/
def slotL : List Rgx := [spR6, .cls K.digit.cls, .star false (.cls K.nonspace.cls), .cls (K.chr '/').cls, nsR6]

def hop1 : List Rgx := [spR6, v6R 15]
def hop2 : List Rgx := [spR6, .grp 27 (seqs [nsR6, .opt true (seqs slotL)]), .opt true (seqs [spR6, v6R 28])]

/-- The expression behind `^`, up to the tag; this is all of it in models_nxos.py. -/
def route6LT : List Rgx :=
  (str "ipv6".toList (.plus .space (str "route".toList .done))).toL ++
  (optL (keyP "vrf".toList 1 .nonspace).toL :: seqs [spR6, v6R 2, .cls (K.chr '/').cls, .grp 14 (.seq (.cls K.digit.cls) (.star true (.cls K.digit.cls)))] ::
  .alt (seqs hop1) (seqs hop2) ::
  [optL (keyP "nexthop-vrf".toList 40 .nonspace).toL, optL (numP 41).toL,
   .opt true (seqs [spR6, .alt (.grp 42 (seqs (str "unicast".toList .done).toL)) (.grp 43 (seqs (str "multicast".toList .done).toL))]),
   optL (keyP "tag".toList 44 .digit).toL])

/-- The expression behind `^`. -/
def route6L : List Rgx := route6LT ++ [optL (keyP "track".toList 45 .digit).toL, optL (keyP "name".toList 46 .nonspace).toL]

/-- The names of its groups. -/
def route6Names : List (Str × Nat) :=
   [("vrf".toList, 1), ("prefix".toList, 2), ("addr1".toList, 3), ("opt1_1".toList, 4), ("opt1_2".toList, 5), ("opt1_3".toList, 6),
    ("opt1_4".toList, 7), ("opt1_5".toList, 8), ("opt1_6".toList, 9), ("opt1_7".toList, 10), ("opt1_8".toList, 11), ("opt1_9".toList,
    12), ("opt1_10".toList, 13), ("masklength".toList, 14), ("nh_addr1".toList, 15), ("addr2".toList, 16), ("opt2_1".toList, 17),
    ("opt2_2".toList, 18), ("opt2_3".toList, 19), ("opt2_4".toList, 20), ("opt2_5".toList, 21), ("opt2_6".toList, 22),
    ("opt2_7".toList, 23), ("opt2_8".toList, 24), ("opt2_9".toList, 25), ("opt2_10".toList, 26), ("nh_intf".toList, 27),
    ("nh_addr2".toList, 28), ("addr3".toList, 29), ("opt3_1".toList, 30), ("opt3_2".toList, 31), ("opt3_3".toList, 32),
    ("opt3_4".toList, 33), ("opt3_5".toList, 34), ("opt3_6".toList, 35), ("opt3_7".toList, 36), ("opt3_8".toList, 37),
    ("opt3_9".toList, 38), ("opt3_10".toList, 39), ("nexthop_vrf".toList, 40), ("ad".toList, 41), ("ucast".toList, 42),
    ("mcast".toList, 43), ("tag".toList, 44), ("track".toList, 45), ("name".toList, 46)]

theorem compile_route6 : (compileL reIpv6Route { verbose := true }).toOption = some ⟨seqs (.bol :: route6L), 46, route6Names⟩ := by
  decide +kernel

/-- The first match of the alternatives on an address that starts at the front. -/
def Finds6 (b n : Nat) (a r : Str) : Prop := ∀ c, ∃ k, b + 1 ≤ k ∧ k ≤ b + 10 ∧ Hit n (alts (v6alts b)) (a ++ r) c (r, (k, a) :: c)

theorem regrp {n k k' : Nat} {a : Rgx} {s : Str} {c c' : Caps} (h : Miss n (.grp k a) s c) : Miss n (.grp k' a) s c' :=
  miss_grp ((miss_iff n (.grp k a) s c).mp h)

theorem miss6_optI {b n : Nat} {hs : List Str} {y : Str} {c : Caps} (i : Nat) (hh : ∀ g ∈ hs, Grp g)
    (h : hs.length ≠ i ∨ ∀ x, y.head? = some x → isHex x = false) :
    Miss n (v6optI b i) ((hs.map (· ++ [':'])).flatten ++ ':' :: y) c := regrp (miss_optI (c := c) i hh h)

theorem finds6_full (b n : Nat) {g r : Str} {gs : List Str} (hl : gs.length = 7) (hg : Grp g) (hgs : ∀ g ∈ gs, Grp g) (hr : End r) :
    Finds6 b n (g ++ tails gs) r := by
  intro c
  refine ⟨b + 1, by omega, by omega, alt_here ?_⟩
  have h : Hit n (seqs [hexG, times true cg 7 (some 7)]) ((g ++ tails gs) ++ r) c (r, c) := by
    rw [List.append_assoc]
    refine hit_cons (hit_hexG n hg (cgs_head gs (fun x hx => (hr x hx).1))) (hit_cons (q := (r, c)) ?_ (hit_nil n _ _))
    rw [replicate_times, ← hl]
    exact hit_cgs n gs r c hgs (fun x hx => (hr x hx).1)
  exact hit_grp_app h

theorem hit6_optI (b n : Nat) {hs ls : List Str} {r : Str} (i : Nat) (hi : hs.length = i) (hh : ∀ g ∈ hs, Grp g) (hls : ∀ g ∈ ls, Grp g)
    (h1 : ls ≠ []) (h2 : i + ls.length ≤ 7) (hr : End r) (c : Caps) :
    Hit n (v6optI b i) ((heads hs ++ tails ls) ++ r) c (r, (b + i + 1, heads hs ++ tails ls) :: c) := by
  have h : Hit n (seqs [times true gc i (some i), times true cg 1 (some (7 - i))]) ((heads hs ++ tails ls) ++ r) c (r, c) := by
    rw [List.append_assoc]
    refine hit_cons (q := (tails ls ++ r, c)) ?_ (hit_cons (hit_times_cg n (7 - i) ls (List.length_pos_iff.mpr h1) (by omega) hls hr) (hit_nil n _ _))
    rw [replicate_times, ← hi]
    exact hit_gcs n hs _ c hh
  exact hit_grp_app h

theorem finds6_mid (b n : Nat) {hs ls : List Str} {r : Str} (h0 : hs ≠ []) (h1 : ls ≠ []) (h2 : hs.length + ls.length ≤ 7)
    (hh : ∀ g ∈ hs, Grp g) (hls : ∀ g ∈ ls, Grp g) (hr : End r) :
    Finds6 b n (heads hs ++ tails ls) r := by
  intro c
  have hlen : 1 ≤ hs.length := List.length_pos_iff.mpr h0
  have hlen' : 1 ≤ ls.length := List.length_pos_iff.mpr h1
  obtain ⟨y, ey, _⟩ := tails_cons ls h1
  have es : (heads hs ++ tails ls) ++ r = (hs.map (· ++ [':'])).flatten ++ ':' :: (y ++ r) := by
    rw [List.append_assoc, ey]; rfl
  have m1 : Miss n (.grp (b + 1) (seqs [hexG, times true cg 7 (some 7)])) ((heads hs ++ tails ls) ++ r) c := by
    rw [es]; exact regrp (miss_opt1 (c := c) hh (by omega))
  have mI : ∀ i, hs.length ≠ i → Miss n (v6optI b i) ((heads hs ++ tails ls) ++ r) c := by
    intro i hi; rw [es]; exact miss6_optI i hh (.inl hi)
  have hI := hit6_optI b n hs.length rfl hh hls h1 h2 hr c
  refine ⟨b + hs.length + 1, by omega, by omega, alt_next m1 ?_⟩
  by_cases c1 : hs.length = 1
  · rw [c1] at hI ⊢; exact alt_here hI
  refine alt_next (mI 1 c1) ?_
  by_cases c2 : hs.length = 2
  · rw [c2] at hI ⊢; exact alt_here hI
  refine alt_next (mI 2 c2) ?_
  by_cases c3 : hs.length = 3
  · rw [c3] at hI ⊢; exact alt_here hI
  refine alt_next (mI 3 c3) ?_
  by_cases c4 : hs.length = 4
  · rw [c4] at hI ⊢; exact alt_here hI
  refine alt_next (mI 4 c4) ?_
  by_cases c5 : hs.length = 5
  · rw [c5] at hI ⊢; exact alt_here hI
  refine alt_next (mI 5 c5) ?_
  by_cases c6 : hs.length = 6
  · rw [c6] at hI ⊢; exact alt_here hI
  omega

theorem finds6_lead (b n : Nat) {ls : List Str} {r : Str} (h1 : ls ≠ []) (h2 : ls.length ≤ 7) (hls : ∀ g ∈ ls, Grp g) (hr : End r) :
    Finds6 b n (':' :: tails ls) r := by
  intro c
  obtain ⟨y, ey, _⟩ := tails_cons ls h1
  have m1 : Miss n (.grp (b + 1) (seqs [hexG, times true cg 7 (some 7)])) ((':' :: tails ls) ++ r) c :=
    regrp (miss_opt1 (c := c) (hs := []) (y := tails ls ++ r) (by simp) (by simp))
  have mI : ∀ i, Miss n (v6optI b i) ((':' :: tails ls) ++ r) c := fun i =>
    miss6_optI (hs := []) (y := tails ls ++ r) i (by simp) (.inr (by rw [ey]; intro x hx; cases hx; exact colon_not_hex))
  refine ⟨b + 8, by omega, by omega, alt_next m1 (alt_next (mI 1) (alt_next (mI 2) (alt_next (mI 3) (alt_next (mI 4) (alt_next (mI 5)
    (alt_next (mI 6) (alt_here ?_)))))))⟩
  have h : Hit n (seqs [col, times true cg 1 (some 7)]) ((':' :: tails ls) ++ r) c (r, c) :=
    hit_cons (hit_col n _ _) (hit_cons (hit_times_cg n 7 ls (List.length_pos_iff.mpr h1) h2 hls hr) (hit_nil n _ _))
  exact hit_grp_app h

theorem finds6_trail (b n : Nat) {hs : List Str} {r : Str} (h1 : hs ≠ []) (h2 : hs.length ≤ 7) (hh : ∀ g ∈ hs, Grp g) (hr : End r) :
    Finds6 b n (heads hs ++ [':']) r := by
  intro c
  have es : (heads hs ++ [':']) ++ r = (hs.map (· ++ [':'])).flatten ++ ':' :: r := by
    rw [List.append_assoc]; rfl
  have m1 : Miss n (.grp (b + 1) (seqs [hexG, times true cg 7 (some 7)])) ((heads hs ++ [':']) ++ r) c := by
    rw [es]; exact regrp (miss_opt1 (c := c) hh (by omega))
  have mI : ∀ i, Miss n (v6optI b i) ((heads hs ++ [':']) ++ r) c := by
    intro i; rw [es]; exact miss6_optI i hh (.inr (fun x hx => (hr x hx).1))
  have m9 : Miss n (.grp (b + 8) (seqs [col, times true cg 1 (some 7)])) ((heads hs ++ [':']) ++ r) c := by
    refine regrp (miss_opt9 (c := c) ?_)
    intro g v _ e
    cases hs with
    | nil => exact h1 rfl
    | cons b hs =>
      obtain ⟨a, t, ea, ha⟩ := grp_head (hh b (by simp)) (':' :: (heads hs ++ ':' :: r))
      have e' : a :: t = ':' :: ':' :: (g ++ v) := by rw [← ea, ← e]; simp [heads]
      rw [List.cons.injEq] at e'
      rw [e'.1, colon_not_hex] at ha; cases ha
  refine ⟨b + 9, by omega, by omega, alt_next m1 (alt_next (mI 1) (alt_next (mI 2) (alt_next (mI 3) (alt_next (mI 4) (alt_next (mI 5)
    (alt_next (mI 6) (alt_next m9 (alt_here ?_))))))))⟩
  have h : Hit n (seqs [times true gc 1 (some 7), col]) ((heads hs ++ [':']) ++ r) c (r, c) := by
    rw [List.append_assoc]
    refine hit_cons (q := (':' :: r, c)) ?_ (hit_cons (hit_col n _ _) (hit_nil n _ _))
    show Hit n (seqs [gc, upTo true gc 6]) _ _ _
    cases hs with
    | nil => exact absurd rfl h1
    | cons b hs =>
      have e : heads (b :: hs) ++ ([':'] ++ r) = b ++ ':' :: ((hs.map (· ++ [':'])).flatten ++ ':' :: r) := by simp [heads]
      rw [e]
      refine hit_cons (hit_gc n _ _ (hh b (by simp))) (hit_cons (hit_upTo_gc n 6 hs ?_ (fun g hg => hh g (by simp [hg])) (fun g v hg => colon_no_grp r g v hg)) (hit_nil n _ _))
      rw [List.length_cons] at h2; omega
  exact hit_grp_app h

theorem finds6_bare (b n : Nat) {r : Str} (hr : End r) : Finds6 b n [':', ':'] r := by
  intro c
  have m1 : Miss n (.grp (b + 1) (seqs [hexG, times true cg 7 (some 7)])) ([':', ':'] ++ r) c :=
    regrp (miss_opt1 (c := c) (hs := []) (y := ':' :: r) (by simp) (by simp))
  have mI : ∀ i, Miss n (v6optI b i) ([':', ':'] ++ r) c := fun i =>
    miss6_optI (hs := []) (y := ':' :: r) i (by simp) (.inr (by intro x hx; cases hx; exact colon_not_hex))
  have m9 : Miss n (.grp (b + 8) (seqs [col, times true cg 1 (some 7)])) ([':', ':'] ++ r) c := by
    refine regrp (miss_opt9 (c := c) ?_)
    intro g v hg e
    simp at e
    obtain ⟨a, t, ea, ha⟩ := grp_head hg v
    have := (hr a (by rw [e, ea]; rfl)).1
    rw [ha] at this; cases this
  refine ⟨b + 10, by omega, by omega, alt_next m1 (alt_next (mI 1) (alt_next (mI 2) (alt_next (mI 3) (alt_next (mI 4) (alt_next (mI 5)
    (alt_next (mI 6) (alt_next m9 (alt_next (regrp (miss_opt10 (c := c))) (alt_here ?_)))))))))⟩
  have h : Hit n (seqs [col, col]) ([':', ':'] ++ r) c (r, c) := hit_cons (hit_col n _ _) (hit_cons (hit_col n _ _) (hit_nil n _ _))
  exact hit_grp_app h

theorem finds6_text {a : Str} {v : Nat} (h : Text6 a v) (b n : Nat) {r : Str} (hr : End r) :
    Finds6 b n a r ∧ ∀ w, a ++ r ≠ ':' :: ':' :: ':' :: w := by
  cases h with
  | @full gs hl hg =>
    have hne : gs ≠ [] := by rintro rfl; cases hl
    refine ⟨?_, fun w => colons_not_colon hne hg r _⟩
    obtain ⟨g, gs', rfl⟩ := List.exists_cons_of_ne_nil hne
    rw [List.length_cons] at hl
    have e : colons (g :: gs') = g.text ++ tails (gs'.map Group.text) := by
      rw [tails_join _ (by intro e; rw [List.map_eq_nil_iff] at e; rw [e] at hl; cases hl)]
      cases gs' with
      | nil => cases hl
      | cons g' gs' => simp [colons, join]
    rw [e]
    exact finds6_full b n (by rw [List.length_map]; omega) (hg g (by simp)).grp (grps (fun g h => hg g (by simp [h]))) hr
  | @short hi lo hl hh hlo =>
    rw [show "::".toList = [':', ':'] by decide +kernel]
    by_cases h1 : hi = []
    · subst h1
      by_cases h2 : lo = []
      · subst h2
        show Finds6 b n [':', ':'] r ∧ ∀ w, [':', ':'] ++ r ≠ _
        refine ⟨finds6_bare b n hr, ?_⟩
        intro w e
        simp at e
        exact (hr ':' (by rw [e]; rfl)).2 rfl
      · have e : colons [] ++ [':', ':'] ++ colons lo = ':' :: tails (lo.map Group.text) := by
          rw [tails_join _ (by simpa using h2)]; rfl
        rw [e]
        refine ⟨finds6_lead b n (by simpa using h2) (by simpa using hl) (grps hlo) hr, ?_⟩
        intro w e2
        rw [tails_join _ (by simpa using h2), List.cons_append, List.cons_append, List.cons.injEq, List.cons.injEq] at e2
        exact colons_not_colon h2 hlo r _ e2.2.2
    · refine ⟨?_, ?_⟩
      · by_cases h2 : lo = []
        · subst h2
          have e : colons hi ++ [':', ':'] ++ colons [] = heads (hi.map Group.text) ++ [':'] := by
            rw [heads_join _ (by simpa using h1)]; simp [colons, join]
          rw [e]
          exact finds6_trail b n (by simpa using h1) (by simpa using hl) (grps hh) hr
        · have e : colons hi ++ [':', ':'] ++ colons lo = heads (hi.map Group.text) ++ tails (lo.map Group.text) := by
            rw [heads_join _ (by simpa using h1), tails_join _ (by simpa using h2)]; simp [colons]
          rw [e]
          exact finds6_mid b n (by simpa using h1) (by simpa using h2) (by simpa using hl) (grps hh) (grps hlo) hr
      · intro w; rw [List.append_assoc, List.append_assoc]; exact colons_not_colon h1 hh _ _

/-- An address in the groups `b`, `b + 1` and one of the next ten. -/
theorem v6R_hit {a : Str} {v : Nat} (h : Text6 a v) (b n : Nat) {r : Str} (hr : End r) (c : Caps) :
    ∃ k, b + 2 ≤ k ∧ k ≤ b + 11 ∧ Hit n (v6R b) (a ++ r) c (r, (b, a) :: (b + 1, a) :: (k, a) :: c) := by
  obtain ⟨hf, h3⟩ := finds6_text h (b + 1) n hr
  obtain ⟨k, h1, h2, hk⟩ := hf c
  refine ⟨k, by omega, by omega, hit_grp_app ?_⟩
  exact hit_cons (hit_nla6 n (fun w => h3 w) c) (hit_cons (hit_grp_app hk) (hit_nil _ _ _))

/-- What the alternatives read begins with digits and a colon. -/
theorem v6_starts {b n : Nat} {u v : Str} (h : Lang n (alts (v6alts b)) u v) : ∃ g t, u = g ++ ':' :: t ∧ ∀ c ∈ g, isHex c = true := by
  have one : ∀ {i : Nat} {l : List Rgx}, 0 < i → Lang n (seqs (times true gc i (some i) :: l)) u v →
      ∃ g t, u = g ++ ':' :: t ∧ ∀ c ∈ g, isHex c = true := by
    intro i l hi h
    obtain ⟨w, h1, _⟩ := (lang_cons ..).mp h
    rw [replicate_times] at h1
    obtain ⟨j, rfl⟩ : ∃ j, i = j + 1 := ⟨i - 1, by omega⟩
    rw [List.replicate_succ] at h1
    obtain ⟨w', h1, _⟩ := (lang_cons ..).mp h1
    obtain ⟨g, e, hg⟩ := (lang_gc ..).mp h1
    exact ⟨g, w', e, hg.2.2⟩
  rcases h with h | h | h | h | h | h | h | h | h | h
  · obtain ⟨w, h1, h2⟩ := (lang_cons ..).mp h
    obtain ⟨g, rfl, hg⟩ := (lang_hexG ..).mp h1
    obtain ⟨w', h3, _⟩ := (lang_cons ..).mp h2
    rw [replicate_times, List.replicate_succ] at h3
    obtain ⟨w'', h3, _⟩ := (lang_cons ..).mp h3
    obtain ⟨g2, e, _⟩ := (lang_cg ..).mp h3
    exact ⟨g, _, by rw [e], hg.2.2⟩
  · exact one (by decide) h
  · exact one (by decide) h
  · exact one (by decide) h
  · exact one (by decide) h
  · exact one (by decide) h
  · exact one (by decide) h
  · obtain ⟨w, h1, _⟩ := (lang_cons ..).mp h
    exact ⟨[], w, (lang_col ..).mp h1, by simp⟩
  · obtain ⟨w, h1, _⟩ := (lang_cons ..).mp h
    have h1' : Lang n (seqs [gc, upTo true gc 6]) u w := h1
    obtain ⟨w', h3, _⟩ := (lang_cons ..).mp h1'
    obtain ⟨g, e, hg⟩ := (lang_gc n _ _).mp h3
    exact ⟨g, w', e, hg.2.2⟩
  · obtain ⟨w, h1, _⟩ := (lang_cons ..).mp h
    exact ⟨[], w, (lang_col ..).mp h1, by simp⟩

end Cisco

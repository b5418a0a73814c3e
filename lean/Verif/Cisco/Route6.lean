import Verif.Cisco.Route6Lemmas
import Verif.IP.ViewsProps

/-! # Static IPv6 routes (C269) -/

namespace Cisco

namespace Spec

open Py

/-- A static IPv6 route, as IOS writes it:
`ipv6 route [vrf V] PREFIX/LENGTH [INTERFACE] [ADDRESS] [nexthop-vrf V] [DISTANCE] [unicast | multicast]
[tag N] [track N] [name NAME]`. -/
structure Route6 where
  vrf : Option Str
  pfx : Str
  len : Nat
  intf : Option Str
  addr : Option Str
  hopVrf : Option Str
  distance : Option Nat
  unicast : Bool
  multicast : Bool
  tag : Option Nat
  track : Option Nat
  name : Option Str

/-- The words behind the next hop. -/
def Route6.tail (R : Route6) : List Str :=
  param ["nexthop-vrf"] R.hopVrf ++ (param [] (R.distance.map natStr) ++ (keyword "unicast" R.unicast ++ (keyword "multicast" R.multicast ++
    (param ["tag"] (R.tag.map natStr) ++ (param ["track"] (R.track.map natStr) ++ param ["name"] R.name)))))

/-- The words of the command. -/
def Route6.words (R : Route6) : List Str :=
  wd ["ipv6", "route"] ++ (param ["vrf"] R.vrf ++ ((R.pfx ++ '/' :: natStr R.len) :: (param [] R.intf ++ (param [] R.addr ++ R.tail))))

/-- The line. -/
def Route6.line (R : Route6) : Str := join [' '] R.words

/-- The parameters are what they should be: words; the prefix and the address of the next hop are
texts of IPv6 addresses; the name of an interface has no colon, or does not begin with a
hexadecimal digit or a colon; the next hop is an interface, an address or both. -/
structure Route6.Ok (R : Route6) : Prop where
  vrf : ∀ v, R.vrf = some v → IsWord v
  pfx : ∃ n, IP.Text6 R.pfx n
  intf : ∀ v, R.intf = some v → IsWord v ∧ (':' ∉ v ∨ ∀ c, v.head? = some c → c ≠ ':' ∧ c ∉ IP.hexDigits.map (·.1))
  addr : ∀ v, R.addr = some v → ∃ n, IP.Text6 v n
  hop : R.intf ≠ none ∨ R.addr ≠ none
  hopVrf : ∀ v, R.hopVrf = some v → IsWord v
  cast : R.unicast = false ∨ R.multicast = false
  name : ∀ v, R.name = some v → IsWord v

end Spec

open Py Conf Query Re Spec IP

theorem hex_digits {c : Char} (h : isHex c = true) : c ∈ hexDigits.map (·.1) := by
  have key : ∀ n : Fin 128, isHex (Char.ofNat n.val) = true → Char.ofNat n.val ∈ hexDigits.map (·.1) := by decide +kernel
  have hlt : c.toNat < 128 := by
    simp [isHex, hexCls, Cls.has, Item.has] at h
    omega
  have := key ⟨c.toNat, hlt⟩
  rw [show Char.ofNat (⟨c.toNat, hlt⟩ : Fin 128).val = c from Char.ofNat_toNat c] at this
  exact this h

theorem digits_hex {c : Char} (h : c ∈ hexDigits.map (·.1)) : isHex c = true := by
  obtain ⟨d, hd, rfl⟩ := List.mem_map.mp h
  exact (hexDigits_facts d hd).1

theorem text6_word {a : Str} {n : Nat} (h : Text6 a n) : IsWord a := h.word h.ne_nil

theorem end_stop {r : Str} (h : Stop r) : End r := by
  intro c hc
  rcases h with rfl | ⟨r', rfl⟩
  · cases hc
  · cases hc; exact ⟨by decide, by decide⟩

theorem sp_hit (n : Nat) {w : Str} (h : IsWord w) (r : Str) (c : Caps) : Hit n spR6 (' ' :: (w ++ r)) c (w ++ r, c) := by
  obtain ⟨x, w', rfl, hx⟩ := word_cons h
  rw [Hit, List.cons_append, spR6, run_blank n x hx]; rfl

theorem sp_miss (n : Nat) {w : Str} (h : IsWord w) {l : List Rgx} {r : Str} {c : Caps} (hm : Miss n (seqs l) (w ++ r) c) :
    Miss n (seqs (spR6 :: l)) (' ' :: (w ++ r)) c := by
  obtain ⟨x, w', rfl, hx⟩ := word_cons h
  rw [Miss, run_seqs_cons', List.cons_append, spR6, run_blank n x hx, List.flatMap_singleton]
  exact hm

theorem sp_miss_nil (n : Nat) (l : List Rgx) (c : Caps) : Miss n (seqs (spR6 :: l)) [] c := by
  rw [Miss, run_seqs_cons']; rfl

/-- The word is not read as an address. -/
def NoAddr (w : Str) : Prop := IsWord w ∧ (':' ∉ w ∨ ∀ c, w.head? = some c → c ≠ ':' ∧ isHex c = false)

theorem v6_miss (b n : Nat) {w r : Str} (hw : NoAddr w) (hr : Stop r) (c : Caps) : Miss n (seqs [v6R b]) (w ++ r) c := by
  rw [miss_iff]
  intro v hv
  obtain ⟨w1, h1, _⟩ := (lang_cons ..).mp hv
  obtain ⟨w2, h2, h3⟩ := (lang_cons n nla6 _ _ _).mp h1
  obtain ⟨w3, h4, _⟩ := (lang_cons ..).mp h3
  rw [← h2.1] at h4
  obtain ⟨g, t, e, hg⟩ := v6_starts h4
  have hrc : ∀ x, r.head? = some x → x ≠ ':' ∧ isHex x = false := fun x hx => ⟨(end_stop hr x hx).2, (end_stop hr x hx).1⟩
  rcases hw.2 with hc | hc
  · rcases List.append_eq_append_iff.mp e with ⟨x, e1, e2⟩ | ⟨x, e1, e2⟩
    · cases x with
      | nil => exact (hrc ':' (by rw [e2]; rfl)).1 rfl
      | cons y x =>
        have h5 := hg y (by rw [e1]; simp)
        rw [(hrc y (by rw [e2]; rfl)).2] at h5; cases h5
    · cases x with
      | nil => exact (hrc ':' (by rw [show r = _ from e2.symm]; rfl)).1 rfl
      | cons y x =>
        rw [List.cons_append, List.cons.injEq] at e2
        exact hc (by rw [e1, ← e2.1]; simp)
  · obtain ⟨y, w', rfl, _⟩ := word_cons hw.1
    have := hc y rfl
    cases g with
    | nil => rw [List.cons_append, List.nil_append, List.cons.injEq] at e; exact this.1 e.1
    | cons z g =>
      rw [List.cons_append, List.cons_append, List.cons.injEq] at e
      have h5 := hg z (by simp)
      rw [← e.1, this.2] at h5; cases h5

theorem slot_miss (n : Nat) {ws : List Str} (h : HD (fun w => IsWord w ∧ '/' ∉ w) ws) (c : Caps) : Miss n (seqs slotL) (tl ws) c := by
  cases ws with
  | nil => exact sp_miss_nil ..
  | cons w ws =>
    obtain ⟨hw, hs⟩ := h w rfl
    rw [tl_cons]
    refine sp_miss n hw ?_
    rw [miss_iff]
    intro v hv
    obtain ⟨w1, h1, hv1⟩ := (lang_cons ..).mp hv
    obtain ⟨a, e1, ha⟩ := (lang_cls ..).mp h1
    obtain ⟨w2, h2, hv2⟩ := (lang_cons ..).mp hv1
    obtain ⟨w3, h3, hv3⟩ := (lang_cons ..).mp hv2
    obtain ⟨y, rfl, hy⟩ := (lang_star' ..).mp h2
    obtain ⟨z, rfl, hz⟩ := (lang_cls ..).mp h3
    obtain rfl : z = '/' := by simpa [K.has] using hz
    have hns : ∀ c ∈ a :: y, isSpace c = false := by
      intro c hc
      rcases List.mem_cons.mp hc with rfl | hc
      · exact digit_not_space ha
      · simpa [K.has] using hy c hc
    have e : w ++ tl ws = (a :: y) ++ '/' :: w3 := e1
    rcases List.append_eq_append_iff.mp e with ⟨x, e1, e2⟩ | ⟨x, e1, e2⟩
    · cases x with
      | nil => rcases tl_stop ws with h | ⟨r, h⟩ <;> rw [h] at e2 <;> simp at e2
      | cons p x =>
        have h5 := hns p (by rw [e1]; simp)
        rcases tl_stop ws with h | ⟨r, h⟩ <;> rw [h] at e2
        · cases e2
        · rw [List.cons_append, List.cons.injEq] at e2; rw [← e2.1] at h5; exact absurd h5 (by decide)
    · cases x with
      | nil => rcases tl_stop ws with h | ⟨r, h⟩ <;> rw [h] at e2 <;> simp at e2
      | cons p x =>
        rw [List.cons_append, List.cons.injEq] at e2
        exact hs (by rw [e1, ← e2.1]; simp)

/-- `\S+` takes the word. -/
theorem ns_hit (n : Nat) {w : Str} (hw : IsWord w) {r : Str} (hr : Stop r) (c : Caps) : Hit n nsR6 (w ++ r) c (r, c) := by
  obtain ⟨x, w', rfl, hx⟩ := word_cons hw
  have h1 := hit_plus_cls n K.nonspace.cls (w' ++ r) c (x := x) (by rw [K.cls_has]; simp [K.has, hx])
  have e : (w' ++ r).dropWhile K.nonspace.cls.has = r := by
    rw [List.dropWhile_append_of_pos (by intro y hy; rw [K.cls_has]; simp [K.has, hw.2 y (by simp [hy])])]
    rcases hr with rfl | ⟨r', rfl⟩
    · rfl
    · rw [List.dropWhile_cons_of_neg (by rw [K.cls_has]; decide)]
  rw [e] at h1
  exact h1

/-- The prefix and its length. -/
theorem pfx_hit (n : Nat) {a : Str} {v : Nat} (h : Text6 a v) (m : Nat) (ws : List Str) (c : Caps) :
    ∃ d, Hit n (seqs [spR6, v6R 2, .cls (K.chr '/').cls, .grp 14 (.seq (.cls K.digit.cls) (.star true (.cls K.digit.cls)))])
      (tl ((a ++ '/' :: natStr m) :: ws)) c (tl ws, d) ∧ d.lookup 2 = some a ∧ d.lookup 14 = some (natStr m) ∧
      ∀ j, j < 2 ∨ 14 < j → d.lookup j = c.lookup j := by
  have hd := digits_nat m
  obtain ⟨k, hk1, hk2, hk⟩ := v6R_hit h 2 n (r := '/' :: (natStr m ++ tl ws)) (by intro c hc; cases hc; exact ⟨slash_not_hex, by decide⟩) c
  refine ⟨(14, natStr m) :: (2, a) :: (3, a) :: (k, a) :: c, ?_, rfl, rfl, ?_⟩
  · rw [tl_cons, List.append_assoc]
    refine hit_cons (sp_hit n (text6_word h) _ c) (hit_cons hk (hit_cons (hit_cls (k := .chr '/') (by simp [K.has])) (hit_cons (q := (tl ws, (14, natStr m) :: (2, a) :: (3, a) :: (k, a) :: c)) ?_ (hit_nil _ _ _))))
    exact hit_grp_app (hit_digits hd.1 hd.2 (stop_digit (tl_stop ws)))
  · intro j hj
    have ne : ∀ i : Nat, 2 ≤ i → i ≤ 14 → (j == i) = false := fun i h1 h2 => by simp; omega
    rw [List.lookup_cons, ne 14 (by omega) (by omega), List.lookup_cons, ne 2 (by omega) (by omega), List.lookup_cons, ne 3 (by omega) (by omega),
      List.lookup_cons, ne k (by omega) (by omega)]

/-- The next hop. -/
theorem hop_hit (n : Nat) (i a : Option Str) (hi : ∀ v, i = some v → NoAddr v) (ha : ∀ v, a = some v → ∃ n, Text6 v n ∧ '/' ∉ v)
    (hh : i ≠ none ∨ a ≠ none) {ws : List Str} (hw : HD (fun w => NoAddr w ∧ '/' ∉ w) ws) (c : Caps)
    (hc : c.lookup 15 = none ∧ c.lookup 27 = none ∧ c.lookup 28 = none) :
    ∃ d, Hit n (.alt (seqs hop1) (seqs hop2)) (tl (param [] i ++ (param [] a ++ ws))) c (tl ws, d) ∧ d.lookup 27 = i ∧
      (d.lookup 15 = a ∧ d.lookup 28 = none ∨ d.lookup 15 = none ∧ d.lookup 28 = a) ∧ ∀ j, j < 15 ∨ 39 < j → d.lookup j = c.lookup j := by
  cases i with
  | none =>
    cases a with
    | none => exact absurd rfl (hh.elim id id)
    | some a =>
      obtain ⟨v, hv, _⟩ := ha a rfl
      obtain ⟨k, hk1, hk2, hk⟩ := v6R_hit hv 15 n (end_stop (tl_stop ws)) c
      have ne : ∀ j i : Nat, j ≠ i → (j == i) = false := fun j i h => by simpa using h
      refine ⟨(15, a) :: (16, a) :: (k, a) :: c, ?_, ?_, .inl ⟨rfl, ?_⟩, ?_⟩
      · have : Hit n (seqs hop1) (tl (a :: ws)) c (tl ws, (15, a) :: (16, a) :: (k, a) :: c) := by
          rw [tl_cons]
          exact hit_cons (sp_hit n (text6_word hv) _ c) (hit_cons hk (hit_nil _ _ _))
        exact alt_here (l := [seqs hop2]) this
      · rw [List.lookup_cons, ne _ _ (by omega), List.lookup_cons, ne _ _ (by omega), List.lookup_cons, ne _ _ (by omega)]; exact hc.2.1
      · rw [List.lookup_cons, ne _ _ (by omega), List.lookup_cons, ne _ _ (by omega), List.lookup_cons, ne _ _ (by omega)]; exact hc.2.2
      · intro j hj
        rw [List.lookup_cons, ne _ _ (by omega), List.lookup_cons, ne _ _ (by omega), List.lookup_cons, ne _ _ (by omega)]
  | some i =>
    have hn := hi i rfl
    have hm : Miss n (seqs hop1) (tl (i :: (param [] a ++ ws))) c := by
      rw [tl_cons]; exact sp_miss n hn.1 (v6_miss 15 n hn (tl_stop _) c)
    have hsl : HD (fun w => IsWord w ∧ '/' ∉ w) (param [] a ++ ws) := by
      cases a with
      | none => intro w h; exact ⟨(hw w h).1.1, (hw w h).2⟩
      | some a =>
        obtain ⟨v, hv, hs⟩ := ha a rfl
        exact hd_cons ⟨text6_word hv, hs⟩ _
    have h1 : Hit n (.grp 27 (seqs [nsR6, .opt true (seqs slotL)])) (i ++ tl (param [] a ++ ws)) c (tl (param [] a ++ ws), (27, i) :: c) :=
      hit_grp_app (hit_cons (ns_hit n hn.1 (tl_stop _) c) (hit_cons (miss_opt (slot_miss n hsl c)) (hit_nil _ _ _)))
    have go : ∀ {d : Caps}, Hit n (.opt true (seqs [spR6, v6R 28])) (tl (param [] a ++ ws)) ((27, i) :: c) (tl ws, d) →
        Hit n (.alt (seqs hop1) (seqs hop2)) (tl (i :: (param [] a ++ ws))) c (tl ws, d) := by
      intro d h2
      refine alt_next (l := []) hm ?_
      show Hit n (seqs hop2) _ _ _
      rw [tl_cons]
      exact hit_cons (sp_hit n hn.1 _ c) (hit_cons h1 (hit_cons h2 (hit_nil _ _ _)))
    have ne : ∀ j i : Nat, j ≠ i → (j == i) = false := fun j i h => by simpa using h
    cases a with
    | none =>
      refine ⟨(27, i) :: c, go ?_, rfl, .inr ⟨?_, ?_⟩, ?_⟩
      · refine miss_opt ?_
        show Miss n (seqs [spR6, v6R 28]) (tl ws) _
        cases ws with
        | nil => exact sp_miss_nil ..
        | cons w ws => rw [tl_cons]; exact sp_miss n (hw w rfl).1.1 (v6_miss 28 n (hw w rfl).1 (tl_stop _) _)
      · rw [List.lookup_cons, ne _ _ (by omega)]; exact hc.1
      · rw [List.lookup_cons, ne _ _ (by omega)]; exact hc.2.2
      · intro j hj; rw [List.lookup_cons, ne _ _ (by omega)]
    | some a =>
      obtain ⟨v, hv, _⟩ := ha a rfl
      obtain ⟨k, hk1, hk2, hk⟩ := v6R_hit hv 28 n (end_stop (tl_stop ws)) ((27, i) :: c)
      refine ⟨(28, a) :: (29, a) :: (k, a) :: (27, i) :: c, go (hit_opt ?_), ?_, .inr ⟨?_, rfl⟩, ?_⟩
      · show Hit n _ (tl (a :: ws)) _ _
        rw [tl_cons]
        exact hit_cons (sp_hit n (text6_word hv) _ _) (hit_cons hk (hit_nil _ _ _))
      · rw [List.lookup_cons, ne _ _ (by omega), List.lookup_cons, ne _ _ (by omega), List.lookup_cons, ne _ _ (by omega)]; rfl
      · rw [List.lookup_cons, ne _ _ (by omega), List.lookup_cons, ne _ _ (by omega), List.lookup_cons, ne _ _ (by omega), List.lookup_cons, ne _ _ (by omega)]
        exact hc.1
      · intro j hj
        rw [List.lookup_cons, ne _ _ (by omega), List.lookup_cons, ne _ _ (by omega), List.lookup_cons, ne _ _ (by omega), List.lookup_cons, ne _ _ (by omega)]

/-- ` unicast` or ` multicast`. -/
theorem step_cast (n : Nat) (u m : Bool) (hum : u = false ∨ m = false) {ws : List Str}
    (h : HD (fun w => Not "unicast".toList w ∧ Not "multicast".toList w) ws) (c : Caps) :
    Hit n (.opt true (seqs [spR6, .alt (.grp 42 (seqs (str "unicast".toList .done).toL)) (.grp 43 (seqs (str "multicast".toList .done).toL))]))
      (tl (keyword "unicast" u ++ (keyword "multicast" m ++ ws))) c
      (tl ws, cap 43 (kwd "multicast" m) (cap 42 (kwd "unicast" u) c)) := by
  have hit : ∀ {kw : Str} {r : Str}, (str kw .done).wf (fun _ => false) true = true → Hit n (seqs (str kw .done).toL) (kw ++ r) c (r, c) := by
    intro kw r hw
    refine hit_prog n hw ?_
    rw [det_str, if_pos (List.prefix_append _ _), List.drop_left]; rfl
  have mis : ∀ {kw s : Str} {g : Nat}, (str kw .done).wf (fun _ => false) true = true → ¬ kw <+: s → Miss n (.grp g (seqs (str kw .done).toL)) s c := by
    intro kw s g hw hs
    have : Miss n (seqs (str kw .done).toL) s c := miss_prog n hw (by rw [det_str, if_neg hs])
    rw [Miss, run, this]; rfl
  cases u with
  | true =>
    obtain rfl : m = false := hum.elim (fun h => by cases h) id
    refine hit_opt ?_
    show Hit n _ (tl ("unicast".toList :: ws)) _ _
    rw [tl_cons]
    refine hit_cons (sp_hit n (by decide) _ c) (hit_cons (q := (tl ws, (42, "unicast".toList) :: c)) ?_ (hit_nil _ _ _))
    exact alt_here (l := [_]) (hit_grp_app (hit (by decide)))
  | false =>
    cases m with
    | true =>
      refine hit_opt ?_
      show Hit n _ (tl ("multicast".toList :: ws)) _ _
      rw [tl_cons]
      refine hit_cons (sp_hit n (by decide) _ c) (hit_cons (q := (tl ws, (43, "multicast".toList) :: c)) ?_ (hit_nil _ _ _))
      refine alt_next (l := []) (mis (by decide) ?_) (hit_grp_app (hit (by decide)))
      intro hp
      exact absurd (List.cons_prefix_cons.mp (show 'u' :: "nicast".toList <+: 'm' :: ("ulticast".toList ++ tl ws) from hp)).1 (by decide)
    | false =>
      refine miss_opt ?_
      show Miss n _ (tl ws) c
      cases ws with
      | nil => exact sp_miss_nil ..
      | cons w ws =>
        obtain ⟨h1, h2⟩ := h w rfl
        rw [tl_cons]
        refine sp_miss n h1.1 ?_
        have m1 := mis (g := 42) (kw := "unicast".toList) (s := w ++ tl ws) (by decide) (fun hp => h1.2 (prefix_word (by decide) ws hp))
        have m2 := mis (g := 43) (kw := "multicast".toList) (s := w ++ tl ws) (by decide) (fun hp => h2.2 (prefix_word (by decide) ws hp))
        rw [Miss, seqs, run, m1, m2]; rfl

theorem pfx_word {a : Str} {v : Nat} (h : Text6 a v) (m : Nat) : Not "vrf".toList (a ++ '/' :: natStr m) := by
  refine ⟨⟨by simp, fun c hc => ?_⟩, fun hp => ?_⟩
  · rcases List.mem_append.mp hc with hc | hc
    · exact (h.chars c hc).2
    · rcases List.mem_cons.mp hc with rfl | hc
      · decide
      · exact digit_not_space (natStr_digits _ c hc)
  have hk := finds6_text h 0 0 (r := '/' :: natStr m) (by intro c hc; cases hc; exact ⟨slash_not_hex, by decide⟩)
  obtain ⟨k, _, _, hk⟩ := hk.1 []
  have hl : ∃ v, Lang 0 (alts (v6alts 0)) (a ++ '/' :: natStr m) v := by
    apply Classical.byContradiction
    intro hn
    have := (miss_iff 0 (alts (v6alts 0)) (a ++ '/' :: natStr m) []).mpr (fun v hv => hn ⟨v, hv⟩)
    rw [Hit, this] at hk; cases hk
  obtain ⟨v, hl⟩ := hl
  obtain ⟨g, t, e, hg⟩ := v6_starts hl
  rw [e] at hp
  cases g with
  | nil => exact absurd (List.cons_prefix_cons.mp (show 'v' :: "rf".toList <+: ':' :: t from hp)).1 (by decide)
  | cons z g =>
    have := (List.cons_prefix_cons.mp (show 'v' :: "rf".toList <+: z :: (g ++ ':' :: t) from hp)).1
    have hz := hg z (by simp)
    rw [← this] at hz; exact absurd hz (by decide)

/-- What the expression finds in the line of a route, up to the tag. -/
theorem route6_tag_hit (n : Nat) {R : Route6} (h : R.Ok) :
    ∃ c, Hit n (seqs route6LT) R.line [] (tl (param ["track"] (R.track.map natStr) ++ param ["name"] R.name), c) ∧
    c.lookup 1 = R.vrf ∧ c.lookup 2 = some R.pfx ∧ c.lookup 14 = some (natStr R.len) ∧ c.lookup 27 = R.intf ∧
    (c.lookup 15 = R.addr ∧ c.lookup 28 = none ∨ c.lookup 15 = none ∧ c.lookup 28 = R.addr) ∧
    c.lookup 40 = R.hopVrf ∧ c.lookup 41 = R.distance.map natStr ∧ c.lookup 43 = kwd "multicast" R.multicast ∧
    c.lookup 44 = R.tag.map natStr ∧ ∀ j, 44 < j → c.lookup j = none := by
  have e : R.line = "ipv6".toList ++ tl ("route".toList :: (param ["vrf"] R.vrf ++ ((R.pfx ++ '/' :: natStr R.len) ::
      (param [] R.intf ++ (param [] R.addr ++ R.tail))))) := by
    rw [Route6.line, Route6.words]
    exact join_tl _ _
  have hr : IsWord "route".toList := by decide
  obtain ⟨pv, hpv⟩ := h.pfx
  have facts : ∀ {a : Str} {v : Nat}, Text6 a v → '/' ∉ a := fun h => (text6_facts (.inl h)).2.1
  have nv := pfx_word hpv R.len
  have num : ∀ (o : Option Nat) v, o.map natStr = some v → IsWord v ∧ ∀ x ∈ v, K.digit.has x = true := by
    intro o v hv
    cases o with
    | none => cases hv
    | some m =>
      cases hv
      have hd := digits_nat m
      exact ⟨⟨hd.1, fun c hc => digit_not_space (hd.2 c hc)⟩, hd.2⟩
  obtain ⟨d1, p1, p2, p3, p4⟩ := pfx_hit n hpv R.len (param [] R.intf ++ (param [] R.addr ++ R.tail)) (cap 1 R.vrf [])
  have P := fun {P : Str → Prop} {a b : List Str} => @hd_append P a b
  have kw : ∀ {w : Str}, IsWord w → ':' ∉ w → '/' ∉ w → NoAddr w ∧ '/' ∉ w := fun h1 h2 h3 => ⟨⟨h1, .inl h2⟩, h3⟩
  have kn : ∀ m, NoAddr (natStr m) ∧ '/' ∉ natStr m := by
    intro m
    have hd := digits_nat m
    exact kw ⟨hd.1, fun c hc => digit_not_space (hd.2 c hc)⟩ (fun hc => absurd (hd.2 _ hc) (by decide)) (fun hc => absurd (hd.2 _ hc) (by decide))
  have c1 : ∀ j, 1 < j → (cap 1 R.vrf []).lookup j = none := by
    intro j hj
    rw [lookup_cap, if_neg (by omega)]; rfl
  obtain ⟨d2, q1, q2, q3, q4⟩ := hop_hit n R.intf R.addr
    (fun v hv => ⟨(h.intf v hv).1, (h.intf v hv).2.imp id (fun hc c hcc => ⟨(hc c hcc).1, by
      cases hx : isHex c with
      | false => rfl
      | true => exact absurd (hex_digits hx) (hc c hcc).2⟩)⟩)
    (fun v hv => by obtain ⟨m, hm⟩ := h.addr v hv; exact ⟨m, hm, facts hm⟩) h.hop (ws := R.tail)
    (by
      unfold Route6.tail
      exact P (hd_param (kw (by decide) (by decide) (by decide)) _) (P (hd_num kn _) (P (hd_keyword (kw (by decide) (by decide) (by decide)) _)
        (P (hd_keyword (kw (by decide) (by decide) (by decide)) _) (P (hd_param (kw (by decide) (by decide) (by decide)) _)
          (P (hd_param (kw (by decide) (by decide) (by decide)) _) (hd_param (kw (by decide) (by decide) (by decide)) _)))))))
    d1 ⟨by rw [p4 15 (by omega), c1 _ (by omega)], by rw [p4 27 (by omega), c1 _ (by omega)], by rw [p4 28 (by omega), c1 _ (by omega)]⟩
  have d2n : ∀ j, 39 < j → d2.lookup j = none := fun j hj => by rw [q4 j (by omega), p4 j (by omega), c1 _ (by omega)]
  refine ⟨cap 44 (R.tag.map natStr) (cap 43 (kwd "multicast" R.multicast)
    (cap 42 (kwd "unicast" R.unicast) (cap 41 (R.distance.map natStr) (cap 40 R.hopVrf d2)))), ?_, ?_⟩
  · rw [e, route6LT]
    refine hit_append (q := (tl (param ["vrf"] R.vrf ++ ((R.pfx ++ '/' :: natStr R.len) ::
      (param [] R.intf ++ (param [] R.addr ++ R.tail)))), [])) (hit_prog n (by decide) ?_) ?_
    · rw [det_str, if_pos (List.prefix_append _ _), List.drop_left, tl_cons, blank_word _ hr, det_str,
        if_pos (List.prefix_append _ _), List.drop_left]
      rfl
    refine hit_cons (step_key n (kw := "vrf") (by decide) 1 (by decide) (by decide) R.vrf
      (fun v hv => ⟨h.vrf v hv, fun x hx => by simp [K.has, (h.vrf v hv).2 x hx]⟩) (hd_cons nv _) _) ?_
    refine hit_cons p1 (hit_cons q1 ?_)
    have nd : ∀ {x : Char} {w : Str}, isSpace x = false → isDigit x = false → NoDigit (x :: w) :=
      fun h1 h2 => ⟨_, _, rfl, h1, h2⟩
    refine hit_cons (step_key n (kw := "nexthop-vrf") (by decide) 40 (by decide) (by decide) R.hopVrf
      (fun v hv => ⟨h.hopVrf v hv, fun x hx => by simp [K.has, (h.hopVrf v hv).2 x hx]⟩)
      (P (hd_num (not_num (by decide)) _) (P (hd_keyword (by decide) _) (P (hd_keyword (by decide) _) (P (hd_param (by decide) _)
        (P (hd_param (by decide) _) (hd_param (by decide) _)))))) _) ?_
    refine hit_cons (step_num n 41 R.distance
      (P (hd_keyword (nd (by decide) (by decide)) _) (P (hd_keyword (nd (by decide) (by decide)) _) (P (hd_param (nd (by decide) (by decide)) _)
        (P (hd_param (nd (by decide) (by decide)) _) (hd_param (nd (by decide) (by decide)) _))))) _) ?_
    refine hit_cons (step_cast n R.unicast R.multicast h.cast
      (P (hd_param (by decide) _) (P (hd_param (by decide) _) (hd_param (by decide) _))) _) ?_
    refine hit_cons (step_key n (kw := "tag") (by decide) 44 (by decide) (by decide) _ (num _)
      (P (hd_param (by decide) _) (hd_param (by decide) _)) _) ?_
    exact hit_nil _ _ _
  · have self : ∀ {g : Nat} (o : Option Str) (c : Caps), c.lookup g = none → (cap g o c).lookup g = o := by
      intro g o c h
      cases o with
      | none => exact h
      | some v => simp [cap]
    have ne : ∀ {g k : Nat} (o : Option Str) (c : Caps), k ≠ g → (cap g o c).lookup k = c.lookup k := by
      intro g k o c h
      rw [lookup_cap, if_neg (by simp [h])]
    have low : ∀ k, k < 40 → (cap 44 (R.tag.map natStr) (cap 43 (kwd "multicast" R.multicast)
        (cap 42 (kwd "unicast" R.unicast) (cap 41 (R.distance.map natStr) (cap 40 R.hopVrf d2))))).lookup k = d2.lookup k := by
      intro k hk
      rw [ne _ _ (by omega), ne _ _ (by omega), ne _ _ (by omega), ne _ _ (by omega), ne _ _ (by omega)]
    refine ⟨?_, ?_, ?_, ?_, ?_, ?_, ?_, ?_, ?_, fun j hj => by
      rw [ne _ _ (by omega), ne _ _ (by omega), ne _ _ (by omega), ne _ _ (by omega), ne _ _ (by omega)]; exact d2n _ (by omega)⟩
    · rw [low _ (by omega), q4 1 (by omega), p4 1 (by omega)]; exact self _ _ rfl
    · rw [low _ (by omega), q4 2 (by omega), p2]
    · rw [low _ (by omega), q4 14 (by omega), p3]
    · rw [low _ (by omega), q2]
    · rw [low _ (by omega), low _ (by omega)]; exact q3
    all_goals
      repeat rw [ne _ _ (by decide)]
      refine self _ _ ?_
      repeat rw [ne _ _ (by decide)]
      exact d2n _ (by omega)

/-- What the expression finds in the line of a route. -/
theorem route6_hit (n : Nat) {R : Route6} (h : R.Ok) : ∃ c, Hit n (seqs route6L) R.line [] ([], c) ∧
    c.lookup 1 = R.vrf ∧ c.lookup 2 = some R.pfx ∧ c.lookup 14 = some (natStr R.len) ∧ c.lookup 27 = R.intf ∧
    (c.lookup 15 = R.addr ∧ c.lookup 28 = none ∨ c.lookup 15 = none ∧ c.lookup 28 = R.addr) ∧
    c.lookup 40 = R.hopVrf ∧ c.lookup 41 = R.distance.map natStr ∧ c.lookup 43 = kwd "multicast" R.multicast ∧
    c.lookup 44 = R.tag.map natStr ∧ c.lookup 45 = R.track.map natStr ∧ c.lookup 46 = R.name := by
  obtain ⟨c, hh, c1, c2, c14, c27, c15, c40, c41, c43, c44, cn⟩ := route6_tag_hit n h
  have num : ∀ (o : Option Nat) v, o.map natStr = some v → IsWord v ∧ ∀ x ∈ v, K.digit.has x = true := by
    intro o v hv
    cases o with
    | none => cases hv
    | some m =>
      cases hv
      have hd := digits_nat m
      exact ⟨⟨hd.1, fun c hc => digit_not_space (hd.2 c hc)⟩, hd.2⟩
  have ne : ∀ {g k : Nat} (o : Option Str) (c : Caps), k ≠ g → (cap g o c).lookup k = c.lookup k := by
    intro g k o c h
    rw [lookup_cap, if_neg (by simp [h])]
  have self : ∀ {g : Nat} (o : Option Str) (c : Caps), c.lookup g = none → (cap g o c).lookup g = o := by
    intro g o c h
    cases o with
    | none => exact h
    | some v => simp [cap]
  have low : ∀ k, k < 45 → (cap 46 R.name (cap 45 (R.track.map natStr) c)).lookup k = c.lookup k := by
    intro k hk
    rw [ne _ _ (by omega), ne _ _ (by omega)]
  refine ⟨cap 46 R.name (cap 45 (R.track.map natStr) c), hit_append hh ?_, ?_⟩
  · refine hit_cons (step_key n (kw := "track") (by decide) 45 (by decide) (by decide) _ (num _) (hd_param (by decide) _) _) ?_
    refine hit_cons (l := []) (q := ([], _)) ?_ (hit_nil _ _ _)
    have := step_key n (kw := "name") (by decide) 46 (k := .nonspace) (by decide) (by decide) R.name
      (fun v hv => ⟨h.name v hv, fun x hx => by simp [K.has, (h.name v hv).2 x hx]⟩) (hd_nil _) (cap 45 (R.track.map natStr) c)
    rw [List.append_nil] at this
    exact this
  · rw [low _ (by omega), low _ (by omega), low _ (by omega), low _ (by omega), low _ (by omega), low _ (by omega), low _ (by omega),
      low _ (by omega), low _ (by omega), low _ (by omega)]
    refine ⟨c1, c2, c14, c27, c15, c40, c41, c43, c44, ?_, self _ _ ?_⟩
    · rw [ne _ _ (by omega)]; exact self _ _ (cn _ (by omega))
    · rw [ne _ _ (by omega)]; exact cn _ (by omega)

theorem route6_compile : compileL reIpv6Route { verbose := true } = .ok ⟨seqs (.bol :: route6L), 46, route6Names⟩ := by
  have := compile_route6
  cases h : compileL reIpv6Route { verbose := true } with
  | error e => rw [h] at this; cases this
  | ok p => rw [h] at this; cases this; rfl

theorem is_v6 {R : Route6} : isV6 R.line = true := by
  rw [Route6.line, Route6.words]
  rw [show wd ["ipv6", "route"] ++ (param ["vrf"] R.vrf ++ ((R.pfx ++ '/' :: natStr R.len) :: (param [] R.intf ++ (param [] R.addr ++ R.tail))))
    = "ipv6".toList :: "route".toList :: (param ["vrf"] R.vrf ++ ((R.pfx ++ '/' :: natStr R.len) :: (param [] R.intf ++ (param [] R.addr ++ R.tail))))
    from rfl, join_tl, tl_cons]
  rfl

/-- models_cisco.py:3057-3059 `masklen`, of an IPv6 route. -/
def routeMasklen6 (t : Str) : Except Err Int := do
  match ← routeGet t "masklength" with
  | some v => if v.isEmpty then .ok 128 else pyInt v
  | none => .ok 128

/-- models_cisco.py:3066-3071 `network_object`, of an IPv6 route: None after any exception.  `masklen`
is written with `%s`. -/
def routeNetworkObject6 (t : Str) : Except Err (Option IP.V6) := do
  match routeMasklen6 t with
  | .error _ => .ok none
  | .ok m =>
    match IP.V6.ofStr ((← routeNetwork t) ++ '/' :: intStr m) with
    | .ok o => .ok (some o)
    | .error _ => .ok none

/-- C269: the attributes of a static IPv6 route are what the command says, for every combination of
the optional parameters; `global_next_hop` and `permanent` are refused. -/
theorem C269_route {R : Route6} (h : R.Ok) :
    routeVrf R.line = .ok (R.vrf.getD []) ∧
    routeMasklen6 R.line = .ok (R.len : Int) ∧
    routeNextHopInterface R.line = .ok (R.intf.getD []) ∧
    routeNextHopAddr R.line = .ok (R.addr.getD []) ∧
    routeNexthopVrf R.line = .ok (R.hopVrf.getD []) ∧
    routeAdminDistance R.line = .ok ((R.distance.getD 1 : Nat) : Int) ∧
    routeMulticast R.line = .ok R.multicast ∧
    routeTag R.line = .ok ((R.tag.map natStr).getD []) ∧
    routeTrack R.line = .ok ((R.track.map natStr).getD []) ∧
    routeName R.line = .ok (R.name.getD []) ∧
    routeGlobalNextHop R.line = .error .valueError ∧
    routePermanent R.line = .error .notImplemented := by
  obtain ⟨c, hh, c1, c2, c14, c27, c15, c40, c41, c43, c44, c45, c46⟩ := route6_hit R.line.length h
  have hi : routeInfo R.line = .ok (route6Names.map (fun q => (q.1, c.lookup q.2))) := by
    rw [routeInfo, is_v6, if_pos rfl, route6_compile]
    simp only [search_hit hh]
    rfl
  have g : ∀ (key : String) (k : Nat), (route6Names.map (fun q => (q.1, c.lookup q.2))).lookup key.toList =
      some (c.lookup k) → routeGet R.line key = .ok (c.lookup k) := by
    intro key k hk
    rw [routeGet, hi]
    show (match (route6Names.map (fun q => (q.1, c.lookup q.2))).lookup key.toList with
      | some v => .ok v
      | none => .error .keyError : Except Err (Option Str)) = _
    rw [hk]
  have nn : ∀ m, (natStr m).isEmpty = false := by
    intro m
    have := natStr_ne_nil m
    cases hd : natStr m with
    | nil => exact absurd hd this
    | cons x w => rfl
  refine ⟨str_eq ((g "vrf" 1 rfl).trans (by rw [c1])), ?_, str_eq ((g "nh_intf" 27 rfl).trans (by rw [c27])), ?_, ?_, ?_, ?_,
    str_eq ((g "tag" 44 rfl).trans (by rw [c44])), str_eq ((g "track" 45 rfl).trans (by rw [c45])),
    str_eq ((g "name" 46 rfl).trans (by rw [c46])), ?_, ?_⟩
  · rw [routeMasklen6, (g "masklength" 14 rfl).trans (by rw [c14])]
    show (if (natStr R.len).isEmpty = true then Except.ok 128 else pyInt (natStr R.len)) = _
    rw [nn, if_neg (by simp), pyInt_natStr]
  · rw [routeNextHopAddr, is_v6, if_pos rfl]
    have g15 := str_eq (g "nh_addr1" 15 rfl)
    have g28 := str_eq (g "nh_addr2" 28 rfl)
    rw [g15, g28]
    show (if ((c.lookup 15).getD []).isEmpty = true then Except.ok ((c.lookup 28).getD []) else Except.ok ((c.lookup 15).getD [])) = _
    rcases c15 with ⟨h1, h2⟩ | ⟨h1, h2⟩
    · rw [h1, h2]
      cases ha : R.addr with
      | none => rfl
      | some a =>
        obtain ⟨v, hv⟩ := h.addr a ha
        have := hv.ne_nil
        cases a with
        | nil => exact absurd rfl this
        | cons x w => rfl
    · rw [h1, h2]; rfl
  · rw [routeNexthopVrf, is_v6, if_pos rfl]
    exact str_eq ((g "nexthop_vrf" 40 rfl).trans (by rw [c40]))
  · rw [routeAdminDistance, (g "ad" 41 rfl).trans (by rw [c41])]
    cases R.distance with
    | none => rfl
    | some d =>
      show (if (natStr d).isEmpty = true then Except.ok 1 else pyInt (natStr d)) = _
      rw [nn, if_neg (by simp), pyInt_natStr]
      rfl
  · rw [routeMulticast, str_eq ((g "mcast" 43 rfl).trans (by rw [c43]))]
    show Except.ok (!((kwd "multicast" R.multicast).getD []).isEmpty) = _
    rw [kwd_true _ (by decide)]
  · rw [routeGlobalNextHop, is_v6, if_pos rfl]
  · rw [routePermanent, is_v6, if_pos rfl]

/-! ## The network -/

/-- `^ipv6\s+route\s+(vrf\s+)*`, behind `^`. -/
def lead6L : List Rgx :=
  (str "ipv6".toList (.plus .space (str "route".toList (.plus .space .done)))).toL ++
  [.star true (.grp 1 (seqs (str "vrf".toList (.plus .space .done)).toL))]

def net6Pat : Pat :=
  ⟨seqs (.bol :: (lead6L ++ [.grp 2 (.seq (.cls K.nonspace.cls) (.star false (.cls K.nonspace.cls))), .cls (K.chr '/').cls,
    .seq (.cls K.digit.cls) (.star true (.cls K.digit.cls))])), 2, []⟩

def hop6Pat : Pat := ⟨seqs (.bol :: (lead6L ++ [nsR6, spR6, .grp 2 nsR6])), 2, []⟩

theorem net6_compile : compile "^ipv6\\s+route\\s+(vrf\\s+)*(\\S+?)\\/\\d+" = .ok net6Pat := by decide +kernel
theorem hop6_compile : compile "^ipv6\\s+route\\s+(vrf\\s+)*\\S+\\s+(\\S+)" = .ok hop6Pat := by decide +kernel

theorem typed_hit {t : Str} {rx : String} {l : List Rgx} {g : Nat} {q : Str × Caps} {v : Str} (hc : compile rx = .ok ⟨seqs (.bol :: l), 2, []⟩)
    (h : Hit t.length (seqs l) t [] q) (hg : q.2.lookup 2 = some v) (h2 : g = 2) : matchTyped t rx g toStr [] = .ok v := by
  subst h2
  have hr : reSearch rx t = .ok (some (⟨seqs (.bol :: l), 2, []⟩, ⟨t.take (t.length - q.1.length), 0, q.2⟩)) := by
    rw [reSearch, hc]
    simp only [search_hit h]
    rfl
  have hgp : Found.group ⟨t.take (t.length - q.1.length), 0, q.2⟩ ⟨seqs (.bol :: l), 2, []⟩ 2 = .ok (some v) := by
    rw [Found.group, if_neg (by decide), if_pos (Nat.le_refl 2), hg]
  simp only [matchTyped, hr, bind, Except.bind, hgp, toStr]

/-- The start of the expressions on the line of a route without VRF. -/
theorem lead6_hit (n : Nat) {w : Str} (hw : Not "vrf".toList w) (ws : List Str) (l : List Rgx) {q : Str × Caps}
    (h : Hit n (seqs l) (w ++ tl ws) [] q) : Hit n (seqs (lead6L ++ l)) ("ipv6".toList ++ tl ("route".toList :: w :: ws)) [] q := by
  rw [lead6L, List.append_assoc]
  refine hit_append (q := (w ++ tl ws, [])) (hit_prog n (by decide) ?_) ?_
  · rw [det_str, if_pos (List.prefix_append _ _), List.drop_left, tl_cons, blank_word _ (by decide), det_str,
      if_pos (List.prefix_append _ _), List.drop_left, tl_cons, blank_word _ hw.1]
    rfl
  refine hit_cons (q := (w ++ tl ws, [])) (hit_star_stop ?_) h
  have : Miss n (seqs (str "vrf".toList (.plus .space .done)).toL) (w ++ tl ws) [] :=
    miss_prog n (by decide) (by rw [det_str, if_neg (fun hp => hw.2 (prefix_word (by decide) ws hp))])
  rw [Miss, run, this]; rfl

theorem route6_line {R : Route6} (hv : R.vrf = none) :
    R.line = "ipv6".toList ++ tl ("route".toList :: (R.pfx ++ '/' :: natStr R.len) :: (param [] R.intf ++ (param [] R.addr ++ R.tail))) := by
  rw [Route6.line, Route6.words, hv]
  exact join_tl _ _

/-- C269: `network`, `network_object` and `nexthop_str` of a route without VRF: the prefix; the
object of the prefix with its length; the interface of the next hop, or its address where it has no
interface. -/
theorem C269_network_partial {R : Route6} (h : R.Ok) (hv : R.vrf = none) :
    routeNetwork R.line = .ok R.pfx ∧
    (∀ n, Text6 R.pfx n → R.len ≤ 128 → ∃ o, routeNetworkObject6 R.line = .ok (some o) ∧ o.ip = n ∧ o.plen = R.len ∧
      o.net = n / 2 ^ (128 - R.len) * 2 ^ (128 - R.len)) ∧
    (128 < R.len → routeNetworkObject6 R.line = .ok none) ∧
    routeNexthopStr R.line = .ok ((R.intf.or R.addr).getD []) := by
  obtain ⟨pv, hp⟩ := h.pfx
  have hnv := pfx_word hp R.len
  have hd := digits_nat R.len
  have hslash : '/' ∉ R.pfx := (text6_facts (.inl hp)).2.1
  have hnet : routeNetwork R.line = .ok R.pfx := by
    rw [routeNetwork, is_v6, if_pos rfl]
    obtain ⟨x, w, hx, _⟩ := word_cons (text6_word hp)
    refine typed_hit net6_compile (q := (tl (param [] R.intf ++ (param [] R.addr ++ R.tail)), [(2, R.pfx)])) ?_ rfl rfl
    rw [route6_line hv]
    refine lead6_hit _ hnv _ _ ?_
    rw [List.append_assoc, hit_cons_iff, hitk_grp, hitk_seq]
    generalize hr : tl (param [] R.intf ++ (param [] R.addr ++ R.tail)) = r
    have hstop : Stop r := hr ▸ tl_stop _
    have hns : ∀ c ∈ R.pfx, K.nonspace.has c = true := fun c hc => by simp [K.has, (hp.chars c hc).2]
    rw [hx] at hns hslash ⊢
    refine hitk_first (p := (w ++ '/' :: (natStr R.len ++ r), [])) (hit_cls (k := .nonspace) (hns x (by simp))) ?_
    refine hitk_lazy w (fun c hc => by rw [K.cls_has]; exact hns c (by simp [hc])) ?_ ?_
    · dsimp only
      rw [show ((x :: w) ++ ('/' :: natStr R.len ++ r)).take (((x :: w) ++ ('/' :: natStr R.len ++ r)).length - ('/' :: (natStr R.len ++ r)).length) = x :: w by
        rw [show ('/' :: natStr R.len ++ r) = '/' :: (natStr R.len ++ r) from rfl, List.length_append, Nat.add_sub_cancel, List.take_left]]
      show Hit _ (seqs [_, _]) _ _ _
      exact hit_cons (hit_cls (k := .chr '/') (by simp [K.has])) (hit_cons (hit_digits hd.1 hd.2 (stop_digit hstop)) (hit_nil _ _ _))
    · intro w' y w'' e
      refine (miss_iff _ _ _ _).mpr ?_
      intro v hv
      dsimp only at hv
      rw [lang_cons] at hv
      obtain ⟨r, h1, -⟩ := hv
      obtain ⟨z, e1, hz⟩ := (lang_cls ..).mp h1
      obtain rfl : z = '/' := by simpa [K.has] using hz
      rw [List.cons_append, List.cons.injEq] at e1
      exact hslash (by rw [e, ← e1.1]; simp)
  have hm := (C269_route h).2.1
  have hob : routeNetworkObject6 R.line = (match IP.V6.ofStr (R.pfx ++ '/' :: natStr R.len) with
      | .ok o => .ok (some o)
      | .error _ => .ok none) := by
    rw [routeNetworkObject6, hm, hnet]
    rfl
  refine ⟨hnet, ?_, ?_, ?_⟩
  · intro n hn hl
    obtain ⟨o, h1, h2⟩ := (C87_reads hn hl).2.1
    refine ⟨o, ?_, h2⟩
    rw [hob, show R.pfx ++ '/' :: natStr R.len = R.pfx ++ "/".toList ++ natStr R.len by simp, h1]
  · intro hl
    rw [hob]
    cases ho : IP.V6.ofStr (R.pfx ++ '/' :: natStr R.len) with
    | error e => rfl
    | ok o =>
      exfalso
      obtain ⟨_, u, h1, h2⟩ := ofStr_ok.mp ho
      rw [splitWs_word hnv.1, joinMask] at h1
      cases h1
      obtain ⟨a, m, ip, p, h3, _, h4, _⟩ := ofText_ok.mp h2
      rw [hp.find.2 _ hd.1 hd.2] at h3
      cases h3
      have := (makeNetmask6_iff.mp h4).2.1
      rw [show natVal ((some (natStr R.len)).getD "128".toList) = R.len from natVal_natStr R.len] at this
      omega
  · rw [routeNexthopStr, is_v6, if_pos rfl]
    obtain ⟨w, ws, hw, hww, hwe⟩ : ∃ w ws, param [] R.intf ++ (param [] R.addr ++ R.tail) = w :: ws ∧ IsWord w ∧ w = (R.intf.or R.addr).getD [] := by
      cases hi : R.intf with
      | some i => exact ⟨i, _, rfl, (h.intf i hi).1, rfl⟩
      | none =>
        cases ha : R.addr with
        | some a => exact ⟨a, _, rfl, (h.addr a ha).elim fun _ hm => text6_word hm, rfl⟩
        | none => exact absurd hi (h.hop.elim id (fun h => absurd ha h))
    rw [← hwe]
    refine typed_hit hop6_compile (q := (tl ws, [(2, w)])) ?_ rfl rfl
    rw [route6_line hv, hw]
    refine lead6_hit _ hnv _ _ ?_
    refine hit_cons (ns_hit _ hnv.1 (tl_stop _) _) ?_
    rw [tl_cons]
    exact hit_cons (sp_hit _ hww _ _) (hit_cons (hit_grp_app (ns_hit _ hww (tl_stop _) _)) (hit_nil _ _ _))

theorem route6_words {R : Route6} (h : R.Ok) : ∀ w ∈ R.words, IsWord w := by
  have num : ∀ (o : Option Nat) v, o.map natStr = some v → IsWord v := by
    intro o v hv
    cases o with
    | none => cases hv
    | some m =>
      cases hv
      have hd := digits_nat m
      exact ⟨hd.1, fun c hc => digit_not_space (hd.2 c hc)⟩
  have app : ∀ {a b : List Str}, (∀ w ∈ a, IsWord w) → (∀ w ∈ b, IsWord w) → ∀ w ∈ a ++ b, IsWord w := by
    intro a b ha hb w hw
    rcases List.mem_append.mp hw with h | h
    · exact ha w h
    · exact hb w h
  have cons : ∀ {a : Str} {b : List Str}, IsWord a → (∀ w ∈ b, IsWord w) → ∀ w ∈ a :: b, IsWord w := by
    intro a b ha hb w hw
    rcases List.mem_cons.mp hw with rfl | h
    · exact ha
    · exact hb w h
  obtain ⟨n, hn⟩ := h.pfx
  rw [Route6.words, Route6.tail]
  exact app (by decide) (app (param_words (by decide) h.vrf) (cons (pfx_word hn R.len).1
    (app (param_words (by decide) (fun v hv => (h.intf v hv).1)) (app (param_words (by decide) (fun v hv => (h.addr v hv).elim fun _ hm => text6_word hm))
      (app (param_words (by decide) h.hopVrf) (app (param_words (by decide) (num _)) (app (keyword_words (by decide) _) (app (keyword_words (by decide) _)
        (app (param_words (by decide) (num _)) (app (param_words (by decide) (num _)) (param_words (by decide) h.name)))))))))))

/-- C269: the line of a static IPv6 route gives a route object. -/
theorem C269_class {R : Route6} (h : R.Ok) : lineFactory R.line = .ok .route := by
  have hr : rstrip R.line = R.line := rstrip_of_last (Diff.join_last (route6_words h))
  obtain ⟨c, hh, _⟩ := route6_hit R.line.length h
  have hi : routeInfo R.line = .ok (route6Names.map (fun q => (q.1, c.lookup q.2))) := by
    rw [routeInfo, is_v6, if_pos rfl, route6_compile]
    simp only [search_hit hh]
    rfl
  have hk : Kind R.line .route := by
    right
    rw [Route6.line, Route6.words]
    rw [show wd ["ipv6", "route"] ++ (param ["vrf"] R.vrf ++ ((R.pfx ++ '/' :: natStr R.len) :: (param [] R.intf ++ (param [] R.addr ++ R.tail))))
      = "ipv6".toList :: "route".toList :: (param ["vrf"] R.vrf ++ ((R.pfx ++ '/' :: natStr R.len) :: (param [] R.intf ++ (param [] R.addr ++ R.tail))))
      from rfl, join_tl]
    cases hw : param ["vrf"] R.vrf ++ ((R.pfx ++ '/' :: natStr R.len) :: (param [] R.intf ++ (param [] R.addr ++ R.tail))) with
    | nil => simp at hw
    | cons w ws => exact ⟨w ++ tl ws, rfl⟩
  rw [lineFactory, first_of_kind hk (by decide), construct, lineText, hr, hi]
  rfl

/-! ## Not vacuous -/

/-- `ipv6 route 2001:db8::/32 Serial1/0:1 fe80::1 nexthop-vrf BLUE 200 multicast tag 7 name backup`. -/
def exRoute6 : Route6 :=
  ⟨none, "2001:db8::".toList, 32, some "Serial1/0:1".toList, some "fe80::1".toList, some "BLUE".toList, some 200, false, true,
    some 7, none, some "backup".toList⟩

theorem ex_pfx : Text6 "2001:db8::".toList (0x20010db8 * 2 ^ 96) :=
  .short (hi := [[('2', 2), ('0', 0), ('0', 0), ('1', 1)], [('d', 13), ('b', 11), ('8', 8)]]) (lo := []) (by decide) (by decide) (by simp)

theorem ex_hop : Text6 "fe80::1".toList (0xfe80 * 2 ^ 112 + 1) :=
  .short (hi := [[('f', 15), ('e', 14), ('8', 8), ('0', 0)]]) (lo := [[('1', 1)]]) (by decide) (by decide) (by decide)

theorem exRoute6_ok : exRoute6.Ok where
  vrf := by intro v hv; cases hv
  pfx := ⟨_, ex_pfx⟩
  intf := by intro v hv; cases hv; exact ⟨by decide, .inr (by intro c hc; cases hc; decide)⟩
  addr := by intro v hv; cases hv; exact ⟨_, ex_hop⟩
  hop := .inl (by simp [exRoute6])
  hopVrf := by intro v hv; cases hv; decide
  cast := .inl rfl
  name := by intro v hv; cases hv; decide

example : exRoute6.line = "ipv6 route 2001:db8::/32 Serial1/0:1 fe80::1 nexthop-vrf BLUE 200 multicast tag 7 name backup".toList := by
  decide +kernel

example : routeNextHopAddr exRoute6.line = .ok "fe80::1".toList ∧ routeAdminDistance exRoute6.line = .ok 200 ∧
    routeNetwork exRoute6.line = .ok "2001:db8::".toList ∧ routeNexthopStr exRoute6.line = .ok "Serial1/0:1".toList ∧
    lineFactory exRoute6.line = .ok .route :=
  ⟨(C269_route exRoute6_ok).2.2.2.1, (C269_route exRoute6_ok).2.2.2.2.2.1, (C269_network_partial exRoute6_ok rfl).1,
    (C269_network_partial exRoute6_ok rfl).2.2.2, C269_class exRoute6_ok⟩

/-! ## Where it fails -/

/-- C269: of a route in a VRF, `network` is empty, `network_object` is None and `nexthop_str` is the
prefix. -/
theorem C269_vrf_fails :
    ∃ R : Route6, R.Ok ∧ R.vrf = some "RED".toList ∧ routeNetwork R.line = .ok [] ∧ routeNetworkObject6 R.line = .ok none ∧
      routeNexthopStr R.line = .ok "2001:db8::/32".toList := by
  refine ⟨{ exRoute6 with vrf := some "RED".toList }, { exRoute6_ok with vrf := by intro v hv; cases hv; decide }, rfl, ?_, ?_, ?_⟩
  all_goals decide +kernel

/-- C269: an interface whose name and number have a blank between them is read with the number
behind a slash, and without it where the number has no slash. -/
theorem C269_interface_fails :
    routeNextHopInterface "ipv6 route ::/0 GigabitEthernet 0/1".toList = .ok "GigabitEthernet 0/1".toList ∧
    routeNextHopInterface "ipv6 route ::/0 Tunnel 7".toList = .ok "Tunnel".toList ∧
    routeAdminDistance "ipv6 route ::/0 Tunnel 7".toList = .ok 7 := by decide +kernel

end Cisco

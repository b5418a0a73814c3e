import Verif.Cisco.WordProps

/-! # Properties of interface attributes: IPv4 addresses, and flags that need one -/

namespace Cisco

open Py Conf Query Re

variable {o : Opts} {lines : List Str} {P : Parsed}

/-! ## Specification -/

/-- An indented line `ip address A M` with two dotted quads and nothing else. -/
def Spec.AddrLine (t : Str) (a : Str × Str) : Prop :=
  Spec.Indented t ∧ splitWs t = Spec.wd ["ip", "address"] ++ [a.1, a.2] ∧ Spec.DottedQuad a.1 ∧ Spec.DottedQuad a.2

/-- An indented line `ip address dhcp` or `ip address negotiated`. -/
def Spec.Dynamic (t : Str) : Prop :=
  Spec.Indented t ∧ (Spec.Exactly ["ip", "address", "dhcp"] t ∨ Spec.Exactly ["ip", "address", "negotiated"] t)

/-- An indented line `ip address A M ..`: any word, then a word that starts with a dotted
quad. -/
def Spec.AddrStart (t : Str) (a : Str × Str) : Prop :=
  Spec.Indented t ∧ ∃ u more, splitWs t = Spec.wd ["ip", "address"] ++ a.1 :: (a.2 ++ u) :: more ∧
    Spec.DottedQuad a.2 ∧ ∀ c, u.head? = some c → isDigit c = false

/-! ## Lemmas -/

theorem ipGaps : (gaps true ["ip", "address"]).all (fun w => isWord w.1) = true := by decide

theorem ipFits (t : Str) : Fits (gaps true ["ip", "address"]) (lstrip t) := .inl (by simp [gaps])

theorem first_pair {α β : Type} {S : Str → α × β → Prop} (hu : ∀ t a b, S t a → S t b → a = b) {ts : List Str}
    {o₁ : Option α} {o₂ : Option β}
    (h₁ : Spec.First (fun t a => ∃ m, S t (a, m)) ts o₁) (h₂ : Spec.First (fun t m => ∃ a, S t (a, m)) ts o₂) :
    ∃ o, Spec.First S ts o ∧ o₁ = o.map Prod.fst ∧ o₂ = o.map Prod.snd := by
  induction ts with
  | nil => exact ⟨none, rfl, by rw [show o₁ = none from h₁]; rfl, by rw [show o₂ = none from h₂]; rfl⟩
  | cons t ts ih =>
    rcases h₁ with ⟨a, ⟨m, h1⟩, rfl⟩ | ⟨h1, h1'⟩
    · rcases h₂ with ⟨m', ⟨a', h2⟩, rfl⟩ | ⟨h2, _⟩
      · have := hu t _ _ h1 h2
        cases this
        exact ⟨some (a, m), .inl ⟨_, h1, rfl⟩, rfl, rfl⟩
      · exact absurd ⟨a, h1⟩ (h2 m)
    · rcases h₂ with ⟨m', ⟨a', h2⟩, rfl⟩ | ⟨_, h2'⟩
      · exact absurd ⟨m', h2⟩ (h1 a')
      · obtain ⟨o, h3, h4, h5⟩ := ih h1' h2'
        exact ⟨o, .inr ⟨fun a ha => h1 a.1 ⟨a.2, ha⟩, h3⟩, h4, h5⟩

theorem addrLine_unique (t : Str) (a b : Str × Str) (h1 : Spec.AddrLine t a) (h2 : Spec.AddrLine t b) : a = b := by
  have := h1.2.1.symm.trans h2.2.1
  have := List.append_cancel_left this
  simp only [List.cons.injEq, and_true] at this
  exact Prod.ext this.1 this.2

theorem addr_first (h : parse o lines = .ok P) (hn : ∀ l ∈ lines, '\n' ∉ l) (i : Nat) :
    ∃ v, Spec.First Spec.AddrLine (Spec.family P i) v ∧
      iterTyped P i "^\\s+ip\\s+address\\s+(\\d+\\.\\d+\\.\\d+\\.\\d+)\\s+\\d+\\.\\d+\\.\\d+\\.\\d+\\s*$" 1 toStr [] =
        .ok ((v.map Prod.fst).getD []) ∧ ipv4Netmask P i = .ok ((v.map Prod.snd).getD []) := by
  obtain ⟨v₁, h1, h2⟩ := tail_attr h hn i (ind := true) (pre := gaps true ["ip", "address"]) (n := 1) (names := [])
    (rx := "^\\s+ip\\s+address\\s+(\\d+\\.\\d+\\.\\d+\\.\\d+)\\s+\\d+\\.\\d+\\.\\d+\\.\\d+\\s*$")
    (tail_cap_quad 1 (ends_quad 1 true)) (by decide +kernel) (fun t _ => ipFits t) toStr [] (fun _ v _ => ⟨v, rfl⟩)
  obtain ⟨v₂, h3, h4⟩ := tail_attr h hn i (ind := true) (pre := gaps true ["ip", "address"]) (n := 1) (names := [])
    (rx := "^\\s+ip\\s+address\\s+\\d+\\.\\d+\\.\\d+\\.\\d+\\s+(\\d+\\.\\d+\\.\\d+\\.\\d+)\\s*$")
    (tail_quad (tail_quad_end 1 true)) (by decide +kernel) (fun t _ => ipFits t) toStr [] (fun _ v _ => ⟨v, rfl⟩)
  have e1 := first_congr (S' := fun t a => ∃ m, Spec.AddrLine t (a, m)) (fun t _ a => by
    constructor
    · rintro ⟨a1, more, v, a2, ⟨a3, more', rfl, m, rfl, a4⟩, a5⟩
      cases a5
      rw [fst_gaps] at a2
      exact ⟨m, a1 rfl, a2, a3, a4⟩
    · rintro ⟨m, a1, a2, a3, a4⟩
      refine ⟨fun _ => a1, [a, m], a, ?_, ⟨a3, [m], rfl, m, rfl, a4⟩, rfl⟩
      rw [fst_gaps]; exact a2) h1
  have e2 := first_congr (S' := fun t m => ∃ a, Spec.AddrLine t (a, m)) (fun t _ m => by
    constructor
    · rintro ⟨a1, more, v, a2, ⟨a, more', rfl, a3, rfl, a4⟩, a5⟩
      cases a5
      rw [fst_gaps] at a2
      exact ⟨a, a1 rfl, a2, a3, a4⟩
    · rintro ⟨a, a1, a2, a3, a4⟩
      refine ⟨fun _ => a1, [a, m], m, ?_, ⟨a, [m], rfl, a3, rfl, a4⟩, rfl⟩
      rw [fst_gaps]; exact a2) h3
  obtain ⟨v, b1, b2, b3⟩ := first_pair addrLine_unique e1 e2
  exact ⟨v, b1, by rw [h2, b2], by rw [ipv4Netmask, h4, b3]⟩

theorem first_exists {α : Type} {S : Str → α → Prop} {ts : List Str} {o : Option α} (h : Spec.First S ts o) :
    (o = none ↔ ∀ t ∈ ts, ∀ a, ¬ S t a) ∧ ∀ a, o = some a → ∃ t ∈ ts, S t a := by
  induction ts with
  | nil => rw [show o = none from h]; simp
  | cons t ts ih =>
    rcases h with ⟨a, h1, rfl⟩ | ⟨h1, h2⟩
    · refine ⟨⟨fun h => (by cases h), fun hh => absurd h1 (hh t (by simp) a)⟩, ?_⟩
      rintro b hb
      cases hb
      exact ⟨t, by simp, h1⟩
    · obtain ⟨i1, i2⟩ := ih h2
      refine ⟨i1.trans ?_, ?_⟩
      · constructor
        · intro hh u hu
          rcases List.mem_cons.mp hu with rfl | hu
          · exact h1
          · exact hh u hu
        · exact fun hh u hu => hh u (by simp [hu])
      · intro a ha
        obtain ⟨u, hu, hs⟩ := i2 a ha
        exact ⟨u, by simp [hu], hs⟩

theorem dyn_first (h : parse o lines = .ok P) (hn : ∀ l ∈ lines, '\n' ∉ l) (i : Nat) {rx w : String}
    (hi : Is rx (lead true (wordsG (gaps true ["ip", "address"]) (.grp 1 (str w.toList .done) (ends true [])))) 1 [] ∧
      isWord w.toList = true) :
    ∃ v, iterTyped P i rx 1 toStr [] = .ok v ∧ (v = w.toList ∨ v = []) ∧
      (v = w.toList ↔ ∃ t ∈ Spec.family P i, Spec.Indented t ∧ Spec.Exactly ["ip", "address", w] t) := by
  have hw := isWord_iff.mp hi.2
  obtain ⟨v, h1, h2⟩ := tail_attr h hn i (ind := true) (pre := gaps true ["ip", "address"]) (n := 1) (names := [])
    (rx := rx) (tail_exact 1 hw true) ⟨hi.1, by decide, by decide, by decide⟩ (fun t _ => ipFits t) toStr []
    (fun _ v _ => ⟨v, rfl⟩)
  have e1 := first_congr (S' := fun t a => a = w.toList ∧ Spec.Indented t ∧ Spec.Exactly ["ip", "address", w] t) (fun t _ a => by
    constructor
    · rintro ⟨a1, more, v, a2, ⟨rfl, rfl⟩, a5⟩
      cases a5
      rw [fst_gaps] at a2
      exact ⟨rfl, a1 rfl, a2⟩
    · rintro ⟨rfl, a1, a2⟩
      refine ⟨fun _ => a1, [w.toList], w.toList, ?_, ⟨rfl, rfl⟩, rfl⟩
      rw [fst_gaps]; exact a2) h1
  obtain ⟨i1, i2⟩ := first_exists e1
  refine ⟨_, h2, ?_, ?_⟩
  · cases v with
    | none => exact .inr rfl
    | some a =>
      obtain ⟨t, _, h, _⟩ := i2 a rfl
      exact .inl h
  · cases v with
    | none =>
      constructor
      · intro h; exact absurd h.symm hw.1
      · rintro ⟨t, ht, h⟩
        exact absurd ⟨rfl, h⟩ (i1.mp rfl t ht w.toList)
    | some a =>
      obtain ⟨t, ht, h, h'⟩ := i2 a rfl
      exact ⟨fun _ => ⟨t, ht, h'⟩, fun _ => h⟩

/-! ## C74 -/

/-- C74: `ipv4_addr` and `ipv4_netmask` are the two addresses of the first line `ip address
A M`; lines with anything behind them, such as `secondary`, do not count.  If the interface
has a line `ip address dhcp` or `ip address negotiated`, the address is empty. -/
theorem C74_addr (h : parse o lines = .ok P) (hn : ∀ l ∈ lines, '\n' ∉ l) (i : Nat) :
    ∃ v, Spec.First Spec.AddrLine (Spec.family P i) v ∧
      ipv4Netmask P i = .ok ((v.map Prod.snd).getD []) ∧
      ((¬ ∃ t ∈ Spec.family P i, Spec.Dynamic t) → ipv4Addr P i = .ok ((v.map Prod.fst).getD [])) ∧
      ((∃ t ∈ Spec.family P i, Spec.Dynamic t) → ipv4Addr P i = .ok []) := by
  obtain ⟨v, h1, h2, h3⟩ := addr_first h hn i
  obtain ⟨d, d1, _, d2⟩ := dyn_first h hn i (rx := "^\\s+ip\\s+address\\s+(dhcp)\\s*$") (w := "dhcp") (by decide +kernel)
  obtain ⟨n, n1, _, n2⟩ := dyn_first h hn i (rx := "^\\s+ip\\s+address\\s+(negotiated)\\s*$") (w := "negotiated")
    (by decide +kernel)
  have e : ipv4Addr P i = if d = "dhcp".toList then .ok [] else if n = "negotiated".toList then .ok [] else
      .ok ((v.map Prod.fst).getD []) := by
    rw [ipv4Addr, h2, d1, n1]; rfl
  refine ⟨v, h1, h3, ?_, ?_⟩
  · intro hno
    rw [e, if_neg, if_neg]
    · intro hh
      obtain ⟨t, ht, a, b⟩ := n2.mp hh
      exact hno ⟨t, ht, a, .inr b⟩
    · intro hh
      obtain ⟨t, ht, a, b⟩ := d2.mp hh
      exact hno ⟨t, ht, a, .inl b⟩
  · rintro ⟨t, ht, a, b | b⟩
    · rw [e, if_pos (d2.mpr ⟨t, ht, a, b⟩)]
    · rw [e]
      split
      · rfl
      · rw [if_pos (n2.mpr ⟨t, ht, a, b⟩)]


/-! ## The address object -/

/-- A dictionary of groups, by reading from left to right. -/
theorem dict_det {rx : String} {p : Prog} {n : Nat} {names : List (Str × Nat)} (h : Is rx p n names)
    (types : List (Str × Ty)) (dflt : Val) (P : Parsed) (i : Nat) :
    iterDict P i rx types dflt =
      match firstDet p (Spec.family P i) with
      | some c => types.mapM (fun q => do
          .ok (q.1, ← typedEntry (names.map (fun x => (x.1, c.lookup x.2))) q.1 q.2 dflt))
      | none => .ok (types.map (fun q => (q.1, dflt))) := by
  have := firstMatch_det p h.2 n names (texts P i)
  rw [← texts_family, ← this, iterDict, h.1]
  dsimp only
  cases firstMatch ⟨seqs (.bol :: p.toL), n, names⟩ (texts P i) with
  | none => rfl
  | some m => rfl

theorem firstDet_first {α : Type} {S : Str → α → Prop} {p : Prog} {C : Caps → α → Prop} (ts : List Str)
    (H : ∀ t ∈ ts, ∀ q, p.det t [] = some q → ∃ a, S t a ∧ C q.2 a)
    (H' : ∀ t ∈ ts, ∀ a, S t a → ∃ q, p.det t [] = some q) :
    ∃ o, Spec.First S ts o ∧
      ((o = none ∧ firstDet p ts = none) ∨ ∃ a c, o = some a ∧ firstDet p ts = some c ∧ C c a) := by
  induction ts with
  | nil => exact ⟨none, rfl, .inl ⟨rfl, rfl⟩⟩
  | cons t ts ih =>
    rw [firstDet]
    cases hd : p.det t [] with
    | none =>
      obtain ⟨o, h1, h2⟩ := ih (fun t ht => H t (by simp [ht])) (fun t ht => H' t (by simp [ht]))
      refine ⟨o, .inr ⟨?_, h1⟩, h2⟩
      intro a ha
      obtain ⟨q, hq⟩ := H' t (by simp) a ha
      rw [hd] at hq; cases hq
    | some q =>
      obtain ⟨a, ha, hc⟩ := H t (by simp) q hd
      exact ⟨some a, .inl ⟨a, ha, rfl⟩, .inr ⟨a, q.2, rfl, rfl, hc⟩⟩

def objProg : Prog :=
  lead true (wordsG (gaps true ["ip", "address"])
    (.grp 1 (.plus .nonspace .done) (.plus .space (.grp 2 (quad .done) .done))))

theorem obj_tail {r : Str} (h0 : lstrip r = r) (c : Caps) :
    (∀ q, (Prog.grp 1 (.plus .nonspace .done) (.plus .space (.grp 2 (quad .done) .done))).det r c = some q →
      ∃ a m u more, splitWs r = a :: (m ++ u) :: more ∧ Spec.DottedQuad m ∧
        (∀ x, u.head? = some x → isDigit x = false) ∧ q.2.lookup 1 = some a ∧ q.2.lookup 2 = some m) ∧
    (∀ a m u more, splitWs r = a :: (m ++ u) :: more → Spec.DottedQuad m →
      (∀ x, u.head? = some x → isDigit x = false) →
      ∃ q, (Prog.grp 1 (.plus .nonspace .done) (.plus .space (.grp 2 (quad .done) .done))).det r c = some q) := by
  by_cases hne : r = []
  · subst hne
    exact ⟨fun q hq => (by cases hq), fun a m u more h => (by cases h)⟩
  obtain ⟨a, rest, e1, e2, e3, e4⟩ := split_cons h0 hne
  have e5 : (Prog.grp 1 (.plus .nonspace .done) (.plus .space (.grp 2 (quad .done) .done))).det r c =
      if rest = [] then none else (Prog.grp 2 (quad .done) .done).det (lstrip rest) ((1, a) :: c) := by
    rw [e1, det_cap_word e2 e3, det_sp _ e3]
  rw [e5]
  constructor
  · intro q hq
    split at hq
    · cases hq
    · obtain ⟨x, s, b1, b2, b3⟩ := (det_grp 2 _ _ rfl _ _ _).mp hq
      rw [Prog.det] at b3
      cases b3
      obtain ⟨m, s', c1, c2, c3, c4⟩ := (quad_open _ _ _ _).mp b2
      rw [Prog.det] at c4
      cases c4
      have hx : x = m := List.append_cancel_right (b1.symm.trans c1)
      subst hx
      have hne' : lstrip rest ≠ [] := by
        intro e
        rw [e] at b1
        exact (quad_word c2).1 (List.append_eq_nil_iff.mp b1.symm).1
      obtain ⟨w, rest', f1, f2, f3, f4⟩ := split_cons (lstrip_lstrip rest) hne'
      obtain ⟨u, hu⟩ := (prefix_first (quad_word c2) f2 f3).mp (by rw [← f1, b1]; exact List.prefix_append _ _)
      refine ⟨a, x, u, splitWs rest', ?_, c2, ?_, rfl, rfl⟩
      · rw [e4, ← splitWs_lstrip rest, f4, hu]
      · intro y hy
        apply c3
        have : s = u ++ rest' := by
          refine List.append_cancel_left (as := x) ?_
          rw [← b1, f1, ← hu]; simp
        rw [this, List.head?_append, hy]; rfl
  · intro a' m u more h1 h2 h3
    rw [e4] at h1
    replace h1 := (List.cons.inj h1).2
    have hne' : lstrip rest ≠ [] := by
      intro e
      rw [← splitWs_lstrip, e] at h1
      cases h1
    obtain ⟨w, rest', f1, f2, f3, f4⟩ := split_cons (lstrip_lstrip rest) hne'
    rw [← splitWs_lstrip, f4] at h1
    obtain ⟨rfl, -⟩ := List.cons.inj h1
    refine ⟨(u ++ rest', (2, m) :: (1, a) :: c), ?_⟩
    · rw [if_neg (by rintro rfl; exact hne' rfl)]
      refine (det_grp 2 _ _ rfl _ _ _).mpr ⟨m, u ++ rest', by rw [f1]; simp, ?_, rfl⟩
      refine (quad_open _ _ _ _).mpr ⟨m, u ++ rest', by rw [f1]; simp, h2, ?_, rfl⟩
      intro y hy
      cases u with
      | nil => exact space_not_digit (f3 y (by simpa using hy))
      | cons z u => exact h3 y (by simpa using hy)

theorem obj_first (i : Nat) :
    ∃ v, Spec.First Spec.AddrStart (Spec.family P i) v ∧
      ipv4AddrObject P i = (match v with
        | none => .ok none
        | some (a, m) =>
          if a = "dhcp".toList then .ok none else if a = "negotiated".toList then .ok none
          else (IP.V4.ofStr (a ++ '/' :: m)).map some) := by
  have hi : Is "^\\s+ip\\s+address\\s+(?P<v4addr>\\S+)\\s+(?P<v4netmask>\\d+\\.\\d+\\.\\d+\\.\\d+)" objProg 2
      [("v4addr".toList, 1), ("v4netmask".toList, 2)] := by decide +kernel
  have hnil : ∀ c, (Prog.grp 1 (.plus .nonspace .done) (.plus .space (.grp 2 (quad .done) .done))).det [] c = none :=
    fun _ => rfl
  obtain ⟨v, h1, h2⟩ := firstDet_first (S := Spec.AddrStart) (p := objProg)
    (C := fun c a => c.lookup 1 = some a.1 ∧ c.lookup 2 = some a.2 ∧ a.1 ≠ [] ∧ a.2 ≠ []) (Spec.family P i) (by
      intro t ht q hq
      obtain ⟨b1, b2, b3⟩ := (det_chain true (words_of ipGaps) _ hnil (ipFits t) [] q).mp hq
      obtain ⟨a, m, u, more, c1, c2, c3, c4, c5⟩ := (obj_tail (lstrip_skip _ (lstrip_lstrip t)) _).1 q b3
      rw [splitWs_skip _ (lstrip_lstrip t), splitWs_lstrip] at c1
      rw [fst_gaps] at b2
      have e : splitWs t = Spec.wd ["ip", "address"] ++ a :: (m ++ u) :: more := by
        rw [prefix_append_drop b2, ← c1]; rfl
      refine ⟨(a, m), ⟨b1 rfl, u, more, e, c2, c3⟩, c4, c5, ?_, (quad_word c2).1⟩
      exact (splitWs_words t a (by rw [e]; simp)).1) (by
      rintro t ht ⟨a, m⟩ ⟨b1, u, more, b2, b3, b4⟩
      obtain ⟨q, hq⟩ := (obj_tail (lstrip_skip (gaps true ["ip", "address"]).length (lstrip_lstrip t)) []).2 a m u more (by
        rw [splitWs_skip _ (lstrip_lstrip t), splitWs_lstrip, b2]; rfl) b3 b4
      refine ⟨q, (det_chain true (words_of ipGaps) _ hnil (ipFits t) [] q).mpr ⟨fun _ => b1, ?_, hq⟩⟩
      rw [fst_gaps, b2]
      exact List.prefix_append _ _)
  refine ⟨v, h1, ?_⟩
  rw [ipv4AddrObject, dict_det hi]
  rcases h2 with ⟨rfl, h3⟩ | ⟨⟨a, m⟩, c, rfl, h3, h4, h5, h6, h7⟩
  · rw [h3]; rfl
  · rw [h3]
    dsimp only
    have k1 : (List.map (fun x : Str × Nat => (x.1, List.lookup x.2 c)) [("v4addr".toList, 1), ("v4netmask".toList, 2)]) =
        [("v4addr".toList, some a), ("v4netmask".toList, some m)] := by
      simp only [List.map_cons, List.map_nil, h4, h5]
    rw [k1]
    have t1 : ∀ (s : Str), s ≠ [] → (Val.str s ≠ Val.str []) := by
      intro s hs e; cases e; exact hs rfl
    have k2 : typedEntry [("v4addr".toList, some a), ("v4netmask".toList, some m)] "v4addr".toList .str (.str []) =
        .ok (.str a) := by
      rw [typedEntry, show List.lookup "v4addr".toList [("v4addr".toList, some a), ("v4netmask".toList, some m)] =
        some (some a) from rfl]
      dsimp only
      rw [if_pos (t1 a h6)]; rfl
    have k3 : typedEntry [("v4addr".toList, some a), ("v4netmask".toList, some m)] "v4netmask".toList .str (.str []) =
        .ok (.str m) := by
      rw [typedEntry, show List.lookup "v4netmask".toList [("v4addr".toList, some a), ("v4netmask".toList, some m)] =
        some (some m) from rfl]
      dsimp only
      rw [if_pos (t1 m h7)]; rfl
    simp only [List.mapM_cons, List.mapM_nil, k2, k3]
    show (if a = [] then _ else _) = _
    rw [if_neg h6]

/-- C74: the address object is `IPv4Obj("A/M")` for the first line that starts with `ip
address A M`, whatever follows, and empty without such a line; with `A` = `dhcp` or
`negotiated` it is empty. -/
theorem C74_object (i : Nat) :
    ∃ v, Spec.First Spec.AddrStart (Spec.family P i) v ∧
      (v = none → ipv4AddrObject P i = .ok none) ∧
      (∀ a m, v = some (a, m) → a ≠ "dhcp".toList → a ≠ "negotiated".toList →
        ipv4AddrObject P i = (IP.V4.ofStr (a ++ '/' :: m)).map some) := by
  obtain ⟨v, h1, h2⟩ := obj_first (P := P) i
  refine ⟨v, h1, ?_, ?_⟩
  · rintro rfl; exact h2
  · rintro a m rfl h3 h4
    rw [h2]
    dsimp only
    rw [if_neg h3, if_neg h4]

theorem addrLine_start {t : Str} {a : Str × Str} (h : Spec.AddrLine t a) : Spec.AddrStart t a :=
  ⟨h.1, [], [], by rw [h.2.1]; simp, h.2.2.2, by simp⟩

/-- C74: if every line of the interface that starts like an address line ends there (no
`secondary`), and there is no dynamic address, then the address object is the one of
`ipv4_addr` and `ipv4_netmask`. -/
theorem C74_consistent_partial (h : parse o lines = .ok P) (hn : ∀ l ∈ lines, '\n' ∉ l) (i : Nat)
    (hend : ∀ t ∈ Spec.family P i, ∀ a, Spec.AddrStart t a → Spec.AddrLine t a)
    (hdyn : ¬ ∃ t ∈ Spec.family P i, Spec.Dynamic t) :
    ∃ a m, ipv4Addr P i = .ok a ∧ ipv4Netmask P i = .ok m ∧
      ipv4AddrObject P i = if a = [] then .ok none else (IP.V4.ofStr (a ++ '/' :: m)).map some := by
  obtain ⟨v, h1, h2, h3, -⟩ := C74_addr h hn i
  obtain ⟨w, g1, g2, g3⟩ := C74_object (P := P) i
  have : v = w := by
    have g1' := first_congr (S' := Spec.AddrLine) (fun t ht a => ⟨hend t ht a, addrLine_start⟩) g1
    revert h1 g1'
    generalize Spec.family P i = ts
    intro h1 g1'
    induction ts with
    | nil => rw [show v = none from h1, show w = none from g1']
    | cons t ts ih =>
      rcases h1 with ⟨a, a1, rfl⟩ | ⟨a1, a2⟩ <;> rcases g1' with ⟨b, b1, rfl⟩ | ⟨b1, b2⟩
      · rw [addrLine_unique t a b a1 b1]
      · exact absurd a1 (b1 a)
      · exact absurd b1 (a1 b)
      · exact ih a2 b2
  subst this
  refine ⟨_, _, h3 hdyn, h2, ?_⟩
  cases v with
  | none => exact g2 rfl
  | some a =>
    obtain ⟨t, _, ht⟩ := (first_exists h1).2 a rfl
    have hq := ht.2.2.1
    have hne : a.1 ≠ [] := (quad_word hq).1
    have hdig : ∀ s : String, (s.toList.all fun c => !isDigit c) = true → a.1 ≠ s.toList := by
      intro s hs e
      obtain ⟨x, y, z, u, e2, hx⟩ := hq
      obtain ⟨hx1, hx2⟩ := hx x (by simp)
      cases x with
      | nil => exact hx1 rfl
      | cons d x =>
        have h4 := hx2 d (by simp)
        rw [← e, e2] at hs
        simp [h4] at hs
    show _ = if a.1 = [] then _ else _
    rw [if_neg hne]
    exact g3 a.1 a.2 rfl (hdig "dhcp" (by decide)) (hdig "negotiated" (by decide))

/-- C74 does not hold as stated: with a secondary address before the primary one (the order
in which the routers print them), the address object is the secondary address. -/
theorem C74_secondary_fails : ∃ P, parse { factory := true }
      ["interface Gi0/1".toList, " ip address 10.2.2.2 255.255.255.0 secondary".toList,
        " ip address 10.1.1.1 255.255.0.0".toList] = .ok P ∧
    (ipv4Addr P 0 == .ok "10.1.1.1".toList && ipv4Netmask P 0 == .ok "255.255.0.0".toList &&
      ipv4AddrObject P 0 == (IP.V4.ofStr "10.2.2.2/255.255.255.0".toList).map some &&
      ipv4Masklength P 0 == .ok 24) = true :=
  of_shows (by decide +kernel)

example : ∃ P, parse { factory := true } exLines = .ok P ∧
    (ipv4Addr P 0 == .ok "10.0.0.1".toList && ipv4Netmask P 0 == .ok "255.255.255.0".toList &&
      ipv4AddrObject P 0 == (IP.V4.ofStr "10.0.0.1/255.255.255.0".toList).map some &&
      ipv4Masklength P 0 == .ok 24 && ipv4Addr P 16 == .ok [] && ipv4AddrObject P 16 == .ok none) = true :=
  of_shows (by decide +kernel)

example : ∃ P, parse { factory := true }
      ["interface Gi0/1".toList, " ip address dhcp".toList, " ip address 10.1.1.1 255.255.0.0".toList] = .ok P ∧
    (ipv4Addr P 0 == .ok [] && ipv4Netmask P 0 == .ok "255.255.0.0".toList) = true :=
  of_shows (by decide +kernel)

/-! ## Attributes that need an address -/

theorem withAddr_eq {α : Type} {a : Str} (h : ipv4Addr P i = .ok a) (x : α) (f : Except Err α) :
    withAddr P i x f = if a = [] then .ok x else f := by
  rw [withAddr, h]; rfl

theorem ipv4Addr_ok (h : parse o lines = .ok P) (hn : ∀ l ∈ lines, '\n' ∉ l) (i : Nat) : ∃ a, ipv4Addr P i = .ok a := by
  obtain ⟨v, _, _, h2, h3⟩ := C74_addr h hn i
  by_cases hd : ∃ t ∈ Spec.family P i, Spec.Dynamic t
  · exact ⟨_, h3 hd⟩
  · exact ⟨_, h2 hd⟩

/-- The flags that need an address, with their lines. -/
def ipFlags : List ((Parsed → Nat → Except Err Bool) × List String) :=
  [(hasNoIcmpUnreachables, ["no", "ip", "unreachables"]), (hasNoIcmpRedirects, ["no", "ip", "redirects"]),
    (hasNoIpProxyarp, ["no", "ip", "proxy-arp"]), (hasIpPimDenseMode, ["ip", "pim", "dense-mode"]),
    (hasIpPimSparseMode, ["ip", "pim", "sparse-mode"])]

/-- C73: for lines without double blanks, each of these flags is true exactly if the
interface has an address and the line. -/
theorem C73_ip_flags_partial (h : parse o lines = .ok P) (hn : ∀ l ∈ lines, '\n' ∉ l) (i : Nat)
    (ht : ∀ t ∈ Spec.family P i, Spec.Tidy t) :
    ∀ f ∈ ipFlags, ∃ a b, ipv4Addr P i = .ok a ∧ f.1 P i = .ok b ∧
      (b = true ↔ a ≠ [] ∧ ∃ t ∈ Spec.family P i, Spec.Exactly f.2 t) := by
  obtain ⟨a, ha⟩ := ipv4Addr_ok h hn i
  have key : ∀ (f : Except Err Bool) (ws : List String),
      (∃ b, f = .ok b ∧ (b = true ↔ ∃ t ∈ Spec.family P i, Spec.Exactly ws t)) →
      ∃ a b, ipv4Addr P i = .ok a ∧ withAddr P i false f = .ok b ∧
        (b = true ↔ a ≠ [] ∧ ∃ t ∈ Spec.family P i, Spec.Exactly ws t) := by
    rintro f ws ⟨b, h1, h2⟩
    by_cases hne : a = []
    · exact ⟨a, false, ha, by rw [withAddr_eq ha, if_pos hne], by simp [hne]⟩
    · exact ⟨a, b, ha, by rw [withAddr_eq ha, if_neg hne, h1], by simp [hne, h2]⟩
  intro f hf
  simp only [ipFlags, List.mem_cons, List.not_mem_nil, or_false] at hf
  rcases hf with rfl | rfl | rfl | rfl | rfl
  · exact key _ _ (flag_attr (pre := gaps false ["no", "ip"]) (l := []) (w := "unreachables".toList) (sp := true)
      h hn i (by decide +kernel) (fun t hh => .inr (ht t hh)))
  · exact key _ _ (flag_attr (pre := gaps false ["no", "ip"]) (l := []) (w := "redirects".toList) (sp := true)
      h hn i (by decide +kernel) (fun t hh => .inr (ht t hh)))
  · exact key _ _ (flag_attr (pre := gaps false ["no", "ip"]) (l := []) (w := "proxy-arp".toList) (sp := true)
      h hn i (by decide +kernel) (fun t hh => .inr (ht t hh)))
  · exact key _ _ (flag_attr (pre := []) (l := gaps false ["ip", "pim"]) (w := "dense-mode".toList) (sp := true)
      h hn i (by decide +kernel) (fun t hh => .inr (ht t hh)))
  · exact key _ _ (flag_attr (pre := []) (l := gaps false ["ip", "pim"]) (w := "sparse-mode".toList) (sp := true)
      h hn i (by decide +kernel) (fun t hh => .inr (ht t hh)))

/-- C73 does not hold as stated: with two blanks the line is missed, and without an address
the flag is false although the line is there. -/
theorem C73_ip_flags_fails :
    (∃ P, parse { factory := true } ["interface Gi0/1".toList, " ip address 10.1.1.1 255.255.0.0".toList,
        " no  ip redirects".toList] = .ok P ∧ (hasNoIcmpRedirects P 0 == .ok false) = true) ∧
    (∃ P, parse { factory := true } ["interface Gi0/1".toList, " ip address dhcp".toList,
        " no ip redirects".toList] = .ok P ∧ (hasNoIcmpRedirects P 0 == .ok false) = true) :=
  ⟨of_shows (by decide +kernel), of_shows (by decide +kernel)⟩

/-- C71: `manual_arp_timeout` is -1 without an address; otherwise a number like the others. -/
theorem C71_arp (h : parse o lines = .ok P) (hn : ∀ l ∈ lines, '\n' ∉ l) (i : Nat) :
    ∃ a v, ipv4Addr P i = .ok a ∧ Spec.First (Spec.Number ["arp", "timeout"] []) (Spec.family P i) v ∧
      (a = [] → manualArpTimeout P i = .ok (-1)) ∧ (a ≠ [] → manualArpTimeout P i = .ok (v.getD 0)) := by
  obtain ⟨a, ha⟩ := ipv4Addr_ok h hn i
  obtain ⟨v, h1, h2⟩ := num_attr (rx := "^\\s*arp\\s+timeout\\s+(\\d+)\\s*$") (pre := ["arp", "timeout"]) (post := [])
    (sp := true) h hn i (by decide +kernel) 0
  refine ⟨a, v, ha, h1, ?_, ?_⟩
  · intro e; rw [manualArpTimeout, withAddr_eq ha, if_pos e]
  · intro e; rw [manualArpTimeout, withAddr_eq ha, if_neg e, h2]

example : ∃ P, parse { factory := true } exLines = .ok P ∧
    (hasNoIcmpRedirects P 0 == .ok true && hasNoIcmpUnreachables P 0 == .ok false &&
      manualArpTimeout P 0 == .ok 0 && manualArpTimeout P 16 == .ok (-1)) = true :=
  of_shows (by decide +kernel)

end Cisco

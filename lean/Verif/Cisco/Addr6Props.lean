import Verif.Cisco.Addr6
import Verif.Cisco.AddrProps
import Verif.Re.Lead
import Verif.Nxos.Tails
import Verif.Conf.Braces
import Verif.IP.ViewsProps

/-! # IPv6 addresses of IOS interfaces -/

namespace Cisco

open Py Conf Query Re

variable {o : Opts} {lines : List Str} {P : Parsed}

/-- The word `w` begins with `a`, a slash and the digits `m`; the slash is the first one that has a
digit behind it (and something before it), and the digits are all that follow. -/
def Spec.Cut (w : Str) (a : Str × Str) : Prop :=
  ∃ u, w = a.1 ++ "/".toList ++ a.2 ++ u ∧ a.1 ≠ [] ∧ Spec.Digits a.2 ∧ (∀ x, u.head? = some x → isDigit x = false) ∧
    ∀ b x c, a.1 = b ++ "/".toList ++ x :: c → b ≠ [] → isDigit x = false

/-- The line is ` ipv6 address A/L ..`. -/
def Spec.Addr6 (t : Str) (a : Str × Str) : Prop :=
  Spec.Indented t ∧ ∃ w more, splitWs t = Spec.wd ["ipv6", "address"] ++ w :: more ∧ Spec.Cut w a

/-- The end of the expression: `(\S+?)\/(\d+)`. -/
def cutL : List Rgx :=
  [.grp 1 (.seq (.cls K.nonspace.cls) (.star false (.cls K.nonspace.cls))), .cls (K.chr '/').cls,
    .grp 2 (.seq (.cls K.digit.cls) (.star true (.cls K.digit.cls)))]

theorem cut_lang {n : Nat} {u v : Str} : Lang n (seqs cutL) u v ↔
    ∃ s d, u = s ++ '/' :: (d ++ v) ∧ s ≠ [] ∧ (∀ c ∈ s, isSpace c = false) ∧ Spec.Digits d := by
  rw [cutL, lang_cons]
  constructor
  · rintro ⟨r, h1, h2⟩
    rw [Lang] at h1
    obtain ⟨s, rfl, hs, hn⟩ := (lang_plus ..).mp h1
    rw [lang_cons] at h2
    obtain ⟨r', h3, h4⟩ := h2
    obtain ⟨x, rfl, hx⟩ := (lang_cls ..).mp h3
    obtain rfl : x = '/' := by simpa [K.has] using hx
    rw [lang_cons] at h4
    obtain ⟨r, h5, h6⟩ := h4
    obtain rfl := (lang_nil ..).mp h6
    rw [Lang] at h5
    obtain ⟨d, rfl, hd, hdd⟩ := (lang_plus ..).mp h5
    exact ⟨s, d, rfl, hs, fun c hc => by simpa [K.has] using hn c hc, hd, hdd⟩
  · rintro ⟨s, d, rfl, hs, hn, hd, hdd⟩
    refine ⟨'/' :: (d ++ v), ?_, ?_⟩
    · rw [Lang]
      exact (lang_plus ..).mpr ⟨s, rfl, hs, fun c hc => by simp [K.has, hn c hc]⟩
    · rw [lang_cons]
      refine ⟨d ++ v, (lang_cls ..).mpr ⟨'/', rfl, by simp [K.has]⟩, ?_⟩
      rw [lang_cons]
      refine ⟨v, ?_, (lang_nil ..).mpr rfl⟩
      rw [Lang]
      exact (lang_plus ..).mpr ⟨d, rfl, hd, hdd⟩

theorem cut_exists {w : Str} : ∀ (s : Str) (y : Char) (z : Str), w = s ++ '/' :: y :: z → s ≠ [] → isDigit y = true →
    ∃ a, Spec.Cut w a := by
  intro s
  induction hn : s.length using Nat.strongRecOn generalizing s with
  | _ n ih =>
    intro y z e hs hy
    by_cases hex : ∃ b x c, s = b ++ '/' :: x :: c ∧ b ≠ [] ∧ isDigit x = true
    · obtain ⟨b, x, c, e', hb, hx⟩ := hex
      refine ih b.length (by rw [← hn, e']; simp) b rfl x (c ++ '/' :: y :: z) (by rw [e, e']; simp) hb hx
    · refine ⟨(s, (y :: z).takeWhile isDigit), (y :: z).dropWhile isDigit, ?_, hs, ⟨?_, fun c hc => of_mem_takeWhile hc⟩, ?_, ?_⟩
      · rw [List.append_assoc _ ((y :: z).takeWhile isDigit), List.takeWhile_append_dropWhile, e]
        simp
      · rw [List.takeWhile_cons_of_pos hy]; simp
      · intro x hx
        have := List.head?_dropWhile_not isDigit (y :: z)
        rw [hx] at this
        simpa using this
      · intro b x c e' hb
        cases hx : isDigit x with
        | false => rfl
        | true => exact absurd ⟨b, x, c, by rw [show s = _ from e']; simp, hb, hx⟩ hex

theorem cut_run {n : Nat} {w rest : Str} {a : Str × Str} (hw : IsWord w) (hr : ∀ c, rest.head? = some c → isSpace c = true)
    (h : Spec.Cut w a) : ∃ v, (run n (seqs cutL) (w ++ rest) []).head? = some (v, [(2, a.2), (1, a.1)]) := by
  obtain ⟨a, m⟩ := a
  obtain ⟨u, rfl, ha, hm, hu, hmin⟩ := h
  obtain ⟨x, a, rfl⟩ := List.exists_cons_of_ne_nil ha
  refine ⟨u ++ rest, ?_⟩
  have hns : ∀ c ∈ x :: a, K.nonspace.has c = true := fun c hc => by
    have := hw.2 c (by simp only [List.append_assoc, List.mem_append]; exact .inl hc)
    simp [K.has, this]
  show Hit n (seqs cutL) _ [] _
  rw [cutL, hit_cons_iff, hitk_grp, hitk_seq]
  have e0 : (x :: a ++ "/".toList ++ m ++ u ++ rest : Str) = x :: (a ++ '/' :: (m ++ (u ++ rest))) := by simp
  rw [show ((x :: a, m).1 ++ "/".toList ++ (x :: a, m).2 ++ u ++ rest : Str) = x :: (a ++ '/' :: (m ++ (u ++ rest))) from e0]
  refine hitk_first (p := (a ++ '/' :: (m ++ (u ++ rest)), [])) (hit_cls (k := .nonspace) (hns x (by simp))) ?_
  refine hitk_lazy a (fun c hc => by rw [K.cls_has]; exact hns c (by simp [hc])) ?_ ?_
  · dsimp only
    have e1 : (x :: (a ++ '/' :: (m ++ (u ++ rest)))).take ((x :: (a ++ '/' :: (m ++ (u ++ rest)))).length - ('/' :: (m ++ (u ++ rest))).length) = x :: a := by
      rw [show (x :: (a ++ '/' :: (m ++ (u ++ rest)))) = (x :: a) ++ '/' :: (m ++ (u ++ rest)) from rfl, List.length_append,
        Nat.add_sub_cancel, List.take_left]
    rw [e1]
    show Hit n (seqs [_, _]) _ _ _
    refine hit_cons (hit_cls (k := .chr '/') (by simp [K.has])) ?_
    obtain ⟨d, m, rfl⟩ := List.exists_cons_of_ne_nil hm.1
    refine hit_cons (q := (u ++ rest, [(2, d :: m), (1, x :: a)])) ?_ (hit_nil ..)
    have hg := hit_plus_cls n K.digit.cls (x := d) (m ++ (u ++ rest)) [(1, x :: a)] (by
      rw [K.cls_has]; exact hm.2 d (by simp))
    have hh : K.digit.cls.has = isDigit := by funext c; rw [K.cls_has]; rfl
    rw [hh, List.dropWhile_append_of_pos (p := isDigit) (fun c hc => hm.2 c (by simp [hc]))] at hg
    have hd : (u ++ rest).dropWhile isDigit = u ++ rest := by
      cases u with
      | cons y u => rw [List.cons_append, List.dropWhile_cons_of_neg (by simp [hu y rfl])]
      | nil =>
        cases rest with
        | nil => rfl
        | cons y r => rw [List.nil_append, List.dropWhile_cons_of_neg (by simp [space_not_digit (hr y rfl)])]
    rw [hd] at hg
    have := hit_grp (k := 2) hg
    have e2 : (d :: (m ++ (u ++ rest))).take ((d :: (m ++ (u ++ rest))).length - (u ++ rest).length) = d :: m := by
      rw [show (d :: (m ++ (u ++ rest))) = (d :: m) ++ (u ++ rest) from rfl, List.length_append, Nat.add_sub_cancel, List.take_left]
    dsimp only at this
    rw [e2] at this
    exact this
  · intro w' y w'' e
    refine (miss_iff n _ _ _).mpr ?_
    intro v hv
    dsimp only at hv
    rw [lang_cons] at hv
    obtain ⟨r, h1, h2⟩ := hv
    obtain ⟨z, e1, hz⟩ := (lang_cls ..).mp h1
    obtain rfl : z = '/' := by simpa [K.has] using hz
    rw [lang_cons] at h2
    obtain ⟨r', h3, h4⟩ := h2
    rw [Lang] at h3
    obtain ⟨d, e2, hd, hdd⟩ := (lang_plus ..).mp h3
    obtain ⟨d0, d, rfl⟩ := List.exists_cons_of_ne_nil hd
    have hd0 : isDigit d0 = true := hdd d0 (by simp)
    rw [List.cons_append] at e1
    obtain ⟨rfl, e1'⟩ := List.cons.inj e1
    rw [← e1'] at e2
    cases w'' with
    | nil =>
      obtain ⟨rfl, -⟩ := List.cons.inj e2
      exact absurd hd0 (by decide)
    | cons q w'' =>
      obtain ⟨rfl, -⟩ := List.cons.inj e2
      have := hmin (x :: w') q w'' (by rw [e]; simp) (by simp)
      rw [this] at hd0
      cases hd0

theorem cut_unique {w : Str} {a b : Str × Str} (hw : IsWord w) (h1 : Spec.Cut w a) (h2 : Spec.Cut w b) : a = b := by
  obtain ⟨v, e1⟩ := cut_run (n := 0) (rest := []) hw (by simp) h1
  obtain ⟨v', e2⟩ := cut_run (n := 0) (rest := []) hw (by simp) h2
  rw [e1] at e2
  cases a; cases b
  simp at e2
  obtain ⟨-, rfl, rfl⟩ := e2
  rfl

/-- The expression for the lines. -/
def addr6Pat : Pat :=
  ⟨seqs (.bol :: ((lead true (wordsG (gaps true ["ipv6", "address"]) .done)).toL ++ cutL)), 2,
    [("v6addr".toList, 1), ("v6masklength".toList, 2)]⟩

theorem addr6_compile : compile reAddr6 = .ok addr6Pat := by decide +kernel

theorem addr6_search (t : Str) :
    (∀ m, search addr6Pat t = some m → ∃ a, Spec.Addr6 t a ∧ m.caps.lookup 1 = some a.1 ∧ m.caps.lookup 2 = some a.2) ∧
    (∀ a, Spec.Addr6 t a → ∃ m, search addr6Pat t = some m) := by
  have hw : ∀ w ∈ gaps true ["ipv6", "address"], IsWord w.1 ∧ w.2 = true := by
    intro w hw
    have h1 := words_of (l := gaps true ["ipv6", "address"]) (by decide) w hw
    refine ⟨h1, ?_⟩
    simp [gaps] at hw
    rcases hw with rfl | rfl <;> rfl
  have hs := search_lead true (by simp [gaps]) hw (A := cutL) t (by
    intro v h
    obtain ⟨s, d, e, hs, -⟩ := cut_lang.mp h
    cases s with
    | nil => exact hs rfl
    | cons x s => cases e) (by
    intro x s hx v h
    obtain ⟨s', d, e, hs, hn, -⟩ := cut_lang.mp h
    cases s' with
    | nil => exact hs rfl
    | cons y s' =>
      obtain ⟨rfl, -⟩ := List.cons.inj e
      rw [hn x (by simp)] at hx
      cases hx) (by decide) 2 [("v6addr".toList, 1), ("v6masklength".toList, 2)]
  have h0 := lstrip_skip (gaps true ["ipv6", "address"]).length (lstrip_lstrip t)
  have hsplit : splitWs (skip (gaps true ["ipv6", "address"]).length (lstrip t)) = (splitWs t).drop 2 := by
    rw [splitWs_skip _ (lstrip_lstrip t), splitWs_lstrip]; rfl
  rw [fst_gaps] at hs
  constructor
  · intro m hm
    obtain ⟨h1, h2, q, h3, h4⟩ := hs.1 m hm
    have hne : skip (gaps true ["ipv6", "address"]).length (lstrip t) ≠ [] := by
      intro e
      rw [e] at h3
      have : run t.length (seqs cutL) [] [] = [] := (miss_iff _ _ _ _).mpr (by
        intro v h
        obtain ⟨s, d, e, hs, -⟩ := cut_lang.mp h
        cases s with
        | nil => exact hs rfl
        | cons x s => cases e)
      rw [this] at h3
      cases h3
    obtain ⟨w, rest, e1, e2, e3, e4⟩ := split_cons h0 hne
    obtain ⟨v, hv⟩ := (run_ne_nil t.length (seqs cutL) (skip (gaps true ["ipv6", "address"]).length (lstrip t)) []).mp (by
      intro e; rw [e] at h3; cases h3)
    obtain ⟨s, d, e5, hsne, hsn, hd⟩ := cut_lang.mp hv
    obtain ⟨d0, d, rfl⟩ := List.exists_cons_of_ne_nil hd.1
    have hd0 : isDigit d0 = true := hd.2 d0 (by simp)
    have hpre : ∃ z, w = s ++ '/' :: d0 :: z := by
      have hp : s ++ '/' :: [d0] <+: w ++ rest := by rw [← e1, e5]; simp
      have hnsp : ∀ c ∈ s ++ '/' :: [d0], isSpace c = false := by
        intro c hc
        simp only [List.mem_append, List.mem_cons, List.not_mem_nil, or_false] at hc
        rcases hc with hc | rfl | rfl
        · exact hsn c hc
        · decide
        · exact digit_not_space hd0
      rcases List.prefix_or_prefix_of_prefix hp (List.prefix_append w rest) with h | h
      · obtain ⟨z, hz⟩ := h
        exact ⟨z, by rw [← hz]; simp⟩
      · obtain ⟨z, hz⟩ := h
        cases z with
        | nil => exact ⟨[], by rw [List.append_nil] at hz; rw [hz]⟩
        | cons c z =>
          rw [← hz] at hp
          have hp' := (List.prefix_append_right_inj w).mp hp
          obtain ⟨z', hz'⟩ := hp'
          have : isSpace c = true := e3 c (by rw [← hz']; rfl)
          rw [hnsp c (by rw [← hz]; simp)] at this
          cases this
    obtain ⟨z, hz⟩ := hpre
    obtain ⟨a, ha⟩ := cut_exists s d0 z hz hsne hd0
    refine ⟨a, ⟨h1 rfl, w, splitWs rest, ?_, ha⟩, ?_⟩
    · have := prefix_append_drop h2
      rw [this]
      congr 1
      rw [show (Spec.wd ["ipv6", "address"]).length = 2 from rfl, ← hsplit, e4]
    · obtain ⟨v', hv'⟩ := cut_run (n := t.length) e2 e3 ha
      rw [← e1, h3] at hv'
      cases hv'
      rw [h4]
      exact ⟨rfl, rfl⟩
  · rintro a ⟨h1, w, more, h2, h3⟩
    have hne : skip (gaps true ["ipv6", "address"]).length (lstrip t) ≠ [] := by
      intro e
      rw [e, h2] at hsplit
      cases hsplit
    obtain ⟨w', rest, e1, e2, e3, e4⟩ := split_cons h0 hne
    have : w' = w := by
      rw [e4, h2] at hsplit
      exact (List.cons.inj hsplit).1
    subst this
    obtain ⟨v', hv'⟩ := cut_run (n := t.length) e2 e3 h3
    rw [← e1] at hv'
    obtain ⟨m, hm, -⟩ := hs.2 _ (fun _ => h1) (by rw [h2]; exact List.prefix_append ..) hv'
    exact ⟨m, hm⟩

theorem first_search {α : Type} {S : Str → α → Prop} {p : Pat} {C : Caps → α → Prop} (ts : List Str)
    (H : ∀ t ∈ ts, ∀ m, search p t = some m → ∃ a, S t a ∧ C m.caps a)
    (H' : ∀ t ∈ ts, ∀ a, S t a → ∃ m, search p t = some m) :
    ∃ o, Spec.First S ts o ∧
      ((o = none ∧ firstMatch p ts = none) ∨ ∃ a m, o = some a ∧ firstMatch p ts = some m ∧ C m.caps a) := by
  induction ts with
  | nil => exact ⟨none, rfl, .inl ⟨rfl, rfl⟩⟩
  | cons t ts ih =>
    rw [firstMatch]
    cases hd : search p t with
    | none =>
      obtain ⟨o, h1, h2⟩ := ih (fun t ht => H t (by simp [ht])) (fun t ht => H' t (by simp [ht]))
      refine ⟨o, .inr ⟨?_, h1⟩, h2⟩
      intro a ha
      obtain ⟨q, hq⟩ := H' t (by simp) a ha
      rw [hd] at hq; cases hq
    | some m =>
      obtain ⟨a, ha, hc⟩ := H t (by simp) m hd
      exact ⟨some a, .inl ⟨a, ha, rfl⟩, .inr ⟨a, m, rfl, rfl, hc⟩⟩

theorem obj6_first (P : Parsed) (i : Nat) :
    ∃ v, Spec.First Spec.Addr6 (Spec.family P i) v ∧
      ipv6AddrObject P i = (match v with
        | none => .ok none
        | some (a, m) =>
          if a = "dhcp".toList then .ok none else if a = "negotiated".toList then .ok none
          else (IP.V6.ofStr (a ++ '/' :: m)).map some) := by
  obtain ⟨v, h1, h2⟩ := first_search (S := Spec.Addr6) (p := addr6Pat)
    (C := fun c a => c.lookup 1 = some a.1 ∧ c.lookup 2 = some a.2 ∧ a.1 ≠ [] ∧ a.2 ≠ []) (Spec.family P i) (by
      intro t _ m hm
      obtain ⟨a, h1, h2, h3⟩ := (addr6_search t).1 m hm
      obtain ⟨_, _, _, _, u, _, h4, h5, _⟩ := id h1
      exact ⟨a, h1, h2, h3, h4, h5.1⟩) (fun t _ => (addr6_search t).2)
  refine ⟨v, h1, ?_⟩
  rw [← texts_family] at h2
  rw [ipv6AddrObject, iterDict, addr6_compile]
  rcases h2 with ⟨rfl, h3⟩ | ⟨⟨a, m⟩, f, rfl, h3, h4, h5, h6, h7⟩
  · dsimp only
    rw [h3]; rfl
  · dsimp only
    rw [h3, getTypedDict]
    have k1 : f.groupdict addr6Pat = [("v6addr".toList, some a), ("v6masklength".toList, some m)] := by
      rw [Found.groupdict, addr6Pat]
      simp only [List.map_cons, List.map_nil, h4, h5]
    rw [k1]
    have t1 : ∀ (s : Str), s ≠ [] → (Val.str s ≠ Val.str []) := by
      intro s hs e; cases e; exact hs rfl
    have k2 : typedEntry [("v6addr".toList, some a), ("v6masklength".toList, some m)] "v6addr".toList .str (.str []) =
        .ok (.str a) := by
      rw [typedEntry, show List.lookup "v6addr".toList [("v6addr".toList, some a), ("v6masklength".toList, some m)] =
        some (some a) from rfl]
      dsimp only
      rw [if_pos (t1 a h6)]; rfl
    have k3 : typedEntry [("v6addr".toList, some a), ("v6masklength".toList, some m)] "v6masklength".toList .str (.str []) =
        .ok (.str m) := by
      rw [typedEntry, show List.lookup "v6masklength".toList [("v6addr".toList, some a), ("v6masklength".toList, some m)] =
        some (some m) from rfl]
      dsimp only
      rw [if_pos (t1 m h7)]; rfl
    simp only [List.mapM_cons, List.mapM_nil, k2, k3]
    show (if a = [] then _ else _) = _
    rw [if_neg h6]

/-! ## C173: `ipv6_addr_object` and `ipv6_masklength` -/

theorem text6_not {a : Str} {n : Nat} (h : IP.Text6 a n) : a ≠ "dhcp".toList ∧ a ≠ "negotiated".toList := by
  have hp := h.parse
  constructor
  · rintro rfl
    exact absurd hp (by rw [show IP.parse6 "dhcp".toList = .error .addressValue by decide +kernel]; intro e; cases e)
  · rintro rfl
    exact absurd hp (by rw [show IP.parse6 "negotiated".toList = .error .addressValue by decide +kernel]; intro e; cases e)

/-- C173: if the first line ` ipv6 address A/L ..` of the interface has a valid IPv6 address A and a
prefix length L (at most three digits), `ipv6_addr_object` is that address with that prefix
length and `ipv6_masklength` is the prefix length; without such a line, they are the empty object
and 0. -/
theorem C173_object (P : Parsed) (i : Nat) :
    ∃ v, Spec.First Spec.Addr6 (Spec.family P i) v ∧
      (∀ a m n, v = some (a, m) → IP.Text6 a n → m.length ≤ 3 → natVal m ≤ 128 →
        ipv6AddrObject P i = .ok (some (IP.obj6 n (natVal m))) ∧ ipv6Masklength P i = .ok (natVal m)) ∧
      (v = none → ipv6AddrObject P i = .ok none ∧ ipv6Masklength P i = .ok 0) ∧
      (∀ a m, v = some (a, m) → a ≠ "dhcp".toList → a ≠ "negotiated".toList →
        ipv6AddrObject P i = (IP.V6.ofStr (a ++ "/".toList ++ m)).map some) := by
  obtain ⟨v, h1, h2⟩ := obj6_first P i
  refine ⟨v, h1, ?_, ?_, ?_⟩
  · rintro a m n rfl ha hl hp
    obtain ⟨ha1, ha2⟩ := text6_not ha
    obtain ⟨t, -, -, w, more, -, u, -, -, hm, -⟩ := (first_exists h1).2 _ rfl
    have hT : IP.TextNet6 (a ++ '/' :: m) n (natVal m) :=
      ⟨a, .inl ha, .inr ⟨m, hm.1, hm.2, rfl, hp, by simp⟩⟩
    have ho := IP.textNet6_obj hT (by have := ha.len; simp; omega)
    dsimp only at h2
    rw [if_neg ha1, if_neg ha2, ho] at h2
    have e : IP.V6.make n (natVal m) = IP.obj6 n (natVal m) := IP.make6_obj ha.lt hp
    rw [e] at h2
    exact ⟨h2, by rw [ipv6Masklength, h2]; rfl⟩
  · rintro rfl
    have h2 : ipv6AddrObject P i = .ok none := h2
    exact ⟨h2, by rw [ipv6Masklength, h2]; rfl⟩
  · rintro a m rfl ha1 ha2
    dsimp only at h2
    rw [if_neg ha1, if_neg ha2] at h2
    rw [h2]; simp

/-- Two interfaces with IPv6 addresses. -/
def lines6 : List Str :=
  ["interface FastEthernet0/1", " ipv6 address fe80::1 link-local", " ipv6 address 2001:db8::1/64 eui-64", " ipv6 address 2001:db8::2/48",
    "interface FastEthernet0/2", " ipv6 address autoconfig", " ipv6 address 2001:db8::3/64"].map String.toList

example : ∃ P, parse { factory := true } lines6 = .ok P ∧
    (ipv6AddrObject P 0 == .ok (some (IP.obj6 0x20010db8000000000000000000000001 64)) && ipv6Masklength P 0 == .ok 64 &&
      ipv6AddrObject P 4 == .ok (some (IP.obj6 0x20010db8000000000000000000000003 64))) = true :=
  of_shows (by decide +kernel)

/-! ## C174: `ipv6_addr` -/

/-- The line is ` ipv6 address ..`, and `x` is what follows up to the first slash. -/
def Spec.Text6Line (t x : Str) : Prop :=
  Spec.Indented t ∧ ∃ r, Nxos.Spec.Rest ["ipv6", "address"] t r ∧ x = r.takeWhile (· ≠ '/')

theorem gaps6 : ∀ w ∈ gaps true ["ipv6", "address"], IsWord w.1 ∧ w.2 = true := by
  intro w hw
  have h1 := words_of (l := gaps true ["ipv6", "address"]) (by decide) w hw
  refine ⟨h1, ?_⟩
  simp [gaps] at hw
  rcases hw with rfl | rfl <;> rfl

def text6Pat : Pat :=
  ⟨seqs (.bol :: ((lead true (wordsG (gaps true ["ipv6", "address"]) .done)).toL ++
    [.grp 1 (.seq (.cls K.notSlash.cls) (.star true (.cls K.notSlash.cls)))])), 1, [("v6addr".toList, 1)]⟩

theorem text6_compile : compile "^\\s+ipv6\\s+address\\s+(?P<v6addr>[^\\/]+)" = .ok text6Pat := by decide +kernel

theorem text6_search {t : Str} (hl : Line t) (hs : ∀ r, Nxos.Spec.Rest ["ipv6", "address"] t r → r.head? ≠ some '/') :
    (∀ m, search text6Pat t = some m → ∃ a, Spec.Text6Line t a ∧ m.caps.lookup 1 = some a) ∧
    (∀ a, Spec.Text6Line t a → ∃ m, search text6Pat t = some m) := by
  have key : ∀ r, Spec.Indented t → Nxos.Spec.Rest ["ipv6", "address"] t r →
      ∃ m, search text6Pat t = some m ∧ m.caps.lookup 1 = some (r.takeWhile (· ≠ '/')) := by
    intro r hi hr
    obtain ⟨h1, h2, h3⟩ := (Nxos.rest_iff (by simp)).mp hr
    have hd := det_lead_skip true (ws := gaps true ["ipv6", "address"]) (by simp [gaps]) gaps6 (by decide) (t := t)
      (fun _ => hi) (by rw [fst_gaps]; exact h1) (by
        show skip 2 (lstrip t) ≠ []
        rw [show skip 2 (lstrip t) = r from h2]; exact h3)
    rw [show skip (gaps true ["ipv6", "address"]).length (lstrip t) = r from h2] at hd
    obtain ⟨x, r', rfl⟩ := List.exists_cons_of_ne_nil h3
    have hx : x ≠ '/' := fun e => hs _ hr (by rw [e]; rfl)
    have hg := hit_grp (k := 1) (hit_plus_cls t.length K.notSlash.cls (x := x) r' [] (by rw [K.cls_has]; simpa [K.has] using hx))
    have hh := search_hit (hit_append (hit_prog t.length (by decide) hd) (hit_cons hg (hit_nil ..))) 1 [("v6addr".toList, 1)]
    refine ⟨_, hh, ?_⟩
    have hc : K.notSlash.cls.has = (fun c => decide (c ≠ '/')) := by
      funext c; rw [K.cls_has]; simp only [K.has]; by_cases h : c = '/' <;> simp [h]
    rw [hc]
    simp only [List.lookup_cons, beq_self_eq_true]
    congr 1
    have e : x :: r' = (x :: r').takeWhile (fun c => decide (c ≠ '/')) ++ r'.dropWhile (fun c => decide (c ≠ '/')) := by
      rw [List.takeWhile_cons_of_pos (by simpa using hx), List.cons_append, List.takeWhile_append_dropWhile]
    conv => lhs; rw [e]
    rw [List.length_append, Nat.add_sub_cancel, List.take_left]
  constructor
  · intro m hm
    have hsome : (search text6Pat t).isSome = true := by rw [hm]; rfl
    obtain ⟨v, hv⟩ := (search_lang _ _ _ _).mp hsome
    obtain ⟨u, h1, h2⟩ := (lang_append ..).mp hv
    obtain ⟨hi, hw⟩ := lang_lead_words _ true gaps6 h1
    rw [fst_gaps] at hw
    have hsuf : ∃ z, t = z ++ u := lang_suffix _ _ _ _ h1
    obtain ⟨z, hz⟩ := hsuf
    have hune : u ≠ [] := by
      rintro rfl
      rw [lang_cons] at h2
      obtain ⟨w, h3, -⟩ := h2
      obtain ⟨s, e, hne, -⟩ := (lang_plus ..).mp h3
      cases s with
      | nil => exact hne rfl
      | cons x s => cases e
    have hwu : splitWs u ≠ [] := by
      intro e
      have hall := splitWs_eq_nil.mp e
      have h3 : rstrip u = u := (line_suffix ⟨z, hz.symm⟩ hl).2
      have h4 : rstrip u = [] := by
        have := Conf.rstrip_append_spaces [] u (List.all_eq_true.mp hall)
        rw [List.nil_append] at this
        rw [this]; rfl
      exact hune (h3.symm.trans h4)
    obtain ⟨r, hr⟩ : ∃ r, Nxos.Spec.Rest ["ipv6", "address"] t r := by
      refine ⟨_, (Nxos.rest_iff (by simp)).mpr ⟨by rw [hw]; exact List.prefix_append .., rfl, ?_⟩⟩
      intro e
      have := splitWs_skip 2 (lstrip_lstrip t)
      rw [show skip 2 (lstrip t) = [] from e, splitWs_lstrip, hw] at this
      exact hwu (by simpa [Spec.wd] using this.symm.trans (show splitWs [] = [] by decide))
    obtain ⟨m', hm', hl'⟩ := key r (hi rfl) hr
    rw [hm] at hm'
    cases hm'
    exact ⟨_, ⟨hi rfl, r, hr, rfl⟩, hl'⟩
  · rintro a ⟨hi, r, hr, rfl⟩
    obtain ⟨m, hm, -⟩ := key r hi hr
    exact ⟨m, hm⟩

theorem text6_first (h : parse o lines = .ok P) (hn : ∀ l ∈ lines, '\n' ∉ l) (i : Nat)
    (hs : ∀ t ∈ Spec.family P i, ∀ r, Nxos.Spec.Rest ["ipv6", "address"] t r → r.head? ≠ some '/') :
    ∃ v, Spec.First Spec.Text6Line (Spec.family P i) v ∧
      iterTyped P i "^\\s+ipv6\\s+address\\s+(?P<v6addr>[^\\/]+)" 1 toStr [] = .ok (v.getD []) := by
  obtain ⟨v, h1, h2⟩ := first_search (S := Spec.Text6Line) (p := text6Pat)
    (C := fun c a => c.lookup 1 = some a) (Spec.family P i)
    (fun t ht => (text6_search (line_family h hn i t ht) (hs t ht)).1)
    (fun t ht => (text6_search (line_family h hn i t ht) (hs t ht)).2)
  refine ⟨v, h1, ?_⟩
  rw [← texts_family] at h2
  rw [iterTyped, text6_compile]
  rcases h2 with ⟨rfl, h3⟩ | ⟨a, f, rfl, h3, h4⟩
  · simp only [if_true]
    rw [h3]; rfl
  · simp only [if_true]
    rw [h3]
    have : f.group text6Pat 1 = .ok (some a) := by
      rw [Found.group, if_neg (by decide), if_pos (by decide), h4]
    simp only [this]
    rfl

theorem dyn6_first (h : parse o lines = .ok P) (hn : ∀ l ∈ lines, '\n' ∉ l) (i : Nat) {rx w : String}
    (hi : Is rx (lead true (wordsG (gaps true ["ipv6", "address"]) (.grp 1 (str w.toList .done) (ends true [])))) 1 [] ∧
      isWord w.toList = true) :
    ∃ v, iterTyped P i rx 1 toStr [] = .ok v ∧ (v = w.toList ∨ v = []) ∧
      (v = w.toList ↔ ∃ t ∈ Spec.family P i, Spec.Indented t ∧ Spec.Exactly ["ipv6", "address", w] t) := by
  have hw := isWord_iff.mp hi.2
  obtain ⟨v, h1, h2⟩ := tail_attr h hn i (ind := true) (pre := gaps true ["ipv6", "address"]) (n := 1) (names := [])
    (rx := rx) (tail_exact 1 hw true) ⟨hi.1, by decide, by decide, by decide⟩ (fun t _ => .inl (by simp [gaps])) toStr []
    (fun _ v _ => ⟨v, rfl⟩)
  have e1 := first_congr (S' := fun t a => a = w.toList ∧ Spec.Indented t ∧ Spec.Exactly ["ipv6", "address", w] t) (fun t _ a => by
    constructor
    · rintro ⟨a1, more, v, a2, ⟨rfl, rfl⟩, a5⟩
      cases a5
      rw [fst_gaps] at a2
      exact ⟨rfl, a1 rfl, a2⟩
    · rintro ⟨rfl, a1, a2⟩
      refine ⟨fun _ => a1, [w.toList], w.toList, ?_, ⟨rfl, rfl⟩, rfl⟩
      rw [fst_gaps]; exact a2) h1
  obtain ⟨i1, i2⟩ := first_exists e1
  refine ⟨_, h2, ?_, ?_⟩
  · cases v with
    | none => exact .inr rfl
    | some a =>
      obtain ⟨t, _, h, _⟩ := i2 a rfl
      exact .inl h
  · cases v with
    | none =>
      constructor
      · intro h; exact absurd h.symm hw.1
      · rintro ⟨t, ht, h⟩
        exact absurd ⟨rfl, h⟩ (i1.mp rfl t ht w.toList)
    | some a =>
      obtain ⟨t, ht, h, h'⟩ := i2 a rfl
      exact ⟨fun _ => ⟨t, ht, h'⟩, fun _ => h⟩

/-- The line says that the IPv6 address is assigned by somebody else. -/
def Spec.Dynamic6 (t : Str) : Prop :=
  Spec.Indented t ∧ ∃ w ∈ ["dhcp", "autoconfig", "negotiated"], Spec.Exactly ["ipv6", "address", w] t

/-- C174: `ipv6_addr` is the text between `ipv6 address` and the first slash, on the first such
line; it is empty if some line says ` ipv6 address dhcp`, `autoconfig` or `negotiated`. -/
theorem C174_addr_partial (h : parse o lines = .ok P) (hn : ∀ l ∈ lines, '\n' ∉ l) (i : Nat)
    (hs : ∀ t ∈ Spec.family P i, ∀ r, Nxos.Spec.Rest ["ipv6", "address"] t r → r.head? ≠ some '/') :
    ∃ v, Spec.First Spec.Text6Line (Spec.family P i) v ∧
      ((¬ ∃ t ∈ Spec.family P i, Spec.Dynamic6 t) → ipv6Addr P i = .ok (v.getD [])) ∧
      ((∃ t ∈ Spec.family P i, Spec.Dynamic6 t) → ipv6Addr P i = .ok []) := by
  obtain ⟨v, h1, h2⟩ := text6_first h hn i hs
  obtain ⟨d, d1, d0, d2⟩ := dyn6_first h hn i (rx := "^\\s+ipv6\\s+address\\s+(dhcp)\\s*$") (w := "dhcp") (by decide +kernel)
  obtain ⟨u, u1, u0, u2⟩ := dyn6_first h hn i (rx := "^\\s+ipv6\\s+address\\s+(autoconfig)\\s*$") (w := "autoconfig")
    (by decide +kernel)
  obtain ⟨n, n1, n0, n2⟩ := dyn6_first h hn i (rx := "^\\s+ipv6\\s+address\\s+(negotiated)\\s*$") (w := "negotiated")
    (by decide +kernel)
  have low : ∀ {x : Str} {w : String}, (x = w.toList ∨ x = []) → w.toList.map lowerChar = w.toList → w.toList ≠ [] →
      (x.map lowerChar = w.toList ↔ x = w.toList) := by
    rintro x w (rfl | rfl) hw h0
    · exact ⟨fun _ => rfl, fun _ => hw⟩
    · exact ⟨fun e => absurd e.symm h0, fun e => absurd e.symm h0⟩
  have ld := low d0 (by decide) (by decide)
  have lu := low u0 (by decide) (by decide)
  have ln := low n0 (by decide) (by decide)
  have e : ipv6Addr P i = if d.map lowerChar = "dhcp".toList then .ok [] else if u.map lowerChar = "autoconfig".toList then .ok []
      else if n.map lowerChar = "negotiated".toList then .ok [] else .ok (v.getD []) := by
    rw [ipv6Addr, h2, d1, u1, n1]; rfl
  refine ⟨v, h1, ?_, ?_⟩
  · intro hno
    rw [e, if_neg, if_neg, if_neg]
    · intro hh
      obtain ⟨t, ht, a, b⟩ := n2.mp (ln.mp hh)
      exact hno ⟨t, ht, a, _, by simp, b⟩
    · intro hh
      obtain ⟨t, ht, a, b⟩ := u2.mp (lu.mp hh)
      exact hno ⟨t, ht, a, _, by simp, b⟩
    · intro hh
      obtain ⟨t, ht, a, b⟩ := d2.mp (ld.mp hh)
      exact hno ⟨t, ht, a, _, by simp, b⟩
  · rintro ⟨t, ht, a, w, hw, b⟩
    rw [e]
    simp only [List.mem_cons, List.not_mem_nil, or_false] at hw
    rcases hw with rfl | rfl | rfl
    · rw [if_pos (ld.mpr (d2.mpr ⟨t, ht, a, b⟩))]
    · split
      · rfl
      · rw [if_pos (lu.mpr (u2.mpr ⟨t, ht, a, b⟩))]
    · split
      · rfl
      · split
        · rfl
        · rw [if_pos (ln.mpr (n2.mpr ⟨t, ht, a, b⟩))]

/-- The address and the kind of a link-local address come back together, and an interface with
`autoconfig` has no address although another line assigns one. -/
theorem C174_addr_fails : ∃ P, parse { factory := true } lines6 = .ok P ∧
    (ipv6Addr P 0 == .ok "fe80::1 link-local".toList && ipv6Addr P 4 == .ok [] &&
      ipv6AddrObject P 4 == .ok (some (IP.obj6 0x20010db8000000000000000000000003 64))) = true :=
  of_shows (by decide +kernel)

/-- The hypothesis of `C174_addr_partial` holds of these lines. -/
example : ∃ P, parse { factory := true } lines6 = .ok P ∧
    ((Spec.family P 0).all (fun t => (skip 2 (lstrip t)).head? != some '/')) = true :=
  of_shows (by decide +kernel)

end Cisco

import Verif.Nxos.AddrProps
import Verif.Cisco.HsrpTrack

/-! # Properties of NXOS interface lines: DHCP relay addresses -/

namespace Nxos

open Py Conf Query Re Cisco
open Hsrp (search_skip search_at)

variable {o : Opts} {lines : List Str} {P : Parsed}

/-! ## Specification -/

/-- An indented line `ip dhcp relay address A`. -/
def Spec.Relay (t a : Str) : Prop :=
  ∃ ws, (∀ c ∈ ws, isSpace c = true) ∧ t = ws ++ ("ip dhcp relay address ".toList ++ a) ∧ Spec.DottedQuad a

/-- An indented line `vrf member V`. -/
def Spec.Member (t v : Str) : Prop :=
  ∃ ws, (∀ c ∈ ws, isSpace c = true) ∧ t = ws ++ ("vrf member ".toList ++ v) ∧ IsWord v

/-- The relay addresses of these lines, where every line with the text `dhcp relay address` is
a relay line. -/
inductive Spec.Relays : List Str → List Str → Prop
  | nil : Spec.Relays [] []
  | relay {t ts a l} : Spec.Relay t a → Spec.Relays ts l → Spec.Relays (t :: ts) (a :: l)
  | other {t ts l} : isInfix "dhcp relay address".toList t = false → Spec.Relays ts l → Spec.Relays (t :: ts) l

/-- The first line with the text `vrf member` is a line `vrf member V`. -/
inductive Spec.Vrf : List Str → Str → Prop
  | here {t ts v} : Spec.Member t v → Spec.Vrf (t :: ts) v
  | skip {t ts v} : isInfix "vrf member".toList t = false → Spec.Vrf ts v → Spec.Vrf (t :: ts) v

/-! ## Expressions that are not anchored -/

/-- The expression, compiled, without an anchor. -/
def IsFree (rx : String) (p : Prog) (n : Nat) : Prop :=
  compile rx = .ok ⟨seqs p.toL, n, []⟩ ∧ p.wf (fun _ => false) true = true

instance (rx : String) (p : Prog) (n : Nat) : Decidable (IsFree rx p n) := inferInstanceAs (Decidable (_ ∧ _))

/-- A match behind the indentation. -/
theorem free_match {rx : String} {p : Prog} {n : Nat} (h : IsFree rx p n) {g : Nat} (h0 : g ≠ 0) (hg : g ≤ n)
    (hb : ∀ x s, isSpace x = true → p.det (x :: s) [] = none) {ws s : Str} (hws : ∀ c ∈ ws, isSpace c = true)
    {q : Str × Caps} (hq : p.det s [] = some q) {v : Str} (hv : q.2.lookup g = some v) (d : Str) :
    matchTyped (ws ++ s) rx g toStr d = .ok v := by
  have hb' : ∀ x u, isSpace x = true → run (ws ++ s).length (seqs p.toL) (x :: u) [] = [] := by
    intro x u hx
    have := miss_prog (ws ++ s).length h.2 (hb x u hx)
    exact this
  obtain ⟨m, h1, h2⟩ := search_at (k := 0 + ws.length) (hit_prog (ws ++ s).length h.2 hq)
  have hs : search ⟨seqs p.toL, n, []⟩ (ws ++ s) = some m := by
    rw [search]; exact (search_skip hb' hws).trans h1
  refine ((C70_match (ws ++ s) rx g toStr d _ h.1).2 m hs).1 v ?_
  rw [Found.group, if_neg h0, if_pos hg, h2, hv]

/-- A valid expression gives a text. -/
theorem match_ok {rx : String} {p : Prog} {n : Nat} (h : IsFree rx p n) {g : Nat} (h0 : g ≠ 0) (hg : g ≤ n) (t d : Str) :
    ∃ v, matchTyped t rx g toStr d = .ok v := by
  cases hs : search ⟨seqs p.toL, n, []⟩ t with
  | none => exact ⟨d, (C70_match t rx g toStr d _ h.1).1 hs⟩
  | some m =>
    have := (C70_match t rx g toStr d _ h.1).2 m hs
    have e : m.group ⟨seqs p.toL, n, []⟩ g = .ok (m.caps.lookup g) := by rw [Found.group, if_neg h0, if_pos hg]
    rw [e] at this
    cases hl : m.caps.lookup g with
    | none => exact ⟨d, this.2.1 (by rw [hl])⟩
    | some v => exact ⟨v, (this.1 v (by rw [hl])).trans rfl⟩

theorem relay_rx : IsFree "ip\\s+dhcp\\s+relay\\s+address\\s+(\\d+\\.\\d+\\.\\d+\\.\\d+)"
    (wordsG (gaps true ["ip", "dhcp", "relay", "address"]) (.grp 1 (quad .done) .done)) 1 := by decide +kernel

theorem member_rx : IsFree "vrf\\s+member\\s+(\\S+)" (wordsG (gaps true ["vrf", "member"]) (.grp 1 (.plus .nonspace .done) .done)) 1 := by
  decide +kernel

/-- An expression that begins with a letter does not match at a blank. -/
theorem no_blank {w : Str} {l : List (Str × Bool)} {m : Bool} {p : Prog} (hw : IsWord w) (x : Char) (s : Str) (hx : isSpace x = true) :
    (wordsG ((w, m) :: l) p).det (x :: s) [] = none := by
  show (str w _).det _ _ = _
  rw [det_str, if_neg]
  intro h
  obtain ⟨y, w, rfl⟩ := List.exists_cons_of_ne_nil hw.1
  obtain ⟨r, hr⟩ := h
  cases hr
  rw [hw.2 x (by simp)] at hx
  cases hx

theorem lstrip_word {w r : Str} (hw : IsWord w) : lstrip (w ++ r) = w ++ r := by
  obtain ⟨y, w, rfl⟩ := List.exists_cons_of_ne_nil hw.1
  exact List.dropWhile_cons_of_neg (by rw [hw.2 y (by simp)]; simp)

/-- Words with one blank between them. -/
theorem det_texts {l : List Str} (hl : ∀ w ∈ l, IsWord w) {p : Prog} {a : Str} (ha : IsWord a) (c : Caps) :
    (wordsG (l.map (fun w => (w, true))) p).det (l.foldr (fun w r => w ++ ' ' :: r) a) c = p.det a c := by
  induction l with
  | nil => rfl
  | cons w l ih =>
    have hne : ∀ l : List Str, (∀ w ∈ l, IsWord w) → ∃ x r, l.foldr (fun w r => w ++ ' ' :: r) a = x :: r ∧ isSpace x = false := by
      intro l hl
      cases l with
      | nil =>
        obtain ⟨y, w, rfl⟩ := List.exists_cons_of_ne_nil ha.1
        exact ⟨y, w, rfl, ha.2 y (by simp)⟩
      | cons v l =>
        obtain ⟨y, w, rfl⟩ := List.exists_cons_of_ne_nil (hl v (by simp)).1
        exact ⟨y, _, rfl, (hl (y :: w) (by simp)).2 y (by simp)⟩
    obtain ⟨x, r, e, hx⟩ := hne l (fun w hw => hl w (by simp [hw]))
    show (str w (.plus .space (wordsG (l.map _) p))).det (w ++ ' ' :: _) c = _
    rw [det_str, if_pos (List.prefix_append ..), List.drop_left' rfl, plus_cons, if_pos (by decide), ← ih (fun w hw => hl w (by simp [hw]))]
    congr 1
    rw [e]
    exact List.dropWhile_cons_of_neg (by simp [K.has, hx])

theorem relay_match {t a : Str} (h : Spec.Relay t a) :
    matchTyped t "ip\\s+dhcp\\s+relay\\s+address\\s+(\\d+\\.\\d+\\.\\d+\\.\\d+)" 1 toStr [] = .ok a := by
  obtain ⟨ws, hws, rfl, ha⟩ := h
  have hd := det_texts (l := ["ip", "dhcp", "relay", "address"].map String.toList) (by
      intro w hw
      exact isWord_iff.mp (List.all_eq_true.mp (by decide : (["ip", "dhcp", "relay", "address"].map String.toList).all isWord = true) w hw))
    (p := .grp 1 (quad .done) .done) (quad_word ha) []
  have hq : (Prog.grp 1 (quad .done) .done).det a [] = some ([], [(1, a)]) := by
    rw [det_grp 1 _ _ rfl]
    exact ⟨a, [], by simp, (quad_open _ _ _ _).mpr ⟨a, [], by simp, ha, by simp, rfl⟩, rfl⟩
  rw [hq] at hd
  exact free_match relay_rx (by decide) (by decide) (fun x s hx => no_blank (isWord_iff.mp (by decide)) x s hx) hws
    (s := "ip dhcp relay address ".toList ++ a) hd (by simp) []

theorem member_match {t v : Str} (h : Spec.Member t v) : matchTyped t "vrf\\s+member\\s+(\\S+)" 1 toStr [] = .ok v := by
  obtain ⟨ws, hws, rfl, hv⟩ := h
  have hd := det_texts (l := ["vrf", "member"].map String.toList) (by
      intro w hw
      exact isWord_iff.mp (List.all_eq_true.mp (by decide : (["vrf", "member"].map String.toList).all isWord = true) w hw))
    (p := .grp 1 (.plus .nonspace .done) .done) hv []
  have h0 : lstrip v = v := by have := lstrip_word (r := []) hv; rwa [List.append_nil] at this
  have hq : (Prog.grp 1 (.plus .nonspace .done) .done).det v [] = some (v.dropWhile nsp, [(1, v)]) :=
    (det_word h0 _ _ _ _).mpr ⟨v, [], splitWs_word hv, rfl⟩
  rw [hq] at hd
  exact free_match member_rx (by decide) (by decide) (fun x s hx => no_blank (isWord_iff.mp (by decide)) x s hx) hws
    (s := "vrf member ".toList ++ v) hd (by simp) []

/-! ## C142 -/

/-- C142: with a line `vrf member V`, `ip_helper_addresses` has one entry for each relay line,
in order, with its address and V.  Missing: interfaces outside a VRF, relay lines that are not
written with single blanks or have more words. -/
theorem C142_helpers_partial {i : Nat} {l : List Str} {v : Str} (hr : Spec.Relays (Spec.kids P i) l) (hv : Spec.Vrf (Spec.kids P i) v) :
    ipHelperAddresses P i = .ok (l.map (fun a => ⟨a, v, false⟩)) ∧ hasIpHelperAddresses P i = .ok (decide (l ≠ [])) := by
  have h1 : ∀ ts v, Spec.Vrf ts v → helperVrf ts = .ok (some v) := by
    intro ts v h
    induction h with
    | @here t ts v h =>
      rw [helperVrf, member_match h, if_pos]
      · rfl
      · obtain ⟨ws, _, rfl, _⟩ := h
        rw [isInfix_iff]
        exact ⟨ws, ' ' :: v, by simp⟩
    | skip h _ ih => rw [helperVrf, h, ih]; rfl
  have h2 : ∀ ts l, Spec.Relays ts l → helpersT (some v) ts = .ok (l.map (fun a => ⟨a, v, false⟩)) := by
    intro ts l h
    induction h with
    | nil => rfl
    | @relay t ts a l h _ ih =>
      rw [helpersT, relay_match h, ih, if_pos]
      · rfl
      · obtain ⟨ws, _, rfl, _⟩ := h
        rw [isInfix_iff]
        exact ⟨ws ++ "ip ".toList, ' ' :: a, by simp⟩
    | other h _ ih => rw [helpersT, h, ih]; rfl
  have e : ipHelperAddresses P i = .ok (l.map (fun a => ⟨a, v, false⟩)) := by
    rw [ipHelperAddresses, childTexts_kids, h1 _ _ hv]
    exact h2 _ _ hr
  refine ⟨e, ?_⟩
  rw [hasIpHelperAddresses, e]
  cases l <;> rfl

/-- C142: without a relay line the list is empty. -/
theorem C142_none {i : Nat} (h : ∀ t ∈ Spec.kids P i, isInfix "dhcp relay address".toList t = false) :
    ipHelperAddresses P i = .ok [] ∧ hasIpHelperAddresses P i = .ok false := by
  have h1 : ∀ ts, ∃ v, helperVrf ts = .ok v := by
    intro ts
    induction ts with
    | nil => exact ⟨none, rfl⟩
    | cons t ts ih =>
      rw [helperVrf]
      split
      · obtain ⟨v, hv⟩ := match_ok member_rx (g := 1) (by decide) (by decide) t []
        exact ⟨some v, by rw [hv]; rfl⟩
      · exact ih
  have h2 : ∀ v ts, (∀ t ∈ ts, isInfix "dhcp relay address".toList t = false) → helpersT v ts = .ok [] := by
    intro v ts
    induction ts with
    | nil => intro _; rfl
    | cons t ts ih =>
      intro h
      rw [helpersT, h t (by simp), ih (fun t ht => h t (by simp [ht]))]
      rfl
  obtain ⟨v, hv⟩ := h1 (Spec.kids P i)
  have e : ipHelperAddresses P i = .ok [] := by
    rw [ipHelperAddresses, childTexts_kids, hv]
    exact h2 v _ h
  exact ⟨e, by rw [hasIpHelperAddresses, e]; rfl⟩

/-- C142 fails outside a VRF: if no line has the text `vrf member`, then one relay line is enough
for both properties to raise an exception, whatever the interface is. -/
theorem C142_no_vrf_fails {i : Nat} (hv : ∀ t ∈ Spec.kids P i, isInfix "vrf member".toList t = false)
    (hr : ∃ t ∈ Spec.kids P i, isInfix "dhcp relay address".toList t = true) :
    ipHelperAddresses P i = .error .unbound ∧ hasIpHelperAddresses P i = .error .unbound := by
  have h1 : ∀ ts : List Str, (∀ t ∈ ts, isInfix "vrf member".toList t = false) → helperVrf ts = .ok none := by
    intro ts
    induction ts with
    | nil => intro _; rfl
    | cons t ts ih =>
      intro h
      rw [helperVrf, h t (by simp), ih (fun t ht => h t (by simp [ht]))]
      rfl
  have h2 : ∀ ts : List Str, (∃ t ∈ ts, isInfix "dhcp relay address".toList t = true) → helpersT none ts = .error .unbound := by
    intro ts
    induction ts with
    | nil => rintro ⟨t, ht, _⟩; cases ht
    | cons t ts ih =>
      rintro ⟨u, hu, h⟩
      rw [helpersT]
      by_cases ht : isInfix "dhcp relay address".toList t = true
      · obtain ⟨v, hv⟩ := match_ok relay_rx (g := 1) (by decide) (by decide) t []
        rw [if_pos ht, hv]
        rfl
      · rw [if_neg ht]
        rcases List.mem_cons.mp hu with rfl | hu
        · exact absurd h ht
        · exact ih ⟨u, hu, h⟩
  have e : ipHelperAddresses P i = .error .unbound := by
    rw [ipHelperAddresses, childTexts_kids, h1 _ hv]
    exact h2 _ hr
  exact ⟨e, by rw [hasIpHelperAddresses, e]; rfl⟩

/-- C142 fails for the example in the documentation of `ip_helper_addresses`. -/
def docLines : List Str :=
  ["!", "interface Ethernet1/1", " ip address 1.1.1.1/24", " ip dhcp relay address 172.16.20.12", " ip dhcp relay address 172.19.185.91",
    "!"].map String.toList

theorem C142_doc_fails : ∃ P, parse { factory := true, syn := .nxos } docLines = .ok P ∧ ipHelperAddresses P 1 = .error .unbound := by
  obtain ⟨P, h1, h2⟩ := of_shows (lines := docLines) (Q := fun P =>
    (Spec.kids P 1).all (fun t => !isInfix "vrf member".toList t) && (Spec.kids P 1).any (isInfix "dhcp relay address".toList))
    (by decide +kernel)
  simp only [Bool.and_eq_true, List.all_eq_true, List.any_eq_true, Bool.not_eq_true'] at h2
  exact ⟨P, h1, (C142_no_vrf_fails h2.1 h2.2).1⟩

/-- An interface in a VRF with two relay lines. -/
def relayLines : List Str :=
  ["interface Ethernet1/1", "  vrf member RED", "  ip address 1.1.1.1/24", "  ip dhcp relay address 172.16.20.12",
    "  ip dhcp relay address 172.19.185.91"].map String.toList

example : shows relayLines (fun P => decide (ipHelperAddresses P 0 =
    .ok [⟨"172.16.20.12".toList, "RED".toList, false⟩, ⟨"172.19.185.91".toList, "RED".toList, false⟩]) &&
    decide (Spec.kids P 0 = relayLines.tail)) = true := by
  decide +kernel

example : Spec.Vrf relayLines.tail "RED".toList ∧
    Spec.Relays relayLines.tail ["172.16.20.12".toList, "172.19.185.91".toList] := by
  have hq : ∀ s : Str, s = "172.16.20.12".toList ∨ s = "172.19.185.91".toList → Spec.DottedQuad s := by
    rintro s (rfl | rfl)
    · exact quad_spec.mp ⟨"172".toList, "16".toList, "20".toList, "12".toList, rfl, by decide⟩
    · exact quad_spec.mp ⟨"172".toList, "19".toList, "185".toList, "91".toList, rfl, by decide⟩
  exact ⟨.here ⟨[' ', ' '], by decide, rfl, isWord_iff.mp (by decide)⟩,
    .other (by decide) (.other (by decide) (.relay ⟨[' ', ' '], by decide, rfl, hq _ (.inl rfl)⟩
      (.relay ⟨[' ', ' '], by decide, rfl, hq _ (.inr rfl)⟩ .nil)))⟩

end Nxos

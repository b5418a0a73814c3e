import Verif.Nxos.Domain
import Verif.Nxos.HsrpProps
import Verif.Nxos.MiscProps
import Verif.Re.Free

/-! # Properties of the NXOS vPC domain line -/

namespace Nxos.Domain

open Py Conf Query Re Cisco

variable {o : Opts} {lines : List Str} {P : Parsed}

/-! ## Specification -/

/-- An indented line that begins with the words `pre` and a number, in digits `d`; anything may
follow the digits. -/
def Spec.Value (pre : List String) (t : Str) (n : Int) : Prop :=
  Spec.Indented t ∧ ∃ w more d, splitWs t = Spec.wd pre ++ w :: more ∧ Spec.Leads w d ∧ n = natVal d

/-- An indented line that begins with the words `pre` and the word `v`. -/
def Spec.Takes (pre : List String) (t v : Str) : Prop := Spec.Indented t ∧ ∃ more, splitWs t = Spec.wd pre ++ v :: more

/-- An indented line that begins with the words `pre` and a word that begins with `w`. -/
def Spec.Set (pre : List String) (w : String) (t : Str) : Prop :=
  Spec.Indented t ∧ ∃ v more, splitWs t = Spec.wd pre ++ v :: more ∧ w.toList <+: v

/-- The text `a b c` occurs in the line, with any blanks between the words. -/
def Spec.Phrase (a b c : String) (t : Str) : Prop :=
  ∃ pre g h post : Str, t = pre ++ a.toList ++ g ++ b.toList ++ h ++ c.toList ++ post ∧
    g ≠ [] ∧ (∀ x ∈ g, isSpace x = true) ∧ h ≠ [] ∧ (∀ x ∈ h, isSpace x = true)

/-! ## C152: the attributes of the domain -/

theorem id_is : Is "^vpc\\s+domain\\s+(\\d+)$" (wordsG (gaps true ["vpc", "domain"]) (.grp 1 (.plus .digit .done) (.eol .done))) 1 [] := by
  decide +kernel

/-- C152: `vpc_domain_id` is the number of the line `vpc domain N`; the text `-1` on a line with
anything else. -/
theorem C152_id {t : Str} (ht : '\n' ∉ t) (hl : lstrip t = t) (hr : rstrip t = t) :
    (∀ n, Spec.Digits n → splitWs t = Spec.wd ["vpc", "domain"] ++ [n] → vpcDomainId t = .ok n) ∧
    ((∀ n, Spec.Digits n → splitWs t ≠ Spec.wd ["vpc", "domain"] ++ [n]) → vpcDomainId t = .ok "-1".toList) := by
  have hT := tail_value 1 (k := .digit) trivial false (post := []) (by simp)
  have hline : Line t := ⟨ht, hr⟩
  have h := chain_tail false (pre := gaps true ["vpc", "domain"]) (by decide) hT hline (.inl (by simp [gaps])) []
  have e : (lead false (wordsG (gaps true ["vpc", "domain"]) (.grp 1 (.plus .digit .done) (ends false [])))).det t [] =
      (wordsG (gaps true ["vpc", "domain"]) (.grp 1 (.plus .digit .done) (.eol .done))).det t [] := by
    show (Prog.star .space _).det t [] = _
    rw [Prog.det]
    exact congrArg (fun u => (wordsG (gaps true ["vpc", "domain"]) (.grp 1 (.plus .digit .done) (.eol .done))).det u []) hl
  rw [vpcDomainId, match_det id_is (by decide) (by decide), ← e]
  rw [fst_gaps] at h
  constructor
  · intro n hn hw
    obtain ⟨q, hq⟩ := h.2 [n] n (fun h => by cases h) hw ⟨rfl, List.all_eq_true.mpr hn.2⟩
    obtain ⟨more, a, -, h1, ⟨rfl, -⟩, h2⟩ := h.1 q hq
    rw [hw] at h1
    have : n = a := by simpa using List.append_cancel_left h1
    subst this
    rw [hq]
    simp only [h2]
    rfl
  · intro hno
    cases hd : (lead false (wordsG (gaps true ["vpc", "domain"]) (.grp 1 (.plus .digit .done) (ends false [])))).det t [] with
    | none => rfl
    | some q =>
      obtain ⟨more, a, -, h1, ⟨rfl, h2⟩, -⟩ := h.1 q hd
      exact absurd h1 (hno a ⟨(splitWs_words t a (by rw [h1]; simp)).1, List.all_eq_true.mp h2⟩)

theorem lead_num {o : Opts} {lines : List Str} {P : Parsed} (h : parse o lines = .ok P) (hn : ∀ l ∈ lines, '\n' ∉ l) (i : Nat)
    {rx : String} {pre : List String}
    (hi : Is rx (lead true (wordsG (gaps true pre) (.grp 1 (.plus .digit .done) .done))) 1 [] ∧
      (gaps true pre).all (fun w => isWord w.1) = true ∧ 1 ≠ 0 ∧ 1 ≤ 1) :
    ∃ v, Spec.First (Spec.Value pre) (Spec.family P i) v ∧ iterTyped P i rx 1 toInt (-1) = .ok (v.getD (-1)) := by
  obtain ⟨v, h1, h2⟩ := tail_attr h hn i (tail_lead 1) hi (fun t _ => .inl (by simp [gaps])) toInt (-1) (by
    rintro ws v ⟨w, more, -, u, -, hd, -⟩
    exact ⟨_, toInt_digits hd⟩)
  refine ⟨v, first_congr (fun t _ a => ?_) h1, h2⟩
  rw [fst_gaps]
  constructor
  · rintro ⟨a1, more, v, a2, ⟨w, more', rfl, a3⟩, a4⟩
    obtain ⟨u, -, hd, -⟩ := id a3
    rw [toInt_digits hd] at a4
    cases a4
    exact ⟨a1 rfl, w, more', v, a2, a3, rfl⟩
  · rintro ⟨a1, w, more, d, a2, a3, rfl⟩
    obtain ⟨u, -, hd, -⟩ := id a3
    exact ⟨fun _ => a1, w :: more, d, a2, ⟨w, more, rfl, a3⟩, toInt_digits hd⟩

/-- C152: the priorities and the reload delay are the numbers of the first line that configures
them, and -1 without one. -/
theorem C152_numbers (h : parse o lines = .ok P) (hn : ∀ l ∈ lines, '\n' ∉ l) (i : Nat) :
    (∃ v, Spec.First (Spec.Value ["role", "priority"]) (Spec.family P i) v ∧ vpcRolePriority P i = .ok (v.getD (-1))) ∧
    (∃ v, Spec.First (Spec.Value ["system-priority"]) (Spec.family P i) v ∧ vpcSystemPriority P i = .ok (v.getD (-1))) ∧
    (∃ v, Spec.First (Spec.Value ["auto-recovery", "reload-delay"]) (Spec.family P i) v ∧
      vpcAutoRecoveryReloadDelay P i = .ok (v.getD (-1))) :=
  ⟨lead_num h hn i (by decide +kernel), lead_num h hn i (by decide +kernel), lead_num h hn i (by decide +kernel)⟩

/-- C152: `vpc_system_mac` is the word of the first line `system-mac WORD`. -/
theorem C152_mac (h : parse o lines = .ok P) (hn : ∀ l ∈ lines, '\n' ∉ l) (i : Nat) :
    ∃ v, Spec.First (Spec.Takes ["system-mac"]) (Spec.family P i) v ∧ vpcSystemMac P i = .ok (v.getD []) := by
  obtain ⟨v, h1, h2⟩ := tail_attr (rx := "^\\s+system-mac\\s+(\\S+)") (ind := true) (pre := gaps true ["system-mac"]) h hn i
    (tail_next 1) (n := 1) (names := []) (by decide +kernel) (fun t _ => .inl (by simp [gaps])) toStr [] (fun ws v _ => ⟨v, rfl⟩)
  refine ⟨v, first_congr (fun t _ a => ?_) h1, h2⟩
  rw [fst_gaps]
  constructor
  · rintro ⟨a1, more, v, a2, ⟨more', rfl⟩, a4⟩
    cases a4
    exact ⟨a1 rfl, more', a2⟩
  · rintro ⟨a1, more, a2⟩
    exact ⟨fun _ => a1, a :: more, a, a2, ⟨more, rfl⟩, rfl⟩

theorem set_flag {o : Opts} {lines : List Str} {P : Parsed} (h : parse o lines = .ok P) (hn : ∀ l ∈ lines, '\n' ∉ l) (i : Nat)
    {rx : String} {w : String}
    (hi : Is rx (lead true (wordsG [] (.grp 1 (str w.toList .done) .done))) 1 [] ∧ isWord w.toList = true) :
    ∃ b, iterTyped P i rx 1 toBool false = .ok b ∧ (b = true ↔ ∃ t ∈ Spec.family P i, Spec.Set [] w t) := by
  have hw := isWord_iff.mp hi.2
  obtain ⟨b, h1, h2⟩ := tail_flag (ind := true) (pre := []) h hn i (tail_begin 1 hw) ⟨hi.1, rfl, by decide, by decide⟩
    (fun t _ => .inl (by simp)) (by rintro t more v _ ⟨rfl, -⟩; exact hw.1)
  refine ⟨b, h1, h2.trans ⟨?_, ?_⟩⟩
  · rintro ⟨t, ht, a1, more, v, a2, rfl, v', more', rfl, a3⟩
    exact ⟨t, ht, a1 rfl, v', more', a2, a3⟩
  · rintro ⟨t, ht, a1, v, more, a2, a3⟩
    exact ⟨t, ht, fun _ => a1, v :: more, w.toList, a2, rfl, v, more, rfl, a3⟩

/-- C152: the flags are true exactly if an indented line below the domain begins with the keyword. -/
theorem C152_flags (h : parse o lines = .ok P) (hn : ∀ l ∈ lines, '\n' ∉ l) (i : Nat) :
    (∃ b, hasPeerConfigCheckBypass P i = .ok b ∧ (b = true ↔ ∃ t ∈ Spec.family P i, Spec.Set [] "peer-config-check-bypass" t)) ∧
    (∃ b, hasPeerSwitch P i = .ok b ∧ (b = true ↔ ∃ t ∈ Spec.family P i, Spec.Set [] "peer-switch" t)) ∧
    (∃ b, hasPeerGateway P i = .ok b ∧ (b = true ↔ ∃ t ∈ Spec.family P i, Spec.Set [] "peer-gateway" t)) ∧
    (∃ b, hasAutoRecovery P i = .ok b ∧ (b = true ↔ ∃ t ∈ Spec.family P i, Spec.Set [] "auto-recovery" t)) :=
  ⟨set_flag h hn i (by decide +kernel), set_flag h hn i (by decide +kernel), set_flag h hn i (by decide +kernel),
    set_flag h hn i (by decide +kernel)⟩

/-- `(word word)`, open at the end. -/
theorem tail_two (g : Nat) {u w : Str} (hu : IsWord u) (hw : IsWord w) :
    Tail (.grp g (str u (.plus .space (str w .done))) .done) g
      (fun ws a => a ≠ [] ∧ ∃ v more, ws = u :: v :: more ∧ w <+: v) := by
  have hE := ends_cons (ends_begin (g + 1) hw) hu
  have hlt : ∀ {r : Str} {c q}, (str u (.plus .space (str w .done))).det r c = some q → q.1.length < r.length := by
    intro r c q h
    rw [det_str] at h
    split at h
    · rename_i hp
      have hl := hp.length_le
      have hpos := List.length_pos_iff.mpr hu.1
      cases hr : r.drop u.length with
      | nil => rw [hr] at h; cases h
      | cons x s =>
        rw [hr, plus_cons] at h
        split at h
        · rw [det_str] at h
          split at h
          · rw [Prog.det] at h
            cases h
            have h1 : s.length + 1 = r.length - u.length := by rw [← List.length_drop, hr]; rfl
            have h2 := (List.dropWhile_suffix K.space.has (l := s)).length_le
            show ((s.dropWhile K.space.has).drop w.length).length < _
            rw [List.length_drop]
            omega
          · cases h
        · cases h
    · cases h
  refine ⟨?_, ?_, ?_⟩
  · intro c
    rw [Prog.det, hE.nil]
  · intro r c q h0 hl h
    rw [Prog.det] at h
    cases hb : (str u (.plus .space (str w .done))).det r c with
    | none => rw [hb] at h; cases h
    | some q' =>
      rw [hb] at h
      cases h
      obtain ⟨⟨more, h1, v, more', rfl, h2⟩, -⟩ := hE.fwd r c q' h0 hl hb
      refine ⟨_, ⟨?_, v, more', h1, h2⟩, by simp; rfl⟩
      have := hlt hb
      intro he
      have hlen := congrArg List.length he
      rw [List.length_take] at hlen
      simp at hlen
      omega
  · rintro r c a h0 hl ⟨-, v, more, h1, h2⟩
    obtain ⟨q, hq⟩ := hE.ex r c h0 hl ⟨_, h1, v, more, rfl, h2⟩
    rw [Prog.det, hq]
    exact ⟨_, rfl⟩

/-- C152: `has_layer3_peer_router` is true exactly if an indented line begins with `layer3 peer-router`. -/
theorem C152_layer3 (h : parse o lines = .ok P) (hn : ∀ l ∈ lines, '\n' ∉ l) (i : Nat) :
    ∃ b, hasLayer3PeerRouter P i = .ok b ∧ (b = true ↔ ∃ t ∈ Spec.family P i, Spec.Set ["layer3"] "peer-router" t) := by
  obtain ⟨b, h1, h2⟩ := tail_flag (rx := "^\\s+(layer3\\s+peer-router)") (ind := true) (pre := []) h hn i
    (tail_two 1 (u := "layer3".toList) (w := "peer-router".toList) (isWord_iff.mp (by decide)) (isWord_iff.mp (by decide)))
    (n := 1) (names := []) (by decide +kernel) (fun t _ => .inl (by simp)) (by rintro t more v _ ⟨h, -⟩; exact h)
  refine ⟨b, h1, h2.trans ⟨?_, ?_⟩⟩
  · rintro ⟨t, ht, a1, more, v, a2, -, v', more', rfl, a3⟩
    exact ⟨t, ht, a1 rfl, v', more', a2, a3⟩
  · rintro ⟨t, ht, a1, v, more, a2, a3⟩
    exact ⟨t, ht, fun _ => a1, _, "layer3".toList, a2, by simp, v, more, rfl, a3⟩

/-! ## C153: `has_ip_arp_synchronize` -/

theorem iter_caps {α : Type} {rx : String} {p : Pat} (hc : compile rx = .ok p) {g : Nat} (h0 : g ≠ 0) (hg : g ≤ p.groups)
    (conv : Option Str → Except Err α) (d : α) (P : Parsed) (i : Nat) {D : Str → Option Caps}
    (hD : ∀ t ∈ Spec.family P i, (search p t).map Found.caps = D t) :
    iterTyped P i rx g conv d =
      match (Spec.family P i).findSome? D with
      | some c => conv (c.lookup g)
      | none => .ok d := by
  have key : ∀ ts : List Str, (∀ t ∈ ts, (search p t).map Found.caps = D t) → (firstMatch p ts).map Found.caps = ts.findSome? D := by
    intro ts
    induction ts with
    | nil => intro _; rfl
    | cons t ts ih =>
      intro h
      rw [firstMatch, List.findSome?_cons, ← h t (by simp)]
      cases search p t with
      | none => exact ih (fun u hu => h u (by simp [hu]))
      | some m => rfl
  have hk := key _ hD
  rw [← hk, iterTyped, hc]
  simp only [if_true]
  rw [texts_family]
  cases firstMatch p (Spec.family P i) with
  | none => rfl
  | some m =>
    simp only [Found.group, if_neg h0, if_pos hg, Option.map_some]
    rfl

def arpP : Prog := .grp 1 (str "ip".toList (.plus .space (str "arp".toList (.plus .space (str "synchronize".toList .done))))) .done

theorem arp_rx : compile "(ip\\s+arp\\s+synchronize)" = .ok ⟨seqs arpP.toL, 1, []⟩ ∧ arpP.wf (fun _ => false) true = true := by
  decide +kernel

/-- `\s+` and a word. -/
theorem det_gap_str {w : Str} (hw : IsWord w) (p : Prog) (s : Str) (c : Caps) (q : Str × Caps) :
    (Prog.plus .space (str w p)).det s c = some q ↔
      ∃ g r, s = g ++ (w ++ r) ∧ g ≠ [] ∧ (∀ x ∈ g, isSpace x = true) ∧ p.det r c = some q := by
  obtain ⟨y, v, rfl⟩ := List.exists_cons_of_ne_nil hw.1
  have hy : ¬ isSpace y = true := by rw [hw.2 y (by simp)]; simp
  constructor
  · intro h
    cases s with
    | nil => cases h
    | cons x s =>
      rw [plus_cons] at h
      split at h
      · rename_i hx
        rw [det_str] at h
        split at h
        · rename_i hp
          obtain ⟨r, hr⟩ := hp
          rw [← hr, List.drop_left] at h
          refine ⟨x :: s.takeWhile K.space.has, r, ?_, by simp, ?_, h⟩
          · rw [hr, List.cons_append, List.takeWhile_append_dropWhile]
          · intro z hz
            rcases List.mem_cons.mp hz with rfl | hz
            · exact hx
            · exact List.all_eq_true.mp List.all_takeWhile z hz
        · cases h
      · cases h
  · rintro ⟨g, r, rfl, h1, h2, h3⟩
    obtain ⟨x, g, rfl⟩ := List.exists_cons_of_ne_nil h1
    have hd : (g ++ (y :: v ++ r)).dropWhile K.space.has = y :: v ++ r := by
      rw [List.dropWhile_append_of_pos (p := K.space.has) (fun z hz => h2 z (by simp [hz]))]
      exact List.dropWhile_cons_of_neg hy
    rw [List.cons_append, plus_cons, if_pos (show K.space.has x = true from h2 x (by simp)), hd, det_str, if_pos (List.prefix_append ..), List.drop_left]
    exact h3

theorem arp_det (u : Str) : (∃ q, arpP.det u [] = some q) ↔
    ∃ g h post, u = "ip".toList ++ (g ++ ("arp".toList ++ (h ++ ("synchronize".toList ++ post)))) ∧
      g ≠ [] ∧ (∀ x ∈ g, isSpace x = true) ∧ h ≠ [] ∧ (∀ x ∈ h, isSpace x = true) := by
  have e : (∃ q, arpP.det u [] = some q) ↔ ∃ q, (str "ip".toList (.plus .space (str "arp".toList (.plus .space (str "synchronize".toList
      .done))))).det u [] = some q := by
    rw [arpP, Prog.det]
    cases (str "ip".toList (.plus .space (str "arp".toList (.plus .space (str "synchronize".toList .done))))).det u [] <;> simp [Prog.det]
  rw [e, det_str]
  constructor
  · rintro ⟨q, hq⟩
    split at hq
    · rename_i hp
      obtain ⟨s, rfl⟩ := hp
      rw [List.drop_left] at hq
      obtain ⟨g, r, rfl, h1, h2, h3⟩ := (det_gap_str (isWord_iff.mp (by decide)) _ _ _ _).mp hq
      obtain ⟨h, r, rfl, h4, h5, -⟩ := (det_gap_str (isWord_iff.mp (by decide)) _ _ _ _).mp h3
      exact ⟨g, h, r, rfl, h1, h2, h4, h5⟩
    · cases hq
  · rintro ⟨g, h, post, rfl, h1, h2, h3, h4⟩
    refine ⟨(post, []), ?_⟩
    rw [if_pos (List.prefix_append ..), List.drop_left]
    refine (det_gap_str (isWord_iff.mp (by decide)) _ _ _ _).mpr ⟨g, _, rfl, h1, h2, ?_⟩
    exact (det_gap_str (isWord_iff.mp (by decide)) _ _ _ _).mpr ⟨h, _, rfl, h3, h4, rfl⟩

theorem arp_cap {u : Str} {q : Str × Caps} (h : arpP.det u [] = some q) : ∃ x, q.2.lookup 1 = some x ∧ x ≠ [] := by
  obtain ⟨g, k, post, rfl, h1, h2, h3, h4⟩ := (arp_det u).mp ⟨q, h⟩
  have hd : (str "ip".toList (.plus .space (str "arp".toList (.plus .space (str "synchronize".toList .done))))).det
      ("ip".toList ++ (g ++ ("arp".toList ++ (k ++ ("synchronize".toList ++ post))))) [] = some (post, []) := by
    rw [det_str, if_pos (List.prefix_append ..), List.drop_left]
    refine (det_gap_str (isWord_iff.mp (by decide)) _ _ _ _).mpr ⟨g, _, rfl, h1, h2, ?_⟩
    exact (det_gap_str (isWord_iff.mp (by decide)) _ _ _ _).mpr ⟨k, _, rfl, h3, h4, rfl⟩
  rw [arpP, Prog.det, hd] at h
  cases h
  refine ⟨_, by simp; rfl, ?_⟩
  intro he
  have := congrArg List.length he
  simp at this
  omega

theorem arp_line (t : Str) : (firstAt (fun u => (arpP.det u []).map Prod.snd) t).isSome = true ↔
    Spec.Phrase "ip" "arp" "synchronize" t := by
  constructor
  · intro h
    obtain ⟨c, hc⟩ := Option.isSome_iff_exists.mp h
    obtain ⟨u, ⟨pre, rfl⟩, hu⟩ := firstAt_some hc
    cases hd : arpP.det u [] with
    | none => rw [hd] at hu; cases hu
    | some q =>
      obtain ⟨g, k, post, rfl, hh⟩ := (arp_det u).mp ⟨q, hd⟩
      exact ⟨pre, g, k, post, by simp, hh⟩
  · rintro ⟨pre, g, k, post, rfl, h⟩
    obtain ⟨q, hq⟩ := (arp_det _).mpr ⟨g, k, post, rfl, h⟩
    cases hf : firstAt (fun u => (arpP.det u []).map Prod.snd) (pre ++ "ip".toList ++ g ++ "arp".toList ++ k ++ "synchronize".toList ++ post) with
    | some _ => rfl
    | none =>
      have := firstAt_none.mp hf ("ip".toList ++ (g ++ ("arp".toList ++ (k ++ ("synchronize".toList ++ post))))) ⟨pre, by simp⟩
      rw [hq] at this
      cases this

/-- C153: `has_ip_arp_synchronize` is true exactly if the text `ip arp synchronize` occurs in the
domain line or below it. Missing: that it is the beginning of the line. -/
theorem C153_arp_partial (P : Parsed) (i : Nat) :
    ∃ b, hasIpArpSynchronize P i = .ok b ∧ (b = true ↔ ∃ t ∈ Spec.family P i, Spec.Phrase "ip" "arp" "synchronize" t) := by
  rw [hasIpArpSynchronize, iter_caps arp_rx.1 (by decide) (by decide) toBool false P i (fun t _ => search_free arp_rx.2 1 [] t)]
  simp only [← arp_line]
  generalize Spec.family P i = ts
  induction ts with
  | nil => exact ⟨false, rfl, by simp⟩
  | cons t ts ih =>
    rw [List.findSome?_cons]
    cases hf : firstAt (fun u => (arpP.det u []).map Prod.snd) t with
    | none =>
      obtain ⟨b, h1, h2⟩ := ih
      refine ⟨b, h1, h2.trans ?_⟩
      simp [hf]
    | some c =>
      have hc : ∃ x, c.lookup 1 = some x ∧ x ≠ [] := by
        obtain ⟨u, -, hu⟩ := firstAt_some hf
        cases hd : arpP.det u [] with
        | none => rw [hd] at hu; cases hu
        | some q =>
          rw [hd] at hu
          cases hu
          exact arp_cap hd
      obtain ⟨x, hx, hne⟩ := hc
      refine ⟨true, ?_, by simp [hf]⟩
      simp only [hx]
      obtain ⟨y, x, rfl⟩ := List.exists_cons_of_ne_nil hne
      rfl

/-- C153 fails for every domain where it is switched off: `no ip arp synchronize` is taken for
`ip arp synchronize`. -/
theorem C153_arp_fails {P : Parsed} {i : Nat} {ws : Str} (h : ws ++ "no ip arp synchronize".toList ∈ Spec.family P i) :
    hasIpArpSynchronize P i = .ok true := by
  obtain ⟨b, h1, h2⟩ := C153_arp_partial P i
  rw [h1, h2.mpr ⟨_, h, ws ++ "no ".toList, [' '], [' '], [], ?_, by decide, by decide, by decide, by decide⟩]
  rw [List.append_assoc, List.append_assoc, List.append_assoc, List.append_assoc, List.append_assoc, List.append_assoc]
  rfl

def domainLines : List Str :=
  ["vpc domain 10", "  role priority 100", "  system-priority 2000", "  system-mac 00:23:04:ee:be:0a", "  peer-switch",
    "  layer3 peer-router", "  auto-recovery reload-delay 300", "  no ip arp synchronize", "vpc domain 11 x", "  ip  arp  synchronize"].map String.toList

example : shows domainLines (fun P => vpcDomainId (P.h 0).text == .ok "10".toList && vpcRolePriority P 0 == .ok 100 &&
    vpcSystemPriority P 0 == .ok 2000 && vpcSystemMac P 0 == .ok "00:23:04:ee:be:0a".toList && hasPeerSwitch P 0 == .ok true &&
    hasPeerGateway P 0 == .ok false && hasLayer3PeerRouter P 0 == .ok true && hasAutoRecovery P 0 == .ok true &&
    vpcAutoRecoveryReloadDelay P 0 == .ok 300 && hasIpArpSynchronize P 0 == .ok true && hasIpArpSynchronize P 8 == .ok true &&
    vpcDomainId (P.h 8).text == .ok "-1".toList && vpcRolePriority P 8 == .ok (-1)) = true := by
  decide +kernel

example : Spec.Phrase "ip" "arp" "synchronize" "  ip  arp synchronize".toList :=
  ⟨"  ".toList, "  ".toList, " ".toList, [], by decide, by decide, by decide, by decide, by decide⟩

example : Spec.Digits "10".toList ∧ splitWs "vpc domain 10".toList = Spec.wd ["vpc", "domain"] ++ ["10".toList] :=
  ⟨⟨by decide, by decide⟩, by decide⟩

end Nxos.Domain

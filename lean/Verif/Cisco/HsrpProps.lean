import Verif.Cisco.SwitchProps

/-! # Properties of interface attributes: HSRP -/

namespace Cisco

open Py Conf Query Re

variable {o : Opts} {lines : List Str} {P : Parsed}

/-! ## Specification -/

/-- The line is `standby`, perhaps a group number (the code allows several), the words `l`
and `more`. -/
def Spec.Standby (l : List String) (t : Str) (more : List Str) : Prop :=
  ∃ ns, (∀ n ∈ ns, Spec.Digits n) ∧ splitWs t = "standby".toList :: ns ++ Spec.wd l ++ more

/-! ## Lemmas -/

theorem toInt_digits {v : Str} (h : Spec.Digits v) : toInt (some v) = .ok (natVal v) := pyInt_digits (allDigits_of h)

theorem after_word {w : String} {l : List String} (p : Prog) {x : Char} {u : Str} (hw : w.toList = x :: u)
    (hx : isDigit x = false) : After (wordsG (gaps true (w :: l)) p) (fun v => v.all isDigit = true) :=
  after_str_num _ hw hx

theorem standby_unique {w : String} {l : List String} (hw : ¬ Spec.Digits w.toList) {t : Str} {m m' : List Str}
    (h : Spec.Standby (w :: l) t m) (h' : Spec.Standby (w :: l) t m') : m = m' := by
  obtain ⟨ns, a, b⟩ := h
  obtain ⟨ns', a', b'⟩ := h'
  rw [b] at b'
  simp only [List.cons_append, List.cons.injEq, true_and, Spec.wd, List.map_cons, List.append_assoc] at b'
  clear b
  induction ns generalizing ns' with
  | nil =>
    cases ns' with
    | nil => exact List.append_cancel_left (List.cons.inj b').2
    | cons n ns' =>
      have := (List.cons.inj b').1
      exact absurd (this ▸ a' n (by simp)) hw
  | cons n ns ih =>
    cases ns' with
    | nil =>
      have := (List.cons.inj b').1
      exact absurd (this ▸ a n (by simp)) hw
    | cons n' ns' =>
      exact ih (fun m hm => a m (by simp [hm])) ns' (fun m hm => a' m (by simp [hm])) (List.cons.inj b').2

theorem leads_unique {w a b : Str} (h : Spec.Leads w a) (h' : Spec.Leads w b) : a = b := by
  obtain ⟨u, rfl, h1, h2⟩ := h
  obtain ⟨u', e, h3, h4⟩ := h'
  have key : ∀ {a u : Str}, Spec.Digits a → (∀ c, u.head? = some c → isDigit c = false) → (a ++ u).takeWhile isDigit = a := by
    intro a u ha hu
    rw [List.takeWhile_append_of_pos ha.2]
    cases u with
    | nil => simp
    | cons x u => rw [List.takeWhile_cons_of_neg (by simp [hu x rfl])]; simp
  rw [← key h1 h2, e, key h3 h4]

theorem first_map {α β : Type} {S : Str → α → Prop} (f : α → β) {ts : List Str} {v : Option α} (h : Spec.First S ts v) :
    Spec.First (fun t b => ∃ a, S t a ∧ b = f a) ts (v.map f) := by
  induction ts with
  | nil => rw [show v = none from h]; rfl
  | cons t ts ih =>
    rcases h with ⟨a, h1, rfl⟩ | ⟨h1, h2⟩
    · exact .inl ⟨f a, ⟨a, h1, rfl⟩, rfl⟩
    · exact .inr ⟨fun b ⟨a, ha, _⟩ => h1 a ha, ih h2⟩

/-- Group `j` is not among the groups of the expression. -/
def _root_.Re.Prog.spares (j : Nat) : Prog → Bool
  | .done => true
  | .one _ p | .star _ p | .plus _ p | .eol p => p.spares j
  | .grp i b p | .loop i b p => i != j && b.spares j && p.spares j
  | .spEol => true

theorem loopDet_spares {d : Str → Caps → Option (Str × Caps)} {j : Nat}
    (h : ∀ s c q, d s c = some q → q.2.lookup j = c.lookup j) {i : Nat} (hi : j ≠ i) :
    ∀ (m : Nat) (s : Str) (c : Caps), (loopDet d i m s c).2.lookup j = c.lookup j
  | 0, s, c => rfl
  | m + 1, s, c => by
    rw [loopDet]
    cases hd : d s c with
    | none => rfl
    | some q =>
      refine (loopDet_spares h hi m _ _).trans ?_
      rw [List.lookup_cons, beq_false_of_ne hi]
      exact h s c q hd

theorem spares_det {j : Nat} (p : Prog) : p.spares j = true → ∀ (s : Str) (c : Caps) (q : Str × Caps), p.det s c = some q →
    q.2.lookup j = c.lookup j := by
  induction p with
  | done => intro _ s c q h; rw [Prog.det] at h; cases h; rfl
  | one k p ih =>
    intro hp s c q h
    rw [Prog.det.eq_def] at h
    cases s with
    | nil => cases h
    | cons x s =>
      simp only at h
      split at h
      · exact ih hp _ _ _ h
      · cases h
  | star k p ih => intro hp s c q h; exact ih hp _ _ _ h
  | plus k p ih =>
    intro hp s c q h
    rw [Prog.det.eq_def] at h
    cases s with
    | nil => cases h
    | cons x s =>
      simp only at h
      split at h
      · exact ih hp _ _ _ h
      · cases h
  | grp i b p ihb ihp =>
    intro hp s c q h
    simp only [Prog.spares, Bool.and_eq_true, bne_iff_ne] at hp
    rw [Prog.det] at h
    cases hb : b.det s c with
    | none => rw [hb] at h; cases h
    | some r =>
      rw [hb] at h
      rw [ihp hp.2 _ _ _ h, List.lookup_cons, beq_false_of_ne (Ne.symm hp.1.1)]
      exact ihb hp.1.2 _ _ _ hb
  | loop i b p ihb ihp =>
    intro hp s c q h
    simp only [Prog.spares, Bool.and_eq_true, bne_iff_ne] at hp
    rw [ihp hp.2 _ _ _ h]
    exact loopDet_spares (ihb hp.1.2) (Ne.symm hp.1.1) _ _ _
  | eol p ih =>
    intro hp s c q h
    rw [Prog.det] at h
    split at h
    · exact ih hp _ _ _ h
    · cases h
  | spEol =>
    intro _ s c q h
    rw [Prog.det] at h
    split at h
    · cases h; rfl
    · cases h

/-! ## C76 -/

/-- C76: `hsrp_ip_addr` is the word behind `standby [group] ip` in the first such line, if the
interface has an address. -/
theorem C76_addr (h : parse o lines = .ok P) (hn : ∀ l ∈ lines, '\n' ∉ l) (i : Nat) :
    ∃ a v, ipv4Addr P i = .ok a ∧
      Spec.First (fun t v => ∃ more, Spec.Standby ["ip"] t (v :: more)) (Spec.family P i) v ∧
      hsrpIpAddr P i = .ok (if a = [] then [] else v.getD []) ∧
      hasIpHsrp P i = .ok (decide (a ≠ [] ∧ v ≠ none)) := by
  obtain ⟨a, ha⟩ := ipv4Addr_ok h hn i
  obtain ⟨v, h1, h2⟩ := standby_attr h hn i (l := ["ip"]) (n := 2) (names := []) (tail_next 2)
    (after_word _ rfl (by decide)) (rx := "^\\s*standby\\s+(\\d+\\s+)*ip\\s+(\\S+)") (by decide +kernel)
    toStr [] (fun _ v _ => ⟨v, rfl⟩)
  have e1 := first_congr (S' := fun t v => ∃ more, Spec.Standby ["ip"] t (v :: more)) (fun t _ v => by
    constructor
    · rintro ⟨ns, more, v', b1, b2, ⟨more', rfl⟩, b3⟩
      cases b3
      exact ⟨more', ns, b1, b2⟩
    · rintro ⟨more, ns, b1, b2⟩
      exact ⟨ns, _, v, b1, b2, ⟨more, rfl⟩, rfl⟩) h1
  have e2 : hsrpIpAddr P i = .ok (if a = [] then [] else v.getD []) := by
    rw [hsrpIpAddr, withAddr_eq ha, h2]
    split <;> rfl
  refine ⟨a, v, ha, e1, e2, ?_⟩
  rw [hasIpHsrp, e2]
  have hne : v ≠ some [] := by
    rintro rfl
    obtain ⟨t, _, more, ns, _, b⟩ := (first_exists e1).2 _ rfl
    exact (splitWs_words t [] (by rw [b]; simp)).1 rfl
  by_cases hz : a = []
  · simp [hz, bind, Except.bind]
  · cases v with
    | none => simp [bind, Except.bind]
    | some v =>
      cases v with
      | nil => exact absurd rfl hne
      | cons x v => simp [hz, bind, Except.bind]

/-- C76: the timers are the two numbers of the first line `standby [group] timers HELLO HOLD`;
anything may follow the digits of the second number. -/
theorem C76_timers (h : parse o lines = .ok P) (hn : ∀ l ∈ lines, '\n' ∉ l) (i : Nat) :
    ∃ v, Spec.First (fun t (v : Int × Int) => ∃ a w b more, Spec.Standby ["timers"] t (a :: w :: more) ∧
          Spec.Digits a ∧ Spec.Leads w b ∧ v = ((natVal a : Int), (natVal b : Int))) (Spec.family P i) v ∧
      hsrpHelloTimer P i = .ok ((v.map Prod.fst).getD 0) ∧ hsrpHoldTimer P i = .ok ((v.map Prod.snd).getD 0) := by
  obtain ⟨v₁, h1, h2⟩ := standby_attr h hn i (l := ["timers"]) (n := 2) (names := []) (tail_cap_num 2 (ends_lead 2))
    (after_word _ rfl (by decide)) (rx := "^\\s*standby\\s+(\\d+\\s+)*timers\\s+(\\d+)\\s+\\d+")
    (by decide +kernel) toNum 0 (fun _ v h => ⟨_, toInt_digits h.1⟩)
  obtain ⟨v₂, h3, h4⟩ := standby_attr h hn i (l := ["timers"]) (n := 2) (names := []) (tail_num (tail_lead 2))
    (after_word _ rfl (by decide)) (rx := "^\\s*standby\\s+(\\d+\\s+)*timers\\s+\\d+\\s+(\\d+)")
    (by decide +kernel) toNum 0 (by
      rintro _ v ⟨_, _, _, _, _, _, _, _, _, b, _⟩
      exact ⟨_, toInt_digits b⟩)
  obtain ⟨v, b1, b2, b3⟩ := first_pair (S := fun t (v : Int × Int) => ∃ a w b more, Spec.Standby ["timers"] t (a :: w :: more) ∧
      Spec.Digits a ∧ Spec.Leads w b ∧ v = ((natVal a : Int), (natVal b : Int))) (by
    rintro t v v' ⟨a, w, b, more, c1, c2, c3, rfl⟩ ⟨a', w', b', more', c1', c2', c3', rfl⟩
    have := standby_unique (by simp [Spec.Digits, isDigit]) c1 c1'
    cases this
    rw [leads_unique c3 c3'])
    (first_congr (fun t _ a => by
      constructor
      · rintro ⟨ns, more, v, d1, d2, ⟨d3, more', rfl, w, more'', b, rfl, d4⟩, d5⟩
        rw [toNum, toInt_digits d3] at d5
        cases d5
        exact ⟨natVal b, v, w, b, more'', ⟨ns, d1, d2⟩, d3, d4, rfl⟩
      · rintro ⟨m, x, w, b, more, ⟨ns, d1, d2⟩, d3, d4, d5⟩
        cases d5
        exact ⟨ns, _, x, d1, d2, ⟨d3, _, rfl, w, more, b, rfl, d4⟩, toInt_digits d3⟩) h1)
    (first_congr (fun t _ a => by
      constructor
      · rintro ⟨ns, more, v, d1, d2, ⟨x, more', rfl, d3, w, more'', rfl, d4⟩, d5⟩
        have := toInt_digits (show Spec.Digits v by obtain ⟨_, _, d, _⟩ := d4; exact d)
        rw [toNum, this] at d5
        cases d5
        exact ⟨natVal x, x, w, v, more'', ⟨ns, d1, d2⟩, d3, d4, rfl⟩
      · rintro ⟨m, x, w, b, more, ⟨ns, d1, d2⟩, d3, d4, d5⟩
        cases d5
        exact ⟨ns, _, b, d1, d2, ⟨x, _, rfl, d3, w, more, rfl, d4⟩,
          toInt_digits (show Spec.Digits b by obtain ⟨_, _, d, _⟩ := d4; exact d)⟩) h3)
  exact ⟨v, b1, by rw [hsrpHelloTimer, h2, b2], by rw [hsrpHoldTimer, h4, b3]⟩

/-- C76: `hsrp_authentication_md5_keychain` is the word behind `standby [group] authentication
md5 key-chain`. -/
theorem C76_keychain (h : parse o lines = .ok P) (hn : ∀ l ∈ lines, '\n' ∉ l) (i : Nat) :
    ∃ v, Spec.First (fun t v => ∃ more, Spec.Standby ["authentication", "md5", "key-chain"] t (v :: more)) (Spec.family P i) v ∧
      hsrpAuthenticationMd5Keychain P i = .ok (v.getD []) ∧ hasHsrpAuthenticationMd5 P i = .ok v.isSome := by
  obtain ⟨v, h1, h2⟩ := standby_attr h hn i (l := ["authentication", "md5", "key-chain"]) (n := 2) (names := []) (tail_next 2)
    (after_word _ rfl (by decide)) (rx := "^\\s*standby\\s+(\\d+\\s+)*authentication\\s+md5\\s+key-chain\\s+(\\S+)")
    (by decide +kernel) toStr [] (fun _ v _ => ⟨v, rfl⟩)
  have e1 := first_congr (S' := fun t v => ∃ more, Spec.Standby ["authentication", "md5", "key-chain"] t (v :: more)) (fun t _ v => by
    constructor
    · rintro ⟨ns, more, v', b1, b2, ⟨more', rfl⟩, b3⟩
      cases b3
      exact ⟨more', ns, b1, b2⟩
    · rintro ⟨more, ns, b1, b2⟩
      exact ⟨ns, _, v, b1, b2, ⟨more, rfl⟩, rfl⟩) h1
  refine ⟨v, e1, h2, ?_⟩
  have hne : v ≠ some [] := by
    rintro rfl
    obtain ⟨t, _, more, ns, _, b⟩ := (first_exists e1).2 _ rfl
    exact (splitWs_words t [] (by rw [b]; simp)).1 rfl
  rw [hasHsrpAuthenticationMd5, hsrpAuthenticationMd5Keychain, h2]
  cases v with
  | none => rfl
  | some v =>
    cases v with
    | nil => exact absurd rfl hne
    | cons x v => rfl

/-- C76: `has_hsrp_usebia` is true exactly if there is a line `standby [group] use-bia`. -/
theorem C76_usebia (h : parse o lines = .ok P) (hn : ∀ l ∈ lines, '\n' ∉ l) (i : Nat) :
    ∃ b, hasHsrpUsebia P i = .ok b ∧
      (b = true ↔ ∃ t ∈ Spec.family P i, ∃ w more, Spec.Standby [] t (w :: more) ∧ "use-bia".toList <+: w) := by
  obtain ⟨v, h1, h2⟩ := standby_attr h hn i (l := []) (n := 2) (names := []) (tail_begin 2 (w := "use-bia".toList)
    (isWord_iff.mp (by decide))) (after_begin_num 2 rfl (by decide)) (rx := "^\\s*standby\\s+(\\d+\\s+)*(use-bia)")
    (by decide +kernel) toBool false (by
      rintro _ v _
      exact ⟨_, rfl⟩)
  obtain ⟨i1, i2⟩ := first_exists h1
  refine ⟨_, h2, ?_⟩
  cases v with
  | none =>
    simp only [Option.getD_none, Bool.false_eq_true, false_iff]
    rintro ⟨t, ht, w, more, ⟨ns, b1, b2⟩, b3⟩
    exact i1.mp rfl t ht true ⟨ns, _, _, b1, b2, ⟨rfl, w, more, rfl, b3⟩, rfl⟩
  | some b =>
    obtain ⟨t, ht, ns, more, v, b1, b2, ⟨rfl, w, more', rfl, b3⟩, b4⟩ := i2 b rfl
    cases b4
    exact ⟨fun _ => ⟨t, ht, w, more', ⟨ns, b1, b2⟩, b3⟩, fun _ => rfl⟩

/-- C76 does not hold as stated: `has_hsrp_preempt` looks for `use-bia`. -/
theorem C76_preempt_fails :
    (∃ P, parse { factory := true } ["interface Gi0/1".toList, " standby 1 preempt".toList] = .ok P ∧
      (hasHsrpPreempt P 0 == .ok false) = true) ∧
    (∃ P, parse { factory := true } ["interface Gi0/1".toList, " standby 1 use-bia".toList] = .ok P ∧
      (hasHsrpPreempt P 0 == .ok true) = true) :=
  ⟨of_shows (by decide +kernel), of_shows (by decide +kernel)⟩

/-- One key of a dictionary of groups. -/
theorem key_det {rx : String} {p : Prog} {n : Nat} {names : List (Str × Nat)} (h : Is rx p n names) {key : Str} {g : Nat}
    (hk : names.lookup key = some g) (ty : Ty) (d : Val) (P : Parsed) (i : Nat) :
    getKey (iterDict P i rx [(key, ty)] d) key =
      match firstDet p (Spec.family P i) with
      | some c => typedEntry [(key, c.lookup g)] key ty d
      | none => .ok d := by
  rw [dict_det h]
  cases hf : firstDet p (Spec.family P i) with
  | none => simp [getKey, bind, Except.bind]
  | some c =>
    have hl : List.lookup key (names.map (fun x => (x.1, c.lookup x.2))) = some (c.lookup g) := by
      clear hf h
      induction names with
      | nil => cases hk
      | cons x names ih =>
        rw [List.lookup_cons] at hk
        rw [List.map_cons, List.lookup_cons]
        cases hx : key == x.1 with
        | true => rw [hx] at hk; cases hk; rfl
        | false => rw [hx] at hk; exact ih hk
    have e : typedEntry (names.map (fun x => (x.1, c.lookup x.2))) key ty d = typedEntry [(key, c.lookup g)] key ty d := by
      rw [typedEntry, typedEntry, hl]
      simp
    dsimp only
    rw [List.mapM_cons, List.mapM_nil]
    dsimp only
    rw [e]
    cases typedEntry [(key, c.lookup g)] key ty d with
    | error e => rfl
    | ok v => simp [getKey, bind, Except.bind, pure, Except.pure]

theorem entry_str (key v : Str) : typedEntry [(key, some v)] key .str (.str []) = .ok (.str v) := by
  simp only [typedEntry, List.lookup_cons, beq_self_eq_true]
  by_cases h : v = []
  · simp [h]
  · rw [if_pos (by simpa using h)]; rfl

theorem entry_int (key : Str) {v : Str} (hv : Spec.Digits v) (d : Int) :
    typedEntry [(key, some v)] key .int (.int d) = .ok (.int (natVal v)) := by
  simp only [typedEntry, List.lookup_cons, beq_self_eq_true]
  rw [if_pos (by simp), Ty.conv, toInt_digits hv]; rfl

/-- A dictionary with `^\s*pre\s+tail`, and texts as values. -/
theorem key_attr (h : parse o lines = .ok P)
    (hn : ∀ l ∈ lines, '\n' ∉ l) (i : Nat) {rx : String} {ind : Bool} {pre : List (Str × Bool)} {p : Prog} {n g : Nat}
    {names : List (Str × Nat)} {key : Str} {T : List Str → Str → Prop} (hT : Tail p g T)
    (hi : Is rx (lead ind (wordsG pre p)) n names ∧ pre.all (fun w => isWord w.1) = true ∧ names.lookup key = some g)
    (hf : ∀ t ∈ Spec.family P i, Fits pre (lstrip t)) {ty : Ty} {d : Val} {f : Str → Val}
    (hc : ∀ t more v, splitWs t = pre.map Prod.fst ++ more → T more v → typedEntry [(key, some v)] key ty d = .ok (f v)) :
    ∃ v, Spec.First (fun t v => (ind = true → Spec.Indented t) ∧
        ∃ more, splitWs t = pre.map Prod.fst ++ more ∧ T more v) (Spec.family P i) v ∧
      getKey (iterDict P i rx [(key, ty)] d) key = .ok ((v.map f).getD d) := by
  obtain ⟨hi, hl, hk⟩ := hi
  obtain ⟨v, h1, h2⟩ := firstDet_first (S := fun t v => (ind = true → Spec.Indented t) ∧
      ∃ more, splitWs t = pre.map Prod.fst ++ more ∧ T more v) (p := lead ind (wordsG pre p))
    (C := fun c v => c.lookup g = some v ∧ typedEntry [(key, some v)] key ty d = .ok (f v)) (Spec.family P i) (by
      intro t ht q hq
      obtain ⟨more, v, h1, h2, h3, h4⟩ := (chain_tail ind hl hT (line_family h hn i t ht) (hf t ht) []).1 q hq
      exact ⟨v, ⟨h1, more, h2, h3⟩, h4, hc t more v h2 h3⟩) (by
      rintro t ht v ⟨h1, more, h2, h3⟩
      exact (chain_tail ind hl hT (line_family h hn i t ht) (hf t ht) []).2 more v h1 h2 h3)
  refine ⟨v, h1, ?_⟩
  rw [key_det hi hk]
  rcases h2 with ⟨rfl, h3⟩ | ⟨a, c, rfl, h3, h4, h5⟩
  · rw [h3]; rfl
  · rw [h3]
    dsimp only
    rw [h4, h5]; rfl

/-- C76: `hsrp_group` is the number in the first line `standby GROUP ip ADDRESS`, and -1
without such a line. -/
theorem C76_group (h : parse o lines = .ok P) (hn : ∀ l ∈ lines, '\n' ∉ l) (i : Nat) :
    ∃ v, Spec.First (fun t (v : Int) => ∃ n a more, splitWs t = "standby".toList :: n :: "ip".toList :: a :: more ∧
        Spec.Digits n ∧ v = natVal n) (Spec.family P i) v ∧ hsrpGroup P i = .ok (.int (v.getD (-1))) := by
  obtain ⟨v, h1, h2⟩ := key_attr h hn i (ind := false) (pre := gaps true ["standby"]) (n := 2)
    (rx := "^\\s*standby\\s+(?P<group>\\d+)\\s+ip\\s+(?P<hsrp_addr>\\S+)")
    (names := [("group".toList, 1), ("hsrp_addr".toList, 2)]) (key := "group".toList)
    (tail_cap_num 1 (ends_cons (ends_next (by decide : 1 ≠ 2)) (w := "ip".toList) (isWord_iff.mp (by decide))))
    (by decide +kernel) (fun t _ => .inl (by simp [gaps])) (ty := .int) (d := .int (-1)) (f := fun v => .int (natVal v))
    (by rintro t more v _ ⟨h, _⟩; exact entry_int _ h _)
  refine ⟨v.map (fun v => (natVal v : Int)), first_congr (fun t _ n => ?_) (first_map (fun v => (natVal v : Int)) h1), ?_⟩
  · rw [fst_gaps]
    constructor
    · rintro ⟨v, ⟨-, more, b1, b2, more', rfl, more'', rfl, a, m3, rfl⟩, rfl⟩
      exact ⟨v, a, m3, b1, b2, rfl⟩
    · rintro ⟨v, a, more, b1, b2, rfl⟩
      exact ⟨v, ⟨by simp, _, b1, b2, _, rfl, _, rfl, a, more, rfl⟩, rfl⟩
  · rw [hsrpGroup, h2]
    cases v <;> rfl

/-- When `^\s*standby\s+(\d+\s+)*l\s+tail` first matches, and what its groups then hold. -/
theorem standby_caps (h : parse o lines = .ok P)
    (hn : ∀ l ∈ lines, '\n' ∉ l) (i : Nat) {l : List String} {p : Prog} {T : List Str → Str → Prop} (hT : Tail p 2 T)
    (hp : p.spares 1 = true)
    (ha : After (wordsG (gaps true l) p) (fun v => v.all isDigit = true))
    (hl : (gaps true ["standby"] ++ gaps true l).all (fun w => isWord w.1) = true) :
    ∃ v, Spec.First (fun t (a : List Str × Str) => ∃ more, (∀ n ∈ a.1, Spec.Digits n) ∧
        splitWs t = "standby".toList :: a.1 ++ Spec.wd l ++ more ∧ T more a.2) (Spec.family P i) v ∧
      ((v = none ∧ firstDet (loopProg (gaps true ["standby"]) 1 (.plus .digit (.plus .space .done)) (gaps true l) p)
          (Spec.family P i) = none) ∨
        ∃ a c, v = some a ∧ firstDet (loopProg (gaps true ["standby"]) 1 (.plus .digit (.plus .space .done)) (gaps true l) p)
          (Spec.family P i) = some c ∧ c.lookup 2 = some a.2 ∧
          ((a.1 = [] ∧ c.lookup 1 = none) ∨ ∃ n g, a.1.getLast? = some n ∧ c.lookup 1 = some (n ++ g) ∧ ∀ x ∈ g, isSpace x = true)) := by
  have hfit : ∀ t : Str, Fits (gaps true ["standby"] ++ gaps true l) (lstrip t) := fun t => .inl (by
    intro w hw
    simp only [gaps, List.mem_append, List.mem_map] at hw
    rcases hw with ⟨_, _, rfl⟩ | ⟨_, _, rfl⟩ <;> rfl)
  refine firstDet_first (C := fun c (a : List Str × Str) => c.lookup 2 = some a.2 ∧
    ((a.1 = [] ∧ c.lookup 1 = none) ∨ ∃ n g, a.1.getLast? = some n ∧ c.lookup 1 = some (n ++ g) ∧ ∀ x ∈ g, isSpace x = true))
    (Spec.family P i) ?_ ?_
  · intro t ht q hq
    obtain ⟨ns, x, more, v, h1, h2, h3, h4, h5, h6, h7⟩ :=
      (loop_tail 1 item_num hT hl ha (line_family h hn i t ht) (hfit t) []).1 q hq
    rw [fst_gaps, fst_gaps] at h2
    refine ⟨(ns, v), ⟨more, ?_, h2, h3⟩, h6, ?_⟩
    · intro m hm
      exact (allDigits_iff (splitWs_words t m (by rw [h2]; simp [hm]))).mp (h1 m hm)
    · have := spares_det p hp _ _ _ h7
      rcases h5 with ⟨rfl, rfl⟩ | ⟨n, g, c1, c2, c3⟩
      · exact .inl ⟨rfl, this⟩
      · exact .inr ⟨n, g, c1, by rw [this, c2], c3⟩
  · rintro t ht ⟨ns, v⟩ ⟨more, h1, h2, h3⟩
    refine (loop_tail 1 item_num hT hl ha (line_family h hn i t ht) (hfit t) []).2 ns more v ?_ ?_ h3
    · intro m hm
      exact List.all_eq_true.mpr (h1 m hm).2
    · rw [fst_gaps, fst_gaps]; exact h2

/-- C76: `hsrp_ip_mask` is the word behind the address in the first line `standby [group] ip
ADDRESS MASK`, if the interface has an address. -/
theorem C76_mask (h : parse o lines = .ok P) (hn : ∀ l ∈ lines, '\n' ∉ l) (i : Nat) :
    ∃ a v, ipv4Addr P i = .ok a ∧
      Spec.First (fun t m => ∃ x, Spec.Standby ["ip"] t [x, m]) (Spec.family P i) v ∧
      hsrpIpMask P i = .ok (.str (if a = [] then [] else v.getD [])) := by
  obtain ⟨a, ha⟩ := ipv4Addr_ok h hn i
  have hi : Is "^\\s*standby\\s+(?P<group>\\d+\\s+)*ip\\s+\\S+\\s+(?P<mask>\\S+)\\s*$"
    (loopProg (gaps true ["standby"]) 1 (.plus .digit (.plus .space .done)) (gaps true ["ip"])
      (.plus .nonspace (.plus .space (.grp 2 (.plus .nonspace .done) (ends true []))))) 2
    [("group".toList, 1), ("mask".toList, 2)] := by decide +kernel
  obtain ⟨v, h1, h2⟩ := standby_caps h hn i (l := ["ip"])
    (tail_skip (tail_value 2 (k := .nonspace) trivial true (post := []) (by simp))) rfl (after_word _ rfl (by decide)) (by decide)
  refine ⟨a, v.map Prod.snd, ha, ?_, ?_⟩
  · refine first_congr (fun t _ m => ?_) (first_map Prod.snd h1)
    constructor
    · rintro ⟨⟨ns, m⟩, ⟨more, b1, b2, x, more', rfl, rfl, b3⟩, rfl⟩
      exact ⟨x, ns, b1, b2⟩
    · rintro ⟨x, ns, b1, b2⟩
      refine ⟨(ns, m), ⟨_, b1, b2, x, _, rfl, rfl, ?_⟩, rfl⟩
      have := (splitWs_words t m (by rw [b2]; simp)).2
      rw [List.all_eq_true]
      intro c hc
      simp [K.has, this c hc]
  · rw [hsrpIpMask, withAddr_eq ha]
    split
    · rfl
    · rw [key_det hi (g := 2) (by decide)]
      rcases h2 with ⟨rfl, h3⟩ | ⟨b, c, rfl, h3, h4, -⟩
      · rw [h3]; rfl
      · rw [h3]
        dsimp only
        rw [h4, entry_str]; rfl

/-- C76: `hsrp_priority` is the number in the first line `standby GROUP priority N`, 100
without such a line, and 0 without an HSRP address.  For lines that have the group number. -/
theorem C76_priority_partial (h : parse o lines = .ok P) (hn : ∀ l ∈ lines, '\n' ∉ l) (i : Nat)
    (hg : ∀ t ∈ Spec.family P i, ∀ more, splitWs t ≠ "standby".toList :: "priority".toList :: more) :
    ∃ b v, hasIpHsrp P i = .ok b ∧
      Spec.First (fun t (v : Int) => ∃ w n more, Spec.Standby ["priority"] t (w :: more) ∧ Spec.Leads w n ∧ v = natVal n)
        (Spec.family P i) v ∧
      hsrpPriority P i = .ok (.int (if b then v.getD 100 else 0)) := by
  obtain ⟨a, w, -, -, -, hb⟩ := C76_addr h hn i
  have hi : Is "^\\s*standby\\s+(?P<group>\\d+\\s+)*priority\\s+(?P<priority>\\d+)"
    (loopProg (gaps true ["standby"]) 1 (.plus .digit (.plus .space .done)) (gaps true ["priority"])
      (.grp 2 (.plus .digit .done) .done)) 2
    [("group".toList, 1), ("priority".toList, 2)] := by decide +kernel
  obtain ⟨v, h1, h2⟩ := standby_caps h hn i (l := ["priority"]) (tail_lead 2) rfl (after_word _ rfl (by decide)) (by decide)
  refine ⟨_, v.map (fun v => (natVal v.2 : Int)), hb, ?_, ?_⟩
  · refine first_congr (fun t _ m => ?_) (first_map (fun v => (natVal v.2 : Int)) h1)
    constructor
    · rintro ⟨⟨ns, m⟩, ⟨more, b1, b2, x, more', rfl, b3⟩, rfl⟩
      exact ⟨x, m, more', ⟨ns, b1, b2⟩, b3, rfl⟩
    · rintro ⟨x, n, more, ⟨ns, b1, b2⟩, b3, rfl⟩
      exact ⟨(ns, n), ⟨_, b1, b2, x, more, rfl, b3⟩, rfl⟩
  · rw [hsrpPriority, hb]
    generalize decide (a ≠ [] ∧ w ≠ none) = b
    cases b with
    | false => rfl
    | true =>
      dsimp only [bind, Except.bind]
      rw [if_neg (by simp), if_pos rfl, dict_det hi]
      rcases h2 with ⟨rfl, h3⟩ | ⟨⟨ns, m⟩, c, rfl, h3, h4, h5⟩
      · rw [h3]; rfl
      · rw [h3]
        obtain ⟨t, ht, more, b1, b2, x, more', rfl, b3⟩ := (first_exists h1).2 _ rfl
        have hm : Spec.Digits m := by obtain ⟨_, _, d, _⟩ := b3; exact d
        rcases h5 with ⟨h5, -⟩ | ⟨n, g, h5, h6, h7⟩
        · dsimp only at h5 b2
          subst h5
          exact absurd b2 (hg t ht _)
        · have hnd := b1 n (List.mem_of_getLast? h5)
          have k1 : toInt (some (n ++ g)) = .ok (natVal n) := by
            have hs : strip (n ++ g) = strip n := by
              rw [strip, strip, rstrip_append_spaces _ _ h7]
            have hp : ∀ s : Str, pyInt (strip s) = pyInt s := fun s => by unfold pyInt; rw [strip_strip]
            rw [toInt, ← hp, hs, hp]
            exact pyInt_digits (allDigits_of hnd)
          have k2 : typedEntry [("group".toList, some (n ++ g)), ("priority".toList, some m)] "group".toList .int (.int 100) =
              .ok (.int (natVal n)) := by
            rw [typedEntry, show List.lookup "group".toList [("group".toList, some (n ++ g)), ("priority".toList, some m)] =
              some (some (n ++ g)) from rfl]
            dsimp only
            rw [if_pos (by simp), Ty.conv, k1]; rfl
          have k3 : typedEntry [("group".toList, some (n ++ g)), ("priority".toList, some m)] "priority".toList .int (.int 100) =
              .ok (.int (natVal m)) := by
            rw [typedEntry, show List.lookup "priority".toList [("group".toList, some (n ++ g)), ("priority".toList, some m)] =
              some (some m) from rfl]
            dsimp only
            rw [if_pos (by simp), Ty.conv, toInt_digits hm]; rfl
          dsimp only
          have k4 : List.map (fun x : Str × Nat => (x.1, List.lookup x.2 c)) [("group".toList, 1), ("priority".toList, 2)] =
              [("group".toList, some (n ++ g)), ("priority".toList, some m)] := by
            simp only [List.map_cons, List.map_nil, h6, h4]
          rw [k4]
          simp only [List.mapM_cons, List.mapM_nil, k2, k3]
          rfl

/-- C76 does not hold as stated: without a group number (group 0), `hsrp_priority` raises
TypeError. -/
theorem C76_priority_fails :
    ∃ P, parse { factory := true } ["interface Gi0/1".toList, " ip address 10.0.0.2 255.255.255.0".toList,
      " standby ip 10.0.0.1".toList, " standby priority 110".toList] = .ok P ∧
      (hsrpPriority P 0 == .error .typeError) = true :=
  of_shows (by decide +kernel)

def exHsrp : List Str :=
  ["interface Gi0/1", " ip address 10.0.0.2 255.255.255.0", " standby 7 ip 10.0.0.1 255.255.255.0", " standby 7 priority 110",
    " standby 7 timers 3 10", " standby use-bia", " standby 7 authentication md5 key-chain KEY", "interface Gi0/2",
    " standby 7 priority 110"].map String.toList

example : ∃ P, parse { factory := true } exHsrp = .ok P ∧
    (hsrpIpAddr P 0 == .ok "10.0.0.1".toList && hasIpHsrp P 0 == .ok true && hsrpIpMask P 0 == .ok (.str "255.255.255.0".toList) &&
      hsrpGroup P 0 == .ok (.int 7) && hsrpPriority P 0 == .ok (.int 110) && hsrpHelloTimer P 0 == .ok 3 &&
      hsrpHoldTimer P 0 == .ok 10 && hasHsrpUsebia P 0 == .ok true && hsrpAuthenticationMd5Keychain P 0 == .ok "KEY".toList &&
      hsrpPriority P 7 == .ok (.int 0) && hsrpGroup P 7 == .ok (.int (-1))) = true :=
  of_shows (by decide +kernel)

/-! ## C71, C72, C73: further attributes -/

/-- C71: `manual_carrierdelay`, in milliseconds: `carrier-delay N` counts seconds, and
`carrier-delay msec N` milliseconds; a positive number of seconds comes first. -/
theorem C71_carrierdelay (h : parse o lines = .ok P) (hn : ∀ l ∈ lines, '\n' ∉ l) (i : Nat) :
    ∃ s m, Spec.First (Spec.Number ["carrier-delay"] []) (Spec.family P i) s ∧
      Spec.First (Spec.Number ["carrier-delay", "msec"] []) (Spec.family P i) m ∧
      manualCarrierdelayMs P i = .ok (if 0 < s.getD 0 then 1000 * s.getD 0 else m.getD 0) ∧
      hasManualCarrierdelay P i = .ok (decide (0 < s.getD 0 ∨ 0 < m.getD 0)) := by
  obtain ⟨s, h1, h2⟩ := num_attr (rx := "^\\s*carrier-delay\\s+(\\d+)$") (pre := ["carrier-delay"]) (post := [])
    (sp := false) h hn i (by decide +kernel) 0
  obtain ⟨m, h3, h4⟩ := num_attr (rx := "^\\s*carrier-delay\\s+msec\\s+(\\d+)$") (pre := ["carrier-delay", "msec"]) (post := [])
    (sp := false) h hn i (by decide +kernel) 0
  have nn : ∀ {pre post : List String} {v : Option Int}, Spec.First (Spec.Number pre post) (Spec.family P i) v → 0 ≤ v.getD 0 := by
    intro pre post v hv
    cases v with
    | none => simp
    | some n =>
      obtain ⟨t, _, v, _, _, rfl⟩ := (first_exists hv).2 _ rfl
      simp
  have e : manualCarrierdelayMs P i = .ok (if 0 < s.getD 0 then 1000 * s.getD 0 else m.getD 0) := by
    have h5 := nn h3
    rw [manualCarrierdelayMs, toNum, h2, h4]
    dsimp only [bind, Except.bind]
    by_cases hs : 0 < s.getD 0
    · rw [if_pos hs, if_pos hs]
    · rw [if_neg hs, if_neg hs]
      split
      · rfl
      · congr 1; omega
  refine ⟨s, m, h1, h3, e, ?_⟩
  have h5 := nn h1
  have h6 := nn h3
  rw [hasManualCarrierdelay, e]
  dsimp only [bind, Except.bind]
  congr 1
  rw [Bool.eq_iff_iff, decide_eq_true_iff, bne_iff_ne]
  split <;> omega

/-- C71: `xconnect_vc` is the number in the first line `xconnect PEER VC ...`. -/
theorem C71_xconnect (h : parse o lines = .ok P) (hn : ∀ l ∈ lines, '\n' ∉ l) (i : Nat) :
    ∃ v, Spec.First (fun t (v : Int) => ∃ x n w more, splitWs t = "xconnect".toList :: x :: n :: w :: more ∧
        Spec.Digits n ∧ v = natVal n) (Spec.family P i) v ∧
      xconnectVc P i = .ok (v.getD 0) ∧ hasXconnect P i = .ok (decide (v.getD 0 ≠ 0)) := by
  obtain ⟨v, h1, h2⟩ := tail_attr h hn i (rx := "^\\s*xconnect\\s+\\S+\\s+(\\d+)\\s+\\S+") (ind := false)
    (pre := gaps true ["xconnect"]) (n := 1) (names := []) (tail_skip (tail_cap_num 1 (ends_word 1)))
    (by decide +kernel) (fun t _ => .inl (by simp [gaps])) toInt 0 (by
      rintro ws v ⟨x, more, rfl, h, _⟩
      exact ⟨_, toInt_digits h⟩)
  refine ⟨v, first_congr (fun t _ n => ?_) h1, h2, ?_⟩
  · rw [fst_gaps]
    constructor
    · rintro ⟨-, more, v, b1, ⟨x, more, rfl, b2, more', rfl, w, more'', rfl⟩, b3⟩
      rw [toInt_digits b2] at b3
      cases b3
      exact ⟨x, v, w, more'', b1, b2, rfl⟩
    · rintro ⟨x, v, w, more, b1, b2, rfl⟩
      exact ⟨by simp, _, v, b1, ⟨x, _, rfl, b2, _, rfl, w, more, rfl⟩, toInt_digits b2⟩
  · rw [hasXconnect, xconnectVc, h2]
    dsimp only [bind, Except.bind]
    congr 1
    rw [Bool.eq_iff_iff, decide_eq_true_iff, bne_iff_ne]

/-- C72: the MAC access lists, for lines without double blanks. -/
theorem C72_mac_partial (h : parse o lines = .ok P) (hn : ∀ l ∈ lines, '\n' ∉ l) (i : Nat)
    (ht : ∀ t ∈ Spec.family P i, Spec.Tidy t) :
    ∀ a ∈ [(macAccessgroupIn, "in"), (macAccessgroupOut, "out")],
      ∃ v, Spec.First (Spec.Word ["mac", "access-group"] [a.2]) (Spec.family P i) v ∧ a.1 P i = .ok (.str (v.getD [])) := by
  have key : ∀ (rx w : String), Is rx (lead false (wordsG [("mac".toList, false), ("access-group".toList, true)]
      (.grp 1 (.plus .nonspace .done) (ends true [w.toList])))) 1 [("group_number".toList, 1)] → isWord w.toList = true →
      ∃ v, Spec.First (Spec.Word ["mac", "access-group"] [w]) (Spec.family P i) v ∧
        getKey (iterDict P i rx [("group_number".toList, .str)] (.str [])) "group_number".toList = .ok (.str (v.getD [])) := by
    intro rx w hi hw
    obtain ⟨v, h1, h2⟩ := key_attr h hn i (ind := false) (rx := rx) (key := "group_number".toList) (n := 1)
      (pre := [("mac".toList, false), ("access-group".toList, true)]) (names := [("group_number".toList, 1)])
      (tail_value 1 (k := .nonspace) trivial true (post := [w.toList]) (by simpa using isWord_iff.mp hw))
      ⟨hi, by decide, by decide⟩ (fun t hh => .inr (ht t hh)) (ty := .str) (d := .str []) (f := Val.str)
      (fun _ _ v _ _ => entry_str _ v)
    refine ⟨v, first_congr (fun t _ n => ?_) h1, by rw [h2]; cases v <;> rfl⟩
    constructor
    · rintro ⟨-, more, b1, rfl, b2⟩
      exact b1
    · intro b
      refine ⟨by simp, _, b, rfl, ?_⟩
      have := (splitWs_words t n (by rw [show splitWs t = _ from b]; simp)).2
      rw [List.all_eq_true]
      intro c hc
      simp [K.has, this c hc]
  intro a ha
  simp only [List.mem_cons, List.not_mem_nil, or_false] at ha
  rcases ha with rfl | rfl
  · exact key _ _ (by decide +kernel) (by decide)
  · exact key _ _ (by decide +kernel) (by decide)

/-- C72: `has_ip_accessgroup_in` and its like say whether there is such a list. -/
theorem C72_has_accessgroup_partial (h : parse o lines = .ok P) (hn : ∀ l ∈ lines, '\n' ∉ l) (i : Nat)
    (ht : ∀ t ∈ Spec.family P i, Spec.Tidy t) :
    ∀ a ∈ [(hasIpAccessgroupIn, "in"), (hasIpAccessgroupOut, "out")],
      ∃ b, a.1 P i = .ok b ∧ (b = true ↔ ∃ t ∈ Spec.family P i, ∃ v, Spec.Word ["ip", "access-group"] [a.2] t v) := by
  have key : ∀ (f : Parsed → Nat → Except Err Str) (w : String),
      (∃ v, Spec.First (Spec.Word ["ip", "access-group"] [w]) (Spec.family P i) v ∧ f P i = .ok (v.getD [])) →
      ∃ b, (do .ok (!(← f P i).isEmpty) : Except Err Bool) = .ok b ∧
        (b = true ↔ ∃ t ∈ Spec.family P i, ∃ v, Spec.Word ["ip", "access-group"] [w] t v) := by
    rintro f w ⟨v, h1, h2⟩
    refine ⟨_, by rw [h2]; rfl, ?_⟩
    obtain ⟨i1, i2⟩ := first_exists h1
    cases v with
    | none =>
      simp only [Option.getD_none, List.isEmpty_nil, Bool.not_true, Bool.false_eq_true, false_iff]
      rintro ⟨t, ht, v, hv⟩
      exact i1.mp rfl t ht v hv
    | some v =>
      obtain ⟨t, ht, hv⟩ := i2 v rfl
      have hne := (splitWs_words t v (by rw [show splitWs t = _ from hv]; simp)).1
      constructor
      · intro _; exact ⟨t, ht, v, hv⟩
      · intro _
        cases v with
        | nil => exact absurd rfl hne
        | cons => rfl
  have hh := C72_accessgroup_partial h hn i ht
  intro a ha
  simp only [List.mem_cons, List.not_mem_nil, or_false] at ha
  rcases ha with rfl | rfl
  · exact key _ _ (hh (ipv4AccessgroupIn, "in") (by simp))
  · exact key _ _ (hh (ipv4AccessgroupOut, "out") (by simp))

end Cisco

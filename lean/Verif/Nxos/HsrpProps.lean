import Verif.Nxos.AddrProps
import Verif.Cisco.AccessLemmas

/-! # Properties of NXOS interface lines: HSRP groups -/

namespace Nxos

open Py Conf Query Re Cisco

variable {o : Opts} {lines : List Str} {P : Parsed}

/-! ## Specification -/

/-- An indented line `hsrp N`, where anything may follow the digits of `N`. -/
def Spec.Group (t d : Str) : Prop :=
  Spec.Indented t ∧ ∃ w more, splitWs t = "hsrp".toList :: w :: more ∧ Spec.Leads w d

/-- Of these lines, the ones that open a group. -/
inductive Spec.Groups (P : Parsed) : List Nat → List Nat → Prop
  | nil : Spec.Groups P [] []
  | group {j js gs d} : Spec.Group (P.h j).text d → Spec.Groups P js gs → Spec.Groups P (j :: js) (j :: gs)
  | other {j js gs} : (∀ d, ¬ Spec.Group (P.h j).text d) → Spec.Groups P js gs → Spec.Groups P (j :: js) gs

/-- An indented line that begins with the word `kw` and the word `a`. -/
def Spec.Takes (kw : String) (t a : Str) : Prop := Spec.Indented t ∧ ∃ more, splitWs t = kw.toList :: a :: more

/-- An indented line `kw N`, where anything may follow the digits of `N`. -/
def Spec.Counts (kw : String) (t : Str) (n : Int) : Prop :=
  Spec.Indented t ∧ ∃ w more a, splitWs t = kw.toList :: w :: more ∧ Spec.Leads w a ∧ n = natVal a

/-- An indented line `timers HELLO HOLD`. -/
def Spec.Seconds (t : Str) (v : Int × Int) : Prop :=
  Spec.Indented t ∧ ∃ a w b more, splitWs t = "timers".toList :: a :: w :: more ∧ Spec.Digits a ∧ Spec.Leads w b ∧
    v = ((natVal a : Int), (natVal b : Int))

/-- An indented line `timers msec HELLO msec HOLD`. -/
def Spec.Millis (t : Str) (v : Int × Int) : Prop :=
  Spec.Indented t ∧ ∃ a w b more, splitWs t = "timers".toList :: "msec".toList :: a :: "msec".toList :: w :: more ∧
    Spec.Digits a ∧ Spec.Leads w b ∧ v = ((natVal a : Int), (natVal b : Int))

/-! ## Lines -/

theorem match_tail {α : Type} {rx : String} {ind : Bool} {pre : List (Str × Bool)} {p : Prog} {n g : Nat}
    {names : List (Str × Nat)} {T : List Str → Str → Prop} (hT : Tail p g T)
    (hi : Is rx (lead ind (wordsG pre p)) n names ∧ pre.all (fun w => isWord w.1) = true ∧ g ≠ 0 ∧ g ≤ n) {t : Str} (ht : Line t)
    (hf : Fits pre (lstrip t)) (conv : Option Str → Except Err α) (d : α) :
    (∃ more v, (ind = true → Spec.Indented t) ∧ splitWs t = pre.map Prod.fst ++ more ∧ T more v ∧
      matchTyped t rx g conv d = conv (some v)) ∨
    ((∀ more v, (ind = true → Spec.Indented t) → splitWs t = pre.map Prod.fst ++ more → ¬ T more v) ∧
      matchTyped t rx g conv d = .ok d) := by
  obtain ⟨hi, hl, h0, hg⟩ := hi
  rw [match_det hi h0 hg]
  obtain ⟨h1, h2⟩ := chain_tail ind hl hT ht hf []
  cases hd : (lead ind (wordsG pre p)).det t [] with
  | some q =>
    obtain ⟨more, v, a1, a2, a3, a4⟩ := h1 q hd
    exact .inl ⟨more, v, a1, a2, a3, by simp only [a4]⟩
  | none =>
    refine .inr ⟨fun more v a1 a2 a3 => ?_, rfl⟩
    obtain ⟨q, hq⟩ := h2 more v a1 a2 a3
    rw [hd] at hq
    cases hq

theorem group_match {t : Str} (ht : Line t) :
    (∃ d, Spec.Group t d ∧ d ≠ [] ∧ groupOf t = .ok d) ∨ ((∀ d, ¬ Spec.Group t d) ∧ groupOf t = .ok []) := by
  rcases match_tail (ind := true) (pre := gaps true ["hsrp"]) (n := 1) (names := []) (rx := "^\\s+hsrp\\s+(\\d+)") (tail_lead 1)
    (by decide +kernel) ht (.inl (by simp [gaps])) toStr [] with ⟨more, v, h1, h2, ⟨w, more', rfl, h3⟩, h4⟩ | ⟨h1, h2⟩
  · refine .inl ⟨v, ⟨h1 rfl, w, more', h2, h3⟩, ?_, h4⟩
    obtain ⟨_, _, hd, _⟩ := h3
    exact hd.1
  · refine .inr ⟨?_, h2⟩
    rintro d ⟨a1, w, more, a2, a3⟩
    exact h1 _ d (fun _ => a1) a2 ⟨w, more, rfl, a3⟩

theorem ip_match {t : Str} (ht : Line t) :
    (∃ a, Spec.Takes "ip" t a ∧ a ≠ [] ∧ matchTyped t "^\\s+ip\\s+(\\S+)" 1 toStr [] = .ok a) ∨
      ((∀ a, ¬ Spec.Takes "ip" t a) ∧ matchTyped t "^\\s+ip\\s+(\\S+)" 1 toStr [] = .ok []) := by
  rcases match_tail (ind := true) (pre := gaps true ["ip"]) (n := 1) (names := []) (rx := "^\\s+ip\\s+(\\S+)") (tail_next 1)
    (by decide +kernel) ht (.inl (by simp [gaps])) toStr [] with ⟨more, v, h1, h2, ⟨more', rfl⟩, h4⟩ | ⟨h1, h2⟩
  · exact .inl ⟨v, ⟨h1 rfl, more', h2⟩, (splitWs_words t v (by rw [h2]; simp)).1, h4⟩
  · refine .inr ⟨?_, h2⟩
    rintro a ⟨a1, more, a2⟩
    exact h1 _ a (fun _ => a1) a2 ⟨more, rfl⟩

theorem groups_ex (P : Parsed) : ∀ js : List Nat, ∃ gs, Spec.Groups P js gs
  | [] => ⟨[], .nil⟩
  | j :: js => by
    obtain ⟨gs, h⟩ := groups_ex P js
    rcases Classical.em (∃ d, Spec.Group (P.h j).text d) with ⟨d, hd⟩ | hd
    · exact ⟨_, .group hd h⟩
    · exact ⟨_, .other (fun d h => hd ⟨d, h⟩) h⟩

theorem first_append {α : Type} {S : Str → α → Prop} {ts us : List Str} {v w : Option α} (h1 : Spec.First S ts v)
    (h2 : Spec.First S us w) : Spec.First S (ts ++ us) (v.or w) := by
  induction ts with
  | nil => rw [show v = none from h1]; exact h2
  | cons t ts ih =>
    rcases h1 with ⟨a, h1, rfl⟩ | ⟨h1, h1'⟩
    · exact .inl ⟨a, h1, rfl⟩
    · exact .inr ⟨h1, ih h1'⟩

theorem addrIn_first : ∀ (ts : List Str), (∀ t ∈ ts, Line t) →
    ∃ v, Spec.First (Spec.Takes "ip") ts v ∧ v ≠ some [] ∧ addrIn ts = .ok (v.getD [])
  | [], _ => ⟨none, rfl, by simp, rfl⟩
  | t :: ts, h => by
    rw [addrIn]
    rcases ip_match (h t (by simp)) with ⟨a, h1, h2, h3⟩ | ⟨h1, h2⟩
    · refine ⟨some a, .inl ⟨a, h1, rfl⟩, by simpa using h2, ?_⟩
      rw [h3]
      exact if_pos h2
    · obtain ⟨v, i1, i2, i3⟩ := addrIn_first ts (fun t ht => h t (by simp [ht]))
      refine ⟨v, .inr ⟨h1, i1⟩, i2, ?_⟩
      rw [h2, ← i3]
      rfl

theorem groupOf_group {t d : Str} (ht : Line t) (h : Spec.Group t d) : ∃ g, groupOf t = .ok g ∧ g ≠ [] := by
  rcases group_match ht with ⟨g, _, h2, h3⟩ | ⟨h1, _⟩
  · exact ⟨g, h3, h2⟩
  · exact absurd h (h1 d)

theorem groupOf_other {t : Str} (ht : Line t) (h : ∀ d, ¬ Spec.Group t d) : groupOf t = .ok [] := by
  rcases group_match ht with ⟨g, h1, _⟩ | ⟨_, h2⟩
  · exact absurd h1 (h g)
  · exact h2

theorem addr_loop (hl : ∀ j, Line (P.h j).text) {js gs : List Nat} (hg : Spec.Groups P js gs) :
    ∃ v, Spec.First (Spec.Takes "ip") (gs.flatMap (Spec.kids P)) v ∧ v ≠ some [] ∧ hsrpAddrLoop P js = .ok (v.getD []) := by
  induction hg with
  | nil => exact ⟨none, rfl, by simp, rfl⟩
  | @group j js gs d hd _ ih =>
    obtain ⟨v, i1, i2, i3⟩ := ih
    obtain ⟨g, e1, e2⟩ := groupOf_group (hl _) hd
    obtain ⟨w, k1, k2, k3⟩ := addrIn_first (Spec.kids P j) (by
      intro t ht
      obtain ⟨k, _, rfl⟩ := List.mem_map.mp ht
      exact hl k)
    refine ⟨_, first_append k1 i1, ?_, ?_⟩
    · cases w with
      | none => exact i2
      | some a => exact k2
    · rw [hsrpAddrLoop, e1]
      show (if g ≠ [] then (do let a ← addrIn (childTexts P j); if a ≠ [] then .ok a else hsrpAddrLoop P js) else hsrpAddrLoop P js) = _
      rw [if_pos e2, childTexts_kids, k3]
      cases w with
      | none => exact i3
      | some a => exact if_pos (c := a ≠ []) (by simpa using k2)
  | @other j js gs hd _ ih =>
    obtain ⟨v, i1, i2, i3⟩ := ih
    refine ⟨v, i1, i2, ?_⟩
    rw [hsrpAddrLoop, groupOf_other (hl _) hd, ← i3]
    rfl

/-- The two timers of a group. -/
def timersOf (P : Parsed) (sec msec : String) : List Nat → Except Err Int
  | [] => .error .unbound
  | g :: _ => do
    let s ← iterTyped P g sec 1 toNum 0
    let ms ← iterTyped P g msec 1 toNum 0
    if s > 0 then .ok (1000 * s) else if ms > 0 then .ok ms else .ok 0

theorem loop_first (hl : ∀ j, Line (P.h j).text) {js gs : List Nat} (hg : Spec.Groups P js gs) (sec msec : String) :
    timerLoop P sec msec js = timersOf P sec msec gs := by
  induction hg with
  | nil => rfl
  | group hd _ _ =>
    obtain ⟨g, e1, e2⟩ := groupOf_group (hl _) hd
    rw [timerLoop, e1]
    exact if_pos (c := g ≠ []) e2
  | other hd _ ih =>
    rw [timerLoop, groupOf_other (hl _) hd, ← ih]
    rfl

theorem lastGroup_eq {α : Type} (hl : ∀ j, Line (P.h j).text) {js gs : List Nat} (hg : Spec.Groups P js gs) (f : Nat → Except Err α)
    (hf : ∀ j, ∃ a, f j = .ok a) : ∀ r : α, lastGroup P f r js = (gs.getLast?.map f).getD (.ok r) := by
  induction hg with
  | nil => intro r; rfl
  | @group j js gs d hd _ ih =>
    intro r
    obtain ⟨g, e1, e2⟩ := groupOf_group (hl _) hd
    obtain ⟨a, ha⟩ := hf j
    have : lastGroup P f r (j :: js) = lastGroup P f a js := by
      rw [lastGroup, e1]
      show (if g ≠ [] then (do lastGroup P f (← f j) js) else lastGroup P f r js) = _
      rw [if_pos e2, ha]
      rfl
    rw [this, ih a]
    cases gs with
    | nil => exact ha.symm
    | cons g gs =>
      rw [List.getLast?_cons_cons]
      cases hx : (g :: gs).getLast? with
      | none => simp at hx
      | some x => rfl
  | other hd _ ih =>
    intro r
    rw [lastGroup, groupOf_other (hl _) hd, ← ih r]
    rfl

/-! ## C144: the group and its address -/

/-- C144: `hsrp_group` is the number of the first group, or empty. -/
theorem C144_group (h : parse o lines = .ok P) (hn : ∀ l ∈ lines, '\n' ∉ l) (i : Nat) :
    ∃ v, Spec.First Spec.Group (Spec.kids P i) v ∧ hsrpGroup P i = .ok (v.getD []) := by
  have key : ∀ ts : List Str, (∀ t ∈ ts, Line t) → ∃ v, Spec.First Spec.Group ts v ∧ hsrpGroupT ts = .ok (v.getD []) := by
    intro ts
    induction ts with
    | nil => intro _; exact ⟨none, rfl, rfl⟩
    | cons t ts ih =>
      intro hl
      rw [hsrpGroupT]
      rcases group_match (hl t (by simp)) with ⟨d, h1, h2, h3⟩ | ⟨h1, h2⟩
      · refine ⟨some d, .inl ⟨d, h1, rfl⟩, ?_⟩
        rw [h3]
        exact if_pos (c := d ≠ []) h2
      · obtain ⟨v, i1, i2⟩ := ih (fun t ht => hl t (by simp [ht]))
        refine ⟨v, .inr ⟨h1, i1⟩, ?_⟩
        rw [h2, ← i2]
        rfl
  exact key _ (kids_line h hn i)

/-- C144: `hsrp_ip_addr` is the word behind `ip` in the first such line of a group, group by group;
`has_ip_hsrp` says whether there is one. Without an address of the interface itself there is none. -/
theorem C144_addr (h : parse o lines = .ok P) (hn : ∀ l ∈ lines, '\n' ∉ l) (i : Nat)
    (hno : ¬ ∃ t ∈ Spec.family P i, Spec.Dhcp t) {gs : List Nat} (hg : Spec.Groups P (P.h i).children gs) :
    ∃ v, Spec.First (Spec.Takes "ip") (gs.flatMap (Spec.kids P)) v ∧
      ((∃ t ∈ Spec.family P i, ∃ a, Spec.AddrLine t a) → hsrpIpAddr P i = .ok (v.getD []) ∧ hasIpHsrp P i = .ok v.isSome) ∧
      ((∀ t ∈ Spec.family P i, ∀ a, ¬ Spec.AddrLine t a) → hsrpIpAddr P i = .ok [] ∧ hasIpHsrp P i = .ok false) := by
  obtain ⟨v, h1, h2, h3⟩ := addr_loop (line_of_parse h hn) hg
  obtain ⟨k1, k2⟩ := with_addr h hn i hno [] (hsrpAddrLoop P (P.h i).children)
  refine ⟨v, h1, fun hex => ?_, fun hex => ?_⟩
  · have e : hsrpIpAddr P i = .ok (v.getD []) := (k1 hex).trans h3
    refine ⟨e, ?_⟩
    rw [hasIpHsrp, e]
    cases v with
    | none => rfl
    | some a =>
      cases a with
      | nil => exact absurd rfl h2
      | cons => rfl
  · have e : hsrpIpAddr P i = .ok [] := k2 hex
    exact ⟨e, by rw [hasIpHsrp, e]; rfl⟩

/-- C144: `has_hsrp_usebia` says whether there is a line that begins with `hsrp use-bia`. -/
theorem C144_usebia (h : parse o lines = .ok P) (hn : ∀ l ∈ lines, '\n' ∉ l) (i : Nat) :
    ∃ b, hasHsrpUsebia P i = .ok b ∧
      (b = true ↔ ∃ t ∈ Spec.family P i, ∃ v more, splitWs t = "hsrp".toList :: v :: more ∧ "use-bia".toList <+: v) := by
  have hw : IsWord "use-bia".toList := isWord_iff.mp (by decide)
  obtain ⟨b, h1, h2⟩ := tail_flag h hn i (ind := false) (pre := gaps true ["hsrp"]) (n := 1) (names := [])
    (rx := "^\\s*hsrp\\s+(use-bia)") (tail_begin 1 hw) (by decide +kernel) (fun t _ => .inl (by simp [gaps]))
    (fun t more v _ hT => by rw [hT.1]; exact hw.1)
  refine ⟨b, h1, h2.trans ?_⟩
  constructor
  · rintro ⟨t, ht, -, more, v, e1, rfl, w, more', rfl, e3⟩
    exact ⟨t, ht, w, more', e1, e3⟩
  · rintro ⟨t, ht, w, more, e1, e2⟩
    exact ⟨t, ht, fun h => (by cases h), _, _, e1, rfl, w, more, rfl, e2⟩

/-! ## C145: the settings of a group -/

theorem counts_iter {kw : String} {rx : String} (h : parse o lines = .ok P) (hn : ∀ l ∈ lines, '\n' ∉ l) (g : Nat)
    (hi : Is rx (lead true (wordsG (gaps true [kw]) (.grp 1 (.plus .digit .done) .done))) 1 [] ∧
      (gaps true [kw]).all (fun w => isWord w.1) = true ∧ (1 : Nat) ≠ 0 ∧ 1 ≤ 1) (d : Int) :
    ∃ v, Spec.First (Spec.Counts kw) (Spec.family P g) v ∧ iterTyped P g rx 1 toInt d = .ok (v.getD d) := by
  obtain ⟨v, h1, h2⟩ := tail_attr h hn g (tail_lead 1) hi (fun t _ => .inl (by simp [gaps])) toInt d (by
    rintro ws v ⟨w, more, rfl, -, -, hd, -⟩
    exact ⟨_, toInt_digits hd⟩)
  refine ⟨v, first_congr (fun t _ n => ?_) h1, h2⟩
  constructor
  · rintro ⟨a1, more, v, a2, ⟨w, more', rfl, a3⟩, a4⟩
    have hd : Spec.Digits v := by obtain ⟨_, _, hd, _⟩ := a3; exact hd
    rw [toInt_digits hd] at a4
    cases a4
    exact ⟨a1 rfl, w, more', v, a2, a3, rfl⟩
  · rintro ⟨a1, w, more, a, a2, a3, rfl⟩
    have hd : Spec.Digits a := by obtain ⟨_, _, hd, _⟩ := a3; exact hd
    exact ⟨fun _ => a1, _, a, a2, ⟨w, more, rfl, a3⟩, toInt_digits hd⟩

theorem first_unique {α : Type} {S : Str → α → Prop} (hu : ∀ t a b, S t a → S t b → a = b) {ts : List Str} {v w : Option α}
    (h : Spec.First S ts v) (h' : Spec.First S ts w) : v = w := by
  induction ts with
  | nil => rw [show v = none from h, show w = none from h']
  | cons t ts ih =>
    rcases h with ⟨a, h1, rfl⟩ | ⟨h1, h2⟩ <;> rcases h' with ⟨b, h3, rfl⟩ | ⟨h3, h4⟩
    · rw [hu t a b h1 h3]
    · exact absurd h1 (h3 a)
    · exact absurd h3 (h1 b)
    · exact ih h2 h4

theorem counts_unique {kw : String} (t : Str) (a b : Int) (h : Spec.Counts kw t a) (h' : Spec.Counts kw t b) : a = b := by
  obtain ⟨-, w, more, x, e1, e2, rfl⟩ := h
  obtain ⟨-, w', more', x', e1', e2', rfl⟩ := h'
  rw [e1] at e1'
  cases e1'
  rw [leads_unique e2 e2']

theorem priority_rx : Is "^\\s+priority\\s+(\\d+)" (lead true (wordsG (gaps true ["priority"]) (.grp 1 (.plus .digit .done) .done))) 1 [] ∧
    (gaps true ["priority"]).all (fun w => isWord w.1) = true ∧ (1 : Nat) ≠ 0 ∧ 1 ≤ 1 := by decide +kernel

/-- C145: `hsrp_priority` of an interface with HSRP is the priority of its first group, if that
group has a line `priority N` and `N` is not 100; without HSRP it is 0. -/
theorem C145_priority_partial (h : parse o lines = .ok P) (hn : ∀ l ∈ lines, '\n' ∉ l) (i : Nat) {b : Bool} (hb : hasIpHsrp P i = .ok b) :
    (b = true → ∀ g gs n, Spec.Groups P (P.h i).children (g :: gs) →
      Spec.First (Spec.Counts "priority") (Spec.family P g) (some n) → n ≠ 100 → hsrpPriority P i = .ok (some n)) ∧
    (b = false → hsrpPriority P i = .ok (some 0)) := by
  constructor
  · rintro rfl g gs n hg hf hne
    rw [hsrpPriority, hb]
    show hsrpPriorityLoop P (P.h i).children = _
    generalize (P.h i).children = js at hg
    generalize hgs : g :: gs = gg at hg
    induction hg with
    | nil => cases hgs
    | group hd _ _ =>
      cases hgs
      obtain ⟨x, e1, e2⟩ := groupOf_group (line_of_parse h hn _) hd
      obtain ⟨v, k1, k2⟩ := counts_iter h hn g priority_rx 100
      cases first_unique counts_unique hf k1
      rw [hsrpPriorityLoop, e1]
      show (if x ≠ [] then (do
        let p ← iterTyped P g "^\\s+priority\\s+(\\d+)" 1 toInt 100
        if p ≠ 100 then .ok (some p) else hsrpPriorityLoop P _) else hsrpPriorityLoop P _) = _
      rw [if_pos e2, k2]
      exact if_pos (c := n ≠ 100) hne
    | other hd _ ih =>
      rw [hsrpPriorityLoop, groupOf_other (line_of_parse h hn _) hd, ← ih hgs]
      rfl
  · rintro rfl
    rw [hsrpPriority, hb]
    rfl

/-- C145 fails for the default: if no group sets a priority other than 100, `hsrp_priority` is None,
not 100. -/
theorem C145_priority_fails (h : parse o lines = .ok P) (hn : ∀ l ∈ lines, '\n' ∉ l) (i : Nat) (hb : hasIpHsrp P i = .ok true)
    {gs : List Nat} (hg : Spec.Groups P (P.h i).children gs)
    (hd : ∀ g ∈ gs, Spec.First (Spec.Counts "priority") (Spec.family P g) none ∨
      Spec.First (Spec.Counts "priority") (Spec.family P g) (some 100)) :
    hsrpPriority P i = .ok none := by
  rw [hsrpPriority, hb]
  show hsrpPriorityLoop P (P.h i).children = _
  generalize (P.h i).children = js at hg
  induction hg with
  | nil => rfl
  | @group j js gs d hd' _ ih =>
    obtain ⟨x, e1, e2⟩ := groupOf_group (line_of_parse h hn _) hd'
    obtain ⟨v, k1, k2⟩ := counts_iter h hn j priority_rx 100
    have hv : v.getD 100 = 100 := by
      rcases hd j (by simp) with hd | hd <;> cases first_unique counts_unique hd k1 <;> rfl
    rw [hsrpPriorityLoop, e1]
    show (if x ≠ [] then (do
      let p ← iterTyped P j "^\\s+priority\\s+(\\d+)" 1 toInt 100
      if p ≠ 100 then .ok (some p) else hsrpPriorityLoop P js) else hsrpPriorityLoop P js) = _
    rw [if_pos e2, k2, hv, ← ih (fun g hg => hd g (by simp [hg]))]
    rfl
  | other hd' _ ih =>
    rw [hsrpPriorityLoop, groupOf_other (line_of_parse h hn _) hd', ← ih hd]
    rfl

theorem seconds_unique (t : Str) (a b : Int × Int) (h : Spec.Seconds t a) (h' : Spec.Seconds t b) : a = b := by
  obtain ⟨-, x, w, y, more, e1, e2, e3, rfl⟩ := h
  obtain ⟨-, x', w', y', more', e1', e2', e3', rfl⟩ := h'
  rw [e1] at e1'
  cases e1'
  rw [leads_unique e3 e3']

theorem millis_unique (t : Str) (a b : Int × Int) (h : Spec.Millis t a) (h' : Spec.Millis t b) : a = b := by
  obtain ⟨-, x, w, y, more, e1, e2, e3, rfl⟩ := h
  obtain ⟨-, x', w', y', more', e1', e2', e3', rfl⟩ := h'
  rw [e1] at e1'
  cases e1'
  rw [leads_unique e3 e3']

theorem seconds_iter (h : parse o lines = .ok P) (hn : ∀ l ∈ lines, '\n' ∉ l) (g : Nat) :
    ∃ v, Spec.First Spec.Seconds (Spec.family P g) v ∧
      iterTyped P g "^\\s+timers\\s+(\\d+)\\s+\\d+" 1 toNum 0 = .ok ((v.map Prod.fst).getD 0) ∧
      iterTyped P g "^\\s+timers\\s+\\d+\\s+(\\d+)" 1 toNum 0 = .ok ((v.map Prod.snd).getD 0) := by
  obtain ⟨v₁, h1, h2⟩ := tail_attr h hn g (ind := true) (pre := gaps true ["timers"]) (n := 1) (names := [])
    (rx := "^\\s+timers\\s+(\\d+)\\s+\\d+") (tail_cap_num 1 (ends_lead 1)) (by decide +kernel)
    (fun t _ => .inl (by simp [gaps])) toNum 0 (fun _ v h => ⟨_, toInt_digits h.1⟩)
  obtain ⟨v₂, h3, h4⟩ := tail_attr h hn g (ind := true) (pre := gaps true ["timers"]) (n := 1) (names := [])
    (rx := "^\\s+timers\\s+\\d+\\s+(\\d+)") (tail_num (tail_lead 1)) (by decide +kernel)
    (fun t _ => .inl (by simp [gaps])) toNum 0 (by
      rintro _ v ⟨_, _, _, _, _, _, _, _, _, b, _⟩
      exact ⟨_, toInt_digits b⟩)
  obtain ⟨v, b1, b2, b3⟩ := first_pair (S := Spec.Seconds) seconds_unique
    (first_congr (fun t _ a => by
      constructor
      · rintro ⟨d1, more, v, d2, ⟨d3, more', rfl, w, more'', b, rfl, d4⟩, d5⟩
        rw [toNum, toInt_digits d3] at d5
        cases d5
        exact ⟨natVal b, d1 rfl, v, w, b, more'', d2, d3, d4, rfl⟩
      · rintro ⟨m, d1, x, w, b, more, d2, d3, d4, d5⟩
        cases d5
        exact ⟨fun _ => d1, _, x, d2, ⟨d3, _, rfl, w, more, b, rfl, d4⟩, toInt_digits d3⟩) h1)
    (first_congr (fun t _ a => by
      constructor
      · rintro ⟨d1, more, v, d2, ⟨x, more', rfl, d3, w, more'', rfl, d4⟩, d5⟩
        have := toInt_digits (show Spec.Digits v by obtain ⟨_, _, d, _⟩ := d4; exact d)
        rw [toNum, this] at d5
        cases d5
        exact ⟨natVal x, d1 rfl, x, w, v, more'', d2, d3, d4, rfl⟩
      · rintro ⟨m, d1, x, w, b, more, d2, d3, d4, d5⟩
        cases d5
        exact ⟨fun _ => d1, _, b, d2, ⟨x, _, rfl, d3, w, more, rfl, d4⟩,
          toInt_digits (show Spec.Digits b by obtain ⟨_, _, d, _⟩ := d4; exact d)⟩) h3)
  exact ⟨v, b1, by rw [h2, b2], by rw [h4, b3]⟩

/-- `pre\s+p` in the middle. -/
theorem tail_word {p : Prog} {g : Nat} {T : List Str → Str → Prop} (h : Tail p g T) {w : Str} (hw : IsWord w) :
    Tail (str w (.plus .space p)) g (fun ws a => ∃ more, ws = w :: more ∧ T more a) := by
  have hc : ∀ r, lstrip r = r → ∀ c q, (str w (.plus .space p)).det r c = some q ↔
      [w] <+: splitWs r ∧ p.det (skip 1 r) c = some q := fun r h0 c q =>
    det_wordsG (l := [(w, true)]) (by simpa using hw) p h.nil h0 (.inl (by simp)) c q
  refine ⟨fun c => ?_, ?_, ?_⟩
  · rw [det_str, if_neg (fun h => hw.1 (List.prefix_nil.mp h))]
  · intro r c q h0 hl hq
    obtain ⟨h1, h2⟩ := (hc r h0 c q).mp hq
    obtain ⟨a, h3, h4⟩ := h.fwd _ c q (lstrip_skip 1 h0) (line_suffix (skip_suffix 1 r) hl) h2
    refine ⟨a, ⟨_, ?_, h3⟩, h4⟩
    rw [splitWs_skip 1 h0]
    exact prefix_append_drop h1
  · rintro r c a h0 hl ⟨more, h1, h2⟩
    obtain ⟨q, hq⟩ := h.ex (skip 1 r) c a (lstrip_skip 1 h0) (line_suffix (skip_suffix 1 r) hl) (by
      rw [splitWs_skip 1 h0, h1]; exact h2)
    exact ⟨q, (hc r h0 c q).mpr ⟨by rw [h1]; exact ⟨more, rfl⟩, hq⟩⟩

theorem millis_iter (h : parse o lines = .ok P) (hn : ∀ l ∈ lines, '\n' ∉ l) (g : Nat) :
    ∃ v, Spec.First Spec.Millis (Spec.family P g) v ∧
      iterTyped P g "^\\s+timers\\s+msec\\s+(\\d+)\\s+msec\\s+\\d+" 1 toNum 0 = .ok ((v.map Prod.fst).getD 0) ∧
      iterTyped P g "^\\s+timers\\s+msec\\s+\\d+\\s+msec\\s+(\\d+)" 1 toNum 0 = .ok ((v.map Prod.snd).getD 0) := by
  have hm : IsWord "msec".toList := isWord_iff.mp (by decide)
  obtain ⟨v₁, h1, h2⟩ := tail_attr h hn g (ind := true) (pre := gaps true ["timers", "msec"]) (n := 1) (names := [])
    (rx := "^\\s+timers\\s+msec\\s+(\\d+)\\s+msec\\s+\\d+") (tail_cap_num 1 (ends_cons (ends_lead 1) hm)) (by decide +kernel)
    (fun t _ => .inl (by simp [gaps])) toNum 0 (fun _ v h => ⟨_, toInt_digits h.1⟩)
  obtain ⟨v₂, h3, h4⟩ := tail_attr h hn g (ind := true) (pre := gaps true ["timers", "msec"]) (n := 1) (names := [])
    (rx := "^\\s+timers\\s+msec\\s+\\d+\\s+msec\\s+(\\d+)") (tail_num (tail_word (tail_lead 1) hm)) (by decide +kernel)
    (fun t _ => .inl (by simp [gaps])) toNum 0 (by
      rintro _ v ⟨_, _, _, _, _, _, _, _, _, _, _, b, _⟩
      exact ⟨_, toInt_digits b⟩)
  obtain ⟨v, b1, b2, b3⟩ := first_pair (S := Spec.Millis) millis_unique
    (first_congr (fun t _ a => by
      constructor
      · rintro ⟨d1, more, v, d2, ⟨d3, more', rfl, _, rfl, w, more'', b, rfl, d4⟩, d5⟩
        rw [toNum, toInt_digits d3] at d5
        cases d5
        exact ⟨natVal b, d1 rfl, v, w, b, more'', d2, d3, d4, rfl⟩
      · rintro ⟨m, d1, x, w, b, more, d2, d3, d4, d5⟩
        cases d5
        exact ⟨fun _ => d1, _, x, d2, ⟨d3, _, rfl, _, rfl, w, more, b, rfl, d4⟩, toInt_digits d3⟩) h1)
    (first_congr (fun t _ a => by
      constructor
      · rintro ⟨d1, more, v, d2, ⟨x, more', rfl, d3, _, rfl, w, more'', rfl, d4⟩, d5⟩
        have := toInt_digits (show Spec.Digits v by obtain ⟨_, _, d, _⟩ := d4; exact d)
        rw [toNum, this] at d5
        cases d5
        exact ⟨natVal x, d1 rfl, x, w, v, more'', d2, d3, d4, rfl⟩
      · rintro ⟨m, d1, x, w, b, more, d2, d3, d4, d5⟩
        cases d5
        exact ⟨fun _ => d1, _, b, d2, ⟨x, _, rfl, d3, _, rfl, w, more, rfl, d4⟩,
          toInt_digits (show Spec.Digits b by obtain ⟨_, _, d, _⟩ := d4; exact d)⟩) h3)
  exact ⟨v, b1, by rw [h2, b2], by rw [h4, b3]⟩

/-- C145: the timers, in milliseconds, are the ones of the first group: the first line in seconds,
or, if there is none or it is 0, the first line in milliseconds. -/
theorem C145_timers_partial (h : parse o lines = .ok P) (hn : ∀ l ∈ lines, '\n' ∉ l) (i : Nat) {g : Nat} {gs : List Nat}
    (hg : Spec.Groups P (P.h i).children (g :: gs)) :
    ∃ s m, Spec.First Spec.Seconds (Spec.family P g) s ∧ Spec.First Spec.Millis (Spec.family P g) m ∧
      hsrpHelloTimerMs P i = .ok (if 0 < (s.map Prod.fst).getD 0 then 1000 * (s.map Prod.fst).getD 0 else (m.map Prod.fst).getD 0) ∧
      hsrpHoldTimerMs P i = .ok (if 0 < (s.map Prod.snd).getD 0 then 1000 * (s.map Prod.snd).getD 0 else (m.map Prod.snd).getD 0) := by
  obtain ⟨s, s1, s2, s3⟩ := seconds_iter h hn g
  obtain ⟨m, m1, m2, m3⟩ := millis_iter h hn g
  have nn : 0 ≤ (m.map Prod.fst).getD 0 ∧ 0 ≤ (m.map Prod.snd).getD 0 := by
    cases m with
    | none => simp
    | some n =>
      obtain ⟨t, _, -, a, w, b, more, _, _, _, rfl⟩ := (first_exists m1).2 _ rfl
      simp
  have key : ∀ x y : Int, 0 ≤ y → (if x > 0 then Except.ok (1000 * x) else if y > 0 then .ok y else .ok 0 : Except Err Int) =
      .ok (if 0 < x then 1000 * x else y) := by
    intro x y hy
    by_cases hx : 0 < x
    · rw [if_pos hx, if_pos hx]
    · rw [if_neg hx, if_neg hx]
      by_cases hy' : 0 < y
      · rw [if_pos hy']
      · rw [if_neg hy', show y = 0 by omega]
  refine ⟨s, m, s1, m1, ?_, ?_⟩
  · rw [hsrpHelloTimerMs, loop_first (line_of_parse h hn) hg, timersOf, s2, m2]
    exact key _ _ nn.1
  · rw [hsrpHoldTimerMs, loop_first (line_of_parse h hn) hg, timersOf, s3, m3]
    exact key _ _ nn.2

/-- C145 fails without a group: the timers raise an exception. -/
theorem C145_timers_fails (h : parse o lines = .ok P) (hn : ∀ l ∈ lines, '\n' ∉ l) (i : Nat)
    (hg : ∀ t ∈ Spec.kids P i, ∀ d, ¬ Spec.Group t d) :
    hsrpHelloTimerMs P i = .error .unbound ∧ hsrpHoldTimerMs P i = .error .unbound := by
  have hg' : Spec.Groups P (P.h i).children [] := by
    have : ∀ j ∈ (P.h i).children, ∀ d, ¬ Spec.Group (P.h j).text d := fun j hj => hg _ (List.mem_map.mpr ⟨j, hj, rfl⟩)
    generalize (P.h i).children = js at this
    induction js with
    | nil => exact .nil
    | cons j js ih => exact .other (this j (by simp)) (ih (fun k hk => this k (by simp [hk])))
  exact ⟨by rw [hsrpHelloTimerMs, loop_first (line_of_parse h hn) hg']; rfl,
    by rw [hsrpHoldTimerMs, loop_first (line_of_parse h hn) hg']; rfl⟩

/-- C145: `hsrp_track` and `has_hsrp_preempt` are what the last group says. -/
theorem C145_last_partial (h : parse o lines = .ok P) (hn : ∀ l ∈ lines, '\n' ∉ l) (i : Nat) {g : Nat} {gs : List Nat}
    (hg : Spec.Groups P (P.h i).children (gs ++ [g])) :
    (∃ v, Spec.First (fun t d => Spec.Indented t ∧ ∃ w more, splitWs t = "track".toList :: w :: more ∧ Spec.Leads w d)
        (Spec.family P g) v ∧ hsrpTrack P i = .ok (v.getD []) ∧ hasHsrpTrack P i = .ok v.isSome) ∧
    ∃ b, hasHsrpPreempt P i = .ok b ∧
      (b = true ↔ ∃ t ∈ Spec.family P g, Spec.Indented t ∧ ∃ v more, splitWs t = v :: more ∧ "preempt".toList <+: v) := by
  have hw : IsWord "preempt".toList := isWord_iff.mp (by decide)
  have ht : ∀ g, ∃ v, Spec.First (fun t d => Spec.Indented t ∧ ∃ w more, splitWs t = "track".toList :: w :: more ∧ Spec.Leads w d)
        (Spec.family P g) v ∧ iterTyped P g "^\\s+track\\s+(\\d+)" 1 toStr [] = .ok (v.getD []) := by
    intro g
    obtain ⟨v, h1, h2⟩ := tail_attr h hn g (ind := true) (pre := gaps true ["track"]) (n := 1) (names := []) (tail_lead 1)
      (rx := "^\\s+track\\s+(\\d+)") (by decide +kernel) (fun t _ => .inl (by simp [gaps])) toStr [] (fun _ v _ => ⟨v, rfl⟩)
    refine ⟨v, first_congr (fun t _ d => ?_) h1, h2⟩
    constructor
    · rintro ⟨a1, more, v, a2, ⟨w, more', rfl, a3⟩, a4⟩
      cases a4
      exact ⟨a1 rfl, w, more', a2, a3⟩
    · rintro ⟨a1, w, more, a2, a3⟩
      exact ⟨fun _ => a1, _, d, a2, ⟨w, more, rfl, a3⟩, rfl⟩
  have hp : ∀ g, ∃ b, iterTyped P g "^\\s+(preempt)" 1 toBool false = .ok b ∧
      (b = true ↔ ∃ t ∈ Spec.family P g, Spec.Indented t ∧ ∃ v more, splitWs t = v :: more ∧ "preempt".toList <+: v) := by
    intro g
    obtain ⟨b, h1, h2⟩ := tail_flag h hn g (ind := true) (pre := []) (n := 1) (names := [])
      (rx := "^\\s+(preempt)") (tail_begin 1 hw) (by decide +kernel) (fun t _ => .inl (by simp))
      (fun t more v _ hT => by rw [hT.1]; exact hw.1)
    refine ⟨b, h1, h2.trans ?_⟩
    constructor
    · rintro ⟨t, ht, a1, more, v, e1, rfl, w, more', rfl, e3⟩
      exact ⟨t, ht, a1 rfl, w, more', e1, e3⟩
    · rintro ⟨t, ht, a1, w, more, e1, e2⟩
      exact ⟨t, ht, fun _ => a1, _, _, e1, rfl, w, more, rfl, e2⟩
  constructor
  · obtain ⟨v, h1, h2⟩ := ht g
    have e : hsrpTrack P i = .ok (v.getD []) := by
      rw [hsrpTrack, lastGroup_eq (line_of_parse h hn) hg _ (fun j => by obtain ⟨v, _, hv⟩ := ht j; exact ⟨_, hv⟩),
        List.getLast?_concat, ← h2]
      rfl
    refine ⟨v, h1, e, ?_⟩
    rw [hasHsrpTrack, e]
    cases v with
    | none => rfl
    | some a =>
      obtain ⟨t, _, -, w, more, _, _, _, hd, _⟩ := (first_exists h1).2 _ rfl
      cases a with
      | nil => exact absurd rfl hd.1
      | cons => rfl
  · obtain ⟨b, h1, h2⟩ := hp g
    refine ⟨b, ?_, h2⟩
    rw [hasHsrpPreempt, lastGroup_eq (line_of_parse h hn) hg _ (fun j => by obtain ⟨b, hb, _⟩ := hp j; exact ⟨_, hb⟩),
      List.getLast?_concat, ← h1]
    rfl

/-- C145 fails with several groups: `has_hsrp_preempt` is False whenever the last group has no such line, even if another group
has one. -/
theorem C145_preempt_fails (h : parse o lines = .ok P) (hn : ∀ l ∈ lines, '\n' ∉ l) (i : Nat) {g : Nat} {gs : List Nat}
    (hg : Spec.Groups P (P.h i).children (gs ++ [g]))
    (hno : ∀ t ∈ Spec.family P g, ∀ v more, splitWs t = v :: more → ¬ "preempt".toList <+: v) : hasHsrpPreempt P i = .ok false := by
  obtain ⟨-, b, h1, h2⟩ := C145_last_partial h hn i hg
  rw [h1]
  cases b with
  | false => rfl
  | true =>
    obtain ⟨t, ht, -, v, more, e1, e2⟩ := h2.mp rfl
    exact absurd e2 (hno t ht v more e1)

/-- Interfaces with one group, with two groups, with none and with the default priority. -/
def hsrpLines : List Str :=
  ["interface Vlan10", "  ip address 10.0.0.2/24", "  hsrp 10", "    priority 110", "    preempt", "    timers 1 3", "    track 5",
    "    ip 10.0.0.1", "interface Vlan20", "  ip address 10.0.1.2/24", "  hsrp 20 ipv4", "    preempt", "    timers msec 250 msec 750",
    "    ip 10.0.1.1", "  hsrp 21", "    ip 10.0.1.7", "interface Vlan30", "  ip address 10.0.3.2/24"].map String.toList

example : shows hsrpLines (fun P => hsrpGroup P 0 == .ok "10".toList && hsrpIpAddr P 0 == .ok "10.0.0.1".toList && hasIpHsrp P 0 == .ok true &&
    hsrpPriority P 0 == .ok (some 110) && hsrpHelloTimerMs P 0 == .ok 1000 && hsrpHoldTimerMs P 0 == .ok 3000 &&
    hsrpTrack P 0 == .ok "5".toList && hasHsrpPreempt P 0 == .ok true) = true := by
  decide +kernel

example : shows hsrpLines (fun P => hsrpGroup P 8 == .ok "20".toList && hasIpHsrp P 8 == .ok true && hsrpPriority P 8 == .ok none &&
    hsrpHelloTimerMs P 8 == .ok 250 && hsrpHoldTimerMs P 8 == .ok 750 && hasHsrpPreempt P 8 == .ok false &&
    hsrpHelloTimerMs P 16 == .error .unbound && (P.h 8).children == [9, 10, 14]) = true := by
  decide +kernel

/-- The groups of the second interface. -/
theorem hsrp_groups : ∃ P, parse { factory := true, syn := .nxos } hsrpLines = .ok P ∧ Spec.Groups P (P.h 8).children ([10] ++ [14]) := by
  obtain ⟨P, h1, h2⟩ := of_shows (lines := hsrpLines) (Q := fun P => (P.h 8).children == [9, 10, 14] &&
    (P.h 9).text == "  ip address 10.0.1.2/24".toList && (P.h 10).text == "  hsrp 20 ipv4".toList && (P.h 14).text == "  hsrp 21".toList)
    (by decide +kernel)
  simp only [Bool.and_eq_true, beq_iff_eq] at h2
  obtain ⟨⟨⟨a1, a2⟩, a3⟩, a4⟩ := h2
  refine ⟨P, h1, ?_⟩
  rw [a1]
  refine .other ?_ (.group (d := "20".toList) ?_ (.group (d := "21".toList) ?_ .nil))
  · rintro d ⟨-, w, more, e, -⟩
    rw [a2] at e
    exact absurd (List.cons.inj e).1 (by decide)
  · rw [a3]
    exact ⟨⟨' ', by decide⟩, "20".toList, ["ipv4".toList], by decide, [], by decide, ⟨by decide, by decide⟩, by simp⟩
  · rw [a4]
    exact ⟨⟨' ', by decide⟩, "21".toList, [], by decide, [], by decide, ⟨by decide, by decide⟩, by simp⟩

end Nxos

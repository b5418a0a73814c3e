import Verif.Nxos.RouteProps
import Verif.Cisco.AccessProps
import Verif.Cisco.KindProps

/-! # Which object an NXOS line becomes (C157, C158), host names, access lines and globals (C159, C160) -/

namespace Nxos.Lines

namespace Spec

open Py Cisco.Spec

/-- An ASCII letter or digit. -/
def Alnum (x : Char) : Prop := ('a' ≤ x ∧ x ≤ 'z') ∨ ('A' ≤ x ∧ x ≤ 'Z') ∨ ('0' ≤ x ∧ x ≤ '9')

/-- What makes a line a line of the class.  The last class is for all other lines. -/
def KindN (t : Str) : Cls → Prop
  | .intf => ∃ g x r, t = "interface".toList ++ g ++ x :: r ∧ g ≠ [] ∧ (∀ c ∈ g, isSpace c = true) ∧ Alnum x
  | .route => "ip route".toList <+: t ∨ "ipv6 route ".toList <+: t
  | .access => "line".toList <+: t
  | .aaaLogin => Phrase1 (wd ["aaa", "authentication", "login"]) t
  | .aaaEnable => Phrase1 (wd ["aaa", "authentication", "enable"]) t
  | .aaaCommandsAuthz => Phrase1 (wd ["aaa", "authorization", "commands"]) t
  | .aaaConsoleAuthz => Phrase (wd ["aaa", "authorization", "console"]) (strip t)
  | .aaaCommandsAcct => Phrase1 (wd ["aaa", "accounting", "commands"]) t
  | .aaaExecAcct => Phrase1 (wd ["aaa", "accounting", "exec"]) t
  | .aaaGroup => Phrase1 (wd ["aaa", "group", "server"]) t
  | .vpc => Phrase (wd ["vpc", "domain"]) t
  | .hostname => "hostname".toList <+: t
  | .intfGlobal => Phrase (wd ["no", "cdp", "run"]) t ∨ ∃ a s, t = a ++ s ∧
      (Phrase (wd ["logging", "event", "link-status", "global"]) s ∨
        Phrase1 (wd ["spanning-tree", "portfast", "default"]) s ∨
        Phrase1 (wd ["spanning-tree", "portfast", "bpduguard", "default"]) s)
  | .cfg => False

end Spec

open Py Conf Query Re Cisco Spec Cisco.Spec

/-- `[a-zA-Z0-9]`. -/
def alnum : Re.Cls := ⟨[.range 'a' 'z', .range 'A' 'Z', .range '0' '9'], false, false⟩

theorem alnum_nat (x : Char) : Alnum x ↔ (97 ≤ x.toNat ∧ x.toNat ≤ 122) ∨ (65 ≤ x.toNat ∧ x.toNat ≤ 90) ∨ (48 ≤ x.toNat ∧ x.toNat ≤ 57) :=
  Iff.rfl

theorem alnum_has (x : Char) : alnum.has x = true ↔ Alnum x := by
  rw [alnum_nat]
  simp [alnum, Re.Cls.has, Item.has]

theorem alnum_not_space {x : Char} (h : Alnum x) : isSpace x = false := by
  cases hs : isSpace x with
  | false => rfl
  | true =>
    exfalso
    rw [alnum_nat] at h
    simp only [isSpace, Bool.or_eq_true, beq_iff_eq, Bool.and_eq_true, decide_eq_true_eq] at hs
    omega

theorem isObjectFor_kind (t : Str) {c : Cls} (hc : c ≠ .cfg) :
    ∃ b, isObjectFor t c = .ok b ∧ (b = true ↔ KindN t c) := by
  have one : ∀ {rx : String} {ws : List Str}, Is rx (phrase1P ws) 0 [] → ∃ b, reTrue rx t = .ok b ∧ (b = true ↔ Phrase1 ws t) :=
    fun h => ⟨_, reTrue_det h t, det_phrase1 t []⟩
  cases c with
  | cfg => exact absurd rfl hc
  | intf =>
    have hc : compile "^interface\\s+([a-zA-Z0-9]\\S*)" = .ok ⟨seqs (.bol :: ((str "interface".toList .done).toL ++
        [.seq (.cls K.space.cls) (.star true (.cls K.space.cls)),
          .grp 1 (.seq (.cls alnum) (.star true (.cls K.nonspace.cls)))])), 1, []⟩ := by decide +kernel
    obtain ⟨b, h1, h2⟩ := reTrue_bol hc t
    refine ⟨b, h1, h2.trans ?_⟩
    simp only [lang_append, lang_str, lang_cons, lang_nil, lang_plus]
    constructor
    · rintro ⟨v, _, ⟨_, rfl, rfl⟩, _, ⟨g, rfl, h3, h4⟩, _, h5, rfl⟩
      rw [Lang, Lang] at h5
      obtain ⟨w, h5, -⟩ := h5
      obtain ⟨x, rfl, hx⟩ := h5
      exact ⟨g, x, w, by simp, h3, h4, (alnum_has x).mp hx⟩
    · rintro ⟨g, x, r, rfl, h3, h4, h5⟩
      refine ⟨r, _, ⟨g ++ x :: r, by simp, rfl⟩, x :: r, ⟨g, rfl, h3, h4⟩, r, ?_, rfl⟩
      rw [Lang, Lang]
      exact ⟨r, ⟨x, rfl, (alnum_has x).mpr h5⟩, (lang_star' _ _ _ _ _).mpr ⟨[], rfl, by simp⟩⟩
  | route =>
    refine ⟨_, rfl, ?_⟩
    rw [Bool.or_eq_true, beq_iff_eq, beq_iff_eq, KindN, List.prefix_iff_eq_take, List.prefix_iff_eq_take]
    exact or_congr eq_comm eq_comm
  | access => exact reTrue_phrase (ws := ["line".toList]) (by decide) (by decide +kernel) t
  | aaaLogin => exact one (ws := wd ["aaa", "authentication", "login"]) (by decide +kernel)
  | aaaEnable => exact one (ws := wd ["aaa", "authentication", "enable"]) (by decide +kernel)
  | aaaCommandsAuthz => exact one (ws := wd ["aaa", "authorization", "commands"]) (by decide +kernel)
  | aaaConsoleAuthz => exact reTrue_phrase (ws := wd ["aaa", "authorization", "console"]) (by decide) (by decide +kernel) _
  | aaaCommandsAcct => exact one (ws := wd ["aaa", "accounting", "commands"]) (by decide +kernel)
  | aaaExecAcct => exact one (ws := wd ["aaa", "accounting", "exec"]) (by decide +kernel)
  | aaaGroup => exact one (ws := wd ["aaa", "group", "server"]) (by decide +kernel)
  | vpc => exact reTrue_phrase (ws := wd ["vpc", "domain"]) (by decide) (by decide +kernel) t
  | hostname => exact reTrue_phrase (ws := ["hostname".toList]) (by decide) (by decide +kernel) t
  | intfGlobal => exact Cisco.isObjectFor_kind t (c := .intfGlobal) (by decide)

/-! ## A line belongs to one class -/

/-- How the first word of a line of the class begins. -/
def leadOf : Cls → Str
  | .intf => "interface".toList
  | .route => "ip".toList
  | .access => "line".toList
  | .vpc => "vpc".toList
  | .hostname => "hostname".toList
  | _ => "aaa".toList

/-- The second word, and how the third begins. -/
def second : Cls → Str × Str
  | .aaaLogin => ("authentication".toList, "login".toList)
  | .aaaEnable => ("authentication".toList, "enable".toList)
  | .aaaCommandsAuthz => ("authorization".toList, "commands".toList)
  | .aaaConsoleAuthz => ("authorization".toList, "console".toList)
  | .aaaCommandsAcct => ("accounting".toList, "commands".toList)
  | .aaaExecAcct => ("accounting".toList, "exec".toList)
  | .aaaGroup => ("group".toList, "server".toList)
  | _ => ([], [])

theorem kind_aaa {t : Str} {c : Cls} (h : KindN t c) (hc : leadOf c = "aaa".toList) (hg : c ≠ .intfGlobal) :
    ∃ v more, splitWs t = ["aaa".toList, (second c).1] ++ v :: more ∧ (second c).2 <+: v := by
  have one : ∀ b d : Str, IsWord b → IsWord d → Phrase1 ["aaa".toList, b, d] t →
      ∃ v more, splitWs t = ["aaa".toList, b] ++ v :: more ∧ d <+: v := by
    intro b d hb hd h
    exact phrase_words (ws := ["aaa".toList, b]) (by
      intro w hw
      rcases List.mem_cons.mp hw with rfl | hw
      · decide
      · rw [List.mem_singleton.mp hw]; exact hb) hd (phrase_of_one h)
  cases c with
  | cfg => exact h.elim
  | intfGlobal => exact absurd rfl hg
  | intf => exact absurd hc (by decide)
  | route => exact absurd hc (by decide)
  | access => exact absurd hc (by decide)
  | vpc => exact absurd hc (by decide)
  | hostname => exact absurd hc (by decide)
  | aaaLogin => exact one _ _ (by decide) (by decide) h
  | aaaEnable => exact one _ _ (by decide) (by decide) h
  | aaaCommandsAuthz => exact one _ _ (by decide) (by decide) h
  | aaaConsoleAuthz => exact Cisco.kind_aaa (c := .aaaConsoleAuthz) h rfl (by decide)
  | aaaCommandsAcct => exact one _ _ (by decide) (by decide) h
  | aaaExecAcct => exact one _ _ (by decide) (by decide) h
  | aaaGroup => exact one _ _ (by decide) (by decide) h

theorem kind_lead {t : Str} {c : Cls} (h : KindN t c) (hg : c ≠ .intfGlobal) :
    ∃ v more, splitWs t = v :: more ∧ leadOf c <+: v := by
  by_cases hc : leadOf c = "aaa".toList
  · obtain ⟨v, more, h1, _⟩ := kind_aaa h hc hg
    exact ⟨_, _, h1, by rw [hc]; exact List.prefix_refl _⟩
  · cases c with
    | intf =>
      obtain ⟨g, x, r, rfl, -⟩ := h
      refine first_begins (by decide) ?_
      rw [List.append_assoc]
      exact List.prefix_append _ _
    | route =>
      refine first_begins (by decide) ?_
      rcases h with h | h
      · exact List.IsPrefix.trans (by decide) h
      · exact List.IsPrefix.trans (by decide) h
    | access => exact first_begins (by decide) h
    | vpc => exact first_begins (by decide) (phrase_head h)
    | hostname => exact first_begins (by decide) h
    | _ => exact absurd rfl hc

/-- A line belongs to at most one class, interface globals aside. -/
theorem kind_unique {t : Str} {c d : Cls} (hc : KindN t c) (hd : KindN t d) (gc : c ≠ .intfGlobal) (gd : d ≠ .intfGlobal) :
    c = d := by
  obtain ⟨v, more, h1, h2⟩ := kind_lead hc gc
  obtain ⟨v', more', h1', h2'⟩ := kind_lead hd gd
  rw [h1, List.cons.injEq] at h1'
  obtain ⟨rfl, _⟩ := h1'
  have hl := prefix_both h2 h2'
  by_cases ha : leadOf c = "aaa".toList ∧ leadOf d = "aaa".toList
  · obtain ⟨v, more, h1, h2⟩ := kind_aaa hc ha.1 gc
    obtain ⟨v', more', h1', h2'⟩ := kind_aaa hd ha.2 gd
    rw [h1] at h1'
    simp only [List.cons_append, List.nil_append, List.cons.injEq] at h1'
    obtain ⟨_, h3, rfl, _⟩ := h1'
    have h4 := prefix_both h2 h2'
    cases c <;> first | exact absurd ha.1 (by decide) | exact absurd rfl gc | exact hc.elim | skip
    all_goals
      cases d <;> first | rfl | exact absurd ha.2 (by decide) | exact absurd rfl gd | exact hd.elim | exact absurd h3 (by decide) | exact absurd h4 (by decide)
  · cases c <;> first | exact absurd rfl gc | exact hc.elim | skip
    all_goals
      cases d <;> first | rfl | exact absurd rfl gd | exact hd.elim | exact absurd hl (by decide) | exact absurd ⟨rfl, rfl⟩ ha

theorem firstCls_skip {t : Str} {c : Cls} (h : isObjectFor t c = .ok false) (cs : List Cls) :
    firstCls t (c :: cs) = firstCls t cs := by
  rw [firstCls, h]; rfl

theorem firstCls_take {t : Str} {c : Cls} (h : isObjectFor t c = .ok true) (cs : List Cls) :
    firstCls t (c :: cs) = (construct t c).map (fun _ => some c) := by
  rw [firstCls, h]
  show (do construct t c; Except.ok (some c) : Except Err (Option Cls)) = _
  cases construct t c <;> rfl

theorem skip_none {t : Str} (pre cs : List Cls) (h : ∀ d ∈ pre, d ≠ .cfg ∧ ¬ KindN t d) :
    firstCls t (pre ++ cs) = firstCls t cs := by
  induction pre with
  | nil => rfl
  | cons d pre ih =>
    obtain ⟨hd, hk⟩ := h d (by simp)
    obtain ⟨b, h1, h2⟩ := isObjectFor_kind t hd
    have : b = false := by
      cases b with
      | false => rfl
      | true => exact absurd (h2.mp rfl) hk
    rw [this] at h1
    rw [List.cons_append, firstCls_skip h1]
    exact ih (fun e he => h e (by simp [he]))

theorem take_kind {t : Str} {c : Cls} (hc : c ≠ .cfg) (h : KindN t c) (cs : List Cls) :
    firstCls t (c :: cs) = (construct t c).map (fun _ => some c) := by
  obtain ⟨b, h1, h2⟩ := isObjectFor_kind t hc
  rw [h2.mpr h] at h1
  exact firstCls_take h1 cs

theorem split_classes (c : Cls) : ∃ pre post, classes = pre ++ c :: post ∧ c ∉ pre ∧ (c ≠ .cfg → .cfg ∉ pre) ∧
    (.intfGlobal ∈ pre → c = .cfg) := by
  refine ⟨classes.takeWhile (· != c), (classes.dropWhile (· != c)).tail, ?_⟩
  cases c <;> decide

/-- Both expressions for routes compile. -/
theorem route_compiles (b : Bool) :
    (compileL (if b then reIpv6Route else reIpRoute) { verbose := true }).toOption.isSome = true := by
  cases b <;> decide +kernel

theorem routeInfo_cases (t : Str) : (∃ d, routeInfo t = .ok d) ∨ routeInfo t = .error .valueError := by
  have h := route_compiles (isV6 t)
  rw [routeInfo]
  cases hc : compileL (if isV6 t then reIpv6Route else reIpRoute) { verbose := true } with
  | error e => rw [hc] at h; cases h
  | ok p =>
    dsimp only
    cases search p t with
    | none => exact Or.inr rfl
    | some m => exact Or.inl ⟨_, rfl⟩

/-- The constructors raise ValueError or nothing. -/
theorem construct_cases (t : Str) (c : Cls) :
    construct t c = .ok () ∨ ((c = .route ∨ c = .aaaGroup) ∧ construct t c = .error .valueError) := by
  cases c with
  | route =>
    rcases routeInfo_cases (lineText t) with ⟨d, h⟩ | h
    · left; rw [construct, h]; rfl
    · right; refine ⟨Or.inl rfl, ?_⟩; rw [construct, h]; rfl
  | aaaGroup =>
    rcases aaaGroup_cases (lineText t) with ⟨d, h⟩ | h
    · left; rw [construct, h]; rfl
    · right; refine ⟨Or.inr rfl, ?_⟩; rw [construct, h]; rfl
  | _ => exact Or.inl rfl

theorem first_of_kind {t : Str} {c : Cls} (h : KindN t c) (hg : c ≠ .intfGlobal) :
    firstCls t classes = (construct t c).map (fun _ => some c) := by
  have hc : c ≠ .cfg := by rintro rfl; exact h
  obtain ⟨pre, post, he, h1, h2, h3⟩ := split_classes c
  rw [he, skip_none, take_kind hc h]
  intro d hd
  refine ⟨fun e => h2 hc (e ▸ hd), fun hk => h1 ?_⟩
  have : d ≠ .intfGlobal := fun e => hc (h3 (e ▸ hd))
  rw [kind_unique h hk hg this]
  exact hd

/-- C157: a line of a class becomes an object of that class, unless it is a route or an AAA
server group that the constructor refuses with ValueError. -/
theorem C157_class {t : Str} {c : Cls} (h : KindN t c) (hg : c ≠ .intfGlobal) :
    lineFactory t = .ok (some c) ∨ ((c = .route ∨ c = .aaaGroup) ∧ lineFactory t = .error .valueError) := by
  have e := first_of_kind h hg
  rcases construct_cases t c with h4 | ⟨h4, h5⟩
  · left; rw [lineFactory, e, h4]; rfl
  · right; rw [lineFactory, e, h5]; exact ⟨h4, rfl⟩

/-- C157: an interface global, if the line is of no other class. -/
theorem C157_global {t : Str} (h : KindN t .intfGlobal) (hn : ∀ c, c ≠ .intfGlobal → ¬ KindN t c) :
    lineFactory t = .ok (some .intfGlobal) := by
  obtain ⟨pre, post, he, h1, h2, h3⟩ := split_classes .intfGlobal
  have e : firstCls t classes = (construct t .intfGlobal).map (fun _ => some .intfGlobal) := by
    rw [he, skip_none, take_kind (by decide) h]
    intro d hd
    refine ⟨fun e => h2 (by decide) (e ▸ hd), hn d ?_⟩
    rintro rfl
    exact h1 hd
  rw [lineFactory, e]
  rfl

/-- C157: every other line becomes an ordinary configuration line. -/
theorem C157_other {t : Str} (h : ∀ c, ¬ KindN t c) : lineFactory t = .ok (some .cfg) := by
  have e : firstCls t classes = firstCls t [.cfg] := by
    rw [show classes = classes.dropLast ++ [.cfg] from rfl, skip_none]
    intro d hd
    exact ⟨(by decide : ∀ d ∈ classes.dropLast, d ≠ .cfg) d hd, h d⟩
  rw [lineFactory, e]
  rfl

/-- C157: whatever the line is, the class found is the one it belongs to; the only exception
is ValueError, for routes and AAA server groups. -/
theorem C157_sound (t : Str) :
    (∃ c, lineFactory t = .ok (some c) ∧ (KindN t c ∨ (c = .cfg ∧ ∀ d, ¬ KindN t d))) ∨
    (lineFactory t = .error .valueError ∧ (KindN t .route ∨ KindN t .aaaGroup)) := by
  by_cases h : ∃ c, c ≠ .intfGlobal ∧ KindN t c
  · obtain ⟨c, hg, hk⟩ := h
    rcases C157_class hk hg with h1 | ⟨h1, h2⟩
    · exact Or.inl ⟨c, h1, Or.inl hk⟩
    · refine Or.inr ⟨h2, ?_⟩
      rcases h1 with rfl | rfl
      · exact Or.inl hk
      · exact Or.inr hk
  · have hn : ∀ c, c ≠ .intfGlobal → ¬ KindN t c := fun c hc hk => h ⟨c, hc, hk⟩
    by_cases hg : KindN t .intfGlobal
    · exact Or.inl ⟨_, C157_global hg hn, Or.inl hg⟩
    · refine Or.inl ⟨.cfg, C157_other ?_, Or.inr ⟨rfl, ?_⟩⟩ <;>
      · intro c hk
        by_cases hc : c = .intfGlobal
        · exact hg (hc ▸ hk)
        · exact hn c hc hk

/-- C157: the static routes of C155 become route objects. -/
theorem C157_route {R : Spec.Route} (h : R.Ok) : lineFactory R.line = .ok (some .route) := by
  have hw : ∀ w ∈ R.words, IsWord w := by
    have num : ∀ (kw : List String) (o : Option Nat), (∀ k ∈ wd kw, IsWord k) → ∀ w ∈ param kw (o.map natStr), IsWord w := by
      intro kw o hk w hw
      cases o with
      | none => cases hw
      | some n =>
        rcases List.mem_append.mp hw with hw | hw
        · exact hk w hw
        · rw [List.mem_singleton.mp hw]
          exact ⟨natStr_ne_nil n, fun c hc => digit_not_space (natStr_digits n c hc)⟩
    have prm : ∀ (kw : List String) (o : Option Str), (∀ k ∈ wd kw, IsWord k) → (∀ v, o = some v → IsWord v) →
        ∀ w ∈ param kw o, IsWord w := by
      intro kw o hk ho w hw
      cases o with
      | none => cases hw
      | some n =>
        rcases List.mem_append.mp hw with hw | hw
        · exact hk w hw
        · rw [List.mem_singleton.mp hw]; exact ho n rfl
    intro w hw
    rw [Spec.Route.words, Spec.Route.tail] at hw
    simp only [List.mem_append, List.mem_cons] at hw
    rcases hw with hw | rfl | hw | hw | hw | hw | hw | hw
    · exact (by decide : ∀ w ∈ wd ["ip", "route"], IsWord w) w hw
    · have := (Cisco.quad_word h.pfx).1
      refine ⟨by simp, ?_⟩
      intro c hc
      rcases List.mem_append.mp hc with hc | hc
      · exact this.2 c hc
      · rcases List.mem_cons.mp hc with rfl | hc
        · decide
        · exact digit_not_space (natStr_digits _ c hc)
    · exact prm _ _ (by decide) (fun v hv => (h.intf v hv).1) w hw
    · exact prm _ _ (by decide) (fun v hv => (Cisco.quad_word (h.addr v hv)).1) w hw
    · exact num _ _ (by decide) w hw
    · exact prm _ _ (by decide) h.name w hw
    · exact num _ _ (by decide) w hw
    · exact num _ _ (by decide) w hw
  have hr : rstrip R.line = R.line := rstrip_of_last (Diff.join_last hw)
  have hk : KindN R.line .route := by
    left
    rw [Spec.Route.line, Spec.Route.words]
    refine ⟨tl ((R.pfx ++ '/' :: natStr R.len) :: (param [] R.intf ++ (param [] R.addr ++ R.tail))), ?_⟩
    rw [show wd ["ip", "route"] ++ (R.pfx ++ '/' :: natStr R.len) :: (param [] R.intf ++ (param [] R.addr ++ R.tail)) =
      "ip".toList :: "route".toList :: (R.pfx ++ '/' :: natStr R.len) :: (param [] R.intf ++ (param [] R.addr ++ R.tail)) from rfl,
      join_tl, tl_cons]
    rfl
  rw [lineFactory, first_of_kind hk (by decide), construct, lineText, hr, route_info h]
  rfl

/-! ## Not vacuous -/

example : ([("interface Ethernet1/1", Cls.intf), ("ip route 10.0.0.0/8 Null0", .route), ("ipv6 route 2001:db8::/32 Null0", .route),
    ("line vty", .access), ("aaa authentication login default group TAC local", .aaaLogin),
    ("aaa authorization commands default group TAC", .aaaCommandsAuthz), ("aaa group server tacacs+ TAC", .aaaGroup),
    ("vpc domain 10", .vpc), ("hostname n1", .hostname), ("no cdp run", .intfGlobal), ("feature vpc", .cfg),
    ("interface", .cfg)]).all (fun q => lineFactory q.1.toList == .ok (some q.2)) = true := by decide +kernel

/-! ## C158: where it fails -/

/-- C158: there is an object for every line that is no route and no AAA server group. -/
theorem C158_total_partial {t : Str} (hr : ¬ "ip route".toList <+: t) (h6 : ¬ "ipv6 route ".toList <+: t)
    (ha : ¬ Phrase1 (wd ["aaa", "group", "server"]) t) : ∃ c, lineFactory t = .ok (some c) := by
  rcases C157_sound t with ⟨c, h, -⟩ | ⟨-, h | h⟩
  · exact ⟨c, h⟩
  · rcases h with h | h
    · exact absurd h hr
    · exact absurd h h6
  · exact absurd h ha

example : ¬ "ip route".toList <+: "interface Vlan10".toList := by decide

theorem rstrip_behind {x : Char} (hx : isSpace x = false) (a r : Str) : rstrip (a ++ x :: r) = a ++ x :: rstrip r := by
  have : ∀ u v : Str, (u ++ x :: v).dropWhile isSpace = u.dropWhile isSpace ++ x :: v := by
    intro u v
    induction u with
    | nil => rw [List.nil_append, List.dropWhile_cons_of_neg (by simp [hx])]; rfl
    | cons y u ih =>
      cases hy : isSpace y with
      | true => rw [List.cons_append, List.dropWhile_cons_of_pos hy, List.dropWhile_cons_of_pos hy, ih]
      | false => rw [List.cons_append, List.dropWhile_cons_of_neg (by simp [hy]), List.dropWhile_cons_of_neg (by simp [hy])]; rfl
  rw [rstrip, rstrip, List.reverse_append, List.reverse_cons, List.append_assoc, List.singleton_append, this]
  simp

/-- C158: every line of which `ip route` is only a part of the first words (`ip router ospf 1`):
ValueError. -/
theorem C158_word_fails {x : Char} (r : Str) (hx : isSpace x = false) :
    lineFactory ("ip route".toList ++ x :: r) = .error .valueError := by
  have hk : KindN ("ip route".toList ++ x :: r) .route := Or.inl (List.prefix_append _ _)
  obtain ⟨r', hl⟩ : ∃ r', lineText ("ip route".toList ++ x :: r) = "ip route".toList ++ x :: r' := by
    exact ⟨rstrip r, rstrip_behind hx _ r⟩
  have hs : routeInfo ("ip route".toList ++ x :: r') = .error .valueError := by
    rw [routeInfo, show isV6 ("ip route".toList ++ x :: r') = false from rfl, if_neg (by simp), route_compile]
    dsimp only
    have : (search ⟨seqs (.bol :: routeL), 8, routeNames⟩ ("ip route".toList ++ x :: r')).isSome ≠ true := by
      rw [Ne, search_lang, routeL]
      rintro ⟨v, hv⟩
      rw [lang_append] at hv
      obtain ⟨w, hv, -⟩ := hv
      rw [lang_str] at hv
      obtain ⟨u, h1, hv⟩ := hv
      have hu : u = ' ' :: ("route".toList ++ x :: r') := by
        have := List.append_cancel_left (as := "ip".toList) (bs := ' ' :: ("route".toList ++ x :: r')) h1
        exact this.symm
      rw [Prog.toL, lang_cons] at hv
      obtain ⟨w1, h2, hv⟩ := hv
      rw [lang_plus] at h2
      obtain ⟨g, h3, h4, h5⟩ := h2
      rw [lang_str] at hv
      obtain ⟨u2, rfl, hv⟩ := hv
      have hg : u2 = x :: r' := by
        rw [hu] at h3
        have := gap_unique (y := 'r') (z := 'r') (s := "oute".toList ++ x :: r') (u := "oute".toList ++ u2) [' '] g (by decide) h5
          (by decide) (by decide) h3
        exact (List.append_cancel_left (as := "route".toList) (bs := x :: r') this).symm
      rw [netP, Prog.toL, lang_cons, hg] at hv
      obtain ⟨w2, h6, -⟩ := hv
      rw [lang_plus] at h6
      obtain ⟨g2, h7, h8, h9⟩ := h6
      obtain ⟨y, g2, rfl⟩ := List.exists_cons_of_ne_nil h8
      rw [List.cons_append, List.cons.injEq] at h7
      have := h9 y (by simp)
      rw [← h7.1, show K.space.has x = isSpace x from rfl, hx] at this
      cases this
    cases hc : search ⟨seqs (.bol :: routeL), 8, routeNames⟩ ("ip route".toList ++ x :: r') with
    | none => rfl
    | some m => rw [hc] at this; exact absurd rfl this
  rw [lineFactory, first_of_kind hk (by decide), construct, hl, hs]
  rfl

/-- C158: commands of NXOS that no object is made for: ValueError. -/
theorem C158_refused_fails :
    lineFactory "ip route static bfd Ethernet1/1 10.1.1.1".toList = .error .valueError ∧
    lineFactory "aaa group server radius".toList = .error .valueError := by
  decide +kernel

/-- C158: a description that mentions a global default is a global default. -/
theorem C158_global_fails : lineFactory " description spanning-tree portfast default".toList = .ok (some .intfGlobal) := by
  decide +kernel

/-! ## C159, C160: host names, access lines and globals -/

/-- C159: the host name is the word behind hostname. -/
theorem C159_hostname {t : Str} (h : "hostname".toList <+: t) :
    (∀ v, Next ["hostname"] t v → hostname t = .ok v) ∧ ((∀ v, ¬ Next ["hostname"] t v) → hostname t = .ok []) :=
  C82_hostname h

/-- C159: the name of an access line is the word behind line, if it has no digit. -/
theorem C159_name {t : Str} (h : "line".toList <+: t) :
    (∀ v, Next ["line"] t v → isAccessline t = .ok true ∧
      ((∃ x ∈ v, isDigit x = true) → accessName t = .ok []) ∧ ((∀ x ∈ v, isDigit x = false) → accessName t = .ok v)) ∧
    ((∀ v, ¬ Next ["line"] t v) → isAccessline t = .ok false ∧ accessName t = .ok []) :=
  C82_name h

/-- C159: the range of an access line: the one or two numbers behind its words. -/
theorem C159_range {t : Str} (h : "line".toList <+: t) (hr : rstrip t = t) {ks : List Str} {ns : List Nat}
    (hs : splitWs t = ks ++ ns.map natStr) (hk : ∀ v ∈ ks, ∀ x ∈ v, isLetter x = true)
    (hn : ns.length = 1 ∨ ns.length = 2) :
    accessRange t = .ok (ns.map (fun (n : Nat) => (n : Int))) ∧ accessRangeStr t = .ok (join [' '] (ns.map natStr)) := by
  have hdg : ∀ v ∈ ns.map natStr, Digits v := by
    intro v hv
    obtain ⟨m, _, rfl⟩ := List.mem_map.mp hv
    exact ⟨natStr_ne_nil m, natStr_digits m⟩
  refine ⟨?_, C82_range_str h hr hs hk hn⟩
  rw [show accessRange t = _ from C82_range h hr hs hk hdg (by simpa using hn)]
  simp [natVal_natStr, Function.comp_def]

/-- C159: the flags of a line with a global default. -/
theorem C159_global (t : Str) :
    (∃ b, hasCdpDisabled t = .ok b ∧ (b = true ↔ Phrase (wd ["no", "cdp", "run"]) t)) ∧
    (∃ b, hasIntfLoggingDef t = .ok b ∧ (b = true ↔ Phrase (wd ["logging", "event", "link-status", "global"]) t)) ∧
    (∃ b, hasStpPortfastBpduguardDef t = .ok b ∧
      (b = true ↔ Phrase1 (wd ["spanning-tree", "portfast", "bpduguard", "default"]) t)) ∧
    (∃ b, hasStpModeRapidpvst t = .ok b ∧ (b = true ↔ Phrase1 (wd ["spanning-tree", "mode", "rapid-pvst"]) t)) := by
  obtain ⟨h1, h2, -, h3, h4⟩ := C84_global t
  exact ⟨h1, h2, h3, h4⟩

/-- C160: `parse_exectimeout` has the numbers of the first exec-timeout line. -/
theorem C160_exectimeout_partial {o : Opts} {lines : List Str} {P : Parsed} (h : parse o lines = .ok P)
    (hn : ∀ l ∈ lines, '\n' ∉ l) (i : Nat) :
    ∃ ns, First Timeout (family P i) ns ∧
      parseExectimeout P i = .ok ((ns.getD []).map (fun v => (natVal v : Int))) :=
  C82_exectimeout h hn i

/-- C160: `manual_exectimeout_minutes` and `manual_exectimeout_seconds` always raise an exception. -/
theorem C160_minutes_fails (P : Parsed) (i : Nat) :
    (∃ e, exectimeoutMinutes P i = .error e) ∧ ∃ e, exectimeoutSeconds P i = .error e := by
  constructor
  · rw [exectimeoutMinutes]
    cases iterTyped P i "^\\s*exec-timeout\\s+(\\d+\\s*\\d*)\\s*$" 1 toStr [] with
    | error e => exact ⟨e, rfl⟩
    | ok r => exact ⟨_, rfl⟩
  · rw [exectimeoutSeconds]
    cases iterTyped P i "^\\s*exec-timeout\\s+(\\d+\\s*\\d*)\\s*$" 1 toStr [] with
    | error e => exact ⟨e, rfl⟩
    | ok r => exact ⟨_, rfl⟩

/-- C160: `repr` of a line object asks for `name` and `range_str`; they are there for every access
line, but the range is lost with numbers of the form slot/port. -/
theorem C160_range_fails : accessRange "line 0/1/0 0/1/4".toList = .ok [4] := by decide +kernel

example : hostname "hostname n1".toList = .ok "n1".toList ∧ accessName "line vty 0 4".toList = .ok "vty".toList ∧
    accessRange "line vty 0 4".toList = .ok [0, 4] ∧ accessRangeStr "line console 0".toList = .ok "0".toList ∧
    hasStpModeRapidpvst "spanning-tree mode rapid-pvst".toList = .ok true := by decide +kernel

example : ((parse {} ["line vty".toList, "  exec-timeout 10 30".toList]).toOption.map (fun P => parseExectimeout P 0 == .ok [10, 30])) =
    some true := by decide +kernel

end Nxos.Lines

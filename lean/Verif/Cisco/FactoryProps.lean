import Verif.Cisco.FactoryLemmas
import Verif.Cisco.Props

/-! # Which object a line becomes (C77, C78, C80) -/

namespace Cisco

open Py Conf Query Re Spec

theorem reTrue_phrase {rx : String} {ws : List Str} (hws : ∀ w ∈ ws, IsWord w) (h : Is rx (phraseP ws) 0 []) (t : Str) :
    ∃ b, reTrue rx t = .ok b ∧ (b = true ↔ Phrase ws t) := ⟨_, reTrue_det h t, det_phrase hws t []⟩

/-- The expression for interface globals, as alternatives. -/
def globalRx : Rgx :=
  .alt (.seq .bol (.grp 1 (seqs (phraseP (wd ["no", "cdp", "run"])).toL)))
    (.alt (.grp 2 (seqs (phraseP (wd ["logging", "event", "link-status", "global"])).toL))
      (.alt (.grp 3 (seqs (phrase1P (wd ["spanning-tree", "portfast", "default"])).toL))
        (.grp 4 (seqs (phrase1P (wd ["spanning-tree", "portfast", "bpduguard", "default"])).toL))))

theorem isObjectFor_kind (t : Str) {c : LineCls} (hc : c ≠ .cfg) :
    ∃ b, isObjectFor t c = .ok b ∧ (b = true ↔ Kind t c) := by
  cases c with
  | cfg => exact absurd rfl hc
  | intf =>
    refine ⟨_, rfl, ?_⟩
    rw [beginsWith, parts_eq, beq_iff_eq]
    constructor
    · intro h
      cases hs : splitWs t with
      | nil => rw [hs] at h; cases h
      | cons w ws =>
        rw [hs] at h
        have : [w] = Cisco.ws ["interface"] := h
        rw [Cisco.ws, List.map_cons, List.map_nil, List.cons.injEq] at this
        exact ⟨ws, by rw [hs, this.1]⟩
    · rintro ⟨more, hm⟩
      rw [hm]; rfl
  | route =>
    refine ⟨_, rfl, ?_⟩
    rw [Bool.or_eq_true, beq_iff_eq, beq_iff_eq, Kind, List.prefix_iff_eq_take, List.prefix_iff_eq_take]
    exact or_congr eq_comm eq_comm
  | access => exact reTrue_phrase (ws := ["line".toList]) (by decide) (by decide +kernel) t
  | aaaLogin => exact reTrue_phrase (ws := wd ["aaa", "authentication", "login"]) (by decide) (by decide +kernel) _
  | aaaEnable => exact reTrue_phrase (ws := wd ["aaa", "authentication", "enable"]) (by decide) (by decide +kernel) _
  | aaaCommandsAuthz => exact reTrue_phrase (ws := wd ["aaa", "authorization", "commands"]) (by decide) (by decide +kernel) _
  | aaaConsoleAuthz => exact reTrue_phrase (ws := wd ["aaa", "authorization", "console"]) (by decide) (by decide +kernel) _
  | aaaCommandsAcct => exact reTrue_phrase (ws := wd ["aaa", "accounting", "commands"]) (by decide) (by decide +kernel) _
  | aaaExecAcct => exact reTrue_phrase (ws := wd ["aaa", "accounting", "exec"]) (by decide) (by decide +kernel) _
  | aaaGroup =>
    exact ⟨_, reTrue_det (p := phrase1P (wd ["aaa", "group", "server"])) (n := 0) (names := []) (by decide +kernel) t,
      det_phrase1 t []⟩
  | hostname => exact reTrue_phrase (ws := ["hostname".toList]) (by decide) (by decide +kernel) t
  | intfGlobal =>
    have hc : compile "^(no\\s+cdp\\s+run)|(logging\\s+event\\s+link-status\\s+global)|(spanning-tree\\sportfast\\sdefault)|(spanning-tree\\sportfast\\sbpduguard\\sdefault)"
        = .ok ⟨globalRx, 4, []⟩ := by decide +kernel
    rw [isObjectFor, reTrue, reSearch, hc]
    refine ⟨_, rfl, ?_⟩
    rw [Option.isSome_map, search, searchFrom_some]
    have alts : ∀ u, run t.length globalRx u [] ≠ [] ↔ (u.length = t.length ∧ Phrase (wd ["no", "cdp", "run"]) u) ∨
        (Phrase (wd ["logging", "event", "link-status", "global"]) u ∨
        Phrase1 (wd ["spanning-tree", "portfast", "default"]) u ∨
        Phrase1 (wd ["spanning-tree", "portfast", "bpduguard", "default"]) u) := by
      intro u
      rw [globalRx, run_alt, run_alt, run_alt, run_grp, run_grp, run_grp, run_prog _ (by decide), run_prog _ (by decide),
        run_prog _ (by decide), det_phrase (by decide), det_phrase1, det_phrase1]
      refine or_congr ?_ Iff.rfl
      rw [run, run]
      by_cases hl : u.length = t.length
      · rw [if_pos hl, List.flatMap_singleton, run_grp, run_prog _ (by decide), det_phrase (by decide)]
        simp [hl]
      · rw [if_neg hl]
        simp [hl]
    constructor
    · rintro ⟨a, u, rfl, h⟩
      rcases (alts u).mp h with ⟨h1, h2⟩ | h2
      · left
        have : a = [] := by
          rw [List.length_append] at h1
          exact List.length_eq_zero_iff.mp (by omega)
        rw [this]; exact h2
      · exact Or.inr ⟨a, u, rfl, h2⟩
    · rintro (h | ⟨a, u, rfl, h⟩)
      · exact ⟨[], t, rfl, (alts t).mpr (Or.inl ⟨rfl, h⟩)⟩
      · exact ⟨a, u, rfl, (alts u).mpr (Or.inr h)⟩

/-! ## A line belongs to one class -/

theorem first_begins {l t : Str} (hl : IsWord l) (h : l <+: t) : ∃ v more, splitWs t = v :: more ∧ l <+: v := by
  obtain ⟨r, rfl⟩ := h
  refine ⟨l ++ r.takeWhile (fun c => !isSpace c), splitWs (r.dropWhile (fun c => !isSpace c)), ?_, List.prefix_append _ _⟩
  have hw : IsWord (l ++ r.takeWhile (fun c => !isSpace c)) := by
    refine ⟨by simp [hl.1], ?_⟩
    intro c hc
    rcases List.mem_append.mp hc with hc | hc
    · exact hl.2 c hc
    · simpa using of_mem_takeWhile hc
  have e : l ++ r = (l ++ r.takeWhile (fun c => !isSpace c)) ++ r.dropWhile (fun c => !isSpace c) := by simp
  rw [e]
  cases hd : r.dropWhile (fun c => !isSpace c) with
  | nil => rw [List.append_nil, splitWs_word hw]; rfl
  | cons x s =>
    have hx : isSpace x = true := by
      have := List.head?_dropWhile_not (fun c => !isSpace c) r
      rw [hd] at this
      simpa using this
    rw [splitWs_word_space hw hx]
    congr 1
    exact (splitWs_spaces [x] s (by simp [hx])).symm

theorem phrase_words {ws : List Str} {l : Str} (hws : ∀ w ∈ ws, IsWord w) (hl : IsWord l) {t : Str} (h : Phrase (ws ++ [l]) t) :
    ∃ v more, splitWs t = ws ++ v :: more ∧ l <+: v := by
  induction ws generalizing t with
  | nil => exact first_begins hl h
  | cons w ws ih =>
    have hw := hws w (by simp)
    have key : ∀ v vs, Phrase (w :: v :: vs) t → ∃ r, splitWs t = w :: splitWs r ∧ Phrase (v :: vs) r := by
      rintro v vs ⟨g, r, rfl, hg, hs, hp⟩
      refine ⟨r, ?_, hp⟩
      obtain ⟨x, g', rfl⟩ := List.exists_cons_of_ne_nil hg
      rw [List.append_assoc, List.cons_append, splitWs_word_space hw (hs x (by simp)),
        splitWs_spaces _ _ (fun c hc => hs c (by simp [hc]))]
    cases ws with
    | nil =>
      obtain ⟨r, hr, hp⟩ := key l [] h
      obtain ⟨v, more, h1, h2⟩ := ih (by simp) hp
      exact ⟨v, more, by rw [hr, h1]; rfl, h2⟩
    | cons u ws =>
      obtain ⟨r, hr, hp⟩ := key u (ws ++ [l]) h
      obtain ⟨v, more, h1, h2⟩ := ih (fun w hw => hws w (by simp [hw])) hp
      exact ⟨v, more, by rw [hr, h1]; rfl, h2⟩

theorem phrase_of_one {ws : List Str} {t : Str} (h : Phrase1 ws t) : Phrase ws t := by
  induction ws generalizing t with
  | nil => trivial
  | cons w ws ih =>
    cases ws with
    | nil => exact h
    | cons v ws =>
      obtain ⟨x, r, rfl, hx, hp⟩ := h
      exact ⟨[x], r, by simp, by simp, by simp [hx], ih hp⟩

/-- How the first word of a line of the class begins. -/
def leadOf : LineCls → Str
  | .intf => "interface".toList
  | .route => "ip".toList
  | .access => "line".toList
  | .hostname => "hostname".toList
  | _ => "aaa".toList

/-- The second word, and how the third begins. -/
def second : LineCls → Str × Str
  | .aaaLogin => ("authentication".toList, "login".toList)
  | .aaaEnable => ("authentication".toList, "enable".toList)
  | .aaaCommandsAuthz => ("authorization".toList, "commands".toList)
  | .aaaConsoleAuthz => ("authorization".toList, "console".toList)
  | .aaaCommandsAcct => ("accounting".toList, "commands".toList)
  | .aaaExecAcct => ("accounting".toList, "exec".toList)
  | .aaaGroup => ("group".toList, "server".toList)
  | _ => ([], [])

theorem kind_aaa {t : Str} {c : LineCls} (h : Kind t c) (hc : leadOf c = "aaa".toList) (hg : c ≠ .intfGlobal) :
    ∃ v more, splitWs t = ["aaa".toList, (second c).1] ++ v :: more ∧ (second c).2 <+: v := by
  have key : ∀ b d : Str, IsWord b → IsWord d → Phrase ["aaa".toList, b, d] (strip t) →
      ∃ v more, splitWs t = ["aaa".toList, b] ++ v :: more ∧ d <+: v := by
    intro b d hb hd h
    have := phrase_words (ws := ["aaa".toList, b]) (by
      intro w hw
      rcases List.mem_cons.mp hw with rfl | hw
      · decide
      · rw [List.mem_singleton.mp hw]; exact hb) hd h
    rw [← parts_eq]
    exact this
  cases c with
  | cfg => exact h.elim
  | intfGlobal => exact absurd rfl hg
  | intf => exact absurd hc (by decide)
  | route => exact absurd hc (by decide)
  | access => exact absurd hc (by decide)
  | hostname => exact absurd hc (by decide)
  | aaaLogin => exact key _ _ (by decide) (by decide) h
  | aaaEnable => exact key _ _ (by decide) (by decide) h
  | aaaCommandsAuthz => exact key _ _ (by decide) (by decide) h
  | aaaConsoleAuthz => exact key _ _ (by decide) (by decide) h
  | aaaCommandsAcct => exact key _ _ (by decide) (by decide) h
  | aaaExecAcct => exact key _ _ (by decide) (by decide) h
  | aaaGroup => exact phrase_words (ws := ["aaa".toList, "group".toList]) (by decide) (by decide) (phrase_of_one h)

theorem kind_lead {t : Str} {c : LineCls} (h : Kind t c) (hg : c ≠ .intfGlobal) :
    ∃ v more, splitWs t = v :: more ∧ leadOf c <+: v := by
  by_cases hc : leadOf c = "aaa".toList
  · obtain ⟨v, more, h1, _⟩ := kind_aaa h hc hg
    exact ⟨_, _, h1, by rw [hc]; exact List.prefix_refl _⟩
  · cases c with
    | intf =>
      obtain ⟨more, hm⟩ := h
      exact ⟨_, _, hm, List.prefix_refl _⟩
    | route =>
      refine first_begins (by decide) ?_
      rcases h with h | h
      · exact List.IsPrefix.trans (by decide) h
      · exact List.IsPrefix.trans (by decide) h
    | access => exact first_begins (by decide) h
    | hostname => exact first_begins (by decide) h
    | _ => exact absurd rfl hc

/-- A line belongs to at most one class, interface globals aside. -/
theorem kind_unique {t : Str} {c d : LineCls} (hc : Kind t c) (hd : Kind t d) (gc : c ≠ .intfGlobal) (gd : d ≠ .intfGlobal) :
    c = d := by
  obtain ⟨v, more, h1, h2⟩ := kind_lead hc gc
  obtain ⟨v', more', h1', h2'⟩ := kind_lead hd gd
  rw [h1, List.cons.injEq] at h1'
  obtain ⟨rfl, _⟩ := h1'
  have hl := prefix_both h2 h2'
  by_cases ha : leadOf c = "aaa".toList ∧ leadOf d = "aaa".toList
  · obtain ⟨v, more, h1, h2⟩ := kind_aaa hc ha.1 gc
    obtain ⟨v', more', h1', h2'⟩ := kind_aaa hd ha.2 gd
    rw [h1] at h1'
    simp only [List.cons_append, List.nil_append, List.cons.injEq] at h1'
    obtain ⟨_, h3, rfl, _⟩ := h1'
    have h4 := prefix_both h2 h2'
    cases c <;> first | exact absurd ha.1 (by decide) | exact absurd rfl gc | exact hc.elim | skip
    all_goals
      cases d <;> first | rfl | exact absurd ha.2 (by decide) | exact absurd rfl gd | exact hd.elim | exact absurd h3 (by decide) | exact absurd h4 (by decide)
  · cases c <;> first | exact absurd rfl gc | exact hc.elim | skip
    all_goals
      cases d <;> first | rfl | exact absurd rfl gd | exact hd.elim | exact absurd hl (by decide) | exact absurd ⟨rfl, rfl⟩ ha

theorem skip_none {t : Str} (pre cs : List LineCls) (h : ∀ d ∈ pre, d ≠ .cfg ∧ ¬ Kind t d) :
    firstCls t (pre ++ cs) = firstCls t cs := by
  induction pre with
  | nil => rfl
  | cons d pre ih =>
    obtain ⟨hd, hk⟩ := h d (by simp)
    obtain ⟨b, h1, h2⟩ := isObjectFor_kind t hd
    have : b = false := by
      cases b with
      | false => rfl
      | true => exact absurd (h2.mp rfl) hk
    rw [this] at h1
    rw [List.cons_append, firstCls_skip h1]
    exact ih (fun e he => h e (by simp [he]))

theorem take_kind {t : Str} {c : LineCls} (hc : c ≠ .cfg) (h : Kind t c) (cs : List LineCls) :
    firstCls t (c :: cs) = (construct t c).map (fun _ => some c) := by
  obtain ⟨b, h1, h2⟩ := isObjectFor_kind t hc
  rw [h2.mpr h] at h1
  exact firstCls_take h1 cs

theorem split_classes : ∀ c ∈ iosClasses, ∃ pre post, iosClasses = pre ++ c :: post ∧ c ∉ pre ∧ (c ≠ .cfg → .cfg ∉ pre) ∧
    (.intfGlobal ∈ pre → c = .cfg) := by
  intro c _
  refine ⟨iosClasses.takeWhile (· != c), (iosClasses.dropWhile (· != c)).tail, ?_⟩
  cases c <;> decide

theorem mem_classes (c : LineCls) : c ∈ iosClasses := by cases c <;> decide

/-- What the factory does with the result of the search. -/
theorem factory_of {t : Str} {c : LineCls} {e : Except Err Unit} (h : firstCls t iosClasses = e.map (fun _ => some c))
    (he : e = .ok () ∨ e = .error .valueError) :
    (e = .ok () ∧ lineFactory t = .ok c) ∨ (e = .error .valueError ∧ lineFactory t = .error .valueError) := by
  rcases he with rfl | rfl
  · left; rw [lineFactory, h]; exact ⟨rfl, rfl⟩
  · right; rw [lineFactory, h]; exact ⟨rfl, rfl⟩

/-- Both expressions for routes compile. -/
theorem route_compiles (b : Bool) :
    (compileL (if b then reIpv6Route else reIpRoute) { verbose := true }).toOption.isSome = true := by
  cases b <;> decide +kernel

theorem routeInfo_cases (t : Str) : (∃ d, routeInfo t = .ok d) ∨ routeInfo t = .error .valueError := by
  have h := route_compiles (isV6 t)
  rw [routeInfo]
  cases hc : compileL (if isV6 t then reIpv6Route else reIpRoute) { verbose := true } with
  | error e => rw [hc] at h; cases h
  | ok p =>
    dsimp only
    cases search p t with
    | none => exact Or.inr rfl
    | some m => exact Or.inl ⟨_, rfl⟩

theorem aaaGroup_cases (t : Str) : (∃ d, aaaGroup t = .ok d) ∨ aaaGroup t = .error .valueError := by
  have hc : (compile "^aaa\\sgroup\\sserver\\s(?P<protocol>\\S+)\\s(?P<group>\\S+)\\s*$").map Pat.groups = .ok 2 := by
    decide +kernel
  rw [aaaGroup, reSearch]
  cases h : compile "^aaa\\sgroup\\sserver\\s(?P<protocol>\\S+)\\s(?P<group>\\S+)\\s*$" with
  | error e => rw [h] at hc; cases hc
  | ok p =>
    rw [h] at hc
    have hg : p.groups = 2 := by injection hc
    cases hs : search p t with
    | none => right; simp only [hs]; rfl
    | some m =>
      left
      have g : ∀ k, k ≠ 0 → k ≤ 2 → m.group p k = .ok (m.caps.lookup k) := by
        intro k h0 h2
        rw [Found.group, if_neg h0, if_pos (by rw [hg]; exact h2)]
      refine ⟨(m.caps.lookup 1, m.caps.lookup 2), ?_⟩
      simp only [hs]
      show (do .ok (← m.group p 1, ← m.group p 2) : Except Err _) = _
      rw [g 1 (by decide) (by decide), g 2 (by decide) (by decide)]
      rfl

/-- The constructors raise ValueError or nothing. -/
theorem construct_cases (t : Str) (c : LineCls) :
    construct t c = .ok () ∨ ((c = .route ∨ c = .aaaGroup) ∧ construct t c = .error .valueError) := by
  cases c with
  | route =>
    rcases routeInfo_cases (lineText t) with ⟨d, h⟩ | h
    · left; rw [construct, h]; rfl
    · right; refine ⟨Or.inl rfl, ?_⟩; rw [construct, h]; rfl
  | aaaGroup =>
    rcases aaaGroup_cases (lineText t) with ⟨d, h⟩ | h
    · left; rw [construct, h]; rfl
    · right; refine ⟨Or.inr rfl, ?_⟩; rw [construct, h]; rfl
  | _ => exact Or.inl rfl

theorem first_of_kind {t : Str} {c : LineCls} (h : Kind t c) (hg : c ≠ .intfGlobal) :
    firstCls t iosClasses = (construct t c).map (fun _ => some c) := by
  have hc : c ≠ .cfg := by rintro rfl; exact h
  obtain ⟨pre, post, he, h1, h2, h3⟩ := split_classes c (mem_classes c)
  rw [he, skip_none, take_kind hc h]
  intro d hd
  refine ⟨fun e => h2 hc (e ▸ hd), fun hk => h1 ?_⟩
  have : d ≠ .intfGlobal := fun e => hc (h3 (e ▸ hd))
  rw [kind_unique h hk hg this]
  exact hd

/-- C77: a line of a class becomes an object of that class, unless it is a route or an AAA
server group that the constructor refuses with ValueError. -/
theorem C77_class {t : Str} {c : LineCls} (h : Kind t c) (hg : c ≠ .intfGlobal) :
    lineFactory t = .ok c ∨ ((c = .route ∨ c = .aaaGroup) ∧ lineFactory t = .error .valueError) := by
  have e := first_of_kind h hg
  rcases construct_cases t c with h4 | ⟨h4, h5⟩
  · rcases factory_of e (Or.inl h4) with ⟨_, h6⟩ | ⟨h6, _⟩
    · exact Or.inl h6
    · rw [h4] at h6; cases h6
  · rcases factory_of e (Or.inr h5) with ⟨h6, _⟩ | ⟨_, h6⟩
    · rw [h5] at h6; cases h6
    · exact Or.inr ⟨h4, h6⟩

/-- C77: an interface global, if the line is of no other class. -/
theorem C77_global {t : Str} (h : Kind t .intfGlobal) (hn : ∀ c, c ≠ .intfGlobal → ¬ Kind t c) :
    lineFactory t = .ok .intfGlobal := by
  obtain ⟨pre, post, he, h1, h2, h3⟩ := split_classes .intfGlobal (mem_classes _)
  have e : firstCls t iosClasses = (construct t .intfGlobal).map (fun _ => some .intfGlobal) := by
    rw [he, skip_none, take_kind (by decide) h]
    intro d hd
    refine ⟨fun e => h2 (by decide) (e ▸ hd), hn d ?_⟩
    rintro rfl
    exact h1 hd
  rw [lineFactory, e]
  rfl

/-- C77: every other line becomes an ordinary configuration line. -/
theorem C77_other {t : Str} (h : ∀ c, ¬ Kind t c) : lineFactory t = .ok .cfg := by
  have e : firstCls t iosClasses = firstCls t [.cfg] := by
    rw [show iosClasses = iosClasses.dropLast ++ [.cfg] from rfl, skip_none]
    intro d hd
    exact ⟨(by decide : ∀ d ∈ iosClasses.dropLast, d ≠ .cfg) d hd, h d⟩
  rw [lineFactory, e, firstCls, isObjectFor]
  cases isCfg t <;> rfl

/-- C77: whatever the line is, the class found is the one it belongs to; the only exception
is ValueError, for routes and AAA server groups. -/
theorem C77_sound (t : Str) :
    (∃ c, lineFactory t = .ok c ∧ (Kind t c ∨ (c = .cfg ∧ ∀ d, ¬ Kind t d))) ∨
    (lineFactory t = .error .valueError ∧ (Kind t .route ∨ Kind t .aaaGroup)) := by
  by_cases h : ∃ c, c ≠ .intfGlobal ∧ Kind t c
  · obtain ⟨c, hg, hk⟩ := h
    rcases C77_class hk hg with h1 | ⟨h1, h2⟩
    · exact Or.inl ⟨c, h1, Or.inl hk⟩
    · refine Or.inr ⟨h2, ?_⟩
      rcases h1 with rfl | rfl
      · exact Or.inl hk
      · exact Or.inr hk
  · have hn : ∀ c, c ≠ .intfGlobal → ¬ Kind t c := fun c hc hk => h ⟨c, hc, hk⟩
    by_cases hg : Kind t .intfGlobal
    · exact Or.inl ⟨_, C77_global hg hn, Or.inl hg⟩
    · have : ∀ d, ¬ Kind t d := by
        intro d
        by_cases hd : d = .intfGlobal
        · rw [hd]; exact hg
        · exact hn d hd
      exact Or.inl ⟨_, C77_other this, Or.inr ⟨rfl, this⟩⟩

/-- C77: `IOSCfgLine.is_object_for()` takes a line exactly if its words do not begin with the words of a host name, an
interface, an AAA authentication, authorization or accounting command or a route. -/
theorem C77_cfg (t : Str) : ∃ b, isObjectFor t .cfg = .ok b ∧
    (b = true ↔ ∀ l ∈ [["hostname"], ["interface"], ["aaa", "authentication"], ["aaa", "authorization"], ["aaa", "accounting"],
      ["ip", "route"], ["ipv6", "route"]], ¬ (l.map String.toList <+: splitWs t)) := by
  have e : ∀ l : List String, beginsWith l t = true ↔ l.map String.toList <+: splitWs t := by
    intro l
    rw [beginsWith, parts_eq, beq_iff_eq, List.prefix_iff_eq_take, List.length_map]
    exact eq_comm
  refine ⟨_, rfl, ?_⟩
  rw [isCfg]
  simp only [Bool.not_eq_true', Bool.or_eq_false_iff, List.forall_mem_cons, ← e, Bool.not_eq_true]
  grind

/-- Both answers. -/
example : isObjectFor "ip domain-name x.org".toList .cfg = .ok true ∧
    isObjectFor "ip route 10.0.0.0 255.0.0.0 10.1.1.1".toList .cfg = .ok false := by
  decide +kernel
/-- Not vacuous: one line of each class. -/
example : ([("interface Gi0/1", .intf), ("ip route 10.0.0.0 255.0.0.0 10.1.1.1", .route), ("line vty 0 4", .access),
    ("aaa authentication login default local", .aaaLogin), ("aaa authentication enable default none", .aaaEnable),
    ("aaa authorization commands 15 default local", .aaaCommandsAuthz), ("aaa authorization console", .aaaConsoleAuthz),
    ("aaa accounting commands 15 default none", .aaaCommandsAcct), ("aaa accounting exec default none", .aaaExecAcct),
    ("aaa group server tacacs+ TAC", .aaaGroup), ("hostname r1", .hostname), ("no cdp run", .intfGlobal),
    ("ip domain-name x.org", .cfg)] : List (String × LineCls)).all
      (fun q => lineFactory q.1.toList == .ok q.2) = true := by
  decide +kernel

/-- C80: the expression for interface globals is only anchored in its first alternative: a
description that mentions such a command makes the line an interface global. -/
theorem C80_global_fails : lineFactory " description spanning-tree portfast default".toList = .ok .intfGlobal := by
  decide +kernel

/-- C80: commands of IOS that no object is made for: ValueError. -/
theorem C80_refused_fails :
    lineFactory "ip route static bfd GigabitEthernet0/0 10.1.1.1".toList = .error .valueError ∧
    lineFactory "ip route 10.0.0.0 255.0.0.0".toList = .ok .route ∧
    lineFactory "aaa group server radius".toList = .error .valueError ∧
    lineFactory "aaa group server  radius R".toList = .error .valueError := by
  decide +kernel

/-- C77: a server group, as IOS writes it, has the protocol and the name that it says. -/
theorem C77_server_group {p g : Str} (hp : IsWord p) (hg : IsWord g) :
    lineFactory ("aaa group server ".toList ++ p ++ ' ' :: g) = .ok .aaaGroup ∧
    aaaGroup ("aaa group server ".toList ++ p ++ ' ' :: g) = .ok (some p, some g) := by
  have hc : Is "^aaa\\sgroup\\sserver\\s(?P<protocol>\\S+)\\s(?P<group>\\S+)\\s*$"
      (str "aaa".toList (.one .space (str "group".toList (.one .space (str "server".toList (.one .space
        (.grp 1 (.plus .nonspace .done) (.one .space (.grp 2 (.plus .nonspace .done) .spEol))))))))) 2
      [("protocol".toList, 1), ("group".toList, 2)] := by decide +kernel
  generalize ht : "aaa group server ".toList ++ p ++ ' ' :: g = t
  have hk : Kind t .aaaGroup := by
    refine ⟨' ', "group server ".toList ++ p ++ ' ' :: g, by rw [← ht]; rfl, rfl, ' ', "server ".toList ++ p ++ ' ' :: g, rfl, rfl, ?_⟩
    exact ⟨' ' :: (p ++ ' ' :: g), rfl⟩
  have hd : (str "aaa".toList (.one .space (str "group".toList (.one .space (str "server".toList (.one .space
        (.grp 1 (.plus .nonspace .done) (.one .space (.grp 2 (.plus .nonspace .done) .spEol))))))))).det t [] =
      some ([], [(2, g), (1, p)]) := by
    have e : t = "aaa".toList ++ ' ' :: ("group".toList ++ ' ' :: ("server".toList ++ ' ' :: (p ++ ' ' :: (g ++ [])))) := by
      rw [← ht, List.append_nil]; rfl
    have one : ∀ (q : Prog) (s : Str) (c : Caps), (Prog.one .space q).det (' ' :: s) c = q.det s c := by
      intro q s c; rw [Prog.det]; rfl
    rw [e, det_str, if_pos (List.prefix_append _ _), List.drop_left, one, det_str, if_pos (List.prefix_append _ _),
      List.drop_left, one, det_str, if_pos (List.prefix_append _ _), List.drop_left, one,
      det_cap_word hp (by intro c h; cases h; decide), one, det_cap_word hg (by simp)]
    rfl
  have ha : aaaGroup t = .ok (some p, some g) := by
    rw [aaaGroup, reSearch_det hc, hd]
    rfl
  refine ⟨?_, ha⟩
  have hr : rstrip t = t := by
    refine rstrip_of_last ?_
    rw [← ht]
    intro c h
    rw [show "aaa group server ".toList ++ p ++ ' ' :: g = ("aaa group server ".toList ++ p ++ [' ']) ++ g by simp,
      List.getLast?_append, List.getLast?_eq_some_getLast hg.1] at h
    cases h
    exact hg.2 _ (List.getLast_mem hg.1)
  rw [lineFactory, first_of_kind hk (by decide), construct, lineText, hr, ha]
  rfl

/-! ## The tree -/

theorem mapM_ok {f : Str → Except Err LineCls} {l : List Str} {cs : List LineCls} (h : l.mapM f = .ok cs) :
    cs.length = l.length ∧ ∀ (i : Nat) c, cs[i]? = some c → ∃ t, l[i]? = some t ∧ f t = .ok c := by
  induction l generalizing cs with
  | nil =>
    cases h
    exact ⟨rfl, fun i c h => by simp at h⟩
  | cons t l ih =>
    rw [List.mapM_cons] at h
    cases ht : f t with
    | error e => rw [ht] at h; cases h
    | ok c =>
      rw [ht] at h
      cases hl : l.mapM f with
      | error e => rw [hl] at h; cases h
      | ok cs' =>
        rw [hl] at h
        cases h
        obtain ⟨h1, h2⟩ := ih hl
        refine ⟨by simp [h1], ?_⟩
        intro i d hd
        cases i with
        | zero => simp at hd; exact ⟨t, by simp, by rw [ht, hd]⟩
        | succ i =>
          rw [List.getElem?_cons_succ] at hd ⊢
          exact h2 i d hd

theorem mapM_total {f : Str → Except Err LineCls} {l : List Str} (h : ∀ t ∈ l, ∃ c, f t = .ok c) : ∃ cs, l.mapM f = .ok cs := by
  induction l with
  | nil => exact ⟨[], rfl⟩
  | cons t l ih =>
    obtain ⟨c, hc⟩ := h t (by simp)
    obtain ⟨cs, hcs⟩ := ih (fun u hu => h u (by simp [hu]))
    exact ⟨c :: cs, by rw [List.mapM_cons, hc, hcs]; rfl⟩

theorem preFilter_factory (o : Opts) (lines : List Str) : preFilter { o with factory := true } lines = lines := by
  rw [preFilter, if_neg]
  simp

/-- C78: `factory=True` changes the classes of the objects and nothing else: texts, order,
parents and children are those of `factory=False`; and the object for a line is the one that
the factory makes of this line. -/
theorem C78_tree {o : Opts} {lines : List Str} {cs : List LineCls} {P : Parsed} (h : parseFactory o lines = .ok (cs, P))
    (hb : o.ignoreBlank = true → ∀ l ∈ lines, l ≠ []) :
    parse { o with factory := false } lines = .ok P ∧ cs.length = lines.length ∧
    ∀ (i : Nat) c, cs[i]? = some c → ∃ l, lines[i]? = some l ∧ lineFactory l = .ok c := by
  rw [parseFactory, preFilter_factory] at h
  cases hm : lines.mapM lineFactory with
  | error e => rw [hm] at h; cases h
  | ok cs' =>
    rw [hm] at h
    cases hp : parse { o with factory := true } lines with
    | error e => rw [hp] at h; cases h
    | ok P' =>
      rw [hp] at h
      cases h
      refine ⟨?_, mapM_ok hm⟩
      rw [parse, preFilter_factory] at hp
      rw [parse, ← hp, preFilter]
      have : (if { o with factory := false }.ignoreBlank = true ∧ { o with factory := false }.factory = false then
          lines.filter (fun l => !l.isEmpty) else lines) = lines := by
        by_cases hi : o.ignoreBlank = true
        · rw [if_pos ⟨hi, rfl⟩, List.filter_eq_self]
          intro l hl
          have := hb hi l hl
          cases l with
          | nil => exact absurd rfl this
          | cons x l => rfl
        · rw [if_neg (fun e => hi e.1)]
      rw [this]
      rfl

/-- C80: if no line is a route or a server group, `factory=True` parses what `factory=False` parses. -/
theorem C80_total_partial {o : Opts} {lines : List Str} {P : Parsed} (h : parse { o with factory := false } lines = .ok P)
    (hb : o.ignoreBlank = true → ∀ l ∈ lines, l ≠ []) (hr : ∀ l ∈ lines, ¬ (Kind l .route ∨ Kind l .aaaGroup)) :
    ∃ cs, parseFactory o lines = .ok (cs, P) := by
  obtain ⟨cs, hc⟩ := mapM_total (f := lineFactory) (l := lines) (fun t ht => by
    rcases C77_sound t with ⟨c, hc, _⟩ | ⟨_, hk⟩
    · exact ⟨c, hc⟩
    · exact absurd hk (hr t ht))
  have hp : parse { o with factory := true } lines = .ok P := by
    rw [parse, preFilter_factory]
    rw [parse, preFilter] at h
    have : (if { o with factory := false }.ignoreBlank = true ∧ { o with factory := false }.factory = false then
        lines.filter (fun l => !l.isEmpty) else lines) = lines := by
      by_cases hi : o.ignoreBlank = true
      · rw [if_pos ⟨hi, rfl⟩, List.filter_eq_self]
        intro l hl
        have := hb hi l hl
        cases l with
        | nil => exact absurd rfl this
        | cons x l => rfl
      · rw [if_neg (fun e => hi e.1)]
    rw [this] at h
    exact h
  refine ⟨cs, ?_⟩
  rw [parseFactory, preFilter_factory, hc, hp]
  rfl

/-! ## Not vacuous -/

/-- An interface with an address, a host name. -/
def exConf : List Str := ["hostname R1".toList, "interface Gi0/1".toList, " ip address 10.0.0.1 255.0.0.0".toList, "!".toList]

theorem exConf_parse : ((parseFactory {} exConf).toOption.map (fun q => (q.1, q.2.texts, q.2.list.map (fun i => (q.2.h i).parent)))) =
    some ([.hostname, .intf, .cfg, .cfg], exConf, [0, 1, 1, 3]) := by decide +kernel

example : ∃ cs P, parseFactory {} exConf = .ok (cs, P) ∧ parse {} exConf = .ok P := by
  cases h : parseFactory {} exConf with
  | error e => have := exConf_parse; rw [h] at this; cases this
  | ok q => exact ⟨q.1, q.2, rfl, (C78_tree (o := {}) (cs := q.1) (P := q.2) h (by decide)).1⟩

/-- C80: a configuration that parses with `factory=False` and raises with `factory=True`. -/
theorem C80_raises_fails :
    ((parse {} ["ip route static bfd Gi0/0 10.1.1.1".toList]).toOption.map (·.texts)) =
      some ["ip route static bfd Gi0/0 10.1.1.1".toList] ∧
    (match parseFactory {} ["ip route static bfd Gi0/0 10.1.1.1".toList] with
      | .error e => some e
      | .ok _ => none) = some .valueError := by decide +kernel

end Cisco

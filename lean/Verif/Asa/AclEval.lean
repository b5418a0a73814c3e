import Verif.Asa.AclLemmas
import Verif.Asa.PortLemmas

/-! # ASA access list lines: the search and the attributes -/

namespace Asa

open Py Re Cisco
open Asa.Spec
open Cisco.Spec (wd)

/-! ## The search -/

/-- `mm.groupdict()` of the groups. -/
def dictOf (c : Caps) : List (Str × Option Str) := aclNames.map (fun q => (q.1, c.lookup q.2))

theorem sem_bol {l : List Rgx} {u v : Str} {e : Caps} : Sem u.length (seqs (.bol :: l)) u v e ↔ Sem u.length (seqs l) u v e := by
  rw [sem_cons]
  constructor
  · rintro ⟨w, e1, e2, h1, h2, rfl⟩
    rw [Sem, run, if_pos rfl, List.mem_singleton, Prod.mk.injEq] at h1
    obtain ⟨rfl, rfl⟩ := h1
    rw [List.append_nil]
    exact h2
  · intro h
    exact ⟨u, [], e, by rw [Sem, run, if_pos rfl]; simp, h, by simp⟩

theorem bol_miss {n : Nat} {l : List Rgx} {s : Str} (h : s.length ≠ n) : run n (seqs (.bol :: l)) s [] = [] := by
  rw [run_seqs_cons', run, if_neg h]
  rfl

theorem acl_miss {n : Nat} {s : Str} (h : s.length ≠ n) : run n aclRgx s [] = [] := by
  simp only [aclRgx, alt0, run]
  rw [bol_miss h, bol_miss h, bol_miss h, bol_miss h, bol_miss h]
  rfl

theorem aclLine_eq (t : Str) : aclLine t = match (run t.length aclRgx t []).head? with
    | some q => .ok (dictOf q.2)
    | none => .error .valueError := by
  rw [aclLine, verboseDict, compile_acl]
  simp only [search_head (fun s hs => acl_miss hs), Option.map_map]
  cases (run t.length aclRgx t []).head? <;> rfl

theorem aclLine_sem {t : Str} {d : List (Str × Option Str)} (h : aclLine t = .ok d) : ∃ v c, Sem t.length aclRgx t v c ∧ d = dictOf c := by
  rw [aclLine_eq] at h
  cases hr : run t.length aclRgx t [] with
  | nil => rw [hr] at h; cases h
  | cons q l =>
    rw [hr] at h
    cases h
    exact ⟨q.1, q.2, by rw [Sem, hr]; simp, rfl⟩

theorem sem_aclLine {t v : Str} {c : Caps} (h : Sem t.length aclRgx t v c) : ∃ d, aclLine t = .ok d := by
  rw [aclLine_eq]
  cases hr : run t.length aclRgx t [] with
  | nil => rw [Sem, hr] at h; cases h
  | cons q l => exact ⟨_, rfl⟩

theorem sem_acl {t v : Str} {c : Caps} : Sem t.length aclRgx t v c ↔
    Sem t.length alt0 t v c ∨ Sem t.length (seqs (alt1L ++ endL)) t v c ∨ Sem t.length (seqs (alt2L ++ endL)) t v c ∨
    Sem t.length (seqs alt3L) t v c ∨ Sem t.length (seqs (alt4L ++ (seqs [spR, addr2 70] :: icmpTail))) t v c := by
  rw [aclRgx, sem_alt, sem_alt, sem_alt, sem_alt, sem_bol, sem_bol, sem_bol, sem_bol]

/-! ## The attributes, in terms of the groups -/

/-- No group is empty. -/
def Full (c : Caps) : Prop := ∀ q ∈ c, q.2 ≠ []

/-- The first group that took part. -/
def first (c : Caps) : List Nat → Option Str
  | [] => none
  | k :: ks => (c.lookup k).or (first c ks)

theorem entry_dict {s : String} {k : Nat} (h : aclNames.lookup s.toList = some k) (c : Caps) : entry (dictOf c) s = c.lookup k := by
  have key : ∀ l : List (Str × Nat), (l.map (fun q => (q.1, c.lookup q.2))).lookup s.toList = (l.lookup s.toList).map (c.lookup ·) := by
    intro l
    induction l with
    | nil => rfl
    | cons q l ih =>
      rw [List.map_cons, List.lookup_cons, List.lookup_cons, ih]
      cases s.toList == q.1 <;> rfl
  rw [entry, dictOf, key, h]
  rfl

theorem truthy_dict {s : String} {k : Nat} (h : aclNames.lookup s.toList = some k) {c : Caps} (hc : Full c) :
    truthy (dictOf c) s = c.lookup k := by
  rw [truthy, entry_dict h]
  cases hl : c.lookup k with
  | none => rfl
  | some w =>
    cases w with
    | nil => exact absurd rfl (hc _ (mem_of_lookup hl))
    | cons x w => rfl

theorem pyOr_dict {c : Caps} (hc : Full c) : ∀ (names : List String) (ks : List Nat),
    names.map (fun s => aclNames.lookup s.toList) = ks.map some → pyOr (dictOf c) names = first c ks
  | [], [], _ => rfl
  | [s], [k], h => by
    rw [List.map_cons, List.map_cons, List.cons.injEq] at h
    rw [pyOr, entry_dict h.1, first, first, Option.or_none]
  | s :: s' :: names, k :: ks, h => by
    have h1 := (List.cons.inj h).1
    have h2 := (List.cons.inj h).2
    rw [pyOr, truthy_dict h1 hc, first, pyOr_dict hc _ ks h2]
    · cases c.lookup k <;> rfl
    · simp
  | [], _ :: _, h => by cases h
  | _ :: _, [], h => by cases h
  | [_], _ :: _ :: _, h => by simp at h

theorem first_full {c : Caps} (hc : Full c) : ∀ ks, isTrue (first c ks) = (first c ks).isSome
  | [] => rfl
  | k :: ks => by
    rw [first]
    cases hl : c.lookup k with
    | none => exact first_full hc ks
    | some w =>
      cases w with
      | nil => exact absurd rfl (hc _ (mem_of_lookup hl))
      | cons x w => rfl

theorem look_full {c : Caps} (hc : Full c) (k : Nat) : isTrue (c.lookup k) = (c.lookup k).isSome := by
  have := first_full hc [k]
  rwa [first, first, Option.or_none] at this

def methodC (rem g o n s : Option Str) : Except Err Str :=
  if rem.isSome && rem == some "remark".toList then .ok []
  else if g.isSome then .ok "object-group".toList
  else if o.isSome then .ok "object".toList
  else if n.isSome then .ok "network".toList
  else if s.isSome then .ok "network".toList
  else .error .valueError

def protoC (rem p s o : Option Str) : Except Err (Int × Option Str) :=
  if rem.isSome then .ok (-1, some [])
  else match p with
    | some p => do .ok (← protoNumber p, some [])
    | none => if s.isSome then .ok (0, some []) else if o.isSome then .ok (65535, o) else .error .valueError

def logC (log level interval : Option Str) : Except Err (Int × Str) :=
  if log.isSome = false then .ok (-1, [])
  else do
    let i ← (match interval with
      | some i => pyInt i
      | none => .ok 300)
    .ok (i, level.getD "informational".toList)

theorem src_dict {c : Caps} (hc : Full c) : srcMethod (dictOf c) =
    methodC (c.lookup 3) (first c [9, 30, 67]) (first c [10, 29, 66]) (first c [11, 27, 28, 31, 64, 65, 68]) (c.lookup 55) := by
  rw [srcMethod, pyOr_dict hc _ [9, 30, 67] (by decide +kernel), pyOr_dict hc _ [10, 29, 66] (by decide +kernel),
    pyOr_dict hc _ [11, 27, 28, 31, 64, 65, 68] (by decide +kernel), entry_dict (k := 3) (by decide +kernel),
    entry_dict (k := 55) (by decide +kernel)]
  simp only [first_full hc, look_full hc, methodC]

theorem dst_dict {c : Caps} (hc : Full c) : dstMethod (dictOf c) =
    methodC (c.lookup 3) (first c [13, 41, 73]) (first c [14, 40, 72]) (first c [15, 38, 39, 42, 70, 71, 74])
      (first c [57, 58, 59]) := by
  rw [dstMethod, pyOr_dict hc _ [13, 41, 73] (by decide +kernel), pyOr_dict hc _ [14, 40, 72] (by decide +kernel),
    pyOr_dict hc _ [15, 38, 39, 42, 70, 71, 74] (by decide +kernel), entry_dict (k := 3) (by decide +kernel),
    pyOr_dict hc _ [57, 58, 59] (by decide +kernel)]
  simp only [first_full hc, look_full hc, methodC]

theorem proto_dict {c : Caps} (hc : Full c) : protocolDict (dictOf c) =
    protoC (c.lookup 4) (first c [8, 26, 63]) (c.lookup 55) (first c [7, 25]) := by
  rw [protocolDict, pyOr_dict hc _ [8, 26, 63] (by decide +kernel), pyOr_dict hc _ [7, 25] (by decide +kernel),
    entry_dict (k := 4) (by decide +kernel), entry_dict (k := 55) (by decide +kernel)]
  simp only [first_full hc, look_full hc, protoC]
  cases first c [8, 26, 63] <;> rfl

theorem log_dict {c : Caps} (hc : Full c) : logEntries (dictOf c) (isTrue (pyOr (dictOf c) ["log1", "log2", "log4"])) =
    logC (first c [17, 49, 77]) (first c [18, 50, 78]) (first c [19, 51, 79]) := by
  have h1 := first_full hc [18, 50, 78]
  have h2 := first_full hc [19, 51, 79]
  rw [logEntries, pyOr_dict hc _ [17, 49, 77] (by decide +kernel), pyOr_dict hc _ [18, 50, 78] (by decide +kernel),
    pyOr_dict hc _ [19, 51, 79] (by decide +kernel), first_full hc, logC.eq_def]
  cases first c [17, 49, 77] with
  | none => rfl
  | some w =>
    simp only [Option.isSome_some, Bool.not_true, Bool.false_eq_true, if_false, Bool.true_eq_false]
    cases ha : first c [19, 51, 79] with
    | none =>
      cases hb : first c [18, 50, 78] with
      | none => rfl
      | some x =>
        cases x with
        | nil => rw [hb] at h1; cases h1
        | cons _ _ => rfl
    | some y =>
      cases y with
      | nil => rw [ha] at h2; cases h2
      | cons _ _ =>
        cases hb : first c [18, 50, 78] with
        | none => rfl
        | some x =>
          cases x with
          | nil => rw [hb] at h1; cases h1
          | cons _ _ => rfl

/-- The attributes of a match. -/
theorem aclResult_dict {c : Caps} (hc : Full c) : aclResult (dictOf c) = (do
    let p ← protoC (c.lookup 4) (first c [8, 26, 63]) (c.lookup 55) (first c [7, 25])
    let src ← methodC (c.lookup 3) (first c [9, 30, 67]) (first c [10, 29, 66]) (first c [11, 27, 28, 31, 64, 65, 68]) (c.lookup 55)
    let dst ← methodC (c.lookup 3) (first c [13, 41, 73]) (first c [14, 40, 72]) (first c [15, 38, 39, 42, 70, 71, 74])
      (first c [57, 58, 59])
    let l ← logC (first c [17, 49, 77]) (first c [18, 50, 78]) (first c [19, 51, 79])
    .ok ⟨p.1, p.2, first c [2, 5, 23, 55, 61], first c [3, 6, 24, 56, 62], c.lookup 4, src, dst, (first c [20, 52, 80]).isSome,
      first c [22, 54, 82], (first c [17, 49, 77]).isSome, l.1, l.2⟩) := by
  rw [aclResult]
  simp only [proto_dict hc, src_dict hc, dst_dict hc, log_dict hc]
  rw [pyOr_dict hc _ [2, 5, 23, 55, 61] (by decide +kernel), pyOr_dict hc _ [3, 6, 24, 56, 62] (by decide +kernel),
    entry_dict (k := 4) (by decide +kernel), pyOr_dict hc _ [20, 52, 80] (by decide +kernel),
    pyOr_dict hc _ [22, 54, 82] (by decide +kernel), pyOr_dict hc _ [17, 49, 77] (by decide +kernel), first_full hc, first_full hc]

/-! ## The groups of the parts -/

/-- The groups are between `a` and `b`, and none is empty. -/
def Span (a b : Nat) (e : Caps) : Prop := ∀ q ∈ e, a ≤ q.1 ∧ q.1 ≤ b ∧ q.2 ≠ []

theorem Span.none {a b : Nat} {e : Caps} (h : Span a b e) {k : Nat} (hk : k < a ∨ b < k) : e.lookup k = none := by
  cases hl : e.lookup k with
  | none => rfl
  | some w =>
    have := h _ (mem_of_lookup hl)
    simp only at this
    omega

theorem Span.append {a b : Nat} {e f : Caps} (h1 : Span a b e) (h2 : Span a b f) : Span a b (e ++ f) := by
  intro q hq
  rcases List.mem_append.mp hq with hq | hq
  · exact h1 q hq
  · exact h2 q hq

theorem Span.wide {a b a' b' : Nat} {e : Caps} (h : Span a b e) (ha : a' ≤ a) (hb : b ≤ b') : Span a' b' e := by
  intro q hq
  have := h q hq
  exact ⟨by omega, by omega, this.2.2⟩

theorem Span.full {a b : Nat} {e : Caps} (h : Span a b e) : Full e := fun q hq => (h q hq).2.2

theorem span_nil (a b : Nat) : Span a b [] := fun q hq => by cases hq

theorem span_one {a b k : Nat} {x : Str} (h1 : a ≤ k) (h2 : k ≤ b) (hx : x ≠ []) : Span a b [(k, x)] := by
  intro q hq
  have : q = (k, x) := by simpa using hq
  subst this
  exact ⟨h1, h2, hx⟩

theorem span_two {a b k l : Nat} {x y : Str} (h1 : a ≤ k) (h2 : k ≤ b) (hx : x ≠ []) (h3 : a ≤ l) (h4 : l ≤ b) (hy : y ≠ []) :
    Span a b [(k, x), (l, y)] := (span_one h1 h2 hx).append (f := [(l, y)]) (span_one h3 h4 hy)

/-- What the groups for an address say. -/
def Ev (m : String) (g o n : Option Str) : Prop :=
  m = "object-group" ∧ g.isSome = true ∨ m = "object" ∧ g = none ∧ o.isSome = true ∨
    m = "network" ∧ g = none ∧ o = none ∧ n.isSome = true

theorem Ev.method {m : String} {g o n s : Option Str} (h : Ev m g o n) : methodC none g o n s = .ok m.toList := by
  rcases h with ⟨rfl, h⟩ | ⟨rfl, rfl, h⟩ | ⟨rfl, rfl, rfl, h⟩
  · simp [methodC, h]
  · simp [methodC, h]
  · simp [methodC, h]

theorem look_hit {k : Nat} {x : Str} {e : Caps} : List.lookup k ((k, x) :: e) = some x := by simp

theorem look_miss {k l : Nat} {x : Str} {e : Caps} (h : k ≠ l) : List.lookup k ((l, x) :: e) = List.lookup k e := by
  rw [List.lookup_cons]
  have : (k == l) = false := by simpa using h
  rw [this]

theorem addr1_eval {b : Nat} {ws : List Str} {e : Caps} (h : PAddr1 b ws e) :
    Span b (b + 3) e ∧ ∃ m, Address m ws ∧ Ev m (e.lookup b) (e.lookup (b + 1)) (e.lookup (b + 2)) := by
  rcases h with ⟨x, hx, rfl, rfl⟩ | ⟨x, hx, rfl, rfl⟩ | ⟨x, m, hx, hm, rfl, rfl⟩
  · exact ⟨span_one (by omega) (by omega) hx.1, _, .group, .inl ⟨rfl, by rw [look_hit]; rfl⟩⟩
  · exact ⟨span_one (by omega) (by omega) hx.1, _, .object, .inr (.inl ⟨rfl, by rw [look_miss (by omega)]; rfl, by rw [look_hit]; rfl⟩)⟩
  · exact ⟨span_two (by omega) (by omega) (quad_is_word hm).1 (by omega) (by omega) hx.1, _, .net hm,
      .inr (.inr ⟨rfl, by rw [look_miss (by omega), look_miss (by omega)]; rfl, by rw [look_miss (by omega), look_miss (by omega)]; rfl,
        by rw [look_miss (by omega), look_hit]; rfl⟩)⟩

theorem addr2_eval {b : Nat} {ws : List Str} {e : Caps} (h : PAddr2 b ws e) :
    Span b (b + 5) e ∧ ∃ m, Address m ws ∧
      Ev m (e.lookup (b + 3)) (e.lookup (b + 2)) ((e.lookup b).or ((e.lookup (b + 1)).or (e.lookup (b + 4)))) := by
  rcases h with ⟨x, hx, rfl, rfl⟩ | ⟨x, hx, rfl, rfl⟩ | ⟨x, hx, rfl, rfl⟩ | ⟨x, hx, rfl, rfl⟩ | ⟨x, m, hx, hm, rfl, rfl⟩
  · have hw : x ≠ [] ∧ Address "network" [x] := by
      simp only [wd, List.map_cons, List.map_nil, List.mem_cons, List.not_mem_nil, or_false] at hx
      rcases hx with rfl | rfl
      · exact ⟨by simp, .any⟩
      · exact ⟨by simp, .any4⟩
    exact ⟨span_one (by omega) (by omega) hw.1, _, hw.2,
      .inr (.inr ⟨rfl, by rw [look_miss (by omega)]; rfl, by rw [look_miss (by omega)]; rfl, by rw [look_hit]; rfl⟩)⟩
  · exact ⟨span_one (by omega) (by omega) hx.1, _, .host,
      .inr (.inr ⟨rfl, by rw [look_miss (by omega)]; rfl, by rw [look_miss (by omega)]; rfl,
        by rw [look_miss (by omega), look_hit]; rfl⟩)⟩
  · exact ⟨span_one (by omega) (by omega) hx.1, _, .object, .inr (.inl ⟨rfl, by rw [look_miss (by omega)]; rfl, by rw [look_hit]; rfl⟩)⟩
  · exact ⟨span_one (by omega) (by omega) hx.1, _, .group, .inl ⟨rfl, by rw [look_hit]; rfl⟩⟩
  · exact ⟨span_two (by omega) (by omega) (quad_is_word hm).1 (by omega) (by omega) hx.1, _, .net hm,
      .inr (.inr ⟨rfl, by rw [look_miss (by omega), look_miss (by omega)]; rfl, by rw [look_miss (by omega), look_miss (by omega)]; rfl,
        by rw [look_miss (by omega), look_miss (by omega), look_miss (by omega), look_miss (by omega), look_miss (by omega), look_hit]; rfl⟩)⟩

theorem digs_num {p : Str} (h : Digs p) : pyInt p = .ok (natVal p : Int) := by
  refine pyInt_digits ?_
  rw [allDigits, Bool.and_eq_true]
  refine ⟨by simpa using h.1, List.all_eq_true.mpr h.2⟩

theorem digs_proto {p : Str} (h : Digs p) : protoNumber p = .ok (natVal p : Int) := by
  have : asaIpProtocols.lookup p = none := by
    cases hl : asaIpProtocols.lookup p with
    | none => rfl
    | some v =>
      exfalso
      have key : ∀ q ∈ asaIpProtocols, ∃ c ∈ q.1, isDigit c = false := by decide +kernel
      have hm : ∀ l : List (Str × Int), l.lookup p = some v → ∃ q ∈ l, q.1 = p := by
        intro l hl
        induction l with
        | nil => cases hl
        | cons q l ih =>
          rw [List.lookup_cons] at hl
          split at hl
          · rename_i hb
            exact ⟨q, by simp, (by simpa using hb : p = q.1).symm⟩
          · obtain ⟨q', h1, h2⟩ := ih hl
            exact ⟨q', by simp [h1], h2⟩
      obtain ⟨q, hq, rfl⟩ := hm _ hl
      obtain ⟨c, hc, hd⟩ := key q hq
      rw [h.2 c hc] at hd
      cases hd
  rw [protoNumber, this]
  exact digs_num h

theorem proto_eval {a b : Nat} (hab : b = a + 1) {ws : List Str} {e : Caps} (h : PProto a b ws e) :
    Span a b e ∧ ∃ n obj, Protocol ws n obj ∧ protoC none (e.lookup b) none (e.lookup a) = .ok (n, some obj) := by
  rcases h with ⟨x, hx, rfl, rfl⟩ | ⟨p, hp, rfl, rfl⟩
  · refine ⟨span_one (by omega) (by omega) hx.1, _, _, .group, ?_⟩
    rw [look_hit, look_miss (by omega)]
    rfl
  · rw [look_hit, look_miss (by omega)]
    rcases hp with hp | hp
    · obtain ⟨s, hs, rfl⟩ := List.mem_map.mp hp
      have key : ∀ s ∈ protoNames, ∃ q ∈ [("ip", 0), ("tcp", 6), ("udp", 17), ("ah", 51), ("eigrp", 88), ("esp", 50), ("gre", 47),
          ("igmp", 2), ("igrp", 9), ("ipinip", 4), ("ipsec", 50), ("ospf", 89), ("pcp", 108), ("pim", 103), ("pptp", 47), ("snp", 109)],
          q.1 = s ∧ protoNumber s.toList = .ok (q.2 : Nat) ∧ s.toList ≠ [] := by decide +kernel
      obtain ⟨⟨s', n⟩, h1, rfl, h3, h4⟩ := key s hs
      refine ⟨span_one (by omega) (by omega) h4, _, _, .name h1, ?_⟩
      show (do .ok (← protoNumber s'.toList, some [])) = _
      rw [h3]
      rfl
    · refine ⟨span_one (by omega) (by omega) hp.1, _, _, .number hp, ?_⟩
      show (do .ok (← protoNumber p, some [])) = _
      rw [digs_proto hp]
      rfl

theorem port_eval {b : Nat} {ws : List Str} {e : Caps} (h : Or2 (PPort b) Void ws e) : Span b (b + 4) e ∧ Ports ws := by
  rcases h with (⟨o, p, ho, hp, rfl, rfl⟩ | ⟨x, y, hx, hy, rfl, rfl⟩ | ⟨x, hx, rfl, rfl⟩) | ⟨rfl, rfl⟩
  · refine ⟨span_two (by omega) (by omega) hp.1 (by omega) (by omega) ?_, .cmp ho⟩
    rintro rfl
    revert ho
    decide
  · exact ⟨span_two (by omega) (by omega) hy.1 (by omega) (by omega) hx.1, .range⟩
  · exact ⟨span_one (by omega) (by omega) hx.1, .group⟩
  · exact ⟨span_nil _ _, .all⟩

theorem level_ne {l : Str} (h : Level l) : l ≠ [] := by
  rintro rfl
  rw [Level] at h
  revert h
  decide

theorem tail_eval {b : Nat} {ws : List Str} {e : Caps} (h : PTail b ws e) : Span b (b + 5) e ∧
    ∃ lw xw tw i l, ws = lw ++ xw ++ tw ∧ Logs lw (e.lookup b).isSome i l ∧
      logC (e.lookup b) (e.lookup (b + 1)) (e.lookup (b + 2)) = .ok (i, l) ∧ Disabled xw (e.lookup (b + 3)).isSome ∧
      When tw (e.lookup (b + 5)) := by
  obtain ⟨lw, _, le, _, hl, ⟨xw, tw, xe, te, hx, ht, rfl, rfl⟩, rfl, rfl⟩ := h
  have h1 : Span b (b + 2) le ∧ ∃ i l, Logs lw (le.lookup b).isSome i l ∧
      logC (le.lookup b) (le.lookup (b + 1)) (le.lookup (b + 2)) = .ok (i, l) := by
    rcases hl with ⟨lv, lve, iv, ive, h1, h2, rfl, rfl⟩ | ⟨rfl, rfl⟩
    · have hg : Span b (b + 2) [(b, "log".toList)] := span_one (by omega) (by omega) (by simp)
      rcases h1 with ⟨x, hx, rfl, rfl⟩ | ⟨rfl, rfl⟩ <;> rcases h2 with ⟨⟨i, _, rfl, rfl⟩, j, hj, hd⟩ | ⟨rfl, rfl⟩
      · cases hj
        refine ⟨((span_one (by omega) (by omega) hd.1).append (span_one (by omega) (by omega) (level_ne hx))).append hg, natVal i, x, ?_⟩
        simp only [List.cons_append, List.nil_append]
        rw [look_miss (by omega), look_miss (by omega), look_hit, look_miss (by omega), look_hit, look_hit]
        refine ⟨.both hx hd, ?_⟩
        simp only [logC, Option.isSome_some, Bool.true_eq_false, if_false, digs_num hd]
        rfl
      · refine ⟨((span_nil _ _).append (span_one (by omega) (by omega) (level_ne hx))).append hg, 300, x, ?_⟩
        simp only [List.cons_append, List.nil_append]
        rw [look_miss (by omega), look_hit, look_hit, look_miss (by omega), look_miss (by omega)]
        exact ⟨.level hx, rfl⟩
      · cases hj
        refine ⟨((span_one (by omega) (by omega) hd.1).append (span_nil _ _)).append hg, natVal i, "informational".toList, ?_⟩
        simp only [List.cons_append, List.nil_append]
        rw [look_miss (by omega), look_hit, look_miss (by omega), look_miss (by omega), look_hit]
        refine ⟨.interval hd, ?_⟩
        simp only [logC, Option.isSome_some, Bool.true_eq_false, if_false, digs_num hd]
        rfl
      · refine ⟨((span_nil _ _).append (span_nil _ _)).append hg, 300, "informational".toList, ?_⟩
        simp only [List.nil_append]
        rw [look_hit, look_miss (by omega), look_miss (by omega)]
        exact ⟨.plain, rfl⟩
    · exact ⟨span_nil _ _, _, _, .off, rfl⟩
  have h2 : Span (b + 3) (b + 3) xe ∧ Disabled xw (xe.lookup (b + 3)).isSome := by
    rcases hx with ⟨_, rfl, rfl, rfl⟩ | ⟨rfl, rfl⟩
    · exact ⟨span_one (by omega) (by omega) (by simp), by rw [look_hit]; exact .yes⟩
    · exact ⟨span_nil _ _, .no⟩
  have h3 : Span (b + 4) (b + 5) te ∧ When tw (te.lookup (b + 5)) := by
    rcases ht with ⟨_, rfl, rfl, rfl⟩ | ⟨x, hx, rfl, rfl⟩ | ⟨rfl, rfl⟩
    · exact ⟨span_one (by omega) (by omega) (by simp), by rw [look_miss (by omega)]; exact .never⟩
    · exact ⟨span_one (by omega) (by omega) hx.1, by rw [look_hit]; exact .range⟩
    · exact ⟨span_nil _ _, .always⟩
  obtain ⟨s1, i, l, h4, h5⟩ := h1
  obtain ⟨s2, h6⟩ := h2
  obtain ⟨s3, h7⟩ := h3
  have n1 : ∀ k, b ≤ k → k ≤ b + 2 → (te ++ xe ++ le).lookup k = le.lookup k := by
    intro k hk hk'
    rw [List.lookup_append, List.lookup_append, s3.none (by omega), s2.none (by omega)]
    rfl
  refine ⟨((s3.wide (by omega) (by omega)).append (s2.wide (by omega) (by omega))).append (s1.wide (by omega) (by omega)),
    lw, xw, tw, i, l, by simp, ?_, ?_, ?_, ?_⟩
  · rw [n1 b (by omega) (by omega)]; exact h4
  · rw [n1 b (by omega) (by omega), n1 (b + 1) (by omega) (by omega), n1 (b + 2) (by omega) (by omega)]; exact h5
  · rw [List.lookup_append, List.lookup_append, s3.none (by omega), s1.none (by omega), Option.none_or, Option.or_none]
    exact h6
  · rw [List.lookup_append, List.lookup_append, s2.none (by omega), s1.none (by omega), Option.or_none, Option.or_none]
    exact h7

theorem head_eval {k a : Nat} {kind : String} {ws : List Str} {e : Caps} (hka : a = k + 1) (h : PHead k a kind ws e) :
    Span k a e ∧ ∃ name act, Action act ∧ ws = firstWords name kind act ∧ e.lookup k = some name ∧ e.lookup a = some act := by
  obtain ⟨name, act, hn, ha, rfl, rfl⟩ := h
  refine ⟨span_two (by omega) (by omega) ?_ (by omega) (by omega) hn.1, name, act, ha, rfl, ?_, ?_⟩
  · rintro rfl
    rw [Action] at ha
    revert ha
    decide
  · rw [look_miss (by omega), look_hit]
  · rw [look_hit]

end Asa

import Verif.Asa.AclSpec
import Verif.Re.Tok
import Verif.Cisco.RouteProps

/-! # The expression for ASA access list lines -/

namespace Asa

open Py Re Cisco
open Asa.Spec hiding Remark
open Cisco.Spec (wd)

/-- A literal, as a list. -/
def strL (w : String) : List Rgx := (str w.toList .done).toL

def altsOf (ws : List String) : Rgx := alts (ws.map (fun w => litR w.toList))

def actionR : Rgx := altsOf ["permit", "deny"]

def quadR : Rgx := seqs [digR, .cls (K.cls (.chr '.')), digR, .cls (K.cls (.chr '.')), digR, .cls (K.cls (.chr '.')), digR]

/-- `access-list NAME kind ACTION` -/
def headL (k a : Nat) (kind : String) : List Rgx :=
  strL "access-list" ++ ([spR, .grp k wordR] ++ ((spR :: strL kind) ++ [spR, .grp a actionR]))

def protoNames : List String :=
  ["ip", "tcp", "udp", "ah", "eigrp", "esp", "gre", "igmp", "igrp", "ipinip", "ipsec", "ospf", "pcp", "pim", "pptp", "snp"]

/-- `word NAME` -/
def pairL (w : String) (k : Nat) : List Rgx := strL w ++ [spR, .grp k wordR]

def protoR (a b : Nat) : Rgx :=
  .alt (seqs (pairL "object-group" a)) (.grp b (alts (protoNames.map (fun w => litR w.toList) ++ [digR])))

def netL (a b : Nat) : List Rgx := [.grp a wordR] ++ [spR, .grp b quadR]

/-- The addresses of the first expression for extended lists. -/
def addr1 (b : Nat) : Rgx :=
  .alt (seqs (pairL "object-group" b)) (.alt (seqs (pairL "object" (b + 1))) (seqs (netL (b + 2) (b + 3))))

/-- The addresses of the others. -/
def addr2 (b : Nat) : Rgx :=
  .alt (.grp b (altsOf ["any", "any4"])) (.alt (seqs (pairL "host" (b + 1))) (.alt (seqs (pairL "object" (b + 2)))
    (.alt (seqs (pairL "object-group" (b + 3))) (seqs (netL (b + 4) (b + 5))))))

def portR (b : Nat) : Rgx :=
  .alt (seqs ([.grp b (altsOf ["eq", "neq", "lt", "gt"])] ++ [spR, .grp (b + 1) wordR]))
    (.alt (seqs (strL "range" ++ ([spR, .grp (b + 2) wordR] ++ [spR, .grp (b + 3) wordR]))) (seqs (pairL "object-group" (b + 4))))

def levelNames : List String :=
  ["alerts", "critical", "debugging", "emergencies", "errors", "informational", "notifications", "warnings"]

def levelR : Rgx := alts (levelNames.map (fun w => litR w.toList) ++ [.cls ⟨[.range '0' '7'], false, false⟩])

def logR (b : Nat) : Rgx :=
  seqs ([spR, .grp b (litR "log".toList)] ++ ([.opt true (seqs [spR, .grp (b + 1) levelR])] ++
    [.opt true (seqs ((spR :: strL "interval") ++ [spR, .grp (b + 2) digR]))]))

def whenR (b : Nat) : Rgx :=
  .alt (seqs [spR, .grp b (litR "inactive".toList)]) (seqs ((spR :: strL "time-range") ++ [spR, .grp (b + 1) wordR]))

/-- What may follow the addresses. -/
def tailL (b : Nat) : List Rgx :=
  [.opt true (logR b)] ++ ([.opt true (seqs [spR, .grp (b + 3) (litR "disable".toList)])] ++ [.opt true (whenR (b + 4))])

def alt0 : Rgx := .grp 1 (seqs (.bol :: (strL "access-list" ++ ([spR, .grp 2 wordR] ++ ([spR, .grp 3 (litR "remark".toList)] ++
  [spR, .grp 4 (.seq (.cls K.nonspace.cls) (.seq (.cls K.any.cls) (.star false (.cls K.any.cls)))), .eol])))))

def alt1L : List Rgx := headL 5 6 "extended" ++ ([spR, protoR 7 8] ++ ([spR, addr1 9] ++ ([spR, addr1 13] ++ tailL 17)))

def alt2L : List Rgx := headL 23 24 "extended" ++ ([spR, protoR 25 26] ++ ([seqs [spR, addr2 27]] ++
  ([.opt true (seqs [spR, portR 33])] ++ ([seqs [spR, addr2 38]] ++ ([.opt true (seqs [spR, portR 44])] ++ tailL 49)))))

def alt3R : Rgx := .alt (.grp 57 (altsOf ["any", "any4"])) (.alt (seqs (pairL "host" 58)) (seqs (netL 59 60)))

def alt3L : List Rgx := headL 55 56 "standard" ++ [spR, alt3R]

def icmpNames : List String :=
  ["alternate-address", "conversion-error", "echo-reply", "echo", "information-reply", "information-request", "mask-reply",
    "mask-request", "mobile-redirect", "parameter-problem", "redirect", "router-advertisement", "router-solicitation",
    "source-quench", "time-exceeded", "timestamp-reply", "timestamp-request", "traceroute", "unreachable"]

def icmpTail : List Rgx := [.opt true (seqs [spR, .grp 76 (alts (icmpNames.map (fun w => litR w.toList) ++ [digR]))])] ++ tailL 77

def alt4L : List Rgx := headL 61 62 "extended" ++ ([spR, .grp 63 (litR "icmp".toList)] ++ [seqs [spR, addr2 64]])

def aclRgx : Rgx :=
  .alt alt0 (.alt (seqs (.bol :: (alt1L ++ endL))) (.alt (seqs (.bol :: (alt2L ++ endL))) (.alt (seqs (.bol :: alt3L))
    (seqs (.bol :: (alt4L ++ (seqs [spR, addr2 70] :: icmpTail)))))))

def aclNames : List (Str × Nat) := [
  ("acl_name0".toList, 2), ("action0".toList, 3), ("remark".toList, 4),
  ("acl_name1".toList, 5), ("action1".toList, 6), ("service_object1".toList, 7), ("protocol1".toList, 8),
  ("src_networkobject1".toList, 9), ("src_object1".toList, 10), ("src_network1a".toList, 11), ("src_netmask1a".toList, 12),
  ("dst_networkobject1".toList, 13), ("dst_object1".toList, 14), ("dst_network1a".toList, 15), ("dst_netmask1a".toList, 16),
  ("log1".toList, 17), ("loglevel1".toList, 18), ("log_interval1".toList, 19), ("disable1".toList, 20), ("inactive1".toList, 21),
  ("time_range1".toList, 22),
  ("acl_name2".toList, 23), ("action2".toList, 24), ("service_object2".toList, 25), ("protocol2".toList, 26),
  ("src_network2a".toList, 27), ("src_network2b".toList, 28), ("src_object2".toList, 29), ("src_networkobject2".toList, 30),
  ("src_network2c".toList, 31), ("src_netmask2c".toList, 32), ("src_port_operator".toList, 33), ("src_port".toList, 34),
  ("src_port_low".toList, 35), ("src_port_high".toList, 36), ("src_service_object".toList, 37),
  ("dst_network2a".toList, 38), ("dst_network2b".toList, 39), ("dst_object2".toList, 40), ("dst_networkobject2".toList, 41),
  ("dst_network2c".toList, 42), ("dst_netmask2c".toList, 43), ("dst_port_operator".toList, 44), ("dst_port".toList, 45),
  ("dst_port_low".toList, 46), ("dst_port_high".toList, 47), ("dst_service_object".toList, 48),
  ("log2".toList, 49), ("loglevel2".toList, 50), ("log_interval2".toList, 51), ("disable2".toList, 52), ("inactive2".toList, 53),
  ("time_range2".toList, 54),
  ("acl_name3".toList, 55), ("action3".toList, 56), ("dst_network3a".toList, 57), ("dst_network3b".toList, 58),
  ("dst_network3c".toList, 59), ("dst_netmask3c".toList, 60),
  ("acl_name4".toList, 61), ("action4".toList, 62), ("protocol4".toList, 63),
  ("src_network4a".toList, 64), ("src_network4b".toList, 65), ("src_object4".toList, 66), ("src_networkobject4".toList, 67),
  ("src_network4c".toList, 68), ("src_netmask4c".toList, 69),
  ("dst_network4a".toList, 70), ("dst_network4b".toList, 71), ("dst_object4".toList, 72), ("dst_networkobject4".toList, 73),
  ("dst_network4c".toList, 74), ("dst_netmask4c".toList, 75), ("icmp_proto4".toList, 76),
  ("log4".toList, 77), ("loglevel4".toList, 78), ("log_interval4".toList, 79), ("disable4".toList, 80), ("inactive4".toList, 81),
  ("time_range4".toList, 82)]

theorem compile_acl : compileL reAclObject { verbose := true } = .ok ⟨aclRgx, 82, aclNames⟩ := by decide +kernel

/-! ## The words of the parts -/

theorem word_of {s : String} (h : (s.toList != [] && s.toList.all (fun c => !isSpace c)) = true) : IsWord s.toList := by
  simp only [Bool.and_eq_true, bne_iff_ne, List.all_eq_true] at h
  exact ⟨h.1, fun c hc => by simpa using h.2 c hc⟩

theorem tw_lit (n : Nat) {w : String} (h : (w.toList != [] && w.toList.all (fun c => !isSpace c)) = true) :
    Tw n (seqs (strL w)) (One none (· = w.toList)) := (wd_lit n (word_of h)).tw

theorem one_ne {o : Option Nat} {Q : Str → Prop} {ws : List Str} {e : Caps} (h : One o Q ws e) : ws ≠ [] := by
  obtain ⟨x, _, rfl, _⟩ := h
  simp

theorem tk_word (n k : Nat) : Tk n (seqs [spR, .grp k wordR]) (One (some k) IsWord) :=
  Tw.sp (l := [.grp k wordR]) (wd_word n).grp (fun _ _ h => one_ne h)

theorem tk_lit (n : Nat) {w : String} (h : (w.toList != [] && w.toList.all (fun c => !isSpace c)) = true) :
    Tk n (seqs (spR :: strL w)) (One none (· = w.toList)) := (tw_lit n h).sp (fun _ _ h => one_ne h)

theorem wd_altsOf (n : Nat) {ws : List String} (hne : ws ≠ [])
    (h : (ws.all (fun s => s.toList != [] && s.toList.all (fun c => !isSpace c))) = true) : Wd n (altsOf ws) (· ∈ wd ws) := by
  have e : ws.map (fun w => litR w.toList) = (wd ws).map litR := by rw [wd, List.map_map]; rfl
  rw [altsOf, e]
  refine wd_list n _ (by simpa [wd] using hne) ?_
  intro w hw
  obtain ⟨s, hs, rfl⟩ := List.mem_map.mp hw
  exact word_of (List.all_eq_true.mp h s hs)

theorem wd_altsOf' (n : Nat) {ws : List String} {r : Rgx} {Q : Str → Prop} (hr : Wd n r Q)
    (h : (ws.all (fun s => s.toList != [] && s.toList.all (fun c => !isSpace c))) = true) :
    Wd n (alts (ws.map (fun w => litR w.toList) ++ [r])) (fun x => x ∈ wd ws ∨ Q x) := by
  have e : ws.map (fun w => litR w.toList) = (wd ws).map litR := by rw [wd, List.map_map]; rfl
  rw [e]
  refine wd_lits n hr _ ?_
  intro w hw
  obtain ⟨s, hs, rfl⟩ := List.mem_map.mp hw
  exact word_of (List.all_eq_true.mp h s hs)

theorem wd_quad (n : Nat) : Wd n quadR Cisco.Spec.DottedQuad := by
  refine ⟨rfl, ?_, fun x hx => quad_is_word hx⟩
  intro u v
  simp only [quadR, lang_cons, lang_nil, lang_cls, digR, lang_plus, K.has, beq_iff_eq]
  constructor
  · rintro ⟨_, ⟨a, rfl, a1, a2⟩, _, ⟨_, rfl, rfl⟩, _, ⟨b, rfl, b1, b2⟩, _, ⟨_, rfl, rfl⟩, _, ⟨c, rfl, c1, c2⟩, _, ⟨_, rfl, rfl⟩, _,
      ⟨d, rfl, d1, d2⟩, rfl⟩
    refine ⟨a ++ '.' :: b ++ '.' :: c ++ '.' :: d, by simp, a, b, c, d, rfl, ?_⟩
    intro s hs
    simp only [List.mem_cons, List.not_mem_nil, or_false] at hs
    rcases hs with rfl | rfl | rfl | rfl
    · exact ⟨a1, a2⟩
    · exact ⟨b1, b2⟩
    · exact ⟨c1, c2⟩
    · exact ⟨d1, d2⟩
  · rintro ⟨_, rfl, a, b, c, d, rfl, h⟩
    have ha := h a (by simp)
    have hb := h b (by simp)
    have hc := h c (by simp)
    have hd := h d (by simp)
    exact ⟨_, ⟨a, by simp [List.append_assoc], ha.1, ha.2⟩, _, ⟨'.', rfl, rfl⟩, _, ⟨b, rfl, hb.1, hb.2⟩, _, ⟨'.', rfl, rfl⟩, _,
      ⟨c, rfl, hc.1, hc.2⟩, _, ⟨'.', rfl, rfl⟩, _, ⟨d, rfl, hd.1, hd.2⟩, rfl⟩

/-- A word and a name. -/
def PPair (w : String) (k : Nat) (ws : List Str) (e : Caps) : Prop := ∃ x, IsWord x ∧ ws = [w.toList, x] ∧ e = [(k, x)]

theorem tw_pair (n : Nat) {w : String} (h : (w.toList != [] && w.toList.all (fun c => !isSpace c)) = true) (k : Nat) :
    Tw n (seqs (pairL w k)) (PPair w k) := by
  refine ((tw_lit n h).append (tk_word n k)).mono ?_
  intro ws e
  constructor
  · rintro ⟨_, _, _, _, ⟨_, rfl, rfl, rfl⟩, ⟨x, hx, rfl, rfl⟩, rfl, rfl⟩
    exact ⟨x, hx, rfl, rfl⟩
  · rintro ⟨x, hx, rfl, rfl⟩
    exact ⟨_, _, _, _, ⟨_, rfl, rfl, rfl⟩, ⟨x, hx, rfl, rfl⟩, rfl, rfl⟩

def PHead (k a : Nat) (kind : String) (ws : List Str) (e : Caps) : Prop :=
  ∃ name act, IsWord name ∧ Action act ∧ ws = firstWords name kind act ∧ e = [(a, act), (k, name)]

theorem tw_head (n k a : Nat) {kind : String} (h : (kind.toList != [] && kind.toList.all (fun c => !isSpace c)) = true) :
    Tw n (seqs (headL k a kind)) (PHead k a kind) := by
  have hact : Tk n (seqs [spR, .grp a actionR]) (One (some a) (· ∈ wd ["permit", "deny"])) :=
    Tw.sp (l := [.grp a actionR]) (wd_altsOf n (by simp) (by decide)).grp (fun _ _ h => one_ne h)
  refine ((tw_lit n (by decide)).append ((tk_word n k).append ((tk_lit n h).append hact))).mono ?_
  intro ws e
  constructor
  · rintro ⟨_, _, _, _, ⟨_, rfl, rfl, rfl⟩, ⟨_, _, _, _, ⟨name, hn, rfl, rfl⟩, ⟨_, _, _, _, ⟨_, rfl, rfl, rfl⟩, ⟨act, ha, rfl, rfl⟩, rfl,
      rfl⟩, rfl, rfl⟩, rfl, rfl⟩
    exact ⟨name, act, hn, ha, rfl, rfl⟩
  · rintro ⟨name, act, hn, ha, rfl, rfl⟩
    exact ⟨_, _, _, _, ⟨_, rfl, rfl, rfl⟩, ⟨_, _, _, _, ⟨name, hn, rfl, rfl⟩, ⟨_, _, _, _, ⟨_, rfl, rfl, rfl⟩, ⟨act, ha, rfl, rfl⟩, rfl,
      rfl⟩, rfl, rfl⟩, rfl, rfl⟩

def PProto (a b : Nat) (ws : List Str) (e : Caps) : Prop :=
  PPair "object-group" a ws e ∨ ∃ p, (p ∈ wd protoNames ∨ Digs p) ∧ ws = [p] ∧ e = [(b, p)]

theorem tk_proto (n a b : Nat) : Tk n (seqs [spR, protoR a b]) (PProto a b) :=
  Tw.sp (l := [protoR a b]) ((tw_pair n (by decide) a).alt (wd_altsOf' n (wd_dig n) (by decide)).grp) (by
    rintro ws e (⟨x, _, rfl, _⟩ | ⟨p, _, rfl, _⟩) <;> simp)

def PNet (a b : Nat) (ws : List Str) (e : Caps) : Prop :=
  ∃ x m, IsWord x ∧ Cisco.Spec.DottedQuad m ∧ ws = [x, m] ∧ e = [(b, m), (a, x)]

theorem tw_net (n a b : Nat) : Tw n (seqs (netL a b)) (PNet a b) := by
  have h2 : Tk n (seqs [spR, .grp b quadR]) (One (some b) Cisco.Spec.DottedQuad) :=
    Tw.sp (l := [.grp b quadR]) (wd_quad n).grp (fun _ _ h => one_ne h)
  refine (Tw.append (l := [.grp a wordR]) (wd_word n).grp h2).mono ?_
  intro ws e
  constructor
  · rintro ⟨_, _, _, _, ⟨x, hx, rfl, rfl⟩, ⟨m, hm, rfl, rfl⟩, rfl, rfl⟩
    exact ⟨x, m, hx, hm, rfl, rfl⟩
  · rintro ⟨x, m, hx, hm, rfl, rfl⟩
    exact ⟨_, _, _, _, ⟨x, hx, rfl, rfl⟩, ⟨m, hm, rfl, rfl⟩, rfl, rfl⟩

def PAddr1 (b : Nat) (ws : List Str) (e : Caps) : Prop :=
  PPair "object-group" b ws e ∨ PPair "object" (b + 1) ws e ∨ PNet (b + 2) (b + 3) ws e

theorem tw_addr1 (n b : Nat) : Tw n (addr1 b) (PAddr1 b) :=
  (tw_pair n (by decide) b).alt ((tw_pair n (by decide) (b + 1)).alt (tw_net n (b + 2) (b + 3)))

def PAny (b : Nat) : List Str → Caps → Prop := One (some b) (· ∈ wd ["any", "any4"])

theorem tw_any (n b : Nat) : Tw n (.grp b (altsOf ["any", "any4"])) (PAny b) := (wd_altsOf n (by simp) (by decide)).grp

def PAddr2 (b : Nat) (ws : List Str) (e : Caps) : Prop :=
  PAny b ws e ∨ PPair "host" (b + 1) ws e ∨ PPair "object" (b + 2) ws e ∨ PPair "object-group" (b + 3) ws e ∨
    PNet (b + 4) (b + 5) ws e

theorem tw_addr2 (n b : Nat) : Tw n (addr2 b) (PAddr2 b) :=
  (tw_any n b).alt ((tw_pair n (by decide) (b + 1)).alt ((tw_pair n (by decide) (b + 2)).alt
    ((tw_pair n (by decide) (b + 3)).alt (tw_net n (b + 4) (b + 5)))))

theorem addr1_ne {b : Nat} {ws : List Str} {e : Caps} (h : PAddr1 b ws e) : ws ≠ [] := by
  rcases h with ⟨x, _, rfl, _⟩ | ⟨x, _, rfl, _⟩ | ⟨x, m, _, _, rfl, _⟩ <;> simp

theorem addr2_ne {b : Nat} {ws : List Str} {e : Caps} (h : PAddr2 b ws e) : ws ≠ [] := by
  rcases h with ⟨x, _, rfl, _⟩ | ⟨x, _, rfl, _⟩ | ⟨x, _, rfl, _⟩ | ⟨x, _, rfl, _⟩ | ⟨x, m, _, _, rfl, _⟩ <;> simp

theorem tk_addr1 (n b : Nat) : Tk n (seqs [spR, addr1 b]) (PAddr1 b) :=
  Tw.sp (l := [addr1 b]) (tw_addr1 n b) (fun _ _ h => addr1_ne h)

theorem tk_addr2 (n b : Nat) : Tk n (seqs [spR, addr2 b]) (PAddr2 b) :=
  Tw.sp (l := [addr2 b]) (tw_addr2 n b) (fun _ _ h => addr2_ne h)

def PPort (b : Nat) (ws : List Str) (e : Caps) : Prop :=
  (∃ o p, o ∈ wd ["eq", "neq", "lt", "gt"] ∧ IsWord p ∧ ws = [o, p] ∧ e = [(b + 1, p), (b, o)]) ∨
  (∃ x y, IsWord x ∧ IsWord y ∧ ws = ["range".toList, x, y] ∧ e = [(b + 3, y), (b + 2, x)]) ∨ PPair "object-group" (b + 4) ws e

theorem tk_port (n b : Nat) : Tk n (.opt true (seqs [spR, portR b])) (Or2 (PPort b) Void) := by
  have h1 := (Tw.append (l := [.grp b (altsOf ["eq", "neq", "lt", "gt"])]) (wd_altsOf n (by simp) (by decide)).grp (tk_word n (b + 1)))
  have h2 := ((tw_lit n (w := "range") (by decide)).append ((tk_word n (b + 2)).append (tk_word n (b + 3))))
  have h3 := tw_pair n (w := "object-group") (by decide) (b + 4)
  have h : Tw n (portR b) (PPort b) := by
    refine (h1.alt (h2.alt h3)).mono ?_
    intro ws e
    constructor
    · rintro (⟨_, _, _, _, ⟨o, ho, rfl, rfl⟩, ⟨p, hp, rfl, rfl⟩, rfl, rfl⟩ |
        ⟨_, _, _, _, ⟨_, rfl, rfl, rfl⟩, ⟨_, _, _, _, ⟨x, hx, rfl, rfl⟩, ⟨y, hy, rfl, rfl⟩, rfl, rfl⟩, rfl, rfl⟩ | h)
      · exact .inl ⟨o, p, ho, hp, rfl, rfl⟩
      · exact .inr (.inl ⟨x, y, hx, hy, rfl, rfl⟩)
      · exact .inr (.inr h)
    · rintro (⟨o, p, ho, hp, rfl, rfl⟩ | ⟨x, y, hx, hy, rfl, rfl⟩ | h)
      · exact .inl ⟨_, _, _, _, ⟨o, ho, rfl, rfl⟩, ⟨p, hp, rfl, rfl⟩, rfl, rfl⟩
      · exact .inr (.inl ⟨_, _, _, _, ⟨_, rfl, rfl, rfl⟩, ⟨_, _, _, _, ⟨x, hx, rfl, rfl⟩, ⟨y, hy, rfl, rfl⟩, rfl, rfl⟩, rfl, rfl⟩)
      · exact .inr (.inr h)
  exact (Tw.sp (l := [portR b]) h (by
    rintro ws e (⟨_, _, _, _, rfl, _⟩ | ⟨_, _, _, _, rfl, _⟩ | ⟨_, _, rfl, _⟩) <;> simp)).opt

theorem wd_level (n : Nat) : Wd n levelR Level := by
  have h1 : Wd n (.cls ⟨[.range '0' '7'], false, false⟩) (· ∈ wd ["0", "1", "2", "3", "4", "5", "6", "7"]) := by
    have key : ∀ a : Char, (⟨[.range '0' '7'], false, false⟩ : Re.Cls).has a = true ↔ [a] ∈ wd ["0", "1", "2", "3", "4", "5", "6", "7"] := by
      intro a
      have e : (⟨[.range '0' '7'], false, false⟩ : Re.Cls).has a = true ↔ 48 ≤ a.toNat ∧ a.toNat ≤ 55 := by
        simp [Re.Cls.has, Item.has]
      rw [e]
      have e2 : [a] ∈ wd ["0", "1", "2", "3", "4", "5", "6", "7"] ↔
          a = '0' ∨ a = '1' ∨ a = '2' ∨ a = '3' ∨ a = '4' ∨ a = '5' ∨ a = '6' ∨ a = '7' := by
        simp [wd]
      rw [e2]
      constructor
      · intro ⟨h1, h2⟩
        have : ∀ (m : Nat), a.toNat = m → a = Char.ofNat m := fun m hm => by rw [← hm, Char.ofNat_toNat]
        have h3 : a.toNat = 48 ∨ a.toNat = 49 ∨ a.toNat = 50 ∨ a.toNat = 51 ∨ a.toNat = 52 ∨ a.toNat = 53 ∨ a.toNat = 54 ∨ a.toNat = 55 := by
          omega
        rcases h3 with h | h | h | h | h | h | h | h <;> simp [this _ h]
      · rintro (rfl | rfl | rfl | rfl | rfl | rfl | rfl | rfl) <;> decide
    refine ⟨rfl, ?_, ?_⟩
    · intro u v
      rw [Lang]
      constructor
      · rintro ⟨a, rfl, h⟩
        exact ⟨[a], rfl, (key a).mp h⟩
      · rintro ⟨x, rfl, h⟩
        have : ∃ a, x = [a] := by
          simp only [wd, List.map_cons, List.map_nil, List.mem_cons, List.not_mem_nil, or_false] at h
          rcases h with rfl | rfl | rfl | rfl | rfl | rfl | rfl | rfl <;> exact ⟨_, rfl⟩
        obtain ⟨a, rfl⟩ := this
        exact ⟨a, rfl, (key a).mpr h⟩
    · intro x h
      obtain ⟨s, hs, rfl⟩ := List.mem_map.mp h
      exact word_of (List.all_eq_true.mp (show (["0", "1", "2", "3", "4", "5", "6", "7"].all
        (fun s => s.toList != [] && s.toList.all (fun c => !isSpace c))) = true by decide) s hs)
  refine (wd_altsOf' n h1 (ws := levelNames) (by decide)).mono ?_
  intro x
  simp only [Level, wd, levelNames, List.map_cons, List.map_nil, List.mem_cons, List.not_mem_nil, or_false, or_assoc]

/-- `log`, a level and an interval. -/
def PLog (b : Nat) (ws : List Str) (e : Caps) : Prop :=
  ∃ lw le iw ie, (One (some (b + 1)) Level lw le ∨ Void lw le) ∧ (PPair "interval" (b + 2) iw ie ∧ (∃ i, iw = ["interval".toList, i] ∧ Digs i) ∨
    Void iw ie) ∧ ws = "log".toList :: (lw ++ iw) ∧ e = ie ++ le ++ [(b, "log".toList)]

theorem tk_log (n b : Nat) : Tk n (.opt true (logR b)) (Or2 (PLog b) Void) := by
  have h1 : Tw n (.grp b (litR "log".toList)) (One (some b) (· = "log".toList)) := (wd_lit n (word_of (by decide))).grp
  have h2 : Tk n (.opt true (seqs [spR, .grp (b + 1) levelR])) (Or2 (One (some (b + 1)) Level) Void) :=
    (Tw.sp (l := [.grp (b + 1) levelR]) (wd_level n).grp (fun _ _ h => one_ne h)).opt
  have h3 : Tk n (.opt true (seqs ((spR :: strL "interval") ++ [spR, .grp (b + 2) digR])))
      (Or2 (Then (One none (· = "interval".toList)) (One (some (b + 2)) Digs)) Void) :=
    ((tk_lit n (by decide)).append (Tw.sp (l := [.grp (b + 2) digR]) (wd_dig n).grp (fun _ _ h => one_ne h))).opt
  have h4 : Tk n (logR b) _ := (Tw.sp (l := [.grp b (litR "log".toList)]) h1 (fun _ _ h => one_ne h)).append (Tk.append (l := [_]) h2 (l' := [_]) h3)
  have e : Then (One (some b) (· = "log".toList)) (Then (Or2 (One (some (b + 1)) Level) Void)
      (Or2 (Then (One none (· = "interval".toList)) (One (some (b + 2)) Digs)) Void)) = PLog b := by
    funext ws e
    refine propext ⟨?_, ?_⟩
    · rintro ⟨_, _, _, _, ⟨_, rfl, rfl, rfl⟩, ⟨lw, iw, le, ie, hl, hi, rfl, rfl⟩, rfl, rfl⟩
      refine ⟨lw, le, iw, ie, hl, ?_, rfl, rfl⟩
      rcases hi with ⟨_, _, _, _, ⟨_, rfl, rfl, rfl⟩, ⟨i, hi, rfl, rfl⟩, rfl, rfl⟩ | hi
      · exact .inl ⟨⟨i, hi.word, rfl, rfl⟩, i, rfl, hi⟩
      · exact .inr hi
    · rintro ⟨lw, le, iw, ie, hl, hi, rfl, rfl⟩
      refine ⟨_, _, _, _, ⟨_, rfl, rfl, rfl⟩, ⟨lw, iw, le, ie, hl, ?_, rfl, rfl⟩, rfl, rfl⟩
      rcases hi with ⟨⟨i, _, rfl, rfl⟩, j, hj, hd⟩ | hi
      · cases hj
        exact .inl ⟨_, _, _, _, ⟨_, rfl, rfl, rfl⟩, ⟨i, hd, rfl, rfl⟩, rfl, rfl⟩
      · exact .inr hi
  rw [e] at h4
  exact h4.opt

def PDis (b : Nat) : List Str → Caps → Prop := Or2 (One (some b) (· = "disable".toList)) Void

theorem tk_dis (n b : Nat) : Tk n (.opt true (seqs [spR, .grp b (litR "disable".toList)])) (PDis b) :=
  (Tw.sp (l := [.grp b (litR "disable".toList)]) (wd_lit n (word_of (by decide))).grp (fun _ _ h => one_ne h)).opt

def PWhen (b : Nat) (ws : List Str) (e : Caps) : Prop :=
  One (some b) (· = "inactive".toList) ws e ∨ PPair "time-range" (b + 1) ws e ∨ Void ws e

theorem tk_when (n b : Nat) : Tk n (.opt true (whenR b)) (PWhen b) := by
  have h1 : Tk n (seqs [spR, .grp b (litR "inactive".toList)]) (One (some b) (· = "inactive".toList)) :=
    Tw.sp (l := [.grp b (litR "inactive".toList)]) (wd_lit n (word_of (by decide))).grp (fun _ _ h => one_ne h)
  have h2 : Tk n (seqs ((spR :: strL "time-range") ++ [spR, .grp (b + 1) wordR])) (PPair "time-range" (b + 1)) :=
    Tw.sp (l := strL "time-range" ++ [spR, .grp (b + 1) wordR]) (tw_pair n (by decide) (b + 1)) (by rintro ws e ⟨x, _, rfl, _⟩; simp)
  have h := (h1.alt h2).opt (g := true)
  have e : Or2 (Or2 (One (some b) (· = "inactive".toList)) (PPair "time-range" (b + 1))) Void = PWhen b := by
    funext ws e
    exact propext or_assoc
  rw [e] at h
  exact h

/-- What may follow the addresses. -/
def PTail (b : Nat) : List Str → Caps → Prop := Then (Or2 (PLog b) Void) (Then (PDis (b + 3)) (PWhen (b + 4)))

theorem tk_tail (n b : Nat) : Tk n (seqs (tailL b)) (PTail b) :=
  Tk.append (l := [_]) (tk_log n b) (Tk.append (l := [_]) (tk_dis n (b + 3)) (l' := [_]) (tk_when n (b + 4)))

def PAlt1 : List Str → Caps → Prop :=
  Then (PHead 5 6 "extended") (Then (PProto 7 8) (Then (PAddr1 9) (Then (PAddr1 13) (PTail 17))))

theorem tw_alt1 (n : Nat) : Tw n (seqs alt1L) PAlt1 :=
  (tw_head n 5 6 (by decide)).append ((tk_proto n 7 8).append ((tk_addr1 n 9).append ((tk_addr1 n 13).append (tk_tail n 17))))

def PAlt2 : List Str → Caps → Prop :=
  Then (PHead 23 24 "extended") (Then (PProto 25 26) (Then (PAddr2 27) (Then (Or2 (PPort 33) Void) (Then (PAddr2 38)
    (Then (Or2 (PPort 44) Void) (PTail 49))))))

theorem tw_alt2 (n : Nat) : Tw n (seqs alt2L) PAlt2 :=
  (tw_head n 23 24 (by decide)).append ((tk_proto n 25 26).append (Tk.append (l := [_]) (tk_addr2 n 27)
    (Tk.append (l := [_]) (tk_port n 33) (Tk.append (l := [_]) (tk_addr2 n 38) (Tk.append (l := [_]) (tk_port n 44) (tk_tail n 49))))))

end Asa

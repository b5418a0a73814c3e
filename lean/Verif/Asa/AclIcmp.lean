import Verif.Asa.AclParse
import Verif.Re.Head

/-! # ASA access list lines for ICMP: the first match -/

namespace Asa

open Py Re Cisco
open Asa.Spec
open Cisco.Spec (wd)

/-! ## What follows the addresses -/

/-- The first word, if there is one, is one of these. -/
def Next (K : List String) (ws : List Str) : Prop := ∀ y rest, ws = y :: rest → y ∈ wd K

theorem beg_wd {n k : Nat} {r : Rgx} {Q : Str → Prop} (h : Wd n r Q) {l : List Rgx} {u v : Str} {e : Caps}
    (hs : Sem n (seqs (.grp k r :: l)) u v e) : Beg u := by
  obtain ⟨w, _, _, h1, _⟩ := sem_cons.mp hs
  obtain ⟨x, rfl, hx, _⟩ := (sem_wd_grp h).mp h1
  exact beg_word (h.2.2 x hx)

theorem other_wd {n k : Nat} {r : Rgx} {Q : Str → Prop} (h : Wd n r Q) {l : List Rgx} {y w v : Str} {e : Caps} (hw : Brk w)
    (hy : ∀ x, Q x → ¬ x <+: y) : ¬ Sem n (seqs (.grp k r :: l)) (y ++ w) v e := by
  intro hs
  obtain ⟨_, _, _, h1, _⟩ := sem_cons.mp hs
  obtain ⟨_, _, h2, _⟩ := sem_grp.mp h1
  exact wd_other h hw hy h2

theorem beg_lit {n : Nat} {s : String} (h : (s.toList != [] && s.toList.all (fun c => !isSpace c)) = true) {l : List Rgx} {u v : Str}
    {e : Caps} (hs : Sem n (seqs (strL s ++ l)) u v e) : Beg u := by
  obtain ⟨w, _, _, h1, _⟩ := sem_append.mp hs
  obtain ⟨⟨x, rfl, rfl⟩, _⟩ := (sem_wd (wd_lit n (word_of h))).mp h1
  exact beg_word (word_of h)

theorem other_lit {n : Nat} {s : String} (h : (s.toList != [] && s.toList.all (fun c => !isSpace c)) = true) {l : List Rgx} {y w v : Str}
    {e : Caps} (hw : Brk w) (hy : ¬ s.toList <+: y) : ¬ Sem n (seqs (strL s ++ l)) (y ++ w) v e := by
  intro hs
  obtain ⟨_, _, _, h1, _⟩ := sem_append.mp hs
  exact wd_other (wd_lit n (word_of h)) hw (fun x hx => by rw [hx]; exact hy) h1

def typeR : Rgx := alts (icmpNames.map (fun w => litR w.toList) ++ [digR])

theorem names_eq (ws : List String) : ws.map (fun w => litR w.toList) = (wd ws).map litR := by rw [wd, List.map_map]; rfl

theorem wd_type (n : Nat) : Wd n typeR (fun x => x ∈ wd icmpNames ∨ Digs x) := wd_altsOf' n (wd_dig n) (by decide)

theorem digs_prefix {x y : Str} (h : Digs x) (hp : x <+: y) : ∃ c s, y = c :: s ∧ isDigit c = true := by
  obtain ⟨a, s, rfl⟩ := List.exists_cons_of_ne_nil h.1
  obtain ⟨t, rfl⟩ := hp
  exact ⟨a, s ++ t, rfl, h.2 a (by simp)⟩

theorem prefix_digs {x y : Str} (h : Digs y) (hp : x <+: y) : ∀ c ∈ x, isDigit c = true :=
  fun c hc => h.2 c (hp.sublist.subset hc)

theorem wh_type (n : Nat) : Wh n typeR (fun x => x ∈ wd icmpNames ∨ Digs x) := by
  intro x w hx hw
  rw [typeR, names_eq]
  rcases hx with hx | hx
  · exact wh_alts n (by decide +kernel) (by decide +kernel) hx hw
  · refine go_alts_last (wh_dig n hx hw) _ ?_
    intro p hp hpx
    have h1 : ∀ p ∈ wd icmpNames, ∃ c ∈ p, isDigit c = false := by decide +kernel
    have h2 : ∀ p ∈ wd icmpNames, ∀ c ∈ p, isSpace c = false := by decide +kernel
    rw [← List.isPrefixOf_iff_prefix, isPrefix_word hw p x (h2 p hp), List.isPrefixOf_iff_prefix] at hpx
    obtain ⟨c, hc, hd⟩ := h1 p hp
    rw [prefix_digs hx hpx c hc] at hd
    cases hd

theorem go_type {n : Nat} {u : Str} {ty R : List Str} (hu : Brk u) (hs : splitWs u = ty ++ R) (h : IcmpType ty)
    (hn : Next ["log", "disable", "inactive", "time-range"] R) :
    ∃ w e, Go n (.opt true (seqs [spR, .grp 76 typeR])) u w e ∧ Brk w ∧ splitWs w = R ∧ Span 76 76 e := by
  have key : ∀ x, (x ∈ wd icmpNames ∨ Digs x) → ty = [x] →
      ∃ w e, Go n (.opt true (seqs [spR, .grp 76 typeR])) u w e ∧ Brk w ∧ splitWs w = R ∧ Span 76 76 e := by
    rintro x hx rfl
    obtain ⟨w, h1, h2, h3, _⟩ := go_sp (n := n) hu hs
    exact ⟨w, _, go_opt (go_two h1 (go_grp (wh_type n hx h2))), h2, h3,
      span_one (by omega) (by omega) ((wd_type n).2.2 x hx).1⟩
  cases h with
  | all =>
    refine ⟨u, [], skip_opt (skip_sp (K := wd ["log", "disable", "inactive", "time-range"]) (fun _ _ _ h => beg_wd (wd_type n) h) ?_ hu
      (fun y rest hy => hn y rest (hs.symm.trans hy))), hu, hs, span_nil _ _⟩
    intro y hy w hw v e
    refine other_wd (wd_type n) hw ?_
    rintro x (hx | hx) hp
    · have : ∀ y ∈ wd ["log", "disable", "inactive", "time-range"], ∀ x ∈ wd icmpNames, ¬ x <+: y := by decide +kernel
      exact this y hy x hx hp
    · obtain ⟨c, s, rfl, hc⟩ := digs_prefix hx hp
      have : ∀ y ∈ wd ["log", "disable", "inactive", "time-range"], ∀ c ∈ y.head?, isDigit c = false := by decide +kernel
      rw [this _ hy c rfl] at hc
      cases hc
  | name h => exact key _ (.inl h) rfl
  | number h => exact key _ (.inr h) rfl

theorem wh_level (n : Nat) : Wh n levelR Level := by
  intro x w hx hw
  rw [levelR, names_eq]
  have h1 : x ∈ wd levelNames ∨ ∃ c, x = [c] ∧ (Re.Cls.mk [.range '0' '7'] false false).has c = true := by
    rw [Level] at hx
    have key : ∀ x ∈ wd ["alerts", "critical", "debugging", "emergencies", "errors", "informational", "notifications", "warnings",
      "0", "1", "2", "3", "4", "5", "6", "7"], x ∈ wd levelNames ∨ ∃ c ∈ x, x = [c] ∧ (Re.Cls.mk [.range '0' '7'] false false).has c = true := by
      decide +kernel
    rcases key x hx with h | ⟨c, _, h⟩
    · exact .inl h
    · exact .inr ⟨c, h⟩
  rcases h1 with hx' | ⟨c, rfl, hc⟩
  · exact wh_alts n (by decide +kernel) (by decide +kernel) hx' hw
  · refine go_alts_last ?_ _ ?_
    · rw [Go, Hit, List.singleton_append, run, if_pos hc]
      rfl
    · intro p hp hpx
      have h2 : ∀ p ∈ wd levelNames, 2 ≤ p.length := by decide +kernel
      have h3 : ∀ p ∈ wd levelNames, ∀ c ∈ p, isSpace c = false := by decide +kernel
      rw [← List.isPrefixOf_iff_prefix, isPrefix_word hw p _ (h3 p hp), List.isPrefixOf_iff_prefix] at hpx
      have := hpx.length_le
      have := h2 p hp
      simp at *
      omega

theorem go_level {n : Nat} {u x : Str} {R : List Str} (hu : Brk u) (hs : splitWs u = x :: R) (h : Level x) :
    ∃ w, Go n (.opt true (seqs [spR, .grp 78 levelR])) u w [(78, x)] ∧ Brk w ∧ splitWs w = R := by
  obtain ⟨w, h1, h2, h3, _⟩ := go_sp (n := n) hu hs
  exact ⟨w, go_opt (go_two h1 (go_grp (wh_level n h h2))), h2, h3⟩

theorem no_level {n : Nat} {u : Str} (hu : Brk u) (hn : Next ["interval", "disable", "inactive", "time-range"] (splitWs u)) :
    Go n (.opt true (seqs [spR, .grp 78 levelR])) u u [] := by
  refine skip_opt (skip_sp (K := wd ["interval", "disable", "inactive", "time-range"]) (fun _ _ _ h => beg_wd (wd_level n) h) ?_ hu hn)
  intro y hy w hw v e
  refine other_wd (wd_level n) hw ?_
  intro x hx hp
  rw [Level] at hx
  have : ∀ y ∈ wd ["interval", "disable", "inactive", "time-range"], ∀ x ∈ wd ["alerts", "critical", "debugging", "emergencies", "errors",
    "informational", "notifications", "warnings", "0", "1", "2", "3", "4", "5", "6", "7"], ¬ x <+: y := by decide +kernel
  exact this y hy x hx hp

theorem go_interval {n : Nat} {u x : Str} {R : List Str} (hu : Brk u) (hs : splitWs u = "interval".toList :: x :: R) (h : Digs x) :
    ∃ w, Go n (.opt true (seqs ((spR :: strL "interval") ++ [spR, .grp 79 digR]))) u w [(79, x)] ∧ Brk w ∧ splitWs w = R := by
  obtain ⟨w, h1, h2, h3, _⟩ := go_sp (n := n) hu hs
  obtain ⟨w', h4, h5, h6, _⟩ := go_sp (n := n) h2 h3
  exact ⟨w', go_opt (go_append (go_cons h1 (go_lit _ _)) (go_two h4 (go_grp (wh_dig n h h5)))), h5, h6⟩

theorem no_interval {n : Nat} {u : Str} (hu : Brk u) (hn : Next ["disable", "inactive", "time-range"] (splitWs u)) :
    Go n (.opt true (seqs ((spR :: strL "interval") ++ [spR, .grp 79 digR]))) u u [] := by
  refine skip_opt (skip_sp (l := strL "interval" ++ [spR, .grp 79 digR]) (K := wd ["disable", "inactive", "time-range"])
    (fun _ _ _ h => beg_lit (by decide) h) ?_ hu hn)
  intro y hy w hw v e
  refine other_lit (by decide) hw ?_
  revert y
  decide +kernel

theorem go_log {n : Nat} {u : Str} {lw R : List Str} {lg : Bool} {i : Int} {l : Str} (hu : Brk u) (hs : splitWs u = lw ++ R)
    (h : Logs lw lg i l) (hn : Next ["disable", "inactive", "time-range"] R) :
    ∃ w e, Go n (.opt true (logR 77)) u w e ∧ Brk w ∧ splitWs w = R ∧ Span 77 79 e ∧ (e.lookup 77).isSome = lg ∧
      logC (e.lookup 77) (e.lookup 78) (e.lookup 79) = .ok (i, l) := by
  have hn' : Next ["interval", "disable", "inactive", "time-range"] R := by
    intro y rest hy
    exact List.mem_cons_of_mem _ (hn y rest hy)
  have hg : Span 77 79 [(77, "log".toList)] := span_one (by omega) (by omega) (by simp)
  have hlog : ∀ {R'}, splitWs u = "log".toList :: R' → ∃ w, Go n (seqs [spR, .grp 77 (litR "log".toList)]) u w [(77, "log".toList)] ∧
      Brk w ∧ splitWs w = R' := by
    intro R' hs'
    obtain ⟨w, h1, h2, h3, _⟩ := go_sp (n := n) hu hs'
    exact ⟨w, go_two h1 (go_grp (go_lit _ _)), h2, h3⟩
  cases h with
  | off =>
    refine ⟨u, [], skip_opt (skip_sp (l := .grp 77 (litR "log".toList) :: _) (K := wd ["disable", "inactive", "time-range"])
      (fun _ _ _ h => beg_wd (wd_lit n (word_of (by decide))) h) ?_ hu (fun y rest hy => hn y rest (hs.symm.trans hy))), hu, hs,
      span_nil _ _, rfl, rfl⟩
    intro y hy w hw v e
    refine other_wd (wd_lit n (word_of (by decide))) hw ?_
    rintro x rfl
    revert y
    decide +kernel
  | plain =>
    obtain ⟨w, h1, h2, h3'⟩ := hlog hs
    have h3 : splitWs w = R := h3'
    rw [← h3] at hn hn'
    exact ⟨w, _, go_opt (go_append h1 (go_append (l := [_]) (no_level h2 hn') (l' := [_]) (no_interval h2 hn))), h2, h3,
      ((span_nil _ _).append (span_nil _ _)).append hg, rfl, rfl⟩
  | @level x h =>
    obtain ⟨w, h1, h2, h3⟩ := hlog hs
    obtain ⟨w', h4, h5, h6'⟩ := go_level (n := n) h2 h3 h
    have h6 : splitWs w' = R := h6'
    rw [← h6] at hn
    exact ⟨w', _, go_opt (go_append h1 (go_append (l := [_]) h4 (l' := [_]) (no_interval h5 hn))), h5, h6,
      ((span_nil _ _).append (span_one (by omega) (by omega) (level_ne h))).append hg, rfl, rfl⟩
  | @interval i h =>
    obtain ⟨w, h1, h2, h3⟩ := hlog hs
    obtain ⟨w', h4, h5, h6⟩ := go_interval (n := n) h2 h3 h
    have hi : Next ["interval", "disable", "inactive", "time-range"] (splitWs w) := by
      intro y rest hy
      rw [h3] at hy
      cases hy
      decide
    refine ⟨w', _, go_opt (go_append h1 (go_append (l := [_]) (no_level h2 hi) (l' := [_]) h4)), h5, h6,
      ((span_one (by omega) (by omega) h.1).append (span_nil _ _)).append hg, rfl, ?_⟩
    have : logC (some "log".toList) none (some i) = .ok ((natVal i : Int), "informational".toList) := by
      simp only [logC, Option.isSome_some, Bool.true_eq_false, if_false, digs_num h]
      rfl
    exact this
  | @both x i h h' =>
    obtain ⟨w, h1, h2, h3⟩ := hlog hs
    obtain ⟨w', h4, h5, h6⟩ := go_level (n := n) h2 h3 h
    obtain ⟨w'', h7, h8, h9⟩ := go_interval (n := n) h5 h6 h'
    refine ⟨w'', _, go_opt (go_append h1 (go_append (l := [_]) h4 (l' := [_]) h7)), h8, h9,
      ((span_one (by omega) (by omega) h'.1).append (span_one (by omega) (by omega) (level_ne h))).append hg, rfl, ?_⟩
    have : logC (some "log".toList) (some l) (some i) = .ok ((natVal i : Int), l) := by
      simp only [logC, Option.isSome_some, Bool.true_eq_false, if_false, digs_num h']
      rfl
    exact this

theorem go_dis {n : Nat} {u : Str} {xw R : List Str} {d : Bool} (hu : Brk u) (hs : splitWs u = xw ++ R) (h : Disabled xw d)
    (hn : Next ["inactive", "time-range"] R) : ∃ w e, Go n (.opt true (seqs [spR, .grp 80 (litR "disable".toList)])) u w e ∧ Brk w ∧
      splitWs w = R ∧ Span 80 80 e ∧ (e.lookup 80).isSome = d := by
  cases h with
  | no =>
    refine ⟨u, [], skip_opt (skip_sp (K := wd ["inactive", "time-range"]) (fun _ _ _ h => beg_wd (wd_lit n (word_of (by decide))) h) ?_ hu
      (fun y rest hy => hn y rest (hs.symm.trans hy))), hu, hs, span_nil _ _, rfl⟩
    intro y hy w hw v e
    refine other_wd (wd_lit n (word_of (by decide))) hw ?_
    rintro x rfl
    revert y
    decide +kernel
  | yes =>
    obtain ⟨w, h1, h2, h3, _⟩ := go_sp (n := n) hu hs
    exact ⟨w, [(80, "disable".toList)], go_opt (go_two h1 (go_grp (go_lit _ _))), h2, h3, span_one (by omega) (by omega) (by simp), rfl⟩

theorem go_when {n : Nat} {u : Str} {tw : List Str} {x : Option Str} (hu : Brk u) (hs : splitWs u = tw) (h : When tw x) :
    ∃ w e, Go n (.opt true (whenR 81)) u w e ∧ Span 81 82 e ∧ e.lookup 82 = x := by
  have hno : ∀ {K : List Str}, (∀ y ∈ K, ¬ "inactive".toList <+: y) → (∀ y rest, splitWs u = y :: rest → y ∈ K) →
      ∀ v e, ¬ Sem n (seqs [spR, .grp 81 (litR "inactive".toList)]) u v e := by
    intro K hK hn
    refine skip_sp (K := K) (fun _ _ _ h => beg_wd (wd_lit n (word_of (by decide))) h) ?_ hu hn
    intro y hy w hw v e
    refine other_wd (wd_lit n (word_of (by decide))) hw ?_
    rintro x rfl
    exact hK y hy
  cases h with
  | always =>
    refine ⟨u, [], skip_opt ?_, span_nil _ _, rfl⟩
    intro v e h
    rw [whenR, sem_alt] at h
    rcases h with h | h
    · exact hno (K := []) (by simp) (fun y rest hy => by rw [hs] at hy; cases hy) v e h
    · refine skip_sp (l := strL "time-range" ++ [spR, .grp 82 wordR]) (K := []) (fun _ _ _ h => beg_lit (by decide) h) (by simp) hu
        (fun y rest hy => by rw [hs] at hy; cases hy) v e h
  | never =>
    obtain ⟨w, h1, h2, h3, _⟩ := go_sp (n := n) hu hs
    exact ⟨w, [(81, "inactive".toList)], go_opt (go_left (go_two h1 (go_grp (go_lit _ _)))), span_one (by omega) (by omega) (by simp), rfl⟩
  | @range x =>
    obtain ⟨w, h1, h2, h3, _⟩ := go_sp (n := n) hu hs
    obtain ⟨w', h4, h5, h6, _⟩ := go_sp (n := n) h2 h3
    have hx : IsWord x := splitWs_words u x (by rw [hs]; simp)
    exact ⟨w', [(82, x)], go_opt (go_right (hno (K := ["time-range".toList]) (by decide +kernel)
        (fun y rest hy => by rw [hs] at hy; cases hy; simp))
      (go_append (go_cons h1 (go_lit _ _)) (go_two h4 (go_grp (wh_word n hx h5))))), span_one (by omega) (by omega) hx.1, rfl⟩

theorem next_when {tw : List Str} {x : Option Str} (h : When tw x) : Next ["inactive", "time-range"] tw := by
  rintro y rest rfl
  cases h with
  | never => decide
  | range => decide

theorem next_dis {xw tw : List Str} {d : Bool} {x : Option Str} (hd : Disabled xw d) (h : When tw x) :
    Next ["disable", "inactive", "time-range"] (xw ++ tw) := by
  intro y rest hy
  cases hd with
  | no => exact List.mem_cons_of_mem _ (next_when h y rest hy)
  | yes => cases hy; decide

theorem next_log {lw xw tw : List Str} {lg : Bool} {i : Int} {l : Str} {d : Bool} {x : Option Str} (hl : Logs lw lg i l)
    (hd : Disabled xw d) (h : When tw x) : Next ["log", "disable", "inactive", "time-range"] (lw ++ (xw ++ tw)) := by
  intro y rest hy
  cases hl with
  | off => exact List.mem_cons_of_mem _ (next_dis hd h y rest hy)
  | plain => cases hy; decide
  | level => cases hy; decide
  | interval => cases hy; decide
  | both => cases hy; decide

theorem go_tail {n : Nat} {u : Str} {ty lw xw tw : List Str} {lg : Bool} {i : Int} {l : Str} {d : Bool} {x : Option Str} (hu : Brk u)
    (hs : splitWs u = ty ++ (lw ++ (xw ++ tw))) (ht : IcmpType ty) (hl : Logs lw lg i l) (hd : Disabled xw d) (h : When tw x) :
    ∃ w e, Go n (seqs icmpTail) u w e ∧ Span 76 82 e ∧ (e.lookup 77).isSome = lg ∧
      logC (e.lookup 77) (e.lookup 78) (e.lookup 79) = .ok (i, l) ∧ (e.lookup 80).isSome = d ∧ e.lookup 82 = x := by
  obtain ⟨w1, e1, g1, b1, k1, s1⟩ := go_type (n := n) hu hs ht (next_log hl hd h)
  obtain ⟨w2, e2, g2, b2, k2, s2, l2, l2'⟩ := go_log (n := n) b1 k1 hl (next_dis hd h)
  obtain ⟨w3, e3, g3, b3, k3, s3, l3⟩ := go_dis (n := n) b2 k2 hd (next_when h)
  obtain ⟨w4, e4, g4, s4, l4⟩ := go_when (n := n) b3 k3 h
  refine ⟨w4, e4 ++ e3 ++ e2 ++ e1, go_append (l := [_]) g1 (go_append (l := [_]) g2 (go_append (l := [_]) g3 (l' := [_]) g4)),
    (((s4.wide (by omega) (by omega)).append (s3.wide (by omega) (by omega))).append (s2.wide (by omega) (by omega))).append
      (s1.wide (by omega) (by omega)), ?_⟩
  have z1 : ∀ {k}, k < 76 ∨ 76 < k → e1.lookup k = none := s1.none
  have z2 : ∀ {k}, k < 77 ∨ 79 < k → e2.lookup k = none := s2.none
  have z3 : ∀ {k}, k < 80 ∨ 80 < k → e3.lookup k = none := s3.none
  have z4 : ∀ {k}, k < 81 ∨ 82 < k → e4.lookup k = none := s4.none
  simp (discharger := omega) only [List.lookup_append, z1, z2, z3, z4, Option.or_none, Option.none_or]
  exact ⟨l2, l2', l3, l4⟩

/-! ## The destination -/

theorem go_lits {n k : Nat} {s : String} {u x : Str} {R : List Str} (hu : Beg u) (hs : splitWs u = s.toList :: x :: R) (hx : IsWord x) :
    ∃ w, Go n (seqs (pairL s k)) u w [(k, x)] ∧ Brk w ∧ splitWs w = R := by
  obtain ⟨w1, rfl, h1, h2⟩ := split_beg hu hs
  obtain ⟨w, h3, h4, h5, _⟩ := go_sp (n := n) h1 h2
  exact ⟨w, go_append (go_lit _ _) (go_two h3 (go_grp (wh_word n hx h4))), h4, h5⟩

theorem wh_quad (n : Nat) : Wh n quadR Cisco.Spec.DottedQuad := by
  rintro _ w ⟨a, b, c, d, rfl, h⟩ hw
  have ha := h a (by simp)
  have hb := h b (by simp)
  have hc := h c (by simp)
  have hd := h d (by simp)
  have dot : ∀ {x s : Str}, Cisco.Spec.Digits x → Go n digR (x ++ '.' :: s) ('.' :: s) [] := by
    intro x s hx
    refine go_plus (k := .digit) hx.1 hx.2 ?_
    intro c hc
    cases hc
    rfl
  have pt : ∀ {s : Str}, Go n (.cls (K.cls (.chr '.'))) ('.' :: s) s [] := hit_cls rfl
  have e : a ++ '.' :: b ++ '.' :: c ++ '.' :: d ++ w = a ++ '.' :: (b ++ '.' :: (c ++ '.' :: (d ++ w))) := by simp
  rw [e]
  exact go_cons (dot ha) (go_cons pt (go_cons (dot hb) (go_cons pt (go_cons (dot hc) (go_cons (l := [_]) pt (wh_dig n hd hw))))))

theorem go_net {n a b : Nat} {u x m : Str} {R : List Str} (hu : Beg u) (hs : splitWs u = x :: m :: R) (hx : IsWord x)
    (hm : Cisco.Spec.DottedQuad m) : ∃ w, Go n (seqs (netL a b)) u w [(b, m), (a, x)] ∧ Brk w ∧ splitWs w = R := by
  obtain ⟨w1, rfl, h1, h2⟩ := split_beg hu hs
  obtain ⟨w, h3, h4, h5, _⟩ := go_sp (n := n) h1 h2
  exact ⟨w, go_append (l := [_]) (go_grp (wh_word n hx h1)) (go_two h3 (go_grp (wh_quad n hm h4))), h4, h5⟩

theorem no_any {n k : Nat} {u : Str} {x : Str} {R : List Str} (hs : splitWs u = x :: R) (hx : ¬ "any".toList <+: x) :
    ∀ v e, ¬ Sem n (.grp k (altsOf ["any", "any4"])) u v e := by
  intro v e h
  obtain ⟨y, u', more, _, h1, _⟩ := cut_any h
  rw [hs] at h1
  cases h1
  exact hx (List.prefix_append _ _)

theorem no_pair {n k : Nat} {s : String} (h : (s.toList != [] && s.toList.all (fun c => !isSpace c)) = true) {u x : Str} {R : List Str}
    (hs : splitWs u = x :: R) (hx : x ≠ s.toList) : ∀ v e, ¬ Sem n (seqs (pairL s k)) u v e := by
  intro v e h'
  obtain ⟨y, u', more, _, h1, _⟩ := cut_pair h h'
  rw [hs] at h1
  cases h1
  exact hx rfl

theorem go_dst {n b : Nat} {u : Str} {m : String} {dw R : List Str} (hu : Beg u) (hs : splitWs u = dw ++ R) (h : Plain m dw)
    (h4 : dw ≠ wd ["any4"]) : ∃ w e, Go n (addr2 b) u w e ∧ Brk w ∧ splitWs w = R ∧ Span b (b + 5) e ∧
      Ev m (e.lookup (b + 3)) (e.lookup (b + 2)) ((e.lookup b).or ((e.lookup (b + 1)).or (e.lookup (b + 4)))) := by
  have hw : ∀ w ∈ splitWs u, IsWord w := splitWs_words u
  rw [hs] at hw
  cases h with
  | any4 => exact absurd rfl h4
  | any =>
    obtain ⟨w, rfl, h1, h2⟩ := split_beg hu hs
    obtain ⟨s, m, _, he⟩ := addr2_eval (b := b) (.inl ⟨"any".toList, by decide, rfl, rfl⟩)
    exact ⟨w, _, go_left (go_grp (go_left (go_lit _ _))), h1, h2, s,
      .inr (.inr ⟨rfl, by rw [look_miss (by omega)]; rfl, by rw [look_miss (by omega)]; rfl, by rw [look_hit]; rfl⟩)⟩
  | @host x =>
    have hx : IsWord x := hw x (by simp)
    obtain ⟨w, h1, h2, h3⟩ := go_lits (n := n) (k := b + 1) hu hs hx
    exact ⟨w, _, go_right (no_any hs (by decide)) (go_left h1), h2, h3, span_one (by omega) (by omega) hx.1,
      .inr (.inr ⟨rfl, by rw [look_miss (by omega)]; rfl, by rw [look_miss (by omega)]; rfl,
        by rw [look_miss (by omega), look_hit]; rfl⟩)⟩
  | @object x =>
    have hx : IsWord x := hw x (by simp)
    obtain ⟨w, h1, h2, h3⟩ := go_lits (n := n) (k := b + 2) hu hs hx
    exact ⟨w, _, go_right (no_any hs (by decide)) (go_right (no_pair (by decide) hs (by decide)) (go_left h1)), h2, h3,
      span_one (by omega) (by omega) hx.1, .inr (.inl ⟨rfl, by rw [look_miss (by omega)]; rfl, by rw [look_hit]; rfl⟩)⟩
  | @group x =>
    have hx : IsWord x := hw x (by simp)
    obtain ⟨w, h1, h2, h3⟩ := go_lits (n := n) (k := b + 3) hu hs hx
    exact ⟨w, _, go_right (no_any hs (by decide)) (go_right (no_pair (by decide) hs (by decide))
      (go_right (no_pair (by decide) hs (by decide)) (go_left h1))), h2, h3, span_one (by omega) (by omega) hx.1,
      .inl ⟨rfl, by rw [look_hit]; rfl⟩⟩
  | @net x m hm ha hk =>
    have hx : IsWord x := hw x (by simp)
    simp only [wd, List.map_cons, List.map_nil, List.mem_cons, List.not_mem_nil, or_false, not_or] at hk
    obtain ⟨w, h1, h2, h3⟩ := go_net (n := n) (a := b + 4) (b := b + 5) hu hs hx hm
    exact ⟨w, _, go_right (no_any hs ha) (go_right (no_pair (by decide) hs hk.1) (go_right (no_pair (by decide) hs hk.2.1)
      (go_right (no_pair (by decide) hs hk.2.2) h1))), h2, h3,
      span_two (by omega) (by omega) (quad_is_word hm).1 (by omega) (by omega) hx.1,
      .inr (.inr ⟨rfl, by rw [look_miss (by omega), look_miss (by omega)]; rfl, by rw [look_miss (by omega), look_miss (by omega)]; rfl,
        by rw [look_miss (by omega), look_miss (by omega), look_miss (by omega), look_miss (by omega), look_miss (by omega), look_hit]; rfl⟩)⟩

/-! ## The source -/

/-- What follows an address begins with blanks. -/
def Gapped (n : Nat) (L : List Rgx) : Prop := ∀ w v e, Sem n (seqs L) w v e → Brk w

theorem go_take {n : Nat} {a : Rgx} {L : List Rgx} {P : List Str → Caps → Prop} (ha : Tw n a P) (hL : Gapped n L) {u v : Str} {e : Caps}
    (h : Go n (seqs (a :: L)) u v e) : ∃ ws w e1 e2, P ws e1 ∧ splitWs u = ws ++ splitWs w ∧ Brk w ∧ Go n (seqs L) w v e2 ∧ e = e2 ++ e1 := by
  obtain ⟨w, e1, e2, h1, h2, rfl⟩ := go_mem h
  have hb := hL _ _ _ h2.sem
  obtain ⟨_, ws, h3, h4⟩ := ha.sound h1 hb
  exact ⟨ws, w, e1, e2, h4, h3, hb, h2, rfl⟩

theorem go_src {n b : Nat} {L : List Rgx} (hL : Gapped n L) {u v : Str} {e : Caps} {m : String} {sw R : List Str} (hu : Beg u)
    (hs : splitWs u = sw ++ R) (h : Plain m sw) (hc : ∀ w, Brk w → splitWs w = R → ∃ v e, Sem n (seqs L) w v e)
    (hg : Go n (seqs (addr2 b :: L)) u v e) : ∃ w e1 e2, Go n (seqs L) w v e2 ∧ e = e2 ++ e1 ∧ Brk w ∧ splitWs w = R ∧
      Span b (b + 5) e1 ∧ Ev m (e1.lookup (b + 3)) (e1.lookup (b + 2)) ((e1.lookup b).or ((e1.lookup (b + 1)).or (e1.lookup (b + 4)))) := by
  have hw : ∀ w ∈ splitWs u, IsWord w := splitWs_words u
  rw [hs] at hw
  -- a reading that is possible is not passed over
  have must : ∀ {a : Rgx} {P : List Str → Caps → Prop} {e1 : Caps}, Tw n a P → P sw e1 → (∀ v e, ¬ Sem n (seqs (a :: L)) u v e) → False := by
    intro a P e1 ha hp hno
    obtain ⟨w, h1, h2, h3⟩ := ha.compl hu hs hp
    obtain ⟨v, e, h4⟩ := hc w h2 h3
    exact hno _ _ (sem_cons.mpr ⟨w, _, _, h1, h4, rfl⟩)
  rw [addr2] at hg
  rcases go_alt hg with hg | ⟨n1, hg⟩
  · obtain ⟨_, w, _, e2, ⟨x, hx, rfl, rfl⟩, h1, h2, h3, rfl⟩ := go_take (tw_any n b) hL hg
    rw [hs] at h1
    have hx' : x ≠ [] := by
      rintro rfl
      revert hx
      decide
    have hR : m = "network" ∧ R = splitWs w := by
      cases h with
      | any => cases h1; exact ⟨rfl, rfl⟩
      | any4 => cases h1; exact ⟨rfl, rfl⟩
      | group =>
        rw [← (List.cons.inj h1).1] at hx
        exact absurd hx (by decide)
      | object =>
        rw [← (List.cons.inj h1).1] at hx
        exact absurd hx (by decide)
      | host =>
        rw [← (List.cons.inj h1).1] at hx
        exact absurd hx (by decide)
      | net _ ha _ =>
        exfalso
        rw [(List.cons.inj h1).1] at ha
        refine ha ?_
        have : ∀ x ∈ wd ["any", "any4"], "any".toList <+: x := by decide
        exact this x hx
    obtain ⟨rfl, rfl⟩ := hR
    exact ⟨w, _, e2, h3, rfl, h2, rfl, span_one (by omega) (by omega) hx',
      .inr (.inr ⟨rfl, by rw [look_miss (by omega)]; rfl, by rw [look_miss (by omega)]; rfl, by rw [look_hit]; rfl⟩)⟩
  rcases go_alt hg with hg | ⟨n2, hg⟩
  · obtain ⟨_, w, _, e2, ⟨x, hx, rfl, rfl⟩, h1, h2, h3, rfl⟩ := go_take (tw_pair n (by decide) (b + 1)) hL hg
    rw [hs] at h1
    have hR : m = "network" ∧ R = splitWs w := by
      cases h with
      | any => exact absurd h1 (by simp)
      | any4 => exact absurd h1 (by simp)
      | group => exact absurd h1 (by simp)
      | object => exact absurd h1 (by simp)
      | host => cases h1; exact ⟨rfl, rfl⟩
      | net _ _ hk => cases h1; exact absurd (by decide) hk
    obtain ⟨rfl, rfl⟩ := hR
    exact ⟨w, _, e2, h3, rfl, h2, rfl, span_one (by omega) (by omega) hx.1,
      .inr (.inr ⟨rfl, by rw [look_miss (by omega)]; rfl, by rw [look_miss (by omega)]; rfl,
        by rw [look_miss (by omega), look_hit]; rfl⟩)⟩
  rcases go_alt hg with hg | ⟨n3, hg⟩
  · obtain ⟨_, w, _, e2, ⟨x, hx, rfl, rfl⟩, h1, h2, h3, rfl⟩ := go_take (tw_pair n (by decide) (b + 2)) hL hg
    rw [hs] at h1
    have hR : m = "object" ∧ R = splitWs w := by
      cases h with
      | any => exact absurd h1 (by simp)
      | any4 => exact absurd h1 (by simp)
      | group => exact absurd h1 (by simp)
      | object => cases h1; exact ⟨rfl, rfl⟩
      | host => exact absurd h1 (by simp)
      | net _ _ hk => cases h1; exact absurd (by decide) hk
    obtain ⟨rfl, rfl⟩ := hR
    exact ⟨w, _, e2, h3, rfl, h2, rfl, span_one (by omega) (by omega) hx.1,
      .inr (.inl ⟨rfl, by rw [look_miss (by omega)]; rfl, by rw [look_hit]; rfl⟩)⟩
  rcases go_alt hg with hg | ⟨n4, hg⟩
  · obtain ⟨_, w, _, e2, ⟨x, hx, rfl, rfl⟩, h1, h2, h3, rfl⟩ := go_take (tw_pair n (by decide) (b + 3)) hL hg
    rw [hs] at h1
    have hR : m = "object-group" ∧ R = splitWs w := by
      cases h with
      | any => exact absurd h1 (by simp)
      | any4 => exact absurd h1 (by simp)
      | group => cases h1; exact ⟨rfl, rfl⟩
      | object => exact absurd h1 (by simp)
      | host => exact absurd h1 (by simp)
      | net _ _ hk => cases h1; exact absurd (by decide) hk
    obtain ⟨rfl, rfl⟩ := hR
    exact ⟨w, _, e2, h3, rfl, h2, rfl, span_one (by omega) (by omega) hx.1, .inl ⟨rfl, by rw [look_hit]; rfl⟩⟩
  · obtain ⟨_, w, _, e2, ⟨x, q, hx, hq, rfl, rfl⟩, h1, h2, h3, rfl⟩ := go_take (tw_net n (b + 4) (b + 5)) hL hg
    rw [hs] at h1
    have hR : m = "network" ∧ R = splitWs w := by
      cases h with
      | any => exact absurd n1 (fun h => must (tw_any n b) ⟨_, by decide, rfl, rfl⟩ h)
      | any4 => exact absurd n1 (fun h => must (tw_any n b) ⟨_, by decide, rfl, rfl⟩ h)
      | group => exact absurd n4 (fun h => must (tw_pair n (by decide) (b + 3)) ⟨_, hw _ (by simp), rfl, rfl⟩ h)
      | object => exact absurd n3 (fun h => must (tw_pair n (by decide) (b + 2)) ⟨_, hw _ (by simp), rfl, rfl⟩ h)
      | host => exact absurd n2 (fun h => must (tw_pair n (by decide) (b + 1)) ⟨_, hw _ (by simp), rfl, rfl⟩ h)
      | net => cases h1; exact ⟨rfl, rfl⟩
    obtain ⟨rfl, rfl⟩ := hR
    exact ⟨w, _, e2, h3, rfl, h2, rfl, span_two (by omega) (by omega) (quad_is_word hq).1 (by omega) (by omega) hx.1,
      .inr (.inr ⟨rfl, by rw [look_miss (by omega), look_miss (by omega)]; rfl, by rw [look_miss (by omega), look_miss (by omega)]; rfl,
        by rw [look_miss (by omega), look_miss (by omega), look_miss (by omega), look_miss (by omega), look_miss (by omega), look_hit]; rfl⟩)⟩

/-! ## The lines -/

theorem splitWs_mid {b : Char} (hb : isSpace b = true) (p s : Str) : splitWs (p ++ b :: s) = splitWs (p ++ [b]) ++ splitWs s := by
  have key : ∀ (p acc : Str), splitWsAux (p ++ b :: s) acc = splitWsAux (p ++ [b]) acc ++ splitWs s := by
    intro p
    induction p with
    | nil =>
      intro acc
      simp only [List.nil_append, splitWsAux, hb, if_true]
      cases acc <;> rfl
    | cons a p ih =>
      intro acc
      simp only [List.cons_append, splitWsAux]
      split
      · split
        · exact ih []
        · rw [ih [], List.cons_append]
      · exact ih _
  exact key p []

theorem first_go {t v : Str} {e : Caps} (h : Go t.length aclRgx t v e) : resultDict t = aclResult (dictOf e) := by
  rw [resultDict, aclLine_eq, h]
  rfl

/-- The other expressions do not match a line for ICMP. -/
theorem icmp_only {t name act : Str} {R : List Str} (hs : splitWs t = firstWords name "extended" act ++ (wd ["icmp"] ++ R)) {v : Str} {e : Caps}
    (h : Go t.length (seqs (alt4L ++ (seqs [spR, addr2 70] :: icmpTail))) t v e) : Go t.length aclRgx t v e := by
  have pro : ∀ {a b : Nat} {ws more : List Str} {e : Caps}, PProto a b ws e → "icmp".toList :: R = ws ++ more → False := by
    rintro a b ws more e (⟨x, _, rfl, _⟩ | ⟨x, hx, rfl, _⟩) hh
    · exact absurd (List.cons.inj hh).1 (by decide)
    · have hx' := (List.cons.inj hh).1
      subst hx'
      rcases hx with hx | hx
      · revert hx
        decide
      · have := hx.2 'i' (by decide)
        revert this
        decide
  refine go_right ?_ (go_right ?_ (go_right ?_ (go_right ?_ ?_)))
  · intro v e h
    obtain ⟨r, _, pre, x, y, text, nl, name, h1, _, _, hx, ⟨p, b, h2, hb⟩, h3, _⟩ := alt0_eval h
    rw [h1, List.append_assoc, h2, List.append_assoc, List.singleton_append] at hs
    have key : ∀ s, splitWs (p ++ b :: s) = splitWs (p ++ [b]) ++ splitWs s := splitWs_mid hb p
    rw [key, ← h2, h3] at hs
    have := (List.cons.inj (List.cons.inj (List.cons.inj hs).2).2).1
    exact absurd this (by decide)
  · intro v e h
    obtain ⟨w, e1, e2, h1, h2, _⟩ := sem_append.mp (sem_bol.mp h)
    obtain ⟨_, ws, h3, h4⟩ := (tw_alt1 _).sound h1 (sem_end h2).1
    obtain ⟨_, _, _, _, ⟨_, _, _, _, rfl, _⟩, ⟨_, _, _, _, h6, _, rfl, _⟩, rfl, _⟩ := h4
    rw [hs] at h3
    simp only [firstWords, List.cons_append, List.nil_append, List.append_assoc, List.cons.injEq] at h3
    exact pro h6 h3.2.2.2.2
  · intro v e h
    obtain ⟨w, e1, e2, h1, h2, _⟩ := sem_append.mp (sem_bol.mp h)
    obtain ⟨_, ws, h3, h4⟩ := (tw_alt2 _).sound h1 (sem_end h2).1
    obtain ⟨_, _, _, _, ⟨_, _, _, _, rfl, _⟩, ⟨_, _, _, _, h6, _, rfl, _⟩, rfl, _⟩ := h4
    rw [hs] at h3
    simp only [firstWords, List.cons_append, List.nil_append, List.append_assoc, List.cons.injEq] at h3
    exact pro h6 h3.2.2.2.2
  · intro v e h
    obtain ⟨r, _, name, act, more, h1, _⟩ := alt3_eval (sem_bol.mp h)
    rw [hs] at h1
    exact absurd (List.cons.inj (List.cons.inj (List.cons.inj h1).2).2).1 (by decide)
  · rw [Go, Hit, run_seqs_cons', run, if_pos rfl, List.flatMap_singleton]
    exact h

theorem gapped_dst (n : Nat) : Gapped n (seqs [spR, addr2 70] :: icmpTail) := by
  intro w v e h
  obtain ⟨_, _, _, h1, _⟩ := sem_cons.mp h
  obtain ⟨_, _, _, h2, _⟩ := sem_cons.mp h1
  obtain ⟨⟨g, rfl, hg, hg'⟩, _⟩ := sem_sp.mp h2
  exact gap_brk hg hg'

/-- The words before the destination; then the first match for what follows. -/
theorem icmp_first {t name act : Str} {src : String} {sw R : List Str} (ht : Beg t)
    (hs : splitWs t = firstWords name "extended" act ++ (wd ["icmp"] ++ (sw ++ R))) (ha : Action act) (hp : Plain src sw)
    {m : String} (hR : IcmpTarget m R) : ∃ w v es et, Brk w ∧ splitWs w = R ∧
      Go t.length (seqs (seqs [spR, addr2 70] :: icmpTail)) w v et ∧
      Go t.length aclRgx t v (et ++ (es ++ ([(63, "icmp".toList)] ++ [(62, act), (61, name)]))) ∧ Span 64 69 es ∧
      Ev src (es.lookup 67) (es.lookup 66) ((es.lookup 64).or ((es.lookup 65).or (es.lookup 68))) := by
  have hw : ∀ w ∈ splitWs t, IsWord w := splitWs_words t
  rw [hs] at hw
  have compl : ∀ w, Brk w → splitWs w = R → ∃ v e, Sem t.length (seqs (seqs [spR, addr2 70] :: icmpTail)) w v e := by
    intro w hb hr
    cases hx : R with
    | nil =>
      rw [hx] at hR
      cases hR with
      | other h => cases h
    | cons x R' =>
      obtain ⟨w', g1, _, g2, g3⟩ := go_sp (n := t.length) hb (hr.trans hx)
      obtain ⟨v, e, h⟩ := addr2_cut (n := t.length) (b := 70) (m := m) (w := x ++ w') (g3 ▸ beg_of (by rw [hr, hx]; simp))
        (by rw [← g3, splitWs_lstrip, hr]; exact hR)
      exact ⟨v, [] ++ (e ++ []), sem_cons.mpr ⟨v, e ++ [], [], sem_cons.mpr ⟨_, [], e, g1.sem, h, rfl⟩, icmp_none _ v, rfl⟩⟩
  have hn : IsWord name := hw name (by simp [firstWords])
  obtain ⟨es0, hes⟩ : ∃ e, PAddr2 64 sw e := by
    have hw' : ∀ w ∈ sw, IsWord w := fun w h => hw w (by simp [h])
    cases hp with
    | group => exact addr2_of .group hw' 64
    | object => exact addr2_of .object hw' 64
    | any => exact addr2_of .any hw' 64
    | any4 => exact addr2_of .any4 hw' 64
    | host => exact addr2_of .host hw' 64
    | net h => exact addr2_of (.net h) hw' 64
  have hP : PAlt4 (firstWords name "extended" act ++ (wd ["icmp"] ++ sw)) _ :=
    ⟨_, _, _, _, ⟨name, act, hn, ha, rfl, rfl⟩, ⟨_, _, _, _, ⟨_, rfl, rfl, rfl⟩, hes, rfl, rfl⟩, rfl, rfl⟩
  obtain ⟨w0, k1, k2, k3⟩ := (tw_alt4 t.length).compl ht (rest := R) (by rw [hs]; simp) hP
  obtain ⟨v0, e0, k4⟩ := compl w0 k2 k3
  obtain ⟨v, e, hg⟩ := sem_go (sem_append.mpr ⟨w0, _, _, k1, k4, rfl⟩)
  have hgo := icmp_only hs hg
  rw [alt4L, List.append_assoc, List.append_assoc] at hg
  obtain ⟨w1, e1, e2, m1, g1, rfl⟩ := go_mem_append hg
  obtain ⟨w2, e3, e4, m2, g2, rfl⟩ := go_mem_append g1
  obtain ⟨w3, e5, m3, m4, rfl⟩ : ∃ w3 e5, Sem t.length spR w2 w3 [] ∧
      Go t.length (seqs (addr2 64 :: (seqs [spR, addr2 70] :: icmpTail))) w3 v e5 ∧ e4 = e5 := by
    have : Go t.length (seqs (spR :: (addr2 64 :: (seqs [spR, addr2 70] :: icmpTail)))) w2 v e4 := by
      have e : run t.length (seqs ([seqs [spR, addr2 64]] ++ (seqs [spR, addr2 70] :: icmpTail))) w2 [] =
          run t.length (seqs ([spR, addr2 64] ++ (seqs [spR, addr2 70] :: icmpTail))) w2 [] := by
        rw [run_seqs_append, run_seqs_append]
        rfl
      rw [Go, Hit, e] at g2
      exact g2
    obtain ⟨w3, e6, e7, h1, h2, rfl⟩ := go_mem this
    obtain ⟨_, rfl⟩ := sem_sp.mp h1
    exact ⟨w3, e7, h1, h2, by simp⟩
  have hbeg : Beg w3 := by
    obtain ⟨_, _, _, h1, h2, _⟩ := sem_cons.mp m4.sem
    exact ((tw_addr2 t.length 64).sound h1 (gapped_dst _ _ _ _ h2)).1
  obtain ⟨hb2, rfl, _⟩ := sp_beg m3 hbeg
  have hT : Tw t.length (seqs (headL 61 62 "extended" ++ [spR, .grp 63 (litR "icmp".toList)])) _ :=
    (tw_head t.length 61 62 (by decide)).append (Tw.sp (l := [.grp 63 (litR "icmp".toList)]) (wd_lit _ (word_of (by decide))).grp
      (fun _ _ h => one_ne h))
  obtain ⟨_, ws, h5, h6⟩ := hT.sound (sem_append.mpr ⟨_, _, _, m1, m2, rfl⟩) hb2
  obtain ⟨_, _, f1, f2, ⟨name', act', _, _, rfl, rfl⟩, ⟨_, rfl, rfl, rfl⟩, rfl, h7⟩ := h6
  rw [hs] at h5
  simp only [firstWords, wd, List.map_cons, List.map_nil, List.cons_append, List.nil_append, List.cons.injEq,
    true_and] at h5
  obtain ⟨rfl, rfl, h5⟩ := h5
  obtain ⟨w, es, et, g3, rfl, b3, s3, s4, s5⟩ := go_src (gapped_dst t.length) hbeg (by rw [splitWs_lstrip]; exact h5.symm) hp compl m4
  refine ⟨w, v, es, et, b3, s3, g3, ?_, s4, s5⟩
  have : et ++ es ++ e3 ++ e1 = et ++ (es ++ ([(63, "icmp".toList)] ++ [(62, act), (61, name)])) := by
    rw [List.append_assoc, h7, List.append_assoc]
  rw [← this]
  exact hgo

/-- The attributes, from the groups. -/
theorem icmp_result {es ed et : Caps} {name act : Str} {src dst : String} {i : Int} {l : Str} (hn : name ≠ []) (ha : Action act)
    (s2 : Span 64 69 es) (h2 : Ev src (es.lookup 67) (es.lookup 66) ((es.lookup 64).or ((es.lookup 65).or (es.lookup 68))))
    (s4 : Span 70 75 ed) (h4 : Ev dst (ed.lookup 73) (ed.lookup 72) ((ed.lookup 70).or ((ed.lookup 71).or (ed.lookup 74))))
    (s3 : Span 76 82 et) (h3 : logC (et.lookup 77) (et.lookup 78) (et.lookup 79) = .ok (i, l)) :
    aclResult (dictOf ((et ++ ed) ++ (es ++ ([(63, "icmp".toList)] ++ [(62, act), (61, name)])))) =
      .ok ⟨1, some [], some name, some act, none, src.toList, dst.toList, (et.lookup 80).isSome, et.lookup 82, (et.lookup 77).isSome, i, l⟩ := by
  have hi' : Span 61 63 ([(63, "icmp".toList)] ++ [(62, act), (61, name)]) :=
    (span_one (by omega) (by omega) (by simp)).append (span_two (by omega) (by omega) (by
      rintro rfl
      rw [Action] at ha
      revert ha
      decide) (by omega) (by omega) hn)
  have hf : Full ((et ++ ed) ++ (es ++ ([(63, "icmp".toList)] ++ [(62, act), (61, name)]))) :=
    full_append (full_append s3.full s4.full) (full_append s2.full hi'.full)
  have z0 : ∀ {k}, k < 61 ∨ 63 < k → List.lookup k ([(63, "icmp".toList)] ++ [(62, act), (61, name)]) = none := hi'.none
  have z2 : ∀ {k}, k < 64 ∨ 69 < k → es.lookup k = none := s2.none
  have z4 : ∀ {k}, k < 70 ∨ 75 < k → ed.lookup k = none := s4.none
  have z3 : ∀ {k}, k < 76 ∨ 82 < k → et.lookup k = none := s3.none
  have zi : List.lookup 63 ([(63, "icmp".toList)] ++ [(62, act), (61, name)]) = some "icmp".toList := rfl
  have za : List.lookup 62 ([(63, "icmp".toList)] ++ [(62, act), (61, name)]) = some act := rfl
  have zn : List.lookup 61 ([(63, "icmp".toList)] ++ [(62, act), (61, name)]) = some name := rfl
  generalize [(63, "icmp".toList)] ++ [(62, act), (61, name)] = eh at *
  have hp : protoC none (some "icmp".toList) none none = .ok (1, some []) := by decide +kernel
  have hr := aclResult_dict hf
  simp (discharger := omega) only [first, List.lookup_append, z2, z3, z4, z0, zi, za, zn, Option.or_none, Option.none_or] at hr
  simp only [hp, h2.method, h4.method, h3, bind, Except.bind] at hr
  exact hr

end Asa

import Verif.Asa.DictProps

/-! # Lemmas on network object groups -/

namespace Asa

open Py Conf Query Re Cisco

/-! ## Alternatives -/

/-- The first alternative that matches. -/
def altDet : List (Nat × Prog) → Str → Option (Str × Caps)
  | [], _ => none
  | a :: l, t =>
    match a.2.det t [] with
    | some q => some (q.1, (a.1, t.take (t.length - q.1.length)) :: q.2)
    | none => altDet l t

/-- `(^a)|(^b)|..`. -/
def altRx (l : List (Nat × Prog)) : List Rgx := l.map (fun a => .grp a.1 (seqs (.bol :: a.2.toL)))

theorem run_bol_grp (n k : Nat) (p : Prog) (s : Str) (c : Caps) :
    run n (.grp k (seqs (.bol :: p.toL))) s c =
      if s.length = n then (run n (seqs p.toL) s c).map (fun q => (q.1, (k, s.take (s.length - q.1.length)) :: q.2)) else [] := by
  rw [run, run_seqs_cons', run]
  split
  · rw [List.flatMap_singleton]
  · rfl

theorem run_alts_cons (n : Nat) (a : Rgx) (l : List Rgx) (s : Str) (c : Caps) :
    run n (alts (a :: l)) s c = run n a s c ++ (if l = [] then [] else run n (alts l) s c) := by
  cases l with
  | nil => simp [alts]
  | cons b l => rw [if_neg (by simp)]; rfl

theorem altRx_miss (l : List (Nat × Prog)) (hl : l ≠ []) (n : Nat) (s : Str) (c : Caps) (h : s.length ≠ n) :
    run n (alts (altRx l)) s c = [] := by
  induction l with
  | nil => exact absurd rfl hl
  | cons a l ih =>
    rw [altRx, List.map_cons, run_alts_cons, run_bol_grp, if_neg h, List.nil_append]
    split
    · rfl
    · rename_i hne
      exact ih (fun e => hne (by rw [e]; rfl))

theorem altRx_head (l : List (Nat × Prog)) (hl : l ≠ []) (hw : ∀ a ∈ l, a.2.wf (fun _ => false) true = true) (t : Str) :
    (run t.length (alts (altRx l)) t []).head? = altDet l t := by
  induction l with
  | nil => exact absurd rfl hl
  | cons a l ih =>
    rw [altRx, List.map_cons, run_alts_cons, run_bol_grp, if_pos rfl, List.head?_append, List.head?_map,
      head_prog _ (hw a (by simp)), altDet]
    cases hd : a.2.det t [] with
    | some q => rfl
    | none =>
      simp only [Option.map_none, Option.none_or]
      split
      · rename_i he
        have : l = [] := by simpa using he
        subst this
        rfl
      · rename_i hne
        exact ih (fun e => hne (by rw [e]; rfl)) (fun a ha => hw a (by simp [ha]))

theorem searchFrom_miss {n : Nat} {r : Rgx} (h : ∀ s, s.length ≠ n → run n r s [] = []) : ∀ (k : Nat) (s : Str), s.length < n →
    searchFrom n r k s = none
  | k, [], hs => by rw [searchFrom, h [] (by simp at hs ⊢; omega)]
  | k, a :: s, hs => by
    rw [searchFrom, h (a :: s) (by omega)]
    exact searchFrom_miss h (k + 1) s (by simp at hs; omega)

theorem search_alts {l : List (Nat × Prog)} (hl : l ≠ []) (hw : ∀ a ∈ l, a.2.wf (fun _ => false) true = true) (g : Nat)
    (names : List (Str × Nat)) (t : Str) :
    search ⟨alts (altRx l), g, names⟩ t = (altDet l t).map (fun q => ⟨t.take (t.length - q.1.length), 0, q.2⟩) := by
  have hd := altRx_head l hl hw t
  have hm := fun s => altRx_miss l hl t.length s []
  rw [search]
  cases t with
  | nil =>
    rw [searchFrom]
    cases hx : run ([] : Str).length (alts (altRx l)) [] [] with
    | nil => rw [hx] at hd; rw [← hd]; rfl
    | cons q r => rw [hx] at hd; rw [← hd, List.head?_cons, Option.map_some, List.take_nil]
  | cons a s =>
    rw [searchFrom]
    cases hx : run (a :: s).length (alts (altRx l)) (a :: s) [] with
    | nil =>
      rw [hx] at hd
      rw [← hd]
      exact searchFrom_miss hm _ _ (by simp)
    | cons q r => rw [hx] at hd; rw [← hd]; rfl

/-! ## The expression for members -/

/-- Words and one more, which is captured. -/
def nextK (k : Nat) (ws : List Str) : Prog := .star .space (words ws (.grp k (.plus .nonspace .done) .done))

theorem nextK_det (k : Nat) {l : List String} (hw : ∀ w ∈ Cisco.Spec.wd l, IsWord w) (t : Str) :
    (∀ q, (nextK k (Cisco.Spec.wd l)).det t [] = some q → ∃ v, Cisco.Spec.Next l t v ∧ q.2 = [(k, v)]) ∧
    (∀ v, Cisco.Spec.Next l t v → ∃ q, (nextK k (Cisco.Spec.wd l)).det t [] = some q ∧ q.2 = [(k, v)]) := by
  have hl := fun q => det_lead hw (.grp k (.plus .nonspace .done) .done) (fun _ => rfl) t [] q
  have hsp : splitWs (skip (Cisco.Spec.wd l).length (lstrip t)) = (splitWs t).drop (Cisco.Spec.wd l).length := by
    rw [splitWs_skip _ (lstrip_lstrip t), splitWs_lstrip]
  constructor
  · intro q h
    obtain ⟨h1, h2⟩ := (hl q).mp h
    obtain ⟨v, vs, h3, h4⟩ := (det_word (lstrip_skip _ (lstrip_lstrip t)) k .done [] q).mp h2
    rw [Prog.det] at h4
    cases h4
    rw [hsp] at h3
    exact ⟨v, ⟨vs, by rw [prefix_append_drop h1]; exact congrArg (_ ++ ·) h3⟩, rfl⟩
  · rintro v ⟨more, h⟩
    refine ⟨(_, [(k, v)]), (hl _).mpr ⟨⟨_, h.symm⟩, (det_word (lstrip_skip _ (lstrip_lstrip t)) k .done [] _).mpr ⟨v, more, ?_, rfl⟩⟩, rfl⟩
    rw [hsp, h]
    simp

/-- `(\S+)\s+(quad)`. -/
def pairP (i j : Nat) : Prog := .grp i (.plus .nonspace .done) (.plus .space (.grp j (quad .done) .done))

/-- The words `a` and one that begins with the quad `m`. -/
def Pair (ws : List Str) (a m : Str) : Prop :=
  Cisco.Spec.DottedQuad m ∧ ∃ u more, ws = a :: (m ++ u) :: more ∧ ∀ x, u.head? = some x → isDigit x = false

theorem pair_tail (i j : Nat) {r : Str} (h0 : lstrip r = r) (c : Caps) :
    (∀ q, (pairP i j).det r c = some q → ∃ a m, Pair (splitWs r) a m ∧ q.2 = (j, m) :: (i, a) :: c) ∧
    (∀ a m, Pair (splitWs r) a m → ∃ q, (pairP i j).det r c = some q ∧ q.2 = (j, m) :: (i, a) :: c) := by
  by_cases hne : r = []
  · subst hne
    refine ⟨fun q hq => (by cases hq), ?_⟩
    rintro a m ⟨_, u, more, h, _⟩
    cases h
  obtain ⟨a, rest, e1, e2, e3, e4⟩ := split_cons h0 hne
  have e5 : (pairP i j).det r c =
      if rest = [] then none else (Prog.grp j (quad .done) .done).det (lstrip rest) ((i, a) :: c) := by
    rw [e1, pairP, det_cap_word e2 e3, det_sp _ e3]
  rw [e5]
  constructor
  · intro q hq
    split at hq
    · cases hq
    · obtain ⟨x, s, b1, b2, b3⟩ := (det_grp j _ _ rfl _ _ _).mp hq
      rw [Prog.det] at b3
      cases b3
      obtain ⟨m, s', c1, c2, c3, c4⟩ := (quad_open _ _ _ _).mp b2
      rw [Prog.det] at c4
      cases c4
      have hx : x = m := List.append_cancel_right (b1.symm.trans c1)
      subst hx
      have hne' : lstrip rest ≠ [] := by
        intro e
        rw [e] at b1
        exact (Re.quad_word c2).1 (List.append_eq_nil_iff.mp b1.symm).1
      obtain ⟨w, rest', f1, f2, f3, f4⟩ := split_cons (lstrip_lstrip rest) hne'
      obtain ⟨u, hu⟩ := (prefix_first (Re.quad_word c2) f2 f3).mp (by rw [← f1, b1]; exact List.prefix_append _ _)
      refine ⟨a, x, ⟨c2, u, splitWs rest', ?_, ?_⟩, rfl⟩
      · rw [e4, ← splitWs_lstrip rest, f4, hu]
      · intro y hy
        apply c3
        have : s = u ++ rest' := by
          refine List.append_cancel_left (as := x) ?_
          rw [← b1, f1, ← hu]; simp
        rw [this, List.head?_append, hy]; rfl
  · rintro a' m ⟨h2, u, more, h1, h3⟩
    rw [e4] at h1
    have h1' : splitWs rest = (m ++ u) :: more := (List.cons.inj h1).2
    obtain rfl : a = a' := (List.cons.inj h1).1
    clear h1
    have hne' : lstrip rest ≠ [] := by
      intro e
      rw [← splitWs_lstrip, e] at h1'
      cases h1'
    obtain ⟨w, rest', f1, f2, f3, f4⟩ := split_cons (lstrip_lstrip rest) hne'
    rw [← splitWs_lstrip, f4] at h1'
    obtain ⟨rfl, -⟩ := List.cons.inj h1'
    refine ⟨(u ++ rest', (j, m) :: (i, a) :: c), ?_, rfl⟩
    · rw [if_neg (by rintro rfl; exact hne' rfl)]
      refine (det_grp j _ _ rfl _ _ _).mpr ⟨m, u ++ rest', by rw [f1]; simp, ?_, rfl⟩
      refine (quad_open _ _ _ _).mpr ⟨m, u ++ rest', by rw [f1]; simp, h2, ?_, rfl⟩
      intro y hy
      cases u with
      | nil => exact space_not_digit (f3 y (by simpa using hy))
      | cons z u => exact h3 y (by simpa using hy)

/-- The second alternative. -/
def netP : Prog := .star .space (words (Cisco.Spec.wd ["network-object"]) (pairP 4 5))

/-- The words of a line with a network and a mask. -/
def NetWords (t n m : Str) : Prop :=
  Cisco.Spec.DottedQuad m ∧ ∃ u more, splitWs t = Cisco.Spec.wd ["network-object"] ++ n :: (m ++ u) :: more ∧
    ∀ x, u.head? = some x → isDigit x = false

theorem netP_det (t : Str) :
    (∀ q, netP.det t [] = some q → ∃ n m, NetWords t n m ∧ q.2 = [(5, m), (4, n)]) ∧
    (∀ n m, NetWords t n m → ∃ q, netP.det t [] = some q ∧ q.2 = [(5, m), (4, n)]) := by
  have hw : ∀ w ∈ Cisco.Spec.wd ["network-object"], IsWord w := words_of' (by decide)
  have hl := fun q => det_lead hw (pairP 4 5) (fun _ => rfl) t [] q
  have hsp : splitWs (skip 1 (lstrip t)) = (splitWs t).drop 1 := by
    rw [splitWs_skip _ (lstrip_lstrip t), splitWs_lstrip]
  have hk := pair_tail 4 5 (lstrip_skip 1 (lstrip_lstrip t)) []
  constructor
  · intro q h
    obtain ⟨h1, h2⟩ := (hl q).mp h
    obtain ⟨n, m, ⟨h3, u, more, h4, h5⟩, h6⟩ := hk.1 q h2
    refine ⟨n, m, ⟨h3, u, more, ?_, h5⟩, h6⟩
    rw [hsp] at h4
    rw [prefix_append_drop h1]
    exact congrArg (_ ++ ·) h4
  · rintro n m ⟨h1, u, more, h2, h3⟩
    obtain ⟨q, h4, h5⟩ := hk.2 n m ⟨h1, u, more, by rw [hsp, h2]; rfl, h3⟩
    exact ⟨q, (hl q).mpr ⟨⟨_, h2.symm⟩, h4⟩, h5⟩

/-- The three alternatives. -/
def memberAlts : List (Nat × Prog) :=
  [(1, nextK 2 (Cisco.Spec.wd ["network-object", "host"])), (3, netP), (6, nextK 7 (Cisco.Spec.wd ["group-object"]))]

/-- The names of the groups. -/
def memberNames : List (Str × Nat) :=
  [("host".toList, 2), ("network".toList, 4), ("netmask".toList, 5), ("groupobject".toList, 7)]

theorem compile_member : compileL reNetObject { verbose := true } = .ok ⟨alts (altRx memberAlts), 7, memberNames⟩ := by
  decide +kernel

theorem member_wf : ∀ a ∈ memberAlts, a.2.wf (fun _ => false) true = true := by decide +kernel

theorem verbose_alts {rx : Str} {l : List (Nat × Prog)} {n : Nat} {names : List (Str × Nat)}
    (h : compileL rx { verbose := true } = .ok ⟨alts (altRx l), n, names⟩) (hl : l ≠ [])
    (hw : ∀ a ∈ l, a.2.wf (fun _ => false) true = true) (t : Str) :
    verboseDict rx t = .ok ((altDet l t).map (fun q => names.map (fun x => (x.1, q.2.lookup x.2)))) := by
  rw [verboseDict, h]
  simp only [search_alts hl hw, Option.map_map]
  rfl

theorem next_word {ws : List String} {t v : Str} (h : Cisco.Spec.Next ws t v) : IsWord v := by
  obtain ⟨more, e⟩ := h
  exact splitWs_words t v (by rw [e]; simp)

/-- What a line of a group says. -/
theorem member_spec (t : Str) :
    ∃ m, member t = .ok m ∧
      (match m with
      | .host h => Spec.Host t h
      | .net n m => Spec.NetLine t n m ∧ m ≠ Spec.allOnes
      | .group g => Spec.MemberLine t g
      | .other => (∀ h, ¬ Spec.HostLine t h) ∧ (∀ n m, ¬ Spec.NetLine t n m) ∧ ∀ g, ¬ Spec.MemberLine t g) := by
  have h1 := nextK_det 2 (l := ["network-object", "host"]) (words_of' (by decide)) t
  have h2 := netP_det t
  have h3 := nextK_det 7 (l := ["group-object"]) (words_of' (by decide)) t
  have e := verbose_alts compile_member (by decide) member_wf t
  rw [member, e]
  cases d1 : (nextK 2 (Cisco.Spec.wd ["network-object", "host"])).det t [] with
  | some q =>
    obtain ⟨v, hv, hq⟩ := h1.1 q d1
    refine ⟨.host v, ?_, .inl hv⟩
    have hne := (next_word hv).1
    cases v with
    | nil => exact absurd rfl hne
    | cons x v =>
      simp only [memberAlts, altDet, d1, hq]
      rfl
  | none =>
    have n1 : ∀ h, ¬ Spec.HostLine t h := by
      intro h hh
      obtain ⟨q, hq, _⟩ := h1.2 h hh
      rw [d1] at hq; cases hq
    cases d2 : netP.det t [] with
    | some q =>
      obtain ⟨n, m, hn, hq⟩ := h2.1 q d2
      have hw : n ≠ [] := by
        obtain ⟨_, u, more, e, _⟩ := hn
        exact (splitWs_words t n (by rw [e]; simp)).1
      have hh : n ≠ "host".toList := by
        rintro rfl
        obtain ⟨_, u, more, e, _⟩ := hn
        exact n1 (m ++ u) ⟨more, e⟩
      have hN : Spec.NetLine t n m := ⟨hh, hn⟩
      cases n with
      | nil => exact absurd rfl hw
      | cons x n =>
        by_cases hm : m = Spec.allOnes
        · refine ⟨.host (x :: n), ?_, .inr (hm ▸ hN)⟩
          simp only [memberAlts, altDet, d1, d2, hq, hm]
          rfl
        · refine ⟨.net (x :: n) m, ?_, hN, hm⟩
          have : ¬ some m = some Spec.allOnes := by simpa using hm
          simp only [memberAlts, altDet, d1, d2, hq]
          show (match (if some m = some Spec.allOnes then some (x :: n) else none) with
            | some h => Except.ok (Member.host h)
            | none => .ok (.net (x :: n) m)) = _
          rw [if_neg this]
    | none =>
      have n2 : ∀ n m, ¬ Spec.NetLine t n m := by
        rintro n m ⟨_, hn⟩
        obtain ⟨q, hq, _⟩ := h2.2 n m hn
        rw [d2] at hq; cases hq
      cases d3 : (nextK 7 (Cisco.Spec.wd ["group-object"])).det t [] with
      | some q =>
        obtain ⟨v, hv, hq⟩ := h3.1 q d3
        refine ⟨.group v, ?_, hv⟩
        have hne := (next_word hv).1
        cases v with
        | nil => exact absurd rfl hne
        | cons x v =>
          simp only [memberAlts, altDet, d1, d2, d3, hq]
          rfl
      | none =>
        refine ⟨.other, ?_, n1, n2, ?_⟩
        · simp only [memberAlts, altDet, d1, d2, d3]
          rfl
        · intro g hg
          obtain ⟨q, hq, _⟩ := h3.2 g hg
          rw [d3] at hq; cases hq

end Asa

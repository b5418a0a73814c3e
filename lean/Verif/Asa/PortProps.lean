import Verif.Asa.PortLemmas
import Verif.Asa.GroupProps
import Verif.Misc.Props

/-! # Service object groups -/

namespace Asa

open Py Re Conf Cisco

/-! ## A word of the expression and what follows -/

theorem plus_space_det {P : Prog} (hP : ∀ c, P.det [] c = none) {u : Str} (hu : ∀ x, u.head? = some x → isSpace x = true) (c : Caps) :
    (Prog.plus .space P).det u c = P.det (lstrip u) c := by
  cases u with
  | nil => rw [show lstrip [] = [] from rfl, hP]; rfl
  | cons x s =>
    have hx : isSpace x = true := hu x rfl
    rw [plus_cons, if_pos (show K.space.has x = true from hx), lstrip, List.dropWhile_cons_of_pos hx]
    rfl

theorem skip_one (r : Str) : skip 1 r = lstrip (r.dropWhile nsp) := by
  rw [skip, skip]

theorem drop_head {r : Str} : ∀ x, (r.dropWhile nsp).head? = some x → isSpace x = true := by
  intro x hx
  have := List.head?_dropWhile_not nsp r
  rw [hx] at this
  simpa [nsp] using this

theorem lit_det (k : Nat) (v : Str) (P : Prog) (r : Str) (c : Caps) :
    (Prog.grp k (str v .done) (.plus .space P)).det r c = (words [v] P).det r ((k, v) :: c) := by
  show _ = (str v (.plus .space P)).det r ((k, v) :: c)
  rw [Prog.det, det_str, det_str]
  by_cases hp : v <+: r
  · rw [if_pos hp, if_pos hp, Prog.det]
    obtain ⟨s, rfl⟩ := hp
    simp
  · rw [if_neg hp, if_neg hp]

theorem mark_det (k : Nat) {w v : Str} (hw : IsWord w) (hv : IsWord v) {P : Prog} (hP : ∀ c, P.det [] c = none) (t : Str)
    (q : Str × Caps) :
    (markP k w v (.plus .space P)).det t [] = some q ↔
      [w, v] <+: splitWs t ∧ P.det (skip 2 (lstrip t)) [(k, v)] = some q := by
  have hv0 : ∀ c, (Prog.grp k (str v .done) (.plus .space P)).det [] c = none := by
    intro c
    rw [lit_det]
    obtain ⟨x, v', rfl⟩ := List.exists_cons_of_ne_nil hv.1
    rfl
  have h0 := lstrip_lstrip t
  rw [markP, det_lead (by simpa using hw) _ hv0, lit_det, det_words (by simpa using hv) _ hP (lstrip_skip _ h0)]
  have e : skip [v].length (skip [w].length (lstrip t)) = skip 2 (lstrip t) := rfl
  rw [e, splitWs_skip _ h0, splitWs_lstrip]
  generalize splitWs t = ws
  constructor
  · rintro ⟨⟨s, rfl⟩, ⟨s', h2⟩, h3⟩
    refine ⟨⟨s', ?_⟩, h3⟩
    have : s = [v] ++ s' := by simpa using h2.symm
    rw [this]
    rfl
  · rintro ⟨⟨s, rfl⟩, h3⟩
    exact ⟨⟨v :: s, rfl⟩, ⟨s, rfl⟩, h3⟩

/-! ## `service-object` lines -/

def svcP : Prog := .grp 3 (.plus .nonspace .done) (.plus .space (.grp 4 (.plus .nonspace .done) .done))

theorem svcP_det {r : Str} (h0 : lstrip r = r) (c : Caps) (q : Str × Caps) (h : svcP.det r c = some q) :
    ∃ d x more, splitWs r = d :: x :: more ∧ q.2 = (4, x) :: (3, d) :: c := by
  obtain ⟨d, vs, h1, h2⟩ := (det_word h0 3 _ c q).mp h
  rw [plus_space_det (fun _ => rfl) drop_head, ← skip_one] at h2
  obtain ⟨x, more, h3, h4⟩ := (det_word (lstrip_skip 1 h0) 4 _ _ q).mp h2
  rw [splitWs_skip 1 h0, h1] at h3
  rw [Prog.det] at h4
  cases h4
  exact ⟨d, x, more, by rw [h1]; exact congrArg _ h3, rfl⟩

theorem svcP_of {r d x : Str} {more : List Str} (h0 : lstrip r = r) (c : Caps) (h : splitWs r = d :: x :: more) :
    ∃ q, svcP.det r c = some q ∧ q.2 = (4, x) :: (3, d) :: c := by
  refine ⟨((skip 1 r).dropWhile nsp, (4, x) :: (3, d) :: c), (det_word h0 3 _ c _).mpr ⟨d, _, h, ?_⟩, rfl⟩
  · rw [plus_space_det (fun _ => rfl) drop_head, ← skip_one]
    refine (det_word (lstrip_skip 1 h0) 4 _ _ _).mpr ⟨x, more, ?_, rfl⟩
    rw [splitWs_skip 1 h0, h]
    rfl

theorem svc_iff {pr : Str} (hpr : IsWord pr) (t : Str) :
    (∀ q, (markP 2 "service-object".toList pr svcEnd).det t [] = some q →
      ∃ d x, Spec.SvcLine t pr x ∧ q.2 = [(4, x), (3, d), (2, pr)]) ∧
    (∀ x, Spec.SvcLine t pr x → ∃ q d, (markP 2 "service-object".toList pr svcEnd).det t [] = some q ∧
      q.2 = [(4, x), (3, d), (2, pr)]) := by
  have hl := fun q => mark_det 2 (w := "service-object".toList) (by decide +kernel) hpr (P := svcP) (fun _ => rfl) t q
  have h0 := lstrip_lstrip t
  constructor
  · intro q h
    obtain ⟨⟨s, hs⟩, h2⟩ := (hl q).mp h
    obtain ⟨d, x, more, h3, h4⟩ := svcP_det (lstrip_skip 2 h0) _ q h2
    rw [splitWs_skip 2 h0, splitWs_lstrip, ← hs] at h3
    refine ⟨d, x, ⟨d, more, ?_⟩, h4⟩
    rw [← hs]
    exact congrArg (_ ++ ·) h3
  · rintro x ⟨d, more, h⟩
    have hsp : splitWs (skip 2 (lstrip t)) = d :: x :: more := by rw [splitWs_skip 2 h0, splitWs_lstrip, h]; rfl
    obtain ⟨q, h1, h2⟩ := svcP_of (lstrip_skip 2 h0) [(2, pr)] hsp
    exact ⟨q, d, (hl q).mpr ⟨⟨d :: x :: more, h.symm⟩, h1⟩, h2⟩

/-! ## `port-object` lines -/

def portP : Prog := .grp 7 (.one .nonspace (.plus .any .done)) .done

theorem any_drop {r : Str} (hn : '\n' ∉ r) : r.dropWhile K.any.has = [] := by
  induction r with
  | nil => rfl
  | cons x r ih =>
    have : x ≠ '\n' := fun e => hn (by simp [e])
    rw [List.dropWhile_cons_of_pos (by simpa [K.has] using this)]
    exact ih (fun h => hn (by simp [h]))

theorem portP_det {r : Str} (h0 : lstrip r = r) (hn : '\n' ∉ r) (c : Caps) :
    portP.det r c = if 2 ≤ r.length then some ([], (7, r) :: c) else none := by
  rw [portP, Prog.det]
  cases r with
  | nil => rfl
  | cons x s =>
    have hx : isSpace x = false := by
      cases hx : isSpace x with
      | false => rfl
      | true =>
        rw [lstrip, List.dropWhile_cons_of_pos hx] at h0
        have := congrArg List.length h0
        have h2 := (List.dropWhile_suffix isSpace (l := s)).length_le
        simp only [List.length_cons] at this
        omega
    have hx' : K.nonspace.has x = true := by simpa [K.has] using hx
    cases s with
    | nil => simp [Prog.det]
    | cons y s =>
      have hy : K.any.has y = true := by
        have : y ≠ '\n' := fun e => hn (by simp [e])
        simpa [K.has] using this
      rw [Prog.det]
      simp only [if_pos hx', if_pos hy, any_drop (show '\n' ∉ s from fun h => hn (by simp [h])), Prog.det]
      simp

theorem rest_word {r w : Str} {vs : List Str} (h0 : lstrip r = r) (h : splitWs r = w :: vs) :
    ∃ b, r = w ++ (b ++ skip 1 r) ∧ (∀ c ∈ b, isSpace c = true) ∧ (skip 1 r ≠ [] → b ≠ []) := by
  have hne : r ≠ [] := by rintro rfl; cases h
  obtain ⟨e1, e2, e3⟩ := split_word h0 hne
  rw [splitWs_cons h0 hne] at h
  have hw : r.takeWhile nsp = w := (List.cons.inj h).1
  refine ⟨(r.dropWhile nsp).takeWhile isSpace, ?_, ?_, ?_⟩
  · rw [skip_one, lstrip, List.takeWhile_append_dropWhile, ← hw]
    exact e1
  · intro c hc
    exact List.all_eq_true.mp List.all_takeWhile c hc
  · intro hs he
    have : r.dropWhile nsp = [] := by
      cases hd : r.dropWhile nsp with
      | nil => rfl
      | cons x s =>
        have := e3 x (by rw [hd]; rfl)
        rw [hd, List.takeWhile_cons_of_pos this] at he
        cases he
    rw [skip_one, this] at hs
    exact hs rfl

theorem skip_gap {w b v : Str} (hw : IsWord w) (hb : Spec.Gap b) (hv : ∀ x, v.head? = some x → isSpace x = false) :
    skip 1 (w ++ (b ++ v)) = v := by
  obtain ⟨y, b', rfl⟩ := List.exists_cons_of_ne_nil hb.1
  have h1 : (w ++ (y :: b' ++ v)).dropWhile nsp = y :: b' ++ v := by
    rw [List.dropWhile_append_of_pos (by intro c hc; simpa [nsp] using hw.2 c hc), List.cons_append,
      List.dropWhile_cons_of_neg (by simpa [nsp] using hb.2 y (by simp))]
  show lstrip _ = v
  rw [h1, lstrip, List.dropWhile_append_of_pos hb.2]
  cases v with
  | nil => rfl
  | cons x v => rw [List.dropWhile_cons_of_neg (by simpa using hv x rfl)]

theorem lstrip_gap {a v : Str} (ha : ∀ x ∈ a, isSpace x = true) (hv : ∀ x, v.head? = some x → isSpace x = false) :
    lstrip (a ++ v) = v := by
  rw [lstrip, List.dropWhile_append_of_pos ha]
  cases v with
  | nil => rfl
  | cons x v => rw [List.dropWhile_cons_of_neg (by simpa using hv x rfl)]

theorem head_word {w : Str} (hw : IsWord w) (s : Str) : ∀ x, (w ++ s).head? = some x → isSpace x = false := by
  obtain ⟨y, w', rfl⟩ := List.exists_cons_of_ne_nil hw.1
  intro x hx
  cases hx
  exact hw.2 y (by simp)

theorem port_line {op : Str} (hop : IsWord op) (t v : Str) :
    Spec.PortLine t op v ↔ ["port-object".toList, op] <+: splitWs t ∧ v = skip 2 (lstrip t) ∧ v ≠ [] := by
  have hw : IsWord "port-object".toList := by decide +kernel
  constructor
  · rintro ⟨a, b, c, rfl, ha, hb, hc, hv, hx⟩
    have e1 := lstrip_gap ha (head_word hw (b ++ (op ++ (c ++ v))))
    have e2 := skip_gap hw hb (head_word hop (c ++ v))
    have e3 := skip_gap hop hc hx
    have e4 : skip 2 (lstrip (a ++ ("port-object".toList ++ (b ++ (op ++ (c ++ v)))))) = v := by
      rw [e1]
      show skip 1 (skip 1 _) = v
      rw [e2, e3]
    have gap : ∀ {b s : Str}, Spec.Gap b → ∀ x, (b ++ s).head? = some x → isSpace x = true := by
      intro b s hb
      obtain ⟨y, b', rfl⟩ := List.exists_cons_of_ne_nil hb.1
      intro x hx
      cases hx
      exact hb.2 y (by simp)
    have drop : ∀ {b s : Str}, Spec.Gap b → splitWs (b ++ s) = splitWs s := by
      intro b s hb
      rw [← splitWs_lstrip, lstrip, List.dropWhile_append_of_pos hb.2]
      exact splitWs_lstrip s
    refine ⟨?_, e4.symm, hv⟩
    rw [← splitWs_lstrip, e1, splitWs_word_rest hw (gap hb), drop hb, splitWs_word_rest hop (gap hc)]
    exact ⟨_, rfl⟩
  · rintro ⟨⟨s, hs⟩, hv, hne⟩
    have h0 := lstrip_lstrip t
    have h1 : splitWs (lstrip t) = "port-object".toList :: op :: s := by rw [splitWs_lstrip, ← hs]; rfl
    obtain ⟨b, e1, e2, e3⟩ := rest_word h0 h1
    have h2 : splitWs (skip 1 (lstrip t)) = op :: s := by rw [splitWs_skip 1 h0, h1]; rfl
    obtain ⟨c, f1, f2, f3⟩ := rest_word (lstrip_skip 1 h0) h2
    have hk : skip 1 (skip 1 (lstrip t)) = v := hv.symm
    rw [hk] at f1 f3
    have hne1 : skip 1 (lstrip t) ≠ [] := by intro e; rw [e] at h2; cases h2
    refine ⟨t.takeWhile isSpace, b, c, ?_, ?_, ⟨e3 hne1, e2⟩, ⟨f3 hne, f2⟩, hne, ?_⟩
    · rw [← f1, ← e1, lstrip, List.takeWhile_append_dropWhile]
    · intro c hc
      exact List.all_eq_true.mp List.all_takeWhile c hc
    · intro x hx
      have h3 : lstrip v = v := by rw [hv]; exact lstrip_skip 2 h0
      cases v with
      | nil => cases hx
      | cons y v =>
        cases hx
        cases hy : isSpace x with
        | false => rfl
        | true =>
          rw [lstrip, List.dropWhile_cons_of_pos hy] at h3
          have h4 := congrArg List.length h3
          have h5 := (List.dropWhile_suffix isSpace (l := v)).length_le
          simp only [List.length_cons] at h4
          omega

theorem port_iff {op : Str} (hop : IsWord op) {t : Str} (hn : '\n' ∉ t) :
    (∀ q, (markP 6 "port-object".toList op portEnd).det t [] = some q →
      ∃ v, Spec.PortLine t op v ∧ 2 ≤ v.length ∧ q.2 = [(7, v), (6, op)]) ∧
    (∀ v, Spec.PortLine t op v → 2 ≤ v.length → ∃ q, (markP 6 "port-object".toList op portEnd).det t [] = some q ∧
      q.2 = [(7, v), (6, op)]) := by
  have hl := fun q => mark_det 6 (w := "port-object".toList) (by decide +kernel) hop (P := portP) (fun _ => rfl) t q
  have h0 := lstrip_lstrip t
  have hn' : '\n' ∉ skip 2 (lstrip t) := fun h => hn ((lstrip_suffix t).subset ((skip_suffix 2 _).subset h))
  have hp := portP_det (lstrip_skip 2 h0) hn' [(6, op)]
  constructor
  · intro q h
    obtain ⟨h1, h2⟩ := (hl q).mp h
    rw [hp] at h2
    split at h2
    · rename_i h3
      cases h2
      exact ⟨_, (port_line hop t _).mpr ⟨h1, rfl, by intro e; rw [e] at h3; simp at h3⟩, h3, rfl⟩
    · cases h2
  · intro v h hlen
    obtain ⟨h1, h2, h3⟩ := (port_line hop t v).mp h
    rw [← h2, if_pos hlen, h2] at hp
    exact ⟨_, (hl _).mpr ⟨h1, hp⟩, by rw [← h2]⟩

/-! ## The objects of a line -/

theorem l4_iff (pr x : Str) (o : L4) : l4 pr x = .ok o ↔ Spec.Made pr x o := by
  rw [l4, Spec.Made]
  cases h : Misc.l4object pr x "asa".toList with
  | error e => simp [bind, Except.bind]
  | ok ps =>
    simp only [bind, Except.bind, Except.ok.injEq]
    constructor
    · rintro rfl; exact ⟨rfl, rfl⟩
    · rintro ⟨h1, h2⟩; rw [h2, ← h1]

theorem l4s_iff (pr x : Str) (l : List L4) : l4s pr x = .ok l ↔ Spec.Objects pr x l := by
  rw [l4s, Spec.Objects]
  split
  · constructor
    · intro h
      obtain ⟨a, h1, h⟩ := bind_ok h
      obtain ⟨b, h2, h⟩ := bind_ok h
      cases h
      exact ⟨a, b, (l4_iff _ _ _).mp h1, (l4_iff _ _ _).mp h2, rfl⟩
    · rintro ⟨a, b, h1, h2, rfl⟩
      rw [(l4_iff _ _ _).mpr h1, (l4_iff _ _ _).mpr h2]
      rfl
  · constructor
    · intro h
      obtain ⟨a, h1, h⟩ := bind_ok h
      cases h
      exact ⟨a, (l4_iff _ _ _).mp h1, rfl⟩
    · rintro ⟨a, h1, rfl⟩
      rw [(l4_iff _ _ _).mpr h1]
      rfl

theorem proto_word {pr : Str} (h : pr ∈ Spec.protocols) : IsWord pr := by
  revert pr; decide +kernel

theorem op_word {op : Str} (h : op ∈ Spec.operators) : IsWord op := by
  revert op; decide +kernel

/-- What the expression finds in a line. -/
theorem port_cases (ty : Str) {t : Str} (hn : '\n' ∉ t) :
    (∃ pr ∈ Spec.protocols, ∃ x, Spec.SvcLine t pr x ∧ portsOf ty t = l4s pr x) ∨
    (∃ op ∈ Spec.operators, ∃ v, Spec.PortLine t op v ∧ 2 ≤ v.length ∧ portsOf ty t = l4s ty (op ++ ' ' :: v)) ∨
    ((∀ pr ∈ Spec.protocols, ∀ x, ¬ Spec.SvcLine t pr x) ∧ (∀ op ∈ Spec.operators, ∀ v, Spec.PortLine t op v → v.length = 1) ∧
      ((∃ g, Spec.MemberLine t g ∧ portsOf ty t = .error .attributeError) ∨
        ((∀ g, ¬ Spec.MemberLine t g) ∧
          portsOf ty t = if isInfix "description ".toList t then .ok [] else .error .notImplemented))) := by
  have s1 := svc_iff (pr := "tcp".toList) (by decide +kernel) t
  have s2 := svc_iff (pr := "udp".toList) (by decide +kernel) t
  have s3 := svc_iff (pr := "tcp-udp".toList) (by decide +kernel) t
  have p1 := port_iff (op := "eq".toList) (by decide +kernel) hn
  have p2 := port_iff (op := "range".toList) (by decide +kernel) hn
  have g1 := nextK_det 9 (l := ["group-object"]) (words_of' (by decide)) t
  have nos : ∀ {pr : Str}, (∀ x, Spec.SvcLine t pr x → ∃ q d, (markP 2 "service-object".toList pr svcEnd).det t [] = some q ∧
      q.2 = [(4, x), (3, d), (2, pr)]) → (markP 2 "service-object".toList pr svcEnd).det t [] = none → ∀ x, ¬ Spec.SvcLine t pr x := by
    intro pr h1 h2 x hx
    obtain ⟨q, d, h3, _⟩ := h1 x hx
    rw [h2] at h3
    cases h3
  have nop : ∀ {op : Str}, (∀ v, Spec.PortLine t op v → 2 ≤ v.length → ∃ q, (markP 6 "port-object".toList op portEnd).det t [] = some q ∧
      q.2 = [(7, v), (6, op)]) → (markP 6 "port-object".toList op portEnd).det t [] = none → ∀ v, Spec.PortLine t op v → v.length = 1 := by
    intro op h1 h2 v hv
    have hne : v ≠ [] := by
      obtain ⟨a, b, c, _, _, _, _, h, _⟩ := hv
      exact h
    have : 0 < v.length := List.length_pos_iff.mpr hne
    by_cases hl : 2 ≤ v.length
    · obtain ⟨q, h3, _⟩ := h1 v hv hl
      rw [h2] at h3
      cases h3
    · omega
  rw [portsOf, port_search]
  cases d1 : (markP 2 "service-object".toList "tcp".toList svcEnd).det t [] with
  | some q =>
    obtain ⟨d, x, h1, h2⟩ := s1.1 q d1
    refine .inl ⟨_, by simp [Spec.protocols], x, h1, ?_⟩
    simp only [portAlts, altDet, d1, h2]
    rfl
  | none =>
  cases d2 : (markP 2 "service-object".toList "udp".toList svcEnd).det t [] with
  | some q =>
    obtain ⟨d, x, h1, h2⟩ := s2.1 q d2
    refine .inl ⟨_, by simp [Spec.protocols], x, h1, ?_⟩
    simp only [portAlts, altDet, d1, d2, h2]
    rfl
  | none =>
  cases d3 : (markP 2 "service-object".toList "tcp-udp".toList svcEnd).det t [] with
  | some q =>
    obtain ⟨d, x, h1, h2⟩ := s3.1 q d3
    refine .inl ⟨_, by simp [Spec.protocols], x, h1, ?_⟩
    simp only [portAlts, altDet, d1, d2, d3, h2]
    rfl
  | none =>
  cases d4 : (markP 6 "port-object".toList "eq".toList portEnd).det t [] with
  | some q =>
    obtain ⟨v, h1, h2, h3⟩ := p1.1 q d4
    refine .inr (.inl ⟨_, by simp [Spec.operators], v, h1, h2, ?_⟩)
    simp only [portAlts, altDet, d1, d2, d3, d4, h3]
    rfl
  | none =>
  cases d5 : (markP 6 "port-object".toList "range".toList portEnd).det t [] with
  | some q =>
    obtain ⟨v, h1, h2, h3⟩ := p2.1 q d5
    refine .inr (.inl ⟨_, by simp [Spec.operators], v, h1, h2, ?_⟩)
    simp only [portAlts, altDet, d1, d2, d3, d4, d5, h3]
    rfl
  | none =>
  refine .inr (.inr ⟨?_, ?_, ?_⟩)
  · intro pr hpr
    rcases List.mem_cons.mp hpr with rfl | hpr
    · exact nos s1.2 d1
    rcases List.mem_cons.mp hpr with rfl | hpr
    · exact nos s2.2 d2
    rcases List.mem_cons.mp hpr with rfl | hpr
    · exact nos s3.2 d3
    · cases hpr
  · intro op hop
    rcases List.mem_cons.mp hop with rfl | hop
    · exact nop p1.2 d4
    rcases List.mem_cons.mp hop with rfl | hop
    · exact nop p2.2 d5
    · cases hop
  · cases d6 : (nextK 9 (Cisco.Spec.wd ["group-object"])).det t [] with
    | some q =>
      obtain ⟨g, h1, h2⟩ := g1.1 q d6
      refine .inl ⟨g, h1, ?_⟩
      have hne := (next_word h1).1
      cases g with
      | nil => exact absurd rfl hne
      | cons x g =>
        simp only [portAlts, altDet, d1, d2, d3, d4, d5, d6, h2]
        rfl
    | none =>
      refine .inr ⟨?_, ?_⟩
      · intro g hg
        obtain ⟨q, h1, _⟩ := g1.2 g hg
        rw [d6] at h1
        cases h1
      · simp only [portAlts, altDet, d1, d2, d3, d4, d5, d6]
        rfl

theorem svc_unique {t pr x pr' x' : Str} (h : Spec.SvcLine t pr x) (h' : Spec.SvcLine t pr' x') : pr = pr' ∧ x = x' := by
  obtain ⟨d, more, h⟩ := h
  obtain ⟨d', more', h'⟩ := h'
  rw [h] at h'
  simp only [List.cons.injEq, true_and] at h'
  exact ⟨h'.1, h'.2.2.1⟩

theorem port_unique {t op v op' v' : Str} (ho : op ∈ Spec.operators) (ho' : op' ∈ Spec.operators) (h : Spec.PortLine t op v)
    (h' : Spec.PortLine t op' v') : op = op' ∧ v = v' := by
  obtain ⟨⟨s, h1⟩, h2, _⟩ := (port_line (op_word ho) t v).mp h
  obtain ⟨⟨s', h1'⟩, h2', _⟩ := (port_line (op_word ho') t v').mp h'
  rw [← h1] at h1'
  simp only [List.cons_append, List.nil_append, List.cons.injEq, true_and] at h1'
  exact ⟨h1'.1.symm, h2.trans h2'.symm⟩

theorem svc_not_port {t pr x op v : Str} (ho : op ∈ Spec.operators) (h : Spec.SvcLine t pr x) (h' : Spec.PortLine t op v) : False := by
  obtain ⟨d, more, h⟩ := h
  obtain ⟨⟨s', h1'⟩, _, _⟩ := (port_line (op_word ho) t v).mp h'
  rw [h] at h1'
  simp only [List.cons_append, List.cons.injEq] at h1'
  exact absurd h1'.1 (by decide +kernel)

theorem gives_iff (ty : Str) {t : Str} (hn : '\n' ∉ t) (l : List L4) : portsOf ty t = .ok l ↔ Spec.Gives ty t l := by
  constructor
  · intro h
    rcases port_cases ty hn with ⟨pr, h1, x, h2, h3⟩ | ⟨op, h1, v, h2, h3, h4⟩ | ⟨h1, h2, h3⟩
    · exact .service h1 h2 ((l4s_iff _ _ _).mp (h3 ▸ h))
    · exact .port h1 h2 h3 ((l4s_iff _ _ _).mp (h4 ▸ h))
    · rcases h3 with ⟨g, h3, h4⟩ | ⟨h3, h4⟩
      · rw [h4] at h; cases h
      · rw [h4] at h
        split at h
        · rename_i h5
          cases h
          exact .note h1 h2 h3 ((isInfix_iff _ _).mp h5)
        · cases h
  · intro h
    cases h with
    | service h1 h2 h3 =>
      rcases port_cases ty hn with ⟨pr, g1, x, g2, g3⟩ | ⟨op, g1, v, g2, _, _⟩ | ⟨g1, _, _⟩
      · obtain ⟨rfl, rfl⟩ := svc_unique h2 g2
        rw [g3]
        exact (l4s_iff _ _ _).mpr h3
      · exact absurd g2 (fun g2 => svc_not_port g1 h2 g2)
      · exact absurd h2 (g1 _ h1 _)
    | port h1 h2 h3 h4 =>
      rcases port_cases ty hn with ⟨pr, g1, x, g2, g3⟩ | ⟨op, g1, v, g2, _, g3⟩ | ⟨_, g2, _⟩
      · exact absurd h2 (fun h2 => svc_not_port h1 g2 h2)
      · obtain ⟨rfl, rfl⟩ := port_unique h1 g1 h2 g2
        rw [g3]
        exact (l4s_iff _ _ _).mpr h4
      · have := g2 _ h1 _ h2
        omega
    | note h1 h2 h3 h4 =>
      rcases port_cases ty hn with ⟨pr, g1, x, g2, g3⟩ | ⟨op, g1, v, g2, g3, _⟩ | ⟨_, _, g3⟩
      · exact absurd g2 (h1 _ g1 _)
      · have := h2 _ g1 _ g2
        omega
      · rcases g3 with ⟨g, g3, _⟩ | ⟨_, g3⟩
        · exact absurd g3 (h3 g)
        · rw [g3, if_pos ((isInfix_iff _ _).mpr h4)]

theorem all_give (ty : Str) (ts : List Str) (hn : ∀ t ∈ ts, '\n' ∉ t) (l : List L4) :
    (∃ ls, ts.mapM (portsOf ty) = .ok ls ∧ ls.flatten = l) ↔ Spec.AllGive ty ts l := by
  induction ts generalizing l with
  | nil =>
    constructor
    · rintro ⟨ls, h, rfl⟩
      cases h
      exact .nil
    · intro h
      cases h
      exact ⟨[], rfl, rfl⟩
  | cons t ts ih =>
    have ih := ih (fun t ht => hn t (by simp [ht]))
    have hg := gives_iff ty (hn t (by simp))
    rw [List.mapM_cons]
    constructor
    · rintro ⟨ls, h, rfl⟩
      obtain ⟨a, h1, h⟩ := bind_ok h
      obtain ⟨b, h2, h⟩ := bind_ok h
      cases h
      exact .cons ((hg a).mp h1) ((ih _).mp ⟨b, h2, rfl⟩)
    · intro h
      cases h with
      | cons h1 h2 =>
        obtain ⟨b, h3, rfl⟩ := (ih _).mpr h2
        rw [(hg _).mpr h1, h3]
        exact ⟨_, rfl, rfl⟩

/-! ## The line of the group -/

def typeRx : Rgx := .star true (.grp 1 (seqs ((Prog.plus .space .done).toL ++ (Prog.plus .any .done).toL)))

def svcNameP : Prog := words (Cisco.Spec.wd ["object-group", "service"]) (.plus .nonspace .done)

theorem compile_type : compile "^object-group\\s+service\\s+\\S+(\\s+.+)*$" =
    .ok ⟨seqs (.bol :: (svcNameP.toL ++ [typeRx, .eol])), 1, []⟩ := by decide +kernel

theorem runStar_hit {f : Str → Caps → List (Str × Caps)} {n : Nat} {s : Str} {c : Caps} {q : Str × Caps} (h : (f s c).head? = some q)
    (hl : q.1.length < s.length) (h2 : f q.1 q.2 = []) (hn : s.length ≤ n) : (runStar true f n s c).head? = some q := by
  cases n with
  | zero => omega
  | succ n =>
    rw [runStar]
    simp only [if_true]
    have h3 : (runStar true f n q.1 q.2).head? = some q := by
      cases n with
      | zero => rfl
      | succ n => rw [runStar, h2]; rfl
    rw [List.head?_append, head_flatMap h (b := q) (by rw [if_pos hl, h3])]
    rfl

theorem gap_cons {c s : Str} (hc : Spec.Gap c) (p : Prog) (k : Caps) (hs : ∀ x, s.head? = some x → isSpace x = false) :
    (Prog.plus .space p).det (c ++ s) k = p.det s k := by
  obtain ⟨y, c', rfl⟩ := List.exists_cons_of_ne_nil hc.1
  rw [List.cons_append, plus_cons, if_pos (show K.space.has y = true from hc.2 y (by simp)),
    List.dropWhile_append_of_pos (p := K.space.has) (fun x hx => hc.2 x (by simp [hx]))]
  cases s with
  | nil => rfl
  | cons x s => rw [List.dropWhile_cons_of_neg (show ¬ K.space.has x = true by simpa [K.has] using hs x rfl)]

theorem strip_head {s : Str} (h : strip s = s) : ∀ x, s.head? = some x → isSpace x = false := by
  have h0 : lstrip s = s := by rw [← h, strip, lstrip_lstrip]
  intro x hx
  cases s with
  | nil => cases hx
  | cons y s =>
    cases hx
    cases hy : isSpace x with
    | false => rfl
    | true =>
      rw [lstrip, List.dropWhile_cons_of_pos hy] at h0
      have h4 := congrArg List.length h0
      have h5 := (List.dropWhile_suffix isSpace (l := s)).length_le
      simp only [List.length_cons] at h4
      omega

theorem any_plus {s : Str} (hs : s ≠ []) (hn : '\n' ∉ s) (k : Caps) : (Prog.plus .any .done).det s k = some ([], k) := by
  obtain ⟨x, s', rfl⟩ := List.exists_cons_of_ne_nil hs
  have hx : K.any.has x = true := by
    have : x ≠ '\n' := fun e => hn (by simp [e])
    simpa [K.has] using this
  rw [plus_cons, if_pos hx, any_drop (fun h => hn (by simp [h]))]
  rfl

theorem name_det {g s : Str} (hg : IsWord g) (hs : ∀ x, s.head? = some x → isSpace x = true) (k : Caps) :
    (Prog.plus .nonspace .done).det (g ++ s) k = some (s, k) := by
  obtain ⟨x, g', rfl⟩ := List.exists_cons_of_ne_nil hg.1
  rw [List.cons_append, plus_cons, if_pos (by simpa [K.has] using hg.2 x (by simp)),
    List.dropWhile_append_of_pos (by intro c hc; simpa [K.has] using hg.2 c (by simp [hc]))]
  cases s with
  | nil => rfl
  | cons y s => rw [List.dropWhile_cons_of_neg (by simpa [K.has] using hs y rfl)]; rfl

theorem svcName_det {a b g s : Str} (ha : Spec.Gap a) (hb : Spec.Gap b) (hg : IsWord g) (p : Prog) (k : Caps) (r : Option (Str × Caps))
    (hp : p.det (g ++ s) k = r) :
    (words (Cisco.Spec.wd ["object-group", "service"]) p).det
      ("object-group".toList ++ (a ++ ("service".toList ++ (b ++ (g ++ s))))) k = r := by
  show (str "object-group".toList (.plus .space (str "service".toList (.plus .space p)))).det _ _ = _
  rw [det_str, if_pos ⟨_, rfl⟩, List.drop_left, gap_cons ha _ _ (head_word (by decide +kernel) _), det_str, if_pos ⟨_, rfl⟩,
    List.drop_left, gap_cons hb _ _ (head_word hg _), hp]

theorem type_eq {t g ty : Str} (h : Spec.ServiceLine t g ty) : protocolType t = .ok ty := by
  obtain ⟨a, b, c, rfl, ha, hb, hg, hc, hn⟩ := h
  generalize hT : "object-group".toList ++ (a ++ ("service".toList ++ (b ++ (g ++ (c ++ ty))))) = T
  have hs : ∀ x, (c ++ ty).head? = some x → isSpace x = true := by
    rcases hc with ⟨rfl, rfl⟩ | ⟨hc, _, _⟩
    · intro x hx; cases hx
    · obtain ⟨y, c', rfl⟩ := List.exists_cons_of_ne_nil hc.1
      intro x hx
      cases hx
      exact hc.2 y (by simp)
  have h1 : Hit T.length (seqs svcNameP.toL) T [] (c ++ ty, []) := by
    refine hit_prog _ (by decide +kernel) ?_
    rw [← hT]
    exact svcName_det ha hb hg _ _ _ (name_det hg hs _)
  have hbody : ∀ k, run T.length (.grp 1 (seqs ((Prog.plus .space .done).toL ++ (Prog.plus .any .done).toL))) [] k = [] := by
    intro k; rfl
  have heol : ∀ k, Hit T.length (seqs [.eol]) [] k ([], k) := by
    intro k; rfl
  have fin : ∀ k, Hit T.length (seqs [typeRx, .eol]) (c ++ ty) [] ([], k) →
      search ⟨seqs (.bol :: (svcNameP.toL ++ [typeRx, .eol])), 1, []⟩ T = some ⟨T.take (T.length - 0), 0, k⟩ := by
    intro k hk
    exact search_hit (hit_append h1 hk) 1 []
  rw [protocolType, matchTyped, Cisco.reSearch, compile_type]
  rcases hc with ⟨rfl, rfl⟩ | ⟨hc, hne, hst⟩
  · have hk : Hit T.length (seqs [typeRx, .eol]) ([] ++ []) [] ([], []) := by
      refine hit_cons (q := ([], [])) ?_ (heol [])
      rw [Hit, typeRx, run]
      rfl
    simp only [fin _ hk]
    rfl
  · have hr : Hit T.length (.grp 1 (seqs ((Prog.plus .space .done).toL ++ (Prog.plus .any .done).toL))) (c ++ ty) [] ([], [(1, c ++ ty)]) := by
      have := hit_grp (k := 1) (hit_append (hit_prog T.length (p := Prog.plus .space .done) (by decide +kernel)
        (gap_cons hc .done [] (strip_head hst))) (hit_prog T.length (p := Prog.plus .any .done) (by decide +kernel) (any_plus hne hn [])))
      simpa [← List.length_append] using this
    have hk : Hit T.length (seqs [typeRx, .eol]) (c ++ ty) [] ([], [(1, c ++ ty)]) := by
      refine hit_cons (q := ([], [(1, c ++ ty)])) ?_ (heol _)
      rw [Hit, typeRx, run]
      refine runStar_hit hr ?_ (hbody _) (Nat.le_refl _)
      have := List.length_pos_iff.mpr hne
      simp; omega
    simp only [fin _ hk]
    have : strip (c ++ ty) = ty := by
      have hl : ∀ a, (c ++ ty).getLast? = some a → isSpace a = false := by
        intro x hx
        have hx' : ty.getLast? = some x := by
          rw [List.getLast?_append, List.getLast?_eq_some_getLast hne] at hx
          rw [List.getLast?_eq_some_getLast hne]
          exact hx
        exact strip_getLast ty x (by rw [hst]; exact hx')
      rw [strip, rstrip_of_last hl, lstrip_gap hc.2 (strip_head hst)]
    show Except.ok (strip (c ++ ty)) = _
    rw [this]

theorem is_svcName : Is "^object-group\\s+service\\s+(\\S+)"
    (words (Cisco.Spec.wd ["object-group", "service"]) (.grp 1 (.plus .nonspace .done) .done)) 1 [] := by decide +kernel

theorem svcName_eq {t g ty : Str} (h : Spec.ServiceLine t g ty) : serviceName t = .ok g := by
  obtain ⟨a, b, c, rfl, ha, hb, hg, hc, hn⟩ := h
  have hs : ∀ x, (c ++ ty).head? = some x → isSpace x = true := by
    rcases hc with ⟨rfl, rfl⟩ | ⟨hc, _, _⟩
    · intro x hx; cases hx
    · obtain ⟨y, c', rfl⟩ := List.exists_cons_of_ne_nil hc.1
      intro x hx
      cases hx
      exact hc.2 y (by simp)
  refine typed_det is_svcName (by decide) (by decide) (q := (c ++ ty, [(1, g)])) ?_ rfl
  refine svcName_det ha hb hg _ _ _ ?_
  rw [Prog.det, name_det hg hs]
  simp [Prog.det]

/-! ## The properties -/

/-- C116: the name and the type of a service group are the words behind `object-group service`; the
objects are called directional just if there is no type. -/
theorem C116_line {t g ty : Str} (h : Spec.ServiceLine t g ty) :
    serviceName t = .ok g ∧ protocolType t = .ok ty ∧ directional t = .ok (decide (ty = [])) := by
  refine ⟨svcName_eq h, type_eq h, ?_⟩
  rw [directional, type_eq h]
  cases ty <;> rfl

/-- C116: `ports` of a service group of type `ty` answers exactly if every line is one of those
listed in `Spec.Gives`, and then the objects of the lines, in order. -/
theorem C116_ports {P : Parsed} {i : Nat} {g ty : Str} (h : Spec.ServiceLine (P.h i).text g ty)
    (hn : ∀ c ∈ (P.h i).children, '\n' ∉ (P.h c).text) (l : List L4) :
    ports P i = .ok l ↔ Spec.AllGive ty ((P.h i).children.map (fun c => (P.h c).text)) l := by
  rw [← all_give ty _ (by simpa using hn), List.mapM_map, ports, type_eq h]
  constructor
  · intro h1
    obtain ⟨_, h2, h1⟩ := bind_ok h1
    cases h2
    obtain ⟨ls, h2, h1⟩ := bind_ok h1
    cases h1
    exact ⟨ls, h2, rfl⟩
  · rintro ⟨ls, h1, rfl⟩
    show (do let ls ← (P.h i).children.mapM (fun c => portsOf ty (P.h c).text); Except.ok ls.flatten) = _
    rw [show (P.h i).children.mapM (fun c => portsOf ty (P.h c).text) = .ok ls from h1]
    rfl

/-- Every line of a group with ports gives something. -/
theorem all_mem {ty : Str} {ts : List Str} {l : List L4} (h : Spec.AllGive ty ts l) : ∀ t ∈ ts, ∃ l, Spec.Gives ty t l := by
  induction h with
  | nil => simp
  | cons h1 _ ih =>
    intro t ht
    rcases List.mem_cons.mp ht with rfl | ht
    · exact ⟨_, h1⟩
    · exact ih t ht

theorem made_num {pr : Str} (hpr : Misc.IsProto pr) {m n : Nat} (hm : 1 ≤ m) (hmn : m ≤ n) (hn : n ≤ 65535) {op v : Str}
    (h : (op = "eq".toList ∧ m = n ∧ v = natStr n) ∨ (op = "range".toList ∧ v = natStr m ++ ' ' :: natStr n)) :
    ∃ ps, Misc.l4object pr (op ++ ' ' :: v) "asa".toList = .ok ps ∧ ∀ p : Int, p ∈ ps ↔ (m : Int) ≤ p ∧ p ≤ n := by
  obtain ⟨tab, hp, he⟩ := Misc.l4_of_proto hpr
  rw [he]
  rcases h with ⟨rfl, rfl, rfl⟩ | ⟨rfl, rfl⟩
  · rw [show "eq".toList ++ ' ' :: natStr m = "eq ".toList ++ natStr m from rfl, Misc.eq_spec hp, if_pos ⟨hm, hn⟩]
    refine ⟨_, rfl, ?_⟩
    intro p
    simp only [List.mem_singleton]
    omega
  · rw [show "range".toList ++ ' ' :: (natStr m ++ ' ' :: natStr n) = "range ".toList ++ natStr m ++ " ".toList ++ natStr n by simp,
      Misc.range_spec hp, if_pos hmn]
    refine ⟨_, rfl, ?_⟩
    intro p
    rw [Misc.mem_portRange]
    omega

theorem pair_inj {m n m' n' : Nat} (h : natStr m ++ ' ' :: natStr n = natStr m' ++ ' ' :: natStr n') : m = m' ∧ n = n' := by
  have hs : ∀ m n : Nat, splitWs (natStr m ++ ' ' :: natStr n) = [natStr m, natStr n] := by
    intro m n
    have w : ∀ k, IsWord (natStr k) := fun k =>
      ⟨natStr_ne_nil k, fun c hc => by
        cases hx : isSpace c with
        | false => rfl
        | true => have := natStr_digits k c hc; rw [space_not_digit hx] at this; cases this⟩
    rw [splitWs_word_rest (w m) (by intro x hx; cases hx; decide), ← splitWs_lstrip,
      show lstrip (' ' :: natStr n) = lstrip (natStr n) from rfl, splitWs_lstrip]
    have := splitWs_word_rest (w n) (rest := []) (by intro x hx; cases hx)
    rw [List.append_nil] at this
    rw [this]
    rfl
  have := congrArg splitWs h
  rw [hs, hs] at this
  simp only [List.cons.injEq, and_true] at this
  exact ⟨natStr_inj this.1, natStr_inj this.2⟩

theorem num_unique {t : Str} {m n m' n' : Nat} (h : Spec.NumLine t m n) (h' : Spec.NumLine t m' n') : m = m' ∧ n = n' := by
  have ne : "eq".toList ≠ "range".toList := by decide
  have e1 : "eq".toList ∈ Spec.operators := by simp [Spec.operators]
  have e2 : "range".toList ∈ Spec.operators := by simp [Spec.operators]
  rcases h with ⟨rfl, h⟩ | h <;> rcases h' with ⟨rfl, h'⟩ | h'
  · have := natStr_inj (port_unique e1 e1 h h').2
    exact ⟨this, this⟩
  · exact absurd (port_unique e1 e2 h h').1 ne
  · exact absurd (port_unique e2 e1 h h').1 (Ne.symm ne)
  · exact pair_inj (port_unique e2 e2 h h').2

theorem num_gives {ty t : Str} (hty : ty ∈ Spec.protocols) {m n : Nat} (hm : 1 ≤ m) (hmn : m ≤ n) (hn : n ≤ 65535) (h : Spec.NumLine t m n)
    (h2 : ∀ v, Spec.PortLine t "eq".toList v → 2 ≤ v.length) :
    ∃ l, Spec.Gives ty t l ∧ ∀ pr (p : Int), (∃ o ∈ l, o.1 = pr ∧ p ∈ o.2) ↔ pr ∈ Spec.protosOf ty ∧ (m : Int) ≤ p ∧ p ≤ n := by
  obtain ⟨op, v, ho, hl, hv, hs⟩ : ∃ op v, op ∈ Spec.operators ∧ Spec.PortLine t op v ∧ 2 ≤ v.length ∧
      ((op = "eq".toList ∧ m = n ∧ v = natStr n) ∨ (op = "range".toList ∧ v = natStr m ++ ' ' :: natStr n)) := by
    rcases h with ⟨h1, h⟩ | h
    · exact ⟨_, _, by simp [Spec.operators], h, h2 _ h, .inl ⟨rfl, h1, rfl⟩⟩
    · refine ⟨_, _, by simp [Spec.operators], h, ?_, .inr ⟨rfl, rfl⟩⟩
      have := List.length_pos_iff.mpr (natStr_ne_nil m)
      have := List.length_pos_iff.mpr (natStr_ne_nil n)
      simp; omega
  obtain ⟨a, ha, ha'⟩ := made_num (.inl rfl : Misc.IsProto "tcp".toList) hm hmn hn hs
  obtain ⟨b, hb, hb'⟩ := made_num (.inr rfl : Misc.IsProto "udp".toList) hm hmn hn hs
  have two : ∀ {pr : Str}, (pr = "tcp".toList ∨ pr = "udp".toList) → ∃ l, Spec.Gives pr t l ∧
      ∀ pr' (p : Int), (∃ o ∈ l, o.1 = pr' ∧ p ∈ o.2) ↔ pr' ∈ Spec.protosOf pr ∧ (m : Int) ≤ p ∧ p ≤ n := by
    intro pr hpr
    obtain ⟨c, hc, hc'⟩ := made_num (show Misc.IsProto pr from hpr) hm hmn hn hs
    have hne : pr ≠ "tcp-udp".toList := by rcases hpr with rfl | rfl <;> decide
    refine ⟨[(pr, c)], .port ho hl hv ?_, ?_⟩
    · rw [Spec.Objects, if_neg hne]
      exact ⟨(pr, c), ⟨rfl, hc⟩, rfl⟩
    · intro pr' p
      rw [Spec.protosOf, if_neg hne]
      simp [← hc', eq_comm]
  rcases List.mem_cons.mp hty with rfl | hty
  · exact two (.inl rfl)
  rcases List.mem_cons.mp hty with rfl | hty
  · exact two (.inr rfl)
  rcases List.mem_cons.mp hty with rfl | hty
  · refine ⟨[("tcp".toList, a), ("udp".toList, b)], .port ho hl hv ?_, ?_⟩
    · rw [Spec.Objects, if_pos rfl]
      exact ⟨_, _, ⟨rfl, ha⟩, ⟨rfl, hb⟩, rfl⟩
    · intro pr' p
      rw [Spec.protosOf, if_pos rfl]
      simp only [List.mem_cons, List.not_mem_nil, or_false, exists_eq_or_imp, exists_eq_left, ha', hb']
      constructor
      · rintro (⟨rfl, h⟩ | ⟨rfl, h⟩)
        · exact ⟨.inl rfl, h⟩
        · exact ⟨.inr rfl, h⟩
      · rintro ⟨rfl | rfl, h⟩
        · exact .inl ⟨rfl, h⟩
        · exact .inr ⟨rfl, h⟩
  · cases hty

/-- C117 (partial): in a group of type `tcp`, `udp` or `tcp-udp` whose lines all say
`port-object eq n` or `port-object range m n`, exactly the ports that some line says are found, for
each protocol of the type.  Missing: ports of one character, and the lines of the theorems below. -/
theorem C117_numbers_partial {P : Parsed} {i : Nat} {g ty : Str} (h : Spec.ServiceLine (P.h i).text g ty) (hty : ty ∈ Spec.protocols)
    (hn : ∀ c ∈ (P.h i).children, '\n' ∉ (P.h c).text)
    (hl : ∀ c ∈ (P.h i).children, (∃ m n, 1 ≤ m ∧ m ≤ n ∧ n ≤ 65535 ∧ Spec.NumLine (P.h c).text m n) ∧
      ∀ v, Spec.PortLine (P.h c).text "eq".toList v → 2 ≤ v.length) :
    ∃ l, ports P i = .ok l ∧ ∀ pr (p : Int), (∃ o ∈ l, o.1 = pr ∧ p ∈ o.2) ↔
      pr ∈ Spec.protosOf ty ∧ ∃ c ∈ (P.h i).children, ∃ m n : Nat, Spec.NumLine (P.h c).text m n ∧ (m : Int) ≤ p ∧ p ≤ n := by
  have key : ∀ cs : List Nat, (∀ c ∈ cs, (∃ m n, 1 ≤ m ∧ m ≤ n ∧ n ≤ 65535 ∧ Spec.NumLine (P.h c).text m n) ∧
      ∀ v, Spec.PortLine (P.h c).text "eq".toList v → 2 ≤ v.length) →
      ∃ l, Spec.AllGive ty (cs.map (fun c => (P.h c).text)) l ∧ ∀ pr (p : Int), (∃ o ∈ l, o.1 = pr ∧ p ∈ o.2) ↔
        pr ∈ Spec.protosOf ty ∧ ∃ c ∈ cs, ∃ m n : Nat, Spec.NumLine (P.h c).text m n ∧ (m : Int) ≤ p ∧ p ≤ n := by
    intro cs
    induction cs with
    | nil => intro _; exact ⟨[], .nil, by simp⟩
    | cons c cs ih =>
      intro hl
      obtain ⟨l', h1, h2⟩ := ih (fun c hc => hl c (by simp [hc]))
      obtain ⟨⟨m, n, k1, k2, k3, k4⟩, k5⟩ := hl c (by simp)
      obtain ⟨l, h3, h4⟩ := num_gives hty k1 k2 k3 k4 k5
      refine ⟨l ++ l', .cons h3 h1, ?_⟩
      intro pr p
      constructor
      · rintro ⟨o, ho, h5⟩
        rcases List.mem_append.mp ho with ho | ho
        · obtain ⟨h6, h7⟩ := (h4 pr p).mp ⟨o, ho, h5⟩
          exact ⟨h6, c, by simp, m, n, k4, h7⟩
        · obtain ⟨h6, c', hc', h7⟩ := (h2 pr p).mp ⟨o, ho, h5⟩
          exact ⟨h6, c', by simp [hc'], h7⟩
      · rintro ⟨h6, c', hc', m', n', h7, h8⟩
        rcases List.mem_cons.mp hc' with rfl | hc'
        · obtain ⟨rfl, rfl⟩ := num_unique k4 h7
          obtain ⟨o, ho, h9⟩ := (h4 pr p).mpr ⟨h6, h8⟩
          exact ⟨o, by simp [ho], h9⟩
        · obtain ⟨o, ho, h9⟩ := (h2 pr p).mpr ⟨h6, c', hc', m', n', h7, h8⟩
          exact ⟨o, by simp [ho], h9⟩
  obtain ⟨l, h1, h2⟩ := key _ hl
  exact ⟨l, (C116_ports h hn l).mpr h1, h2⟩

theorem not_ports {P : Parsed} {i c : Nat} {g ty : Str} (h : Spec.ServiceLine (P.h i).text g ty)
    (hn : ∀ c ∈ (P.h i).children, '\n' ∉ (P.h c).text) (hc : c ∈ (P.h i).children) (hg : ∀ l, ¬ Spec.Gives ty (P.h c).text l) (l : List L4) :
    ports P i ≠ .ok l := by
  intro hp
  obtain ⟨l', h'⟩ := all_mem ((C116_ports h hn l).mp hp) (P.h c).text (List.mem_map.mpr ⟨c, hc, rfl⟩)
  exact hg l' h'

/-- C117 fails for `service-object` lines in the syntax of the device, with an operator before the
port: a group with such a line has no ports at all. -/
theorem C117_operator_fails {P : Parsed} {i c : Nat} {g ty pr op : Str} (h : Spec.ServiceLine (P.h i).text g ty)
    (hn : ∀ c ∈ (P.h i).children, '\n' ∉ (P.h c).text) (hc : c ∈ (P.h i).children) (hpr : pr ∈ Spec.protocols)
    (hop : op ∈ ["eq".toList, "neq".toList, "lt".toList, "gt".toList, "range".toList]) (hs : Spec.SvcLine (P.h c).text pr op) (l : List L4) :
    ports P i ≠ .ok l := by
  refine not_ports h hn hc ?_ l
  have bad : ∀ op ∈ ["eq".toList, "neq".toList, "lt".toList, "gt".toList, "range".toList], ∀ pr ∈ ["tcp".toList, "udp".toList],
      Misc.l4object pr op "asa".toList = .error .valueError := by decide +kernel
  intro l hg
  cases hg with
  | service h1 h2 h3 =>
    obtain ⟨rfl, rfl⟩ := svc_unique hs h2
    rw [Spec.Objects] at h3
    split at h3
    · obtain ⟨o, o', ⟨_, h4⟩, _⟩ := h3
      rw [bad _ hop _ (by simp)] at h4
      cases h4
    · rename_i hne
      obtain ⟨o, ⟨_, h4⟩, _⟩ := h3
      have : pr ∈ ["tcp".toList, "udp".toList] := by
        simp only [Spec.protocols, List.mem_cons, List.not_mem_nil, or_false] at hpr ⊢
        rcases hpr with h | h | h
        · exact .inl h
        · exact .inr h
        · exact absurd h hne
      rw [bad _ hop _ this] at h4
      cases h4
  | port h1 h2 _ _ => exact svc_not_port h1 hs h2
  | note h1 _ _ _ => exact h1 _ hpr _ hs

/-- C117 fails for ports of one character: a group with such a line has no ports (unless the line
contains the word `description`). -/
theorem C117_digit_fails {P : Parsed} {i c : Nat} {g ty op : Str} {d : Char} (h : Spec.ServiceLine (P.h i).text g ty)
    (hn : ∀ c ∈ (P.h i).children, '\n' ∉ (P.h c).text) (hc : c ∈ (P.h i).children) (ho : op ∈ Spec.operators)
    (hs : Spec.PortLine (P.h c).text op [d]) (hd : ¬ "description ".toList <:+: (P.h c).text) (l : List L4) : ports P i ≠ .ok l := by
  refine not_ports h hn hc ?_ l
  intro l hg
  cases hg with
  | service h1 h2 _ => exact svc_not_port ho h2 hs
  | port h1 h2 h3 _ =>
    obtain ⟨_, rfl⟩ := port_unique h1 ho h2 hs
    simp at h3
  | note _ _ _ h4 => exact hd h4

/-- C117 fails for `group-object` lines: a group with such a line has no ports. -/
theorem C117_group_fails {P : Parsed} {i c : Nat} {g ty g' : Str} (h : Spec.ServiceLine (P.h i).text g ty)
    (hn : ∀ c ∈ (P.h i).children, '\n' ∉ (P.h c).text) (hc : c ∈ (P.h i).children) (hs : Spec.MemberLine (P.h c).text g') (l : List L4) :
    ports P i ≠ .ok l := by
  refine not_ports h hn hc ?_ l
  obtain ⟨more, hs⟩ := hs
  intro l hg
  cases hg with
  | service h1 h2 _ =>
    obtain ⟨d, more', h2⟩ := h2
    rw [hs] at h2
    exact absurd (List.cons.inj h2).1 (by decide +kernel)
  | port h1 h2 _ _ =>
    obtain ⟨⟨s, h2⟩, _, _⟩ := (port_line (op_word h1) _ _).mp h2
    rw [hs] at h2
    exact absurd (List.cons.inj h2).1 (by decide +kernel)
  | note _ _ h3 _ => exact h3 g' ⟨more, hs⟩

/-! ## Examples -/

def exService : List Str :=
  ["object-group service WEB tcp-udp", " description names and numbers", " port-object eq domain", " port-object range 22 25",
    "object-group service MIXED", " service-object udp destination 53", " service-object tcp source https"].map String.toList

example : (do
      let q ← parseFactory {} exService
      let a ← ports q.2 0
      let b ← ports q.2 4
      .ok (a.map Prod.snd, b)) =
    (.ok ([[53], [53], [22, 23, 24, 25], [22, 23, 24, 25]], [("udp".toList, [53]), ("tcp".toList, [443])]) :
      Except Err (List (List Int) × List L4)) := by
  decide +kernel

/-- The hypotheses of `C116_line`, with a type and without. -/
example : Spec.ServiceLine "object-group service WEB tcp-udp".toList "WEB".toList "tcp-udp".toList ∧
    Spec.ServiceLine "object-group  service MIXED".toList "MIXED".toList [] := by
  have g : Spec.Gap " ".toList := ⟨by decide, by decide⟩
  exact ⟨⟨" ".toList, " ".toList, " ".toList, by decide +kernel, g, g, ⟨by decide, by decide +kernel⟩,
    .inr ⟨g, by decide, by decide +kernel⟩, by decide +kernel⟩,
    ⟨"  ".toList, " ".toList, [], by decide +kernel, ⟨by decide, by decide⟩, g, ⟨by decide, by decide +kernel⟩, .inl ⟨rfl, rfl⟩, by decide⟩⟩

/-- The lines of `C117_numbers_partial`, and of the theorems about lines that fail. -/
example : Spec.NumLine " port-object eq 80".toList 80 80 ∧ Spec.NumLine " port-object range 22 25".toList 22 25 ∧
    Spec.SvcLine " service-object udp destination eq 53".toList "udp".toList "eq".toList ∧
    Spec.PortLine " port-object eq 7".toList "eq".toList ['7'] ∧ Spec.MemberLine " group-object WEB".toList "WEB".toList := by
  have g : Spec.Gap " ".toList := ⟨by decide, by decide⟩
  have sp : ∀ x ∈ " ".toList, isSpace x = true := by decide
  refine ⟨.inl ⟨rfl, " ".toList, " ".toList, " ".toList, by decide +kernel, sp, g, g, by decide +kernel, ?_⟩,
    .inr ⟨" ".toList, " ".toList, " ".toList, by decide +kernel, sp, g, g, by decide +kernel, ?_⟩,
    ⟨"destination".toList, ["53".toList], by decide +kernel⟩,
    ⟨" ".toList, " ".toList, " ".toList, by decide +kernel, sp, g, g, by decide, by decide⟩, ⟨[], by decide +kernel⟩⟩
  · intro x hx
    rw [show natStr 80 = "80".toList by decide +kernel] at hx
    cases hx
    decide
  · intro x hx
    rw [show natStr 22 ++ ' ' :: natStr 25 = "22 25".toList by decide +kernel] at hx
    cases hx
    decide

end Asa

import Verif.Re.Tok
import Verif.Re.Hit

/-! # The first match of an expression, in terms of the words of the text -/

namespace Re

open Py

/-- The first match, with the groups it sets. -/
def Go (n : Nat) (r : Rgx) (u v : Str) (e : Caps) : Prop := Hit n r u [] (v, e)

theorem Go.sem {n : Nat} {r : Rgx} {u v : Str} {e : Caps} (h : Go n r u v e) : Sem n r u v e := List.mem_of_head? h

theorem go_shift {n : Nat} {r : Rgx} {u v : Str} {e c : Caps} (h : Go n r u v e) : Hit n r u c (v, e ++ c) := by
  rw [Hit, run_shift, List.head?_map, h]
  rfl

theorem go_nil {n : Nat} {u : Str} : Go n (seqs []) u u [] := rfl

theorem go_cons {n : Nat} {a : Rgx} {l : List Rgx} {u w v : Str} {e e' : Caps} (h1 : Go n a u w e) (h2 : Go n (seqs l) w v e') :
    Go n (seqs (a :: l)) u v (e' ++ e) := hit_cons h1 (go_shift h2)

theorem go_two {n : Nat} {a b : Rgx} {u w v : Str} {e : Caps} (h1 : Go n a u w []) (h2 : Go n b w v e) : Go n (seqs [a, b]) u v e := by
  have := go_cons (l := [b]) h1 h2
  rwa [List.append_nil] at this

theorem go_append {n : Nat} {l l' : List Rgx} {u w v : Str} {e e' : Caps} (h1 : Go n (seqs l) u w e) (h2 : Go n (seqs l') w v e') :
    Go n (seqs (l ++ l')) u v (e' ++ e) := hit_append h1 (go_shift h2)

theorem go_grp {n k : Nat} {a : Rgx} {x w : Str} (h : Go n a (x ++ w) w []) : Go n (.grp k a) (x ++ w) w [(k, x)] := by
  have := hit_grp (k := k) h
  rw [Go]
  have e : (x ++ w).take ((x ++ w).length - w.length) = x := by
    rw [List.length_append, Nat.add_sub_cancel, List.take_left']
    rfl
  simp only [e] at this
  exact this

theorem go_opt {n : Nat} {a : Rgx} {u v : Str} {e : Caps} (h : Go n a u v e) : Go n (.opt true a) u v e := hit_opt h

theorem skip_opt {n : Nat} {a : Rgx} {u : Str} (h : ∀ v e, ¬ Sem n a u v e) : Go n (.opt true a) u u [] :=
  miss_opt (List.eq_nil_iff_forall_not_mem.mpr (fun q hq => h q.1 q.2 hq))

theorem go_left {n : Nat} {a b : Rgx} {u v : Str} {e : Caps} (h : Go n a u v e) : Go n (.alt a b) u v e := by
  rw [Go, Hit, run, List.head?_append, h]
  rfl

theorem go_right {n : Nat} {a b : Rgx} {u v : Str} {e : Caps} (ha : ∀ v e, ¬ Sem n a u v e) (h : Go n b u v e) : Go n (.alt a b) u v e := by
  have : run n a u [] = [] := List.eq_nil_iff_forall_not_mem.mpr (fun q hq => ha q.1 q.2 hq)
  rw [Go, Hit, run, this]
  exact h

/-- The first match of a sequence begins with a match of its first part. -/
theorem go_mem {n : Nat} {a : Rgx} {l : List Rgx} {u v : Str} {e : Caps} (h : Go n (seqs (a :: l)) u v e) :
    ∃ w e1 e2, Sem n a u w e1 ∧ Go n (seqs l) w v e2 ∧ e = e2 ++ e1 := by
  rw [Go, Hit, run_seqs_cons'] at h
  generalize hr : run n a u [] = L at h
  have hL : ∀ q ∈ L, Sem n a u q.1 q.2 := by
    intro q hq
    rw [← hr] at hq
    exact hq
  clear hr
  induction L with
  | nil => cases h
  | cons q L ih =>
    rw [List.flatMap_cons, List.head?_append] at h
    cases hq : run n (seqs l) q.1 q.2 with
    | nil =>
      rw [hq] at h
      exact ih h (fun q hq => hL q (by simp [hq]))
    | cons p M =>
      rw [hq] at h
      cases h
      rw [run_shift] at hq
      cases hq' : run n (seqs l) q.1 [] with
      | nil => rw [hq'] at hq; cases hq
      | cons p' M' =>
        rw [hq'] at hq
        simp only [List.map_cons, List.cons.injEq, Prod.mk.injEq] at hq
        refine ⟨q.1, q.2, p'.2, hL q (by simp), ?_, ?_⟩
        · rw [Go, Hit, hq', ← hq.1.1]
          rfl
        · exact hq.1.2.symm

theorem go_mem_append {n : Nat} {l l' : List Rgx} {u v : Str} {e : Caps} (h : Go n (seqs (l ++ l')) u v e) :
    ∃ w e1 e2, Sem n (seqs l) u w e1 ∧ Go n (seqs l') w v e2 ∧ e = e2 ++ e1 := by
  have : Go n (seqs (seqs l :: l')) u v e := by
    rw [Go, Hit, run_seqs_cons', ← run_seqs_append]
    exact h
  exact go_mem this

/-- There is a first match if there is one. -/
theorem sem_go {n : Nat} {r : Rgx} {u v : Str} {e : Caps} (h : Sem n r u v e) : ∃ v' e', Go n r u v' e' := by
  cases hr : run n r u [] with
  | nil => rw [Sem, hr] at h; cases h
  | cons q L => exact ⟨q.1, q.2, by rw [Go, Hit, hr]; rfl⟩

/-- The alternatives in front of a sequence are tried in turn. -/
theorem go_alt {n : Nat} {a b : Rgx} {l : List Rgx} {u v : Str} {e : Caps} (h : Go n (seqs (.alt a b :: l)) u v e) :
    Go n (seqs (a :: l)) u v e ∨ (∀ v e, ¬ Sem n (seqs (a :: l)) u v e) ∧ Go n (seqs (b :: l)) u v e := by
  rw [Go, Hit, run_seqs_cons', run, List.flatMap_append, List.head?_append, ← run_seqs_cons', ← run_seqs_cons'] at h
  cases hr : run n (seqs (a :: l)) u [] with
  | nil =>
    rw [hr] at h
    refine .inr ⟨?_, h⟩
    intro v e h'
    rw [Sem, hr] at h'
    cases h'
  | cons q L =>
    rw [hr] at h
    cases h
    exact .inl (by rw [Go, Hit, hr]; rfl)

/-! ## Words -/

/-- The expression reads a word of `Q` to its end. -/
def Wh (n : Nat) (r : Rgx) (Q : Str → Prop) : Prop := ∀ {x w : Str}, Q x → Brk w → Go n r (x ++ w) w []

theorem go_plus {n : Nat} {k : K} {x w : Str} (hx : x ≠ []) (h : ∀ c ∈ x, k.has c = true)
    (hw : ∀ c, w.head? = some c → k.has c = false) : Go n (.seq (.cls k.cls) (.star true (.cls k.cls))) (x ++ w) w [] := by
  have hd : (Prog.plus k .done).det (x ++ w) [] = some (w, []) := by
    obtain ⟨a, s, rfl⟩ := List.exists_cons_of_ne_nil hx
    rw [List.cons_append, plus_cons, if_pos (h a (by simp)), Prog.det]
    congr 2
    rw [List.dropWhile_append_of_pos (p := k.has) (fun c hc => h c (by simp [hc]))]
    cases w with
    | nil => rfl
    | cons b w => rw [List.dropWhile_cons_of_neg (by rw [hw b rfl]; simp)]
  exact hit_prog n (p := .plus k .done) rfl hd

theorem wh_word (n : Nat) : Wh n wordR IsWord := fun hx hw =>
  go_plus (k := .nonspace) hx.1 (fun c hc => by simpa [K.has] using hx.2 c hc) (fun c hc => by simp [K.has, hw c hc])

theorem brk_digit {w : Str} (hw : Brk w) : ∀ c, w.head? = some c → K.has .digit c = false := by
  intro c hc
  cases hd : K.has .digit c with
  | false => rfl
  | true =>
    have := digit_not_space (c := c) hd
    rw [hw c hc] at this
    cases this

theorem wh_dig (n : Nat) : Wh n digR Digs := fun hx hw => go_plus (k := .digit) hx.1 hx.2 (brk_digit hw)

theorem go_lit {n : Nat} (x w : Str) : Go n (litR x) (x ++ w) w [] := by
  refine hit_prog n (p := str x .done) (by induction x with
    | nil => rfl
    | cons a x ih => exact ih) ?_
  induction x with
  | nil => rfl
  | cons a x ih =>
    have : (str (a :: x) .done).det (a :: x ++ w) [] = if K.has (.chr a) a = true then (str x .done).det (x ++ w) [] else none := rfl
    rw [this, if_pos (by simp [K.has])]
    exact ih

theorem wh_lit (n : Nat) (x : Str) : Wh n (litR x) (· = x) := by
  rintro _ w rfl _
  exact go_lit _ w

theorem sem_lit {n : Nat} {x u v : Str} {e : Caps} : Sem n (litR x) u v e → x <+: u := by
  intro h
  have : ∀ (x u : Str), (∀ v, Lang n (litR x) u v → x <+: u) := by
    intro x
    induction x with
    | nil => intro u v _; exact List.nil_prefix
    | cons a x ih =>
      intro u v h
      have e : litR (a :: x) = seqs (.cls (K.cls (.chr a)) :: (str x .done).toL) := rfl
      rw [e, lang_cons] at h
      obtain ⟨w, h1, h2⟩ := h
      obtain ⟨b, rfl, hb⟩ := (lang_cls n (.chr a) u w).mp h1
      have hb' : b = a := by simpa [K.has] using hb
      subst hb'
      exact List.cons_prefix_cons.mpr ⟨rfl, ih w v h2⟩
  exact this x u v ((sem_plain (litR_bodies x)).mp h).1

/-- The first of the literals that the text begins with. -/
theorem go_alts {n : Nat} {d : Rgx} : ∀ (ws : List Str) {w v : Str}, ws.find? (·.isPrefixOf (w ++ v)) = some w →
    Go n (alts (ws.map litR ++ [d])) (w ++ v) v []
  | [], w, v, h => by cases h
  | x :: ws, w, v, h => by
    have e : alts ((x :: ws).map litR ++ [d]) = .alt (litR x) (alts (ws.map litR ++ [d])) := by
      cases ws <;> rfl
    rw [e]
    rw [List.find?_cons] at h
    cases hp : x.isPrefixOf (w ++ v) with
    | true =>
      rw [hp] at h
      cases h
      exact go_left (go_lit _ _)
    | false =>
      rw [hp] at h
      refine go_right (fun v' e' hs => ?_) (go_alts ws h)
      have := sem_lit hs
      rw [← List.isPrefixOf_iff_prefix, hp] at this
      cases this

theorem go_alts_last {n : Nat} {d : Rgx} {u v : Str} {e : Caps} (hd : Go n d u v e) : ∀ (ws : List Str), (∀ x ∈ ws, ¬ x <+: u) →
    Go n (alts (ws.map litR ++ [d])) u v e
  | [], _ => hd
  | x :: ws, h => by
    have e : alts ((x :: ws).map litR ++ [d]) = .alt (litR x) (alts (ws.map litR ++ [d])) := by
      cases ws <;> rfl
    rw [e]
    exact go_right (fun v' e' hs => h x (by simp) (sem_lit hs)) (go_alts_last hd ws (fun y hy => h y (by simp [hy])))

/-- A prefix without blanks is a prefix of the first word. -/
theorem isPrefix_word {w : Str} (hw : Brk w) : ∀ (p x : Str), (∀ c ∈ p, isSpace c = false) → p.isPrefixOf (x ++ w) = p.isPrefixOf x
  | [], _, _ => by simp
  | a :: p, [], h => by
    cases w with
    | nil => rfl
    | cons b w =>
      have : (a == b) = false := by
        rw [beq_eq_false_iff_ne]
        rintro rfl
        have := h a (by simp)
        rw [hw a rfl] at this
        cases this
      simp [List.isPrefixOf, this]
  | a :: p, b :: x, h => by
    simp only [List.cons_append, List.isPrefixOf]
    rw [isPrefix_word hw p x (fun c hc => h c (by simp [hc]))]

theorem wh_alts (n : Nat) {d : Rgx} {ws : List Str} (hw : ∀ w ∈ ws, ∀ c ∈ w, isSpace c = false)
    (h : ∀ w ∈ ws, ws.find? (·.isPrefixOf w) = some w) : Wh n (alts (ws.map litR ++ [d])) (· ∈ ws) := by
  intro x v hx hv
  refine go_alts ws ?_
  have hc : ∀ (l : List Str), (∀ w ∈ l, w ∈ ws) → l.find? (·.isPrefixOf (x ++ v)) = l.find? (·.isPrefixOf x) := by
    intro l hl
    induction l with
    | nil => rfl
    | cons y l ih =>
      rw [List.find?_cons, List.find?_cons, isPrefix_word hv y x (hw y (hl y (by simp))), ih (fun w hw => hl w (by simp [hw]))]
  rw [hc ws (fun _ h => h)]
  exact h x hx

/-- An expression for words does not match another word. -/
theorem wd_other {n : Nat} {r : Rgx} {Q : Str → Prop} (hr : Wd n r Q) {y w v : Str} {e : Caps} (hw : Brk w) (hy : ∀ x, Q x → ¬ x <+: y) :
    ¬ Sem n r (y ++ w) v e := by
  intro h
  obtain ⟨x, h1, h2⟩ := (hr.2.1 _ _).mp ((sem_plain hr.1).mp h).1
  refine hy x h2 ?_
  rw [← List.isPrefixOf_iff_prefix, ← isPrefix_word hw x y (hr.2.2 x h2).2, List.isPrefixOf_iff_prefix, h1]
  exact List.prefix_append _ _

theorem sem_sp' {n : Nat} {u v : Str} {e : Caps} : Sem n spR u v e ↔ (∃ b, u = b ++ v ∧ b ≠ [] ∧ ∀ c ∈ b, isSpace c = true) ∧ e = [] := by
  rw [sem_plain rfl, spR, lang_plus]
  rfl

/-- Blanks, where something that begins with no blank follows. -/
theorem sp_beg {n : Nat} {u v : Str} {e : Caps} (h : Sem n spR u v e) (hv : Beg v) : Brk u ∧ v = lstrip u ∧ e = [] := by
  obtain ⟨⟨b, rfl, hb, hb'⟩, rfl⟩ := sem_sp'.mp h
  refine ⟨?_, ?_, rfl⟩
  · obtain ⟨x, s, rfl⟩ := List.exists_cons_of_ne_nil hb
    intro y hy
    cases hy
    exact hb' _ (by simp)
  · rw [lstrip, List.dropWhile_append_of_pos (p := isSpace) hb']
    exact (beg_lstrip hv).1.symm

theorem go_sp {n : Nat} {u x : Str} {rest : List Str} (hu : Brk u) (h : splitWs u = x :: rest) :
    ∃ w, Go n spR u (x ++ w) [] ∧ Brk w ∧ splitWs w = rest ∧ lstrip u = x ++ w := by
  have hb : Beg (lstrip u) := beg_of (by rw [h]; simp)
  obtain ⟨w, h1, h2, h3⟩ := split_beg hb (by rw [splitWs_lstrip]; exact h)
  have e : u = u.takeWhile isSpace ++ (x ++ w) := by rw [← h1]; exact List.takeWhile_append_dropWhile.symm
  refine ⟨w, ?_, h2, h3, h1⟩
  have hne : u.takeWhile isSpace ≠ [] := by
    intro h0
    cases u with
    | nil => cases h
    | cons a s =>
      rw [List.takeWhile_cons, hu a rfl, if_pos rfl] at h0
      cases h0
  have : Go n spR (u.takeWhile isSpace ++ (x ++ w)) (x ++ w) [] := by
    refine go_plus (k := .space) hne (fun c hc => List.all_eq_true.mp (List.all_takeWhile (p := isSpace) (l := u)) c hc) ?_
    intro c hc
    rw [← h1] at hc
    obtain ⟨y, h4, h5⟩ := hb
    rw [h4] at hc
    cases hc
    exact h5
  rw [← e] at this
  exact this

/-- An option that begins with blanks is skipped where another word, or none, follows. -/
theorem skip_sp {n : Nat} {l : List Rgx} {K : List Str} (hb : ∀ w v e, Sem n (seqs l) w v e → Beg w)
    (hm : ∀ y ∈ K, ∀ w, Brk w → ∀ v e, ¬ Sem n (seqs l) (y ++ w) v e) {u : Str} (hu : Brk u)
    (hn : ∀ y rest, splitWs u = y :: rest → y ∈ K) : ∀ v e, ¬ Sem n (seqs (spR :: l)) u v e := by
  intro v e h
  obtain ⟨w, e1, e2, h1, h2, rfl⟩ := sem_cons.mp h
  obtain ⟨_, rfl, rfl⟩ := sp_beg h1 (hb _ _ _ h2)
  cases hs : splitWs u with
  | nil =>
    obtain ⟨a, h3, h4⟩ := hb _ _ _ h2
    have : lstrip u = [] := by
      rw [lstrip]
      have := splitWs_eq_nil.mp hs
      cases hd : u.dropWhile isSpace with
      | nil => rfl
      | cons b s =>
        have hn' := List.head?_dropWhile_not isSpace u
        rw [hd] at hn'
        have hm' : b ∈ u := (List.dropWhile_sublist (p := isSpace) (l := u)).subset (by rw [hd]; simp)
        have := List.all_eq_true.mp this b hm'
        simp [this] at hn'
    rw [this] at h3
    cases h3
  | cons y rest =>
    obtain ⟨w, _, hw, _, h5⟩ := go_sp (n := n) hu hs
    rw [h5] at h2
    exact hm y (hn y rest hs) w hw _ _ h2

end Re

import Verif.Aaa.Fields

/-! # Properties of the AAA lines: accounting and server groups -/

namespace Aaa

open Py Conf Query Re Cisco

/-! ## Specification -/

/-- The types of accounting records. -/
def Spec.recordTypes : List Str := Spec.wd ["none", "stop-only", "start-stop"]

/-- The words of `aaa accounting commands N L R group G`. -/
def Spec.commands (N L R G : Str) : List Str := Spec.wd ["aaa", "accounting", "commands"] ++ [N, L, R, "group".toList, G]

/-- The words of `aaa accounting exec L R group G`. -/
def Spec.exec (L R G : Str) : List Str := Spec.wd ["aaa", "accounting", "exec"] ++ [L, R, "group".toList, G]

/-! ## Alternatives -/

theorem run_alt_grp (n g : Nat) (a b : Rgx) (X : List Rgx) (s : Str) (c : Caps) :
    run n (seqs (.grp g (.alt a b) :: X)) s c = run n (seqs (.grp g a :: X)) s c ++ run n (seqs (.grp g b :: X)) s c := by
  rw [run_seqs_cons', run_seqs_cons', run_seqs_cons', run, run, run, run, List.map_append, List.flatMap_append]

/-- One of these words, captured. -/
def altL (g : Nat) : Rgx :=
  .grp g (.alt (seqs (str "none".toList .done).toL) (.alt (seqs (str "stop-only".toList .done).toL) (seqs (str "start-stop".toList .done).toL)))

/-- Pieces, one of the types, and the rest. -/
theorem search_alt {P T : Prog} {g : Nat} (hP : P.wf (fun k => k == .space) false = true)
    (hT : ∀ R ∈ Spec.recordTypes, (Prog.grp g (str R .done) T).wf (fun _ => false) true = true) (G : Nat) (t : Str) :
    search ⟨seqs (.bol :: (P.toL ++ altL g :: T.toL)), G, []⟩ t =
      ((P.det t []).bind (fun q => ((Prog.grp g (str "none".toList .done) T).det q.1 q.2).or
        (((Prog.grp g (str "stop-only".toList .done) T).det q.1 q.2).or
          ((Prog.grp g (str "start-stop".toList .done) T).det q.1 q.2)))).map
        (fun q => ⟨t.take (t.length - q.1.length), 0, q.2⟩) := by
  have one : ∀ R ∈ Spec.recordTypes, ∀ s c, (run t.length (seqs (.grp g (seqs (str R .done).toL) :: T.toL)) s c).head? =
      (Prog.grp g (str R .done) T).det s c := by
    intro R hR s c
    have := (Prog.grp g (str R .done) T).det_spec t.length (fun _ => false) true (fun q => [q]) s c (hT R hR)
      (fun k h => by cases h) (fun _ q => by simp)
    simp only [List.flatMap_singleton', List.head?_cons] at this
    rw [Prog.toL] at this
    rw [this]
    cases (Prog.grp g (str R .done) T).det s c <;> rfl
  have hd : ∀ s c, (run t.length (seqs (altL g :: T.toL)) s c).head? =
      ((Prog.grp g (str "none".toList .done) T).det s c).or
        (((Prog.grp g (str "stop-only".toList .done) T).det s c).or
          ((Prog.grp g (str "start-stop".toList .done) T).det s c)) := by
    intro s c
    rw [altL, run_alt_grp, run_alt_grp, List.head?_append, List.head?_append, one _ (by decide), one _ (by decide), one _ (by decide)]
  rw [search_split (p := P) (X := altL g :: T.toL) hP]
  · congr 2
    funext q
    exact hd q.1 q.2
  · intro k hk s c hs
    have hk : k = .space := by simpa using hk
    subst hk
    rw [← List.head?_eq_none_iff, hd]
    obtain ⟨x, u, rfl, hx⟩ := hs
    have hx : isSpace x = true := hx
    have miss : ∀ R ∈ Spec.recordTypes, (Prog.grp g (str R .done) T).det (x :: u) c = none := by
      intro R hR
      have hn : ¬ R <+: x :: u := by
        rintro ⟨v, hv⟩
        simp only [Spec.recordTypes, Spec.wd, List.map_cons, List.map_nil, List.mem_cons, List.not_mem_nil, or_false] at hR
        rcases hR with rfl | rfl | rfl <;> (simp at hv; rw [← hv.1] at hx; cases hx)
      rw [Prog.det, det_str, if_neg hn]
    rw [miss _ (by decide), miss _ (by decide), miss _ (by decide)]
    rfl

/-! ## C149: accounting -/

/-- The expression of an accounting line. -/
def IsAcct (rx : String) (ts us : List (Tok × Bool)) (g : Nat) (b : Bool) : Prop :=
  compile rx = .ok ⟨seqs (.bol :: ((toksP ts .done).toL ++
    altL g :: (gap b (toksP us (.grp (g + 1) (.plus .nonspace .done) (.eol .done)))).toL)), g + 1, []⟩ ∧
  (toksP ts .done).wf (fun k => k == .space) false = true ∧
  (∀ R ∈ Spec.recordTypes, (toksP ((.cap g R, b) :: us) (.grp (g + 1) (.plus .nonspace .done) (.eol .done))).wf (fun _ => false) true = true ∧
    ∀ u ∈ ((Tok.cap g R, b) :: us), u.1.ok = true) ∧ ∀ t ∈ ts, t.1.ok = true

instance (rx : String) (ts us : List (Tok × Bool)) (g : Nat) (b : Bool) : Decidable (IsAcct rx ts us g b) :=
  inferInstanceAs (Decidable (_ ∧ _ ∧ _ ∧ _))

/-- The captures, with this type. -/
def readR (ts us : List (Tok × Bool)) (g : Nat) (b : Bool) (ws : List Str) (R : Str) : Option (Str × Caps) :=
  (reads (ts ++ (.cap g R, b) :: us) ws []).bind (fun q => lastOne (g + 1) q.1 q.2)

theorem reads_append (ts us : List (Tok × Bool)) : ∀ (ws : List Str) (c : Caps),
    reads (ts ++ us) ws c = (reads ts ws c).bind (fun q => reads us q.1 q.2) := by
  induction ts with
  | nil => intro ws c; rfl
  | cons t ts ih =>
    intro ws c
    rcases ws with _ | ⟨w, _ | ⟨u, us⟩⟩
    · rfl
    · rfl
    · rw [List.cons_append, reads, reads]
      cases t.1.read w c with
      | none => rfl
      | some c' => exact ih _ _

theorem reads_left : ∀ (ts : List (Tok × Bool)) (ws : List Str) (c : Caps) (q : List Str × Caps), reads ts ws c = some q → ws ≠ [] →
    q.1 ≠ [] ∧ ∀ w ∈ q.1, w ∈ ws := by
  intro ts
  induction ts with
  | nil => intro ws c q h hne; cases h; exact ⟨hne, fun _ h => h⟩
  | cons t ts ih =>
    intro ws c q h hne
    rcases ws with _ | ⟨w, _ | ⟨u, us⟩⟩
    · cases h
    · cases h
    · rw [reads] at h
      cases hr : t.1.read w c with
      | none => rw [hr] at h; cases h
      | some c' =>
        rw [hr] at h
        obtain ⟨h1, h2⟩ := ih _ _ _ h (by simp)
        exact ⟨h1, fun w hw => List.mem_cons_of_mem _ (h2 w hw)⟩

theorem search_acct {rx : String} {ts us : List (Tok × Bool)} {g : Nat} {b : Bool} (h : IsAcct rx ts us g b) {ws : List Str}
    (hw : ∀ w ∈ ws, IsWord w) (hne : ws ≠ []) :
    ∃ p, compile rx = .ok p ∧ p.groups = g + 1 ∧ (search p (Spec.line ws)).map Found.caps =
      ((readR ts us g b ws "none".toList).or ((readR ts us g b ws "stop-only".toList).or
        (readR ts us g b ws "start-stop".toList))).map Prod.snd := by
  refine ⟨_, h.1, rfl, ?_⟩
  rw [search_alt (T := gap b (toksP us (.grp (g + 1) (.plus .nonspace .done) (.eol .done)))) h.2.1 (fun R hR => (h.2.2.1 R hR).1), toks_det h.2.2.2 _ hw hne]
  simp only [readR, reads_append ts]
  cases hr : reads ts ws [] with
  | none => rfl
  | some q =>
    obtain ⟨h1, h2⟩ := reads_left _ _ _ _ hr hne
    have hq : ∀ w ∈ q.1, IsWord w := fun w hh => hw w (h2 w hh)
    have one : ∀ R ∈ Spec.recordTypes, (Prog.grp g (str R .done) (gap b (toksP us (.grp (g + 1) (.plus .nonspace .done) (.eol .done))))).det (Spec.line q.1) q.2 =
        (reads ((.cap g R, b) :: us) q.1 q.2).bind (fun q => lastOne (g + 1) q.1 q.2) :=
      fun R hR => line_det (h.2.2.1 R hR).2 (g + 1) (.inl rfl) hq h1 q.2
    simp only [Option.bind_some, show ∀ s c, Prog.done.det s c = some (s, c) from fun _ _ => rfl]
    rw [one "none".toList (by decide), one "stop-only".toList (by decide), one "start-stop".toList (by decide)]
    generalize (Option.or _ _) = o
    cases o <;> rfl

/-- The pieces of the lines. -/
def commandsToks (b : Bool) : List (Tok × Bool) :=
  [(.lit "aaa".toList, b), (.lit "accounting".toList, b), (.lit "commands".toList, b), (.fld .digit 1, b), (.fld .nonspace 2, b)]

/-- The pieces of the lines. -/
def execToks (b : Bool) : List (Tok × Bool) :=
  [(.lit "aaa".toList, b), (.lit "accounting".toList, b), (.lit "exec".toList, b), (.fld .nonspace 1, b)]

theorem commands_is (os : OS) : IsAcct (commandsAcctRx os) (commandsToks (os == .ios)) [(.lit "group".toList, os == .ios)] 3 (os == .ios) := by
  cases os <;> decide +kernel

theorem exec_is (os : OS) : IsAcct (execAcctRx os) (execToks (os == .ios)) [(.lit "group".toList, false)] 2 (os == .ios) := by
  cases os <;> decide +kernel

theorem commands_read (b : Bool) {ws : List Str} (hw : ∀ w ∈ ws, IsWord w) {R : Str} {q : Str × Caps} :
    readR (commandsToks b) [(.lit "group".toList, b)] 3 b ws R = some q ↔
      ∃ N L G, Spec.Digits N ∧ ws = Spec.commands N L R G ∧ q = ([], [(4, G), (3, R), (2, L), (1, N)]) := by
  rw [readR, commandsToks]
  constructor
  · intro h
    rcases ws with _ | ⟨w1, _ | ⟨w2, _ | ⟨w3, _ | ⟨w4, _ | ⟨w5, _ | ⟨w6, _ | ⟨w7, _ | ⟨w8, ws⟩⟩⟩⟩⟩⟩⟩⟩ <;>
      simp only [List.cons_append, List.nil_append, reads, Tok.read, Option.bind_eq_some_iff, Option.ite_none_right_eq_some, Option.some.injEq, reduceCtorEq,
        false_and, and_false, exists_false] at h
    obtain ⟨_, ⟨_, ⟨h1, rfl⟩, _, ⟨h2, rfl⟩, _, ⟨h3, rfl⟩, _, ⟨h4, rfl⟩, _, ⟨h5, rfl⟩, _, ⟨h6, rfl⟩, _, ⟨h7, rfl⟩, rfl⟩, h8⟩ := h
    cases ws with
    | cons _ _ => cases h8
    | nil =>
      cases h8
      refine ⟨w4, w5, w8, ⟨(hw w4 (by simp)).1, fun c hc => List.all_eq_true.mp h4 c hc⟩, ?_, rfl⟩
      rw [h1, h2, h3, h6, h7]
      rfl
  · rintro ⟨N, L, G, hN, rfl, rfl⟩
    have hN' : N.all K.digit.has = true := List.all_eq_true.mpr (fun c hc => hN.2 c hc)
    have hL : L.all K.nonspace.has = true := List.all_eq_true.mpr (word_nsp (hw L (by simp [Spec.commands])))
    simp [Spec.commands, Spec.wd, reads, Tok.read, hN', hL, lastOne]

theorem exec_read (b b' : Bool) {ws : List Str} (hw : ∀ w ∈ ws, IsWord w) {R : Str} {q : Str × Caps} :
    readR (execToks b) [(.lit "group".toList, b')] 2 b ws R = some q ↔
      ∃ L G, ws = Spec.exec L R G ∧ q = ([], [(3, G), (2, R), (1, L)]) := by
  rw [readR, execToks]
  constructor
  · intro h
    rcases ws with _ | ⟨w1, _ | ⟨w2, _ | ⟨w3, _ | ⟨w5, _ | ⟨w6, _ | ⟨w7, _ | ⟨w8, ws⟩⟩⟩⟩⟩⟩⟩ <;>
      simp only [List.cons_append, List.nil_append, reads, Tok.read, Option.bind_eq_some_iff, Option.ite_none_right_eq_some, Option.some.injEq, reduceCtorEq,
        false_and, and_false, exists_false] at h
    obtain ⟨_, ⟨_, ⟨h1, rfl⟩, _, ⟨h2, rfl⟩, _, ⟨h3, rfl⟩, _, ⟨h5, rfl⟩, _, ⟨h6, rfl⟩, _, ⟨h7, rfl⟩, rfl⟩, h8⟩ := h
    cases ws with
    | cons _ _ => cases h8
    | nil =>
      cases h8
      refine ⟨w5, w8, ?_, rfl⟩
      rw [h1, h2, h3, h6, h7]
      rfl
  · rintro ⟨L, G, rfl, rfl⟩
    have hL : L.all K.nonspace.has = true := List.all_eq_true.mpr (word_nsp (hw L (by simp [Spec.exec])))
    simp [Spec.exec, Spec.wd, reads, Tok.read, hL, lastOne]

theorem or_three {α : Type} {a b c : Option α} {x : α} (h : a = some x ∨ b = some x ∨ c = some x) (ha : ∀ y, a = some y → y = x)
    (hb : ∀ y, b = some y → y = x) (hc : ∀ y, c = some y → y = x) : a.or (b.or c) = some x := by
  cases a with
  | some y => rw [ha y rfl]; rfl
  | none =>
    cases b with
    | some y => rw [hb y rfl]; rfl
    | none =>
      cases c with
      | some y => rw [hc y rfl]; rfl
      | none => rcases h with h | h | h <;> cases h

theorem or_none {α : Type} {a b c : Option α} (ha : ∀ y, a ≠ some y) (hb : ∀ y, b ≠ some y) (hc : ∀ y, c ≠ some y) :
    a.or (b.or c) = none := by
  cases a with
  | some y => exact absurd rfl (ha y)
  | none =>
    cases b with
    | some y => exact absurd rfl (hb y)
    | none =>
      cases c with
      | some y => exact absurd rfl (hc y)
      | none => rfl

theorem commands_inj {N L R G N' L' R' G' : Str} (h : Spec.commands N L R G = Spec.commands N' L' R' G') : N = N' ∧ L = L' ∧ R = R' ∧ G = G' := by
  simpa [Spec.commands, Spec.wd] using h

theorem exec_inj {L R G L' R' G' : Str} (h : Spec.exec L R G = Spec.exec L' R' G') : L = L' ∧ R = R' ∧ G = G' := by
  simpa [Spec.exec, Spec.wd] using h

/-- C149: an `aaa accounting commands` line has the level, the list name, the type of the records
and the group that are written in it. -/
theorem C149_commands : ∀ os N L R G, Spec.Digits N → IsWord L → R ∈ Spec.recordTypes → IsWord G →
    commandsAcct os (Spec.line (Spec.commands N L R G)) = .ok ⟨natVal N, L, R, G⟩ := by
  intro os N L R G hN hL hR hG
  have hRw : IsWord R := by
    have : ∀ R ∈ Spec.recordTypes, isWord R = true := by decide
    exact isWord_iff.mp (this R hR)
  have hw : ∀ w ∈ Spec.commands N L R G, IsWord w := by
    have hNw : IsWord N := ⟨hN.1, fun c hc => isDigit_not_space (hN.2 c hc)⟩
    intro w hw
    simp only [Spec.commands, Spec.wd, List.map_cons, List.map_nil, List.cons_append, List.nil_append, List.mem_cons, List.not_mem_nil, or_false] at hw
    rcases hw with rfl | rfl | rfl | rfl | rfl | rfl | rfl | rfl
    all_goals first | assumption | exact isWord_iff.mp (by decide)
  obtain ⟨p, hp, hg, hs⟩ := search_acct (commands_is os) hw (by simp [Spec.commands])
  have only : ∀ R', ∀ y, readR (commandsToks (os == .ios)) [(.lit "group".toList, os == .ios)] 3 (os == .ios) (Spec.commands N L R G) R' = some y →
      y = ([], [(4, G), (3, R), (2, L), (1, N)]) := by
    intro R' y hy
    obtain ⟨N', L', G', _, he, rfl⟩ := (commands_read _ hw).mp hy
    obtain ⟨rfl, rfl, rfl, rfl⟩ := commands_inj he
    rfl
  have hit : readR (commandsToks (os == .ios)) [(.lit "group".toList, os == .ios)] 3 (os == .ios) (Spec.commands N L R G) R =
      some ([], [(4, G), (3, R), (2, L), (1, N)]) := (commands_read _ hw).mpr ⟨N, L, G, hN, rfl, rfl⟩
  rw [or_three (x := ([], [(4, G), (3, R), (2, L), (1, N)])) (by
    simp only [Spec.recordTypes, Spec.wd, List.map_cons, List.map_nil, List.mem_cons, List.not_mem_nil, or_false] at hR
    rcases hR with rfl | rfl | rfl
    · exact .inl hit
    · exact .inr (.inl hit)
    · exact .inr (.inr hit)) (only _) (only _) (only _)] at hs
  cases hm : search p (Spec.line (Spec.commands N L R G)) with
  | none => rw [hm] at hs; cases hs
  | some m =>
    rw [hm] at hs
    have hc : m.caps = [(4, G), (3, R), (2, L), (1, N)] := Option.some.inj hs
    rw [commandsAcct, match_some hp hm (by decide) (by rw [hg]; decide) (v := N) (by rw [hc]; rfl),
      match_some hp hm (by decide) (by rw [hg]; decide) (v := L) (by rw [hc]; rfl),
      match_some hp hm (by decide) (by rw [hg]; decide) (v := R) (by rw [hc]; rfl),
      match_some hp hm (by decide) (by rw [hg]; decide) (v := G) (by rw [hc]; rfl), toInt_digits hN]
    rfl

/-- C149: every other line has level 0 and empty texts. -/
theorem C149_commands_other : ∀ os ws, ws ≠ [] → (∀ w ∈ ws, IsWord w) →
    (∀ N L R G, Spec.Digits N → R ∈ Spec.recordTypes → ws ≠ Spec.commands N L R G) →
    commandsAcct os (Spec.line ws) = .ok ⟨0, [], [], []⟩ := by
  intro os ws hne hw hn
  obtain ⟨p, hp, hg, hs⟩ := search_acct (commands_is os) hw hne
  have no : ∀ R ∈ Spec.recordTypes, ∀ y, readR (commandsToks (os == .ios)) [(.lit "group".toList, os == .ios)] 3 (os == .ios) ws R ≠ some y := by
    intro R hR y hy
    obtain ⟨N, L, G, hN, he, _⟩ := (commands_read _ hw).mp hy
    exact hn N L R G hN hR he
  rw [or_none (no _ (by decide)) (no _ (by decide)) (no _ (by decide))] at hs
  have hm : search p (Spec.line ws) = none := by simpa using hs
  rw [commandsAcct, match_none hp hm, match_none hp hm, match_none hp hm, match_none hp hm]
  rfl

/-- C149: an `aaa accounting exec` line has the list name, the type of the records and the group
that are written in it. -/
theorem C149_exec : ∀ os L R G, IsWord L → R ∈ Spec.recordTypes → IsWord G →
    execAcct os (Spec.line (Spec.exec L R G)) = .ok ⟨0, L, R, G⟩ := by
  intro os L R G hL hR hG
  have hRw : IsWord R := by
    have : ∀ R ∈ Spec.recordTypes, isWord R = true := by decide
    exact isWord_iff.mp (this R hR)
  have hw : ∀ w ∈ Spec.exec L R G, IsWord w := by
    intro w hw
    simp only [Spec.exec, Spec.wd, List.map_cons, List.map_nil, List.cons_append, List.nil_append, List.mem_cons, List.not_mem_nil, or_false] at hw
    rcases hw with rfl | rfl | rfl | rfl | rfl | rfl | rfl
    all_goals first | assumption | exact isWord_iff.mp (by decide)
  obtain ⟨p, hp, hg, hs⟩ := search_acct (exec_is os) hw (by simp [Spec.exec])
  have only : ∀ R', ∀ y, readR (execToks (os == .ios)) [(.lit "group".toList, false)] 2 (os == .ios) (Spec.exec L R G) R' = some y →
      y = ([], [(3, G), (2, R), (1, L)]) := by
    intro R' y hy
    obtain ⟨L', G', he, rfl⟩ := (exec_read _ _ hw).mp hy
    obtain ⟨rfl, rfl, rfl⟩ := exec_inj he
    rfl
  have hit : readR (execToks (os == .ios)) [(.lit "group".toList, false)] 2 (os == .ios) (Spec.exec L R G) R =
      some ([], [(3, G), (2, R), (1, L)]) := (exec_read _ _ hw).mpr ⟨L, G, rfl, rfl⟩
  rw [or_three (x := ([], [(3, G), (2, R), (1, L)])) (by
    simp only [Spec.recordTypes, Spec.wd, List.map_cons, List.map_nil, List.mem_cons, List.not_mem_nil, or_false] at hR
    rcases hR with rfl | rfl | rfl
    · exact .inl hit
    · exact .inr (.inl hit)
    · exact .inr (.inr hit)) (only _) (only _) (only _)] at hs
  cases hm : search p (Spec.line (Spec.exec L R G)) with
  | none => rw [hm] at hs; cases hs
  | some m =>
    rw [hm] at hs
    have hc : m.caps = [(3, G), (2, R), (1, L)] := Option.some.inj hs
    rw [execAcct, match_some hp hm (by decide) (by rw [hg]; decide) (v := L) (by rw [hc]; rfl),
      match_some hp hm (by decide) (by rw [hg]; decide) (v := R) (by rw [hc]; rfl),
      match_some hp hm (by decide) (by rw [hg]; decide) (v := G) (by rw [hc]; rfl)]
    rfl

/-- C149: every other line has empty texts. -/
theorem C149_exec_other : ∀ os ws, ws ≠ [] → (∀ w ∈ ws, IsWord w) → (∀ L R G, R ∈ Spec.recordTypes → ws ≠ Spec.exec L R G) →
    execAcct os (Spec.line ws) = .ok ⟨0, [], [], []⟩ := by
  intro os ws hne hw hn
  obtain ⟨p, hp, hg, hs⟩ := search_acct (exec_is os) hw hne
  have no : ∀ R ∈ Spec.recordTypes, ∀ y, readR (execToks (os == .ios)) [(.lit "group".toList, false)] 2 (os == .ios) ws R ≠ some y := by
    intro R hR y hy
    obtain ⟨L, G, he, _⟩ := (exec_read _ _ hw).mp hy
    exact hn L R G hR he
  rw [or_none (no _ (by decide)) (no _ (by decide)) (no _ (by decide))] at hs
  have hm : search p (Spec.line ws) = none := by simpa using hs
  rw [execAcct, match_none hp hm, match_none hp hm, match_none hp hm]
  rfl

example : commandsAcct .ios "aaa accounting commands 15 default start-stop group tacacs+".toList =
    .ok ⟨15, "default".toList, "start-stop".toList, "tacacs+".toList⟩ := by decide +kernel
example : commandsAcct .nxos "aaa accounting commands 15 default start-stop broadcast group tacacs+".toList = .ok ⟨0, [], [], []⟩ := by
  decide +kernel
example : execAcct .nxos "aaa accounting exec default stop-only group radius".toList =
    .ok ⟨0, "default".toList, "stop-only".toList, "radius".toList⟩ := by decide +kernel

end Aaa

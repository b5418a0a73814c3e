import Verif.Diff.Props

/-! # C66 – C69: `sync_diff` and the header of the unified diff -/

namespace Diff

open Py Conf Query

/-! ## `fix_repeated_words` -/

theorem lstrip_spaces_append (k : Nat) (t : Str) (ht : ∀ c, t.head? = some c → isSpace c = false) :
    lstrip (spaces k ++ t) = t := lstrip_pre (spaces_space k) ht

theorem takeWhile_spaces (k : Nat) (t : Str) (ht : ∀ c, t.head? = some c → isSpace c = false) :
    (spaces k ++ t).takeWhile isSpace = spaces k := by
  rw [List.takeWhile_append_of_pos (spaces_space k)]
  cases t with
  | nil => simp
  | cons c r => rw [List.takeWhile_cons, ht c rfl]; simp

theorem lstrip_self {t : Str} (ht : ∀ c, t.head? = some c → isSpace c = false) : lstrip t = t := by
  have := lstrip_spaces_append 0 t ht
  exact this

/-- A text that does not start with the word `no` twice stays. -/
theorem noNo_none {k : Nat} {t : Str} (ht : ∀ c, t.head? = some c → isSpace c = false)
    (h : ∀ r, t = 'n' :: 'o' :: r → ¬ Spec.NoWord (lstrip r) ∨ r = lstrip r) :
    noNo (spaces k ++ t) = none := by
  rw [noNo, lstrip_spaces_append k t ht]
  split
  · rename_i r1 
    split
    · rename_i r2 heq
      rw [if_neg]
      rintro ⟨h1, h2, _⟩
      rcases h r1 rfl with h3 | h3
      · apply h3
        rw [heq]
        cases r2 with
        | nil => simp [lstrip] at h2
        | cons x r =>
          refine ⟨x, r, rfl, ?_⟩
          cases hx : isSpace x with
          | true => rfl
          | false =>
            rw [lstrip, List.dropWhile_cons, hx] at h2
            simp at h2
      · rw [← h3] at h1; omega
    · rfl
  · rfl

theorem fixNo_none {f k : Nat} {t : Str} (h : noNo (spaces k ++ t) = none) :
    fixNo f (spaces k ++ t) = spaces k ++ t := by
  cases f with
  | zero => rfl
  | succ f => rw [fixNo, h]

theorem strip_head (g : Str) : ∀ c, (strip g).head? = some c → isSpace c = false := by
  intro c hc
  have := List.head?_dropWhile_not isSpace (rstrip g)
  rw [strip, lstrip] at hc
  rw [hc] at this
  simpa using this

theorem undo_spec (k : Nat) (g : Str) : Spec.Undo k g
    (fixNo (spaces k ++ ("no ".toList ++ strip g)).length (spaces k ++ ("no ".toList ++ strip g))) := by
  have hno : "no ".toList ++ strip g = 'n' :: 'o' :: ' ' :: strip g := rfl
  have hl : lstrip (' ' :: strip g) = strip g := by
    have := lstrip_spaces_append 1 (strip g) (strip_head g)
    exact this
  rw [hno]
  have hh : ∀ r : Str, ∀ c, ('n' :: r).head? = some c → isSpace c = false := by
    intro r c hc
    simp only [List.head?_cons, Option.some.injEq] at hc
    rw [← hc]; decide
  constructor
  · intro h
    rw [fixNo_none]
    · rfl
    · refine noNo_none (hh _) ?_
      intro r hr
      left
      simp only [List.cons.injEq, true_and] at hr
      rw [← hr, hl]
      exact h
  · intro r hr h1 h2 h3 h4
    have hlr : lstrip (' ' :: r) = r := lstrip_spaces_append 1 r h1
    have hstep : noNo (spaces k ++ 'n' :: 'o' :: ' ' :: strip g) = some (spaces k, r) := by
      rw [noNo, lstrip_spaces_append k _ (hh _), takeWhile_spaces k _ (hh _)]
      simp only [hl]
      simp only [hr, hlr]
      rw [if_pos]
      refine ⟨by simp, by simp, h2, h3⟩
    have hlen : (spaces k ++ 'n' :: 'o' :: ' ' :: strip g).length =
        (spaces k ++ 'o' :: ' ' :: strip g).length + 1 := by simp; omega
    rw [hlen, fixNo, hstep]
    dsimp only
    rw [fixNo_none]
    · rfl
    · refine noNo_none h1 ?_
      intro r' hr'
      by_cases hsp : r' = lstrip r'
      · exact .inr hsp
      · exfalso
        cases r' with
        | nil => exact hsp rfl
        | cons x r'' =>
          cases hx : isSpace x with
          | true => exact h4 ⟨x, r'', hr', hx⟩
          | false =>
            apply hsp
            rw [lstrip, List.dropWhile_cons, hx]; rfl

theorem collect_ok {α β : Type} {f : α → Except Err β} : ∀ {l : List α} {r : List β},
    collect f l = .ok r → (∀ a ∈ l, ∃ b ∈ r, f a = .ok b) ∧ (∀ b ∈ r, ∃ a ∈ l, f a = .ok b)
  | [], r, h => by cases h; simp
  | a :: l, r, h => by
    rw [collect] at h
    cases ha : f a with
    | error e => rw [ha] at h; cases h
    | ok b =>
      cases hl : collect f l with
      | error e => rw [ha, hl] at h; cases h
      | ok bs =>
        rw [ha, hl] at h
        cases h
        obtain ⟨h1, h2⟩ := collect_ok hl
        refine ⟨?_, ?_⟩
        · intro x hx
          rcases List.mem_cons.mp hx with rfl | hx
          · exact ⟨b, by simp, ha⟩
          · obtain ⟨y, hy, h⟩ := h1 x hx
            exact ⟨y, by simp [hy], h⟩
        · intro y hy
          rcases List.mem_cons.mp hy with rfl | hy
          · exact ⟨a, by simp, ha⟩
          · obtain ⟨x, hx, h⟩ := h2 y hy
            exact ⟨x, by simp [hx], h⟩

theorem collect_succeeds {α β : Type} {f : α → Except Err β} : ∀ {l : List α},
    (∀ a ∈ l, ∃ b, f a = .ok b) → ∃ r, collect f l = .ok r
  | [], _ => ⟨[], rfl⟩
  | a :: l, h => by
    obtain ⟨b, hb⟩ := h a (by simp)
    obtain ⟨bs, hbs⟩ := collect_succeeds (fun x hx => h x (List.mem_cons_of_mem _ hx))
    exact ⟨b :: bs, by rw [collect, hb, hbs]; rfl⟩

/-! ## C66 -/

/-- C66: a configuration that already is what is wanted needs no commands, whatever the
expressions, the hash and the syntax. -/
theorem C66_compliant {H : Str → Int} {syn : Conf.Syntax} {lines : List Str} {P : Parsed}
    (h : parse (opts syn false) lines = .ok P) (line unc : Rx) (remove : Bool) :
    syncDiff H syn P P.texts line unc remove = .ok [] := by
  have hb := h
  rw [parse, input_eq] at hb
  obtain ⟨P', hP'⟩ := reparse_ok hb rfl (by rw [texts_length]; exact Nat.le_refl _)
  have hp : parse (opts syn false) P.texts = .ok P' := by
    rw [parse, input_eq]
    exact hP'
  obtain ⟨out, ho⟩ := C48_identical_succeeds (H := H) hp
  have hw := C48_identical ho
  rw [syncDiff, ho]
  simp only [Bind.bind, Except.bind]
  have : collect (syncEntry line unc remove) out = .ok (out.map (fun _ => [])) := by
    refine collect_map (fun e he => ?_)
    obtain ⟨h1, h2⟩ := hw e he
    rw [syncEntry]
    split
    · rfl
    · simp [h2]
  rw [this]
  dsimp only
  congr 1
  rw [List.flatten_eq_nil_iff]
  intro l hl
  obtain ⟨_, _, h⟩ := List.mem_map.mp hl
  exact h.symm

example : ∃ P, parse (opts .ios false) exBefore = .ok P := ⟨_, rfl⟩

/-! ## C67 -/

section
variable {H : Str → Int} {syn : Conf.Syntax} {cfg : List Str} {P P' Q : Parsed}
  (R : Spec.Ready H syn false P.texts cfg P' Q)
include R

/-- C67: the commands are exactly: for every matching line that is missing its parents
and the line, for every matching line that is too much (if lines are to be removed) its
negation, and nothing else. -/
theorem C67_commands_partial {line unc : Rx} {remove : Bool} {cmds : List Str}
    (h : syncDiff H syn P cfg line unc remove = .ok cmds) :
    ∃ blocks : List (List Str), cmds = blocks.flatten ∧
      (∀ b ∈ blocks, b = [] ∨ Spec.AddBlock (opts syn false) P' Q line b ∨
        (remove = true ∧ Spec.RemoveBlock (opts syn false) P' Q line unc b)) ∧
      (∀ t ps, Spec.Has (opts syn false) Q (t :: ps) → ¬ Spec.Has (opts syn false) P' (t :: ps) →
        Query.Spec.Match line t → ps.reverse ++ [t] ∈ blocks) ∧
      (remove = true → ∀ t ps, Spec.Has (opts syn false) P' (t :: ps) →
        ¬ Spec.Has (opts syn false) Q (t :: ps) → Query.Spec.Match line t →
        ∃ g c, unc.find t = some g ∧ Spec.Undo (Conf.Spec.indent t) g c ∧ [c] ∈ blocks) := by
  obtain ⟨_, _, out, ho, _, _, _, _, hind, hcase, hall, _⟩ := out_spec R
  rw [syncDiff, ho] at h
  simp only [Bind.bind, Except.bind] at h
  cases hc : collect (syncEntry line unc remove) out with
  | error e => rw [hc] at h; cases h
  | ok blocks =>
    rw [hc] at h
    cases h
    obtain ⟨h1, h2⟩ := collect_ok hc
    have hpath : ∀ e : Entry, e.path = e.text :: e.parents.reverse := fun _ => rfl
    refine ⟨blocks, rfl, ?_, ?_, ?_⟩
    · intro b hb
      obtain ⟨e, he, hse⟩ := h2 b hb
      rw [syncEntry] at hse
      split at hse
      · cases hse; exact .inl rfl
      · rename_i hm
        have hm' : Query.Spec.Match line e.text := by
          rw [← search_iff]; simpa using hm
        split at hse
        · rename_i hr
          right; right
          refine ⟨hr.1, e.text, e.parents.reverse, ?_⟩
          rw [removeCmd] at hse
          cases hg : unc.find e.text with
          | none => rw [hg] at hse; cases hse
          | some g =>
            rw [hg] at hse
            cases hse
            rcases hcase e he with h | h | h
            · rw [h.1] at hr; cases hr.2
            · refine ⟨g, _, h.2.1, h.2.2, hm', rfl, ?_, rfl⟩
              rw [hind e he]
              exact undo_spec _ g
            · rw [h.1] at hr; cases hr.2
        · split at hse
          · rename_i ha
            cases hse
            right; left
            refine ⟨e.text, e.parents.reverse, ?_⟩
            rcases hcase e he with h | h | h
            · rw [h.1] at ha; cases ha
            · rw [h.1] at ha; cases ha
            · exact ⟨h.2.2, h.2.1, hm', by simp⟩
          · cases hse; exact .inl rfl
    · intro t ps hq hp hm
      obtain ⟨e, he, hl⟩ := hall _ (.inr hq)
      obtain ⟨b, hb, hse⟩ := h1 e he
      have hw : e.word = .add := by
        rcases hcase e he with h | h | h
        · rw [hl] at h; exact absurd h.2.1 hp
        · rw [hl] at h; exact absurd h.2.1 hp
        · exact h.1
      rw [hpath, List.cons.injEq] at hl
      rw [syncEntry, hl.1, (search_iff line t).mpr hm, hw] at hse
      simp only [Bool.true_eq_false, reduceIte, reduceCtorEq, and_false] at hse
      cases hse
      rw [← hl.2, List.reverse_reverse]
      exact hb
    · intro hr t ps hp hq hm
      obtain ⟨e, he, hl⟩ := hall _ (.inl hp)
      obtain ⟨b, hb, hse⟩ := h1 e he
      have hw : e.word = .remove := by
        rcases hcase e he with h | h | h
        · rw [hl] at h; exact absurd h.2.2 hq
        · exact h.1
        · rw [hl] at h; exact absurd hp h.2.1
      have hi := hind e he
      rw [hpath, List.cons.injEq] at hl
      rw [syncEntry, removeCmd, hl.1, (search_iff line t).mpr hm, hw] at hse
      simp only [Bool.true_eq_false, reduceIte, hr, and_self] at hse
      cases hg : unc.find t with
      | none => rw [hg] at hse; cases hse
      | some g =>
        rw [hg] at hse
        cases hse
        refine ⟨g, _, rfl, ?_, hb⟩
        rw [hi, hl.1]
        exact undo_spec _ g

/-- C67: the commands can be computed when `uncfgspec` matches every line that is to be
removed. -/
theorem C67_succeeds_partial {line unc : Rx} {remove : Bool}
    (hu : ∀ t, Query.Spec.Match line t → Query.Spec.Match unc t) :
    ∃ cmds, syncDiff H syn P cfg line unc remove = .ok cmds := by
  obtain ⟨_, _, out, ho, _⟩ := out_spec R
  have : ∃ r, collect (syncEntry line unc remove) out = .ok r := by
    refine collect_succeeds (fun e _ => ?_)
    rw [syncEntry]
    split
    · exact ⟨_, rfl⟩
    · rename_i hm
      split
      · obtain ⟨g, hg⟩ := hu e.text ((search_iff line e.text).mp (by simpa using hm))
        rw [removeCmd, hg]
        exact ⟨_, rfl⟩
      · split
        · exact ⟨_, rfl⟩
        · exact ⟨_, rfl⟩
  obtain ⟨r, hr⟩ := this
  refine ⟨r.flatten, ?_⟩
  rw [syncDiff, ho]
  simp only [Bind.bind, Except.bind]
  rw [hr]

end

/-- An expression that matches everything. -/
def rxAll : Rx := ⟨s ".*", fun t => some t⟩
/-- An expression that matches nothing. -/
def rxNone : Rx := ⟨s "a^", fun _ => none⟩

/-- The hypotheses are met, and the commands. -/
example : ∃ P P' Q, parse (opts .ios false) [s "i", s " no x y", s "log z"] = .ok P ∧
    Spec.Ready code .ios false P.texts [s "i", s " p", s "  q", s "log z"] P' Q ∧
    syncDiff code .ios P [s "i", s " p", s "  q", s "log z"] rxAll rxAll true =
      .ok [s "i", s " p", s "i", s " p", s "  q", s " x y"] :=
  ⟨_, _, _, rfl, ⟨rfl, rfl, noDigits_of (by decide), noDigits_of (by decide), noCollision_code _ _ _,
    .inl rfl⟩, by decide +kernel⟩

/-- C67 does not hold as stated: when `uncfgspec` does not match a line that is to be
removed, AttributeError is raised. -/
theorem C67_raise_fails : ∃ P, parse (opts .ios false) [s "a"] = .ok P ∧
    syncDiff code .ios P [] rxAll rxNone true = .error .attributeError :=
  ⟨_, rfl, by decide +kernel⟩

/-- C67 does not hold as stated: for asa there are never any commands. -/
theorem C67_syntax_fails (H : Str → Int) : ∃ P, parse (opts .asa false) [s "a"] = .ok P ∧
    syncDiff H .asa P [s "b"] rxAll rxAll true = .ok [] := ⟨_, rfl, rfl⟩

/-! ## C68 -/

/-- C68: a line that is added is preceded by its parents, outermost first. -/
theorem C68_parents_partial {H : Str → Int} {syn : Conf.Syntax} {cfg : List Str} {P P' Q : Parsed}
    (R : Spec.Ready H syn false P.texts cfg P' Q) {line unc : Rx} {remove : Bool} {cmds : List Str}
    (h : syncDiff H syn P cfg line unc remove = .ok cmds) {t : Str} {ps : List Str}
    (h1 : Spec.Has (opts syn false) Q (t :: ps)) (h2 : ¬ Spec.Has (opts syn false) P' (t :: ps))
    (h3 : Query.Spec.Match line t) : ps.reverse ++ [t] <:+: cmds := by
  obtain ⟨blocks, hc, _, h4, _⟩ := C67_commands_partial R h
  rw [hc]
  obtain ⟨u, v, huv⟩ := List.append_of_mem (h4 t ps h1 h2 h3)
  rw [huv, List.flatten_append, List.flatten_cons]
  exact ⟨u.flatten, v.flatten, by simp⟩

/-- C68 does not hold as stated: the command that removes a line comes without its
parents; the same command is given for removing ` x` from `i` and from `j`. -/
theorem C68_remove_fails : ∃ P P', parse (opts .ios false) [s "i", s " x", s "j"] = .ok P ∧
    parse (opts .ios false) [s "i", s "j", s " x"] = .ok P' ∧
    syncDiff code .ios P [s "i", s "j"] rxAll rxAll true = .ok [s " no x"] ∧
    syncDiff code .ios P' [s "i", s "j"] rxAll rxAll true = .ok [s " no x"] :=
  ⟨_, _, rfl, rfl, by decide +kernel, by decide +kernel⟩

/-! ## C69 -/

/-- C69: when no path occurs twice in a configuration, the header gives the number of
`-` lines and the number of `+` lines, and for each side the position of the first line
that the other side does not have (0 if there is none). -/
theorem C69_header_partial {H : Str → Int} {syn : Conf.Syntax} {ign : Bool} {before after : List Str}
    {P Q : Parsed} (R : Spec.Ready H syn ign before after P Q)
    (dP : ∀ i j l, Spec.Path (opts syn ign) P i l → Spec.Path (opts syn ign) P j l → i = j)
    (dQ : ∀ i j l, Spec.Path (opts syn ign) Q i l → Spec.Path (opts syn ign) Q j l → i = j)
    {out : List Entry} (ho : hdiff H syn ign before after = .ok out) :
    ∃ n m n' m', hdiffHeader H syn ign before after = .ok (n, m, n', m') ∧
      n = (out.filter (fun e => e.word = .remove)).length ∧
      n' = (out.filter (fun e => e.word = .add)).length ∧
      (m = 0 ↔ n = 0) ∧ (m' = 0 ↔ n' = 0) ∧
      (∀ k, m = k + 1 → (∃ i l, P.list[k]? = some i ∧ Spec.Path (opts syn ign) P i l ∧
        ¬ Spec.Has (opts syn ign) Q l) ∧
        ∀ j, j < k → ∀ i l, P.list[j]? = some i → Spec.Path (opts syn ign) P i l →
          Spec.Has (opts syn ign) Q l) ∧
      (∀ k, m' = k + 1 → (∃ i l, Q.list[k]? = some i ∧ Spec.Path (opts syn ign) Q i l ∧
        ¬ Spec.Has (opts syn ign) P l) ∧
        ∀ j, j < k → ∀ i l, Q.list[j]? = some i → Spec.Path (opts syn ign) Q i l →
          Spec.Has (opts syn ign) P l) := by
  obtain ⟨wb, wa, out', h1, h2, h3, h4, h5, _, hcase, hall, hnd, _⟩ := out_spec R
  rw [h1] at ho; cases ho
  have hP : ∀ i ∈ P.list, Spec.Path (opts syn ign) P i (pathOf (normParsed (opts syn ign) P) i) :=
    fun i hi => (path_iff R.before R.digitsP _ _).mpr ⟨hi, rfl⟩
  have hQ : ∀ i ∈ Q.list, Spec.Path (opts syn ign) Q i (pathOf (normParsed (opts syn ign) Q) i) :=
    fun i hi => (path_iff R.after R.digitsQ _ _).mpr ⟨hi, rfl⟩
  have hb : ∀ b ∈ P.list, wb b = .remove ↔
      ¬ Spec.Has (opts syn ign) Q (pathOf (normParsed (opts syn ign) P) b) := by
    intro b hb
    constructor
    · intro hw hq
      obtain ⟨a, ha, he⟩ := (has_after R).mp hq
      have hex : ∃ c, P.list.find?
          (sameId H (normParsed (opts syn ign) P) (normParsed (opts syn ign) Q) a) = some c := by
        cases hf : P.list.find?
            (sameId H (normParsed (opts syn ign) P) (normParsed (opts syn ign) Q) a) with
        | some c => exact ⟨c, rfl⟩
        | none =>
          have := List.find?_eq_none.mp hf b hb
          rw [sameId, (ids_iff R hb ha).mpr he.symm] at this
          simp at this
      obtain ⟨c, hc⟩ := hex
      have hk := h5 a ha c hc
      have hcm := List.mem_of_find?_eq_some hc
      have hcs := List.find?_some hc
      rw [sameId, beq_iff_eq, ids_iff R hcm ha, he] at hcs
      have := dP c b _ (hcs ▸ hP c hcm) (hP b hb)
      rw [this, hw] at hk
      cases hk
    · intro hq
      rcases h3 b hb with h | ⟨_, a, ha, he⟩
      · exact h
      · exact absurd ((has_after R).mpr ⟨a, ha, ((ids_iff R hb ha).mp he).symm⟩) hq
  have ha : ∀ a ∈ Q.list, wa a = .add ↔
      ¬ Spec.Has (opts syn ign) P (pathOf (normParsed (opts syn ign) Q) a) := by
    intro a ha
    rcases h4 a ha with ⟨hw, b, hb, he⟩ | ⟨hw, hno⟩
    · rw [hw]
      refine ⟨fun h => (by cases h), fun h => ?_⟩
      exact absurd ((has_before R).mpr ⟨b, hb, (ids_iff R hb ha).mp he⟩) h
    · refine ⟨fun _ h => ?_, fun _ => hw⟩
      obtain ⟨b, hb, he⟩ := (has_before R).mp h
      exact hno ⟨b, hb, (ids_iff R hb ha).mpr he⟩
  have count : ∀ (X : List Nat) (N : Parsed) (w : Words) (v : Word), X.Nodup →
      (∀ i ∈ X, ∀ j ∈ X, pathOf N i = pathOf N j → i = j) →
      (∀ l, (∃ e ∈ out, e.word = v ∧ e.path = l) ↔ ∃ i ∈ X, w i = v ∧ pathOf N i = l) →
      (X.filter (fun i => w i = v)).length = (out.filter (fun e => e.word = v)).length := by
    intro X N w v hX hinj hiff
    have n1 : ((out.filter (fun e => e.word = v)).map Entry.path).Nodup :=
      hnd.sublist (List.filter_sublist.map _)
    have n2 : ((X.filter (fun i => w i = v)).map (pathOf N)).Nodup := by
      rw [List.Nodup, List.pairwise_map]
      refine List.Pairwise.imp_of_mem ?_ (hX.sublist List.filter_sublist)
      intro a b ha hb hne he
      exact hne (hinj a (List.mem_filter.mp ha).1 b (List.mem_filter.mp hb).1 he)
    have hp := (List.perm_ext_iff_of_nodup n2 n1).mpr (by
      intro l
      simp only [List.mem_map, List.mem_filter, decide_eq_true_eq]
      have := hiff l
      constructor
      · rintro ⟨i, ⟨h1, h2⟩, h3⟩
        obtain ⟨e, he, h4, h5⟩ := this.mpr ⟨i, h1, h2, h3⟩
        exact ⟨e, ⟨he, h4⟩, h5⟩
      · rintro ⟨e, ⟨h1, h2⟩, h3⟩
        obtain ⟨i, hi, h4, h5⟩ := this.mp ⟨e, h1, h2, h3⟩
        exact ⟨i, ⟨hi, h4⟩, h5⟩)
    have := hp.length_eq
    rwa [List.length_map, List.length_map] at this
  have nodupP : P.list.Nodup := (tree_of_parse R.before).inc.imp (fun h => Nat.ne_of_lt h)
  have nodupQ : Q.list.Nodup := (tree_of_parse R.after).inc.imp (fun h => Nat.ne_of_lt h)
  have tal : ∀ (X : List Nat) (w : Words) (v : Word),
      ((tally v w X).2 = 0 ↔ (tally v w X).1 = 0) ∧
      (∀ k, (tally v w X).2 = k + 1 → (∃ i, X[k]? = some i ∧ w i = v) ∧
        ∀ j, j < k → ∀ i, X[j]? = some i → w i ≠ v) := by
    intro X w v
    rw [tally]
    dsimp only
    cases hf : X.findIdx? (fun i => decide (w i = v)) with
    | none =>
      dsimp only
      refine ⟨⟨fun _ => ?_, fun _ => rfl⟩, fun k hk => by omega⟩
      rw [List.findIdx?_eq_none_iff] at hf
      rw [List.length_eq_zero_iff, List.filter_eq_nil_iff]
      intro a ha
      simp [hf a ha]
    | some k =>
      dsimp only
      obtain ⟨hk, h6, h8⟩ := List.findIdx?_eq_some_iff_getElem.mp hf
      refine ⟨⟨fun h => by omega, fun h => ?_⟩, fun k' hk' => ?_⟩
      · rw [List.length_eq_zero_iff, List.filter_eq_nil_iff] at h
        exact absurd h6 (h _ (List.getElem_mem hk))
      · have : k' = k := by omega
        subst this
        refine ⟨⟨X[k'], List.getElem?_eq_getElem hk, by simpa using h6⟩, ?_⟩
        intro j hj i hi
        have hjl : j < X.length := by omega
        rw [List.getElem?_eq_getElem hjl, Option.some.injEq] at hi
        have := h8 j hj
        rw [← hi]
        simpa using this
  have c1 : (tally .remove wb P.list).1 = (out.filter (fun e => e.word = .remove)).length := by
    refine count P.list (normParsed (opts syn ign) P) wb .remove nodupP ?_ ?_
    · intro i hi j hj he
      exact dP i j _ (hP i hi) (he ▸ hP j hj)
    · intro l
      constructor
      · rintro ⟨e, he, hw, hl⟩
        rcases hcase e he with h | h | h
        · rw [h.1] at hw; cases hw
        · obtain ⟨i, hi, hp⟩ := (has_before R).mp h.2.1
          refine ⟨i, hi, (hb i hi).mpr (by rw [hp]; exact h.2.2), by rw [hp, hl]⟩
        · rw [h.1] at hw; cases hw
      · rintro ⟨i, hi, hw, hl⟩
        have := (C64_complete_partial R h1 l).2.1 ((has_before R).mpr ⟨i, hi, hl⟩)
          (hl ▸ (hb i hi).mp hw)
        obtain ⟨e, he, h6, h7⟩ := this
        exact ⟨e, he, h7, h6⟩
  have c2 : (tally .add wa Q.list).1 = (out.filter (fun e => e.word = .add)).length := by
    refine count Q.list (normParsed (opts syn ign) Q) wa .add nodupQ ?_ ?_
    · intro i hi j hj he
      exact dQ i j _ (hQ i hi) (he ▸ hQ j hj)
    · intro l
      constructor
      · rintro ⟨e, he, hw, hl⟩
        rcases hcase e he with h | h | h
        · rw [h.1] at hw; cases hw
        · rw [h.1] at hw; cases hw
        · obtain ⟨i, hi, hp⟩ := (has_after R).mp h.2.2
          refine ⟨i, hi, (ha i hi).mpr (by rw [hp]; exact h.2.1), by rw [hp, hl]⟩
      · rintro ⟨i, hi, hw, hl⟩
        have := (C64_complete_partial R h1 l).1 ((has_after R).mpr ⟨i, hi, hl⟩)
          (hl ▸ (ha i hi).mp hw)
        obtain ⟨e, he, h6, h7⟩ := this
        exact ⟨e, he, h7, h6⟩
  refine ⟨_, _, _, _, h2, c1, c2, (tal P.list wb .remove).1, (tal Q.list wa .add).1, ?_, ?_⟩
  · intro k hk
    obtain ⟨⟨i, h6, h7⟩, h8⟩ := (tal P.list wb .remove).2 k hk
    have hi := List.mem_of_getElem? h6
    refine ⟨⟨i, _, h6, hP i hi, (hb i hi).mp h7⟩, ?_⟩
    intro j hj i' l hi' hl
    have hm := List.mem_of_getElem? hi'
    have hl' := ((path_iff R.before R.digitsP _ _).mp hl).2
    rw [hl']
    exact Classical.byContradiction (fun hno => h8 j hj i' hi' ((hb i' hm).mpr hno))
  · intro k hk
    obtain ⟨⟨i, h6, h7⟩, h8⟩ := (tal Q.list wa .add).2 k hk
    have hi := List.mem_of_getElem? h6
    refine ⟨⟨i, _, h6, hQ i hi, (ha i hi).mp h7⟩, ?_⟩
    intro j hj i' l hi' hl
    have hm := List.mem_of_getElem? hi'
    have hl' := ((path_iff R.after R.digitsQ _ _).mp hl).2
    rw [hl']
    exact Classical.byContradiction (fun hno => h8 j hj i' hi' ((ha i' hm).mpr hno))

/-- The header for the example: two lines removed, the first is line 2; two lines added,
the first is line 3. -/
example : hdiffHeader code .ios false exBefore exAfter = .ok (2, 2, 2, 3) := by decide +kernel

/-- C69 does not hold as stated: an unchanged line that occurs twice counts as removed. -/
theorem C69_duplicate_fails :
    hdiffHeader code .ios false [s "!", s "a", s "!"] [s "!", s "a"] = .ok (1, 3, 0, 0) ∧
    (hdiff code .ios false [s "!", s "a", s "!"] [s "!", s "a"]).map unified = .ok [s " !", s " a"] :=
  ⟨by decide +kernel, by decide +kernel⟩

/-- C69 does not hold as stated: the unified format has the position before the number
of lines; here line 3 of 3 is removed, and `-1,3` is printed. -/
theorem C69_swapped_fails :
    hdiffHeader code .ios false [s "a", s "b", s "c"] [s "a", s "b"] = .ok (1, 3, 0, 0) := by
  decide +kernel

end Diff

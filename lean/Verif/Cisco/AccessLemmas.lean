import Verif.Cisco.Access
import Verif.Cisco.FactoryLemmas
import Verif.Cisco.Tails
import Verif.Re.Lazy

/-! # Lemmas for access lines and kinds of interfaces -/

namespace Cisco

open Py Conf Query Re Spec

theorem lstrip_prefix {w t : Str} (hw : IsWord w) (h : w <+: t) : lstrip t = t := by
  obtain ⟨x, s, rfl, hx⟩ := prefix_head hw h
  rw [lstrip, List.dropWhile_cons_of_neg (by simp [hx])]

/-- `re_match_typed`, for an expression that reads without backtracking. -/
theorem match_det {α : Type} {rx : String} {p : Prog} {n : Nat} {names : List (Str × Nat)} (h : Is rx p n names) {g : Nat}
    (h0 : g ≠ 0) (hg : g ≤ n) (conv : Option Str → Except Err α) (dflt : α) (t : Str) :
    matchTyped t rx g conv dflt =
      match p.det t [] with
      | none => .ok dflt
      | some q => match q.2.lookup g with
        | some s => conv (some s)
        | none => .ok dflt := by
  rw [matchTyped, reSearch_det h]
  cases p.det t [] with
  | none => rfl
  | some q =>
    show (do match ← Found.group _ _ g with
      | some s => conv (some s)
      | none => Except.ok dflt : Except Err α) = _
    rw [Found.group, if_neg h0, if_pos hg]
    rfl

/-- The next word behind the given ones, at the beginning of the line. -/
theorem match_next {rx : String} {l : List String} (hi : Is rx (words (wd l) (.grp 1 (.plus .nonspace .done) .done)) 1 [])
    (hw : ∀ w ∈ wd l, IsWord w) {t : Str} (ht : lstrip t = t) :
    (∀ v, Next l t v → matchTyped t rx 1 toStr [] = .ok v) ∧
    ((∀ v, ¬ Next l t v) → matchTyped t rx 1 toStr [] = .ok []) := by
  rw [match_det hi (by decide) (by decide)]
  have hd := fun q => det_words hw _ (grp_plus_nil 1 .nonspace .done) ht [] q
  have hs : splitWs (skip (wd l).length t) = (splitWs t).drop (wd l).length := splitWs_skip _ ht
  constructor
  · rintro v ⟨more, hm⟩
    have hr : splitWs (skip (wd l).length t) = v :: more := by rw [hs, hm, List.drop_left]
    obtain ⟨q, hq⟩ : ∃ q, (Prog.grp 1 (.plus .nonspace .done) .done).det (skip (wd l).length t) [] = some q ∧
        q.2.lookup 1 = some v := by
      have hne : skip (wd l).length t ≠ [] := by
        intro e; rw [e] at hr; cases hr
      obtain ⟨w, rest, he, hw', hr', hsp⟩ := split_cons (lstrip_skip _ ht) hne
      rw [hr] at hsp
      injection hsp with e1 e2
      subst e1
      rw [he, det_cap_word hw' hr', Prog.det]
      exact ⟨_, rfl, by simp⟩
    have hd' := (hd q).mpr ⟨by rw [hm]; exact List.prefix_append _ _, hq.1⟩
    simp only [hd', hq.2]
    rfl
  · intro hn
    cases hq : (words (wd l) (.grp 1 (.plus .nonspace .done) .done)).det t [] with
    | none => rfl
    | some q =>
      obtain ⟨⟨more, hm⟩, h2⟩ := (hd q).mp hq
      have hr : splitWs (skip (wd l).length t) = more := by rw [hs, ← hm, List.drop_left]
      have hne : skip (wd l).length t ≠ [] := by
        intro e; rw [e, grp_plus_nil] at h2; cases h2
      obtain ⟨w, rest, he, hw', hr', hsp⟩ := split_cons (lstrip_skip _ ht) hne
      exact absurd ⟨splitWs rest, by rw [← hm, ← hr, hsp]⟩ (hn w)

/-- `bool(re.search(..))` in terms of what the expression can read. -/
theorem reTrue_lang {rx : String} {r : Rgx} {n : Nat} {names : List (Str × Nat)} (hc : compile rx = .ok ⟨r, n, names⟩) (t : Str) :
    ∃ b, reTrue rx t = .ok b ∧ (b = true ↔ ∃ a u v, t = a ++ u ∧ Lang t.length r u v) := by
  refine ⟨_, by rw [reTrue, reSearch, hc]; rfl, ?_⟩
  rw [Option.isSome_map, search, searchFrom_some]
  constructor
  · rintro ⟨a, u, h1, h2⟩
    obtain ⟨v, hv⟩ := (run_ne_nil _ _ _ _).mp h2
    exact ⟨a, u, v, h1, hv⟩
  · rintro ⟨a, u, v, h1, h2⟩
    exact ⟨a, u, h1, (run_ne_nil _ _ _ _).mpr ⟨v, h2⟩⟩

theorem reTrue_bol {rx : String} {l : List Rgx} {n : Nat} {names : List (Str × Nat)}
    (hc : compile rx = .ok ⟨seqs (.bol :: l), n, names⟩) (t : Str) :
    ∃ b, reTrue rx t = .ok b ∧ (b = true ↔ ∃ v, Lang t.length (seqs l) t v) := by
  refine ⟨_, by rw [reTrue, reSearch, hc]; rfl, ?_⟩
  rw [Option.isSome_map, search_lang]

/-! ## Numbers at the end of a line -/

/-- `\d+\s*\d*` reads one or two numbers. -/
theorem numbers_hit (n : Nat) {r : Str} (h0 : lstrip r = r) (hr : rstrip r = r) {ns : List Str} (hs : splitWs r = ns)
    (hn : ns.length = 1 ∨ ns.length = 2) (hd : ∀ v ∈ ns, Digits v) (c : Caps) :
    Hit n (seqs [.seq (.cls K.digit.cls) (.star true (.cls K.digit.cls)), .star true (.cls K.space.cls),
      .star true (.cls K.digit.cls)]) r c ([], c) := by
  have hdig : ∀ {v rest : Str}, (∀ c ∈ v, isDigit c = true) → (∀ c, rest.head? = some c → isSpace c = true) →
      (v ++ rest).dropWhile K.digit.cls.has = rest := by
    intro v rest hv hrest
    have e : K.digit.cls.has = isDigit := by funext x; rw [K.cls_has]; rfl
    rw [e, List.dropWhile_append_of_pos hv]
    cases rest with
    | nil => rfl
    | cons x s =>
      rw [List.dropWhile_cons_of_neg]
      rw [space_not_digit (hrest x rfl)]; simp
  have hne : r ≠ [] := by
    intro e; rw [e] at hs
    subst hs
    rcases hn with hn | hn <;> cases hn
  obtain ⟨v, rest, he, hw, hrest, hsp⟩ := split_cons h0 hne
  rw [hs] at hsp
  have hv := hd v (by rw [hsp]; simp)
  obtain ⟨x, v', rfl⟩ := List.exists_cons_of_ne_nil hv.1
  have e2 : K.space.cls.has = isSpace := by funext x; rw [K.cls_has]; rfl
  refine hit_cons (q := (rest, c)) ?_ ?_
  · rw [he, List.cons_append]
    have := hit_plus_cls n K.digit.cls (v' ++ rest) c (x := x) (by rw [K.cls_has]; exact hv.2 x (by simp))
    rw [hdig (fun c hc => hv.2 c (by simp [hc])) hrest] at this
    exact this
  · refine hit_cons (q := (lstrip rest, c)) ?_ ?_
    · have := hit_star_cls n K.space.cls rest c
      rw [e2] at this
      exact this
    · refine hit_cons (q := ([], c)) ?_ (hit_nil n [] c)
      have := hit_star_cls n K.digit.cls (lstrip rest) c
      rcases hn with hn | hn
      · -- one number
        have hz : splitWs rest = [] := by
          rw [hsp] at hn
          exact List.length_eq_zero_iff.mp (by simpa using hn)
        have : lstrip rest = [] := by
          rw [← splitWs_lstrip] at hz
          exact Classical.byContradiction fun hne => by
            rw [splitWs_cons (lstrip_lstrip rest) hne] at hz; cases hz
        rw [this]
        exact hit_star_cls n K.digit.cls [] c
      · -- two numbers
        have h1 : (splitWs (lstrip rest)).length = 1 := by
          rw [splitWs_lstrip]
          rw [hsp] at hn
          simpa using hn
        have hne2 : lstrip rest ≠ [] := by
          intro e; rw [e] at h1; cases h1
        obtain ⟨u, rest2, he2, hw2, hrest2, hsp2⟩ := split_cons (lstrip_lstrip rest) hne2
        have hu := hd u (by rw [hsp, ← splitWs_lstrip, hsp2]; simp)
        have hz : splitWs rest2 = [] := by
          rw [hsp2] at h1
          exact List.length_eq_zero_iff.mp (by simpa using h1)
        have hrs : rest2 = [] := by
          have hsuf : rest2 <:+ r := by
            refine List.IsSuffix.trans ?_ (List.IsSuffix.trans (lstrip_suffix rest) ?_)
            · rw [he2]; exact List.suffix_append _ _
            · rw [he]; exact List.suffix_append _ _
          have hall := splitWs_eq_nil.mp hz
          cases hl : rest2.getLast? with
          | none => exact List.getLast?_eq_none_iff.mp hl
          | some y =>
            obtain ⟨a, ha⟩ := hsuf
            have h3 : r.getLast? = some y := by rw [← ha, List.getLast?_append, hl]; rfl
            have h4 := getLast?_rstrip r y (by rw [hr]; exact h3)
            have h5 := List.all_eq_true.mp hall y (List.mem_of_getLast? hl)
            rw [h4] at h5; cases h5
        rw [he2, hdig hu.2 hrest2, hrs] at this
        rw [he2, hrs]
        exact this

end Cisco

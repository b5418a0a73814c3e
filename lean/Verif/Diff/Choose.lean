import Verif.Diff.SyncProps

/-! # C241: what `linespec`, `uncfgspec` and `remove_lines` choose among the commands -/

namespace Diff

open Py Conf Query

/-- `f` fails only where `g` does, and gives a part of what `g` gives. -/
theorem collect_part {f g : Entry → Except Err (List Str)} : ∀ {es : List Entry} {r : List (List Str)},
    (∀ e ∈ es, ∀ b, g e = .ok b → ∃ a, f e = .ok a ∧ a.Sublist b) → collect g es = .ok r →
    ∃ q, collect f es = .ok q ∧ q.flatten.Sublist r.flatten
  | [], r, _, h => by cases h; exact ⟨[], rfl, List.Sublist.refl _⟩
  | e :: es, r, hfg, h => by
    rw [collect] at h
    cases he : g e with
    | error x => rw [he] at h; cases h
    | ok b =>
      cases hl : collect g es with
      | error x => rw [he, hl] at h; cases h
      | ok bs =>
        rw [he, hl] at h
        cases h
        obtain ⟨a, h1, h2⟩ := hfg e (by simp) b he
        obtain ⟨q, h3, h4⟩ := collect_part (fun x hx => hfg x (List.mem_cons_of_mem _ hx)) hl
        refine ⟨a :: q, by rw [collect, h1, h3]; rfl, ?_⟩
        rw [List.flatten_cons, List.flatten_cons]
        exact h2.append h4

theorem syncDiff_part {H : Str → Int} {syn : Conf.Syntax} {P : Parsed} {cfg : List Str} {l₁ l₂ u₁ u₂ : Rx} {r₁ r₂ : Bool}
    {c : List Str} (h : ∀ e b, syncEntry l₂ u₂ r₂ e = .ok b → ∃ a, syncEntry l₁ u₁ r₁ e = .ok a ∧ a.Sublist b)
    (h2 : syncDiff H syn P cfg l₂ u₂ r₂ = .ok c) : ∃ d, syncDiff H syn P cfg l₁ u₁ r₁ = .ok d ∧ d.Sublist c := by
  rw [syncDiff] at h2
  cases ho : hdiff H syn false P.texts cfg with
  | error x => rw [ho] at h2; cases h2
  | ok es =>
    rw [ho] at h2
    simp only [Bind.bind, Except.bind] at h2
    cases hc : collect (syncEntry l₂ u₂ r₂) es with
    | error x => rw [hc] at h2; cases h2
    | ok r =>
      rw [hc] at h2
      cases h2
      obtain ⟨q, h3, h4⟩ := collect_part (fun e _ b hb => h e b hb) hc
      refine ⟨q.flatten, ?_, h4⟩
      rw [syncDiff, ho]
      simp only [Bind.bind, Except.bind]
      rw [h3]

/-- C241: the commands for a `linespec` that matches less are among the commands, in the same order; in particular they
can be computed. -/
theorem C241_linespec {H : Str → Int} {syn : Conf.Syntax} {P : Parsed} {cfg : List Str} {line less unc : Rx} {remove : Bool}
    (hl : ∀ t, Query.Spec.Match less t → Query.Spec.Match line t) {cmds : List Str}
    (h : syncDiff H syn P cfg line unc remove = .ok cmds) :
    ∃ some, syncDiff H syn P cfg less unc remove = .ok some ∧ some.Sublist cmds := by
  refine syncDiff_part (fun e b hb => ?_) h
  by_cases hm : Query.Spec.Match less e.text
  · have h1 := (search_iff less e.text).mpr hm
    have h2 := (search_iff line e.text).mpr (hl _ hm)
    refine ⟨b, ?_, List.Sublist.refl _⟩
    rw [syncEntry, if_neg (by rw [h2]; decide)] at hb
    rw [syncEntry, if_neg (by rw [h1]; decide), hb]
  · have h1 : less.search e.text = false := by
      cases hs : less.search e.text with
      | false => rfl
      | true => exact absurd ((search_iff less e.text).mp hs) hm
    exact ⟨[], by rw [syncEntry, if_pos h1], List.nil_sublist _⟩

/-- C241: the commands without `remove_lines` are among those with it, in the same order, and can be computed whenever
those can; `uncfgspec` does not matter for them. -/
theorem C241_remove {H : Str → Int} {syn : Conf.Syntax} {P : Parsed} {cfg : List Str} {line unc unc' : Rx} {cmds : List Str}
    (h : syncDiff H syn P cfg line unc true = .ok cmds) :
    ∃ some, syncDiff H syn P cfg line unc' false = .ok some ∧ some.Sublist cmds := by
  refine syncDiff_part (fun e b hb => ?_) h
  rw [syncEntry] at hb ⊢
  split
  · exact ⟨[], rfl, List.nil_sublist _⟩
  · rename_i hs
    rw [if_neg hs] at hb
    rw [if_neg (by rintro ⟨h1, _⟩; cases h1)]
    by_cases hw : e.word = .remove
    · rw [if_neg (by rw [hw]; decide)]
      exact ⟨[], rfl, List.nil_sublist _⟩
    · rw [if_neg (fun hh => hw hh.2)] at hb
      exact ⟨b, hb, List.Sublist.refl _⟩

/-- C241: a `linespec` that matches no line gives no commands. -/
theorem C241_none {H : Str → Int} {syn : Conf.Syntax} {P : Parsed} {cfg : List Str} {line less unc : Rx} {remove : Bool}
    (hl : ∀ t, ¬ Query.Spec.Match less t) {cmds : List Str} (h : syncDiff H syn P cfg line unc remove = .ok cmds) :
    syncDiff H syn P cfg less unc remove = .ok [] := by
  rw [syncDiff] at h ⊢
  cases ho : hdiff H syn false P.texts cfg with
  | error x => rw [ho] at h; cases h
  | ok es =>
    simp only [Bind.bind, Except.bind]
    have : collect (syncEntry less unc remove) es = .ok (es.map (fun _ => [])) := by
      refine collect_map (fun e _ => ?_)
      rw [syncEntry, if_pos]
      cases hs : less.search e.text with
      | false => rfl
      | true => exact absurd ((search_iff less e.text).mp hs) (hl _)
    rw [this]
    dsimp only
    congr 1
    rw [List.flatten_eq_nil_iff]
    intro l hm
    obtain ⟨_, _, h⟩ := List.mem_map.mp hm
    exact h.symm

/-- The hypotheses are met: all commands, those for lines with a `q` and those without removals. -/
example : ∃ P, parse (opts .ios false) [s "i", s " no x y", s "log z"] = .ok P ∧
    syncDiff code .ios P [s "i", s " p", s "  q", s "log z"] rxAll rxAll true =
      .ok [s "i", s " p", s "i", s " p", s "  q", s " x y"] ∧
    syncDiff code .ios P [s "i", s " p", s "  q", s "log z"] ⟨s "q", fun t => if 'q' ∈ t then some ['q'] else none⟩ rxAll true =
      .ok [s "i", s " p", s "  q"] ∧
    syncDiff code .ios P [s "i", s " p", s "  q", s "log z"] rxAll rxNone false =
      .ok [s "i", s " p", s "i", s " p", s "  q"] :=
  ⟨_, rfl, by decide +kernel, by decide +kernel, by decide +kernel⟩

end Diff

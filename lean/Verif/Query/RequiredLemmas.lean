import Verif.Query.Required
import Verif.Query.TextProps

/-! # Lemmas about `child_indent`, required lines and the texts that remove a line -/

namespace Query

open Py Conf

/-! ## `child_indent` -/

/-- The children are below `n`, and `child_indent` is the indent of the last one. -/
def Indents (n : Nat) (h : Heap) : Prop :=
  ∀ i, (∀ k ∈ (h i).children, k < n) ∧
    (h i).childIndent = (match (h i).children.getLast? with | some k => (h k).indent | none => 0)

theorem indents_addChild {n : Nat} {h : Heap} (H : Indents n h) (idx p : Nat) (hidx : idx < n) :
    Indents n (addChild h idx p) := by
  rw [addChild]
  split
  · exact H
  · have hi : ∀ j, (upd (upd h p (fun b => { b with children := b.children ++ [idx], childIndent := (h idx).indent }))
        idx (fun b => { b with parent := p }) j).indent = (h j).indent := by
      intro j
      simp only [upd]
      split <;> split <;> simp_all
    have hc : ∀ j, (upd (upd h p (fun b => { b with children := b.children ++ [idx], childIndent := (h idx).indent }))
        idx (fun b => { b with parent := p }) j).children =
          if j = p then (h p).children ++ [idx] else (h j).children := by
      intro j
      simp only [upd]
      by_cases e1 : j = idx <;> by_cases e2 : j = p
      · subst e1; subst e2; simp
      · subst e1; simp [e2]
      · subst e2; simp [e1]
      · simp [e1, e2]
    have hd : ∀ j, (upd (upd h p (fun b => { b with children := b.children ++ [idx], childIndent := (h idx).indent }))
        idx (fun b => { b with parent := p }) j).childIndent =
          if j = p then (h idx).indent else (h j).childIndent := by
      intro j
      simp only [upd]
      by_cases e1 : j = idx <;> by_cases e2 : j = p
      · subst e1; subst e2; simp
      · subst e1; simp [e2]
      · subst e2; simp [e1]
      · simp [e1, e2]
    intro i
    rw [hc, hd]
    simp only [hi]
    by_cases e : i = p
    · subst e
      simp only [if_true]
      refine ⟨fun k hk => ?_, by simp⟩
      rcases List.mem_append.mp hk with hk | hk
      · exact (H i).1 k hk
      · rw [List.mem_singleton.mp hk]; exact hidx
    · simp only [if_neg e]
      exact H i

theorem indents_step {o : Opts} {s : BS} (H : Indents s.n s.h) (t : Str) : Indents (step o s t).n (step o s t).h := by
  have H' : Indents (s.n + 1) (upd s.h s.n (fun _ => mkObj o t s.n)) := by
    intro i
    by_cases e : i = s.n
    · subst e
      simp [upd, mkObj]
    · have e' : upd s.h s.n (fun _ => mkObj o t s.n) i = s.h i := upd_ne _ _ e
      rw [e']
      refine ⟨fun k hk => Nat.lt_succ_of_lt ((H i).1 k hk), ?_⟩
      rw [(H i).2]
      cases hl : (s.h i).children.getLast? with
      | none => rfl
      | some k =>
        have hk : k < s.n := (H i).1 k (List.mem_of_getLast? hl)
        dsimp only
        rw [upd_ne _ _ (Nat.ne_of_lt hk)]
  show Indents (s.n + 1) _
  rw [step]
  dsimp only
  split
  · split
    · exact indents_addChild H' _ _ (Nat.lt_succ_self _)
    · split
      · exact indents_addChild H' _ _ (Nat.lt_succ_self _)
      · exact H'
  · exact H'

theorem indents_pass (o : Opts) (lines : List Str) : Indents lines.length (indentPass o lines).h := by
  have key : ∀ (ls : List Str) (s : BS), Indents s.n s.h → Indents (ls.foldl (step o) s).n (ls.foldl (step o) s).h := by
    intro ls
    induction ls with
    | nil => intro s H; exact H
    | cons t ls ih => intro s H; exact ih _ (indents_step H t)
  have := key lines bs0 (fun i => ⟨fun k hk => (nomatch hk), rfl⟩)
  rwa [← indentPass, indentPass_n] at this

theorem bracePass_id (h : Heap) : ∀ (todo stack : List Nat),
    (∀ i ∈ todo, ¬ Conf.Spec.closes (h i).text) → bracePass todo stack h = .ok h := by
  intro todo
  induction todo with
  | nil => intro stack _; rfl
  | cons i todo ih =>
    intro stack hc
    rw [bracePass.eq_def]
    dsimp only
    split
    · exact ih _ fun j hj => hc j (by simp [hj])
    · rename_i h1
      rw [if_neg fun h2 => hc i (by simp) ((closesBrace_iff _).mp ⟨by simpa using h1, h2⟩)]
      exact ih _ fun j hj => hc j (by simp [hj])

/-- Same children, indents and child indents. -/
def SameIndents (h h' : Heap) : Prop :=
  ∀ i, (h' i).children = (h i).children ∧ (h' i).indent = (h i).indent ∧ (h' i).childIndent = (h i).childIndent

theorem indents_same {n : Nat} {h h' : Heap} (H : Indents n h) (hs : SameIndents h h') : Indents n h' := by
  intro i
  obtain ⟨h1, _, h3⟩ := hs i
  rw [h1, h3]
  refine ⟨(H i).1, ?_⟩
  rw [(H i).2]
  cases (h i).children.getLast? with
  | none => rfl
  | some k => exact (hs k).2.1.symm

theorem bannerFold_plain (n : Nat) : ∀ (ps : List Nat) (h : Heap), (∀ p ∈ ps, bannerDelim (h p).text = none) →
    SameIndents h (ps.foldl (bannerOne n) h) := by
  intro ps
  induction ps with
  | nil => intro h _ i; exact ⟨rfl, rfl, rfl⟩
  | cons p ps ih =>
    intro h hb
    have e : bannerOne n h p = upd h p (fun b => { b with blankKeep := true }) := by
      rw [bannerOne, hb p (by simp)]
    have hT : ∀ j, (bannerOne n h p j).text = (h j).text := by
      intro j
      rw [e, upd]
      split <;> simp_all
    have := ih (bannerOne n h p) (fun q hq => by rw [hT]; exact hb q (by simp [hq]))
    intro i
    obtain ⟨h1, h2, h3⟩ := this i
    rw [List.foldl_cons, h1, h2, h3, e, upd]
    split <;> simp_all

theorem indents_parse {o : Opts} {lines : List Str} {P : Parsed} (h : parse o lines = .ok P) (hp : Spec.Plain lines) :
    ∃ n, Indents n P.h := by
  rw [parse] at h
  have hsub : ∀ l ∈ preFilter o lines, l ∈ lines := by
    intro l hl
    rw [preFilter] at hl
    split at hl
    · exact (List.mem_filter.mp hl).1
    · exact hl
  generalize preFilter o lines = L at *
  have hat : ∀ j, j < L.length → lineAt L j ∈ L := by
    intro j hj
    rw [lineAt, List.getD_eq_getElem?_getD, List.getElem?_eq_getElem hj]
    exact List.getElem_mem hj
  have hI := indents_pass o L
  have hcl : ∀ i ∈ List.range L.length, ¬ Conf.Spec.closes ((indentPass o L).h i).text := by
    intro i hi hc
    rw [indentPass_text] at hc
    refine hp.2.2 _ (hsub _ (hat i (List.mem_range.mp hi))) ?_
    rw [← closesBrace_iff] at hc ⊢
    rwa [opensBrace, closesBrace, rstrip_rstrip, strip, rstrip_rstrip, ← strip, ← opensBrace, ← closesBrace] at hc
  have hbn : ∀ p, p < L.length → isBanner ((indentPass o L).h p).text = true → bannerDelim ((indentPass o L).h p).text = none := by
    intro p hpl hb
    rw [indentPass_text] at hb ⊢
    cases hd : bannerDelim (rstrip (lineAt L p)) with
    | none => rfl
    | some d => exact absurd ((bannerHead_iff _ d).mp ⟨hb, hd⟩) (hp.1 _ (hsub _ (hat p hpl)) d)
  have hm : (if o.syn = .ios then macroLines L else []) = [] := by
    rw [← macros]
    apply List.eq_nil_iff_forall_not_mem.mpr
    intro p hpm
    obtain ⟨_, h1, h2⟩ := (mem_macros o L p).mp hpm
    exact hp.2.1 _ (hsub _ (hat p h1)) h2
  rw [bootstrap] at h
  dsimp only at h
  rw [indentPass_n, bracePass_id _ _ _ hcl, hm] at h
  have hB := bannerFold_plain L.length ((List.range L.length).filter (fun i => isBanner ((indentPass o L).h i).text))
    (indentPass o L).h (fun p hp => by
      obtain ⟨h1, h2⟩ := List.mem_filter.mp hp
      exact hbn p (List.mem_range.mp h1) h2)
  rw [← bannerPass] at hB
  by_cases hj : o.syn = .junos
  · simp only [hj, if_true] at h
    obtain rfl := Except.ok.inj h
    exact ⟨_, hI⟩
  · simp only [hj, if_false, macroPass] at h
    obtain rfl := Except.ok.inj h
    exact ⟨_, indents_same hI hB⟩

/-! ## The letters -/

theorem letter_rx : ∃ rx, textRx "[a-zA-Z]".toList = .ok rx ∧ ∀ t, Spec.Match rx t ↔ ∃ c ∈ t, isLetter c = true := by
  have hc : Re.compileL "[a-zA-Z]".toList = .ok ⟨.cls ⟨[.range 'a' 'z', .range 'A' 'Z'], false, false⟩, 0, []⟩ := by
    decide +kernel
  refine ⟨_, by rw [textRx, hc]; rfl, fun t => ?_⟩
  rw [← search_iff, Rx.search]
  show ((Re.search _ t).map Re.Found.text).isSome = true ↔ _
  rw [Option.isSome_map, search_isSome]
  have hh : ∀ c, Re.Cls.has ⟨[.range 'a' 'z', .range 'A' 'Z'], false, false⟩ c = isLetter c := by
    intro c
    simp [Re.Cls.has, Re.Item.has, isLetter, Bool.or_comm]
  constructor
  · rintro ⟨pre, u, v, rfl, a, rfl, ha⟩
    exact ⟨a, by simp, (hh a).symm.trans ha⟩
  · rintro ⟨c, hm, hl⟩
    obtain ⟨pre, v, rfl⟩ := List.append_of_mem hm
    exact ⟨pre, c :: v, v, rfl, c, rfl, (hh c).trans hl⟩

/-! ## The loops of `req_cfgspec_all_diff` -/

theorem skipLine_spec {ws : Bool} {t : Str} {f : Str → Bool} : ∀ (rs skip : List Str),
    (∀ r ∈ rs, isRequired ws t r = .ok (f r)) →
    ∃ l, skipLine ws t rs skip = .ok l ∧ ∀ r, r ∈ l ↔ r ∈ skip ∨ (r ∈ rs ∧ f r = true) := by
  intro rs
  induction rs with
  | nil => intro skip _; exact ⟨skip, rfl, by simp⟩
  | cons x rs ih =>
    intro skip h
    obtain ⟨l, h1, h2⟩ := ih (if f x then x :: skip else skip) (fun r hr => h r (by simp [hr]))
    refine ⟨l, ?_, fun r => ?_⟩
    · rw [skipLine, h x (by simp)]
      exact h1
    · rw [h2]
      by_cases hx : f x = true
      · rw [if_pos hx, List.mem_cons, List.mem_cons]
        constructor
        · rintro ((rfl | h) | h)
          · exact .inr ⟨.inl rfl, hx⟩
          · exact .inl h
          · exact .inr ⟨.inr h.1, h.2⟩
        · rintro (h | ⟨rfl | h, h'⟩)
          · exact .inl (.inr h)
          · exact .inl (.inl rfl)
          · exact .inr ⟨h, h'⟩
      · rw [if_neg hx, List.mem_cons]
        constructor
        · rintro (h | h)
          · exact .inl h
          · exact .inr ⟨.inr h.1, h.2⟩
        · rintro (h | ⟨rfl | h, h'⟩)
          · exact .inl h
          · exact absurd h' hx
          · exact .inr ⟨h, h'⟩

theorem skipLines_spec {ws : Bool} {cfg : List Str} {f : Str → Str → Bool} : ∀ (ts skip : List Str),
    (∀ t ∈ ts, ∀ r ∈ cfg, isRequired ws t r = .ok (f t r)) →
    ∃ l, skipLines ws cfg ts skip = .ok l ∧ ∀ r, r ∈ l ↔ r ∈ skip ∨ (r ∈ cfg ∧ ∃ t ∈ ts, f t r = true) := by
  intro ts
  induction ts with
  | nil => intro skip _; exact ⟨skip, rfl, by simp⟩
  | cons t ts ih =>
    intro skip h
    obtain ⟨l, h1, h2⟩ := skipLine_spec cfg skip (h t (by simp))
    obtain ⟨l', h3, h4⟩ := ih l (fun t' ht => h t' (by simp [ht]))
    refine ⟨l', by rw [skipLines, h1]; exact h3, fun r => ?_⟩
    rw [h4, h2]
    constructor
    · rintro ((h | h) | ⟨h, t', ht, h'⟩)
      · exact .inl h
      · exact .inr ⟨h.1, t, by simp, h.2⟩
      · exact .inr ⟨h, t', by simp [ht], h'⟩
    · rintro (h | ⟨hc, t', ht, h'⟩)
      · exact .inl (.inl h)
      · rcases List.mem_cons.mp ht with rfl | ht
        · exact .inl (.inr ⟨hc, h'⟩)
        · exact .inr ⟨hc, t', ht, h'⟩

theorem reqAllDiff_spec {P : Parsed} {cfg : List Str} {ws : Bool}
    {f : Str → Str → Bool} (hf : ∀ i ∈ P.list, ∀ r ∈ cfg, isRequired ws (P.h i).text r = .ok (f (P.h i).text r)) :
    ∃ g : Str → Bool, reqAllDiff P cfg ws = .ok (cfg.filter g) ∧
      ∀ r ∈ cfg, (g r = false ↔ ∃ i ∈ P.list, (∃ c ∈ (P.h i).text, isLetter c = true) ∧ f (P.h i).text r = true) := by
  obtain ⟨rx, h1, h2⟩ := letter_rx
  obtain ⟨l, h3, h4⟩ := skipLines_spec (ws := ws) (cfg := cfg) (f := f) ((findObjects P rx).map (fun i => (P.h i).text)) [] (by
    intro t ht r hr
    obtain ⟨i, hi, rfl⟩ := List.mem_map.mp ht
    exact hf i (mem_findObjects.mp hi).1 r hr)
  refine ⟨fun r => !l.contains r, ?_, fun r hr => ?_⟩
  · rw [reqAllDiff, findObjectsT, show exactSpec false (wsSpec false "[a-zA-Z]".toList) = "[a-zA-Z]".toList from rfl, h1]
    show (skipLines ws cfg _ [] >>= _) = _
    rw [h3]
    rfl
  · rw [Bool.not_eq_false', List.contains_iff_mem, h4]
    simp only [List.not_mem_nil, false_or, hr, true_and]
    constructor
    · rintro ⟨t, ht, hft⟩
      obtain ⟨i, hi, rfl⟩ := List.mem_map.mp ht
      obtain ⟨h5, h6⟩ := mem_findObjects.mp hi
      exact ⟨i, h5, (h2 _).mp h6, hft⟩
    · rintro ⟨i, hi, hl, hft⟩
      exact ⟨_, List.mem_map.mpr ⟨i, mem_findObjects.mpr ⟨hi, (h2 _).mpr hl⟩, rfl⟩, hft⟩

/-! ## `add_uncfgtext` -/

theorem dropNo_other {t : Str} (h : ∀ w, (splitWs t).head? = some w → w ≠ "no".toList) : dropNo t = .ok t := by
  have hc : Re.compileL noRx = .ok ⟨Re.seqs [.bol, .grp 1 (.star true (.cls Re.K.space.cls)),
      .grp 2 (Re.seqs [.cls (Re.K.chr 'n').cls, .cls (Re.K.chr 'o').cls, Re.seqs [.cls Re.K.space.cls, .star true (.cls Re.K.space.cls)]]),
      .opt true (.grp 3 (Re.seqs [.cls Re.K.nonspace.cls, .star true (.cls Re.K.any.cls)])), .eol], 3, []⟩ := by
    decide +kernel
  rw [dropNo, hc]
  show (match Re.search _ t with | some m => _ | none => _) = _
  cases hs : Re.search _ t with
  | none => rfl
  | some m =>
    exfalso
    have := (search_isSome _ _ _ t).mp (by rw [hs]; rfl)
    obtain ⟨pre, u, v, e, hl⟩ := this
    rw [Re.lang_cons] at hl
    obtain ⟨w, ⟨rfl, hlen⟩, hl⟩ := hl
    have hpre : pre = [] := by
      have := congrArg List.length e
      rw [List.length_append] at this
      exact List.length_eq_zero_iff.mp (by omega)
    subst hpre
    rw [List.nil_append] at e
    subst e
    simp only [Re.lang_cons] at hl
    obtain ⟨w1, h1, w2, h2, _⟩ := hl
    have h1' := (Re.lang_star' _ true .space _ _).mp h1
    obtain ⟨b, rfl, hb⟩ := h1'
    have h2' : ∃ r, w1 = 'n' :: 'o' :: r ∧ ∃ x, r.head? = some x ∧ isSpace x = true := by
      rw [Re.Lang] at h2
      simp only [Re.lang_cons] at h2
      obtain ⟨x1, hx1, x2, hx2, x3, hx3, _⟩ := h2
      obtain ⟨a, rfl, ha⟩ := (Re.lang_cls _ _ _ _).mp hx1
      obtain ⟨a', rfl, ha'⟩ := (Re.lang_cls _ _ _ _).mp hx2
      obtain ⟨y, ⟨z, rfl, hz⟩, _⟩ := hx3
      rw [Re.K.has, beq_iff_eq] at ha ha'
      subst ha ha'
      rw [Re.K.cls_has] at hz
      exact ⟨_, rfl, z, rfl, hz⟩
    obtain ⟨r, rfl, x, hx, hxs⟩ := h2'
    have : splitWs (b ++ 'n' :: 'o' :: r) = "no".toList :: splitWs r := by
      rw [splitWs_spaces _ _ hb]
      exact Re.splitWs_word_rest (w := ['n', 'o']) ⟨by simp, by decide⟩ (fun c hc => by rw [hx] at hc; cases hc; exact hxs)
    exact h _ (by rw [this]; rfl) rfl

end Query

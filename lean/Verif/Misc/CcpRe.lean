import Verif.Py

/-! # `__ccp_re__`: an expression that is searched once

The expression engine is a parameter: `compile` and `search` are Python's `re.compile` and `search`. -/

namespace Misc

open Py

/-! ## Model -/

/-- A `re.Match`: `groups()` and `groupdict()`. -/
structure Found where
  groups : List (Option Str)
  named : List (Str × Option Str)
  deriving DecidableEq, Repr

/-- Python's `re`: compiled expressions, `re.compile(text, flags)` and `search`. -/
structure Engine where
  Compiled : Type
  compile : Str → Nat → Except Err Compiled
  search : Compiled → Str → Option Found

/-- The values in `captured`: as captured, or after a cast. -/
inductive Capture where
  | raw (s : Option Str)
  | int (n : Int)
  deriving DecidableEq, Repr

/-- ccp_util.py:678-680 and 684-686: the casts.  Simplification: `int` and `str` only, where `str` leaves texts as they are;
`str(None)` is the text None and `int(None)` raises TypeError. -/
inductive Cast where
  | int | str
  deriving DecidableEq, Repr

def Cast.apply : Cast → Option Str → Except Err Capture
  | .str, some t => .ok (.raw (some t))
  | .str, none => .ok (.raw (some "None".toList))
  | .int, some t => (pyInt t).map Capture.int
  | .int, none => .error .typeError

/-- The keys of the dictionary `groups`: numbers and names. -/
inductive GroupKey where
  | num (n : Nat)
  | name (s : Str)
  deriving DecidableEq, Repr

/-- ccp_util.py:543-573: the attributes of the object; `regex_str` is the text of `compiled`. -/
structure CcpRe (E : Engine) where
  compiled : E.Compiled
  attempted : Bool
  result : Option Found
  groups : GroupKey → Option Cast

/-- What `s` returns: the groups, the whole text, or None. -/
inductive Answer where
  | groups (l : List (Option Str))
  | whole (t : Str)
  | none
  deriving DecidableEq, Repr

variable {E : Engine}

/-- ccp_util.py:625-641 `s(target_str)` for a string. -/
def CcpRe.s (o : CcpRe E) (t : Str) : Except Err (CcpRe E × Answer) :=
  if o.attempted then .error .requirement
  else
    let o := { o with attempted := true, result := E.search o.compiled t }
    match o.result with
    | some m => if m.groups.length > 0 then .ok (o, .groups m.groups) else .ok (o, .whole t)
    | none => .ok (o, .none)

/-- ccp_util.py:575-599 `__ccp_re__(regex_str, target_str, groups, flags)`; `target_str` is None or a string.  The last
line sets `search_result` to None. -/
def CcpRe.make (E : Engine) (regex : Str) (target : Option Str) (groups : GroupKey → Option Cast) (flags : Nat) :
    Except Err (CcpRe E) := do
  let c ← E.compile regex flags
  let o : CcpRe E := { compiled := c, attempted := false, result := none, groups := groups }
  let o ← match target with
    | some t => (o.s t).map Prod.fst
    | none => .ok o
  .ok { o with result := none }

/-- ccp_util.py:615-622: assigning `regex`; an expression that does not compile raises before the object is changed (the
text of the attribute aside, which is not modelled). -/
def CcpRe.setRegex (o : CcpRe E) (regex : Str) : Except Err (CcpRe E) := do
  let c ← E.compile regex 0
  .ok { o with compiled := c, attempted := false }

/-- ccp_util.py:671-686: the casts of a list of captures. -/
def castAll (g : GroupKey → Option Cast) (l : List (GroupKey × Option Str)) : Except Err (List Capture) :=
  l.mapM (fun kv => match g kv.1 with
    | some ty => ty.apply kv.2
    | none => .ok (.raw kv.2))

/-- ccp_util.py:649-692 `captured`. -/
def CcpRe.captured (o : CcpRe E) : Except Err (List Capture × List (Str × Capture)) :=
  if o.attempted then
    match o.result with
    | none => .ok ([], [])
    | some m => do
      let gs ← castAll o.groups ((List.range m.groups.length).zip m.groups |>.map (fun p => (.num (p.1 + 1), p.2)))
      let ns ← castAll o.groups (m.named.map (fun p => (.name p.1, p.2)))
      .ok (gs, (m.named.map Prod.fst).zip ns)
  else .ok ([], [])

/-- The calls that change an object. -/
inductive ReOp where
  | search (t : Str)
  | setRegex (r : Str)
  deriving DecidableEq, Repr

/-- One call; a call that raises leaves the object as it is. -/
def CcpRe.step (o : CcpRe E) : ReOp → CcpRe E
  | .search t => match o.s t with
    | .ok (o', _) => o'
    | .error _ => o
  | .setRegex r => match o.setRegex r with
    | .ok o' => o'
    | .error _ => o

/-- A history of calls. -/
def CcpRe.run (o : CcpRe E) (h : List ReOp) : CcpRe E := h.foldl CcpRe.step o

/-! ## Specification -/

namespace Spec

/-- No call of the history gives the object a new expression. -/
def Unset (E : Engine) (h : List ReOp) : Prop := ∀ r, .setRegex r ∈ h → ∀ c, E.compile r 0 ≠ .ok c

/-- The history has a search, and no new expression after it. -/
def Used (E : Engine) (h : List ReOp) : Prop := ∃ pre t post, h = pre ++ .search t :: post ∧ Unset E post

/-- `c` is the expression after the history of an object built with `c0`: the last one that was set. -/
def Current (E : Engine) (c0 : E.Compiled) (h : List ReOp) (c : E.Compiled) : Prop :=
  (Unset E h ∧ c = c0) ∨ ∃ pre r post, h = pre ++ .setRegex r :: post ∧ E.compile r 0 = .ok c ∧ Unset E post

/-- The answer to a search of the expression `c` in `t`: None without a match, the groups of the match, the whole text if the
expression has none. -/
def answer (E : Engine) (c : E.Compiled) (t : Str) : Answer :=
  match E.search c t with
  | some m => if m.groups = [] then .whole t else .groups m.groups
  | none => .none

/-- The value of a capture `v` for which `groups` names the type `ty`, if any. -/
inductive CastTo : Option Cast → Option Str → Capture → Prop where
  | plain (v) : CastTo none v (.raw v)
  | text (t) : CastTo (some .str) (some t) (.raw (some t))
  | missing : CastTo (some .str) none (.raw (some "None".toList))
  | number {t : Str} {n : Int} : pyInt t = .ok n → CastTo (some .int) (some t) (.int n)

end Spec

/-! ## Lemmas -/

/-- Induction on the end of a list. -/
theorem snoc_induction {α : Type} {P : List α → Prop} (nil : P []) (append_singleton : ∀ l a, P l → P (l ++ [a])) (l : List α) : P l := by
  have h : ∀ r : List α, P r.reverse := by
    intro r
    induction r with
    | nil => exact nil
    | cons a r ih => rw [List.reverse_cons]; exact append_singleton _ _ ih
  rw [← List.reverse_reverse l]; exact h _

theorem run_snoc (o : CcpRe E) (h : List ReOp) (x : ReOp) : o.run (h ++ [x]) = (o.run h).step x := by
  simp [CcpRe.run]

theorem s_ok {o : CcpRe E} {t : Str} (h : o.attempted = false) :
    o.s t = .ok ({ o with attempted := true, result := E.search o.compiled t }, Spec.answer E o.compiled t) := by
  unfold CcpRe.s Spec.answer
  rw [h]
  simp only [Bool.false_eq_true, if_false]
  cases E.search o.compiled t with
  | none => rfl
  | some m =>
    by_cases hm : m.groups = []
    · simp [hm]
    · simp [hm, List.length_pos_iff.mpr hm]

theorem unset_snoc_search {h : List ReOp} {t : Str} : Spec.Unset E (h ++ [.search t]) ↔ Spec.Unset E h := by
  constructor
  · intro hu r hr; exact hu r (List.mem_append_left _ hr)
  · intro hu r hr
    rcases List.mem_append.mp hr with hr | hr
    · exact hu r hr
    · simp at hr

theorem unset_snoc_set {h : List ReOp} {r : Str} :
    Spec.Unset E (h ++ [.setRegex r]) ↔ Spec.Unset E h ∧ ∀ c, E.compile r 0 ≠ .ok c := by
  constructor
  · intro hu
    exact ⟨fun r' hr => hu r' (List.mem_append_left _ hr), hu r (by simp)⟩
  · rintro ⟨hu, hr⟩ r' hr'
    rcases List.mem_append.mp hr' with hm | hm
    · exact hu r' hm
    · simp only [List.mem_singleton, ReOp.setRegex.injEq] at hm; rw [hm]; exact hr

/-- Splitting off the last call of a history that is cut somewhere. -/
theorem snoc_cut {h pre post : List ReOp} {x y : ReOp} (e : h ++ [x] = pre ++ y :: post) :
    (post = [] ∧ h = pre ∧ x = y) ∨ ∃ post', post = post' ++ [x] ∧ h = pre ++ y :: post' := by
  rcases List.eq_nil_or_concat post with rfl | ⟨post', z, rfl⟩
  · have := List.append_inj' e (by simp)
    exact .inl ⟨rfl, this.1, by simpa using this.2⟩
  · have e' : h ++ [x] = (pre ++ y :: post') ++ [z] := by simp [e]
    have := List.append_inj' e' (by simp)
    obtain ⟨h1, h2⟩ := this
    have : x = z := by simpa using h2
    subst this
    exact .inr ⟨post', by simp, h1⟩

theorem used_snoc_search {h : List ReOp} {t : Str} : Spec.Used E (h ++ [.search t]) :=
  ⟨h, t, [], rfl, fun _ hr => by simp at hr⟩

theorem used_snoc_set {h : List ReOp} {r : Str} :
    Spec.Used E (h ++ [.setRegex r]) ↔ Spec.Used E h ∧ ∀ c, E.compile r 0 ≠ .ok c := by
  constructor
  · rintro ⟨pre, t, post, e, hu⟩
    rcases snoc_cut e with ⟨_, _, e'⟩ | ⟨post', rfl, e'⟩
    · cases e'
    · obtain ⟨h1, h2⟩ := unset_snoc_set.mp hu
      exact ⟨⟨pre, t, post', e', h1⟩, h2⟩
  · rintro ⟨⟨pre, t, post, rfl, hu⟩, hr⟩
    exact ⟨pre, t, post ++ [.setRegex r], by simp, unset_snoc_set.mpr ⟨hu, hr⟩⟩

theorem used_nil : ¬ Spec.Used E [] := by
  rintro ⟨pre, t, post, e, _⟩; simp at e

theorem step_set_ok {o : CcpRe E} {r : Str} {c : E.Compiled} (h : E.compile r 0 = .ok c) :
    o.step (.setRegex r) = { o with compiled := c, attempted := false } := by
  simp [CcpRe.step, CcpRe.setRegex, h, bind, Except.bind]

theorem step_set_error {o : CcpRe E} {r : Str} {e : Err} (h : E.compile r 0 = .error e) :
    o.step (.setRegex r) = o := by
  simp [CcpRe.step, CcpRe.setRegex, h, bind, Except.bind]

theorem step_search_new {o : CcpRe E} {t : Str} (h : o.attempted = false) :
    o.step (.search t) = { o with attempted := true, result := E.search o.compiled t } := by
  rw [CcpRe.step, s_ok h]

theorem step_search_old {o : CcpRe E} {t : Str} (h : o.attempted = true) : o.step (.search t) = o := by
  simp [CcpRe.step, CcpRe.s, h]

theorem attempted_run (o : CcpRe E) (h0 : o.attempted = false) (h : List ReOp) :
    (o.run h).attempted = true ↔ Spec.Used E h := by
  induction h using snoc_induction with
  | nil => exact ⟨fun h => (by rw [CcpRe.run, List.foldl_nil, h0] at h; cases h), fun h => absurd h used_nil⟩
  | append_singleton h x ih =>
    rw [run_snoc]
    cases x with
    | search t =>
      refine ⟨fun _ => used_snoc_search, fun _ => ?_⟩
      cases ha : (o.run h).attempted with
      | false => rw [step_search_new ha]
      | true => rw [step_search_old ha, ha]
    | setRegex r =>
      rw [used_snoc_set]
      cases hc : E.compile r 0 with
      | ok c => rw [step_set_ok hc]; exact ⟨fun h => (by cases h), fun h => absurd rfl (h.2 c)⟩
      | error e => rw [step_set_error hc, ih]; exact ⟨fun h => ⟨h, fun c h' => (by cases h')⟩, fun h => h.1⟩

theorem compiled_run (o : CcpRe E) (h : List ReOp) : Spec.Current E o.compiled h (o.run h).compiled := by
  induction h using snoc_induction with
  | nil => exact .inl ⟨fun _ hr => by simp at hr, rfl⟩
  | append_singleton h x ih =>
    rw [run_snoc]
    cases x with
    | search t =>
      have hc : ((o.run h).step (.search t)).compiled = (o.run h).compiled := by
        cases ha : (o.run h).attempted with
        | false => rw [step_search_new ha]
        | true => rw [step_search_old ha]
      rw [hc]
      rcases ih with ⟨hu, e⟩ | ⟨pre, r, post, e, hr, hu⟩
      · exact .inl ⟨unset_snoc_search.mpr hu, e⟩
      · exact .inr ⟨pre, r, post ++ [.search t], by rw [e]; simp, hr, unset_snoc_search.mpr hu⟩
    | setRegex r =>
      cases hc : E.compile r 0 with
      | ok c =>
        rw [step_set_ok hc]
        exact .inr ⟨h, r, [], rfl, hc, fun _ hr => by simp at hr⟩
      | error e =>
        rw [step_set_error hc]
        have hn : ∀ c, E.compile r 0 ≠ .ok c := fun c h' => by rw [hc] at h'; cases h'
        rcases ih with ⟨hu, e⟩ | ⟨pre, r', post, e, hr, hu⟩
        · exact .inl ⟨unset_snoc_set.mpr ⟨hu, hn⟩, e⟩
        · exact .inr ⟨pre, r', post ++ [.setRegex r], by rw [e]; simp, hr, unset_snoc_set.mpr ⟨hu, hn⟩⟩

theorem current_unique {c0 c c' : E.Compiled} {h : List ReOp} (h1 : Spec.Current E c0 h c) (h2 : Spec.Current E c0 h c') :
    c = c' := by
  induction h using snoc_induction generalizing c c' with
  | nil =>
    rcases h1 with ⟨_, rfl⟩ | ⟨pre, r, post, e, _⟩
    · rcases h2 with ⟨_, rfl⟩ | ⟨pre, r, post, e, _⟩
      · rfl
      · simp at e
    · simp at e
  | append_singleton h x ih =>
    cases x with
    | search t =>
      have key : ∀ {c}, Spec.Current E c0 (h ++ [.search t]) c → Spec.Current E c0 h c := by
        rintro c (⟨hu, e⟩ | ⟨pre, r, post, e, hr, hu⟩)
        · exact .inl ⟨unset_snoc_search.mp hu, e⟩
        · rcases snoc_cut e with ⟨_, _, e'⟩ | ⟨post', rfl, e'⟩
          · cases e'
          · exact .inr ⟨pre, r, post', e', hr, unset_snoc_search.mp hu⟩
      exact ih (key h1) (key h2)
    | setRegex r =>
      cases hc : E.compile r 0 with
      | ok k =>
        have key : ∀ {c}, Spec.Current E c0 (h ++ [.setRegex r]) c → c = k := by
          rintro c (⟨hu, e⟩ | ⟨pre, r', post, e, hr, hu⟩)
          · exact absurd hc ((unset_snoc_set.mp hu).2 k)
          · rcases snoc_cut e with ⟨_, _, e'⟩ | ⟨post', rfl, e'⟩
            · cases e'; rw [hr] at hc; exact Except.ok.inj hc
            · exact absurd hc ((unset_snoc_set.mp hu).2 k)
        rw [key h1, key h2]
      | error e =>
        have key : ∀ {c}, Spec.Current E c0 (h ++ [.setRegex r]) c → Spec.Current E c0 h c := by
          rintro c (⟨hu, e⟩ | ⟨pre, r', post, e', hr, hu⟩)
          · exact .inl ⟨(unset_snoc_set.mp hu).1, e⟩
          · rcases snoc_cut e' with ⟨_, _, e''⟩ | ⟨post', rfl, e''⟩
            · cases e''; rw [hr] at hc; cases hc
            · exact .inr ⟨pre, r', post', e'', hr, (unset_snoc_set.mp hu).1⟩
        exact ih (key h1) (key h2)

theorem make_none {regex : Str} {g : GroupKey → Option Cast} {flags : Nat} {o : CcpRe E}
    (h : CcpRe.make E regex none g flags = .ok o) :
    ∃ c, E.compile regex flags = .ok c ∧ o = { compiled := c, attempted := false, result := none, groups := g } := by
  unfold CcpRe.make at h
  cases hc : E.compile regex flags with
  | error e => rw [hc] at h; cases h
  | ok c => rw [hc] at h; cases h; exact ⟨c, rfl, rfl⟩

/-! ## C210: searching -/

/-- C210: after any history of calls on an object built without a text, a search raises RequirementFailure exactly if there
was a search since the last new expression; otherwise it answers for the current expression. -/
theorem C210_search {regex : Str} {g : GroupKey → Option Cast} {flags : Nat} {o : CcpRe E} {c0 : E.Compiled}
    (h0 : CcpRe.make E regex none g flags = .ok o) (hc0 : E.compile regex flags = .ok c0) (h : List ReOp) (t : Str) :
    (Spec.Used E h → (o.run h).s t = .error .requirement) ∧
    (¬ Spec.Used E h → ∀ c, Spec.Current E c0 h c → ∃ o', (o.run h).s t = .ok (o', Spec.answer E c t)) := by
  obtain ⟨c1, hc1, rfl⟩ := make_none h0
  rw [hc0] at hc1; cases hc1
  have ha := attempted_run (E := E) { compiled := c0, attempted := false, result := none, groups := g } rfl h
  have hcur := compiled_run (E := E) { compiled := c0, attempted := false, result := none, groups := g } h
  constructor
  · intro hu
    rw [CcpRe.s, ha.mpr hu, if_pos rfl]
  · intro hu c hc
    have hf := Bool.eq_false_iff.mpr (fun h' => hu (ha.mp h'))
    rw [s_ok hf, current_unique hc hcur]
    exact ⟨_, rfl⟩

/-- C210: some expression is always current. -/
theorem C210_current (c0 : E.Compiled) (h : List ReOp) : ∃ c, Spec.Current E c0 h c ∧ ∀ c', Spec.Current E c0 h c' → c' = c :=
  ⟨_, compiled_run (E := E) { compiled := c0, attempted := false, result := none, groups := fun _ => none } h,
    fun _ h' => current_unique h' (compiled_run (E := E) { compiled := c0, attempted := false, result := none, groups := fun _ => none } h)⟩

/-- An engine for the examples: an expression is a fixed text that is one group; with flag 2 it matches everywhere. -/
def toyEngine : Engine where
  Compiled := Str × Nat
  compile := fun r f => if r = "(".toList then .error .reError else .ok (r, f)
  search := fun c t => if c.2 = 2 ∨ isInfix c.1 t then some ⟨[some c.1], []⟩ else none

example : ∃ o, CcpRe.make toyEngine "a".toList none (fun _ => none) 0 = .ok o ∧
    ¬ Spec.Used toyEngine [.search "x".toList, .setRegex "b".toList] ∧
    Spec.Current toyEngine ("a".toList, 0) [.search "x".toList, .setRegex "b".toList] ("b".toList, 0) := by
  refine ⟨_, rfl, ?_, .inr ⟨[.search "x".toList], "b".toList, [], rfl, rfl, fun _ hr => by simp at hr⟩⟩
  intro hu
  exact (used_snoc_set (h := [.search "x".toList]).mp hu).2 ("b".toList, 0) rfl

/-! ## C211: what was captured -/

theorem groups_run (c0 : E.Compiled) (g : GroupKey → Option Cast) (h : List ReOp) :
    (CcpRe.run (E := E) { compiled := c0, attempted := false, result := none, groups := g } h).groups = g := by
  induction h using snoc_induction with
  | nil => rfl
  | append_singleton h x ih =>
    rw [run_snoc]
    cases x with
    | search t' =>
      cases hx : (CcpRe.run (E := E) { compiled := c0, attempted := false, result := none, groups := g } h).attempted with
      | false => rw [step_search_new hx]; exact ih
      | true => rw [step_search_old hx]; exact ih
    | setRegex r =>
      cases hx : E.compile r 0 with
      | ok k => rw [step_set_ok hx]; exact ih
      | error e => rw [step_set_error hx]; exact ih

theorem result_run {c0 c : E.Compiled} (g : GroupKey → Option Cast) {pre post : List ReOp} {t : Str}
    (hpre : ¬ Spec.Used E pre) (hc : Spec.Current E c0 pre c) (hpost : Spec.Unset E post) :
    (CcpRe.run (E := E) { compiled := c0, attempted := false, result := none, groups := g } (pre ++ .search t :: post)).attempted = true ∧
    (CcpRe.run (E := E) { compiled := c0, attempted := false, result := none, groups := g } (pre ++ .search t :: post)).result = E.search c t := by
  have ha := attempted_run (E := E) { compiled := c0, attempted := false, result := none, groups := g } rfl pre
  have hf := Bool.eq_false_iff.mpr (fun h' => hpre (ha.mp h'))
  have hcur := current_unique hc (compiled_run (E := E) { compiled := c0, attempted := false, result := none, groups := g } pre)
  induction post using snoc_induction with
  | nil => rw [run_snoc, step_search_new hf, hcur]; exact ⟨rfl, rfl⟩
  | append_singleton post x ih =>
    rw [show pre ++ .search t :: (post ++ [x]) = (pre ++ .search t :: post) ++ [x] by simp, run_snoc]
    cases x with
    | search t' =>
      have := ih (unset_snoc_search.mp hpost)
      rw [step_search_old this.1]; exact this
    | setRegex r =>
      obtain ⟨h1, h2⟩ := unset_snoc_set.mp hpost
      cases hx : E.compile r 0 with
      | ok k => exact absurd hx (h2 k)
      | error e => rw [step_set_error hx]; exact ih h1

theorem castAll_spec {g : GroupKey → Option Cast} : ∀ {l : List (GroupKey × Option Str)} {r : List Capture}, castAll g l = .ok r →
    r.length = l.length ∧ ∀ (i : Nat) kv, l[i]? = some kv → ∃ out, r[i]? = some out ∧ Spec.CastTo (g kv.1) kv.2 out
  | [], r, h => by
    cases h; exact ⟨rfl, fun i kv h => by simp at h⟩
  | a :: l, r, h => by
    unfold castAll at h
    rw [List.mapM_cons] at h
    cases ha : (match g a.1 with | some ty => ty.apply a.2 | none => .ok (.raw a.2) : Except Err Capture) with
    | error e => simp only [ha, bind, Except.bind] at h; cases h
    | ok v =>
      cases hl : castAll g l with
      | error e =>
        unfold castAll at hl
        simp only [ha, hl, bind, Except.bind] at h; cases h
      | ok r' =>
        have ih := castAll_spec hl
        unfold castAll at hl
        simp only [ha, hl, bind, Except.bind, pure, Except.pure, Except.ok.injEq] at h
        subst h
        refine ⟨by simp [ih.1], fun i kv hi => ?_⟩
        cases i with
        | succ i => simpa using ih.2 i kv (by simpa using hi)
        | zero =>
          simp only [List.getElem?_cons_zero, Option.some.injEq] at hi
          subst hi
          refine ⟨v, rfl, ?_⟩
          cases hg : g a.1 with
          | none => rw [hg] at ha; cases ha; exact .plain _
          | some ty =>
            rw [hg] at ha
            simp only [] at ha
            cases ty with
            | str =>
              cases h2 : a.2 with
              | none => rw [h2] at ha; cases ha; exact .missing
              | some t => rw [h2] at ha; cases ha; exact .text t
            | int =>
              cases h2 : a.2 with
              | none => rw [h2] at ha; cases ha
              | some t =>
                rw [h2] at ha
                cases h3 : pyInt t with
                | error e => simp only [Cast.apply, h3, Except.map] at ha; cases ha
                | ok n => simp only [Cast.apply, h3, Except.map] at ha; cases ha; exact .number h3

/-- C211: after a search that no new expression followed, `captured` has the groups of the match in order and its named
groups, each with the type that `groups` names for it (groups are numbered from 1), and is empty without a match.
Missing: an object built with a text. -/
theorem C211_captured_partial {regex : Str} {g : GroupKey → Option Cast} {flags : Nat} {o : CcpRe E} {c0 c : E.Compiled}
    (h0 : CcpRe.make E regex none g flags = .ok o) (hc0 : E.compile regex flags = .ok c0) {pre post : List ReOp} {t : Str}
    (hpre : ¬ Spec.Used E pre) (hc : Spec.Current E c0 pre c) (hpost : Spec.Unset E post) :
    (E.search c t = none → (o.run (pre ++ .search t :: post)).captured = .ok ([], [])) ∧
    (∀ m gs ns, E.search c t = some m → (o.run (pre ++ .search t :: post)).captured = .ok (gs, ns) →
      (gs.length = m.groups.length ∧ ∀ (i : Nat) v, m.groups[i]? = some v → ∃ x, gs[i]? = some x ∧ Spec.CastTo (g (.num (i + 1))) v x) ∧
      ns.map Prod.fst = m.named.map Prod.fst ∧
      ∀ (i : Nat) k v, m.named[i]? = some (k, v) → ∃ x, ns[i]? = some (k, x) ∧ Spec.CastTo (g (.name k)) v x) := by
  obtain ⟨c1, hc1, rfl⟩ := make_none h0
  rw [hc0] at hc1; cases hc1
  have key := result_run (t := t) g hpre hc hpost
  have hg' := groups_run (E := E) c0 g (pre ++ .search t :: post)
  generalize CcpRe.run (E := E) { compiled := c0, attempted := false, result := none, groups := g } (pre ++ .search t :: post) = O at *
  constructor
  · intro hn
    rw [CcpRe.captured, key.1, key.2, hn]; rfl
  · intro m gs ns hm h
    rw [CcpRe.captured, key.1, key.2, hm] at h
    simp only [if_true] at h
    rw [hg'] at h
    cases h1 : castAll g ((List.range m.groups.length).zip m.groups |>.map (fun p => (GroupKey.num (p.1 + 1), p.2))) with
    | error e => rw [h1] at h; cases h
    | ok r1 =>
      cases h2 : castAll g (m.named.map (fun p => (GroupKey.name p.1, p.2))) with
      | error e => rw [h1, h2] at h; cases h
      | ok r2 =>
        rw [h1, h2] at h
        simp only [bind, Except.bind, Except.ok.injEq, Prod.mk.injEq] at h
        obtain ⟨rfl, rfl⟩ := h
        obtain ⟨l1, q1⟩ := castAll_spec h1
        obtain ⟨l2, q2⟩ := castAll_spec h2
        refine ⟨⟨by simpa using l1, fun i v hv => ?_⟩, ?_, fun i k v hv => ?_⟩
        · have hlt : i < m.groups.length := by
            rw [List.getElem?_eq_some_iff] at hv; exact hv.1
          exact q1 i (.num (i + 1), v) (by obtain ⟨_, e⟩ := List.getElem?_eq_some_iff.mp hv; simp [hlt, e])
        · rw [List.map_fst_zip]; simp [l2]
        · obtain ⟨x, hx, hx'⟩ := q2 i (.name k, v) (by simp [hv])
          exact ⟨x, by rw [List.getElem?_zip_eq_some]; exact ⟨by simp [hv], hx⟩, hx'⟩

/-- C211 fails: an object built with a text has searched it, but `captured` is empty whatever the expression captured, and
another search raises. -/
theorem C211_target_fails {regex t : Str} {g : GroupKey → Option Cast} {flags : Nat} {o : CcpRe E}
    (h0 : CcpRe.make E regex (some t) g flags = .ok o) :
    o.captured = .ok ([], []) ∧ ∀ t', o.s t' = .error .requirement := by
  unfold CcpRe.make at h0
  cases hc : E.compile regex flags with
  | error e => rw [hc] at h0; cases h0
  | ok c =>
    rw [hc] at h0
    simp only [bind, Except.bind] at h0
    rw [s_ok rfl] at h0
    simp only [Except.map, Except.ok.injEq] at h0
    rw [← h0]
    exact ⟨rfl, fun _ => rfl⟩

/-- C210 and C211 fail to keep the flags: assigning the same expression again drops them, and the answer changes. -/
theorem C211_flags_fails : ∃ (E : Engine) (r t : Str) (f : Nat) (o o' : CcpRe E),
    CcpRe.make E r none (fun _ => none) f = .ok o ∧ o.setRegex r = .ok o' ∧
    ∃ x x' a, o.s t = .ok (x, .groups [a]) ∧ o'.s t = .ok (x', .none) :=
  ⟨toyEngine, "a".toList, "x".toList, 2, _, _, rfl, rfl, _, _, some "a".toList, rfl, rfl⟩

/-- C211 fails to keep the flags for every engine: whatever the flags at construction, an expression that is assigned is
compiled and searched without any. -/
theorem C211_flags_dropped_fails {o o' : CcpRe E} {r : Str} (h : o.setRegex r = .ok o') (t : Str) :
    ∃ c x, E.compile r 0 = .ok c ∧ o'.s t = .ok (x, Spec.answer E c t) := by
  rw [CcpRe.setRegex] at h
  cases hc : E.compile r 0 with
  | error e => rw [hc] at h; cases h
  | ok c =>
    rw [hc] at h
    cases h
    exact ⟨c, _, rfl, s_ok rfl⟩

/-- A search with a cast of the first group to a number. -/
example : ∃ o, CcpRe.make toyEngine "12".toList none (fun k => if k = .num 1 then some .int else none) 0 = .ok o ∧
    (o.run [.search "x12".toList]).captured = .ok ([.int 12], []) := ⟨_, rfl, by decide +kernel⟩

example : ∃ o, CcpRe.make toyEngine "a".toList (some "xay".toList) (fun _ => none) 0 = .ok o ∧
    toyEngine.search ("a".toList, 0) "xay".toList = some ⟨[some "a".toList], []⟩ :=
  ⟨_, rfl, rfl⟩

end Misc

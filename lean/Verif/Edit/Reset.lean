import Verif.Edit.Props

/-! # C271: `reset()` of an interface -/

namespace Edit

open Py Conf Query

namespace Spec

/-- Python refuses a call of a function with the named parameters `params`: too many arguments, a
keyword that is no parameter, or a parameter that is given twice. -/
def Refused (params : List String) (positional : Nat) (keywords : List String) : Prop :=
  params.length < positional ∨ (∃ k ∈ keywords, k ∉ params) ∨ ∃ k ∈ keywords, k ∈ params.take positional

end Spec

/-- A call of a function whose parameters but the first all have defaults: how Python binds
`positional` arguments and the keywords to the parameters. -/
def bindArgs (params : List String) (positional : Nat) (keywords : List String) : Except Err Unit :=
  if params.length < positional then .error .typeError
  else if keywords.all (fun k => params.contains k) = false then .error .typeError
  else if keywords.any (fun k => (params.take positional).contains k) then .error .typeError
  else .ok ()

theorem bindArgs_refused (params : List String) (n : Nat) (kw : List String) :
    bindArgs params n kw = .error .typeError ↔ Spec.Refused params n kw := by
  rw [bindArgs, Spec.Refused]
  split
  · rename_i h; exact ⟨fun _ => .inl h, fun _ => rfl⟩
  · rename_i h
    split
    · rename_i h1
      refine ⟨fun _ => .inr (.inl ?_), fun _ => rfl⟩
      obtain ⟨k, hk, hp⟩ := List.all_eq_false.mp h1
      exact ⟨k, hk, fun hm => hp (List.contains_iff_mem.mpr hm)⟩
    · rename_i h1
      rw [Bool.not_eq_false, List.all_eq_true] at h1
      split
      · rename_i h2
        refine ⟨fun _ => .inr (.inr ?_), fun _ => rfl⟩
        obtain ⟨k, hk, hp⟩ := List.any_eq_true.mp h2
        exact ⟨k, hk, List.contains_iff_mem.mp hp⟩
      · rename_i h2
        refine ⟨fun h => (by cases h), ?_⟩
        rintro (h3 | ⟨k, hk, hp⟩ | ⟨k, hk, hp⟩)
        · exact absurd h3 h
        · exact absurd (List.contains_iff_mem.mp (h1 k hk)) hp
        · exact absurd (List.any_eq_true.mpr ⟨k, hk, List.contains_iff_mem.mpr hp⟩) h2

/-- models_cisco.py:936-938, models_nxos.py:348-350, models_iosxr.py:416-418, models_junos.py:422-424,
models_asa.py:182-184 `build_reset_string` of an interface. -/
def buildReset : Syntax → Str → Except Err Str
  | .asa, _ => .error .notImplemented
  | _, t => .ok ("default ".toList ++ t)

/-- models_cisco.py:930-932, models_nxos.py:344-346, models_iosxr.py:410-412, models_junos.py:416-418,
models_asa.py:177-179 `reset(atomic)` of an interface: it calls `insert_before(string, atomic=atomic)`,
whose parameters are `self` and `insertstr` (ccp_abc.py:794-795; ccp_util.py:456-467 passes the
arguments on). -/
def reset (syn : Syntax) (o : Opts) (C : Compile) (P : Parsed) (i : Nat) (_atomic : Bool) : Except Err Parsed := do
  let new ← buildReset syn (P.h i).text
  bindArgs ["self", "insertstr"] 2 ["atomic"]
  objInsertBefore o C P i new

/-- C271: `reset()` raises for every interface of every configuration: TypeError, because
`insert_before` has no parameter `atomic`; NotImplementedError for ASA. -/
theorem C271_reset_fails (syn : Syntax) (o : Opts) (C : Compile) (P : Parsed) (i : Nat) (atomic : Bool) :
    reset syn o C P i atomic = .error (if syn = .asa then .notImplemented else .typeError) := by
  have h := (bindArgs_refused ["self", "insertstr"] 2 ["atomic"]).mpr (.inr (.inl ⟨"atomic", by simp, by decide⟩))
  cases syn <;> simp [reset, buildReset, h, bind, Except.bind]

/-- C271: without the keyword, `insert_before(build_reset_string())` puts the word default with the
text of the interface before every line that the text, as a regular expression, matches, and changes
no other line. -/
theorem C271_insert_partial {syn : Syntax} {o : Opts} {C : Compile} {P : Parsed} (hr : Spec.Reach o C P) {i : Nat} {rx : Rx}
    (hs : syn ≠ .asa) (ho : (P.h i).owned = true) (ht : (P.h i).text ≠ []) (hc : C (P.h i).text = some rx) :
    ∃ new P', buildReset syn (P.h i).text = .ok new ∧ objInsertBefore o C P i new = .ok P' ∧
      P'.texts = P.texts.flatMap (fun t => if Spec.hits rx t then [rstrip ("default ".toList ++ (P.h i).text), t] else [t]) := by
  refine ⟨"default ".toList ++ (P.h i).text, putNew o P ("default ".toList ++ (P.h i).text) (matchIdx P rx), ?_, ?_,
    putBefore_texts o (wf_reach hr) _ rx⟩
  · cases syn <;> first | rfl | exact absurd rfl hs
  · have hb : blankNew o ("default ".toList ++ (P.h i).text) ≠ true := by
      refine not_blankNew (.inr ?_)
      intro t h hb
      rw [List.mem_singleton] at h
      subst h
      exact absurd (hb 'd' (by simp)) (by decide)
    rw [objInsertBefore, if_neg (by rw [ho]; simp), if_neg hb, if_neg ht, hc]

/-- C271: where the text of the interface matches its own line only, that is one new line, directly
before the interface. -/
theorem C271_one_partial {syn : Syntax} {o : Opts} {C : Compile} {P : Parsed} (hr : Spec.Reach o C P) {i : Nat} {rx : Rx}
    (hs : syn ≠ .asa) (ho : (P.h i).owned = true) (ht : (P.h i).text ≠ []) (hc : C (P.h i).text = some rx) {a b : List Str}
    (hl : P.texts = a ++ (P.h i).text :: b) (h1 : Spec.hits rx (P.h i).text = true) (h2 : ∀ t ∈ a ++ b, Spec.hits rx t = false) :
    ∃ new P', buildReset syn (P.h i).text = .ok new ∧ objInsertBefore o C P i new = .ok P' ∧
      P'.texts = a ++ rstrip ("default ".toList ++ (P.h i).text) :: (P.h i).text :: b := by
  obtain ⟨new, P', h3, h4, h5⟩ := C271_insert_partial hr hs ho ht hc
  refine ⟨new, P', h3, h4, ?_⟩
  have none : ∀ l : List Str, (∀ t ∈ l, Spec.hits rx t = false) →
      l.flatMap (fun t => if Spec.hits rx t then [rstrip ("default ".toList ++ (P.h i).text), t] else [t]) = l := by
    intro l hl
    induction l with
    | nil => rfl
    | cons t l ih => rw [List.flatMap_cons, ih (fun x hx => hl x (by simp [hx])), hl t (by simp)]; rfl
  rw [h5, hl, List.flatMap_append, List.flatMap_cons, none a (fun t h => h2 t (by simp [h])),
    none b (fun t h => h2 t (by simp [h])), h1]
  rfl

/-- C271: where an other name begins with the name of the interface, the command is put there, too. -/
theorem C271_other_fails : ∃ P P', parse {} [s "interface Vlan1", s "interface Vlan10"] = .ok P ∧
    objInsertBefore {} (fun t => some (lit (String.ofList t))) P 0 (s "default interface Vlan1") = .ok P' ∧
    P'.texts = [s "default interface Vlan1", s "interface Vlan1", s "default interface Vlan1", s "interface Vlan10"] :=
  ⟨_, _, rfl, rfl, by decide⟩

/-! ## Not vacuous -/

example : ∃ P, parse {} [s "interface Vlan1", s "interface Vlan2"] = .ok P ∧
    ∃ new P', buildReset .nxos (P.h 0).text = .ok new ∧ objInsertBefore {} (fun t => some (lit (String.ofList t))) P 0 new = .ok P' ∧
      P'.texts = [s "default interface Vlan1", s "interface Vlan1", s "interface Vlan2"] :=
  ⟨_, rfl, C271_one_partial (C := fun t => some (lit (String.ofList t))) (.parse (lines := [s "interface Vlan1", s "interface Vlan2"]) rfl)
    (by decide) rfl (by decide) rfl (a := []) (b := [s "interface Vlan2"]) (by decide) (by decide) (by decide)⟩

end Edit

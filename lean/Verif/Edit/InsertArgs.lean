import Verif.Edit.Props

/-! # C39: what `insert_before` and `insert_after` of a line object take -/

namespace Edit

open Py Conf Query

namespace Spec

/-- An argument: a text, the line object `j`, anything else. -/
inductive Ins where
  | text (t : Str)
  | line (j : Nat)
  | other

end Spec

open Spec (Ins)

/-- ccp_abc.py:795-818 `obj.insert_before(insertstr)`. -/
def objInsertBeforeArg (o : Opts) (C : Compile) (P : Parsed) (i : Nat) : Ins → Except Err Parsed
  | .text t => objInsertBefore o C P i t
  | .line j => objInsertBefore o C P i (P.h j).text
  | .other => .error .valueError

/-- ccp_abc.py:822-857 `obj.insert_after(insertstr)`: the second argument of the second isinstance of
line 828 is a text, which raises TypeError, where the first one is False. -/
def objInsertAfterArg (o : Opts) (C : Compile) (P : Parsed) (i : Nat) : Ins → Except Err Parsed
  | .text t => objInsertAfter o C P i t
  | _ => .error .typeError

/-- C39: `insert_before` of a line object with a line object puts a new line with the text of that
object directly before each line that matches the text of the first one, and changes nothing else;
the object that is given is not itself put there. -/
theorem C39_line_before {o : Opts} {C : Compile} {P : Parsed} (hr : Spec.Reach o C P) {i j : Nat} {rx : Rx}
    (ho : (P.h i).owned = true) (ht : (P.h i).text ≠ []) (hc : C (P.h i).text = some rx) (hb : Spec.NoBlank o [(P.h j).text]) :
    ∃ P', objInsertBeforeArg o C P i (.line j) = .ok P' ∧
      P'.texts = P.texts.flatMap (fun t => if Spec.hits rx t then [rstrip (P.h j).text, t] else [t]) ∧
      P'.list.filter (· != P.n) = P.list ∧ ∀ x ∈ P.list, { P'.h x with linenum := (P.h x).linenum } = P.h x := by
  obtain ⟨P', h1, h2, h3⟩ := (C39_before hr ⟨(P.h i).text, rx.find⟩ (P.h j).text).2.2 hb ht
  rw [listInsertBefore, if_neg (not_blankNew hb), if_neg ht] at h1
  refine ⟨P', ?_, h2, h3⟩
  rw [objInsertBeforeArg, objInsertBefore, if_neg (by rw [ho]; simp), if_neg (not_blankNew hb), if_neg ht, hc]
  exact h1

/-- C39: `insert_after` of a line object raises TypeError for every line object, of any
configuration, though the text of the same object is accepted. -/
theorem C39_line_after_fails (o : Opts) (C : Compile) (P : Parsed) (i j : Nat) :
    objInsertAfterArg o C P i (.line j) = .error .typeError := rfl

example : ∃ P P', parse {} [s "a", s "b"] = .ok P ∧
    objInsertBeforeArg {} (fun t => some (lit (String.ofList t))) P 1 (.line 0) = .ok P' ∧ P'.texts = [s "a", s "a", s "b"] ∧
    objInsertAfterArg {} (fun t => some (lit (String.ofList t))) P 1 (.line 0) = .error .typeError :=
  ⟨_, _, rfl, rfl, by decide, rfl⟩

end Edit

import Verif.Edit.Lemmas

/-! # Invariants of edit histories -/

namespace Edit

open Py Conf Query

/-! ## The shape of the results -/

theorem delAt_sub {l l' : List Nat} {k : Int} (h : delAt l k = .ok l') : l'.Sublist l := by
  rw [delAt] at h
  cases hp : pyIndex l.length k with
  | none => rw [hp] at h; cases h
  | some j => rw [hp] at h; cases h; exact List.eraseIdx_sublist ..

theorem delAll_sub {h : Heap} {js l l' : List Nat} (he : delAll h js l = .ok l') : l'.Sublist l := by
  induction js generalizing l with
  | nil => rw [delAll] at he; cases he; exact List.Sublist.refl _
  | cons j js ih =>
    rw [delAll] at he
    cases hd : delAt l (h j).linenum with
    | error e => rw [hd] at he; cases he
    | ok l1 => rw [hd] at he; exact (ih he).trans (delAt_sub hd)

theorem delete_shape {P P' : Parsed} {i : Nat} {r : Bool} (h : delete P i r = .ok P') :
    ∃ l, l.Sublist P.list ∧ P' = reassign { P with list := l } := by
  rw [delete] at h
  split at h
  · cases h
  · split at h
    · cases hd : delAll P.h (sortDesc P.h (setObjs P.h (i :: allChildren P i))) P.list with
      | error e => rw [hd] at h; cases h
      | ok l => rw [hd] at h; cases h; exact ⟨l, delAll_sub hd, rfl⟩
    · split at h
      · cases h
      · split at h
        · cases h; exact ⟨_, List.eraseIdx_sublist .., rfl⟩
        · cases h

theorem atomic_shape {o : Opts} {P P' : Parsed} (h : atomic o P = .ok P') :
    ∃ Q, bootstrap o P.texts = .ok Q ∧ P' = embed P Q := by
  rw [atomic] at h
  cases hb : bootstrap o P.texts with
  | error e => rw [hb] at h; cases h
  | ok Q => rw [hb] at h; cases h; exact ⟨Q, rfl, rfl⟩

theorem mem_pyInsert {l : List Nat} {k : Int} {x y : Nat} : y ∈ pyInsert l k x ↔ y = x ∨ y ∈ l := by
  rw [pyInsert]
  generalize (if k < 0 then (k + l.length).toNat else k.toNat) = j
  rw [List.mem_append, List.mem_cons]
  conv => rhs; rw [← List.take_append_drop j l, List.mem_append]
  exact or_left_comm

theorem mem_foldl_insert {ks l : List Nat} {x y : Nat}
    (h : y ∈ ks.foldl (fun l (k : Nat) => pyInsert l k x) l) : y = x ∨ y ∈ l := by
  induction ks generalizing l with
  | nil => exact Or.inr h
  | cons k ks ih =>
    rcases ih h with h | h
    · exact Or.inl h
    · exact mem_pyInsert.mp h

/-- What was just added, before the renumbering. -/
def addObj (o : Opts) (P : Parsed) (new : Str) (l : List Nat) : Parsed :=
  { h := upd P.h P.n (fun _ => newObj o new P.n), n := P.n + 1, list := l }

/-! ## Properties kept by every edit -/

/-- A property that the elementary changes keep; `Good` are the texts that may be added. -/
structure Stable (o : Opts) (Good : Str → Prop) (Inv : Parsed → Prop) : Prop where
  ok : ∀ t, (o.ignoreBlank = false ∨ strip t ≠ []) → Good t
  drop : ∀ P l, Inv P → List.Sublist l P.list → Inv { P with list := l }
  renum : ∀ P, Inv P → Inv (reassign P)
  add : ∀ P o' new l, Inv P → Good new → (∀ x ∈ l, x ∈ P.list ∨ x = P.n) → Inv (addObj o' P new l)
  text : ∀ P i t c, Inv P → Good t → strip t ≠ [] →
    Inv { P with h := upd P.h i (fun b => { b with text := t, isComment := c }) }
  parse : ∀ P Q, Inv P → bootstrap o P.texts = .ok Q → Inv (embed P Q)

/-- The texts that are added without any check. -/
def GoodOp (Good : Str → Prop) : Op → Prop
  | .insertAt _ new => Good new
  | .prependLine new => Good new
  | _ => True

section stable
variable {o : Opts} {Good : Str → Prop} {Inv : Parsed → Prop} (S : Stable o Good Inv)
include S

theorem st_delete {P P' : Parsed} {i : Nat} {r : Bool} (hi : Inv P) (h : delete P i r = .ok P') : Inv P' := by
  obtain ⟨l, hl, e⟩ := delete_shape h
  rw [e]; exact S.renum _ (S.drop _ _ hi hl)

theorem st_deleteEach {is : List Nat} {P P' : Parsed} (hi : Inv P) (h : deleteEach is P = .ok P') : Inv P' := by
  induction is generalizing P with
  | nil => rw [deleteEach] at h; cases h; exact hi
  | cons i is ih =>
    rw [deleteEach] at h
    cases hd : delete P i true with
    | error e => rw [hd] at h; cases h
    | ok Q => rw [hd] at h; exact ih (st_delete S hi hd) h

theorem st_atomic {P P' : Parsed} (hi : Inv P) (h : atomic o P = .ok P') : Inv P' := by
  obtain ⟨Q, hq, e⟩ := atomic_shape h
  rw [e]; exact S.parse _ _ hi hq

theorem st_putNew {P : Parsed} {new : Str} {idx : List Nat} (hi : Inv P) (hg : Good new) :
    Inv (putNew o P new idx) := by
  refine S.renum _ (S.add P o new _ hi hg ?_)
  intro x hx
  exact (mem_foldl_insert hx).symm

theorem good_of_blankNew {new : Str} (h : ¬ blankNew o new = true) : Good new := by
  apply S.ok
  rw [blankNew, Bool.and_eq_true, List.isEmpty_iff] at h
  by_cases hs : strip new = []
  · left
    cases hb : o.ignoreBlank with
    | false => rfl
    | true => exact absurd ⟨hs, hb⟩ h
  · exact Or.inr hs

theorem st_listBefore {P P' : Parsed} {rx : Rx} {new : Str} (hi : Inv P)
    (h : listInsertBefore o P rx new = .ok P') : Inv P' := by
  rw [listInsertBefore] at h
  split at h
  · cases h
  · rename_i hb
    split at h
    · cases h
    · cases h; exact st_putNew S hi (good_of_blankNew S hb)

theorem st_listAfter {P P' : Parsed} {rx : Rx} {new : Str} (hi : Inv P)
    (h : listInsertAfter o P rx new = .ok P') : Inv P' := by
  rw [listInsertAfter] at h
  split at h
  · cases h
  · rename_i hb
    split at h
    · cases h
    · cases h; exact st_putNew S hi (good_of_blankNew S hb)

theorem st_listAfterObj {C : Compile} {P P' : Parsed} {i : Nat} {new : Str} (hi : Inv P)
    (h : listInsertAfterObj o C P i new = .ok P') : Inv P' := by
  rw [listInsertAfterObj] at h
  split at h
  · cases h
  · rename_i hb
    split at h
    · cases h; exact st_putNew S hi (good_of_blankNew S hb)
    · split at h
      · cases h; exact st_putNew S hi (good_of_blankNew S hb)
      · cases h

omit S in
theorem inv_insertEach {ins : Parsed → Except Err Parsed} {Inv : Parsed → Prop}
    (hins : ∀ P P', Inv P → ins P = .ok P' → Inv P') {is : List Nat} {P P' : Parsed}
    (hi : Inv P) (h : insertEach ins is P = .ok P') : Inv P' := by
  induction is generalizing P with
  | nil => rw [insertEach] at h; cases h; exact hi
  | cons i is ih =>
    rw [insertEach] at h
    split at h
    · cases hd : ins P with
      | error e => rw [hd] at h; cases h
      | ok Q => rw [hd] at h; exact ih (hins _ _ hi hd) h
    · cases h

theorem st_insertBefore {P P' : Parsed} {found rx : Rx} {new : Str} {k : Int} {a : Bool} (hi : Inv P)
    (h : insertBefore o P found rx new k a = .ok P') : Inv P' := by
  rw [insertBefore] at h
  split at h
  · cases h
  · cases hd : insertEach (fun Q => listInsertBefore o Q rx (indented new k)) (findObjects P found) P with
    | error e => rw [hd] at h; cases h
    | ok Q =>
      rw [hd] at h
      have hq : Inv Q := inv_insertEach (fun P P' h1 h2 => st_listBefore S h1 h2) hi hd
      cases a with
      | false => cases h; exact hq
      | true => exact st_atomic S hq h

theorem st_insertAfter {P P' : Parsed} {found rx : Rx} {new : Str} {k : Int} {a : Bool} (hi : Inv P)
    (h : insertAfter o P found rx new k a = .ok P') : Inv P' := by
  rw [insertAfter] at h
  cases hd : insertEach (fun Q => listInsertAfter o Q rx (indented new k)) (findObjects P found) P with
  | error e => rw [hd] at h; cases h
  | ok Q =>
    rw [hd] at h
    have hq : Inv Q := inv_insertEach (fun P P' h1 h2 => st_listAfter S h1 h2) hi hd
    cases a with
    | false => cases h; exact hq
    | true => exact st_atomic S hq h

theorem st_objBefore {C : Compile} {P P' : Parsed} {i : Nat} {new : Str} (hi : Inv P)
    (h : objInsertBefore o C P i new = .ok P') : Inv P' := by
  rw [objInsertBefore] at h
  split at h
  · cases h
  · split at h
    · cases h
    · rename_i hb
      split at h
      · cases h
      · split at h
        · cases h; exact st_putNew S hi (good_of_blankNew S hb)
        · split at h
          · cases h; exact st_putNew S hi (good_of_blankNew S hb)
          · cases h

theorem st_objAfter {C : Compile} {P P' : Parsed} {i : Nat} {new : Str} (hi : Inv P)
    (h : objInsertAfter o C P i new = .ok P') : Inv P' := by
  rw [objInsertAfter] at h
  split at h
  · cases h
  · split at h
    · cases h
    · rename_i hb
      split at h
      · cases h
      · split at h
        · cases h; exact st_putNew S hi (good_of_blankNew S hb)
        · split at h
          · cases h; exact st_putNew S hi (good_of_blankNew S hb)
          · cases h

theorem st_family {C : Compile} {P P' : Parsed} {i : Nat} {s : Str} {k : Int} {w : Nat} {a : Bool}
    (hi : Inv P) (h : appendToFamily o C P i s k w a = .ok P') : Inv P' := by
  rw [appendToFamily] at h
  split at h
  · cases h
  · exact st_listAfterObj S hi h

theorem st_insertAt {P P' : Parsed} {k : Int} {new : Str} (hi : Inv P) (hg : Good new)
    (h : insertAt o P k new = .ok P') : Inv P' := by
  rw [insertAt] at h
  split at h
  · cases h
  · cases h
    exact S.renum _ (S.add P o new _ hi hg (fun x hx => (mem_pyInsert.mp hx).symm))

theorem st_appendLine {P P' : Parsed} {new : Str} (hi : Inv P)
    (h : appendLine o P new = .ok P') : Inv P' := by
  rw [appendLine] at h
  split at h
  · cases h
  · refine st_atomic S (S.add P {} defaultText _ hi (S.ok _ (Or.inr (by decide))) ?_) h
    intro x hx
    rcases List.mem_append.mp hx with h | h
    · exact Or.inl h
    · exact Or.inr (List.mem_singleton.mp h)

theorem st_insertAfterKids {C : Compile} {child : Rx} {excl : Option Rx} {new : Str} {a : Bool}
    {cs : List Nat} {P P' : Parsed} (hi : Inv P)
    (h : insertAfterKids o C child excl new a cs P = .ok P') : Inv P' := by
  induction cs generalizing P with
  | nil => rw [insertAfterKids] at h; cases h; exact hi
  | cons c cs ih =>
    rw [insertAfterKids] at h
    split at h
    · exact ih hi h
    · split at h
      · cases hd : listInsertAfterObj o C P c new with
        | error e => rw [hd] at h; cases h
        | ok Q =>
          rw [hd] at h
          have hq := st_listAfterObj S hi hd
          cases a with
          | false => exact ih hq h
          | true =>
            have h : (do let Q ← atomic o Q; insertAfterKids o C child excl new true cs Q) = .ok P' := h
            cases ha : atomic o Q with
            | error e => rw [ha] at h; cases h
            | ok R => rw [ha] at h; exact ih (st_atomic S hq ha) h
      · exact ih hi h

theorem st_insertAfterChildren {C : Compile} {child : Rx} {excl : Option Rx} {new : Str} {a : Bool}
    {ps : List Nat} {P P' : Parsed} (hi : Inv P)
    (h : insertAfterChildren o C child excl new a ps P = .ok P') : Inv P' := by
  induction ps generalizing P with
  | nil => rw [insertAfterChildren] at h; cases h; exact hi
  | cons p ps ih =>
    rw [insertAfterChildren] at h
    split at h
    · exact ih hi h
    · cases hd : insertAfterKids o C child excl new a (P.h p).children P with
      | error e => rw [hd] at h; cases h
      | ok Q => rw [hd] at h; exact ih (st_insertAfterKids S hi hd) h

theorem st_reSub {P P' : Parsed} {i : Nat} {sub : Str → Str} (hi : Inv P)
    (h : reSub o P i sub = .ok P') : Inv P' := by
  rw [reSub] at h
  split at h
  · exact st_delete S hi h
  · rename_i hb
    rw [List.isEmpty_iff] at hb
    cases h
    exact S.text _ _ _ _ hi (S.ok _ (Or.inr hb)) hb

theorem st_replaceEach {pick : Str → Bool} {sub : Str → Str} {is : List Nat} {P P' : Parsed}
    (hi : Inv P) (h : replaceEach o pick sub is P = .ok P') : Inv P' := by
  induction is generalizing P with
  | nil => rw [replaceEach] at h; cases h; exact hi
  | cons i is ih =>
    rw [replaceEach] at h
    split at h
    · cases hd : reSub o P i sub with
      | error e => rw [hd] at h; cases h
      | ok Q => rw [hd] at h; exact ih (st_reSub S hi hd) h
    · exact ih hi h

theorem st_finish {a : Bool} {P P' : Parsed} (hi : Inv P) (h : finish o a P = .ok P') : Inv P' := by
  rw [finish] at h
  split at h
  · exact st_atomic S hi h
  · cases h; exact hi

theorem st_replaceParents {kids : Parsed → Nat → List Nat} {child : Rx} {sub : Str → Str}
    {excl : Option Rx} {ps : List Nat} {P P' : Parsed} (hi : Inv P)
    (h : replaceParents o kids child sub excl ps P = .ok P') : Inv P' := by
  induction ps generalizing P with
  | nil => rw [replaceParents] at h; cases h; exact hi
  | cons p ps ih =>
    rw [replaceParents] at h
    split at h
    · cases hd : replaceEach o (fun t => notExcluded excl t && child.search t) sub (kids P p) P with
      | error e => rw [hd] at h; cases h
      | ok Q => rw [hd] at h; exact ih (st_replaceEach S hi hd) h
    · exact ih hi h

theorem st_run {C : Compile} {op : Op} {P P' : Parsed} (hi : Inv P) (hg : GoodOp Good op)
    (h : op.run o C P = .ok P') : Inv P' := by
  have kn : ∀ {i : Nat} {r : Except Err Parsed}, known P i r = .ok P' → r = .ok P' := by
    intro i r h
    rw [known] at h
    split at h
    · exact h
    · cases h
  cases op with
  | delete i r => exact st_delete S hi (kn h)
  | deleteLines rx => exact st_deleteEach S hi h
  | deleteChildrenMatching i rx =>
    have h := kn h
    rw [deleteChildrenMatching] at h
    split at h
    · cases h
    · exact st_deleteEach S hi h
  | delItem k =>
    have h : delItem o P k = .ok P' := h
    rw [delItem] at h
    cases hd : delAt P.list k with
    | error e => rw [hd] at h; cases h
    | ok l => rw [hd] at h; exact st_atomic S (S.drop _ _ hi (delAt_sub hd)) h
  | listInsertBefore rx new => exact st_listBefore S hi h
  | listInsertAfter rx new => exact st_listAfter S hi h
  | insertBefore f rx new k a => exact st_insertBefore S hi h
  | insertAfter f rx new k a => exact st_insertAfter S hi h
  | objInsertBefore i new => exact st_objBefore S hi (kn h)
  | objInsertAfter i new => exact st_objAfter S hi (kn h)
  | appendToFamily i s k w a => exact st_family S hi (kn h)
  | insertAt k new => exact st_insertAt S hi hg h
  | prependLine new => exact st_insertAt S hi hg h
  | appendLine new => exact st_appendLine S hi h
  | insertAfterChild p c e new a => exact st_insertAfterChildren S hi h
  | reSub i sub => exact st_reSub S hi (kn h)
  | replaceLines f sub e a =>
    have h : replaceLines o P f sub e a = .ok P' := h
    rw [replaceLines] at h
    cases hd : replaceEach o (notExcluded e) sub (findObjects P f) P with
    | error e => rw [hd] at h; cases h
    | ok Q => rw [hd] at h; exact st_finish S (st_replaceEach S hi hd) h
  | replaceChildren p c sub e a =>
    have h : replaceChildren o P p c sub e a = .ok P' := h
    rw [replaceChildren] at h
    cases hd : replaceParents o (fun Q i => (Q.h i).children) c sub e (findObjects P p) P with
    | error e => rw [hd] at h; cases h
    | ok Q => rw [hd] at h; exact st_finish S (st_replaceParents S hi hd) h
  | replaceAllChildren p c sub e a =>
    have h : replaceAllChildren o P p c sub e a = .ok P' := h
    rw [replaceAllChildren] at h
    cases hd : replaceParents o twoLevels c sub e (findObjects P p) P with
    | error e => rw [hd] at h; cases h
    | ok Q => rw [hd] at h; exact st_finish S (st_replaceParents S hi hd) h
  | commit => exact st_atomic S hi h

end stable

/-! ## Reachable states are well-formed -/

theorem wf_stable (o : Opts) : Stable o (fun _ => True) Wf where
  ok := fun _ _ => trivial
  drop := fun P l h hl => ⟨fun i hi => h.list i (hl.subset hi), h.kids⟩
  renum := fun P h => wf_reassign h
  add := by
    intro P o' new l h _ hl
    refine ⟨?_, ?_⟩
    · intro i hi
      show i < P.n + 1
      rcases hl i hi with h1 | h1
      · have := h.list i h1; omega
      · omega
    · intro i hi c hc
      have hi : i < P.n + 1 := hi
      show i < c ∧ c < P.n + 1
      by_cases he : i = P.n
      · have hc : c ∈ (upd P.h P.n (fun _ => newObj o' new P.n) i).children := hc
        rw [upd, if_pos he] at hc
        exact absurd hc (by simp [newObj, mkObj])
      · have hc : c ∈ (upd P.h P.n (fun _ => newObj o' new P.n) i).children := hc
        rw [upd, if_neg he] at hc
        have := h.kids i (by omega) c hc
        omega
  text := by
    intro P i t c h _ _
    refine ⟨h.list, ?_⟩
    intro j hj d hd
    have hd : d ∈ (upd P.h i (fun b => { b with text := t, isComment := c }) j).children := hd
    refine h.kids j hj d ?_
    rw [upd] at hd
    split at hd
    · rename_i e; rw [e]; exact hd
    · exact hd
  parse := fun P Q h hq => wf_embed h (wf_bootstrap hq)

theorem wf_parse {o : Opts} {lines : List Str} {P : Parsed} (h : parse o lines = .ok P) : Wf P :=
  wf_bootstrap (lines := preFilter o lines) h

theorem wf_reach {o : Opts} {C : Compile} {P : Parsed} (h : Spec.Reach o C P) : Wf P := by
  induction h with
  | parse h => exact wf_parse h
  | edit op _ h ih =>
    refine st_run (wf_stable o) ih ?_ h
    cases op <;> trivial

end Edit

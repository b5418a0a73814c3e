import Verif.Query.Blocks
import Verif.Edit.Props

/-! # C235: after `commit` the searches answer as for a configuration parsed afresh -/

namespace Edit.Spec

open Py Conf Query

/-- The searches that return lines, for any expressions. -/
inductive Question : (Parsed → List Nat) → Prop where
  | simple {q : Parsed → List Nat} : Query.Spec.Search q → Question q
  | kids (p : Rx) : Question (fun P => findChildren P p)
  | family (p : Rx) : Question (fun P => findAllChildren P p)
  | blocks (p : Rx) : Question (fun P => findBlocks P p)
  | below (p c : Rx) : Question (fun P => findChildrenWParents P p c)
  | parentsOf (p : Rx) (cs : List Rx) (r : Bool) : Question (fun P => findParentObjectsList P p r cs [])
  | childrenOf (p : Rx) (cs : List Rx) (r : Bool) : Question (fun P => findChildObjectsList P p r cs)

/-- The texts on each branch that `find_object_branches` returns. -/
def branches (P : Parsed) (ls : List Level) : Except Err (List (List (Option Str))) :=
  (findObjectBranches P ls).map (fun bs => bs.map (fun b => b.map (fun k => k.map (fun i => (P.h i).text))))

end Edit.Spec

namespace Edit

open Py Conf Query

variable {o : Opts} {P Q : Parsed}

theorem set_embed (l : List Nat) : setObjs (embed P Q).h (l.map (· + P.n)) = (setObjs Q.h l).map (· + P.n) := by
  rw [setObjs, setObjs, Intf.dedupBy_map (e' := fun a b => objEq (Q.h a) (Q.h b))]
  intro a b; rw [embed_new, embed_new]; rfl

theorem sort_embed (l : List Nat) : sortObjs (embed P Q).h (l.map (· + P.n)) = (sortObjs Q.h l).map (· + P.n) := by
  rw [sortObjs, sortObjs, Intf.sortBy_map (le' := fun a b => decide ((Q.h a).linenum ≤ (Q.h b).linenum))]
  intro a b; rw [embed_new, embed_new]; rfl

theorem text_embed (i : Nat) : ((embed P Q).h (i + P.n)).text = (Q.h i).text := by rw [embed_new]; rfl

theorem kids_embed (i : Nat) : ((embed P Q).h (i + P.n)).children = (Q.h i).children.map (· + P.n) := by rw [embed_new]; rfl

theorem parent_embed (i : Nat) : ((embed P Q).h (i + P.n)).parent = (Q.h i).parent + P.n := by rw [embed_new]; rfl

theorem filter_embed (p : Str → Bool) (l : List Nat) :
    (l.map (· + P.n)).filter (fun i => p ((embed P Q).h i).text) = (l.filter (fun i => p (Q.h i).text)).map (· + P.n) := by
  rw [List.filter_map]
  congr 1
  refine List.filter_congr (fun i _ => ?_)
  show p ((embed P Q).h (i + P.n)).text = _
  rw [text_embed]

theorem found_embed (rx : Rx) : findObjects (embed P Q) rx = (findObjects Q rx).map (· + P.n) := filter_embed rx.search Q.list

theorem found_lt (hw : Wf Q) {rx : Rx} {i : Nat} (h : i ∈ findObjects Q rx) : i < Q.n := hw.list i (List.mem_filter.mp h).1

theorem below_embed (hw : Wf Q) {i : Nat} (hi : i < Q.n) (r : Bool) :
    (if r then allChildren (embed P Q) (i + P.n) else ((embed P Q).h (i + P.n)).children) =
      (if r then allChildren Q i else (Q.h i).children).map (· + P.n) := by
  cases r
  · exact kids_embed i
  · exact all_embed hw hi

theorem rsc_embed (hw : Wf Q) {i : Nat} (hi : i < Q.n) (rx : Rx) (r : Bool) :
    reSearchChildren (embed P Q) (i + P.n) rx r = (reSearchChildren Q i rx r).map (· + P.n) := by
  rw [reSearchChildren, reSearchChildren, below_embed hw hi]
  exact filter_embed (reSearch rx) _

/-- Filtering the found lines by something that does not see the shift. -/
theorem pick_embed (hw : Wf Q) (rx : Rx) {f g : Nat → Bool} (h : ∀ i < Q.n, f (i + P.n) = g i) :
    (findObjects (embed P Q) rx).filter f = ((findObjects Q rx).filter g).map (· + P.n) := by
  rw [found_embed, List.filter_map]
  congr 1
  exact List.filter_congr (fun i hi => h i (found_lt hw hi))

theorem gather_embed {l : List Nat} {f g : Nat → List Nat} (h : ∀ i ∈ l, f (i + P.n) = (g i).map (· + P.n)) :
    (l.map (· + P.n)).flatMap f = (l.flatMap g).map (· + P.n) := by
  rw [List.flatMap_map, List.map_flatMap, List.flatMap_def, List.flatMap_def]
  congr 1
  exact List.map_congr_left h

theorem parents_embed_aux {R : Parsed} (hup : ∀ i < Q.n, (Q.h i).parent ≤ i) (hR : R = embed P Q) :
    ∀ (f g i : Nat), i < Q.n → i < f → i < g → parentsUp R.h f (i + P.n) = (parentsUp Q.h g i).map (· + P.n)
  | 0, _, i, _, h2, _ => by omega
  | _ + 1, 0, i, _, _, h3 => by omega
  | f + 1, g + 1, i, h1, h2, h3 => by
    subst hR
    rw [parentsUp, parentsUp, parent_embed, embed_new, embed_new]
    show (if objEq (Q.h (Q.h i).parent) (Q.h i) = true then _ else _) = _
    by_cases he : objEq (Q.h (Q.h i).parent) (Q.h i) = true
    · rw [if_pos he, if_pos he]; rfl
    · have hne : (Q.h i).parent ≠ i := fun e => he (by rw [e]; exact objEq_refl _ _)
      have := hup i h1
      rw [if_neg he, if_neg he, parents_embed_aux hup rfl f g _ (by omega) (by omega) (by omega)]
      rfl

theorem parents_embed (hup : ∀ i < Q.n, (Q.h i).parent ≤ i) {i : Nat} (hi : i < Q.n) :
    allParents (embed P Q) (i + P.n) = (allParents Q i).map (· + P.n) := by
  rw [allParents, allParents, parents_embed_aux hup rfl (embed P Q).n Q.n i hi (by show i < P.n + Q.n; omega) hi, set_embed, sort_embed]

theorem tidy_embed (l : List Nat) : sortObjs (embed P Q).h (setObjs (embed P Q).h (l.map (· + P.n))) =
    (sortObjs Q.h (setObjs Q.h l)).map (· + P.n) := by
  rw [set_embed, sort_embed]

theorem isEmpty_map' (l : List Nat) : (l.map (· + P.n)).isEmpty = l.isEmpty := by cases l <;> rfl

theorem search_embed (hw : Wf Q) {q : Parsed → List Nat} (hq : Query.Spec.Search q) :
    q (embed P Q) = (q Q).map (· + P.n) := by
  cases hq with
  | objects p => exact found_embed p
  | parents p c r =>
    refine pick_embed hw p (fun i hi => ?_)
    rw [rsc_embed hw hi, isEmpty_map']
  | without p c r =>
    refine pick_embed hw p (fun i hi => ?_)
    rw [rsc_embed hw hi, isEmpty_map']
  | all p cs r =>
    refine pick_embed hw p (fun i hi => ?_)
    refine congrArg cs.all (funext fun c => ?_)
    rw [rsc_embed hw hi, isEmpty_map']
  | missing p cs =>
    refine pick_embed hw p (fun i hi => ?_)
    refine congrArg cs.any (funext fun c => ?_)
    rw [rsc_embed hw hi, isEmpty_map']
  | children p c r =>
    show findChildObjects _ p c r = _
    simp only [findChildObjects]
    rw [found_embed, gather_embed, tidy_embed]
    intro i hi
    rw [below_embed hw (found_lt hw hi)]
    exact filter_embed (reMatch c) _

theorem parentsList_embed (hw : Wf Q) (p : Rx) (r : Bool) (cs : List Rx) (acc : List Nat) :
    findParentObjectsList (embed P Q) p r cs (acc.map (· + P.n)) = (findParentObjectsList Q p r cs acc).map (· + P.n) := by
  induction cs generalizing acc with
  | nil => exact tidy_embed acc
  | cons c cs ih =>
    have e : findParentObjects (embed P Q) p c r = (findParentObjects Q p c r).map (· + P.n) := search_embed hw (.parents p c r)
    rw [findParentObjectsList, findParentObjectsList, e]
    by_cases h : findParentObjects Q p c r = []
    · rw [h]; rfl
    · simp only [List.map_eq_nil_iff, if_neg h]
      rw [← List.map_append, ih]

theorem childList_embed (hw : Wf Q) (p : Rx) (r : Bool) (cs : List Rx) :
    findChildObjectsList (embed P Q) p r cs = (findChildObjectsList Q p r cs).map (· + P.n) := by
  induction cs with
  | nil => rfl
  | cons c cs ih =>
    have e : findChildObjects (embed P Q) p c r = (findChildObjects Q p c r).map (· + P.n) := search_embed hw (.children p c r)
    cases cs with
    | nil => exact e
    | cons c' cs =>
      show (if findChildObjects (embed P Q) p c r = [] then [] else findChildObjectsList (embed P Q) p r (c' :: cs)) =
        (if findChildObjects Q p c r = [] then [] else findChildObjectsList Q p r (c' :: cs)).map (· + P.n)
      rw [e, ih]
      by_cases h : findChildObjects Q p c r = []
      · rw [h]; rfl
      · simp only [List.map_eq_nil_iff, if_neg h]

theorem question_embed (hw : Wf Q) (hup : ∀ i < Q.n, (Q.h i).parent ≤ i) (hkid : ∀ i < Q.n, (Q.h i).parent < Q.n)
    {q : Parsed → List Nat} (hq : Spec.Question q) : q (embed P Q) = (q Q).map (· + P.n) := by
  cases hq with
  | simple h => exact search_embed hw h
  | kids p =>
    show findChildren _ p = _
    simp only [findChildren]
    rw [found_embed, gather_embed, tidy_embed]
    intro i _
    rw [kids_embed, List.map_append]; rfl
  | family p =>
    show findAllChildren _ p = _
    simp only [findAllChildren]
    rw [found_embed, gather_embed, tidy_embed]
    intro i hi
    rw [all_embed hw (found_lt hw hi)]; rfl
  | blocks p =>
    show findBlocks _ p = _
    simp only [findBlocks]
    rw [found_embed, gather_embed (g := fun i => i :: (Q.h (Q.h i).parent).children), set_embed, gather_embed (g := allParents Q),
      ← List.map_append, tidy_embed]
    · intro i hi
      refine parents_embed hup ?_
      have := mem_of_mem_set hi
      obtain ⟨j, hj, hj'⟩ := List.mem_flatMap.mp this
      have hjn := found_lt hw hj
      rcases List.mem_cons.mp hj' with rfl | hc
      · exact hjn
      · exact (hw.kids _ (hkid j hjn) i hc).2
    · intro i _
      rw [parent_embed, kids_embed]; rfl
  | below p c =>
    show findChildrenWParents _ p c = _
    simp only [findChildrenWParents]
    rw [pick_embed hw c (g := fun i => (allParents Q i).any (fun q => p.search (Q.h q).text)), tidy_embed]
    intro i hi
    rw [parents_embed hup hi, List.any_map]
    refine congrArg (allParents Q i).any (funext fun j => ?_)
    show p.search ((embed P Q).h (j + P.n)).text = _
    rw [text_embed]
  | parentsOf p cs r => exact parentsList_embed hw p r cs []
  | childrenOf p cs r => exact childList_embed hw p r cs

theorem matching_embed (parent : Option Nat) (l : Level) :
    matchingChildren (embed P Q) (parent.map (· + P.n)) l = (matchingChildren Q parent l).map (Option.map (· + P.n)) := by
  have e : candidates (embed P Q) (parent.map (· + P.n)) l = (candidates Q parent l).map (· + P.n) := by
    cases parent with
    | none => exact found_embed l.plain
    | some i => exact kids_embed i
  simp only [matchingChildren]
  rw [e, filter_embed l.flagged.search]
  by_cases h : (candidates Q parent l).filter (fun c => l.flagged.search (Q.h c).text) = []
  · rw [h]; rfl
  · simp only [List.map_eq_nil_iff, if_neg h]
    rw [List.map_map, List.map_map]; rfl

theorem grow_embed (l : Level) (bs : List (List (Option Nat))) :
    growBranches (embed P Q) l (bs.map (List.map (Option.map (· + P.n)))) =
      (growBranches Q l bs).map (List.map (Option.map (· + P.n))) := by
  rw [growBranches, growBranches, List.flatMap_map, List.map_flatMap]
  refine congrArg (fun f => List.flatMap f bs) (funext fun b => ?_)
  rw [List.getLast?_map]
  rcases b.getLast? with _ | _ | i
  · simp
  · simp
  · simp only [Option.map_some]
    have := matching_embed (P := P) (Q := Q) (some i) l
    rw [Option.map_some] at this
    rw [this, List.map_map, List.map_map]
    refine List.map_congr_left (fun k _ => ?_)
    simp

theorem branches_embed (ls : List Level) : Spec.branches (embed P Q) ls = Spec.branches Q ls := by
  rcases ls with _ | ⟨l, _ | ⟨l', ls⟩⟩
  · rfl
  · rfl
  · have hf : ∀ (ls : List Level) (bs : List (List (Option Nat))),
        ls.foldl (fun bs l => growBranches (embed P Q) l bs) (bs.map (List.map (Option.map (· + P.n)))) =
          (ls.foldl (fun bs l => growBranches Q l bs) bs).map (List.map (Option.map (· + P.n))) := by
      intro ls
      induction ls with
      | nil => intro bs; rfl
      | cons l ls ih => intro bs; rw [List.foldl_cons, List.foldl_cons, grow_embed, ih]
    have h0 : (matchingChildren (embed P Q) none l).map (fun k => [k]) =
        ((matchingChildren Q none l).map (fun k => [k])).map (List.map (Option.map (· + P.n))) := by
      have := matching_embed (P := P) (Q := Q) none l
      rw [Option.map_none] at this
      rw [this, List.map_map, List.map_map]; rfl
    have e : findObjectBranches (embed P Q) (l :: l' :: ls) =
        (findObjectBranches Q (l :: l' :: ls)).map (fun bs => bs.map (List.map (Option.map (· + P.n)))) := by
      show Except.ok ((l' :: ls).foldl _ _) = Except.ok (List.map _ ((l' :: ls).foldl _ _))
      rw [h0, hf]
    rw [Spec.branches, Spec.branches, e]
    show Except.ok _ = Except.ok _
    congr 1
    show List.map _ (List.map _ _) = List.map _ _
    rw [List.map_map]
    refine List.map_congr_left (fun b _ => ?_)
    show List.map _ (List.map _ b) = _
    rw [List.map_map]
    refine List.map_congr_left (fun k _ => ?_)
    cases k with
    | none => rfl
    | some i => exact congrArg some (text_embed i)

theorem fresh_parse {l : List Str} (hb : Spec.NoBlank o l) : parse o l = bootstrap o l := by
  rcases hb with hb | hb
  · rw [parse, input_eq, Conf.Spec.input, hb]; rfl
  · exact texts_parse (fun t ht e => hb t ht (by rw [e]; exact fun _ h => by cases h))

theorem fresh_tree {l : List Str} (h : bootstrap o l = .ok Q) (hb : Spec.NoBlank o l) :
    (∀ i < Q.n, (Q.h i).parent ≤ i) ∧ ∀ i < Q.n, (Q.h i).parent < Q.n := by
  have ht := tree_of_parse ((fresh_parse hb).trans h)
  have hl := list_full h (keep_of_noBlank hb)
  obtain ⟨_, _, hn, _, _⟩ := bootstrap_ok h
  have hin : ∀ i < Q.n, i ∈ Q.list := fun i hi => by rw [hl, List.mem_range]; omega
  exact ⟨fun i hi => (ht.up i (hin i hi)).2, fun i hi => by have := (ht.up i (hin i hi)).2; omega⟩

/-- C235: whatever edits were made before `commit`, each search then finds the lines that it finds in a configuration parsed
afresh from the lines that there are.  Partial: no line is blank (or blank lines are kept). -/
theorem C235_fresh_partial {P' : Parsed} {q : Parsed → List Nat} (h : atomic o P = .ok P') (hb : Spec.NoBlank o P.texts)
    (hQ : parse o P.texts = .ok Q) (hq : Spec.Question q) : Query.Spec.found q P' = Query.Spec.found q Q := by
  obtain ⟨R, hR, rfl⟩ := atomic_shape h
  rw [fresh_parse hb, hR] at hQ
  cases hQ
  obtain ⟨h1, h2⟩ := fresh_tree hR hb
  rw [Query.Spec.found, question_embed (wf_bootstrap hR) h1 h2 hq, Query.Spec.found, List.map_map]
  exact List.map_congr_left (fun i _ => text_embed i)

/-- C235: so do the searches for branches. -/
theorem C235_branches_partial {P' : Parsed} (h : atomic o P = .ok P') (hb : Spec.NoBlank o P.texts)
    (hQ : parse o P.texts = .ok Q) (ls : List Level) : Spec.branches P' ls = Spec.branches Q ls := by
  obtain ⟨R, hR, rfl⟩ := atomic_shape h
  rw [fresh_parse hb, hR] at hQ
  cases hQ
  exact branches_embed ls

/-- C235: so does `find_lineage`, with the same errors. -/
theorem C235_lineage_partial {P' : Parsed} (h : atomic o P = .ok P') (hb : Spec.NoBlank o P.texts)
    (hQ : parse o P.texts = .ok Q) (rx : Rx) : findLineage P' rx = findLineage Q rx := by
  obtain ⟨R, hR, rfl⟩ := atomic_shape h
  rw [fresh_parse hb, hR] at hQ
  cases hQ
  obtain ⟨h1, h2⟩ := fresh_tree hR hb
  have hw := wf_bootstrap hR
  have hlt : ∀ i ∈ findObjects Q rx, i < Q.n := fun i hi => found_lt hw hi
  rw [findLineage, findLineage, found_embed]
  rcases hf : findObjects Q rx with _ | ⟨i, _ | ⟨j, l⟩⟩
  · rfl
  · have hi : i < Q.n := hlt i (by rw [hf]; simp)
    have e : lineage (embed P Q) (i + P.n) = (lineage Q i).map (· + P.n) := by
      simp only [lineage]
      rw [parents_embed h1 hi, all_embed hw hi, kids_embed]
      by_cases hk : (Q.h i).children = []
      · rw [hk]
        simp only [List.map_nil, ne_eq, not_true, if_false]
        rw [← sort_embed, List.map_append]; rfl
      · rw [if_pos (by simpa using hk), if_pos hk, ← sort_embed, List.map_append, List.map_append]; rfl
    show Except.ok _ = Except.ok _
    rw [e, List.map_map]
    congr 1
    exact List.map_congr_left (fun i _ => text_embed i)
  · rfl

/-- C235: an empty line that is put into a macro is found after `commit`, and not in a configuration parsed afresh from the
same lines. -/
theorem C235_macro_fails : ∃ P P' P'' Q, parse {} [s "macro name a", s "b", s "@"] = .ok P ∧ insertAt {} P 1 (s " ") = .ok P' ∧
    atomic {} P' = .ok P'' ∧ P''.texts = P'.texts ∧ parse {} P'.texts = .ok Q ∧
    Query.Spec.found (fun P => findAllChildren P (lit "a")) P'' = [s "macro name a", [], s "b", s "@"] ∧
    Query.Spec.found (fun P => findAllChildren P (lit "a")) Q = [s "macro name a", s "b", s "@"] :=
  ⟨_, _, _, _, rfl, rfl, rfl, by decide +kernel, rfl, by decide +kernel, by decide +kernel⟩

/-- A line is inserted under an interface; the answers change with `commit`. -/
example : ∃ P P' P'' Q, parse {} [s "interface a", s "b"] = .ok P ∧ insertAt {} P 1 (s " n") = .ok P' ∧
    atomic {} P' = .ok P'' ∧ Spec.NoBlank {} P'.texts ∧ parse {} P'.texts = .ok Q ∧
    Query.Spec.found (fun P => findChildren P (lit "int")) P' = [s "interface a"] ∧
    Query.Spec.found (fun P => findChildren P (lit "int")) P'' = [s "interface a", s " n"] ∧
    findLineage P'' (lit "n") = .error .valueError ∧
    findLineage P'' (lit " n") = .ok [s "interface a", s " n"] ∧
    Spec.branches P'' [⟨lit "int", lit "int"⟩, ⟨lit "n", lit "n"⟩] = .ok [[some (s "interface a"), some (s " n")]] := by
  refine ⟨_, _, _, _, rfl, rfl, rfl, Or.inr ?_, rfl, by decide +kernel, by decide +kernel, by decide +kernel, by decide +kernel, by decide +kernel⟩
  intro t ht
  have : t = s "interface a" ∨ t = s " n" ∨ t = s "b" := by
    revert ht
    show t ∈ [s "interface a", s " n", s "b"] → _
    simp
  intro hb
  rcases this with rfl | rfl | rfl
  · exact absurd (hb 'i' (by decide)) (by decide)
  · exact absurd (hb 'n' (by decide)) (by decide)
  · exact absurd (hb 'b' (by decide)) (by decide)

end Edit

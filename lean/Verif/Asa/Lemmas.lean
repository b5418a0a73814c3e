import Verif.Asa.Model
import Verif.Asa.Spec
import Verif.Cisco.Tails
import Verif.Cisco.FactoryProps
import Verif.Query.Lemmas

/-! # Lemmas on the ASA dictionaries -/

namespace Asa

open Py Conf Query Re Cisco

/-! ## Dictionaries -/

theorem lookup_append {α : Type} (d e : List (Str × α)) (k : Str) :
    (d ++ e).lookup k = (d.lookup k).or (e.lookup k) := by
  induction d with
  | nil => rfl
  | cons q d ih =>
    obtain ⟨k', v⟩ := q
    rw [List.cons_append, List.lookup_cons, List.lookup_cons]
    cases h : k == k' with
    | true => rfl
    | false => exact ih

theorem lookup_none {α : Type} {d : List (Str × α)} {k : Str} : d.lookup k = none ↔ k ∉ d.map Prod.fst := by
  induction d with
  | nil => simp
  | cons q d ih =>
    obtain ⟨k', v⟩ := q
    rw [List.lookup_cons]
    cases h : k == k' with
    | true => simp [beq_iff_eq.mp h]
    | false =>
      have : k ≠ k' := fun e => by simp [e] at h
      simp [ih, this]

theorem lookup_put {α : Type} (d : List (Str × α)) (k : Str) (v : α) (k' : Str) :
    (put d k v).lookup k' = if k' = k then some v else d.lookup k' := by
  rw [put]
  split
  · rename_i h
    induction d with
    | nil => simp at h
    | cons q d ih =>
      obtain ⟨k0, v0⟩ := q
      by_cases e0 : k0 = k
      · subst e0
        have hm : ∀ d : List (Str × α), k' ≠ k0 → (d.map (fun q => if q.1 = k0 then (k0, v) else q)).lookup k' = d.lookup k' := by
          intro d hk
          induction d with
          | nil => rfl
          | cons q d ih =>
            obtain ⟨k1, v1⟩ := q
            rw [List.map_cons]
            by_cases e1 : k1 = k0
            · subst e1
              simp only [if_true]
              rw [List.lookup_cons, List.lookup_cons]
              have : (k' == k1) = false := by simpa using hk
              rw [this]
              exact ih
            · rw [if_neg e1, List.lookup_cons, List.lookup_cons, ih]
        rw [List.map_cons]
        simp only [if_true]
        rw [List.lookup_cons, List.lookup_cons]
        by_cases e : k' = k0
        · simp [e]
        · have : (k' == k0) = false := by simpa using e
          rw [this, if_neg e]
          exact hm d e
      · rw [List.map_cons, if_neg e0, List.lookup_cons, List.lookup_cons]
        have hk : (k == k0) = false := by simpa using fun e : k = k0 => e0 e.symm
        rw [List.lookup_cons, hk] at h
        rw [ih h]
        by_cases e : k' = k0
        · have : k' ≠ k := fun e' => e0 (e.symm.trans e')
          simp [e, e0]
        · have : (k' == k0) = false := by simpa using e
          rw [this]
  · rename_i h
    rw [lookup_append]
    have hk : d.lookup k = none := by
      cases hx : d.lookup k with
      | none => rfl
      | some v => rw [hx] at h; exact absurd rfl h
    by_cases e : k' = k
    · subst e
      simp [hk]
    · rw [if_neg e]
      have : (k' == k) = false := by simpa using e
      rw [List.lookup_cons, this]
      simp

theorem keys_put {α : Type} {d : List (Str × α)} (h : (d.map Prod.fst).Nodup) (k : Str) (v : α) :
    ((put d k v).map Prod.fst).Nodup := by
  rw [put]
  split
  · have : (d.map (fun q => if q.1 = k then (k, v) else q)).map Prod.fst = d.map Prod.fst := by
      rw [List.map_map]
      apply List.map_congr_left
      intro q _
      simp only [Function.comp]
      split
      · rename_i e; exact e.symm
      · rfl
    rw [this]
    exact h
  · rename_i hk
    have hk' : d.lookup k = none := by
      cases hx : d.lookup k with
      | none => rfl
      | some v => rw [hx] at hk; exact absurd rfl hk
    rw [List.map_append, List.nodup_append]
    refine ⟨h, by simp, ?_⟩
    intro a ha b hb e
    simp only [List.map_cons, List.map_nil, List.mem_singleton] at hb
    subst hb e
    exact lookup_none.mp hk' ha

/-- Assigning one after the other. -/
def putAll {α : Type} (d : List (Str × α)) (l : List (Str × α)) : List (Str × α) := l.foldl (fun d q => put d q.1 q.2) d

theorem keys_putAll {α : Type} (l : List (Str × α)) {d : List (Str × α)} (h : (d.map Prod.fst).Nodup) :
    ((putAll d l).map Prod.fst).Nodup := by
  induction l generalizing d with
  | nil => exact h
  | cons q l ih => exact ih (keys_put h _ _)

theorem lookup_putAll {α : Type} (l d : List (Str × α)) (k : Str) :
    (putAll d l).lookup k = (l.reverse.lookup k).or (d.lookup k) := by
  induction l generalizing d with
  | nil => rfl
  | cons q l ih =>
    obtain ⟨k', v⟩ := q
    rw [putAll, List.foldl_cons]
    refine (ih _).trans ?_
    rw [lookup_put, List.reverse_cons, lookup_append, Option.or_assoc]
    congr 1
    rw [List.lookup_cons]
    by_cases e : k = k'
    · simp [e]
    · have : (k == k') = false := by simpa using e
      simp [e, this]

/-! ## The expressions -/

theorem find_det {rx : String} {p : Prog} {n : Nat} {names : List (Str × Nat)} (h : Is rx p n names) (P : Parsed) :
    liftBad (findObjectsT P rx.toList false false) = .ok (P.list.filter (fun i => (p.det (P.h i).text []).isSome)) := by
  have hc : compileL rx.toList = .ok ⟨seqs (.bol :: p.toL), n, names⟩ := h.1
  rw [findObjectsT, exactSpec, wsSpec, if_neg (by decide), if_neg (by decide), textRx, hc]
  show Except.ok (findObjects P _) = _
  rw [findObjects]
  congr 2
  funext i
  show (findIn _ _).isSome = _
  rw [findIn, search_bol p h.2]
  cases p.det (P.h i).text [] <;> rfl

theorem typed_det {rx : String} {p : Prog} {n : Nat} {names : List (Str × Nat)} (h : Is rx p n names) {k : Nat} (h0 : k ≠ 0)
    (hk : k ≤ n) {t v : Str} {q : Str × Caps} (hq : p.det t [] = some q) (hv : q.2.lookup k = some v) :
    matchTyped t rx k toStr [] = .ok v := by
  rw [matchTyped, reSearch_det h, hq]
  show (do match ← Found.group _ _ k with
      | some s => toStr (some s)
      | none => Except.ok []) = _
  rw [Found.group, if_neg h0, if_pos hk, hv]
  rfl

/-- The expression for names. -/
def namesP : Prog :=
  .star .space (words [("name".toList)] (.grp 1 (quad .done) (.plus .space (.grp 2 (.plus .nonspace .done) .done))))

theorem is_names : Is reNames namesP 2 [] := by decide +kernel

theorem word_name : ∀ w ∈ ["name".toList], IsWord w := by
  intro w hw
  rw [List.mem_singleton] at hw
  subst hw
  exact isWord_iff.mp (by decide)

theorem names_det (t : Str) (q : Str × Caps) :
    (namesP.det t [] = some q → ∃ a n, Spec.NameLine t a n ∧ q.2.lookup 1 = some a ∧ q.2.lookup 2 = some n) ∧
    (∀ a n, Spec.NameLine t a n → ∃ q, namesP.det t [] = some q ∧ q.2.lookup 1 = some a ∧ q.2.lookup 2 = some n) := by
  have hl := fun q => det_lead word_name (.grp 1 (quad .done) (.plus .space (.grp 2 (.plus .nonspace .done) .done)))
    (fun _ => rfl) t [] q
  have key : ∀ q, (Prog.grp 1 (quad .done) (.plus .space (.grp 2 (.plus .nonspace .done) .done))).det
      (skip 1 (lstrip t)) [] = some q ↔ ∃ a n more, splitWs (skip 1 (lstrip t)) = a :: n :: more ∧ Cisco.Spec.DottedQuad a ∧
        (Prog.done).det (((lstrip (skip 1 (lstrip t) |>.dropWhile nsp))).dropWhile nsp) [(2, n), (1, a)] = some q := by
    intro q
    generalize hr : skip 1 (lstrip t) = r
    have h0 : lstrip r = r := by rw [← hr]; exact lstrip_skip 1 (lstrip_lstrip t)
    by_cases hne : r = []
    · subst hne
      constructor
      · intro h; cases h
      · rintro ⟨a, n, more, h, _⟩; cases h
    · obtain ⟨e1, e2, e3⟩ := split_word h0 hne
      have e4 := splitWs_cons h0 hne
      have hq := det_cap_quad e2 e3 1 (.plus .space (.grp 2 (.plus .nonspace .done) .done)) (sp_nonspace _) [] q
      rw [← e1] at hq
      rw [hq, det_sp _ e3, e4]
      by_cases hx : r.dropWhile nsp = []
      · rw [if_pos hx, hx]
        constructor
        · rintro ⟨_, h⟩; cases h
        · rintro ⟨a, n, more, h, _⟩
          have := (List.cons.inj h).2
          simp [splitWs, splitWsAux] at this
      · rw [if_neg hx, det_word (lstrip_lstrip _), splitWs_lstrip]
        constructor
        · rintro ⟨h1, v, vs, h2, h3⟩
          exact ⟨_, v, vs, by rw [h2], h1, h3⟩
        · rintro ⟨a, n, more, h1, h2, h3⟩
          obtain ⟨ha, hb⟩ := List.cons.inj h1
          rw [ha]
          exact ⟨h2, n, more, hb, h3⟩
  have hsp : splitWs (skip 1 (lstrip t)) = (splitWs t).drop 1 := by
    rw [splitWs_skip 1 (lstrip_lstrip t), splitWs_lstrip]
  constructor
  · intro h
    obtain ⟨h1, h2⟩ := (hl q).mp h
    obtain ⟨a, n, more, h3, h4, h5⟩ := (key q).mp h2
    rw [Prog.det] at h5
    cases h5
    refine ⟨a, n, ⟨h4, more, ?_⟩, rfl, rfl⟩
    rw [hsp] at h3
    rw [prefix_append_drop h1]
    exact congrArg (_ ++ ·) h3
  · rintro a n ⟨h1, more, h2⟩
    refine ⟨(_, [(2, n), (1, a)]), (hl _).mpr ⟨⟨_, h2.symm⟩, (key _).mpr ⟨a, n, more, ?_, h1, rfl⟩⟩, rfl, rfl⟩
    rw [hsp, h2]
    rfl

/-- The expressions with one word behind words. -/
def nextP (ws : List Str) : Prog := .star .space (words ws (.grp 1 (.plus .nonspace .done) .done))

theorem next_det {l : List String} (hw : ∀ w ∈ Cisco.Spec.wd l, IsWord w) (t : Str) :
    (∀ q, (nextP (Cisco.Spec.wd l)).det t [] = some q → ∃ v, Cisco.Spec.Next l t v ∧ q.2.lookup 1 = some v) ∧
    (∀ v, Cisco.Spec.Next l t v → ∃ q, (nextP (Cisco.Spec.wd l)).det t [] = some q ∧ q.2.lookup 1 = some v) := by
  have hl := fun q => det_lead hw (.grp 1 (.plus .nonspace .done) .done) (fun _ => rfl) t [] q
  have hsp : splitWs (skip (Cisco.Spec.wd l).length (lstrip t)) = (splitWs t).drop (Cisco.Spec.wd l).length := by
    rw [splitWs_skip _ (lstrip_lstrip t), splitWs_lstrip]
  constructor
  · intro q h
    obtain ⟨h1, h2⟩ := (hl q).mp h
    obtain ⟨v, vs, h3, h4⟩ := (det_word (lstrip_skip _ (lstrip_lstrip t)) 1 .done [] q).mp h2
    rw [Prog.det] at h4
    cases h4
    rw [hsp] at h3
    exact ⟨v, ⟨vs, by rw [prefix_append_drop h1]; exact congrArg (_ ++ ·) h3⟩, rfl⟩
  · rintro v ⟨more, h⟩
    refine ⟨(_, [(1, v)]), (hl _).mpr ⟨⟨_, h.symm⟩, (det_word (lstrip_skip _ (lstrip_lstrip t)) 1 .done [] _).mpr ⟨v, more, ?_, rfl⟩⟩, rfl⟩
    rw [hsp, h]
    simp

theorem is_objNet : Is reObjNet (nextP (Cisco.Spec.wd ["object-group", "network"])) 1 [] := by decide +kernel

theorem is_objAcl : Is reObjAcl (nextP (Cisco.Spec.wd ["access-list"])) 1 [] := by decide +kernel

/-! ## The last line wins -/

/-- For a list of lines in order, the value of the last line with the key. -/
theorem lookup_last {α : Type} {P : Parsed} (ht : Tree P) {l : List Nat} (hl : Query.Spec.Ordered P l) {S : Nat → Str → α → Prop}
    (hS : ∀ i, i ∈ l ↔ i ∈ P.list ∧ ∃ k v, S i k v) {f : Nat → Str × α} (hf : ∀ i ∈ l, S i (f i).1 (f i).2)
    (hu : ∀ i k v k' v', S i k v → S i k' v' → k = k' ∧ v = v') (k : Str) :
    (((l.map f).reverse.lookup k) = none ↔ ∀ i ∈ P.list, ∀ v, ¬ S i k v) ∧
    ∀ v, ((l.map f).reverse.lookup k) = some v ↔ ∃ i, Spec.Last P (fun i => ∃ v, S i k v) i ∧ S i k v := by
  have hnone : ((l.map f).reverse.lookup k) = none ↔ ∀ i ∈ P.list, ∀ v, ¬ S i k v := by
    rw [lookup_none]
    simp only [List.map_reverse, List.map_map, List.mem_reverse, List.mem_map, Function.comp, not_exists, not_and]
    constructor
    · intro h i hi v hv
      have hil := (hS i).mpr ⟨hi, k, v, hv⟩
      exact h i hil (hu i _ _ _ _ (hf i hil) hv).1
    · intro h i hil e
      exact h i ((hS i).mp hil).1 (f i).2 (e ▸ hf i hil)
  have hsome : ∀ v, ((l.map f).reverse.lookup k) = some v → ∃ i, Spec.Last P (fun i => ∃ v, S i k v) i ∧ S i k v := by
    intro v hv
    have : ∀ (l : List Nat), Query.Spec.Ordered P l → ((l.map f).reverse.lookup k) = some v →
        ∃ i ∈ l, (f i).1 = k ∧ (f i).2 = v ∧ ∀ j ∈ l, (f j).1 = k → (P.h j).linenum ≤ (P.h i).linenum := by
      intro l
      induction l with
      | nil => intro _ h; cases h
      | cons i l ih =>
        intro ho h
        rw [List.map_cons, List.reverse_cons, lookup_append] at h
        have ho' := List.pairwise_cons.mp ho
        cases hx : (l.map f).reverse.lookup k with
        | some v' =>
          rw [hx] at h
          cases h
          obtain ⟨j, hj, e1, e2, e3⟩ := ih ho'.2 hx
          refine ⟨j, by simp [hj], e1, e2, ?_⟩
          intro j' hj' e
          rcases List.mem_cons.mp hj' with rfl | hj'
          · exact Int.le_of_lt (ho'.1 j hj)
          · exact e3 j' hj' e
        | none =>
          rw [hx] at h
          simp only [Option.none_or] at h
          obtain ⟨k', v', hfi⟩ : ∃ k' v', f i = (k', v') := ⟨_, _, rfl⟩
          rw [hfi, List.lookup_cons] at h
          cases hk : k == k' with
          | false => rw [hk] at h; cases h
          | true =>
            rw [hk] at h
            cases h
            refine ⟨i, by simp, by rw [hfi]; exact (beq_iff_eq.mp hk).symm, by rw [hfi], ?_⟩
            intro j hj e
            rcases List.mem_cons.mp hj with rfl | hj
            · exact Int.le_refl _
            · rw [lookup_none] at hx
              refine absurd ?_ hx
              rw [List.map_reverse, List.mem_reverse, List.map_map, List.mem_map]
              exact ⟨j, hj, e⟩
    obtain ⟨i, hi, e1, e2, e3⟩ := this l hl hv
    have hs := hf i hi
    rw [e1, e2] at hs
    refine ⟨i, ⟨((hS i).mp hi).1, ⟨v, hs⟩, ?_⟩, hs⟩
    rintro j hj ⟨v', hv'⟩
    have hjl := (hS j).mpr ⟨hj, k, v', hv'⟩
    exact e3 j hjl (hu j _ _ _ _ (hf j hjl) hv').1
  refine ⟨hnone, fun v => ⟨hsome v, ?_⟩⟩
  rintro ⟨i, ⟨hi, _, hlast⟩, hs⟩
  cases hx : (l.map f).reverse.lookup k with
  | none => exact absurd hs (hnone.mp hx i hi v)
  | some v' =>
    obtain ⟨i', ⟨hi', ⟨w, hw⟩, hlast'⟩, hs'⟩ := hsome v' hx
    have h1 := hlast i' hi' ⟨v', hs'⟩
    have h2 := hlast' i hi ⟨v, hs⟩
    rw [ht.num i hi, ht.num i' hi'] at h1 h2
    have : i = i' := by omega
    subst this
    rw [(hu i _ _ _ _ hs hs').2]

end Asa

import Verif.Query.Props
import Verif.Edit.Lemmas

/-! # C227: `hash_children` -/

namespace Query

open Py Conf

/-- ccp_abc.py:471-477 `hash_children`: the tuple whose hash it is, with 129-132 `__hash__` for its elements. As in `Conf.objEq`,
Python's hash is taken to be injective. -/
def hashChildren (P : Parsed) (i : Nat) : List Str :=
  if (allChildren P i).length > 0 then (allChildren P i).map (fun c => intStr (P.h c).linenum ++ (P.h c).text) else []

/-- The descendants, as numbers and texts. -/
def Spec.kin (P : Parsed) (i : Nat) : List (Int × Str) := (allChildren P i).map (fun c => ((P.h c).linenum, (P.h c).text))

variable {o o' : Opts} {lines lines' : List Str} {P Q : Parsed}

theorem hashChildren_eq (P : Parsed) (i : Nat) :
    hashChildren P i = (Spec.kin P i).map (fun x => intStr x.1 ++ x.2) := by
  rw [hashChildren, Spec.kin, List.map_map]
  split
  · rfl
  · rename_i h
    have e : allChildren P i = [] := List.length_eq_zero_iff.mp (by omega)
    rw [e]
    rfl

theorem key_inj {n m : Nat} {s t : Str} (hs : ∀ c, s.head? = some c → isDigit c = false)
    (ht : ∀ c, t.head? = some c → isDigit c = false) (h : natStr n ++ s = natStr m ++ t) : n = m ∧ s = t := by
  have e := natStr_inj (digits_append_inj (natStr_digits n) (natStr_digits m) hs ht h)
  subst e
  exact ⟨rfl, List.append_cancel_left h⟩

/-- A descendant has its own number and a text without leading digit. -/
theorem kin_ok (h : parse o lines = .ok P) (hd : Spec.KidsNoDigits P) {i : Nat} (hi : i ∈ P.list) :
    ∀ x ∈ Spec.kin P i, (∃ n : Nat, x.1 = n) ∧ ∀ c, x.2.head? = some c → isDigit c = false := by
  intro x hx
  have ht := tree_of_parse h
  rw [Spec.kin, List.mem_map] at hx
  obtain ⟨c, hc, rfl⟩ := hx
  have hdc := (C33_all_children_exact_partial h hd hi c).mp hc
  obtain ⟨j, hj, hk⟩ := desc_kid ht hi hdc
  exact ⟨⟨c, ht.num c (ht.kids j hj c hk).1⟩, hd j hj c hk⟩

theorem map_inj_on {α β : Type _} {f : α → β} : ∀ {l m : List α}, (∀ a ∈ l, ∀ b ∈ m, f a = f b → a = b) →
    l.map f = m.map f → l = m
  | [], [], _, _ => rfl
  | [], _ :: _, _, h => by cases h
  | _ :: _, [], _, h => by cases h
  | a :: l, b :: m, hf, h => by
    rw [List.map_cons, List.map_cons] at h
    have h1 := List.cons.inj h
    rw [hf a (by simp) b (by simp) h1.1,
      map_inj_on (fun a ha b hb => hf a (List.mem_cons_of_mem _ ha) b (List.mem_cons_of_mem _ hb)) h1.2]

/-- C227: two lines, of one configuration or of two, have the same `hash_children` iff their descendants have the same numbers
and texts, if no child's text starts with a digit. -/
theorem C227_exact_partial (h : parse o lines = .ok P) (h' : parse o' lines' = .ok Q) (hd : Spec.KidsNoDigits P)
    (hd' : Spec.KidsNoDigits Q) {i j : Nat} (hi : i ∈ P.list) (hj : j ∈ Q.list) :
    hashChildren P i = hashChildren Q j ↔ Spec.kin P i = Spec.kin Q j := by
  rw [hashChildren_eq, hashChildren_eq]
  refine ⟨map_inj_on (fun a ha b hb e => ?_), fun e => by rw [e]⟩
  obtain ⟨⟨n, hn⟩, ha2⟩ := kin_ok h hd hi a ha
  obtain ⟨⟨m, hm⟩, hb2⟩ := kin_ok h' hd' hj b hb
  rw [hn, hm, intStr_ofNat, intStr_ofNat] at e
  obtain ⟨e1, e2⟩ := key_inj ha2 hb2 e
  exact Prod.ext (by rw [hn, hm, e1]) e2

theorem kin_inj (ht : Tree P) {i j : Nat} (hi : ∀ c ∈ allChildren P i, c ∈ P.list) (hj : ∀ c ∈ allChildren P j, c ∈ P.list)
    (h : Spec.kin P i = Spec.kin P j) : allChildren P i = allChildren P j := by
  refine map_inj_on (fun a ha b hb e => ?_) h
  have := congrArg Prod.fst e
  simp only [ht.num a (hi a ha), ht.num b (hj b hb)] at this
  omega

theorem desc_last {i d : Nat} (h : Spec.Desc P i d) : d ∈ (P.h i).children ∨ ∃ m, Spec.Desc P i m ∧ d ∈ (P.h m).children := by
  induction h with
  | child hc => exact Or.inl hc
  | step hc _ ih =>
    rcases ih with ih | ⟨m, h1, h2⟩
    · exact Or.inr ⟨_, .child hc, ih⟩
    · exact Or.inr ⟨m, .step hc h1, h2⟩

/-- C227 fails: without banners, macros and closing braces, two lines of a configuration that have children never have the same
`hash_children`, not even if their children have the same texts. -/
theorem C227_fails (h : parse o lines = .ok P) (hp : Spec.Plain lines) {i j : Nat} (hi : i ∈ P.list) (hj : j ∈ P.list)
    (hne : i ≠ j) (hki : (P.h i).children ≠ []) (hkj : (P.h j).children ≠ []) : hashChildren P i ≠ hashChildren P j := by
  intro he
  have ht := tree_of_parse h
  have hd := C33_kids h hp.1 hp.2.1
  have mem : ∀ {k}, k ∈ P.list → ∀ c, c ∈ allChildren P k → c ∈ P.list := fun hk c hc => by
    obtain ⟨x, hx, hc⟩ := desc_kid ht hk ((C33_all_children_exact_partial h hd hk c).mp hc)
    exact (ht.kids x hx c hc).1
  have hl := kin_inj ht (mem hi) (mem hj) ((C227_exact_partial h h hd hd hi hj).mp he)
  have hag : ∀ i ∈ P.list, ∀ c ∈ (P.h i).children, (P.h c).parent = i := fun i hi c hc =>
    (((C22_agree_partial h hp.1 hp.2.1 hp.2.2 hi).2 c).mp hc).2.1
  have half : ∀ {a b}, a ∈ P.list → b ∈ P.list → allChildren P a = allChildren P b → a ≠ b → (P.h a).children ≠ [] → b < a := by
    intro a b ha hb hab hn hk
    obtain ⟨c, hc⟩ := List.exists_mem_of_ne_nil _ hk
    have h1 := (C33_all_children_exact_partial h hd ha c).mpr (.child hc)
    rw [hab] at h1
    rcases desc_last ((C33_all_children_exact_partial h hd hb c).mp h1) with h2 | ⟨m, h2, h3⟩
    · exact absurd ((hag a ha c hc).symm.trans (hag b hb c h2)) hn
    · have hm := desc_lt ht hb h2
      have e := (hag a ha c hc).symm.trans (hag m hm.1 c h3)
      rw [e]; exact hm.2
  have h1 := half hi hj hl hne hki
  have h2 := half hj hi hl.symm (Ne.symm hne) hkj
  omega

private def s (t : String) : Str := t.toList

example : ∃ P, parse {} [s "interface a", s " mtu 9000", s "interface b", s " mtu 9000"] = .ok P ∧
    (P.h 0).children = [1] ∧ (P.h 2).children = [3] ∧ hashChildren P 0 = [s "1 mtu 9000"] ∧
    hashChildren P 2 = [s "3 mtu 9000"] := ⟨_, rfl, by decide, by decide, by decide, by decide⟩

end Query

import Verif.Vlan.Sets

/-! # C19: `trunk_vlans_allowed` -/

namespace Vlan

open Py Range Spec

/-- The result for statements in the order in which a device writes them: first plain
statements (`none`, `all`, a list; no list directly behind another), then `add` and
`remove` in any order as long as no removed VLAN is added again. -/
theorem C19_order_partial {ts : List Str} {base changes : List Stmt} (ht : Trunk ts)
    (h : Lines ts (base ++ changes)) (hb : ∀ s ∈ base, Base s) (hn : NoTwoLists base)
    (hc : ∀ s ∈ changes, Change s) (hr : NoReturn changes) :
    ∃ r, trunkVlans ts = .ok (some r) ∧ r.lst.Nodup ∧ ∀ x, x ∈ r.lst ↔ device (base ++ changes) x := by
  have hg := lines_good h
  have hgb : ∀ s ∈ base, GoodStmt s := fun s hs => hg s (by simp [hs])
  have hA : AHolds ((base ++ changes).foldl stepS {}).allowed (base.foldl Stmt.apply All) := by
    rw [List.foldl_append, fold_allowed changes]
    · exact fold_base base {} All hb hgb hn (Or.inl rfl)
        (Or.inr ⟨allItems, allItems_good, rfl, fun x => (allItems_in x).symm⟩)
    · intro s hs hbs
      have := hc s hs
      cases s <;> first | exact this | exact hbs
  obtain ⟨h1, h2, h3⟩ := fold_holds (base ++ changes) {} [] [] [] hg (Or.inl ⟨rfl, rfl⟩) (Or.inl ⟨rfl, rfl⟩)
    (Or.inl ⟨rfl, rfl⟩)
  obtain ⟨r, e, nd, hm⟩ := vlans_formula hA h1 h2 h3
  rw [← fold_lines h] at e
  refine ⟨r, trunk_run ht e, nd, fun x => ?_⟩
  have na : adds (base ++ changes) = adds changes ∧ excs (base ++ changes) = [] ∧
      rems (base ++ changes) = rems changes := by
    clear h hg hgb hA h1 h2 h3 e hm hn
    induction base with
    | nil =>
      refine ⟨rfl, ?_, rfl⟩
      rw [List.nil_append]
      clear hr hb
      induction changes with
      | nil => rfl
      | cons s ss ih =>
        have ih := ih (fun t ht => hc t (by simp [ht]))
        have hs := hc s (by simp)
        cases s <;> first | exact ih | exact absurd hs (fun h => h)
    | cons s ss ih =>
      have ih := ih (fun t ht => hb t (by simp [ht]))
      have hs := hb s (by simp)
      cases s <;> first | exact ih | exact absurd hs (fun h => h)
  rw [hm, na.1, na.2.1, na.2.2, device, List.foldl_append, device_changes changes _ hc hr x]
  simp [in_nil]

/-- The same for one `except` statement that comes where all VLANs are allowed; the VLANs
that it leaves out are not added again. -/
theorem C19_except_partial {ts : List Str} {l : List Item} {changes : List Stmt} (ht : Trunk ts)
    (h : Lines ts (.except l :: changes)) (hc : ∀ s ∈ changes, Change s)
    (hr : NoReturn (.remove l :: changes)) :
    ∃ r, trunkVlans ts = .ok (some r) ∧ r.lst.Nodup ∧ ∀ x, x ∈ r.lst ↔ device (.except l :: changes) x := by
  have hg := lines_good h
  have hA : AHolds ((Stmt.except l :: changes).foldl stepS {}).allowed All := by
    rw [fold_allowed]
    · exact Or.inr ⟨allItems, allItems_good, rfl, fun x => (allItems_in x).symm⟩
    · intro s hs hbs
      rcases List.mem_cons.mp hs with rfl | hs
      · exact hbs
      · have := hc s hs
        cases s <;> first | exact this | exact hbs
  obtain ⟨h1, h2, h3⟩ := fold_holds (.except l :: changes) {} [] [] [] hg (Or.inl ⟨rfl, rfl⟩) (Or.inl ⟨rfl, rfl⟩)
    (Or.inl ⟨rfl, rfl⟩)
  obtain ⟨r, e, nd, hm⟩ := vlans_formula hA h1 h2 h3
  rw [← fold_lines h] at e
  refine ⟨r, trunk_run ht e, nd, fun x => ?_⟩
  have ne : excs (.except l :: changes) = l := by
    have : excs changes = [] := by
      clear h hg hA h1 h2 h3 e hm hr
      induction changes with
      | nil => rfl
      | cons s ss ih =>
        have ih := ih (fun t ht => hc t (by simp [ht]))
        have hs := hc s (by simp)
        cases s <;> first | exact ih | exact absurd hs (fun h => h)
    rw [excs, this, List.append_nil]
  have hd : device (.except l :: changes) = (Stmt.remove l :: changes).foldl Stmt.apply All := rfl
  have hcc : ∀ s ∈ Stmt.remove l :: changes, Change s := by
    intro s hs
    rcases List.mem_cons.mp hs with rfl | hs
    · trivial
    · exact hc s hs
  rw [hm, ne, hd, device_changes _ _ hcc hr x]
  simp only [List.nil_append, adds, rems, in_append, not_or]

/-- What the code computes for statements in any order: the plain statements together, then
all `add`, then without all `except` and all `remove`. -/
theorem C19_kinds {ts : List Str} {ss : List Stmt} (ht : Trunk ts) (h : Lines ts ss)
    (hn : NoTwoLists (plain ss)) :
    ∃ r, trunkVlans ts = .ok (some r) ∧ r.lst.Nodup ∧ ∀ x, x ∈ r.lst ↔
      (device (plain ss) x ∨ ∃ l, .add l ∈ ss ∧ In l x) ∧ (∀ l, .except l ∈ ss → ¬ In l x) ∧
      (∀ l, .remove l ∈ ss → ¬ In l x) := by
  have hg := lines_good h
  have hA : AHolds (ss.foldl stepS {}).allowed (device (plain ss)) := by
    rw [fold_plain ss {} {} rfl]
    exact fold_base (plain ss) {} All (fun s hs => (mem_plain s hs).2) (fun s hs => hg s (mem_plain s hs).1) hn
      (Or.inl rfl) (Or.inr ⟨allItems, allItems_good, rfl, fun x => (allItems_in x).symm⟩)
  obtain ⟨h1, h2, h3⟩ := fold_holds ss {} [] [] [] hg (Or.inl ⟨rfl, rfl⟩) (Or.inl ⟨rfl, rfl⟩)
    (Or.inl ⟨rfl, rfl⟩)
  obtain ⟨r, e, nd, hm⟩ := vlans_formula hA h1 h2 h3
  rw [← fold_lines h] at e
  refine ⟨r, trunk_run ht e, nd, fun x => ?_⟩
  rw [hm, List.nil_append, List.nil_append, List.nil_append, in_adds, in_excs, in_rems]
  simp only [not_exists, not_and]

/-- Without statements all VLANs are allowed. -/
theorem C19_default {ts : List Str} (ht : Trunk ts) (ho : ∀ t ∈ ts, Other t) :
    ∃ r, trunkVlans ts = .ok (some r) ∧ r.lst.Nodup ∧ ∀ x, x ∈ r.lst ↔ 1 ≤ x ∧ x ≤ 4094 := by
  have hl : Lines ts ([] ++ []) := by
    clear ht
    induction ts with
    | nil => exact .nil
    | cons t ts ih => exact .other (ho t (by simp)) (ih (fun u hu => ho u (by simp [hu])))
  exact C19_order_partial ht hl (fun _ h => by cases h) trivial (fun _ h => by cases h) List.Pairwise.nil

/-- An interface that is not a switchport, or is in access mode, has the value 0. -/
theorem C19_not_trunk {ts : List Str} (hb : ∀ t ∈ ts, splitWs t ≠ [])
    (h : (∀ t ∈ ts, (splitWs t).head? ≠ some "switchport".toList) ∨
      ∃ t ∈ ts, (splitWs t).take 3 = ["switchport".toList, "mode".toList, "access".toList]) :
    trunkVlans ts = .ok none := by
  have hs : ∃ b, isSwitchport ts = .ok b ∧ ((∀ t ∈ ts, (splitWs t).head? ≠ some "switchport".toList) → b = false) := by
    clear h
    induction ts with
    | nil => exact ⟨false, rfl, fun _ => rfl⟩
    | cons u ts ih =>
      rw [isSwitchport]
      obtain ⟨w, ws, e⟩ := List.exists_cons_of_ne_nil (hb u (by simp))
      rw [e]
      simp only [List.head?_cons]
      split
      · rename_i hw
        refine ⟨true, rfl, fun h => ?_⟩
        exact absurd (by rw [e, hw]; rfl) (h u (by simp))
      · obtain ⟨b, h1, h2⟩ := ih (fun t ht => hb t (by simp [ht]))
        exact ⟨b, h1, fun h => h2 (fun t ht => h t (by simp [ht]))⟩
  obtain ⟨b, h1, h2⟩ := hs
  rw [trunkVlans, h1]
  simp only [bind, Except.bind]
  rcases h with h | ⟨t, ht, e⟩
  · rw [h2 h]; rfl
  · have : isAccess ts = true := by
      rw [isAccess, List.any_eq_true]
      exact ⟨t, ht, by rw [e]; rfl⟩
    rw [this]; simp

/-- `switchport trunk allowed vlan 10-12`, `... add 20`, `... remove 11`. -/
def sampleLines : List Str :=
  [" switchport mode trunk".toList, " switchport trunk allowed vlan 10-12".toList,
   " switchport trunk allowed vlan add 20".toList, " switchport trunk allowed vlan remove 11".toList]

def l1 : List Item := [.span [] "10".toList [] [] "12".toList []]
def l2 : List Item := [.single [] "20".toList []]
def l3 : List Item := [.single [] "11".toList []]

theorem good_sample {l : List Item} (hv : ∀ i ∈ l, i.Valid) (hne : l ≠ []) {c d : Char}
    (h1 : (text l).head? = some c) (hc : isDigit c = true) (h2 : (text l).getLast? = some d)
    (hd : isSpace d = false) : Good l where
  ne := hne
  valid := hv
  first := by intro x hx; rw [h1] at hx; cases hx; exact hc
  last := by intro x hx; rw [h2] at hx; cases hx; exact hd

theorem gap_space : Gap " ".toList := ⟨by decide, by decide⟩

theorem sample_lines : Lines sampleLines ([.list l1] ++ [.add l2, .remove l3]) := by
  have hn : allSpace [] := fun c hc => by cases hc
  have g1 : Good l1 := good_sample (c := '1') (d := '2') (by
    intro i hi; simp only [l1, List.mem_singleton] at hi; rw [hi]
    exact ⟨hn, by decide, hn, hn, by decide, hn⟩) (by simp [l1]) rfl rfl rfl rfl
  have g2 : Good l2 := good_sample (c := '2') (d := '0') (by
    intro i hi; simp only [l2, List.mem_singleton] at hi; rw [hi]
    exact ⟨hn, by decide, hn⟩) (by simp [l2]) rfl rfl rfl rfl
  have g3 : Good l3 := good_sample (c := '1') (d := '1') (by
    intro i hi; simp only [l3, List.mem_singleton] at hi; rw [hi]
    exact ⟨hn, by decide, hn⟩) (by simp [l3]) rfl rfl rfl rfl
  refine .other (by unfold Other; decide) (.stmt ?_ (.stmt ?_ (.stmt ?_ .nil)))
  · exact Reads.mk (a := text l1) gap_space gap_space gap_space gap_space gap_space (.list g1)
  · exact Reads.mk (a := "add".toList ++ " ".toList ++ text l2) gap_space gap_space gap_space gap_space gap_space
      (.add g2 gap_space)
  · exact Reads.mk (a := "remove".toList ++ " ".toList ++ text l3) gap_space gap_space gap_space gap_space gap_space
      (.remove g3 gap_space)

theorem sample_trunk : Trunk sampleLines where
  noBlank := by decide
  switchport := ⟨_, List.mem_cons_self, by decide⟩
  notAccess := by decide

example : ∃ r, trunkVlans sampleLines = .ok (some r) ∧ ∀ x, x ∈ r.lst ↔ device ([.list l1] ++ [.add l2, .remove l3]) x := by
  obtain ⟨r, h1, _, h2⟩ := C19_order_partial sample_trunk sample_lines (by intro s hs; simp at hs; rw [hs]; trivial)
    trivial (by intro s hs; simp at hs; rcases hs with rfl | rfl <;> trivial)
    (by
      refine List.Pairwise.cons ?_ (List.Pairwise.cons (fun _ h => by cases h) .nil)
      intro t ht a b e; cases e)
  exact ⟨r, h1, h2⟩
example : trunkVlans sampleLines = .ok (some ⟨[10, 12, 20], false⟩) := by rfl

/-- The order of the statements is not kept: a VLAN that is removed and then added again
stays removed. -/
theorem C19_return_fails :
    trunkVlans [" switchport trunk allowed vlan 10".toList, " switchport trunk allowed vlan remove 10".toList,
      " switchport trunk allowed vlan add 10".toList] = .ok (some ⟨[], false⟩) := rfl

/-- A second plain statement does not replace the first one. -/
theorem C19_twice_fails :
    trunkVlans [" switchport trunk allowed vlan 10".toList, " switchport trunk allowed vlan 20".toList] =
      .ok (some ⟨[10, 20], false⟩) := rfl

/-- A statement that comes later does not cancel an earlier `remove`. -/
theorem C19_reset_fails :
    trunkVlans [" switchport trunk allowed vlan remove 10".toList, " switchport trunk allowed vlan 10-11".toList] =
      .ok (some ⟨[11], false⟩) := rfl

/-- `except` after a list takes VLANs from the list instead of from all VLANs. -/
theorem C19_except_fails :
    trunkVlans [" switchport trunk allowed vlan 10-12".toList, " switchport trunk allowed vlan except 11".toList] =
      .ok (some ⟨[10, 12], false⟩) := rfl

end Vlan

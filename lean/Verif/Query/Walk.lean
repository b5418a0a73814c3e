import Verif.Edit.Written

/-! # C257: walking the tree from the top visits every line once, in order -/

namespace Query

open Py Conf

variable {o : Opts} {lines : List Str} {P : Parsed}

/-- A line, then everything below it. -/
def Spec.walk (P : Parsed) (i : Nat) : List Nat := i :: allChildren P i

theorem walk_flat_inc {l : List Nat} (hl : l.Pairwise (· < ·)) {f : Nat → List Nat} (h1 : ∀ c ∈ l, (f c).Pairwise (· < ·))
    (h2 : ∀ c ∈ l, ∀ c' ∈ l, c < c' → ∀ x ∈ f c, ∀ y ∈ f c', x < y) : (l.flatMap f).Pairwise (· < ·) := by
  induction l with
  | nil => exact .nil
  | cons a l ih =>
    rw [List.pairwise_cons] at hl
    rw [List.flatMap_cons, List.pairwise_append]
    refine ⟨h1 a (by simp), ih hl.2 (fun c hc => h1 c (by simp [hc])) (fun c hc c' hc' => h2 c (by simp [hc]) c' (by simp [hc'])), ?_⟩
    intro x hx y hy
    obtain ⟨c, hc, hy⟩ := List.mem_flatMap.mp hy
    exact h2 a (by simp) c (by simp [hc]) (hl.1 c hc) x hx y hy

structure WalkSetup (o : Opts) (lines : List Str) (P : Parsed) : Prop where
  tree : Tree P
  mem : ∀ x, x ∈ P.list ↔ x < lines.length
  inc : P.list.Pairwise (· < ·)
  all : ∀ i ∈ P.list, (allChildren P i).Pairwise (· < ·) ∧ ∀ d, d ∈ allChildren P i ↔ Spec.Desc P i d
  agree : ∀ i ∈ P.list, (P.h i).children.Pairwise (· < ·) ∧ ∀ c, c ∈ (P.h i).children ↔ c ∈ P.list ∧ (P.h c).parent = i ∧ c ≠ i
  cont : ∀ i d q, i ∈ P.list → Spec.Desc P i d → i < q → q ≤ d → Spec.Desc P i q

theorem walk_setup (h : parse o lines = .ok P) (hp : Spec.Plain lines) (hcfg : ∀ l ∈ lines, Conf.Spec.config o.delims l) :
    WalkSetup o lines P := by
  have hb : ∀ l ∈ lines, ¬ Conf.Spec.blank l := fun l hl => (hcfg l hl).1
  have hnil : ∀ t ∈ lines, t ≠ [] := fun t ht => by rintro rfl; exact hb [] ht (fun _ hc => by cases hc)
  have hboot := h
  rw [Edit.texts_parse hnil] at hboot
  have hlist := Edit.list_full hboot (Edit.keep_of_noBlank (Or.inr hb))
  have hPm : ∀ x, x ∈ P.list ↔ x < lines.length := fun x => by rw [hlist]; simp
  have ht := tree_of_parse h
  have hin := Edit.input_id (o := o) hnil
  refine ⟨ht, hPm, by rw [hlist]; exact List.pairwise_lt_range, fun i hi => ⟨?_, C33_all_children_exact_partial h (C33_kids h hp.1 hp.2.1) hi⟩,
    fun i hi => C22_agree_partial h hp.1 hp.2.1 hp.2.2 hi, fun i d q hi hd h1 h2 => ?_⟩
  · refine List.Pairwise.imp_of_mem ?_ (allChildren_ordered ht hi)
    intro a b ha hb' hlt
    have h1 := (desc_lt ht hi ((C33_all_children h hi).1 a ha)).1
    have h2 := (desc_lt ht hi ((C33_all_children h hi).1 b hb')).1
    have := ht.num a h1
    have := ht.num b h2
    omega
  · have hdl := (desc_lt ht hi hd).1
    rw [hPm] at hdl
    refine C34_contiguous h hp hi hd h1 h2 ?_
    rw [hin]
    exact hcfg _ (at_mem (by omega))

theorem walk_cases {i x : Nat} (h : Spec.Desc P i x) : x ∈ (P.h i).children ∨ ∃ c ∈ (P.h i).children, Spec.Desc P c x := by
  cases h with
  | child hc => exact .inl hc
  | step hc hd => exact .inr ⟨_, hc, hd⟩

/-- The last step on the way down. -/
theorem walk_last {i x : Nat} (h : Spec.Desc P i x) : ∃ q, (q = i ∨ Spec.Desc P i q) ∧ x ∈ (P.h q).children := by
  induction h with
  | child hc => exact ⟨_, .inl rfl, hc⟩
  | step hc _ ih =>
    obtain ⟨q, h1, h2⟩ := ih
    refine ⟨q, .inr ?_, h2⟩
    rcases h1 with rfl | h1
    · exact .child hc
    · exact .step hc h1

theorem walk_inc (s : WalkSetup o lines P) {i : Nat} (hi : i ∈ P.list) : (Spec.walk P i).Pairwise (· < ·) := by
  rw [Spec.walk, List.pairwise_cons]
  exact ⟨fun x hx => (desc_lt s.tree hi (((s.all i hi).2 x).mp hx)).2, (s.all i hi).1⟩

/-- Everything in the walk of a line comes before the next line that does not hang below it. -/
theorem walk_before (s : WalkSetup o lines P) {c c' : Nat} (hc : c ∈ P.list) (hc' : c' ∈ P.list) (hlt : c < c') (hn : ¬ Spec.Desc P c c') :
    ∀ x ∈ Spec.walk P c, ∀ y ∈ Spec.walk P c', x < y := by
  intro x hx y hy
  have hy' : c' ≤ y := by
    rw [Spec.walk, List.mem_cons] at hy
    rcases hy with rfl | hy
    · exact Nat.le_refl _
    · exact Nat.le_of_lt (desc_lt s.tree hc' (((s.all c' hc').2 y).mp hy)).2
  have hx' : x < c' := by
    rw [Spec.walk, List.mem_cons] at hx
    rcases hx with rfl | hx
    · exact hlt
    · rcases Nat.lt_or_ge x c' with h1 | h1
      · exact h1
      · exact absurd (s.cont c x c' hc (((s.all c hc).2 x).mp hx) hlt h1) hn
  omega

/-- C257: everything below a line is its children, each followed by everything below it. -/
theorem C257_below_partial (h : parse o lines = .ok P) (hp : Spec.Plain lines) (hcfg : ∀ l ∈ lines, Conf.Spec.config o.delims l)
    {i : Nat} (hi : i ∈ P.list) : allChildren P i = (P.h i).children.flatMap (Spec.walk P) := by
  have s := walk_setup h hp hcfg
  have hk : ∀ c ∈ (P.h i).children, c ∈ P.list ∧ (P.h c).parent = i ∧ c ≠ i := fun c hc => ((s.agree i hi).2 c).mp hc
  refine increasing_ext (s.all i hi).1 (walk_flat_inc (s.agree i hi).1 (fun c hc => walk_inc s (hk c hc).1) ?_) (fun x => ?_)
  · intro c hc c' hc' hlt
    refine walk_before s (hk c hc).1 (hk c' hc').1 hlt (fun hd => ?_)
    obtain ⟨q, h1, h2⟩ := walk_last hd
    have hcl := (hk c hc).1
    have hci : i < c := by
      have := (C22_parent_before h hcl).1
      have := hk c hc
      omega
    have hq : q ∈ P.list ∧ c ≤ q := by
      rcases h1 with rfl | h1
      · exact ⟨hcl, Nat.le_refl _⟩
      · have := desc_lt s.tree hcl h1; exact ⟨this.1, Nat.le_of_lt this.2⟩
    have := (((s.agree q hq.1).2 c').mp h2).2.1
    have := (hk c' hc').2.1
    omega
  · rw [(s.all i hi).2, List.mem_flatMap]
    constructor
    · intro hd
      rcases walk_cases hd with h1 | ⟨c, h1, h2⟩
      · exact ⟨x, h1, by simp [Spec.walk]⟩
      · exact ⟨c, h1, by rw [Spec.walk, List.mem_cons]; exact .inr (((s.all c (hk c h1).1).2 x).mpr h2)⟩
    · rintro ⟨c, h1, h2⟩
      rw [Spec.walk, List.mem_cons] at h2
      rcases h2 with rfl | h2
      · exact .child h1
      · exact .step h1 (((s.all c (hk c h1).1).2 x).mp h2)

/-- C257: walking the tree from each line at the top visits every line once, in order. -/
theorem C257_walk_partial (h : parse o lines = .ok P) (hp : Spec.Plain lines) (hcfg : ∀ l ∈ lines, Conf.Spec.config o.delims l) :
    (P.list.filter (fun i => decide ((P.h i).parent = i))).flatMap (Spec.walk P) = P.list := by
  have s := walk_setup h hp hcfg
  have hr : ∀ c ∈ P.list.filter (fun i => decide ((P.h i).parent = i)), c ∈ P.list ∧ (P.h c).parent = c := fun c hc => by
    simpa using hc
  refine increasing_ext (walk_flat_inc (s.inc.filter _) (fun c hc => walk_inc s (hr c hc).1) ?_) s.inc (fun x => ?_)
  · intro c hc c' hc' hlt
    refine walk_before s (hr c hc).1 (hr c' hc').1 hlt (fun hd => ?_)
    obtain ⟨q, h1, h2⟩ := walk_last hd
    have hq : q ∈ P.list := by
      rcases h1 with rfl | h1
      · exact (hr _ hc).1
      · exact (desc_lt s.tree (hr c hc).1 h1).1
    have k := ((s.agree q hq).2 c').mp h2
    have := (hr c' hc').2
    have := k.2.1
    have := k.2.2
    omega
  · rw [List.mem_flatMap]
    constructor
    · rintro ⟨c, h1, h2⟩
      rw [Spec.walk, List.mem_cons] at h2
      rcases h2 with rfl | h2
      · exact (hr _ h1).1
      · exact (desc_lt s.tree (hr c h1).1 (((s.all c (hr c h1).1).2 x).mp h2)).1
    · intro hx
      have key : ∀ n, ∀ x ≤ n, x ∈ P.list → ∃ c, (c ∈ P.list ∧ (P.h c).parent = c) ∧ (x = c ∨ Spec.Desc P c x) := by
        intro n
        induction n with
        | zero =>
          intro x hx hxl
          have := (C22_parent_before h hxl).1
          exact ⟨x, ⟨hxl, by omega⟩, .inl rfl⟩
        | succ n ih =>
          intro x hx hxl
          by_cases hpx : (P.h x).parent = x
          · exact ⟨x, ⟨hxl, hpx⟩, .inl rfl⟩
          · have h1 := (C22_parent_before h hxl).1
            have h2 := (s.tree.up x hxl).1
            obtain ⟨c, hc, h3⟩ := ih (P.h x).parent (by omega) h2
            have hk : x ∈ (P.h (P.h x).parent).children := ((s.agree _ h2).2 x).mpr ⟨hxl, rfl, fun e => hpx e.symm⟩
            refine ⟨c, hc, .inr ?_⟩
            rcases h3 with h3 | h3
            · rw [h3] at hk; exact .child hk
            · exact Edit.desc_trans h3 (.child hk)
      obtain ⟨c, hc, h1⟩ := key x x (Nat.le_refl _) hx
      refine ⟨c, by simpa using hc, ?_⟩
      rw [Spec.walk, List.mem_cons]
      exact h1.imp id (fun hd => ((s.all c hc.1).2 x).mpr hd)

example : ∃ P, parse {} [s "a", s "  b", s "   c", s " d", s "e", s " f"] = .ok P ∧
    P.list.filter (fun i => decide ((P.h i).parent = i)) = [0, 4] ∧ Spec.walk P 0 = [0, 1, 2, 3] ∧ Spec.walk P 1 = [1, 2] ∧ Spec.walk P 4 = [4, 5] :=
  ⟨_, rfl, by decide +kernel, by decide +kernel, by decide +kernel, by decide +kernel⟩

/-- C257 needs that there are no comments: one at the left margin is visited behind the lines that follow it. -/
theorem C257_comment_fails : ∃ P, parse {} [s "a", s "!", s " b"] = .ok P ∧
    (P.list.filter (fun i => decide ((P.h i).parent = i))).flatMap (Spec.walk P) = [0, 2, 1] :=
  ⟨_, rfl, by decide +kernel⟩

/-- `all_children` is in the order of the lines all the same, but the walk through the children is not. -/
theorem C257_below_fails : ∃ P, parse {} [s "a", s " b", s " !", s "  c"] = .ok P ∧
    (P.h 0).children = [1, 2] ∧ allChildren P 0 = [1, 2, 3] ∧ (P.h 0).children.flatMap (Spec.walk P) = [1, 3, 2] :=
  ⟨_, rfl, by decide +kernel, by decide +kernel, by decide +kernel⟩

end Query

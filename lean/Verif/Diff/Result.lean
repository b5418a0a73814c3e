import Verif.Diff.Norm

/-! # The entries of the result -/

namespace Diff

open Py Conf Query

section
variable {H : Str → Int} {syn : Conf.Syntax} {ign : Bool} {before after : List Str} {P Q : Parsed}
  (R : Spec.Ready H syn ign before after P Q)
include R

/-- Everything that the theorems below need. -/
theorem core : ∃ (wb wa : Words) (out : List Entry), hdiff H syn ign before after = .ok out ∧
    hdiffHeader H syn ign before after =
      .ok (header (normParsed (opts syn ign) P) (normParsed (opts syn ign) Q) wb wa) ∧
    InvB (normParsed (opts syn ign) Q) (normParsed (opts syn ign) P) H wb ∧
    (∀ j ∈ Q.list, RightA (normParsed (opts syn ign) Q) (normParsed (opts syn ign) P) H wa j) ∧
    (∀ j ∈ Q.list, ∀ b, P.list.find?
      (sameId H (normParsed (opts syn ign) P) (normParsed (opts syn ign) Q) j) = some b → wb b = .keep) ∧
    out.Perm (firsts [] (P.list.map (eb H (normParsed (opts syn ign) P) wb) ++
      Q.list.flatMap (ea H (normParsed (opts syn ign) Q) wa))) ∧
    out.filter old = (firsts [] (P.list.map (eb H (normParsed (opts syn ign) P) wb) ++
      Q.list.flatMap (ea H (normParsed (opts syn ign) Q) wa))).filter old := by
  obtain ⟨wb, wa, out, h1, h2, h3, h4, h5, h6⟩ := buildIos_spec (norm_tree R.after)
    (norm_tree R.before) H
    (partners_of (norm_tree R.after) (norm_distinct R.after R.digitsQ) (norm_tree R.before)
      (norm_distinct R.before R.digitsP) H)
    (partners_of (norm_tree R.before) (norm_distinct R.before R.digitsP) (norm_tree R.after)
      (norm_distinct R.after R.digitsQ) H)
  refine ⟨wb, wa, out, ?_, ?_, h2, h3, h4, h5, h6⟩
  · rw [hdiff, R.before, R.after]
    simp only [Bind.bind, Except.bind]
    rw [if_pos R.syn, h1]
  · rw [hdiffHeader, R.before, R.after]
    simp only [Bind.bind, Except.bind]
    rw [h1]

/-- Equal identifiers are equal paths. -/
theorem ids_iff {i j : Nat} (hi : i ∈ P.list) (hj : j ∈ Q.list) :
    idList H (normParsed (opts syn ign) P) i = idList H (normParsed (opts syn ign) Q) j ↔
      pathOf (normParsed (opts syn ign) P) i = pathOf (normParsed (opts syn ign) Q) j := by
  rw [idList_path R.before H hi, idList_path R.after H hj]
  refine ⟨fun h => map_inj (fun s hs t ht => ?_) h, fun h => by rw [h]⟩
  exact R.hash _ _ (.inl ⟨i, (path_iff R.before R.digitsP _ _).mpr ⟨hi, rfl⟩⟩)
    (.inr ⟨j, (path_iff R.after R.digitsQ _ _).mpr ⟨hj, rfl⟩⟩) s hs t ht

theorem has_before {l : List Str} : Spec.Has (opts syn ign) P l ↔
    ∃ i ∈ P.list, pathOf (normParsed (opts syn ign) P) i = l := by
  constructor
  · rintro ⟨i, hi⟩
    have := (path_iff R.before R.digitsP _ _).mp hi
    exact ⟨i, this.1, this.2.symm⟩
  · rintro ⟨i, hi, he⟩
    exact ⟨i, (path_iff R.before R.digitsP _ _).mpr ⟨hi, he.symm⟩⟩

theorem has_after {l : List Str} : Spec.Has (opts syn ign) Q l ↔
    ∃ i ∈ Q.list, pathOf (normParsed (opts syn ign) Q) i = l := by
  constructor
  · rintro ⟨i, hi⟩
    have := (path_iff R.after R.digitsQ _ _).mp hi
    exact ⟨i, this.1, this.2.symm⟩
  · rintro ⟨i, hi, he⟩
    exact ⟨i, (path_iff R.after R.digitsQ _ _).mpr ⟨hi, he.symm⟩⟩

/-- All paths, and the entries that show them. -/
def Shown (o : Opts) (P Q : Parsed) (H : Str → Int) (e : Entry) : Prop :=
  (Spec.Has o P e.path ∨ Spec.Has o Q e.path) ∧ e.ids = e.path.map H ∧ e.indent = Conf.Spec.indent e.text

theorem shown_eb (wb : Words) {b : Nat} (hb : b ∈ P.list) :
    (eb H (normParsed (opts syn ign) P) wb b).path = pathOf (normParsed (opts syn ign) P) b ∧
    Shown (opts syn ign) P Q H (eb H (normParsed (opts syn ign) P) wb b) := by
  have he := entry_path R.before H .before (wb b) (-1) hb
  refine ⟨he, ?_, ?_, entry_indent R.before H _ _ _ hb⟩
  · rw [eb, he]
    exact .inl ((has_before R).mpr ⟨b, hb, rfl⟩)
  · rw [eb, he, ← idList_path R.before H hb]; rfl

theorem shown_ea (wa : Words) {a : Nat} (ha : a ∈ Q.list) {e : Entry}
    (he : e ∈ ea H (normParsed (opts syn ign) Q) wa a) :
    e.word = wa a ∧ e.side = .after ∧ e.path = pathOf (normParsed (opts syn ign) Q) a ∧
      Shown (opts syn ign) P Q H e := by
  rw [ea] at he
  split at he
  · simp at he
  · have h1 := List.mem_singleton.mp he
    have hp := entry_path R.after H .after (wa a) (((normParsed (opts syn ign) Q).h a).linenum) ha
    rw [h1]
    refine ⟨rfl, rfl, hp, ?_, ?_, entry_indent R.after H _ _ _ ha⟩
    · rw [hp]
      exact .inr ((has_after R).mpr ⟨a, ha, rfl⟩)
    · rw [hp, ← idList_path R.after H ha]; rfl

theorem shown_ids {e f : Entry} (he : Shown (opts syn ign) P Q H e) (hf : Shown (opts syn ign) P Q H f) :
    e.ids = f.ids ↔ e.path = f.path := by
  rw [he.2.1, hf.2.1]
  exact ⟨map_inj (R.hash _ _ he.1 hf.1), fun h => by rw [h]⟩

/-- Every entry before compression shows a path. -/
theorem shown_all (wb wa : Words) {e : Entry}
    (he : e ∈ P.list.map (eb H (normParsed (opts syn ign) P) wb) ++
      Q.list.flatMap (ea H (normParsed (opts syn ign) Q) wa)) : Shown (opts syn ign) P Q H e := by
  rcases List.mem_append.mp he with he | he
  · obtain ⟨b, hb, rfl⟩ := List.mem_map.mp he
    exact (shown_eb R wb hb).2
  · obtain ⟨a, ha, he⟩ := List.mem_flatMap.mp he
    exact (shown_ea R wa ha he).2.2.2

/-- The entries of the result. -/
theorem out_spec : ∃ (wb wa : Words) (out : List Entry), hdiff H syn ign before after = .ok out ∧
    hdiffHeader H syn ign before after =
      .ok (header (normParsed (opts syn ign) P) (normParsed (opts syn ign) Q) wb wa) ∧
    InvB (normParsed (opts syn ign) Q) (normParsed (opts syn ign) P) H wb ∧
    (∀ j ∈ Q.list, RightA (normParsed (opts syn ign) Q) (normParsed (opts syn ign) P) H wa j) ∧
    (∀ j ∈ Q.list, ∀ b, P.list.find?
      (sameId H (normParsed (opts syn ign) P) (normParsed (opts syn ign) Q) j) = some b → wb b = .keep) ∧
    (∀ e ∈ out, e.indent = Conf.Spec.indent e.text) ∧
    (∀ e ∈ out, (e.word = .keep ∧ Spec.Has (opts syn ign) P e.path ∧ Spec.Has (opts syn ign) Q e.path) ∨
      (e.word = .remove ∧ Spec.Has (opts syn ign) P e.path ∧ ¬ Spec.Has (opts syn ign) Q e.path) ∨
      (e.word = .add ∧ ¬ Spec.Has (opts syn ign) P e.path ∧ Spec.Has (opts syn ign) Q e.path)) ∧
    (∀ l, Spec.Has (opts syn ign) P l ∨ Spec.Has (opts syn ign) Q l → ∃ e ∈ out, e.path = l) ∧
    (out.map Entry.path).Nodup ∧
    (out.filter old).Sublist (firsts [] (P.list.map (eb H (normParsed (opts syn ign) P) wb))) := by
  obtain ⟨wb, wa, out, h1, h1', h2, h3, h4, h5, h6⟩ := core R
  have hmem : ∀ e, e ∈ out ↔ (P.list.map (eb H (normParsed (opts syn ign) P) wb) ++
      Q.list.flatMap (ea H (normParsed (opts syn ign) Q) wa)).find? (fun x => x.ids == e.ids) = some e := by
    intro e
    rw [h5.mem_iff, mem_firsts]
    simp
  have hshown : ∀ e ∈ out, Shown (opts syn ign) P Q H e := fun e he =>
    shown_all R wb wa (List.mem_of_find?_eq_some ((hmem e).mp he))
  -- the entries of the lines before
  have hbefore : ∀ b ∈ P.list, ∀ e, e = eb H (normParsed (opts syn ign) P) wb b →
      P.list.find? (fun i => (eb H (normParsed (opts syn ign) P) wb i).ids == e.ids) = some b →
      (e.word = .keep ∧ Spec.Has (opts syn ign) P e.path ∧ Spec.Has (opts syn ign) Q e.path) ∨
      (e.word = .remove ∧ Spec.Has (opts syn ign) P e.path ∧ ¬ Spec.Has (opts syn ign) Q e.path) := by
    rintro b hb e rfl hf
    have hp := (shown_eb R wb hb).1
    have hP : Spec.Has (opts syn ign) P (eb H (normParsed (opts syn ign) P) wb b).path := by
      rw [hp]; exact (has_before R).mpr ⟨b, hb, rfl⟩
    by_cases hQ : Spec.Has (opts syn ign) Q (eb H (normParsed (opts syn ign) P) wb b).path
    · refine .inl ⟨?_, hP, hQ⟩
      obtain ⟨a, ha, he⟩ := (has_after R).mp hQ
      refine h4 a ha b ?_
      rw [← hf]
      congr 1
      funext i
      rw [sameId]
      have : idList H (normParsed (opts syn ign) Q) a = (eb H (normParsed (opts syn ign) P) wb b).ids :=
        ((ids_iff R hb ha).mpr (hp.symm.trans he.symm)).symm
      rw [this]; rfl
    · refine .inr ⟨?_, hP, hQ⟩
      rcases h2 b hb with h | ⟨_, a, ha, he⟩
      · exact h
      · refine absurd ((has_after R).mpr ⟨a, ha, ?_⟩) hQ
        rw [hp, (ids_iff R hb ha).mp he]
  have hcases : ∀ e ∈ out, (∃ b ∈ P.list, e = eb H (normParsed (opts syn ign) P) wb b ∧
        P.list.find? (fun i => (eb H (normParsed (opts syn ign) P) wb i).ids == e.ids) = some b) ∨
      (e.word = .add ∧ ¬ Spec.Has (opts syn ign) P e.path ∧ Spec.Has (opts syn ign) Q e.path) := by
    intro e he
    have hs := hshown e he
    rw [hmem, List.find?_append, List.find?_map] at he
    cases hf : P.list.find? ((fun x => x.ids == e.ids) ∘ eb H (normParsed (opts syn ign) P) wb) with
    | some b =>
      rw [hf] at he
      left
      refine ⟨b, List.mem_of_find?_eq_some hf, ?_, hf⟩
      simpa using he.symm
    | none =>
      rw [hf] at he
      simp only [Option.map_none, Option.none_or] at he
      obtain ⟨a, ha, hea⟩ := List.mem_flatMap.mp (List.mem_of_find?_eq_some he)
      obtain ⟨k1, k2, k3, k4⟩ := shown_ea R wa ha hea
      right
      have hno : ¬ Spec.Has (opts syn ign) P e.path := by
        rw [has_before R]
        rintro ⟨b, hb, hbe⟩
        have := List.find?_eq_none.mp hf b hb
        refine this ?_
        rw [Function.comp, beq_iff_eq, shown_ids R (shown_eb R wb hb).2 hs, (shown_eb R wb hb).1, hbe]
      refine ⟨?_, hno, ?_⟩
      · rw [k1]
        rcases h3 a ha with ⟨_, b, hb, hbe⟩ | ⟨h, _⟩
        · refine absurd ((has_before R).mpr ⟨b, hb, ?_⟩) hno
          rw [k3]; exact (ids_iff R hb ha).mp hbe
        · exact h
      · rw [k3]; exact (has_after R).mpr ⟨a, ha, rfl⟩
  refine ⟨wb, wa, out, h1, h1', h2, h3, h4, fun e he => (hshown e he).2.2, ?_, ?_, ?_, ?_⟩
  · intro e he
    rcases hcases e he with ⟨b, hb, h7, h8⟩ | h
    · rcases hbefore b hb e h7 h8 with h | h
      · exact .inl h
      · exact .inr (.inl h)
    · exact .inr (.inr h)
  · intro l hl
    by_cases hP : Spec.Has (opts syn ign) P l
    · obtain ⟨b0, hb0, he0⟩ := (has_before R).mp hP
      have hs0 := shown_eb R wb hb0
      cases hf : P.list.find? ((fun x => x.ids == (eb H (normParsed (opts syn ign) P) wb b0).ids) ∘
          eb H (normParsed (opts syn ign) P) wb) with
      | none =>
        have := List.find?_eq_none.mp hf b0 hb0
        simp at this
      | some b =>
        have hb := List.mem_of_find?_eq_some hf
        have hse := List.find?_some hf
        rw [Function.comp, beq_iff_eq] at hse
        refine ⟨eb H (normParsed (opts syn ign) P) wb b, ?_, ?_⟩
        · rw [hmem, List.find?_append, List.find?_map, hse, hf]; rfl
        · rw [(shown_ids R (shown_eb R wb hb).2 hs0.2).mp hse, hs0.1, he0]
    · obtain ⟨a0, ha0, he0⟩ := (has_after R).mp (hl.resolve_left hP)
      have hadd : wa a0 = .add := by
        rcases h3 a0 ha0 with ⟨_, b, hb, hbe⟩ | ⟨h, _⟩
        · refine absurd ((has_before R).mpr ⟨b, hb, ?_⟩) hP
          rw [← he0]; exact (ids_iff R hb ha0).mp hbe
        · exact h
      let e0 := entry H (normParsed (opts syn ign) Q) .after (wa a0)
        (((normParsed (opts syn ign) Q).h a0).linenum) a0
      have hm0 : e0 ∈ ea H (normParsed (opts syn ign) Q) wa a0 := by
        rw [ea, if_neg (fun h => by rw [hadd] at h; cases h.1)]
        exact List.mem_singleton.mpr rfl
      obtain ⟨_, _, k3, k4⟩ := shown_ea R wa ha0 hm0
      cases hf : (Q.list.flatMap (ea H (normParsed (opts syn ign) Q) wa)).find?
          (fun x => x.ids == e0.ids) with
      | none =>
        have := List.find?_eq_none.mp hf e0 (List.mem_flatMap.mpr ⟨a0, ha0, hm0⟩)
        simp at this
      | some e =>
        have hse := List.find?_some hf
        rw [beq_iff_eq] at hse
        obtain ⟨a, ha, hea⟩ := List.mem_flatMap.mp (List.mem_of_find?_eq_some hf)
        have hs := (shown_ea R wa ha hea).2.2.2
        have hpe : e.path = l := by rw [(shown_ids R hs k4).mp hse, k3, he0]
        refine ⟨e, ?_, hpe⟩
        rw [hmem, List.find?_append, hse, hf]
        have : (P.list.map (eb H (normParsed (opts syn ign) P) wb)).find? (fun x => x.ids == e0.ids)
            = none := by
          rw [List.find?_eq_none]
          intro x hx
          obtain ⟨b, hb, rfl⟩ := List.mem_map.mp hx
          rw [beq_iff_eq, shown_ids R (shown_eb R wb hb).2 k4, (shown_eb R wb hb).1, k3, he0]
          intro h
          exact hP ((has_before R).mpr ⟨b, hb, h⟩)
        rw [this]; rfl
  · have hn := (h5.map Entry.ids).nodup_iff.mpr (nodup_firsts _ [])
    rw [List.Nodup, List.pairwise_map] at hn ⊢
    refine List.Pairwise.imp_of_mem ?_ hn
    intro e f he hf hne heq
    exact hne ((shown_ids R (hshown e he) (hshown f hf)).mpr heq)
  · rw [h6]
    have happ : ∀ (bs as : List Entry) (seen : List (List Int)), ∃ m, firsts seen (bs ++ as) =
        firsts seen bs ++ m ∧ m.Sublist as := by
      intro bs as
      induction bs with
      | nil => intro seen; exact ⟨_, rfl, firsts_sublist as seen⟩
      | cons b bs ih =>
        intro seen
        rw [List.cons_append, firsts, firsts]
        by_cases hb : b.ids ∈ seen
        · rw [if_pos hb, if_pos hb]; exact ih seen
        · rw [if_neg hb, if_neg hb]
          obtain ⟨m, h7, h8⟩ := ih (b.ids :: seen)
          exact ⟨m, by rw [h7]; rfl, h8⟩
    obtain ⟨m, h7, h8⟩ := happ (P.list.map (eb H (normParsed (opts syn ign) P) wb))
      (Q.list.flatMap (ea H (normParsed (opts syn ign) Q) wa)) []
    rw [h7, List.filter_append]
    have : m.filter old = [] := by
      rw [List.filter_eq_nil_iff]
      intro e he hold
      have hm : e ∈ out := by rw [h5.mem_iff, h7]; exact List.mem_append_right _ he
      obtain ⟨a, ha, hea⟩ := List.mem_flatMap.mp (h8.subset he)
      have hside := (shown_ea R wa ha hea).2.1
      rcases hcases e hm with ⟨b, _, h9, _⟩ | h9
      · rw [h9] at hside; cases hside
      · rw [old, h9.1] at hold; cases hold
    rw [this, List.append_nil]
    exact List.filter_sublist

end

/-- The first entries stand in the order of the lines. -/
theorem firsts_order (f : Nat → Entry) : ∀ (l : List Nat) (seen : List (List Int)), l.Pairwise (· < ·) →
    (firsts seen (l.map f)).Pairwise (fun x y => ∀ i ∈ l, ∀ j ∈ l,
      (f i).ids = x.ids → (∀ k ∈ l, (f k).ids = x.ids → i ≤ k) → (f j).ids = y.ids → i < j)
  | [], _, _ => by simp [firsts]
  | a :: l, seen, hl => by
    rw [List.pairwise_cons] at hl
    rw [List.map_cons, firsts]
    have step : ∀ (seen' : List (List Int)), (f a).ids ∈ seen' →
        (firsts seen' (l.map f)).Pairwise (fun x y => ∀ i ∈ a :: l, ∀ j ∈ a :: l,
          (f i).ids = x.ids → (∀ k ∈ a :: l, (f k).ids = x.ids → i ≤ k) → (f j).ids = y.ids → i < j) := by
      intro seen' hs
      refine List.Pairwise.imp_of_mem ?_ (firsts_order f l seen' hl.2)
      intro x y hx hy hxy i hi j hj h1 h2 h3
      have hi' : i ∈ l := by
        rcases List.mem_cons.mp hi with h | h
        · subst h
          rw [h1] at hs
          exact absurd hs (mem_firsts.mp hx).1
        · exact h
      have hj' : j ∈ l := by
        rcases List.mem_cons.mp hj with h | h
        · subst h
          rw [h3] at hs
          exact absurd hs (mem_firsts.mp hy).1
        · exact h
      exact hxy i hi' j hj' h1 (fun k hk => h2 k (List.mem_cons_of_mem _ hk)) h3
    by_cases hs : (f a).ids ∈ seen
    · rw [if_pos hs]; exact step seen hs
    · rw [if_neg hs, List.pairwise_cons]
      refine ⟨?_, step _ (by simp)⟩
      intro y hy i hi j hj h1 h2 h3
      have hne := (mem_firsts.mp hy).1
      have hj' : j ∈ l := by
        rcases List.mem_cons.mp hj with h | h
        · subst h
          rw [h3] at hne
          exact absurd (List.mem_cons_self) hne
        · exact h
      have := h2 a (by simp) rfl
      have := hl.1 j hj'
      omega

end Diff

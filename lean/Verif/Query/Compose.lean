import Verif.Query.Local

/-! # Answers of a configuration are put together from its blocks (C220) -/

namespace Query.Spec

/-- The part of an answer that lies in the `n` lines from line `w`. -/
def part (w n : Nat) (l : List Nat) : List Nat := l.filter (fun i => decide (w ≤ i ∧ i < w + n))

end Query.Spec

namespace Query

open Py Conf

/-- A filter of the lines, cut out of the configuration, is the same filter in the block alone. -/
theorem part_filter {o : Opts} {pre b post : List Str} {P Q : Parsed} (h : parse o (pre ++ b ++ post) = .ok P)
    (h' : parse o b = .ok Q) (hb : Spec.Block o b) (hp : Spec.Closed o post) {f g : Nat → Bool}
    (hf : ∀ k < b.length, f ((Conf.Spec.input o pre).length + k) = g k) :
    Spec.part (Conf.Spec.input o pre).length b.length (P.list.filter f) =
      (Q.list.filter g).map ((Conf.Spec.input o pre).length + ·) := by
  have hq : parse o ([] ++ b ++ []) = .ok Q := by rw [List.nil_append, List.append_nil]; exact h'
  have hnil : Spec.Closed o [] := by intro a t c e; cases a <;> cases e
  have hpl := placed_of h hb hp
  have hql := placed_of hq hb hnil
  have hi : Conf.Spec.input o [] = [] := by unfold Conf.Spec.input; split <;> rfl
  rw [hi] at hql
  have hQlen : ∀ x ∈ Q.list, x < b.length := by
    intro x hx
    have := h'
    rw [Conf.parse, input_eq, input_block hb] at this
    exact ((mem_list this).mp hx).1
  refine eq_of_sorted_mem ?_ ?_ (fun x => ?_)
  · exact List.Pairwise.sublist (List.Sublist.trans List.filter_sublist List.filter_sublist) (tree_of_parse h).inc
  · rw [List.pairwise_map]
    exact ((tree_of_parse h').inc.sublist List.filter_sublist).imp (fun h => by omega)
  · simp only [Spec.part, List.mem_filter, List.mem_map, decide_eq_true_eq]
    constructor
    · rintro ⟨⟨_, hx2⟩, h1, h2⟩
      obtain ⟨k, rfl⟩ := Nat.exists_eq_add_of_le h1
      have hk : k < b.length := by omega
      have := placed_listed hql hk
      simp only [List.length_nil, Nat.zero_add] at this
      exact ⟨k, ⟨this, by rw [← hf k hk]; exact hx2⟩, rfl⟩
    · rintro ⟨k, ⟨hk, hg⟩, rfl⟩
      have hk := hQlen k hk
      exact ⟨⟨placed_listed hpl hk, by rw [hf k hk]; exact hg⟩, by omega, by omega⟩

section
variable {o : Opts} {pre b post A C : List Str} {P Q : Parsed}

theorem alike_block (h : parse o (pre ++ b ++ post) = .ok P) (h' : parse o b = .ok Q) (hb : Spec.Block o b)
    (hp : Spec.Closed o post) : Spec.Alike P (Conf.Spec.input o pre).length Q 0 b.length := by
  have hq : parse o ([] ++ b ++ []) = .ok Q := by rw [List.nil_append, List.append_nil]; exact h'
  have hnil : Spec.Closed o [] := by intro a t c e; cases a <;> cases e
  have := C217_block h hq hb hp hnil
  have hi : Conf.Spec.input o [] = [] := by unfold Conf.Spec.input; split <;> rfl
  rwa [hi] at this

theorem search_children (ha : Spec.Alike P (Conf.Spec.input o pre).length Q 0 b.length) {k : Nat} (hk : k < b.length) (c : Rx)
    (r : Bool) : (reSearchChildren P ((Conf.Spec.input o pre).length + k) c r).isEmpty = (reSearchChildren Q k c r).isEmpty := by
  obtain ⟨_, ⟨C, hC, c1, c2⟩, A, hA, a1, a2⟩ := ha k hk
  simp only [Nat.zero_add, List.map_id'] at c2 a2
  have key : ∀ L : List Nat, (∀ x ∈ L, x < b.length) →
      ((L.map ((Conf.Spec.input o pre).length + ·)).filter (fun x => reSearch c (P.h x).text)).isEmpty =
        (L.filter (fun x => reSearch c (Q.h x).text)).isEmpty := by
    intro L hL
    rw [List.filter_map, List.isEmpty_map]
    congr 1
    refine List.filter_congr (fun x hx => ?_)
    have := (ha x (hL x hx)).1
    rw [Nat.zero_add] at this
    show reSearch c (P.h (_ + x)).text = _
    rw [this]
  unfold reSearchChildren
  cases r with
  | true => rw [if_pos rfl, if_pos rfl, a1, a2]; exact key A hA
  | false => rw [if_neg (by decide), if_neg (by decide), c1, c2]; exact key C hC

/-- C220: what `find_objects`, `find_parent_objects` (and `find_parents_w_child`, `find_objects_w_child`),
`find_parent_objects_wo_child`, `find_objects_w_all_children` and `find_objects_w_missing_children` find in a block of a
configuration is what they find in the block alone, in the same order. -/
theorem C220_parents (h : parse o (pre ++ b ++ post) = .ok P) (h' : parse o b = .ok Q) (hb : Spec.Block o b)
    (hp : Spec.Closed o post) (p c : Rx) (cs : List Rx) (r : Bool) :
    let w := (Conf.Spec.input o pre).length
    Spec.part w b.length (findObjects P p) = (findObjects Q p).map (w + ·) ∧
    Spec.part w b.length (findParentObjects P p c r) = (findParentObjects Q p c r).map (w + ·) ∧
    Spec.part w b.length (findParentObjectsWoChild P p c r) = (findParentObjectsWoChild Q p c r).map (w + ·) ∧
    Spec.part w b.length (findWAllChildren P p cs r) = (findWAllChildren Q p cs r).map (w + ·) ∧
    Spec.part w b.length (findWMissingChildren P p cs) = (findWMissingChildren Q p cs).map (w + ·) := by
  have ha := alike_block h h' hb hp
  have ht : ∀ k < b.length, p.search (P.h ((Conf.Spec.input o pre).length + k)).text = p.search (Q.h k).text := by
    intro k hk
    have := (ha k hk).1
    rw [Nat.zero_add] at this
    rw [this]
  have hs := fun k (hk : k < b.length) c r => search_children ha hk c r
  refine ⟨part_filter h h' hb hp ht, ?_, ?_, ?_, ?_⟩
  · rw [findParentObjects, findParentObjects, findObjects, findObjects, List.filter_filter, List.filter_filter]
    exact part_filter h h' hb hp (fun k hk => by simp only [ht k hk, hs k hk])
  · rw [findParentObjectsWoChild, findParentObjectsWoChild, findObjects, findObjects, List.filter_filter, List.filter_filter]
    exact part_filter h h' hb hp (fun k hk => by simp only [ht k hk, hs k hk])
  · rw [findWAllChildren, findWAllChildren, findObjects, findObjects, List.filter_filter, List.filter_filter]
    exact part_filter h h' hb hp (fun k hk => by simp only [ht k hk, hs k hk])
  · rw [findWMissingChildren, findWMissingChildren, findObjects, findObjects, List.filter_filter, List.filter_filter]
    exact part_filter h h' hb hp (fun k hk => by simp only [ht k hk, hs k hk])

/-- Without banners and macros the lines that have a line of the block as a child are in the block. -/
theorem parent_inside (hpl : Placed o (pre ++ b ++ post) A b C P)
    (h1 : ∀ l ∈ pre ++ b ++ post, ∀ d, ¬ Conf.Spec.BannerHead (rstrip l) d)
    (h2 : ∀ l ∈ pre ++ b ++ post, ¬ "macro name ".toList <+: l) {i m : Nat} (hi : i ∈ P.list) (hm : m < b.length)
    (hc : A.length + m ∈ (P.h i).children) : ∃ k < b.length, i = A.length + k := by
  obtain ⟨X, Y, Z, he, ⟨_, hX⟩, ⟨_, hY⟩, ⟨_, hZ⟩⟩ := C22_children hpl.parse hi
  rw [he, List.mem_append, List.mem_append, hX, hY, hZ] at hc
  have hmem := input_mem o (pre ++ b ++ post)
  rcases hc with (⟨_, _, hr⟩ | ⟨hl, _, hlt, d, ⟨hh, _⟩, _⟩) | ⟨hl, _, hlt, hh, _⟩
  · rw [hpl.split] at hr
    obtain ⟨q, rfl, hr⟩ := (rule_shift hpl.block hm i).mp hr
    refine ⟨q, ?_, rfl⟩
    rcases hr with ⟨_, hr, _⟩ | ⟨_, hr⟩ <;> omega
  · exact absurd hh (h1 _ (hmem i (by omega)) d)
  · exact absurd hh (h2 _ (hmem i (by omega)))

theorem desc_inside (hpl : Placed o (pre ++ b ++ post) A b C P)
    (h1 : ∀ l ∈ pre ++ b ++ post, ∀ d, ¬ Conf.Spec.BannerHead (rstrip l) d)
    (h2 : ∀ l ∈ pre ++ b ++ post, ¬ "macro name ".toList <+: l) {i x : Nat} (hi : i ∈ P.list) (hd : Spec.Desc P i x) :
    ∀ m < b.length, x = A.length + m → ∃ k < b.length, i = A.length + k := by
  have ht := tree_of_parse hpl.parse
  induction hd with
  | child hc => rintro m hm rfl; exact parent_inside hpl h1 h2 hi hm hc
  | step hc hd ih =>
    rintro m hm e
    obtain ⟨k, hk, e'⟩ := ih (ht.kids _ hi _ hc).1 m hm e
    rw [e'] at hc
    exact parent_inside hpl h1 h2 hi hk hc

/-- C220: what `find_child_objects` (and `find_objects_w_parents`) finds in a block of a
configuration without banners and macros is what it finds in the block alone. -/
theorem C220_children (h : parse o (pre ++ b ++ post) = .ok P) (h' : parse o b = .ok Q) (hb : Spec.Block o b)
    (hp : Spec.Closed o post) (h1 : ∀ l ∈ pre ++ b ++ post, ∀ d, ¬ Conf.Spec.BannerHead (rstrip l) d)
    (h2 : ∀ l ∈ pre ++ b ++ post, ¬ "macro name ".toList <+: l) (p c : Rx) (r : Bool) :
    let w := (Conf.Spec.input o pre).length
    Spec.part w b.length (findChildObjects P p c r) = (findChildObjects Q p c r).map (w + ·) := by
  intro w
  have hpl := placed_of h hb hp
  have hq : parse o ([] ++ b ++ []) = .ok Q := by rw [List.nil_append, List.append_nil]; exact h'
  have hnil : Spec.Closed o [] := by intro a t c e; cases a <;> cases e
  have hql := placed_of hq hb hnil
  have hin : Conf.Spec.input o [] = [] := by unfold Conf.Spec.input; split <;> rfl
  rw [hin] at hql
  have kP := C32_children h (C33_kids h h1 h2) p c
  have kQ := C32_children h' (C33_kids h' (fun l hl => h1 l (by simp [hl])) (fun l hl => h2 l (by simp [hl]))) p c
  have tP := tree_of_parse h
  have tQ := tree_of_parse h'
  have qlen : ∀ x ∈ Q.list, x < b.length := by
    intro x hx
    have := h'
    rw [Conf.parse, input_eq, input_block hb] at this
    exact ((mem_list this).mp hx).1
  have qlist : ∀ k < b.length, k ∈ Q.list := fun k hk => by
    have := placed_listed hql hk
    simpa using this
  have ttext : ∀ k < b.length, (P.h (w + k)).text = (Q.h k).text := fun k hk => by
    have := placed_text hql hk
    simp only [List.length_nil, Nat.zero_add] at this
    rw [placed_text hpl hk, this]
  have tkids : ∀ k < b.length, ∀ m, w + m ∈ (P.h (w + k)).children ↔ m ∈ (Q.h k).children := fun k hk m => by
    have := (placed_children hql hk).2 m
    simp only [List.length_nil, Nat.zero_add] at this
    rw [(placed_children hpl hk).2, this]
    constructor
    · rintro ⟨x, hx, e, hr⟩; exact ⟨x, hx, by omega, hr⟩
    · rintro ⟨x, hx, e, hr⟩; exact ⟨x, hx, by omega, hr⟩
  have tdesc : ∀ k < b.length, ∀ m, Spec.Desc P (w + k) (w + m) ↔ Spec.Desc Q k m := fun k hk m => by
    have := placed_desc hql hk m
    simp only [List.length_nil, Nat.zero_add] at this
    rw [placed_desc hpl hk, this]
    constructor
    · rintro ⟨x, e, hr⟩; exact ⟨x, by omega, hr⟩
    · rintro ⟨x, e, hr⟩; exact ⟨x, by omega, hr⟩
  have mem : ∀ m < b.length, (w + m ∈ findChildObjects P p c r ↔ m ∈ findChildObjects Q p c r) := by
    intro m hm
    cases r with
    | false =>
      rw [kP.1, kQ.1, ttext m hm]
      refine and_congr_right fun _ => ⟨?_, ?_⟩
      · rintro ⟨i, hi, hmt, hc⟩
        obtain ⟨k, hk, rfl⟩ := parent_inside hpl h1 h2 hi hm hc
        exact ⟨k, qlist k hk, by rw [← ttext k hk]; exact hmt, (tkids k hk m).mp hc⟩
      · rintro ⟨k, hk, hmt, hc⟩
        have hk := qlen k hk
        exact ⟨w + k, placed_listed hpl hk, by rw [ttext k hk]; exact hmt, (tkids k hk m).mpr hc⟩
    | true =>
      rw [kP.2.1, kQ.2.1, ttext m hm]
      refine and_congr_right fun _ => ⟨?_, ?_⟩
      · rintro ⟨i, hi, hmt, hc⟩
        obtain ⟨k, hk, rfl⟩ := desc_inside hpl h1 h2 hi hc m hm rfl
        exact ⟨k, qlist k hk, by rw [← ttext k hk]; exact hmt, (tdesc k hk m).mp hc⟩
      · rintro ⟨k, hk, hmt, hc⟩
        have hk := qlen k hk
        exact ⟨w + k, placed_listed hpl hk, by rw [ttext k hk]; exact hmt, (tdesc k hk m).mpr hc⟩
  have lP : ∀ x ∈ findChildObjects P p c r, x ∈ P.list := by
    intro x hx
    cases r with
    | false => obtain ⟨_, i, hi, _, hc⟩ := (kP.1 x).mp hx; exact (tP.kids i hi x hc).1
    | true => obtain ⟨_, i, hi, _, hc⟩ := (kP.2.1 x).mp hx; exact (desc_lt tP hi hc).1
  have lQ : ∀ x ∈ findChildObjects Q p c r, x ∈ Q.list := by
    intro x hx
    cases r with
    | false => obtain ⟨_, i, hi, _, hc⟩ := (kQ.1 x).mp hx; exact (tQ.kids i hi x hc).1
    | true => obtain ⟨_, i, hi, _, hc⟩ := (kQ.2.1 x).mp hx; exact (desc_lt tQ hi hc).1
  have sorted : ∀ {R : Parsed} (_ : Tree R) {l : List Nat}, (∀ x ∈ l, x ∈ R.list) → Spec.Ordered R l → l.Pairwise (· < ·) := by
    intro R tR l hl ho
    refine List.Pairwise.imp_of_mem ?_ ho
    intro x y hx hy hxy
    rw [tR.num x (hl x hx), tR.num y (hl y hy)] at hxy
    omega
  refine eq_of_sorted_mem ?_ ?_ (fun x => ?_)
  · exact (sorted tP lP (kP.2.2 r)).sublist List.filter_sublist
  · rw [List.pairwise_map]
    exact (sorted tQ lQ (kQ.2.2 r)).imp (fun h => by omega)
  · simp only [Spec.part, List.mem_filter, List.mem_map, decide_eq_true_eq]
    constructor
    · rintro ⟨hx, hw, hx2⟩
      obtain ⟨m, rfl⟩ := Nat.exists_eq_add_of_le hw
      exact ⟨m, (mem m (by omega)).mp hx, rfl⟩
    · rintro ⟨m, hm, rfl⟩
      have hml := qlen m (lQ m hm)
      exact ⟨(mem m hml).mpr hm, by omega, by omega⟩

end

/-- A literal text as an expression. -/
def rxOf (w : String) : Rx := ⟨w.toList, fun t => if isInfix w.toList t then some w.toList else none⟩

/-- The hypotheses of C220 hold of the sample block between other lines, for the parent `Gi` and the child `mtu`. -/
example : ∃ P Q, parse {} (["interface Gi0/9".toList, " mtu 9".toList] ++ localBlock ++ localPost) = .ok P ∧
    parse {} localBlock = .ok Q ∧ Spec.Block {} localBlock ∧ Spec.Closed {} localPost ∧
    (findParentObjects P (rxOf "Gi") (rxOf "mtu") false = [0, 2] ∧ findParentObjects Q (rxOf "Gi") (rxOf "mtu") false = [0] ∧
      findChildObjects P (rxOf "Gi") (rxOf "mtu") true = [1, 3] ∧ findChildObjects Q (rxOf "Gi") (rxOf "mtu") true = [1]) :=
  ⟨_, _, rfl, rfl, localBlock_ok, localPost_ok, by decide +kernel⟩

example : ∀ l ∈ ["interface Gi0/9".toList, " mtu 9".toList] ++ localBlock ++ localPost,
    (∀ d, ¬ Conf.Spec.BannerHead (rstrip l) d) ∧ ¬ "macro name ".toList <+: l := by
  have hh : ∀ l ∈ ["interface Gi0/9".toList, " mtu 9".toList] ++ localBlock ++ localPost,
      ¬ "banner".toList <:+: rstrip l ∧ ¬ "macro name ".toList <+: l := by decide +kernel
  intro l hl
  refine ⟨?_, (hh l hl).2⟩
  rintro d ⟨sets, c, word, ws, rest, e, _⟩
  exact (hh l hl).1 ⟨sets, [c] ++ word ++ ws ++ d :: rest, by rw [e]; simp⟩

end Query

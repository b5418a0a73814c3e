import Verif.Edit.Inv
import Verif.Edit.Lemmas
import Verif.Query.Props

/-! # A block of a configuration is read the same wherever it stands (C217) -/

namespace Query.Spec

open Py Conf

/-- A block: a configuration line that is not indented, and indented lines below it; none of them starts a banner or a
macro. -/
structure Block (o : Opts) (b : List Str) : Prop where
  head : ∃ t r, b = t :: r ∧ Conf.Spec.config o.delims t ∧ Conf.Spec.indent t = 0 ∧ ∀ u ∈ r, 0 < Conf.Spec.indent u
  banner : ∀ t ∈ b, ∀ d, ¬ Conf.Spec.BannerHead (rstrip t) d
  mac : ∀ t ∈ b, ¬ "macro name ".toList <+: t

/-- Each indented line has a configuration line that is not indented before it, so none belongs to what stands before
all of them. -/
def Closed (o : Opts) (l : List Str) : Prop :=
  ∀ a t c, l = a ++ t :: c → 0 < Conf.Spec.indent t → ∃ u ∈ a, Conf.Spec.config o.delims u ∧ Conf.Spec.indent u = 0

/-- `n` lines from `w` of one configuration and from `v` of another have the same texts, children and descendants, if
they are counted from `w` and from `v`. -/
def Alike (P : Parsed) (w : Nat) (Q : Parsed) (v n : Nat) : Prop :=
  ∀ k < n, (P.h (w + k)).text = (Q.h (v + k)).text ∧
    (∃ C : List Nat, (∀ c ∈ C, c < n) ∧ (P.h (w + k)).children = C.map (w + ·) ∧ (Q.h (v + k)).children = C.map (v + ·)) ∧
    ∃ A : List Nat, (∀ a ∈ A, a < n) ∧ allChildren P (w + k) = A.map (w + ·) ∧ allChildren Q (v + k) = A.map (v + ·)

end Query.Spec

namespace Query

open Py Conf

/-! ## Lines of the block -/

section
variable {A b C : List Str}

theorem at_block {k : Nat} (hk : k < b.length) : lineAt (A ++ (b ++ C)) (A.length + k) = lineAt b k := by
  simp only [lineAt, List.getD_eq_getElem?_getD]
  rw [List.getElem?_append_right (by omega), List.getElem?_append_left (by omega)]
  simp

theorem at_mem {k : Nat} (hk : k < b.length) : lineAt b k ∈ b := by
  simp only [lineAt, List.getD_eq_getElem?_getD, List.getElem?_eq_getElem hk, Option.getD_some]
  exact List.getElem_mem hk

theorem at_after (m : Nat) : lineAt (A ++ (b ++ C)) (A.length + b.length + m) = lineAt C m := by
  simp only [lineAt, List.getD_eq_getElem?_getD]
  rw [List.getElem?_append_right (by omega), List.getElem?_append_right (by omega)]
  congr 2; omega

variable {o : Opts}

theorem block_head (hb : Spec.Block o b) : 0 < b.length ∧ Conf.Spec.config o.delims (lineAt b 0) ∧ Conf.Spec.indent (lineAt b 0) = 0 := by
  obtain ⟨t, r, rfl, h1, h2, _⟩ := hb.head
  exact ⟨by simp, h1, h2⟩

theorem block_rest (hb : Spec.Block o b) {k : Nat} (hk : k < b.length) (h0 : k ≠ 0) : 0 < Conf.Spec.indent (lineAt b k) := by
  obtain ⟨t, r, rfl, _, _, h3⟩ := hb.head
  cases k with
  | zero => exact absurd rfl h0
  | succ k =>
    have : lineAt (t :: r) (k + 1) = lineAt r k := rfl
    rw [this]
    exact h3 _ (at_mem (by simpa using hk))

theorem indent_nil : Conf.Spec.indent [] = 0 := rfl

theorem closed_at (hC : Spec.Closed o C) {m : Nat} (h : 0 < Conf.Spec.indent (lineAt C m)) :
    ∃ q < m, Conf.Spec.config o.delims (lineAt C q) ∧ Conf.Spec.indent (lineAt C q) = 0 := by
  by_cases hm : m < C.length
  · have e : C = C.take m ++ C[m] :: C.drop (m + 1) := by simp
    have hl : lineAt C m = C[m] := by simp [lineAt, List.getD_eq_getElem?_getD, List.getElem?_eq_getElem hm]
    rw [hl] at h
    obtain ⟨u, hu, h1, h2⟩ := hC _ _ _ e h
    obtain ⟨q, hq, rfl⟩ := List.mem_take_iff_getElem.mp hu
    have hq' : q < C.length := by omega
    have hl : lineAt C q = C[q] := by simp [lineAt, List.getD_eq_getElem?_getD, List.getElem?_eq_getElem hq']
    exact ⟨q, by omega, by rw [hl]; exact h1, by rw [hl]; exact h2⟩
  · have : lineAt C m = [] := by simp [lineAt, List.getD_eq_getElem?_getD, List.getElem?_eq_none (Nat.le_of_not_lt hm)]
    rw [this, indent_nil] at h
    exact absurd h (by omega)

/-! ## The parent rule -/

theorem nearest_shift (hb : Spec.Block o b) {k : Nat} (hk : k < b.length) (p : Nat) :
    Conf.Spec.Nearest o.delims (lineAt (A ++ (b ++ C))) (A.length + k) p ↔
      ∃ q, p = A.length + q ∧ Conf.Spec.Nearest o.delims (lineAt b) k q := by
  obtain ⟨h0, h1, h2⟩ := block_head hb
  constructor
  · rintro ⟨e1, e2, e3, e4⟩
    rw [at_block hk] at e3 e4
    have hk0 : k ≠ 0 := by rintro rfl; rw [h2] at e3; omega
    have hp : A.length ≤ p := by
      refine Nat.le_of_not_lt fun hlt => ?_
      have := e4 A.length hlt (by omega) (by rw [show A.length = A.length + 0 from rfl, at_block h0]; exact h1)
      rw [show lineAt (A ++ (b ++ C)) A.length = lineAt b 0 from at_block (k := 0) h0, h2] at this
      have := block_rest hb hk hk0
      omega
    obtain ⟨q, rfl⟩ := Nat.exists_eq_add_of_le hp
    have hq : q < b.length := by omega
    rw [at_block hq] at e2 e3
    refine ⟨q, rfl, by omega, e2, e3, fun r hr1 hr2 hr3 => ?_⟩
    have hr : r < b.length := by omega
    have := e4 (A.length + r) (by omega) (by omega) (by rw [at_block hr]; exact hr3)
    rwa [at_block hr] at this
  · rintro ⟨q, rfl, e1, e2, e3, e4⟩
    have hq : q < b.length := by omega
    refine ⟨by omega, by rw [at_block hq]; exact e2, by rw [at_block hq, at_block hk]; exact e3, fun r hr1 hr2 hr3 => ?_⟩
    obtain ⟨r, rfl⟩ := Nat.exists_eq_add_of_le (show A.length ≤ r by omega)
    have hr : r < b.length := by omega
    rw [at_block hr] at hr3 ⊢
    rw [at_block hk]
    exact e4 r (by omega) (by omega) hr3

theorem unattached_shift (hb : Spec.Block o b) {k : Nat} (hk : k < b.length) :
    Conf.Spec.Unattached o.delims (lineAt (A ++ (b ++ C))) (A.length + k) ↔ Conf.Spec.Unattached o.delims (lineAt b) k := by
  obtain ⟨h0, h1, h2⟩ := block_head hb
  unfold Conf.Spec.Unattached
  rw [at_block hk]
  cases k with
  | zero => exact ⟨fun h => absurd h.1 h1.2, fun h => absurd h.1 h1.2⟩
  | succ k =>
    rw [show A.length + (k + 1) - 1 = A.length + k from by omega, at_block (k := k) (by omega)]
    simp
    intros; omega

theorem rule_shift (hb : Spec.Block o b) {k : Nat} (hk : k < b.length) (p : Nat) :
    Conf.Spec.ParentRule o.delims (lineAt (A ++ (b ++ C))) (A.length + k) p ↔
      ∃ q, p = A.length + q ∧ Conf.Spec.ParentRule o.delims (lineAt b) k q := by
  unfold Conf.Spec.ParentRule
  rw [nearest_shift hb hk, unattached_shift hb hk]
  constructor
  · rintro (⟨h1, q, rfl, h2⟩ | ⟨h1, rfl⟩)
    · exact ⟨q, rfl, Or.inl ⟨h1, h2⟩⟩
    · refine ⟨k, rfl, Or.inr ⟨h1.imp id (fun h q hq => ?_), rfl⟩⟩
      exact h (A.length + q) ((nearest_shift hb hk _).mpr ⟨q, rfl, hq⟩)
  · rintro ⟨q, rfl, ⟨h1, h2⟩ | ⟨h1, rfl⟩⟩
    · exact Or.inl ⟨h1, q, rfl, h2⟩
    · refine Or.inr ⟨h1.imp id (fun h p hp => ?_), rfl⟩
      obtain ⟨q, rfl, hq⟩ := (nearest_shift hb hk _).mp hp
      exact h q hq

/-- A line that has a line of the block as another parent is in the block. -/
theorem rule_inside (hC : Spec.Closed o C) {k c : Nat} (hk : k < b.length)
    (h : Conf.Spec.ParentRule o.delims (lineAt (A ++ (b ++ C))) c (A.length + k)) (hne : c ≠ A.length + k) :
    ∃ m < b.length, c = A.length + m := by
  rcases h with ⟨_, e1, e2, e3, e4⟩ | ⟨_, e⟩
  · by_cases hc : c < A.length + b.length
    · obtain ⟨m, rfl⟩ := Nat.exists_eq_add_of_le (show A.length ≤ c by omega)
      exact ⟨m, by omega, rfl⟩
    · obtain ⟨m, rfl⟩ := Nat.exists_eq_add_of_le (Nat.le_of_not_lt hc)
      rw [at_after] at e3 e4
      obtain ⟨q, hq, h1, h2⟩ := closed_at hC (m := m) (by omega)
      have := e4 (A.length + b.length + q) (by omega) (by omega) (by rw [at_after]; exact h1)
      rw [at_after, h2] at this
      omega
  · exact absurd e.symm hne

end

/-! ## Children and descendants -/

section
variable {o : Opts} {lines A b C : List Str} {P : Parsed}

/-- What the lines of the block are in the parsed configuration. -/
structure Placed (o : Opts) (lines A b C : List Str) (P : Parsed) : Prop where
  parse : parse o lines = .ok P
  split : Conf.Spec.input o lines = A ++ (b ++ C)
  block : Spec.Block o b
  closed : Spec.Closed o C

theorem not_blank {t : Str} (h : 0 < Conf.Spec.indent t) : ¬ Conf.Spec.blank t := by
  intro hb
  have hr : rstrip t = [] := by
    exact rstrip_blank hb
  rw [Conf.Spec.indent, hr] at h
  exact absurd h (by simp)
where
  rstrip_blank {t : Str} (hb : Conf.Spec.blank t) : rstrip t = [] := by
    rw [rstrip, show List.dropWhile isSpace t.reverse = [] from (lstrip_nil_iff t.reverse).mpr (fun c hc => hb c (List.mem_reverse.mp hc))]; rfl

theorem placed_listed (h : Placed o lines A b C P) {k : Nat} (hk : k < b.length) : A.length + k ∈ P.list := by
  have hp := h.parse
  rw [Conf.parse, input_eq, h.split] at hp
  rw [mem_list hp, at_block hk]
  refine ⟨by simp; omega, Or.inr (Or.inl ?_)⟩
  obtain ⟨_, h1, _⟩ := block_head h.block
  by_cases h0 : k = 0
  · rw [h0]; exact h1.1
  · exact not_blank (block_rest h.block hk h0)

theorem placed_text (h : Placed o lines A b C P) {k : Nat} (hk : k < b.length) :
    (P.h (A.length + k)).text = rstrip (lineAt b k) := by
  have hp := h.parse
  rw [Conf.parse, input_eq, h.split] at hp
  have := (attrs hp (j := A.length + k) (by simp; omega)).1
  rw [at_block hk] at this
  exact this

theorem placed_children (h : Placed o lines A b C P) {k : Nat} (hk : k < b.length) :
    (P.h (A.length + k)).children.Pairwise (· < ·) ∧
    ∀ c, c ∈ (P.h (A.length + k)).children ↔
      ∃ m < b.length, c = A.length + m ∧ m ≠ k ∧ Conf.Spec.ParentRule o.delims (lineAt b) m k := by
  obtain ⟨X, Y, Z, he, ⟨hX1, hX⟩, ⟨_, hY⟩, ⟨_, hZ⟩⟩ := C22_children h.parse (placed_listed h hk)
  rw [h.split] at hX hY hZ
  have hY0 : Y = [] := by
    rw [List.eq_nil_iff_forall_not_mem]
    intro c hc
    obtain ⟨_, _, _, d, ⟨hh, _⟩, _⟩ := (hY c).mp hc
    rw [at_block hk] at hh
    exact h.block.banner _ (at_mem hk) d hh
  have hZ0 : Z = [] := by
    rw [List.eq_nil_iff_forall_not_mem]
    intro c hc
    obtain ⟨_, _, _, hh, _⟩ := (hZ c).mp hc
    rw [at_block hk] at hh
    exact h.block.mac _ (at_mem hk) hh
  rw [hY0, hZ0, List.append_nil, List.append_nil] at he
  rw [he]
  refine ⟨hX1, fun c => ?_⟩
  rw [hX]
  constructor
  · rintro ⟨_, hne, hr⟩
    obtain ⟨m, hm, rfl⟩ := rule_inside h.closed hk hr hne
    obtain ⟨q, hq, hr'⟩ := (rule_shift h.block hm _).mp hr
    have : q = k := by omega
    subst this
    exact ⟨m, hm, rfl, by omega, hr'⟩
  · rintro ⟨m, hm, rfl, hne, hr⟩
    refine ⟨by simp; omega, by omega, (rule_shift h.block hm _).mpr ⟨k, rfl, hr⟩⟩

/-- The descendants inside the block. -/
inductive Below (o : Opts) (b : List Str) : Nat → Nat → Prop
  | child {k m : Nat} : m < b.length → m ≠ k → Conf.Spec.ParentRule o.delims (lineAt b) m k → Below o b k m
  | step {k m x : Nat} : m < b.length → m ≠ k → Conf.Spec.ParentRule o.delims (lineAt b) m k → Below o b m x → Below o b k x

theorem below_lt {k x : Nat} (h : Below o b k x) : x < b.length := by
  induction h with
  | child h => exact h
  | step _ _ _ _ ih => exact ih

theorem placed_desc (h : Placed o lines A b C P) {k : Nat} (hk : k < b.length) (x : Nat) :
    Spec.Desc P (A.length + k) x ↔ ∃ m, x = A.length + m ∧ Below o b k m := by
  constructor
  · intro hx
    generalize he : A.length + k = i at hx
    induction hx generalizing k with
    | child hc =>
      subst he
      obtain ⟨m, hm, rfl, hne, hr⟩ := ((placed_children h hk).2 _).mp hc
      exact ⟨m, rfl, .child hm hne hr⟩
    | step hc _ ih =>
      subst he
      obtain ⟨m, hm, rfl, hne, hr⟩ := ((placed_children h hk).2 _).mp hc
      obtain ⟨y, rfl, hy⟩ := ih hm rfl
      exact ⟨y, rfl, .step hm hne hr hy⟩
  · rintro ⟨m, rfl, hm⟩
    induction hm with
    | child h1 h2 h3 => exact .child (((placed_children h hk).2 _).mpr ⟨_, h1, rfl, h2, h3⟩)
    | step h1 h2 h3 _ ih => exact .step (((placed_children h hk).2 _).mpr ⟨_, h1, rfl, h2, h3⟩) (ih h1)

theorem rule_head {k : Nat} (hne : 0 ≠ k)
    (h : Conf.Spec.ParentRule o.delims (lineAt b) 0 k) : False := by
  rcases h with ⟨_, h, _⟩ | ⟨_, h⟩ <;> omega

theorem below_pos {k x : Nat} (h : Below o b k x) : x ≠ 0 := by
  induction h with
  | child _ h2 h3 => rintro rfl; exact rule_head h2 h3
  | step _ _ _ _ ih => exact ih

theorem placed_all (h : Placed o lines A b C P) {k : Nat} (hk : k < b.length) :
    (allChildren P (A.length + k)).Pairwise (· < ·) ∧
    ∀ x, x ∈ allChildren P (A.length + k) ↔ ∃ m, x = A.length + m ∧ Below o b k m := by
  have ht := tree_of_parse h.parse
  have hi := placed_listed h hk
  have hkeys : Edit.Keys P (Spec.Desc P (A.length + k)) := by
    intro x y hx hy he
    have hd : ∀ z, Spec.Desc P (A.length + k) z → z ∈ P.list ∧ ∀ c, (P.h z).text.head? = some c → isDigit c = false := by
      intro z hz
      refine ⟨(desc_lt ht hi hz).1, ?_⟩
      obtain ⟨m, rfl, hm⟩ := (placed_desc h hk z).mp hz
      rw [placed_text h (below_lt hm)]
      intro c hc
      exact head_of_indent (block_rest h.block (below_lt hm) (below_pos hm)) hc
    exact (C43_eq_partial h.parse (hd x hx).1 (hd y hy).1 (hd x hx).2 (hd y hy).2).mp he
  have hmem : ∀ x, x ∈ allChildren P (A.length + k) ↔ Spec.Desc P (A.length + k) x := fun x =>
    Edit.mem_allChildren' (Edit.wf_parse h.parse) (ht.lt _ hi) hkeys
  refine ⟨?_, fun x => by rw [hmem, placed_desc h hk]⟩
  refine List.Pairwise.imp_of_mem ?_ (allChildren_ordered ht hi)
  intro x y hx hy hxy
  rw [ht.num x (desc_lt ht hi ((hmem x).mp hx)).1, ht.num y (desc_lt ht hi ((hmem y).mp hy)).1] at hxy
  omega

end

/-! ## C217 -/

theorem sorted_shift {l : List Nat} {w : Nat} (hl : l.Pairwise (· < ·)) (hw : ∀ x ∈ l, w ≤ x) {v : Nat} {l' : List Nat}
    (hl' : l'.Pairwise (· < ·)) (h : ∀ m, w + m ∈ l ↔ v + m ∈ l') (hv : ∀ x ∈ l', v ≤ x) :
    l = (l.map (· - w)).map (w + ·) ∧ l' = (l.map (· - w)).map (v + ·) := by
  have e1 : l = (l.map (· - w)).map (w + ·) := by
    rw [List.map_map]
    conv => lhs; rw [← List.map_id l]
    refine List.map_congr_left (fun x hx => ?_)
    have := hw x hx
    simp; omega
  refine ⟨e1, eq_of_sorted_mem hl' ?_ (fun x => ?_)⟩
  · rw [List.map_map, List.pairwise_map]
    refine List.Pairwise.imp_of_mem ?_ hl
    intro x y hx hy hxy
    have := hw x hx
    have := hw y hy
    simp; omega
  · rw [List.map_map, List.mem_map]
    constructor
    · intro hx
      obtain ⟨m, rfl⟩ := Nat.exists_eq_add_of_le (hv x hx)
      exact ⟨w + m, (h m).mpr hx, by simp⟩
    · rintro ⟨y, hy, rfl⟩
      obtain ⟨m, rfl⟩ := Nat.exists_eq_add_of_le (hw y hy)
      have := (h m).mp hy
      simpa using this

theorem placed_alike {o : Opts} {lines A b C : List Str} {P : Parsed} {lines' A' C' : List Str} {Q : Parsed}
    (h : Placed o lines A b C P) (h' : Placed o lines' A' b C' Q) : Spec.Alike P A.length Q A'.length b.length := by
  intro k hk
  refine ⟨by rw [placed_text h hk, placed_text h' hk], ?_, ?_⟩
  · obtain ⟨h1, h2⟩ := placed_children h hk
    obtain ⟨h1', h2'⟩ := placed_children h' hk
    have hw : ∀ x ∈ (P.h (A.length + k)).children, A.length ≤ x := by
      intro x hx; obtain ⟨m, _, rfl, _⟩ := (h2 x).mp hx; omega
    obtain ⟨e1, e2⟩ := sorted_shift h1 hw h1' (v := A'.length) (fun m => by
      rw [h2, h2']
      constructor
      · rintro ⟨x, hx, he, hr⟩; exact ⟨x, hx, by omega, hr⟩
      · rintro ⟨x, hx, he, hr⟩; exact ⟨x, hx, by omega, hr⟩) (by
      intro x hx; obtain ⟨m, _, rfl, _⟩ := (h2' x).mp hx; omega)
    refine ⟨_, ?_, e1, e2⟩
    intro c hc
    obtain ⟨x, hx, rfl⟩ := List.mem_map.mp hc
    obtain ⟨m, hm, rfl, _⟩ := (h2 x).mp hx
    show A.length + m - A.length < b.length
    omega
  · obtain ⟨h1, h2⟩ := placed_all h hk
    obtain ⟨h1', h2'⟩ := placed_all h' hk
    have hw : ∀ x ∈ allChildren P (A.length + k), A.length ≤ x := by
      intro x hx; obtain ⟨m, rfl, _⟩ := (h2 x).mp hx; omega
    obtain ⟨e1, e2⟩ := sorted_shift h1 hw h1' (v := A'.length) (fun m => by
      rw [h2, h2']
      constructor
      · rintro ⟨x, he, hr⟩; exact ⟨x, by omega, hr⟩
      · rintro ⟨x, he, hr⟩; exact ⟨x, by omega, hr⟩) (by
      intro x hx; obtain ⟨m, rfl, _⟩ := (h2' x).mp hx; omega)
    refine ⟨_, ?_, e1, e2⟩
    intro c hc
    obtain ⟨x, hx, rfl⟩ := List.mem_map.mp hc
    obtain ⟨m, rfl, hm⟩ := (h2 x).mp hx
    have := below_lt hm
    show A.length + m - A.length < b.length
    omega

theorem input_append (o : Opts) (l m : List Str) : Conf.Spec.input o (l ++ m) = Conf.Spec.input o l ++ Conf.Spec.input o m := by
  unfold Conf.Spec.input
  split
  · rw [List.filter_append]
  · rfl

theorem input_block {o : Opts} {b : List Str} (hb : Spec.Block o b) : Conf.Spec.input o b = b := by
  unfold Conf.Spec.input
  split
  · rw [List.filter_eq_self]
    intro t ht
    rw [decide_eq_true_eq]
    rintro rfl
    obtain ⟨u, r, rfl, h1, _, h3⟩ := hb.head
    rcases List.mem_cons.mp ht with e | ht
    · exact h1.1 (by rw [← e]; intro c hc; cases hc)
    · exact absurd (h3 _ ht) (by rw [indent_nil]; omega)
  · rfl

theorem input_closed {o : Opts} {l : List Str} (h : Spec.Closed o l) : Spec.Closed o (Conf.Spec.input o l) := by
  unfold Conf.Spec.input
  split
  · intro a t c he hi
    obtain ⟨l1, l2, rfl, rfl, h2⟩ := List.filter_eq_append_iff.mp he
    obtain ⟨m1, m2, rfl, h3, h4, h5⟩ := List.filter_eq_cons_iff.mp h2
    obtain ⟨u, hu, hu1, hu2⟩ := h (l1 ++ m1) t m2 (by simp) hi
    refine ⟨u, ?_, hu1, hu2⟩
    rcases List.mem_append.mp hu with hu | hu
    · refine List.mem_filter.mpr ⟨hu, ?_⟩
      rw [decide_eq_true_eq]
      rintro rfl
      exact hu1.1 (by intro c hc; cases hc)
    · have := h3 u hu
      simp only [decide_eq_true_eq, ne_eq, Decidable.not_not] at this
      exact absurd (by rw [this]; intro c hc; cases hc) hu1.1
  · exact h

theorem placed_of {o : Opts} {pre b post : List Str} {P : Parsed} (h : parse o (pre ++ b ++ post) = .ok P)
    (hb : Spec.Block o b) (hp : Spec.Closed o post) :
    Placed o (pre ++ b ++ post) (Conf.Spec.input o pre) b (Conf.Spec.input o post) P :=
  ⟨h, by rw [input_append, input_append, input_block hb, List.append_assoc], hb, input_closed hp⟩

/-- C217: a block has the same texts, children and descendants whatever stands before it and behind it (what stands behind
it must not go on with indented lines). -/
theorem C217_block {o : Opts} {pre pre' b post post' : List Str} {P Q : Parsed} (h : parse o (pre ++ b ++ post) = .ok P)
    (h' : parse o (pre' ++ b ++ post') = .ok Q) (hb : Spec.Block o b) (hp : Spec.Closed o post) (hp' : Spec.Closed o post') :
    Spec.Alike P (Conf.Spec.input o pre).length Q (Conf.Spec.input o pre').length b.length :=
  placed_alike (placed_of h hb hp) (placed_of h' hb hp')

/-- C217: if no line of a block is a comment, the family of its first line is the block. -/
theorem C217_family {o : Opts} {pre b post : List Str} {P : Parsed} (h : parse o (pre ++ b ++ post) = .ok P)
    (hb : Spec.Block o b) (hp : Spec.Closed o post) (hc : ∀ t ∈ b, ¬ Conf.Spec.comment o.delims t) :
    (P.h (Conf.Spec.input o pre).length).text :: (allChildren P (Conf.Spec.input o pre).length).map (fun i => (P.h i).text) =
      b.map rstrip := by
  have hpl := placed_of h hb hp
  generalize Conf.Spec.input o pre = A at hpl ⊢
  generalize Conf.Spec.input o post = C at hpl
  obtain ⟨h0, hcfg, hind⟩ := block_head hb
  have hbelow : ∀ n m, m < n → m < b.length → m ≠ 0 → Below o b 0 m := by
    intro n
    induction n with
    | zero => intro m hm; omega
    | succ n ih =>
      intro m hm hl hne
      have hnu : ¬ Conf.Spec.Unattached o.delims (lineAt b) m := fun hu => hc _ (at_mem hl) hu.1
      have hr := sp_rule o (lineAt b) m
      generalize sp o (lineAt b) m = p at hr
      have hpm : p < m := by
        rcases hr with ⟨_, hr⟩ | ⟨hr, hpm⟩
        · exact hr.1
        · exfalso
          rcases hr with hr | hr
          · exact hnu hr
          · have hnear := nearest_exists hcfg (by rw [hind]; exact block_rest hb hl hne) (Nat.pos_of_ne_zero hne)
            obtain ⟨q, hq⟩ := hnear
            exact hr q hq
      by_cases hp0 : p = 0
      · subst hp0
        exact .child hl hne hr
      · exact below_snoc (ih p (by omega) (by omega) hp0) hl (by omega) hr
  have hall := placed_all hpl h0
  rw [Nat.add_zero] at hall
  have hlist : allChildren P A.length = (List.range' 1 (b.length - 1)).map (A.length + ·) := by
    refine eq_of_sorted_mem hall.1 ?_ (fun x => ?_)
    · rw [List.pairwise_map]
      exact (List.pairwise_lt_range' (s := 1) (n := b.length - 1)).imp (fun h => by omega)
    · rw [hall.2, List.mem_map]
      constructor
      · rintro ⟨m, rfl, hm⟩
        have h1 := below_lt hm
        have h2 := below_pos hm
        exact ⟨m, by rw [List.mem_range'_1]; omega, rfl⟩
      · rintro ⟨m, hm, rfl⟩
        rw [List.mem_range'_1] at hm
        exact ⟨m, rfl, hbelow (m + 1) m (by omega) (by omega) (by omega)⟩
  rw [hlist]
  have ht0 := placed_text hpl h0
  rw [Nat.add_zero] at ht0
  rw [ht0, List.map_map]
  refine List.ext_getElem ?_ (fun i hi1 hi2 => ?_)
  · simp; omega
  · rw [List.length_map] at hi2
    have hl : ∀ k, (hk : k < b.length) → lineAt b k = b[k] := fun k hk => by
      simp [lineAt, List.getD_eq_getElem?_getD, List.getElem?_eq_getElem hk]
    cases i with
    | zero => simp [hl 0 h0]
    | succ i =>
      simp only [List.getElem_cons_succ, List.getElem_map, Function.comp, List.getElem_range']
      rw [placed_text hpl (by omega), hl _ (by omega)]
      congr 2
      omega
where
  nearest_exists {o : Opts} {b : List Str} {m : Nat} (hcfg : Conf.Spec.config o.delims (lineAt b 0))
      (hi : Conf.Spec.indent (lineAt b 0) < Conf.Spec.indent (lineAt b m)) (hm : 0 < m) :
      ∃ q, Conf.Spec.Nearest o.delims (lineAt b) m q := by
    have key : ∀ n, n ≤ m → (∃ q, Conf.Spec.Nearest o.delims (lineAt b) m q) ∨
        ∀ q, m - n ≤ q → q < m → ¬ (Conf.Spec.config o.delims (lineAt b q) ∧ Conf.Spec.indent (lineAt b q) < Conf.Spec.indent (lineAt b m)) := by
      intro n
      induction n with
      | zero => intro _; right; intro q h1 h2; omega
      | succ n ih =>
        intro hn
        rcases ih (by omega) with hd | hd
        · exact Or.inl hd
        · by_cases hq : Conf.Spec.config o.delims (lineAt b (m - (n + 1))) ∧
              Conf.Spec.indent (lineAt b (m - (n + 1))) < Conf.Spec.indent (lineAt b m)
          · left
            refine ⟨m - (n + 1), by omega, hq.1, hq.2, fun r h1 h2 h3 => ?_⟩
            have := hd r (by omega) h2
            exact Nat.le_of_not_lt (fun hlt => this ⟨h3, hlt⟩)
          · right
            intro q h1 h2
            by_cases he : q = m - (n + 1)
            · rw [he]; exact hq
            · exact hd q (by omega) h2
    rcases key m (Nat.le_refl m) with hd | hd
    · exact hd
    · exact absurd ⟨hcfg, hi⟩ (hd 0 (by omega) hm)
  below_snoc {o : Opts} {b : List Str} {k x m : Nat} (h : Below o b k x) (hl : m < b.length) (hne : m ≠ x)
      (hr : Conf.Spec.ParentRule o.delims (lineAt b) m x) : Below o b k m := by
    induction h with
    | child h1 h2 h3 => exact .step h1 h2 h3 (.child hl hne hr)
    | step h1 h2 h3 _ ih => exact .step h1 h2 h3 (ih hne hr)

theorem config_head {ds : List Char} {t : Str} {c : Char} (h : t.head? = some c) (h1 : isSpace c = false) (h2 : c ∉ ds) :
    Conf.Spec.config ds t := by
  obtain ⟨r, rfl⟩ : ∃ r, t = c :: r := by
    cases t with
    | nil => cases h
    | cons x r => exact ⟨r, by rw [Option.some.inj h]⟩
  refine ⟨fun hb => absurd (hb c (by simp)) (by rw [h1]; decide), ?_⟩
  rintro ⟨ws, x, rest, e, hw, _, hx⟩
  cases ws with
  | nil => obtain ⟨rfl, _⟩ := List.cons.inj e; exact h2 hx
  | cons y ws =>
    obtain ⟨rfl, _⟩ := List.cons.inj e
    rw [hw c (by simp)] at h1
    cases h1

/-- A sample block. -/
def localBlock : List Str := ["interface Gi0/1".toList, " mtu 1400".toList, " ip address 1.1.1.1 255.255.255.0".toList]

theorem localBlock_ok : Spec.Block {} localBlock := by
  have hh : ∀ t ∈ localBlock, ¬ "banner".toList <:+: rstrip t := by decide +kernel
  refine ⟨⟨_, _, rfl, config_head (c := 'i') (by decide +kernel) (by decide) (by decide), by decide +kernel, by decide +kernel⟩, ?_,
    by decide +kernel⟩
  rintro t ht d ⟨sets, c, word, ws, rest, e, _⟩
  exact hh t ht ⟨sets, [c] ++ word ++ ws ++ d :: rest, by rw [e]; simp⟩

/-- What stands behind it: a separator, another interface. -/
def localPost : List Str := ["!".toList, "interface Gi0/2".toList, " shutdown".toList]

theorem localPost_ok : Spec.Closed {} localPost := by
  intro a t c e hi
  match a, e with
  | [], e => obtain ⟨rfl, _⟩ := List.cons.inj e; exact absurd hi (by decide +kernel)
  | [x], e =>
    obtain ⟨_, e⟩ := List.cons.inj e
    obtain ⟨rfl, _⟩ := List.cons.inj e
    exact absurd hi (by decide +kernel)
  | x :: y :: a, e =>
    obtain ⟨_, e⟩ := List.cons.inj e
    obtain ⟨rfl, _⟩ := List.cons.inj e
    exact ⟨_, List.mem_cons_of_mem _ (List.mem_cons_self ..), config_head (c := 'i') (by decide +kernel) (by decide) (by decide),
      by decide +kernel⟩

theorem localNil_ok : Spec.Closed {} [] := by
  intro a t c e
  cases a <;> cases e

/-- The hypotheses of C217 hold of the block between two others, and of the block below a banner that never ends. -/
example : ∃ P Q, parse {} (["hostname a".toList] ++ localBlock ++ localPost) = .ok P ∧
    parse {} (["banner motd ^".toList] ++ localBlock ++ []) = .ok Q ∧ Spec.Block {} localBlock ∧ Spec.Closed {} localPost ∧
    Spec.Closed {} [] ∧ (allChildren P 1 = [2, 3] ∧ (P.h 1).parent = 1 ∧ allChildren Q 1 = [2, 3] ∧ (Q.h 1).parent = 0) :=
  ⟨_, _, rfl, rfl, localBlock_ok, localPost_ok, localNil_ok, by decide +kernel⟩

end Query

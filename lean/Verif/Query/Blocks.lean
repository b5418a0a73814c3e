import Verif.Query.Compose
import Verif.Edit.Block

/-! # C229: the order of the blocks of a configuration does not matter to searches -/

namespace Query.Spec

open Py Conf

/-- The searches of C220, for any expressions. -/
inductive Search : (Parsed → List Nat) → Prop where
  | objects (p : Rx) : Search (fun P => findObjects P p)
  | parents (p c : Rx) (r : Bool) : Search (fun P => findParentObjects P p c r)
  | without (p c : Rx) (r : Bool) : Search (fun P => findParentObjectsWoChild P p c r)
  | all (p : Rx) (cs : List Rx) (r : Bool) : Search (fun P => findWAllChildren P p cs r)
  | missing (p : Rx) (cs : List Rx) : Search (fun P => findWMissingChildren P p cs)
  | children (p c : Rx) (r : Bool) : Search (fun P => findChildObjects P p c r)

/-- The texts of the lines that a search finds. -/
def found (q : Parsed → List Nat) (P : Parsed) : List Str := (q P).map (fun i => (P.h i).text)

/-- Each of the blocks is a block (C217) and can be parsed alone, with `t` the texts that the search finds in it. -/
structure Answers (o : Opts) (q : Parsed → List Nat) (b : List Str) (t : List Str) : Prop where
  block : Block o b
  alone : ∃ Q, parse o b = .ok Q ∧ found q Q = t

end Query.Spec

namespace Query

open Py Conf

variable {o : Opts} {P Q : Parsed}

theorem cut_sorted {l : List Nat} (h : l.Pairwise (· < ·)) (w n : Nat) :
    l.filter (fun i => decide (w ≤ i)) = Spec.part w n l ++ l.filter (fun i => decide (w + n ≤ i)) := by
  induction l with
  | nil => rfl
  | cons a l ih =>
    have h' := List.pairwise_cons.mp h
    have ih := ih h'.2
    rw [Spec.part] at ih ⊢
    simp only [List.filter_cons]
    by_cases h1 : w ≤ a
    · by_cases h2 : a < w + n
      · rw [if_pos (decide_eq_true h1), if_pos (decide_eq_true ⟨h1, h2⟩), if_neg (by simp; omega), ih]
        rfl
      · have e : l.filter (fun i => decide (w ≤ i ∧ i < w + n)) = [] := by
          rw [List.filter_eq_nil_iff]
          intro x hx
          have := h'.1 x hx
          simp; omega
        rw [e] at ih ⊢
        rw [if_pos (decide_eq_true h1), if_neg (by simp; omega), if_pos (decide_eq_true (by omega)), ih]
        rfl
    · rw [if_neg (by simpa using h1), if_neg (by simp; omega), if_neg (by simp; omega), ih]

theorem block_lines {b : List Str} (hb : Spec.Block o b) : ∀ t ∈ b, t ≠ [] := by
  obtain ⟨t, r, rfl, h1, _, h3⟩ := hb.head
  rintro u hu rfl
  rcases List.mem_cons.mp hu with rfl | hu
  · exact h1.1 (fun _ h => by cases h)
  · have := h3 _ hu
    revert this; decide

theorem closed_blocks {Bs : List (List Str)} (hb : ∀ b ∈ Bs, Spec.Block o b) : Spec.Closed o Bs.flatten := by
  cases Bs with
  | nil => intro a t c e; cases a <;> cases e
  | cons b Bs =>
    obtain ⟨t, r, rfl, h1, h2, _⟩ := (hb b (by simp)).head
    intro a u c e hu
    cases a with
    | nil =>
      simp only [List.flatten_cons, List.cons_append, List.nil_append, List.cons.injEq] at e
      rw [← e.1, h2] at hu
      omega
    | cons x a =>
      simp only [List.flatten_cons, List.cons_append, List.cons.injEq] at e
      exact ⟨x, by simp, by rw [← e.1]; exact ⟨h1, h2⟩⟩

theorem search_sorted {q : Parsed → List Nat} (hq : Spec.Search q) {lines : List Str} (h : parse o lines = .ok P)
    (h1 : ∀ l ∈ lines, ∀ d, ¬ Conf.Spec.BannerHead (rstrip l) d) (h2 : ∀ l ∈ lines, ¬ "macro name ".toList <+: l) :
    (q P).Pairwise (· < ·) ∧ ∀ x ∈ q P, x ∈ P.list := by
  have ht := tree_of_parse h
  have fil : ∀ {l : List Nat}, l.Sublist P.list → l.Pairwise (· < ·) ∧ ∀ x ∈ l, x ∈ P.list := fun hl =>
    ⟨ht.inc.sublist hl, fun x hx => hl.subset hx⟩
  have s0 : ∀ p, (findObjects P p).Sublist P.list := fun p => List.filter_sublist
  cases hq with
  | objects p => exact fil (s0 p)
  | parents p c r => exact fil (List.filter_sublist.trans (s0 p))
  | without p c r => exact fil (List.filter_sublist.trans (s0 p))
  | all p cs r => exact fil (List.filter_sublist.trans (s0 p))
  | missing p cs => exact fil (List.filter_sublist.trans (s0 p))
  | children p c r =>
    have k := C32_children h (C33_kids h h1 h2) p c
    have hl : ∀ x ∈ findChildObjects P p c r, x ∈ P.list := by
      intro x hx
      cases r with
      | false => obtain ⟨_, i, hi, _, hc⟩ := (k.1 x).mp hx; exact (ht.kids i hi x hc).1
      | true => obtain ⟨_, i, hi, _, hc⟩ := (k.2.1 x).mp hx; exact (desc_lt ht hi hc).1
    refine ⟨List.Pairwise.imp_of_mem ?_ (k.2.2 r), hl⟩
    intro x y hx hy hxy
    rw [ht.num x (hl x hx), ht.num y (hl y hy)] at hxy
    omega

theorem search_part {q : Parsed → List Nat} (hq : Spec.Search q) {pre b post : List Str}
    (h : parse o (pre ++ b ++ post) = .ok P) (h' : parse o b = .ok Q) (hb : Spec.Block o b) (hp : Spec.Closed o post)
    (h1 : ∀ l ∈ pre ++ b ++ post, ∀ d, ¬ Conf.Spec.BannerHead (rstrip l) d)
    (h2 : ∀ l ∈ pre ++ b ++ post, ¬ "macro name ".toList <+: l) :
    Spec.part (Conf.Spec.input o pre).length b.length (q P) = (q Q).map ((Conf.Spec.input o pre).length + ·) := by
  cases hq with
  | objects p => exact (C220_parents h h' hb hp p p [] false).1
  | parents p c r => exact (C220_parents h h' hb hp p c [] r).2.1
  | without p c r => exact (C220_parents h h' hb hp p c [] r).2.2.1
  | all p cs r => exact (C220_parents h h' hb hp p p cs r).2.2.2.1
  | missing p cs => exact (C220_parents h h' hb hp p p cs false).2.2.2.2
  | children p c r => exact C220_children h h' hb hp h1 h2 p c r

/-- Blocks with the answers in each. -/
abbrev Pairs := List (List Str × List Str)

theorem blocks_from {q : Parsed → List Nat} (hq : Spec.Search q) (done rest : Pairs)
    (hB : ∀ x ∈ done ++ rest, Spec.Answers o q x.1 x.2) (h : parse o ((done ++ rest).map Prod.fst).flatten = .ok P) :
    ((q P).filter (fun i => decide ((done.map Prod.fst).flatten.length ≤ i))).map (fun i => (P.h i).text) =
      (rest.map Prod.snd).flatten := by
  have hmem : ∀ l ∈ ((done ++ rest).map Prod.fst).flatten, ∃ x ∈ done ++ rest, l ∈ x.1 := by
    intro l hl
    obtain ⟨b, hb, hl⟩ := List.mem_flatten.mp hl
    obtain ⟨x, hx, rfl⟩ := List.mem_map.mp hb
    exact ⟨x, hx, hl⟩
  have h1 : ∀ l ∈ ((done ++ rest).map Prod.fst).flatten, ∀ d, ¬ Conf.Spec.BannerHead (rstrip l) d := fun l hl => by
    obtain ⟨x, hx, hl⟩ := hmem l hl; exact (hB x hx).block.banner l hl
  have h2 : ∀ l ∈ ((done ++ rest).map Prod.fst).flatten, ¬ "macro name ".toList <+: l := fun l hl => by
    obtain ⟨x, hx, hl⟩ := hmem l hl; exact (hB x hx).block.mac l hl
  have h3 : ∀ l ∈ ((done ++ rest).map Prod.fst).flatten, l ≠ [] := fun l hl => by
    obtain ⟨x, hx, hl⟩ := hmem l hl; exact block_lines (hB x hx).block l hl
  obtain ⟨hs, hl⟩ := search_sorted hq h h1 h2
  induction rest generalizing done with
  | nil =>
    rw [List.map_nil, List.flatten_nil, List.map_eq_nil_iff, List.filter_eq_nil_iff]
    intro x hx
    have hb := h
    rw [Conf.parse, input_eq, Edit.input_id h3] at hb
    have := ((mem_list hb).mp (hl x hx)).1
    rw [List.append_nil] at this
    rw [decide_eq_true_eq]
    omega
  | cons x rest ih =>
    obtain ⟨b, t⟩ := x
    have hx := hB (b, t) (by simp)
    obtain ⟨Q, hQ, hf⟩ := hx.alone
    have hsplit : ((done ++ (b, t) :: rest).map Prod.fst).flatten =
        (done.map Prod.fst).flatten ++ b ++ (rest.map Prod.fst).flatten := by simp
    have hcl : Spec.Closed o (rest.map Prod.fst).flatten := closed_blocks (fun c hc => by
      obtain ⟨x, hx, rfl⟩ := List.mem_map.mp hc
      exact (hB x (by simp [hx])).block)
    have hid : Conf.Spec.input o (done.map Prod.fst).flatten = (done.map Prod.fst).flatten :=
      Edit.input_id (fun t ht => h3 t (by rw [hsplit]; simp [ht]))
    have ih := ih (done ++ [(b, t)]) (by simpa using hB) (by simpa using h) (by simpa using hmem) (by simpa using h1)
      (by simpa using h2) (by simpa using h3)
    rw [hsplit] at h h1 h2
    have hpart := search_part hq h hQ hx.block hcl h1 h2
    have hal := alike_block h hQ hx.block hcl
    rw [hid] at hpart hal
    have hlen : ((done ++ [(b, t)]).map Prod.fst).flatten.length = (done.map Prod.fst).flatten.length + b.length := by simp
    rw [hlen] at ih
    rw [cut_sorted hs _ b.length, List.map_append, ih, hpart, List.map_map, List.map_cons, List.flatten_cons, ← hf, Spec.found]
    congr 1
    refine List.map_congr_left (fun k hk => ?_)
    have hb := hQ
    rw [Conf.parse, input_eq, Edit.input_id (block_lines hx.block)] at hb
    have hk2 := (search_sorted hq hQ hx.block.banner hx.block.mac).2 k hk
    have := (hal k ((mem_list hb).mp hk2).1).1
    rw [Nat.zero_add] at this
    exact this

/-! ## C229 -/

/-- C229: a search of a configuration that consists of blocks finds what it finds in each block alone, block after block. -/
theorem C229_blocks {q : Parsed → List Nat} (hq : Spec.Search q) (Bs : List (List Str × List Str))
    (hB : ∀ x ∈ Bs, Spec.Answers o q x.1 x.2) (h : parse o (Bs.map Prod.fst).flatten = .ok P) :
    Spec.found q P = (Bs.map Prod.snd).flatten := by
  have := blocks_from hq [] Bs hB h
  rw [List.filter_eq_self.mpr (fun x _ => by simp)] at this
  exact this

/-- C229: if the blocks are put in another order, the same texts are found, as often as before. -/
theorem C229_order {q : Parsed → List Nat} (hq : Spec.Search q) {Bs Cs : List (List Str)} (hp : Bs.Perm Cs)
    (hB : ∀ b ∈ Bs, Spec.Block o b ∧ ∃ Q, parse o b = .ok Q) (h : parse o Bs.flatten = .ok P)
    (h' : parse o Cs.flatten = .ok Q) : (Spec.found q P).Perm (Spec.found q Q) := by
  obtain ⟨f, hf⟩ : ∃ f : List Str → List Str, ∀ b ∈ Bs, Spec.Answers o q b (f b) := by
    refine ⟨fun b => match parse o b with | .ok R => Spec.found q R | .error _ => [], fun b hb => ?_⟩
    obtain ⟨h1, R, hR⟩ := hB b hb
    exact ⟨h1, R, hR, by simp only [hR]⟩
  have e : ∀ {l : List (List Str)} {R : Parsed}, (∀ b ∈ l, b ∈ Bs) → parse o l.flatten = .ok R →
      Spec.found q R = (l.map f).flatten := by
    intro l R hl hR
    have := C229_blocks (o := o) (P := R) hq (l.map (fun b => (b, f b))) (fun x hx => by
      obtain ⟨b, hb, rfl⟩ := List.mem_map.mp hx
      exact hf b (hl b hb)) (by simpa [List.map_map, Function.comp_def] using hR)
    simpa [List.map_map, Function.comp_def] using this
  rw [e (fun b hb => hb) h, e (fun b hb => hp.mem_iff.mpr hb) h']
  exact (hp.map f).flatten

private def s (t : String) : Str := t.toList

theorem other_ok : Spec.Block {} [s "interface Gi0/9", s " mtu 9"] := by
  have hh : ∀ t ∈ [s "interface Gi0/9", s " mtu 9"], ¬ "banner".toList <:+: rstrip t := by decide +kernel
  refine ⟨⟨_, _, rfl, config_head (c := 'i') (by decide +kernel) (by decide) (by decide), by decide +kernel, by decide +kernel⟩, ?_,
    by decide +kernel⟩
  rintro t ht d ⟨sets, c, word, ws, rest, e, _⟩
  exact hh t ht ⟨sets, [c] ++ word ++ ws ++ d :: rest, by rw [e]; simp⟩

example : ∃ P Q, parse {} [localBlock, [s "interface Gi0/9", s " mtu 9"]].flatten = .ok P ∧
    parse {} [[s "interface Gi0/9", s " mtu 9"], localBlock].flatten = .ok Q ∧
    (∀ b ∈ [localBlock, [s "interface Gi0/9", s " mtu 9"]], Spec.Block {} b ∧ ∃ Q, parse {} b = .ok Q) ∧
    Spec.found (fun P => findChildObjects P (rxOf "Gi") (rxOf "mtu") true) P = [s " mtu 1400", s " mtu 9"] ∧
    Spec.found (fun P => findChildObjects P (rxOf "Gi") (rxOf "mtu") true) Q = [s " mtu 9", s " mtu 1400"] := by
  refine ⟨_, _, rfl, rfl, ?_, by decide +kernel, by decide +kernel⟩
  intro b hb
  rcases List.mem_cons.mp hb with rfl | hb
  · exact ⟨localBlock_ok, _, rfl⟩
  · rw [List.mem_singleton.mp hb]
    exact ⟨other_ok, _, rfl⟩

end Query

import Verif.Edit.Reshape
import Verif.Query.Layout

/-! # C256: every tree of lines can be written as a configuration and is read back from it -/

namespace Edit.Spec

open Py Conf

/-- A tree of lines: a text and the trees below it. -/
inductive Node where
  | mk (text : Str) (kids : List Node)

mutual
/-- The lines of a tree at level `d`; a line of level `k` is indented by `wd k` blanks. -/
def render (wd : Nat → Nat) : Nat → Node → List Str
  | d, .mk t ks => (List.replicate (wd d) ' ' ++ t) :: renderAll wd (d + 1) ks
/-- The lines of trees, one after another. -/
def renderAll (wd : Nat → Nat) : Nat → List Node → List Str
  | _, [] => []
  | d, k :: ks => render wd d k ++ renderAll wd d ks
end

mutual
/-- The texts of a tree. -/
def nodeTexts : Node → List Str
  | .mk t ks => t :: allTexts ks
/-- The texts of trees. -/
def allTexts : List Node → List Str
  | [] => []
  | k :: ks => nodeTexts k ++ allTexts ks
end

mutual
/-- Line `i` of `P`, with its children, their children and so on, is this tree. -/
def Reads (wd : Nat → Nat) (P : Parsed) : Nat → Nat → Node → Prop
  | d, i, .mk t ks => (P.h i).text = List.replicate (wd d) ' ' ++ t ∧ ReadsAll wd P (d + 1) (P.h i).children ks
/-- The lines are the trees, one by one. -/
def ReadsAll (wd : Nat → Nat) (P : Parsed) : Nat → List Nat → List Node → Prop
  | _, is, [] => is = []
  | d, is, k :: ks => ∃ i rest, is = i :: rest ∧ Reads wd P d i k ∧ ReadsAll wd P d rest ks
end

/-- A text as it stands behind the indentation: it neither starts nor ends with white space, and is not a comment. -/
def Good (ds : List Char) (t : Str) : Prop := ∃ c r, t = c :: r ∧ isSpace c = false ∧ c ∉ ds ∧ rstrip t = t

end Edit.Spec

namespace Edit

open Py Conf Query

/-- Where the trees start, if the first starts at `p`. -/
def starts (wd : Nat → Nat) (d : Nat) : Nat → List Spec.Node → List Nat
  | _, [] => []
  | p, k :: ks => p :: starts wd d (p + (Spec.render wd d k).length) ks

theorem starts_ge {wd : Nat → Nat} {d : Nat} : ∀ {ks : List Spec.Node} {p x : Nat}, x ∈ starts wd d p ks → p ≤ x
  | [], _, _, h => by cases h
  | k :: ks, p, x, h => by
    rw [starts, List.mem_cons] at h
    rcases h with rfl | h
    · exact Nat.le_refl _
    · have := starts_ge h; omega

theorem render_pos {wd : Nat → Nat} {d : Nat} (k : Spec.Node) : 0 < (Spec.render wd d k).length := by
  cases k; simp [Spec.render]

theorem starts_inc {wd : Nat → Nat} {d : Nat} : ∀ {ks : List Spec.Node} {p : Nat}, (starts wd d p ks).Pairwise (· < ·)
  | [], _ => .nil
  | k :: ks, p => by
    rw [starts, List.pairwise_cons]
    refine ⟨fun x hx => ?_, starts_inc⟩
    have := starts_ge hx
    have := render_pos (wd := wd) (d := d) k
    omega


/-- A line with a good text. -/
theorem good_line {ds : List Char} {t : Str} (h : Spec.Good ds t) (n : Nat) :
    Conf.Spec.indent (List.replicate n ' ' ++ t) = n ∧ rstrip (List.replicate n ' ' ++ t) = List.replicate n ' ' ++ t ∧
    Conf.Spec.config ds (List.replicate n ' ' ++ t) := by
  obtain ⟨c, r, rfl, h1, h2, h3⟩ := h
  have hsp : ∀ x ∈ List.replicate n ' ', isSpace x = true := fun x hx => by rw [(List.mem_replicate.mp hx).2]; rfl
  have hr : rstrip r = r := by
    have := rstrip_inside h1 [] r
    rw [List.nil_append, h3] at this
    simpa using this.symm
  have e : rstrip (List.replicate n ' ' ++ c :: r) = List.replicate n ' ' ++ c :: r := by rw [rstrip_inside h1, hr]
  refine ⟨?_, e, fun hb => ?_, fun hcm => ?_⟩
  · rw [Conf.Spec.indent, e, List.takeWhile_append_of_pos hsp, List.takeWhile_cons_of_neg (by simp [h1])]
    simp
  · have := hb c (by simp)
    rw [h1] at this; cases this
  · exact h2 (comment_char hcm rfl hsp h1)

variable {wd : Nat → Nat}

theorem wd_mono (hw : ∀ d, wd d < wd (d + 1)) {a b : Nat} (h : a ≤ b) : wd a ≤ wd b := by
  induction h with
  | refl => exact Nat.le_refl _
  | step _ ih => exact Nat.le_trans ih (Nat.le_of_lt (hw _))

mutual
theorem mem_render : ∀ (k : Spec.Node) {d : Nat} {l : Str}, l ∈ Spec.render wd d k →
    ∃ e t, d ≤ e ∧ t ∈ Spec.nodeTexts k ∧ l = List.replicate (wd e) ' ' ++ t
  | .mk t ks, d, l, h => by
    rw [Spec.render, List.mem_cons] at h
    rcases h with rfl | h
    · exact ⟨d, t, Nat.le_refl _, by simp [Spec.nodeTexts], rfl⟩
    · obtain ⟨e, t', h1, h2, h3⟩ := mem_renderAll ks h
      exact ⟨e, t', by omega, by simp [Spec.nodeTexts, h2], h3⟩
theorem mem_renderAll : ∀ (ks : List Spec.Node) {d : Nat} {l : Str}, l ∈ Spec.renderAll wd d ks →
    ∃ e t, d ≤ e ∧ t ∈ Spec.allTexts ks ∧ l = List.replicate (wd e) ' ' ++ t
  | [], d, l, h => by simp [Spec.renderAll] at h
  | k :: ks, d, l, h => by
    rw [Spec.renderAll, List.mem_append] at h
    rcases h with h | h
    · obtain ⟨e, t', h1, h2, h3⟩ := mem_render k h
      exact ⟨e, t', h1, by simp [Spec.allTexts, h2], h3⟩
    · obtain ⟨e, t', h1, h2, h3⟩ := mem_renderAll ks h
      exact ⟨e, t', h1, by simp [Spec.allTexts, h2], h3⟩
end

theorem lineAt_append_left {a b : List Str} {x : Nat} (h : x < a.length) : lineAt (a ++ b) x = lineAt a x := by
  rw [lineAt, lineAt, List.getD_eq_getElem?_getD, List.getD_eq_getElem?_getD, List.getElem?_append_left h]

theorem lineAt_append_right {a b : List Str} {x : Nat} : lineAt (a ++ b) (a.length + x) = lineAt b x := by
  rw [lineAt, lineAt, List.getD_eq_getElem?_getD, List.getD_eq_getElem?_getD, List.getElem?_append_right (by omega),
    Nat.add_sub_cancel_left]

/-- The lines of trees at level `d` are indented at least as deep as the level, and exactly the first lines of the trees
are indented no deeper. -/
theorem levels {ds : List Char} (hw : ∀ d, wd d < wd (d + 1)) : ∀ (ks : List Spec.Node) {d p x : Nat},
    (∀ t ∈ Spec.allTexts ks, Spec.Good ds t) → x < (Spec.renderAll wd d ks).length →
    wd d ≤ Conf.Spec.indent (lineAt (Spec.renderAll wd d ks) x) ∧
    (Conf.Spec.indent (lineAt (Spec.renderAll wd d ks) x) = wd d ↔ p + x ∈ starts wd d p ks)
  | [], d, p, x, _, hx => by simp [Spec.renderAll] at hx
  | .mk t ks' :: ks, d, p, x, hg, hx => by
    have hgt : Spec.Good ds t := hg t (by simp [Spec.allTexts, Spec.nodeTexts])
    rw [Spec.renderAll, starts, List.mem_cons]
    by_cases h : x < (Spec.render wd d (.mk t ks')).length
    · rw [lineAt_append_left h]
      have hno : ¬ p + x ∈ starts wd d (p + (Spec.render wd d (.mk t ks')).length) ks := fun hm => by
        have := starts_ge hm; omega
      cases x with
      | zero =>
        rw [show lineAt (Spec.render wd d (.mk t ks')) 0 = List.replicate (wd d) ' ' ++ t by rw [Spec.render]; rfl,
          (good_line hgt _).1]
        exact ⟨Nat.le_refl _, fun _ => .inl rfl, fun _ => rfl⟩
      | succ x =>
        have hx' : x < (Spec.renderAll wd (d + 1) ks').length := by rw [Spec.render, List.length_cons] at h; omega
        have hm : lineAt (Spec.render wd d (.mk t ks')) (x + 1) ∈ Spec.renderAll wd (d + 1) ks' := by
          rw [show lineAt (Spec.render wd d (.mk t ks')) (x + 1) = lineAt (Spec.renderAll wd (d + 1) ks') x by
            rw [Spec.render]; rfl]
          exact at_mem hx'
        obtain ⟨e, t', h1, h2, h3⟩ := mem_renderAll ks' hm
        rw [h3, (good_line (hg t' (by simp [Spec.allTexts, Spec.nodeTexts, h2])) _).1]
        have := wd_mono hw h1
        have := hw d
        exact ⟨by omega, fun e => by omega, fun e => by rcases e with e | e; omega; exact absurd e hno⟩
    · obtain ⟨y, rfl⟩ : ∃ y, x = (Spec.render wd d (.mk t ks')).length + y := ⟨x - (Spec.render wd d (.mk t ks')).length, by omega⟩
      rw [lineAt_append_right]
      have hpos := render_pos (wd := wd) (d := d) (.mk t ks')
      have := levels hw ks (d := d) (p := p + (Spec.render wd d (.mk t ks')).length) (x := y)
        (fun t ht => hg t (by simp [Spec.allTexts, ht])) (by rw [Spec.renderAll, List.length_append] at hx; omega)
      refine ⟨this.1, this.2.trans ?_⟩
      rw [Nat.add_assoc]
      exact ⟨.inr, fun e => e.resolve_left (by omega)⟩

theorem starts_lt : ∀ {ks : List Spec.Node} {d p x : Nat}, x ∈ starts wd d p ks → x < p + (Spec.renderAll wd d ks).length
  | [], _, _, _, h => by cases h
  | k :: ks, d, p, x, h => by
    have := render_pos (wd := wd) (d := d) k
    rw [starts, List.mem_cons] at h
    rw [Spec.renderAll, List.length_append]
    rcases h with rfl | h
    · omega
    · have := starts_lt h; omega


variable {o : Opts} {lines : List Str} {P : Parsed}

/-- The children of the first line of a tree are the first lines of the trees below it. -/
theorem kids_of (h : parse o lines = .ok P) (hpl : Query.Spec.Plain lines) (hw : ∀ d, wd d < wd (d + 1))
    (hcfg : ∀ l ∈ lines, Conf.Spec.config o.delims l) {pre post : List Str} {t : Str} {ks : List Spec.Node} {d : Nat}
    (hl : lines = pre ++ (Spec.render wd d (.mk t ks) ++ post)) (hg : ∀ t' ∈ Spec.nodeTexts (.mk t ks), Spec.Good o.delims t')
    (hlow : ∀ l, post.head? = some l → Conf.Spec.indent l ≤ wd d) :
    (P.h pre.length).text = List.replicate (wd d) ' ' ++ t ∧
    (P.h pre.length).children = starts wd (d + 1) (pre.length + 1) ks := by
  have hb : ∀ l ∈ lines, ¬ Conf.Spec.blank l := fun l hl => (hcfg l hl).1
  have hnil : ∀ t ∈ lines, t ≠ [] := fun t ht => by rintro rfl; exact hb [] ht (fun _ hc => by cases hc)
  have hboot := h
  rw [texts_parse hnil] at hboot
  have hlist := list_full hboot (keep_of_noBlank (Or.inr hb))
  have hPm : ∀ x, x ∈ P.list ↔ x < lines.length := fun x => by rw [hlist]; simp
  generalize hR : Spec.renderAll wd (d + 1) ks = R
  have hl' : lines = pre ++ (((List.replicate (wd d) ' ' ++ t) :: R) ++ post) := by rw [hl, Spec.render, hR]
  have hlen : lines.length = pre.length + 1 + R.length + post.length := by rw [hl']; simp; omega
  have hgt : Spec.Good o.delims t := hg t (by simp [Spec.nodeTexts])
  have hLp : lineAt lines pre.length = List.replicate (wd d) ' ' ++ t := by
    have := lineAt_append_right (a := pre) (b := (((List.replicate (wd d) ' ' ++ t) :: R) ++ post)) (x := 0)
    rw [← hl'] at this
    exact this
  have hLx : ∀ x < R.length, lineAt lines (pre.length + 1 + x) = lineAt R x := by
    intro x hx
    rw [hl', Nat.add_assoc, lineAt_append_right, lineAt_append_left (by simp; omega), Nat.add_comm 1 x]; rfl
  have hLe : 0 < post.length → Conf.Spec.indent (lineAt lines (pre.length + 1 + R.length)) ≤ wd d := by
    intro hp
    apply hlow
    rw [hl', Nat.add_assoc, lineAt_append_right, show 1 + R.length = ((List.replicate (wd d) ' ' ++ t) :: R).length + 0 by
      simp; omega, lineAt_append_right]
    cases post with
    | nil => simp at hp
    | cons a b => rfl
  have lev := fun x (hx : x < R.length) => levels (ds := o.delims) hw ks (d := d + 1) (p := pre.length + 1) (x := x)
    (fun t' ht => hg t' (by simp [Spec.nodeTexts, ht])) (by rw [hR]; exact hx)
  rw [hR] at lev
  have hdp : Conf.Spec.indent (lineAt lines pre.length) = wd d := by rw [hLp]; exact (good_line hgt _).1
  have hwd := hw d
  refine ⟨?_, ?_⟩
  · rw [show (P.h pre.length).text = rstrip (lineAt lines pre.length) from (attrs hboot (by omega)).1, hLp]
    exact (good_line hgt _).2.1
  have a := C22_agree_partial h hpl.1 hpl.2.1 hpl.2.2 ((hPm pre.length).mpr (by omega))
  refine increasing_ext a.1 starts_inc (fun c => ?_)
  rw [a.2, hPm]
  have hcx : ∀ x < lines.length, Conf.Spec.config o.delims (lineAt lines x) := fun x hx => hcfg _ (at_mem hx)
  have rule : ∀ x < lines.length, ∀ p, (P.h x).parent = p ↔ Conf.Spec.ParentRule o.delims (lineAt lines) x p := by
    intro x hx p
    have := C21_indent h hpl.1 hpl.2.1 hpl.2.2 ((hPm x).mpr hx) p
    rw [input_id hnil] at this
    exact this
  constructor
  · rintro ⟨h1, h2, h3⟩
    rcases (rule c h1 _).mp h2 with ⟨_, h4, _, h5, h6⟩ | ⟨_, h4⟩
    · rw [hdp] at h5
      have hlt : c < pre.length + 1 + R.length := by
        rcases Nat.lt_trichotomy c (pre.length + 1 + R.length) with h7 | h7 | h7
        · exact h7
        · have := hLe (by omega)
          rw [← h7] at this; omega
        · have := h6 _ (by omega) h7 (hcx _ (by omega))
          have := hLe (by omega)
          omega
      obtain ⟨x, rfl⟩ : ∃ x, c = pre.length + 1 + x := ⟨c - (pre.length + 1), by omega⟩
      have hx : x < R.length := by omega
      refine ((lev x hx).2).mp ?_
      cases x with
      | zero =>
        refine (lev 0 hx).2.mpr ?_
        cases ks with
        | nil => rw [Spec.renderAll] at hR; subst hR; simp at hx
        | cons k ks => rw [starts]; simp
      | succ y =>
        have h0 : 0 < R.length := by omega
        have h7 := h6 (pre.length + 1 + 0) (by omega) (by omega) (hcx _ (by omega))
        have h8 : Conf.Spec.indent (lineAt R 0) = wd (d + 1) := by
          refine (lev 0 h0).2.mpr ?_
          cases ks with
          | nil => rw [Spec.renderAll] at hR; subst hR; simp at hx
          | cons k ks => rw [starts]; simp
        rw [hLx _ hx, hLx 0 h0, h8] at h7
        have := (lev _ hx).1
        omega
    · omega
  · intro hm
    have hge := starts_ge hm
    have hlt := starts_lt hm
    rw [hR] at hlt
    obtain ⟨x, rfl⟩ : ∃ x, c = pre.length + 1 + x := ⟨c - (pre.length + 1), by omega⟩
    have hx : x < R.length := by omega
    have hind := (lev x hx).2.mpr hm
    refine ⟨by omega, (rule _ (by omega) _).mpr (.inl ⟨fun hu => (hcx _ (by omega)).2 hu.1, by omega, hcx _ (by omega), ?_,
      fun q h1 h2 _ => ?_⟩), by omega⟩
    · rw [hdp, hLx x hx, hind]; exact hwd
    · obtain ⟨y, rfl⟩ : ∃ y, q = pre.length + 1 + y := ⟨q - (pre.length + 1), by omega⟩
      rw [hLx x hx, hLx y (by omega), hind]
      exact (lev y (by omega)).1

/-- The first line of trees, and what follows them, is not deeper than their level. -/
theorem low_head {ds : List Char} {d : Nat} {post : List Str} (hlow : ∀ l, post.head? = some l → Conf.Spec.indent l ≤ wd d) :
    ∀ (ks : List Spec.Node), (∀ t ∈ Spec.allTexts ks, Spec.Good ds t) → ∀ l, (Spec.renderAll wd d ks ++ post).head? = some l →
      Conf.Spec.indent l ≤ wd d
  | [], _, l, h => hlow l (by simpa [Spec.renderAll] using h)
  | .mk t ks' :: ks, hg, l, h => by
    simp [Spec.renderAll, Spec.render] at h
    rw [← h, (good_line (hg t (by simp [Spec.allTexts, Spec.nodeTexts])) _).1]
    exact Nat.le_refl _

mutual
theorem reads (h : parse o lines = .ok P) (hpl : Query.Spec.Plain lines) (hw : ∀ d, wd d < wd (d + 1))
    (hcfg : ∀ l ∈ lines, Conf.Spec.config o.delims l) : ∀ (k : Spec.Node) {pre post : List Str} {d : Nat},
    lines = pre ++ (Spec.render wd d k ++ post) → (∀ t ∈ Spec.nodeTexts k, Spec.Good o.delims t) →
    (∀ l, post.head? = some l → Conf.Spec.indent l ≤ wd d) → Spec.Reads wd P d pre.length k
  | .mk t ks, pre, post, d, hl, hg, hlow => by
    obtain ⟨h1, h2⟩ := kids_of h hpl hw hcfg hl hg hlow
    rw [Spec.Reads]
    refine ⟨h1, ?_⟩
    rw [h2, show pre.length + 1 = (pre ++ [List.replicate (wd d) ' ' ++ t]).length by simp]
    refine readsAll h hpl hw hcfg ks (post := post) (by rw [hl, Spec.render]; simp) (fun t' ht => hg t' (by simp [Spec.nodeTexts, ht]))
      (fun l hp => Nat.le_trans (hlow l hp) (Nat.le_of_lt (hw d)))
theorem readsAll (h : parse o lines = .ok P) (hpl : Query.Spec.Plain lines) (hw : ∀ d, wd d < wd (d + 1))
    (hcfg : ∀ l ∈ lines, Conf.Spec.config o.delims l) : ∀ (ks : List Spec.Node) {pre post : List Str} {d : Nat},
    lines = pre ++ (Spec.renderAll wd d ks ++ post) → (∀ t ∈ Spec.allTexts ks, Spec.Good o.delims t) →
    (∀ l, post.head? = some l → Conf.Spec.indent l ≤ wd d) → Spec.ReadsAll wd P d (starts wd d pre.length ks) ks
  | [], _, _, _, _, _, _ => by rw [Spec.ReadsAll, starts]
  | k :: ks, pre, post, d, hl, hg, hlow => by
    have hgk : ∀ t ∈ Spec.allTexts ks, Spec.Good o.delims t := fun t' ht => hg t' (by simp [Spec.allTexts, ht])
    rw [Spec.renderAll] at hl
    rw [Spec.ReadsAll, starts]
    refine ⟨_, _, rfl, ?_, ?_⟩
    · exact reads h hpl hw hcfg k (post := Spec.renderAll wd d ks ++ post) (by rw [hl]; simp)
        (fun t' ht => hg t' (by simp [Spec.allTexts, ht])) (low_head hlow ks hgk)
    · rw [← List.length_append]
      exact readsAll h hpl hw hcfg ks (post := post) (by rw [hl]; simp) hgk hlow
end

/-- The lines that are not below another line. -/
def Spec.roots (P : Parsed) : List Nat := P.list.filter (fun i => decide ((P.h i).parent = i))

/-- C256: trees are written as a configuration, each level with its indentation; then the configuration that is read
consists of these trees. -/
theorem C256_read_partial {ks : List Spec.Node} (hw : ∀ d, wd d < wd (d + 1)) (hg : ∀ t ∈ Spec.allTexts ks, Spec.Good o.delims t)
    (hpl : Query.Spec.Plain (Spec.renderAll wd 0 ks)) (h : parse o (Spec.renderAll wd 0 ks) = .ok P) :
    Spec.ReadsAll wd P 0 (Spec.roots P) ks := by
  have hcfg : ∀ l ∈ Spec.renderAll wd 0 ks, Conf.Spec.config o.delims l := fun l hl => by
    obtain ⟨e, t, _, h2, rfl⟩ := mem_renderAll ks hl
    exact (good_line (hg t h2) _).2.2
  have hr := readsAll h hpl hw hcfg ks (pre := []) (post := []) (d := 0) (by simp) hg (by simp)
  have e : Spec.roots P = starts wd 0 0 ks := by
    generalize hL : Spec.renderAll wd 0 ks = lines at h hpl hcfg
    have hb : ∀ l ∈ lines, ¬ Conf.Spec.blank l := fun l hl => (hcfg l hl).1
    have hnil : ∀ t ∈ lines, t ≠ [] := fun t ht => by rintro rfl; exact hb [] ht (fun _ hc => by cases hc)
    have hboot := h
    rw [texts_parse hnil] at hboot
    have hlist := list_full hboot (keep_of_noBlank (Or.inr hb))
    have lev := fun x (hx : x < lines.length) => levels (ds := o.delims) hw ks (d := 0) (p := 0) (x := x) hg (by rw [hL]; exact hx)
    rw [hL] at lev
    have hPm : ∀ x, x ∈ P.list ↔ x < lines.length := fun x => by rw [hlist]; simp
    refine increasing_ext ?_ starts_inc (fun x => ?_)
    · show (P.list.filter _).Pairwise (· < ·)
      refine List.Pairwise.filter _ ?_
      rw [hlist]; exact List.pairwise_lt_range
    rw [Spec.roots, List.mem_filter, hPm, decide_eq_true_eq]
    have rule : ∀ x < lines.length, ∀ p, (P.h x).parent = p ↔ Conf.Spec.ParentRule o.delims (lineAt lines) x p := by
      intro x hx p
      have := C21_indent h hpl.1 hpl.2.1 hpl.2.2 ((hPm x).mpr hx) p
      rw [input_id hnil] at this
      exact this
    constructor
    · rintro ⟨hx, h1⟩
      have := (lev x hx).2
      rw [Nat.zero_add] at this
      refine this.mp ?_
      rcases Nat.eq_or_lt_of_le (lev x hx).1 with h2 | h2
      · exact h2.symm
      · exfalso
        have h0 : Conf.Spec.indent (lineAt lines 0) = wd 0 := by
          refine (lev 0 (by omega)).2.mpr ?_
          cases ks with
          | nil => rw [Spec.renderAll] at hL; subst hL; simp at hx
          | cons k ks => rw [starts]; simp
        have hx0 : 0 < x := by
          rcases Nat.eq_zero_or_pos x with rfl | h3
          · omega
          · exact h3
        obtain ⟨p, _, hp⟩ := nearest_exists (ds := o.delims) (L := lineAt lines) (r := 0) (x := x) hx0
          (hcfg _ (at_mem (by omega))) (by omega)
        have := (rule x hx p).mpr (.inl ⟨fun hu => (hcfg _ (at_mem hx)).2 hu.1, hp⟩)
        have := hp.1
        omega
    · intro hm
      have hx : x < lines.length := by have := starts_lt hm; rw [hL] at this; omega
      refine ⟨hx, (rule x hx x).mpr (.inr ⟨.inr (fun q hq => ?_), rfl⟩)⟩
      have h1 := (lev x hx).2
      rw [Nat.zero_add] at h1
      have h2 := h1.mpr hm
      have h3 := hq.2.2.1
      have h4 := (lev q (by have := hq.1; omega)).1
      omega
  rw [e]
  exact hr

mutual
theorem reads_unique : ∀ (k k' : Spec.Node) {d i : Nat}, Spec.Reads wd P d i k → Spec.Reads wd P d i k' → k = k'
  | .mk t ks, .mk t' ks', d, i, h, h' => by
    rw [Spec.Reads] at h h'
    rw [List.append_cancel_left (h.1.symm.trans h'.1), readsAll_unique ks ks' h.2 h'.2]
theorem readsAll_unique : ∀ (ks ks' : List Spec.Node) {d : Nat} {l : List Nat}, Spec.ReadsAll wd P d l ks →
    Spec.ReadsAll wd P d l ks' → ks = ks'
  | [], [], _, _, _, _ => rfl
  | [], k :: ks, d, l, h, h' => by
    simp only [Spec.ReadsAll] at h h'; obtain ⟨_, _, e, _⟩ := h'; rw [h] at e; cases e
  | k :: ks, [], d, l, h, h' => by
    simp only [Spec.ReadsAll] at h h'; obtain ⟨_, _, e, _⟩ := h; rw [h'] at e; cases e
  | k :: ks, k' :: ks', d, l, h, h' => by
    rw [Spec.ReadsAll] at h h'
    obtain ⟨i, r, e, h1, h2⟩ := h
    obtain ⟨i', r', e', h1', h2'⟩ := h'
    rw [e] at e'
    obtain ⟨rfl, rfl⟩ := List.cons.inj e'
    rw [reads_unique k k' h1 h1', readsAll_unique ks ks' h2 h2']
end

/-- C256: these are the only trees the configuration consists of, so different trees are written as different lines. -/
theorem C256_unique_partial {ks ks' : List Spec.Node} (hw : ∀ d, wd d < wd (d + 1))
    (hg : ∀ t ∈ Spec.allTexts ks, Spec.Good o.delims t) (hpl : Query.Spec.Plain (Spec.renderAll wd 0 ks))
    (h : parse o (Spec.renderAll wd 0 ks) = .ok P) (h' : Spec.ReadsAll wd P 0 (Spec.roots P) ks') : ks' = ks :=
  readsAll_unique _ _ h' (C256_read_partial hw hg hpl h)

/-- Lines without `n` and `}` are neither banners nor macros nor closing braces. -/
theorem plain_of {lines : List Str} (h : ∀ l ∈ lines, 'n' ∉ rstrip l ∧ 'n' ∉ l ∧ '}' ∉ l) : Query.Spec.Plain lines := by
  refine ⟨fun l hl d hd => ?_, fun l hl hm => ?_, fun l hl hc => ?_⟩
  · obtain ⟨_, _, _, _, _, e, _⟩ := hd
    exact (h l hl).1 (by rw [e]; simp)
  · obtain ⟨r, rfl⟩ := hm
    exact (h _ hl).2.1 (by simp)
  · obtain ⟨⟨ws, r, e, _⟩, _⟩ := hc
    exact (h l hl).2.2 (by rw [e]; simp)

/-- Two trees with three levels, indented by 1, 3, 5, ... blanks. -/
example : ∃ P, Spec.renderAll (fun d => 2 * d + 1) 0 [.mk (s "a") [.mk (s "b") [.mk (s "c") []], .mk (s "b") []], .mk (s "d") [.mk (s "e") []]] =
      [s " a", s "   b", s "     c", s "   b", s " d", s "   e"] ∧
    parse {} [s " a", s "   b", s "     c", s "   b", s " d", s "   e"] = .ok P ∧
    Query.Spec.Plain [s " a", s "   b", s "     c", s "   b", s " d", s "   e"] ∧
    Spec.Good ({} : Opts).delims (s "a") ∧
    Spec.roots P = [0, 4] ∧ (P.h 0).children = [1, 3] ∧ (P.h 1).children = [2] ∧ (P.h 4).children = [5] :=
  ⟨_, by decide +kernel, rfl, plain_of (by decide +kernel), ⟨'a', [], by decide +kernel, by decide +kernel, by decide +kernel, by decide +kernel⟩,
   by decide +kernel, by decide +kernel, by decide +kernel, by decide +kernel⟩

/-- C256 needs that no text is a comment: the line below a comment is not its child. -/
theorem C256_comment_fails : ∃ P, parse {} (Spec.renderAll (fun d => d) 0 [.mk (s "! a") [.mk (s "b") []]]) = .ok P ∧
    ¬ Spec.ReadsAll (fun d => d) P 0 (Spec.roots P) [.mk (s "! a") [.mk (s "b") []]] := by
  refine ⟨_, rfl, fun h => ?_⟩
  rw [Spec.ReadsAll] at h
  obtain ⟨i, r, e, _, h2⟩ := h
  rw [Spec.ReadsAll] at h2
  subst h2
  have hn : (Spec.roots _).length = 1 := congrArg List.length e
  exact absurd hn (by decide +kernel)

/-- C256 needs that no text ends with white space: it is cut off. -/
theorem C256_space_fails : ∃ P, parse {} (Spec.renderAll (fun d => d) 0 [.mk (s "a ") []]) = .ok P ∧
    ¬ Spec.ReadsAll (fun d => d) P 0 (Spec.roots P) [.mk (s "a ") []] := by
  refine ⟨_, rfl, fun h => ?_⟩
  rw [Spec.ReadsAll] at h
  obtain ⟨i, r, e, h1, _⟩ := h
  rw [Spec.Reads] at h1
  have hi : i = 0 := by
    have e0 : some i = some 0 := (congrArg List.head? e).symm.trans (by decide +kernel)
    exact Option.some.inj e0
  subst hi
  exact absurd h1.1 (by decide +kernel)

end Edit

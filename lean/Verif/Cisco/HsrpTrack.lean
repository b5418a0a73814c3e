import Verif.Cisco.HsrpGroupProps
import Verif.Re.Lazy
import Verif.Vlan.Lemmas

/-! # C126, C127: the interfaces that an HSRP group tracks -/

namespace Hsrp

open Py Conf Query Re Cisco

/-! ## Specification -/

namespace Spec

/-- Blanks. -/
def Blanks (s : Str) : Prop := ∀ c ∈ s, isSpace c = true

/-- `standby <group> track <name>`, and a decrement or nothing. -/
inductive TrackLine (g : Nat) : Str → Str → Option Str → Prop
  | plain {ws s1 s2 name} : Blanks ws → Blanks s1 → s1 ≠ [] → Blanks s2 → s2 ≠ [] → IsWord name →
      TrackLine g (ws ++ ("standby ".toList ++ (natStr g ++ (s1 ++ ("track".toList ++ (s2 ++ name)))))) name none
  | decr {ws s1 s2 s3 name d} : Blanks ws → Blanks s1 → s1 ≠ [] → Blanks s2 → s2 ≠ [] → Blanks s3 → s3 ≠ [] →
      IsWord name → d ≠ [] → (∀ c ∈ d, isDigit c = true) →
      TrackLine g (ws ++ ("standby ".toList ++ (natStr g ++ (s1 ++ ("track".toList ++ (s2 ++ (name ++ (s3 ++ d)))))))) name (some d)

/-- The name and the decrement of each of the lines for the group, in their order. -/
inductive Tracks (g : Nat) : List Str → List (Str × Option Str) → Prop
  | nil : Tracks g [] []
  | skip {t ts l} : (¬ ∃ m, splitWs t = group g ["track"] ++ m) → Tracks g ts l → Tracks g (t :: ts) l
  | take {t ts l name d} : TrackLine g t name d → 2 ≤ name.length → Tracks g ts l → Tracks g (t :: ts) ((name, d) :: l)

end Spec

/-- The object for a line. -/
def trackObj (g : Nat) (q : Str × Option Str) : Track :=
  { group := g, intf := .str q.1, decr := match q.2 with | some d => natVal d | none => 10 }

/-! ## The expression -/

def trackPre : Prog :=
  str "standby".toList (.one .space (.grp 1 (.plus .digit .done) (.plus .space (str "track".toList (.plus .space .done)))))

def trackName : Rgx := .grp 2 (.seq (.cls K.nonspace.cls) (.seq (.cls K.any.cls) (.star false (.cls K.any.cls))))

def trackTail : Prog := .loop 3 (.plus .space (.plus .digit .done)) (.eol .done)

def trackPat : Pat := ⟨seqs (trackPre.toL ++ trackName :: trackTail.toL), 3, [("intf".toList, 2), ("decr".toList, 3)]⟩

theorem track_compile : compile "standby\\s(\\d+)\\s+track\\s+(?P<intf>\\S.+?)(?P<decr>\\s+\\d+)*$" = .ok trackPat := by decide +kernel

theorem search_skip {r : Rgx} {n k : Nat} {ws s : Str} (h : ∀ x s, isSpace x = true → run n r (x :: s) [] = [])
    (hw : Spec.Blanks ws) : searchFrom n r k (ws ++ s) = searchFrom n r (k + ws.length) s := by
  induction ws generalizing k with
  | nil => rfl
  | cons x ws ih =>
    rw [List.cons_append, searchFrom, h x _ (hw x (by simp)), ih (fun c hc => hw c (by simp [hc])), List.length_cons]
    rw [Nat.add_assoc, Nat.add_comm 1]
    rfl

theorem search_at {r : Rgx} {n k : Nat} {s : Str} {q : Str × Caps} (h : Hit n r s [] q) :
    ∃ m, searchFrom n r k s = some m ∧ m.caps = q.2 := by
  rw [Hit] at h
  cases s with
  | nil =>
    rw [searchFrom]
    cases hr : run n r [] [] with
    | nil => rw [hr] at h; cases h
    | cons p l => rw [hr] at h; cases h; exact ⟨_, rfl, rfl⟩
  | cons a s =>
    rw [searchFrom]
    cases hr : run n r (a :: s) [] with
    | nil => rw [hr] at h; cases h
    | cons p l => rw [hr] at h; cases h; exact ⟨_, rfl, rfl⟩

theorem track_blank (n : Nat) (x : Char) (s : Str) (hx : isSpace x = true) : run n trackPat.re (x :: s) [] = [] := by
  have : Miss n trackPat.re (x :: s) [] := by
    rw [miss_iff]
    intro v h
    obtain ⟨w, h1, h2⟩ := (lang_append ..).mp h
    obtain ⟨r, h3, h4⟩ := (lang_str ..).mp h1
    have := (List.cons.inj h3).1
    subst this
    exact absurd hx (by decide)
  exact this

theorem det_run {k : K} (p : Prog) {s r : Str} (c : Caps) (hs : ∀ x ∈ s, k.has x = true) (hne : s ≠ [])
    (hr : ∀ x, r.head? = some x → k.has x = false) : (Prog.plus k p).det (s ++ r) c = p.det r c := by
  obtain ⟨x, s, rfl⟩ := List.exists_cons_of_ne_nil hne
  rw [List.cons_append, plus_cons, if_pos (hs x (by simp)), List.dropWhile_append_of_pos (p := k.has) (fun y hy => hs y (by simp [hy]))]
  congr 1
  cases r with
  | nil => rfl
  | cons y r => rw [List.dropWhile_cons_of_neg (by simp [hr y rfl])]

theorem pre_det {gs s1 s2 r : Str} (hg : gs ≠ []) (hd : ∀ x ∈ gs, isDigit x = true) (h1 : Spec.Blanks s1) (n1 : s1 ≠ [])
    (h2 : Spec.Blanks s2) (n2 : s2 ≠ []) (hr : ∀ x, r.head? = some x → isSpace x = false) :
    trackPre.det ("standby ".toList ++ (gs ++ (s1 ++ ("track".toList ++ (s2 ++ r))))) [] = some (r, [(1, gs)]) := by
  have e : "standby ".toList ++ (gs ++ (s1 ++ ("track".toList ++ (s2 ++ r)))) =
      "standby".toList ++ (' ' :: (gs ++ (s1 ++ ("track".toList ++ (s2 ++ r))))) := by simp
  rw [e, trackPre, det_str, if_pos (List.prefix_append ..), List.drop_left' rfl, Prog.det]
  simp only [K.has, show isSpace ' ' = true from by decide, if_true]
  rw [Prog.det]
  rw [det_run .done [] hd hg (by
    intro x hx
    obtain ⟨y, s1, rfl⟩ := List.exists_cons_of_ne_nil n1
    cases hx
    cases hq : isDigit x with
    | true =>
      have := digit_not_space hq
      rw [h1 x (by simp)] at this; cases this
    | false => exact hq)]
  rw [Prog.det]
  dsimp only
  rw [det_run (k := .space) _ _ h1 n1 (by intro x hx; cases hx; decide), det_str, if_pos (List.prefix_append ..), List.drop_left' rfl,
    det_run (k := .space) _ _ h2 n2 hr, Prog.det]
  congr 3
  rw [List.length_append, Nat.add_sub_cancel, List.take_left]

theorem tail_end (n : Nat) (c : Caps) : Hit n (seqs [.eol]) [] c ([], c) := rfl

theorem tail_nil (n : Nat) (c : Caps) : Hit n (seqs trackTail.toL) [] c ([], c) :=
  hit_cons (hit_star_stop rfl) (tail_end n c)

theorem tail_decr (n : Nat) {s3 d : Str} (c : Caps) (h3 : Spec.Blanks s3) (n3 : s3 ≠ []) (hd : ∀ x ∈ d, isDigit x = true) (nd : d ≠ []) :
    Hit n (seqs trackTail.toL) (s3 ++ d) c ([], (3, s3 ++ d) :: c) := by
  have hb : (Prog.plus .space (Prog.plus .digit .done)).det (s3 ++ d) c = some ([], c) := by
    rw [det_run (k := .space) _ _ h3 n3 (by
      intro x hx
      show isSpace x = false
      exact digit_not_space (hd x (List.mem_of_mem_head? hx)))]
    have := det_run (k := .digit) .done (r := []) c hd nd (by intro x hx; cases hx)
    rw [List.append_nil] at this
    rw [this]; rfl
  have h1 := hit_grp (k := 3) (hit_prog n (by decide) hb)
  simp only [List.length_nil, Nat.sub_zero, List.take_length] at h1
  refine hit_cons (q := ([], (3, s3 ++ d) :: c)) (hit_star_step h1 ?_ (hit_star_stop rfl)) (tail_end n _)
  rw [List.length_nil, List.length_append]
  have := List.length_pos_iff.mpr n3
  omega

theorem tail_miss (n : Nat) {x : Char} (s : Str) (c : Caps) (hx : isSpace x = false) : Miss n (seqs trackTail.toL) (x :: s) c := by
  have hb : (Prog.plus .space (Prog.plus .digit .done)).det (x :: s) c = none := by
    rw [plus_cons, if_neg (by simp [K.has, hx])]
  have h1 := miss_prog n (by decide) hb
  rw [Miss] at h1
  rw [Miss, trackTail, Prog.toL, run_seqs_cons', run, List.length_cons, runStar, run, h1]
  have : ¬ (s = [] ∧ x = '\n') := by
    rintro ⟨_, rfl⟩
    exact absurd hx (by decide)
  simp [Prog.toL, seqs, run]
  exact fun h1 h2 => this ⟨h2, h1⟩

/-- The match of a line with a name of two characters or more. -/
theorem track_hit (n : Nat) {gs s1 s2 name r : Str} {c : Caps} (hg : gs ≠ []) (hd : ∀ x ∈ gs, isDigit x = true) (h1 : Spec.Blanks s1)
    (n1 : s1 ≠ []) (h2 : Spec.Blanks s2) (n2 : s2 ≠ []) (hn : ∀ x ∈ name, isSpace x = false) (hl : 2 ≤ name.length)
    (ht : Hit n (seqs trackTail.toL) r [(2, name), (1, gs)] ([], c)) :
    Hit n trackPat.re ("standby ".toList ++ (gs ++ (s1 ++ ("track".toList ++ (s2 ++ (name ++ r)))))) [] ([], c) := by
  obtain ⟨a, b, w, rfl⟩ : ∃ a b w, name = a :: b :: w := by
    match name, hl with
    | a :: b :: w, _ => exact ⟨a, b, w, rfl⟩
  have hany : ∀ x, isSpace x = false → K.any.cls.has x = true := by
    intro x hx
    rw [K.cls_has, K.has, bne_iff_ne]
    rintro rfl
    exact absurd hx (by decide)
  refine hit_append (q := (a :: b :: w ++ r, [(1, gs)])) (hit_prog n (by decide) (pre_det hg hd h1 n1 h2 n2 (by
    intro x hx; cases hx; exact hn _ (by simp)))) ?_
  rw [hit_cons_iff, trackName, hitk_grp, hitk_seq]
  refine hitk_first (p := (b :: (w ++ r), [(1, gs)])) (hit_cls (k := .nonspace) (by simp [K.has, hn a])) ?_
  show HitK n (.seq (.cls K.any.cls) (.star false (.cls K.any.cls))) _ (b :: (w ++ r)) [(1, gs)] ([], c)
  rw [hitk_seq]
  refine hitk_first (p := (w ++ r, [(1, gs)])) (hit_cls (k := .any) (by
    have := hany b (hn b (by simp)); rwa [K.cls_has] at this)) ?_
  refine hitk_lazy w (fun x hx => hany x (hn x (by simp [hx]))) ?_ ?_
  · dsimp only
    have : (a :: b :: w ++ r).take ((a :: b :: w ++ r).length - r.length) = a :: b :: w := by
      rw [List.length_append, Nat.add_sub_cancel, List.take_left]
    rw [this]
    exact ht
  · intro w' x w'' he
    dsimp only
    exact tail_miss n _ _ (hn x (by simp [he]))

theorem line_search {g : Nat} {t name : Str} {d : Option Str} (h : Spec.TrackLine g t name d) (hl : 2 ≤ name.length) :
    ∃ m, search trackPat t = some m ∧ m.caps.lookup 2 = some name ∧
      match d with
      | none => m.caps.lookup 3 = none
      | some d => ∃ s, Spec.Blanks s ∧ m.caps.lookup 3 = some (s ++ d) := by
  have hg := allDigits_natStr g
  rw [allDigits, Bool.and_eq_true, List.all_eq_true] at hg
  cases h with
  | @plain ws s1 s2 _ hw h1 n1 h2 n2 hn =>
    have hh := fun n => track_hit (r := []) n (natStr_ne_nil g) hg.2 h1 n1 h2 n2 hn.2 hl (tail_nil _ _)
    rw [search, search_skip (track_blank _) hw]
    rw [List.append_nil] at hh
    obtain ⟨m, e1, e2⟩ := search_at (hh _)
    exact ⟨m, e1, by rw [e2]; rfl, by rw [e2]; rfl⟩
  | @decr ws s1 s2 s3 _ d hw h1 n1 h2 n2 h3 n3 hn nd hd =>
    have hh := fun n => track_hit n (natStr_ne_nil g) hg.2 h1 n1 h2 n2 hn.2 hl (tail_decr n _ h3 n3 hd nd)
    rw [search, search_skip (track_blank _) hw]
    obtain ⟨m, e1, e2⟩ := search_at (hh _)
    exact ⟨m, e1, by rw [e2]; rfl, s3, h3, by rw [e2]; rfl⟩

theorem line_words {g : Nat} {t name : Str} {d : Option Str} (h : Spec.TrackLine g t name d) :
    ∃ m, splitWs t = Spec.group g ["track"] ++ m := by
  have hg := allDigits_natStr g
  rw [allDigits, Bool.and_eq_true, List.all_eq_true] at hg
  have hgw : IsWord (natStr g) := ⟨natStr_ne_nil g, fun c hc => digit_not_space (hg.2 c hc)⟩
  have key : ∀ {ws s1 s2 r : Str}, Spec.Blanks ws → Spec.Blanks s1 → s1 ≠ [] → Spec.Blanks s2 → s2 ≠ [] →
      splitWs (ws ++ ("standby ".toList ++ (natStr g ++ (s1 ++ ("track".toList ++ (s2 ++ r)))))) = Spec.group g ["track"] ++ splitWs r := by
    intro ws s1 s2 r hw h1 n1 h2 n2
    rw [splitWs_spaces _ _ hw]
    have e : "standby ".toList ++ (natStr g ++ (s1 ++ ("track".toList ++ (s2 ++ r)))) =
        "standby".toList ++ (" ".toList ++ (natStr g ++ (s1 ++ ("track".toList ++ (s2 ++ r))))) := by simp
    rw [e, Vlan.splitWs_gap ⟨by decide, by decide⟩ ⟨by decide, by decide⟩, Vlan.splitWs_gap ⟨n1, h1⟩ hgw,
      Vlan.splitWs_gap ⟨n2, h2⟩ ⟨by decide, by decide⟩]
    rfl
  cases h with
  | plain hw h1 n1 h2 n2 hn => exact ⟨_, key hw h1 n1 h2 n2⟩
  | decr hw h1 n1 h2 n2 h3 n3 hn nd hd => exact ⟨_, key hw h1 n1 h2 n2⟩

theorem track_of {P : Parsed} {c g : Nat} {name : Str} {d : Option Str} (h : Spec.TrackLine g (P.h c).text name d)
    (hl : 2 ≤ name.length) : trackOf P g c = .ok (trackObj g (name, d)) := by
  obtain ⟨m, h1, h2, h3⟩ := line_search h hl
  have hne : name ≠ [] := by rintro rfl; simp at hl
  rw [trackOf, iterDict, track_compile]
  dsimp only
  rw [texts, firstMatch, h1]
  cases d with
  | none =>
    dsimp only at h3
    simp [getTypedDict, typedEntry, Found.groupdict, trackPat, h2, h3, Ty.conv, toStr, getKey, bind, Except.bind, pure, Except.pure,
      Except.map, trackObj, hne, List.lookup]
  | some d =>
    obtain ⟨s, h4, h5⟩ := h3
    have hd : d ≠ [] ∧ ∀ x ∈ d, isDigit x = true := by
      generalize (P.h c).text = t at h
      cases h with
      | decr _ _ _ _ _ _ _ _ nd hd => exact ⟨nd, hd⟩
    have hdd : allDigits d = true := by
      rw [allDigits, Bool.and_eq_true, List.all_eq_true]
      exact ⟨by cases d; exact absurd rfl hd.1; rfl, hd.2⟩
    have hs : strip (s ++ d) = d := by
      have hr : rstrip (s ++ d) = s ++ d := by
        rw [rstrip, List.reverse_append]
        cases hx : d.reverse with
        | nil => exact absurd (List.reverse_eq_nil_iff.mp hx) hd.1
        | cons x r =>
          have : x ∈ d := List.mem_reverse.mp (by rw [hx]; simp)
          rw [List.cons_append, List.dropWhile_cons_of_neg (by simp [digit_not_space (hd.2 x this)]), ← List.cons_append, ← hx]
          simp
      rw [strip, hr, lstrip, List.dropWhile_append_of_pos (p := isSpace) h4]
      cases d with
      | nil => rfl
      | cons x d => rw [List.dropWhile_cons_of_neg (by simp [digit_not_space (hd.2 x (by simp))])]
    have hN : s ++ d ≠ "None".toList := by
      intro e
      have : 'e' ∈ s ++ d := by rw [e]; decide
      rcases List.mem_append.mp this with h | h
      · exact absurd (h4 _ h) (by decide)
      · exact absurd (hd.2 _ h) (by decide)
    have hN' : ¬ (s ++ d = ['N', 'o', 'n', 'e']) := hN
    simp [getTypedDict, typedEntry, Found.groupdict, trackPat, h2, h5, Ty.conv, toStr, getKey, bind, Except.bind, pure, Except.pure,
      Except.map, trackObj, hne, List.lookup, hN', hd.1, hs, pyInt_digits hdd]

/-- C126: the tracked interfaces of a group are those of its `standby <group> track <name> [<decrement>]`
lines, in their order, with their names and decrements; the decrement is 10 where none is given.  Names
have two characters or more. -/
theorem C126_tracking_partial {P : Parsed} {i g : Nat} {l : List (Str × Option Str)} (h : Spec.Tracks g (Spec.kids P i) l) :
    (∃ ts, tracking P i g = .ok ts ∧
      ts.map (fun t => (t.group, t.name, t.decrement, t.weighting)) =
        l.map (fun q => ((g : Int), Val.str q.1, (match q.2 with | some d => (natVal d : Int) | none => 10), Val.none))) ∧
      ∃ b, groupHasTrack P i g = .ok b ∧ (b = true ↔ l ≠ []) := by
  have h1 : tracking P i g = .ok (l.map (trackObj g)) := by
    rw [tracking]
    rw [Spec.kids] at h
    generalize (P.h i).children = cs at h
    induction cs generalizing l with
    | nil => cases h; rfl
    | cons c cs ih =>
      rw [List.map_cons] at h
      have e : splitWs (strip (P.h c).text) = splitWs (P.h c).text := by rw [strip, splitWs_lstrip, splitWs_rstrip]
      generalize ht : (P.h c).text = t at h
      cases h with
      | skip hn h =>
        rw [List.filter_cons_of_neg]
        · exact ih h
        · rw [e, begin_iff, ht]; exact hn
      | @take _ _ l name d hl h2 h =>
        rw [List.filter_cons_of_pos, List.mapM_cons, track_of (by rw [ht]; exact hl) h2, ih h]
        · rfl
        · rw [e, begin_iff, ht]; exact line_words hl
  refine ⟨⟨_, h1, by rw [List.map_map]; rfl⟩, ?_⟩
  rw [groupHasTrack, h1]
  refine ⟨_, rfl, ?_⟩
  cases l <;> simp

/-! ## Names of one character -/

theorem search_none {r : Rgx} {n k : Nat} {t : Str} (h : ∀ a u, t = a ++ u → run n r u [] = []) : searchFrom n r k t = none := by
  induction t generalizing k with
  | nil => rw [searchFrom, h [] [] rfl]
  | cons x t ih =>
    rw [searchFrom, h [] (x :: t) rfl]
    exact ih (fun a u e => h (x :: a) u (by rw [e]; rfl))

theorem track_shape {n : Nat} {u v : Str} (h : Lang n trackPat.re u v) :
    ∃ b ds s1 s2 y z r, u = "standby".toList ++ b :: (ds ++ (s1 ++ ("track".toList ++ (s2 ++ y :: z :: r)))) ∧ isSpace b = true ∧
      ds ≠ [] ∧ (∀ c ∈ ds, isDigit c = true) ∧ s1 ≠ [] ∧ Spec.Blanks s1 ∧ s2 ≠ [] ∧ Spec.Blanks s2 ∧ isSpace y = false := by
  obtain ⟨w, h1, h2⟩ := (lang_append ..).mp h
  obtain ⟨r, rfl, h4⟩ := (lang_str ..).mp h1
  rw [Prog.toL, lang_cons] at h4
  obtain ⟨w1, h5, h6⟩ := h4
  obtain ⟨b, rfl, hb⟩ := (lang_cls ..).mp h5
  rw [Prog.toL, lang_cons] at h6
  obtain ⟨w2, h7, h8⟩ := h6
  rw [Lang, Prog.toL, lang_cons] at h7
  obtain ⟨w3, h9, h10⟩ := h7
  obtain ⟨ds, rfl, n1, a1⟩ := (lang_plus ..).mp h9
  obtain rfl := (lang_nil ..).mp h10
  rw [Prog.toL, lang_cons] at h8
  obtain ⟨w4, h11, h12⟩ := h8
  obtain ⟨s1, rfl, n2, a2⟩ := (lang_plus ..).mp h11
  obtain ⟨r, rfl, h13⟩ := (lang_str ..).mp h12
  rw [Prog.toL, lang_cons] at h13
  obtain ⟨w5, h14, h15⟩ := h13
  obtain ⟨s2, rfl, n3, a3⟩ := (lang_plus ..).mp h14
  obtain rfl := (lang_nil ..).mp h15
  rw [lang_cons] at h2
  obtain ⟨w6, h16, _⟩ := h2
  rw [trackName, Lang, Lang] at h16
  obtain ⟨w7, h17, h18⟩ := h16
  obtain ⟨y, rfl, hy⟩ := (lang_cls ..).mp h17
  rw [Lang] at h18
  obtain ⟨w8, h19, _⟩ := h18
  obtain ⟨z, rfl, hz⟩ := (lang_cls ..).mp h19
  exact ⟨b, ds, s1, s2, y, z, w8, rfl, hb, n1, a1, n2, a2, n3, a3, by simpa [K.has] using hy⟩

/-- A line with a name of one character at its end is not found. -/
theorem short_none {g : Nat} {t : Str} {x : Char} (h : Spec.TrackLine g t [x] none) : search trackPat t = none := by
  obtain ⟨ws, s1, s2, hw, h1, n1, h2, n2, hx, rfl⟩ : ∃ ws s1 s2, Spec.Blanks ws ∧ Spec.Blanks s1 ∧ s1 ≠ [] ∧ Spec.Blanks s2 ∧ s2 ≠ [] ∧
      isSpace x = false ∧ t = ws ++ ("standby ".toList ++ (natStr g ++ (s1 ++ ("track".toList ++ (s2 ++ [x]))))) := by
    generalize hn : [x] = name at h
    generalize hd : (none : Option Str) = d at h
    cases h with
    | plain a b c d e f => exact ⟨_, _, _, a, b, c, d, e, f.2 x (by rw [← hn]; simp), rfl⟩
    | decr => cases hd
  refine search_none (fun a u e => ?_)
  have : Miss (ws ++ ("standby ".toList ++ (natStr g ++ (s1 ++ ("track".toList ++ (s2 ++ [x])))))).length trackPat.re u [] := by
    rw [miss_iff]
    intro v hv
    obtain ⟨b, ds, r1, r2, y, z, r, rfl, hb, nd, hd, m1, k1, m2, k2, hy⟩ := track_shape hv
    have hgw : IsWord (natStr g) := by
      have hg := allDigits_natStr g
      rw [allDigits, Bool.and_eq_true, List.all_eq_true] at hg
      exact ⟨natStr_ne_nil g, fun c hc => digit_not_space (hg.2 c hc)⟩
    have w1 : splitWs (ws ++ ("standby ".toList ++ (natStr g ++ (s1 ++ ("track".toList ++ (s2 ++ [x])))))) =
        ["standby".toList, natStr g, "track".toList, [x]] := by
      rw [splitWs_spaces _ _ hw]
      have e : "standby ".toList ++ (natStr g ++ (s1 ++ ("track".toList ++ (s2 ++ [x])))) =
          "standby".toList ++ (" ".toList ++ (natStr g ++ (s1 ++ ("track".toList ++ (s2 ++ [x]))))) := by simp
      rw [e, Vlan.splitWs_gap ⟨by decide, by decide⟩ ⟨by decide, by decide⟩, Vlan.splitWs_gap ⟨n1, h1⟩ hgw,
        Vlan.splitWs_gap ⟨n2, h2⟩ ⟨by decide, by decide⟩, splitWs_word ⟨by simp, by simpa using hx⟩]
    rw [e, ← List.append_assoc, splitWs_mid hb, Vlan.splitWs_gap ⟨m1, k1⟩ ⟨nd, fun c hc => digit_not_space (hd c hc)⟩,
      Vlan.splitWs_gap ⟨m2, k2⟩ ⟨by decide, by decide⟩] at w1
    obtain ⟨p, ps, hp⟩ := List.exists_cons_of_ne_nil
      (nonblank (c := 's') (t := (a ++ "standby".toList) ++ [b]) (by simp) (by decide))
    obtain ⟨q, qs, hq⟩ := List.exists_cons_of_ne_nil (nonblank (c := y) (t := y :: z :: r) (by simp) hy)
    have hl := congrArg List.length w1
    rw [hp, hq] at hl
    simp at hl
    have hps : ps = [] := List.length_eq_zero_iff.mp (by omega)
    have hqs : qs = [] := List.length_eq_zero_iff.mp (by omega)
    subst hps; subst hqs
    rw [hp, hq] at w1
    have hqx : q = [x] := by simpa using (List.cons.inj (List.cons.inj (List.cons.inj (List.cons.inj w1).2).2).2).1
    subst hqx
    have hlast : (z :: r).getLast? = some x := by
      have e1 : ws ++ ("standby ".toList ++ (natStr g ++ (s1 ++ ("track".toList ++ (s2 ++ [x]))))) =
          (ws ++ ("standby ".toList ++ (natStr g ++ (s1 ++ ("track".toList ++ s2))))) ++ [x] := by simp
      have e2 : a ++ ("standby".toList ++ b :: (ds ++ (r1 ++ ("track".toList ++ (r2 ++ y :: z :: r))))) =
          (a ++ ("standby".toList ++ b :: (ds ++ (r1 ++ ("track".toList ++ (r2 ++ [y])))))) ++ (z :: r) := by simp
      rw [e1, e2] at e
      have := congrArg List.getLast? e
      rw [List.getLast?_concat, List.getLast?_append] at this
      cases hg : (z :: r).getLast? with
      | none => simp at hg
      | some w => rw [hg] at this; simpa using this.symm
    by_cases hz : isSpace z = true
    · have := splitWs_mid hz [y] r
      rw [List.singleton_append, hq] at this
      have e2 : splitWs ([y] ++ [z]) = [[y]] := by
        rw [splitWs_word_space (w := [y]) ⟨by simp, by simpa using hy⟩ hz []]; rfl
      rw [e2] at this
      have hr : splitWs r = [] := by simpa using (List.cons.inj this).2.symm
      rw [splitWs_eq_nil, List.all_eq_true] at hr
      have hm : x ∈ z :: r := List.mem_of_getLast? hlast
      rcases List.mem_cons.mp hm with rfl | hm
      · rw [hz] at hx; cases hx
      · rw [hr x hm] at hx; cases hx
    · obtain ⟨v', rest, e3⟩ := Vlan.splitWsAux_head r [z, y] (by simp)
      have e4 : splitWs (y :: z :: r) = splitWsAux r [z, y] := by
        rw [splitWs, splitWsAux, if_neg (by simp [hy]), splitWsAux, if_neg hz]
      rw [e4, e3] at hq
      have := congrArg List.length (List.cons.inj hq).1
      simp at this
  exact this

theorem children_nil {P : Parsed} {c : Nat} (h : (P.h c).children = []) : texts P c = [(P.h c).text] := by
  rw [texts, allChildren]
  cases P.n with
  | zero => rfl
  | succ m => rw [allChildrenAux, h]; rfl

theorem track_short {P : Parsed} {c g : Nat} {x : Char} (h : Spec.TrackLine g (P.h c).text [x] none) (hc : (P.h c).children = []) :
    trackOf P g c = .error .valueError := by
  rw [trackOf, iterDict, track_compile]
  dsimp only
  rw [children_nil hc, firstMatch, short_none h]
  rfl

theorem track_error {P : Parsed} {c : Nat} {g : Int} {e : Err} (h : trackOf P g c = .error e) : e = .valueError := by
  rw [trackOf, iterDict, track_compile] at h
  dsimp only at h
  have key : ∃ a d, getTypedDict trackPat (firstMatch trackPat (texts P c)) [("intf".toList, .str), ("decr".toList, .str)] (.str []) =
      .ok [("intf".toList, .str a), ("decr".toList, .str d)] := by
    cases firstMatch trackPat (texts P c) with
    | none => exact ⟨[], [], rfl⟩
    | some m =>
      have : ∀ (k : Str) (n : Nat), trackPat.names.lookup k = some n →
          ∃ a, typedEntry (m.groupdict trackPat) k .str (.str []) = .ok (.str a) := by
        intro k n hk
        have hl : (m.groupdict trackPat).lookup k = some (m.caps.lookup n) := by
          rw [Found.groupdict]
          simp only [trackPat, List.map_cons, List.map_nil, List.lookup_cons] at hk ⊢
          split at hk
          · cases hk; rfl
          · split at hk
            · cases hk; rfl
            · cases hk
        rw [typedEntry, hl]
        dsimp only
        cases m.caps.lookup n with
        | none => exact ⟨_, rfl⟩
        | some w =>
          by_cases hw : w = []
          · exact ⟨[], by simp [hw]⟩
          · exact ⟨w, by simp [hw, Ty.conv, toStr, Except.map]⟩
      obtain ⟨a, ha⟩ := this "intf".toList 2 (by decide)
      obtain ⟨d, hd⟩ := this "decr".toList 3 (by decide)
      exact ⟨a, d, by rw [getTypedDict]; simp only [List.mapM_cons, List.mapM_nil, ha, hd]; rfl⟩
  obtain ⟨a, d, hk⟩ := key
  rw [hk] at h
  have h' : (do let n ← (if d = "None".toList then (.ok 10 : Except Err Int) else pyInt (strip d))
                .ok ({ group := g, intf := .str a, decr := n } : Track)) = .error e := h
  split at h'
  · cases h'
  · cases hi : pyInt (strip d) with
    | ok n => rw [hi] at h'; cases h'
    | error e' => rw [hi] at h'; cases h'; exact pyInt_error hi

theorem mapM_error {α β : Type} {f : α → Except Err β} (h : ∀ a e, f a = .error e → e = .valueError) {l : List α} {a : α}
    (ha : a ∈ l) (hf : f a = .error .valueError) : l.mapM f = .error .valueError := by
  induction l with
  | nil => cases ha
  | cons b l ih =>
    rw [List.mapM_cons]
    cases hb : f b with
    | error e => rw [h b e hb]; rfl
    | ok v =>
      rcases List.mem_cons.mp ha with rfl | ha
      · rw [hf] at hb; cases hb
      · rw [ih ha]; rfl

/-- C126 does not hold for every name: one line that tracks an object with a name of one character, such
as `standby 1 track 5`, and gives no decrement, is enough to raise a `ValueError`. -/
theorem C126_short_fails {P : Parsed} {i c g : Nat} {x : Char} (hc : c ∈ (P.h i).children)
    (h : Spec.TrackLine g (P.h c).text [x] none) (hk : (P.h c).children = []) :
    tracking P i g = .error .valueError ∧ groupHasTrack P i g = .error .valueError := by
  have h1 : tracking P i g = .error .valueError := by
    rw [tracking]
    refine mapM_error (fun a e => track_error) (a := c) (List.mem_filter.mpr ⟨hc, ?_⟩) (track_short h hk)
    rw [strip, splitWs_lstrip, splitWs_rstrip, begin_iff]
    exact line_words h
  refine ⟨h1, ?_⟩
  rw [groupHasTrack, h1]; rfl

/-! ## Samples -/

def trackSample : List Str :=
  ["interface Gi0/1", " standby 1 ip 10.0.0.1", " standby 1 track Gi0/2  20", " standby 2 track Gi0/3", " standby 1  track Tu1"].map String.toList

example : ∃ P, parse { factory := true } trackSample = .ok P ∧
    Spec.Tracks 1 (Spec.kids P 0) [("Gi0/2".toList, some "20".toList), ("Tu1".toList, none)] := by
  obtain ⟨P, h1, h2⟩ := of_shows (lines := trackSample) (Q := fun P => Spec.kids P 0 == trackSample.drop 1) (by decide +kernel)
  rw [beq_iff_eq] at h2
  refine ⟨P, h1, ?_⟩
  rw [h2]
  have no : ∀ t : Str, partsBegin (Spec.group 1 ["track"]) (splitWs t) = false → ¬ ∃ m, splitWs t = Spec.group 1 ["track"] ++ m := by
    intro t ht
    rw [← begin_iff, ht]; simp
  have b1 : Spec.Blanks " ".toList := by rw [Spec.Blanks]; decide
  have b2 : Spec.Blanks "  ".toList := by rw [Spec.Blanks]; decide
  refine .skip (no _ (by decide +kernel)) (.take ?_ (by decide) (.skip (no _ (by decide +kernel)) (.take ?_ (by decide) .nil)))
  · exact .decr (ws := " ".toList) (s1 := " ".toList) (s2 := " ".toList) (s3 := "  ".toList) (name := "Gi0/2".toList) (d := "20".toList)
      b1 b1 (by decide) b1 (by decide) b2 (by decide) ⟨by decide, by decide⟩ (by decide) (by decide)
  · exact .plain (ws := " ".toList) (s1 := "  ".toList) (s2 := " ".toList) (name := "Tu1".toList)
      b1 b2 (by decide) b1 (by decide) ⟨by decide, by decide⟩

example : ∃ P, parse { factory := true } ["interface Gi0/1".toList, " standby 1 track 5".toList] = .ok P ∧
    1 ∈ (P.h 0).children ∧ Spec.TrackLine 1 (P.h 1).text ['5'] none ∧ (P.h 1).children = [] := by
  obtain ⟨P, h1, h2⟩ := of_shows (lines := ["interface Gi0/1".toList, " standby 1 track 5".toList])
    (Q := fun P => (P.h 0).children == [1] && (P.h 1).text == " standby 1 track 5".toList && (P.h 1).children == []) (by decide +kernel)
  rw [Bool.and_eq_true, Bool.and_eq_true, beq_iff_eq, beq_iff_eq, beq_iff_eq] at h2
  refine ⟨P, h1, by rw [h2.1.1]; simp, ?_, h2.2⟩
  have b1 : Spec.Blanks " ".toList := by rw [Spec.Blanks]; decide
  rw [h2.1.2]
  exact .plain (ws := " ".toList) (s1 := " ".toList) (s2 := " ".toList) b1 b1 (by decide) b1 (by decide) ⟨by decide, by decide⟩

end Hsrp

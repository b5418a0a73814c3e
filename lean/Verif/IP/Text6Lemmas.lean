import Verif.IP.Text6
import Verif.IP.Lemmas
import Verif.Re.Lazy

/-! # Lemmas on the expression for IPv6 addresses -/

namespace IP

open Py Re

def hexCls : Cls := { items := [.range '0' '9', .range 'a' 'f', .range 'A' 'F'] }
def isHex (c : Char) : Bool := hexCls.has c
def col : Rgx := .cls (K.chr ':').cls
/-- `[0-9a-fA-F]{1,4}` -/
def hexG : Rgx := times true (.cls hexCls) 1 (some 4)
/-- `(?:H:)` -/
def gc : Rgx := seqs [hexG, col]
/-- `(?::H)` -/
def cg : Rgx := seqs [col, hexG]
def dig : Rgx := .seq (.cls K.digit.cls) (.star true (.cls K.digit.cls))
def dot : Rgx := .cls (K.chr '.').cls
/-- `(H:){i}(:H){1,7-i}` -/
def optI (i : Nat) : Rgx := .grp (i + 3) (seqs [times true gc i (some i), times true cg 1 (some (7 - i))])
def hexColCls : Cls := { items := [.range '0' '9', .range 'a' 'f', .range 'A' 'F', .chr ':'] }

def opt1 : Rgx := .grp 2 (seqs [hexG, times true cg 7 (some 7)])
def opt2 : Rgx := .grp 3 (seqs [.seq (.cls hexColCls) (.star false (.cls hexColCls)), dig, dot, dig, dot, dig, dot, dig])
def opt9 : Rgx := .grp 10 (seqs [col, times true cg 1 (some 7)])
def opt10 : Rgx := .grp 11 (seqs [times true gc 1 (some 7), col])
def opt11 : Rgx := .grp 12 (seqs [col, col])
def opts6 : List Rgx := [opt1, opt2, optI 1, optI 2, optI 3, optI 4, optI 5, optI 6, opt9, opt10, opt11]
def nla6 : Rgx := .nla (seqs [col, col, col, .seq (.cls K.nonspace.cls) (.star false (.cls K.nonspace.cls)), .eol])
def maskR : Rgx := .star true (.grp 13 (seqs [.cls { items := [.chr '/', .space] }, .grp 14 dig]))

theorem compile6 : ∃ names, compileL rgx6 { verbose := true } = .ok ⟨seqs [nla6, .grp 1 (alts opts6), maskR], 14, names⟩ := by
  refine ⟨[("addr".toList, 1), ("opt1".toList, 2), ("opt2".toList, 3), ("opt3".toList, 4), ("opt4".toList, 5), ("opt5".toList, 6),
    ("opt6".toList, 7), ("opt7".toList, 8), ("opt8".toList, 9), ("opt9".toList, 10), ("opt10".toList, 11), ("opt11".toList, 12),
    ("masklen".toList, 14)], ?_⟩
  decide +kernel

/-- A group of an address: one to four hexadecimal digits. -/
def Grp (g : Str) : Prop := g ≠ [] ∧ g.length ≤ 4 ∧ ∀ c ∈ g, isHex c = true

theorem colon_not_hex : isHex ':' = false := by decide
theorem slash_not_hex : isHex '/' = false := by decide

/-- What follows an address: nothing, or something that is neither a digit nor a colon. -/
def End (r : Str) : Prop := ∀ c, r.head? = some c → isHex c = false ∧ c ≠ ':'

theorem upTo_succ (g : Bool) (a : Rgx) (k : Nat) : upTo g a (k + 2) = .opt g (.seq a (upTo g a (k + 1))) := rfl

/-! ## What it can read -/

theorem lang_upTo_hex (n : Nat) (k : Nat) (u v : Str) :
    Lang n (upTo true (.cls hexCls) k) u v ↔ ∃ w, u = w ++ v ∧ w.length ≤ k ∧ ∀ c ∈ w, isHex c = true := by
  induction k generalizing u with
  | zero =>
    rw [upTo, Lang]
    constructor
    · rintro rfl; exact ⟨[], rfl, by simp, by simp⟩
    · rintro ⟨w, rfl, hw, _⟩
      rw [List.length_eq_zero_iff.mp (Nat.le_zero.mp hw)]; rfl
  | succ k ih =>
    cases k with
    | zero =>
      rw [upTo, Lang, Lang]
      constructor
      · rintro (rfl | ⟨a, rfl, ha⟩)
        · exact ⟨[], rfl, by simp, by simp⟩
        · exact ⟨[a], rfl, by simp, by intro c hc; rw [List.mem_singleton.mp hc]; exact ha⟩
      · rintro ⟨w, rfl, hw, hc⟩
        cases w with
        | nil => exact .inl rfl
        | cons a w =>
          have : w = [] := by
            rw [List.length_cons] at hw
            exact List.length_eq_zero_iff.mp (by omega)
          subst this
          exact .inr ⟨a, rfl, hc a (by simp)⟩
    | succ k =>
      rw [upTo_succ, Lang, Lang]
      constructor
      · rintro (rfl | ⟨x, ⟨a, rfl, ha⟩, h⟩)
        · exact ⟨[], rfl, by simp, by simp⟩
        · obtain ⟨w, rfl, hl, hw⟩ := (ih x).mp h
          refine ⟨a :: w, rfl, by simp; omega, ?_⟩
          intro c hc
          rcases List.mem_cons.mp hc with rfl | hc
          · exact ha
          · exact hw c hc
      · rintro ⟨w, rfl, hl, hw⟩
        cases w with
        | nil => exact .inl rfl
        | cons a w =>
          refine .inr ⟨w ++ v, ⟨a, rfl, hw a (by simp)⟩, (ih _).mpr ⟨w, rfl, ?_, fun c hc => hw c (by simp [hc])⟩⟩
          rw [List.length_cons] at hl; omega

theorem lang_hexG (n : Nat) (u v : Str) : Lang n hexG u v ↔ ∃ g, u = g ++ v ∧ Grp g := by
  have e : hexG = seqs [.cls hexCls, upTo true (.cls hexCls) 3] := rfl
  rw [e, lang_cons]
  constructor
  · rintro ⟨w, ⟨a, rfl, ha⟩, h⟩
    obtain ⟨x, rfl, hl, hx⟩ := (lang_upTo_hex n 3 w v).mp h
    refine ⟨a :: x, rfl, by simp, by simp; omega, ?_⟩
    intro c hc
    rcases List.mem_cons.mp hc with rfl | hc
    · exact ha
    · exact hx c hc
  · rintro ⟨g, rfl, hne, hl, hg⟩
    obtain ⟨a, x, rfl⟩ := List.exists_cons_of_ne_nil hne
    refine ⟨x ++ v, ⟨a, rfl, hg a (by simp)⟩, (lang_upTo_hex n 3 _ v).mpr ⟨x, rfl, ?_, fun c hc => hg c (by simp [hc])⟩⟩
    rw [List.length_cons] at hl; omega

theorem lang_col (n : Nat) (u v : Str) : Lang n col u v ↔ u = ':' :: v := by
  rw [col, lang_cls]
  constructor
  · rintro ⟨a, rfl, h⟩; rw [show a = ':' by simpa [K.has] using h]
  · rintro rfl; exact ⟨':', rfl, rfl⟩

theorem lang_gc (n : Nat) (u v : Str) : Lang n gc u v ↔ ∃ g, u = g ++ ':' :: v ∧ Grp g := by
  rw [gc, lang_cons]
  constructor
  · rintro ⟨w, h1, h2⟩
    obtain ⟨g, rfl, hg⟩ := (lang_hexG n u w).mp h1
    obtain rfl := (lang_col n w v).mp h2
    exact ⟨g, rfl, hg⟩
  · rintro ⟨g, rfl, hg⟩
    exact ⟨':' :: v, (lang_hexG n _ _).mpr ⟨g, rfl, hg⟩, (lang_col n _ _).mpr rfl⟩

theorem lang_cg (n : Nat) (u v : Str) : Lang n cg u v ↔ ∃ g, u = ':' :: (g ++ v) ∧ Grp g := by
  rw [cg, lang_cons]
  constructor
  · rintro ⟨w, h1, h2⟩
    obtain ⟨g, rfl, hg⟩ := (lang_hexG n w v).mp h2
    exact ⟨g, (lang_col n u _).mp h1, hg⟩
  · rintro ⟨g, rfl, hg⟩
    exact ⟨g ++ v, (lang_col n _ _).mpr rfl, (lang_hexG n _ _).mpr ⟨g, rfl, hg⟩⟩

/-- Two ways to take a group before a colon are the same. -/
theorem grp_colon {g h u v : Str} (hg : Grp g) (hh : Grp h) (e : g ++ ':' :: u = h ++ ':' :: v) : g = h ∧ u = v := by
  have key : ∀ (g h : Str), (∀ c ∈ g, isHex c = true) → (∀ c ∈ h, isHex c = true) → g ++ ':' :: u = h ++ ':' :: v → g = h ∧ u = v := by
    intro g
    induction g with
    | nil =>
      intro h _ hh e
      cases h with
      | nil => simp at e; exact ⟨rfl, e⟩
      | cons b h =>
        rw [List.nil_append, List.cons_append, List.cons.injEq] at e
        have := hh b (by simp)
        rw [← e.1, colon_not_hex] at this; cases this
    | cons a g ih =>
      intro h hg hh e
      cases h with
      | nil =>
        rw [List.nil_append, List.cons_append, List.cons.injEq] at e
        have := hg a (by simp)
        rw [e.1, colon_not_hex] at this; cases this
      | cons b h =>
        rw [List.cons_append, List.cons_append, List.cons.injEq] at e
        obtain ⟨h1, h2⟩ := ih h (fun c hc => hg c (by simp [hc])) (fun c hc => hh c (by simp [hc])) e.2
        rw [e.1, h1]; exact ⟨rfl, h2⟩
  exact key g h hg.2.2 hh.2.2 e

/-- `(H:){i}` on groups that end with colons. -/
theorem lang_gcs {n : Nat} (i : Nat) : ∀ (gs : List Str) (x v : Str), (∀ g ∈ gs, Grp g) → (∀ g v, Grp g → x ≠ g ++ ':' :: v) →
    (Lang n (seqs (List.replicate i gc)) ((gs.map (· ++ [':'])).flatten ++ x) v ↔
      i ≤ gs.length ∧ v = ((gs.drop i).map (· ++ [':'])).flatten ++ x) := by
  induction i with
  | zero =>
    intro gs x v _ _
    rw [List.replicate_zero, lang_nil]
    constructor
    · rintro rfl; exact ⟨by simp, rfl⟩
    · rintro ⟨_, rfl⟩; rfl
  | succ i ih =>
    intro gs x v hg hx
    rw [List.replicate_succ, lang_cons]
    cases gs with
    | nil =>
      constructor
      · rintro ⟨w, h1, _⟩
        obtain ⟨g, e, hgg⟩ := (lang_gc n _ w).mp h1
        exact absurd e (hx g w hgg)
      · rintro ⟨h, _⟩; simp at h
    | cons g gs =>
      have e0 : ((g :: gs).map (· ++ [':'])).flatten ++ x = g ++ ':' :: ((gs.map (· ++ [':'])).flatten ++ x) := by simp
      rw [e0]
      constructor
      · rintro ⟨w, h1, h2⟩
        obtain ⟨h, e, hh⟩ := (lang_gc n _ w).mp h1
        obtain ⟨rfl, rfl⟩ := grp_colon (hg g (by simp)) hh e
        have := (ih gs x v (fun g h => hg g (by simp [h])) hx).mp h2
        exact ⟨by simp; exact this.1, by simpa using this.2⟩
      · rintro ⟨h1, h2⟩
        refine ⟨_, (lang_gc n _ _).mpr ⟨g, rfl, hg g (by simp)⟩, (ih gs x v (fun g h => hg g (by simp [h])) hx).mpr ⟨by simpa using h1, by simpa using h2⟩⟩

theorem replicate_times (g : Bool) (a : Rgx) (i : Nat) : times g a i (some i) = seqs (List.replicate i a) := by
  simp [times]

/-- `(:H){1,k}` needs a colon and a digit. -/
theorem cgs_start {n k : Nat} {u v : Str} (h : Lang n (times true cg 1 (some k)) u v) : ∃ g w, u = ':' :: (g ++ w) ∧ Grp g := by
  have : ∃ w, Lang n cg u w := by
    rw [times] at h
    split at h
    · exact ⟨v, h⟩
    · have h' : Lang n (seqs [cg, upTo true cg (k - 1)]) u v := h
      obtain ⟨w, h1, _⟩ := (lang_cons ..).mp h'
      exact ⟨w, h1⟩
  obtain ⟨w, hw⟩ := this
  obtain ⟨g, e, hg⟩ := (lang_cg n u w).mp hw
  exact ⟨g, w, e, hg⟩

/-! ## The first match -/

theorem hit_hexcls (n : Nat) {x : Char} {s : Str} {c : Caps} (h : isHex x = true) : Hit n (.cls hexCls) (x :: s) c (s, c) := by
  rw [Hit, run]
  simp only [show hexCls.has x = true from h]
  rfl

theorem miss_hexcls (n : Nat) {s : Str} {c : Caps} (h : ∀ x, s.head? = some x → isHex x = false) : Miss n (.cls hexCls) s c := by
  cases s with
  | nil => rfl
  | cons x s =>
    rw [Miss, run]
    simp only [show hexCls.has x = false from h x rfl]
    rfl

theorem hit_seq {n : Nat} {a b : Rgx} {s : Str} {c : Caps} {q q' : Str × Caps} (h1 : Hit n a s c q)
    (h2 : Hit n b q.1 q.2 q') : Hit n (.seq a b) s c q' := by
  rw [Hit, run]
  exact head_flatMap h1 h2

theorem miss_seq {n : Nat} {a b : Rgx} {s : Str} {c : Caps} (h1 : Miss n a s c) : Miss n (.seq a b) s c := by
  rw [Miss, run, h1]; rfl

theorem hit_upTo_hex (n k : Nat) : ∀ (w : Str) {r : Str} {c : Caps}, w.length ≤ k → (∀ x ∈ w, isHex x = true) →
    (∀ x, r.head? = some x → isHex x = false) → Hit n (upTo true (.cls hexCls) k) (w ++ r) c (r, c) := by
  induction k with
  | zero =>
    intro w r c hw _ _
    rw [List.length_eq_zero_iff.mp (Nat.le_zero.mp hw)]; rfl
  | succ k ih =>
    intro w r c hw hx hr
    cases w with
    | nil =>
      cases k with
      | zero => exact miss_opt (miss_hexcls n hr)
      | succ k => rw [upTo_succ]; exact miss_opt (miss_seq (miss_hexcls n hr))
    | cons a w =>
      rw [List.length_cons] at hw
      cases k with
      | zero =>
        rw [List.length_eq_zero_iff.mp (Nat.le_zero.mp (Nat.le_of_succ_le_succ hw))]
        exact hit_opt (hit_hexcls n (hx a (by simp)))
      | succ k =>
        rw [upTo_succ]
        exact hit_opt (hit_seq (hit_hexcls n (hx a (by simp))) (ih w (by omega) (fun x h => hx x (by simp [h])) hr))

theorem hit_hexG (n : Nat) {g r : Str} {c : Caps} (hg : Grp g) (hr : ∀ x, r.head? = some x → isHex x = false) :
    Hit n hexG (g ++ r) c (r, c) := by
  have e : hexG = seqs [.cls hexCls, upTo true (.cls hexCls) 3] := rfl
  obtain ⟨hne, hl, hx⟩ := hg
  obtain ⟨a, w, rfl⟩ := List.exists_cons_of_ne_nil hne
  rw [List.length_cons] at hl
  rw [e]
  exact hit_cons (hit_hexcls n (hx a (by simp))) (hit_cons (hit_upTo_hex n 3 w (by omega) (fun x h => hx x (by simp [h])) hr) (hit_nil n _ _))

theorem hit_col (n : Nat) (s : Str) (c : Caps) : Hit n col (':' :: s) c (s, c) := hit_cls (k := .chr ':') rfl

theorem hit_gc (n : Nat) {g : Str} (s : Str) (c : Caps) (hg : Grp g) : Hit n gc (g ++ ':' :: s) c (s, c) :=
  hit_cons (hit_hexG n hg (by intro x hx; cases hx; exact colon_not_hex)) (hit_cons (hit_col n s c) (hit_nil n _ _))

theorem hit_cg (n : Nat) {g : Str} (s : Str) (c : Caps) (hg : Grp g) (hs : ∀ x, s.head? = some x → isHex x = false) :
    Hit n cg (':' :: (g ++ s)) c (s, c) :=
  hit_cons (hit_col n _ c) (hit_cons (hit_hexG n hg hs) (hit_nil n _ _))

theorem hit_gcs (n : Nat) : ∀ (gs : List Str) (s : Str) (c : Caps), (∀ g ∈ gs, Grp g) →
    Hit n (seqs (List.replicate gs.length gc)) ((gs.map (· ++ [':'])).flatten ++ s) c (s, c)
  | [], _, _, _ => rfl
  | g :: gs, s, c, hg => by
    have e : ((g :: gs).map (· ++ [':'])).flatten ++ s = g ++ ':' :: ((gs.map (· ++ [':'])).flatten ++ s) := by simp
    rw [e, List.length_cons, List.replicate_succ]
    exact hit_cons (hit_gc n _ c (hg g (by simp))) (hit_gcs n gs s c (fun g h => hg g (by simp [h])))

/-- The groups behind their colons. -/
theorem cgs_head (gs : List Str) {r : Str} (hr : ∀ x, r.head? = some x → isHex x = false) :
    ∀ x, ((gs.map (':' :: ·)).flatten ++ r).head? = some x → isHex x = false := by
  cases gs with
  | nil => exact hr
  | cons g gs => intro x hx; cases hx; exact colon_not_hex

theorem hit_cgs (n : Nat) : ∀ (gs : List Str) (r : Str) (c : Caps), (∀ g ∈ gs, Grp g) → (∀ x, r.head? = some x → isHex x = false) →
    Hit n (seqs (List.replicate gs.length cg)) ((gs.map (':' :: ·)).flatten ++ r) c (r, c)
  | [], _, _, _, _ => rfl
  | g :: gs, r, c, hg, hr => by
    have e : ((g :: gs).map (':' :: ·)).flatten ++ r = ':' :: (g ++ ((gs.map (':' :: ·)).flatten ++ r)) := by simp
    rw [e, List.length_cons, List.replicate_succ]
    exact hit_cons (hit_cg n _ c (hg g (by simp)) (cgs_head gs hr)) (hit_cgs n gs r c (fun g h => hg g (by simp [h])) hr)

theorem miss_cg {n : Nat} {s : Str} {c : Caps} (h : ∀ g v, Grp g → s ≠ ':' :: (g ++ v)) : Miss n cg s c := by
  rw [miss_iff]
  intro v hv
  obtain ⟨g, e, hg⟩ := (lang_cg n s v).mp hv
  exact h g v hg e

theorem end_cg {r : Str} (hr : End r) (g v : Str) : r ≠ ':' :: (g ++ v) := by
  rintro rfl
  exact (hr ':' rfl).2 rfl

theorem hit_upTo_cg (n k : Nat) : ∀ (gs : List Str) {r : Str} {c : Caps}, gs.length ≤ k → (∀ g ∈ gs, Grp g) → End r →
    Hit n (upTo true cg k) ((gs.map (':' :: ·)).flatten ++ r) c (r, c) := by
  induction k with
  | zero =>
    intro gs r c h _ _
    rw [List.length_eq_zero_iff.mp (Nat.le_zero.mp h)]; rfl
  | succ k ih =>
    intro gs r c h hg hr
    cases gs with
    | nil =>
      have hm : Miss n cg r c := miss_cg (fun g v _ => end_cg hr g v)
      cases k with
      | zero => exact miss_opt hm
      | succ k => rw [upTo_succ]; exact miss_opt (miss_seq hm)
    | cons g gs =>
      have e : ((g :: gs).map (':' :: ·)).flatten ++ r = ':' :: (g ++ ((gs.map (':' :: ·)).flatten ++ r)) := by simp
      rw [e]
      have h1 := hit_cg n ((gs.map (':' :: ·)).flatten ++ r) c (hg g (by simp)) (cgs_head gs (fun x hx => (hr x hx).1))
      rw [List.length_cons] at h
      cases k with
      | zero =>
        have : gs = [] := List.length_eq_zero_iff.mp (by omega)
        subst this
        exact hit_opt h1
      | succ k => rw [upTo_succ]; exact hit_opt (hit_seq h1 (ih gs (by omega) (fun g h => hg g (by simp [h])) hr))

theorem hit_times_cg (n k : Nat) (gs : List Str) {r : Str} {c : Caps} (h1 : 1 ≤ gs.length) (h2 : gs.length ≤ k) (hg : ∀ g ∈ gs, Grp g)
    (hr : End r) : Hit n (times true cg 1 (some k)) ((gs.map (':' :: ·)).flatten ++ r) c (r, c) := by
  cases gs with
  | nil => simp at h1
  | cons g gs =>
    rw [List.length_cons] at h2
    have e : ((g :: gs).map (':' :: ·)).flatten ++ r = ':' :: (g ++ ((gs.map (':' :: ·)).flatten ++ r)) := by simp
    have hh := hit_cg n ((gs.map (':' :: ·)).flatten ++ r) c (hg g (by simp)) (cgs_head gs (fun x hx => (hr x hx).1))
    rw [e, times]
    split
    · rename_i hk
      have : gs = [] := List.length_eq_zero_iff.mp (by omega)
      subst this
      exact hh
    · exact hit_cons hh (hit_cons (hit_upTo_cg n (k - 1) gs (by omega) (fun g h => hg g (by simp [h])) hr) (hit_nil n _ _))

theorem miss_gc {n : Nat} {s : Str} {c : Caps} (h : ∀ g v, Grp g → s ≠ g ++ ':' :: v) : Miss n gc s c := by
  rw [miss_iff]
  intro v hv
  obtain ⟨g, e, hg⟩ := (lang_gc n s v).mp hv
  exact h g v hg e

theorem hit_upTo_gc (n k : Nat) : ∀ (gs : List Str) {r : Str} {c : Caps}, gs.length ≤ k → (∀ g ∈ gs, Grp g) → (∀ g v, Grp g → r ≠ g ++ ':' :: v) →
    Hit n (upTo true gc k) ((gs.map (· ++ [':'])).flatten ++ r) c (r, c) := by
  induction k with
  | zero =>
    intro gs r c h _ _
    rw [List.length_eq_zero_iff.mp (Nat.le_zero.mp h)]; rfl
  | succ k ih =>
    intro gs r c h hg hr
    cases gs with
    | nil =>
      have hm : Miss n gc r c := miss_gc hr
      cases k with
      | zero => exact miss_opt hm
      | succ k => rw [upTo_succ]; exact miss_opt (miss_seq hm)
    | cons g gs =>
      have e : ((g :: gs).map (· ++ [':'])).flatten ++ r = g ++ ':' :: ((gs.map (· ++ [':'])).flatten ++ r) := by simp
      rw [e]
      have h1 := hit_gc n ((gs.map (· ++ [':'])).flatten ++ r) c (hg g (by simp))
      rw [List.length_cons] at h
      cases k with
      | zero =>
        have : gs = [] := List.length_eq_zero_iff.mp (by omega)
        subst this
        exact hit_opt h1
      | succ k => rw [upTo_succ]; exact hit_opt (hit_seq h1 (ih gs (by omega) (fun g h => hg g (by simp [h])) hr))

theorem colon_no_grp (s g v : Str) (hg : Grp g) : ':' :: s ≠ g ++ ':' :: v := by
  obtain ⟨hne, _, hx⟩ := hg
  obtain ⟨a, w, rfl⟩ := List.exists_cons_of_ne_nil hne
  intro e
  rw [List.cons_append, List.cons.injEq] at e
  have := hx a (by simp)
  rw [← e.1, colon_not_hex] at this; cases this

/-! ## The mask -/

theorem hit_mask (n : Nat) {p : Str} (hp : p ≠ [] ∧ ∀ x ∈ p, isDigit x = true) (c : Caps) :
    Hit n maskR ('/' :: p) c ([], (13, '/' :: p) :: (14, p) :: c) := by
  obtain ⟨hne, hd⟩ := hp
  obtain ⟨x, p', rfl⟩ := List.exists_cons_of_ne_nil hne
  have hdw : (p' : Str).dropWhile K.digit.cls.has = [] := by
    have key : ∀ (l : Str), (∀ y ∈ l, isDigit y = true) → l.dropWhile K.digit.cls.has = [] := by
      intro l
      induction l with
      | nil => intro _; rfl
      | cons y l ih =>
        intro h
        rw [List.dropWhile_cons_of_pos (by rw [K.cls_has]; exact h y (by simp))]
        exact ih (fun z hz => h z (by simp [hz]))
    exact key p' (fun y hy => hd y (by simp [hy]))
  have h1 := hit_plus_cls n K.digit.cls p' c (x := x) (by rw [K.cls_has]; exact hd x (by simp))
  rw [hdw] at h1
  have h2 := hit_grp (k := 14) h1
  have h3 : Hit n (seqs [.cls { items := [.chr '/', .space] }, .grp 14 dig]) ('/' :: x :: p') c ([], (14, x :: p') :: c) := by
    refine hit_cons (q := (x :: p', c)) rfl (hit_cons (q := ([], (14, x :: p') :: c)) ?_ (hit_nil n _ _))
    simpa [dig] using h2
  have h4 := hit_grp (k := 13) h3
  refine hit_star_step (p := ([], (13, '/' :: x :: p') :: (14, x :: p') :: c)) (by simpa using h4) (by simp) ?_
  exact hit_star_stop (by rw [Miss, run]; rfl)

theorem hit_nomask (n : Nat) (c : Caps) : Hit n maskR [] c ([], c) := hit_star_stop (by rw [Miss, run]; rfl)

/-! ## Alternatives -/

theorem alt_here {n : Nat} {b : Rgx} {l : List Rgx} {s : Str} {c : Caps} {q : Str × Caps} (h : Hit n b s c q) : Hit n (alts (b :: l)) s c q := by
  cases l with
  | nil => exact h
  | cons b' l =>
    show Hit n (.alt b (alts (b' :: l))) s c q
    rw [Hit, run, List.head?_append, show (run n b s c).head? = some q from h]; rfl

theorem alt_next {n : Nat} {b b' : Rgx} {l : List Rgx} {s : Str} {c : Caps} {q : Str × Caps} (h : Miss n b s c) (h' : Hit n (alts (b' :: l)) s c q) :
    Hit n (alts (b :: b' :: l)) s c q := by
  show Hit n (.alt b (alts (b' :: l))) s c q
  rw [Hit, run, show run n b s c = [] from h]; exact h'

theorem hit_grp_app {n k : Nat} {a : Rgx} {x r : Str} {c d : Caps} (h : Hit n a (x ++ r) c (r, d)) :
    Hit n (.grp k a) (x ++ r) c (r, (k, x) :: d) := by
  have := hit_grp (k := k) h
  rwa [List.length_append, Nat.add_sub_cancel, List.take_left] at this

theorem miss_grp {n k : Nat} {a : Rgx} {s : Str} {c : Caps} (h : ∀ v, ¬ Lang n a s v) : Miss n (.grp k a) s c := by
  rw [miss_iff]; exact h

theorem hexG_shift (n : Nat) : ∀ (m : Nat) (u v : Str), Lang n (seqs (hexG :: List.replicate m cg)) u v →
    ∃ w, Lang n (seqs (List.replicate m gc)) u w ∧ Lang n hexG w v
  | 0, u, v, h => by
    obtain ⟨w, h1, h2⟩ := (lang_cons ..).mp h
    rw [(lang_nil n w v).mp h2] at h1
    exact ⟨u, (lang_nil ..).mpr rfl, h1⟩
  | m + 1, u, v, h => by
    obtain ⟨w, h1, h2⟩ := (lang_cons ..).mp h
    rw [List.replicate_succ] at h2
    obtain ⟨x, h3, h4⟩ := (lang_cons ..).mp h2
    obtain ⟨g, rfl, hg⟩ := (lang_hexG n u w).mp h1
    obtain ⟨g2, rfl, hg2⟩ := (lang_cg n w x).mp h3
    obtain ⟨y, h5, h6⟩ := hexG_shift n m (g2 ++ x) v ((lang_cons ..).mpr ⟨x, (lang_hexG ..).mpr ⟨g2, rfl, hg2⟩, h4⟩)
    refine ⟨y, ?_, h6⟩
    rw [List.replicate_succ, lang_cons]
    exact ⟨_, (lang_gc ..).mpr ⟨g, rfl, hg⟩, h5⟩

theorem miss_opt2 {n : Nat} {s : Str} {c : Caps} (h : '.' ∉ s) : Miss n opt2 s c := by
  refine miss_grp ?_
  intro v hv
  obtain ⟨w1, h1, hv⟩ := (lang_cons ..).mp hv
  obtain ⟨w2, h2, hv⟩ := (lang_cons ..).mp hv
  obtain ⟨w3, h3, hv⟩ := (lang_cons ..).mp hv
  obtain ⟨a, rfl, ha⟩ := (lang_cls n (.chr '.') w2 w3).mp h3
  rw [show a = '.' by simpa [K.has] using ha] at h2
  have e1 : ∃ x, s = x ++ w1 := by
    obtain ⟨y, ⟨b, rfl, _⟩, h1b⟩ := h1
    obtain ⟨z, rfl, _⟩ := (lang_star n false hexColCls y w1).mp h1b
    exact ⟨b :: z, rfl⟩
  have e2 : ∃ x, w1 = x ++ '.' :: w3 := by
    obtain ⟨z, rfl, _⟩ := (lang_plus n true .digit w1 _).mp h2
    exact ⟨_, rfl⟩
  obtain ⟨x, rfl⟩ := e1
  obtain ⟨y, rfl⟩ := e2
  exact h (by simp)

theorem miss_opt1 {n : Nat} {hs : List Str} {y : Str} {c : Caps} (hh : ∀ g ∈ hs, Grp g) (hl : hs.length ≤ 7) :
    Miss n opt1 ((hs.map (· ++ [':'])).flatten ++ ':' :: y) c := by
  refine miss_grp ?_
  intro v hv
  rw [replicate_times] at hv
  obtain ⟨w, h1, h2⟩ := (lang_cons ..).mp hv
  obtain ⟨w', h2, h3⟩ := (lang_cons ..).mp h2
  rw [lang_nil] at h3; subst h3
  obtain ⟨x, h4, h5⟩ := hexG_shift n 7 _ _ ((lang_cons ..).mpr ⟨w, h1, h2⟩)
  obtain ⟨h6, rfl⟩ := (lang_gcs 7 hs (':' :: y) x hh (fun g v hg => colon_no_grp y g v hg)).mp h4
  rw [List.drop_eq_nil_of_le hl] at h5
  obtain ⟨g, e, hg⟩ := (lang_hexG n _ _).mp h5
  obtain ⟨hne, _, hx⟩ := hg
  obtain ⟨a, w, rfl⟩ := List.exists_cons_of_ne_nil hne
  simp at e
  have := hx a (by simp)
  rw [← e.1, colon_not_hex] at this; cases this

theorem grp_head {g : Str} (hg : Grp g) (s : Str) : ∃ a t, g ++ s = a :: t ∧ isHex a = true := by
  obtain ⟨hne, _, hx⟩ := hg
  obtain ⟨a, w, rfl⟩ := List.exists_cons_of_ne_nil hne
  exact ⟨a, w ++ s, rfl, hx a (by simp)⟩

theorem miss_optI {n : Nat} {hs : List Str} {y : Str} {c : Caps} (i : Nat) (hh : ∀ g ∈ hs, Grp g)
    (h : hs.length ≠ i ∨ ∀ x, y.head? = some x → isHex x = false) :
    Miss n (optI i) ((hs.map (· ++ [':'])).flatten ++ ':' :: y) c := by
  refine miss_grp ?_
  intro v hv
  rw [replicate_times] at hv
  obtain ⟨w, h1, h2⟩ := (lang_cons ..).mp hv
  obtain ⟨w', h2, h3⟩ := (lang_cons ..).mp h2
  obtain ⟨h6, rfl⟩ := (lang_gcs i hs (':' :: y) w hh (fun g v hg => colon_no_grp y g v hg)).mp h1
  obtain ⟨g, x, e, hg⟩ := cgs_start h2
  cases hd : hs.drop i with
  | nil =>
    rw [hd] at e
    have hi : hs.length = i := by have := List.drop_eq_nil_iff.mp hd; omega
    rcases h with h | h
    · exact h hi
    · simp at e
      obtain ⟨a, t, ea, ha⟩ := grp_head hg x
      rw [e, ea] at h
      rw [h a rfl] at ha; cases ha
  | cons b l =>
    rw [hd] at e
    obtain ⟨a, t, ea, ha⟩ := grp_head (hh b (List.mem_of_mem_drop (i := i) (by rw [hd]; simp))) (':' :: ((l.map (· ++ [':'])).flatten ++ ':' :: y))
    have e' : a :: t = ':' :: (g ++ x) := by rw [← ea, ← e]; simp
    rw [List.cons.injEq] at e'
    rw [e'.1, colon_not_hex] at ha; cases ha

theorem miss_opt9 {n : Nat} {s : Str} {c : Caps} (h : ∀ g v, Grp g → s ≠ ':' :: ':' :: (g ++ v)) : Miss n opt9 s c := by
  refine miss_grp ?_
  intro v hv
  obtain ⟨w, h1, h2⟩ := (lang_cons ..).mp hv
  obtain ⟨w', h2, h3⟩ := (lang_cons ..).mp h2
  obtain ⟨g, x, e, hg⟩ := cgs_start h2
  rw [e] at h1
  exact h g x hg ((lang_col n _ _).mp h1)

theorem miss_opt10 {n : Nat} {y : Str} {c : Caps} : Miss n opt10 (':' :: y) c := by
  refine miss_grp ?_
  intro v hv
  obtain ⟨w, h1, h2⟩ := (lang_cons ..).mp hv
  have h1' : Lang n (seqs [gc, upTo true gc 6]) (':' :: y) w := h1
  obtain ⟨w', h3, _⟩ := (lang_cons ..).mp h1'
  obtain ⟨g, e, hg⟩ := (lang_gc n _ _).mp h3
  exact colon_no_grp y g w' hg e

/-- The groups before `::`. -/
def heads (hs : List Str) : Str := (hs.map (· ++ [':'])).flatten
/-- The groups after `::`, each behind its colon. -/
def tails (ls : List Str) : Str := (ls.map (':' :: ·)).flatten

/-- The first match of the alternatives on an address that starts at the front. -/
def Finds (n : Nat) (a r : Str) : Prop := ∃ k, 2 ≤ k ∧ k ≤ 12 ∧ Hit n (alts opts6) (a ++ r) [] (r, [(k, a)])

theorem finds_full (n : Nat) {g r : Str} {gs : List Str} (hl : gs.length = 7) (hg : Grp g) (hgs : ∀ g ∈ gs, Grp g) (hr : End r) :
    Finds n (g ++ tails gs) r := by
  refine ⟨2, by omega, by omega, alt_here ?_⟩
  have h : Hit n (seqs [hexG, times true cg 7 (some 7)]) ((g ++ tails gs) ++ r) [] (r, []) := by
    rw [List.append_assoc]
    refine hit_cons (hit_hexG n hg (cgs_head gs (fun x hx => (hr x hx).1))) (hit_cons (q := (r, [])) ?_ (hit_nil n _ _))
    rw [replicate_times, ← hl]
    exact hit_cgs n gs r [] hgs (fun x hx => (hr x hx).1)
  exact hit_grp_app h

theorem hit_optI (n : Nat) {hs ls : List Str} {r : Str} (i : Nat) (hi : hs.length = i) (hh : ∀ g ∈ hs, Grp g) (hls : ∀ g ∈ ls, Grp g)
    (h1 : ls ≠ []) (h2 : i + ls.length ≤ 7) (hr : End r) :
    Hit n (optI i) ((heads hs ++ tails ls) ++ r) [] (r, [(i + 3, heads hs ++ tails ls)]) := by
  have h : Hit n (seqs [times true gc i (some i), times true cg 1 (some (7 - i))]) ((heads hs ++ tails ls) ++ r) [] (r, []) := by
    rw [List.append_assoc]
    refine hit_cons (q := (tails ls ++ r, [])) ?_ (hit_cons (hit_times_cg n (7 - i) ls (List.length_pos_iff.mpr h1) (by omega) hls hr) (hit_nil n _ _))
    rw [replicate_times, ← hi]
    exact hit_gcs n hs _ [] hh
  exact hit_grp_app h

theorem tails_cons (ls : List Str) (h : ls ≠ []) : ∃ y, tails ls = ':' :: y ∧ ∀ g ∈ ls.head?, ∃ z, y = g ++ z := by
  cases ls with
  | nil => exact absurd rfl h
  | cons g ls => exact ⟨g ++ tails ls, by simp [tails], by intro g' hg; cases hg; exact ⟨_, rfl⟩⟩

theorem finds_mid (n : Nat) {hs ls : List Str} {r : Str} (h0 : hs ≠ []) (h1 : ls ≠ []) (h2 : hs.length + ls.length ≤ 7)
    (hh : ∀ g ∈ hs, Grp g) (hls : ∀ g ∈ ls, Grp g) (hr : End r) (hd : '.' ∉ (heads hs ++ tails ls) ++ r) :
    Finds n (heads hs ++ tails ls) r := by
  have hlen : 1 ≤ hs.length := List.length_pos_iff.mpr h0
  have hlen' : 1 ≤ ls.length := List.length_pos_iff.mpr h1
  obtain ⟨y, ey, _⟩ := tails_cons ls h1
  have es : (heads hs ++ tails ls) ++ r = (hs.map (· ++ [':'])).flatten ++ ':' :: (y ++ r) := by
    rw [List.append_assoc, ey]; rfl
  have m1 : Miss n opt1 ((heads hs ++ tails ls) ++ r) [] := by rw [es]; exact miss_opt1 hh (by omega)
  have m2 : Miss n opt2 ((heads hs ++ tails ls) ++ r) [] := miss_opt2 hd
  have mI : ∀ i, hs.length ≠ i → Miss n (optI i) ((heads hs ++ tails ls) ++ r) [] := by
    intro i hi; rw [es]; exact miss_optI i hh (.inl hi)
  have hI := hit_optI n hs.length rfl hh hls h1 h2 hr
  refine ⟨hs.length + 3, by omega, by omega, alt_next m1 (alt_next m2 ?_)⟩
  by_cases c1 : hs.length = 1
  · rw [c1] at hI ⊢; exact alt_here hI
  refine alt_next (mI 1 c1) ?_
  by_cases c2 : hs.length = 2
  · rw [c2] at hI ⊢; exact alt_here hI
  refine alt_next (mI 2 c2) ?_
  by_cases c3 : hs.length = 3
  · rw [c3] at hI ⊢; exact alt_here hI
  refine alt_next (mI 3 c3) ?_
  by_cases c4 : hs.length = 4
  · rw [c4] at hI ⊢; exact alt_here hI
  refine alt_next (mI 4 c4) ?_
  by_cases c5 : hs.length = 5
  · rw [c5] at hI ⊢; exact alt_here hI
  refine alt_next (mI 5 c5) ?_
  by_cases c6 : hs.length = 6
  · rw [c6] at hI ⊢; exact alt_here hI
  omega

theorem finds_lead (n : Nat) {ls : List Str} {r : Str} (h1 : ls ≠ []) (h2 : ls.length ≤ 7) (hls : ∀ g ∈ ls, Grp g) (hr : End r)
    (hd : '.' ∉ (':' :: tails ls) ++ r) : Finds n (':' :: tails ls) r := by
  obtain ⟨y, ey, _⟩ := tails_cons ls h1
  have m1 : Miss n opt1 ((':' :: tails ls) ++ r) [] := miss_opt1 (hs := []) (y := tails ls ++ r) (by simp) (by simp)
  have m2 : Miss n opt2 ((':' :: tails ls) ++ r) [] := miss_opt2 hd
  have mI : ∀ i, Miss n (optI i) ((':' :: tails ls) ++ r) [] := fun i =>
    miss_optI (hs := []) (y := tails ls ++ r) i (by simp) (.inr (by rw [ey]; intro x hx; cases hx; exact colon_not_hex))
  refine ⟨10, by omega, by omega, alt_next m1 (alt_next m2 (alt_next (mI 1) (alt_next (mI 2) (alt_next (mI 3) (alt_next (mI 4) (alt_next (mI 5)
    (alt_next (mI 6) (alt_here ?_))))))))⟩
  have h : Hit n (seqs [col, times true cg 1 (some 7)]) ((':' :: tails ls) ++ r) [] (r, []) :=
    hit_cons (hit_col n _ _) (hit_cons (hit_times_cg n 7 ls (List.length_pos_iff.mpr h1) h2 hls hr) (hit_nil n _ _))
  exact hit_grp_app h

theorem finds_trail (n : Nat) {hs : List Str} {r : Str} (h1 : hs ≠ []) (h2 : hs.length ≤ 7) (hh : ∀ g ∈ hs, Grp g) (hr : End r)
    (hd : '.' ∉ (heads hs ++ [':']) ++ r) : Finds n (heads hs ++ [':']) r := by
  have es : (heads hs ++ [':']) ++ r = (hs.map (· ++ [':'])).flatten ++ ':' :: r := by
    rw [List.append_assoc]; rfl
  have m1 : Miss n opt1 ((heads hs ++ [':']) ++ r) [] := by rw [es]; exact miss_opt1 hh (by omega)
  have m2 : Miss n opt2 ((heads hs ++ [':']) ++ r) [] := miss_opt2 hd
  have mI : ∀ i, Miss n (optI i) ((heads hs ++ [':']) ++ r) [] := by
    intro i; rw [es]; exact miss_optI i hh (.inr (fun x hx => (hr x hx).1))
  have m9 : Miss n opt9 ((heads hs ++ [':']) ++ r) [] := by
    refine miss_opt9 ?_
    intro g v _ e
    cases hs with
    | nil => exact h1 rfl
    | cons b hs =>
      obtain ⟨a, t, ea, ha⟩ := grp_head (hh b (by simp)) (':' :: (heads hs ++ ':' :: r))
      have e' : a :: t = ':' :: ':' :: (g ++ v) := by rw [← ea, ← e]; simp [heads]
      rw [List.cons.injEq] at e'
      rw [e'.1, colon_not_hex] at ha; cases ha
  refine ⟨11, by omega, by omega, alt_next m1 (alt_next m2 (alt_next (mI 1) (alt_next (mI 2) (alt_next (mI 3) (alt_next (mI 4) (alt_next (mI 5)
    (alt_next (mI 6) (alt_next m9 (alt_here ?_)))))))))⟩
  have h : Hit n (seqs [times true gc 1 (some 7), col]) ((heads hs ++ [':']) ++ r) [] (r, []) := by
    rw [List.append_assoc]
    refine hit_cons (q := (':' :: r, [])) ?_ (hit_cons (hit_col n _ _) (hit_nil n _ _))
    show Hit n (seqs [gc, upTo true gc 6]) _ _ _
    cases hs with
    | nil => exact absurd rfl h1
    | cons b hs =>
      have e : heads (b :: hs) ++ ([':'] ++ r) = b ++ ':' :: ((hs.map (· ++ [':'])).flatten ++ ':' :: r) := by simp [heads]
      rw [e]
      refine hit_cons (hit_gc n _ _ (hh b (by simp))) (hit_cons (hit_upTo_gc n 6 hs ?_ (fun g hg => hh g (by simp [hg])) (fun g v hg => colon_no_grp r g v hg)) (hit_nil n _ _))
      rw [List.length_cons] at h2; omega
  exact hit_grp_app h

theorem finds_bare (n : Nat) {r : Str} (hr : End r) (hd : '.' ∉ [':', ':'] ++ r) : Finds n [':', ':'] r := by
  have m1 : Miss n opt1 ([':', ':'] ++ r) [] := miss_opt1 (hs := []) (y := ':' :: r) (by simp) (by simp)
  have m2 : Miss n opt2 ([':', ':'] ++ r) [] := miss_opt2 hd
  have mI : ∀ i, Miss n (optI i) ([':', ':'] ++ r) [] := fun i =>
    miss_optI (hs := []) (y := ':' :: r) i (by simp) (.inr (by intro x hx; cases hx; exact colon_not_hex))
  have m9 : Miss n opt9 ([':', ':'] ++ r) [] := by
    refine miss_opt9 ?_
    intro g v hg e
    simp at e
    obtain ⟨a, t, ea, ha⟩ := grp_head hg v
    have := (hr a (by rw [e, ea]; rfl)).1
    rw [ha] at this; cases this
  refine ⟨12, by omega, by omega, alt_next m1 (alt_next m2 (alt_next (mI 1) (alt_next (mI 2) (alt_next (mI 3) (alt_next (mI 4) (alt_next (mI 5)
    (alt_next (mI 6) (alt_next m9 (alt_next miss_opt10 (alt_here ?_))))))))))⟩
  have h : Hit n (seqs [col, col]) ([':', ':'] ++ r) [] (r, []) := hit_cons (hit_col n _ _) (hit_cons (hit_col n _ _) (hit_nil n _ _))
  exact hit_grp_app h

/-! ## A dotted quad at the end -/

theorem hit_digits {n : Nat} {p r : Str} {c : Caps} (hp : p ≠ []) (hd : ∀ x ∈ p, isDigit x = true)
    (hr : ∀ x, r.head? = some x → isDigit x = false) : Hit n dig (p ++ r) c (r, c) := by
  obtain ⟨x, p', rfl⟩ := List.exists_cons_of_ne_nil hp
  have h1 := hit_plus_cls n K.digit.cls (p' ++ r) c (x := x) (by rw [K.cls_has]; exact hd x (by simp))
  have e : (p' ++ r).dropWhile K.digit.cls.has = r := by
    rw [List.dropWhile_append_of_pos (by intro y hy; rw [K.cls_has]; exact hd y (by simp [hy]))]
    cases r with
    | nil => rfl
    | cons y r => rw [List.dropWhile_cons_of_neg (by rw [K.cls_has]; show ¬ isDigit y = true; rw [hr y rfl]; simp)]
  rw [e] at h1
  exact h1

theorem hit_dot (n : Nat) (s : Str) (c : Caps) : Hit n dot ('.' :: s) c (s, c) := hit_cls (k := .chr '.') rfl

theorem dot_no_digit (s : Str) : ∀ x, ('.' :: s : Str).head? = some x → isDigit x = false := by
  intro x hx; cases hx; decide

theorem digit_hex {x : Char} (h : isHex x = false) : isDigit x = false := by
  cases hd : isDigit x with
  | false => rfl
  | true =>
    exfalso
    have : isHex x = true := by
      simp only [isDigit, Bool.and_eq_true, decide_eq_true_eq] at hd
      simp only [isHex, hexCls, Cls.has, Item.has, List.any_cons, List.any_nil, Bool.or_false, Bool.false_and, Bool.or_eq_true,
        bne_iff_ne, ne_eq, Bool.not_eq_false, Bool.and_eq_true, decide_eq_true_eq]
      exact .inl hd
    rw [h] at this; cases this

def quadRest : List Rgx := [dig, dot, dig, dot, dig, dot, dig]

theorem hit_quad {n : Nat} {a b c d r : Str} {cs : Caps} (ha : a ≠ [] ∧ ∀ x ∈ a, isDigit x = true) (hb : b ≠ [] ∧ ∀ x ∈ b, isDigit x = true)
    (hc : c ≠ [] ∧ ∀ x ∈ c, isDigit x = true) (hd : d ≠ [] ∧ ∀ x ∈ d, isDigit x = true) (hr : End r) :
    Hit n (seqs quadRest) (a ++ '.' :: (b ++ '.' :: (c ++ '.' :: (d ++ r)))) cs (r, cs) :=
  hit_cons (hit_digits ha.1 ha.2 (dot_no_digit _)) (hit_cons (hit_dot n _ _)
    (hit_cons (hit_digits hb.1 hb.2 (dot_no_digit _)) (hit_cons (hit_dot n _ _)
      (hit_cons (hit_digits hc.1 hc.2 (dot_no_digit _)) (hit_cons (hit_dot n _ _)
        (hit_cons (hit_digits hd.1 hd.2 (fun x hx => digit_hex (hr x hx).1)) (hit_nil n _ _)))))))

/-- Before a colon there is no dotted quad. -/
theorem miss_quad {n : Nat} {x s : Str} {c : Caps} (h1 : ':' ∈ x) (h2 : '.' ∉ x) : Miss n (seqs quadRest) (x ++ s) c := by
  rw [miss_iff]
  intro v hv
  obtain ⟨w1, ha, hv⟩ := (lang_cons ..).mp hv
  obtain ⟨w2, hb, _⟩ := (lang_cons ..).mp hv
  obtain ⟨ds, e, _, hds⟩ : ∃ ds, x ++ s = ds ++ w1 ∧ ds ≠ [] ∧ ∀ y ∈ ds, isDigit y = true := by
    obtain ⟨z, e, h, h'⟩ := (lang_plus n true .digit _ w1).mp ha
    exact ⟨z, e, h, h'⟩
  obtain ⟨b, rfl, hb'⟩ := (lang_cls n (.chr '.') w1 w2).mp hb
  rw [show b = '.' by simpa [K.has] using hb'] at e
  have hpre : ':' ∈ ds := by
    rcases List.append_eq_append_iff.mp e with ⟨y, e1, e2⟩ | ⟨y, e1, e2⟩
    · rw [e1]; exact List.mem_append_left _ h1
    · exfalso
      cases y with
      | nil =>
        have : x = ds := by simpa using e1
        have := hds ':' (this ▸ h1)
        exact absurd this (by decide)
      | cons z y =>
        have : z = '.' := by simp at e2; exact e2.1.symm
        refine h2 ?_
        rw [e1, this]; simp
  exact absurd (hds _ hpre) (by decide)

/-- An address that ends with a dotted quad: `x` is what is before it. -/
theorem finds_quad (n : Nat) {x a b c d r : Str} (hx : x ≠ []) (hxe : ∃ y, x = y ++ [':']) (hxc : ∀ z ∈ x, hexColCls.has z = true) (hxd : '.' ∉ x)
    (ha : a ≠ [] ∧ ∀ x ∈ a, isDigit x = true) (hb : b ≠ [] ∧ ∀ x ∈ b, isDigit x = true)
    (hc : c ≠ [] ∧ ∀ x ∈ c, isDigit x = true) (hd : d ≠ [] ∧ ∀ x ∈ d, isDigit x = true) (hr : End r)
    (hm : Miss n opt1 ((x ++ (a ++ '.' :: (b ++ '.' :: (c ++ '.' :: d)))) ++ r) []) :
    Finds n (x ++ (a ++ '.' :: (b ++ '.' :: (c ++ '.' :: d)))) r := by
  refine ⟨3, by omega, by omega, alt_next hm (alt_here ?_)⟩
  refine hit_grp_app ?_
  have e : (x ++ (a ++ '.' :: (b ++ '.' :: (c ++ '.' :: d)))) ++ r = x ++ (a ++ '.' :: (b ++ '.' :: (c ++ '.' :: (d ++ r)))) := by simp
  rw [e]
  show Hit n (seqs (.seq (.cls hexColCls) (.star false (.cls hexColCls)) :: quadRest)) _ _ _
  rw [hit_cons_iff]
  obtain ⟨z, w, rfl⟩ := List.exists_cons_of_ne_nil hx
  rw [hitk_seq]
  refine hitk_first (p := (w ++ (a ++ '.' :: (b ++ '.' :: (c ++ '.' :: (d ++ r)))), [])) ?_ ?_
  · rw [Hit, List.cons_append, run, if_pos (hxc z (by simp))]; rfl
  · have hl := hitk_lazy (n := n) (k := hexColCls) (κ := fun p => run n (seqs quadRest) p.1 p.2) w
      (r := a ++ '.' :: (b ++ '.' :: (c ++ '.' :: (d ++ r)))) (c := []) (q := (r, []))
      (fun y hy => hxc y (by simp [hy])) (hit_quad ha hb hc hd hr) (by
        intro w' y w'' ew
        have hmem : ':' ∈ y :: w'' := by
          obtain ⟨v, ev⟩ := hxe
          rw [ew] at ev
          have : (z :: (w' ++ y :: w'')).getLast? = some ':' := by rw [ev]; simp
          have hlast : (z :: w' ++ y :: w'').getLast? = some ':' := this
          rw [List.getLast?_append] at hlast
          cases hg : (y :: w'').getLast? with
          | none => simp at hg
          | some q =>
            rw [hg] at hlast
            have : q = ':' := by simpa using hlast
            rw [this] at hg
            exact List.mem_of_getLast? hg
        have := miss_quad (n := n) (s := a ++ '.' :: (b ++ '.' :: (c ++ '.' :: (d ++ r)))) (c := []) hmem
          (fun hdot => hxd (by rw [ew]; exact List.mem_cons_of_mem _ (List.mem_append_right _ hdot)))
        exact this)
    exact hl

theorem hit_nla6 (n : Nat) {s : Str} (h : ∀ v, s ≠ ':' :: ':' :: ':' :: v) (c : Caps) : Hit n nla6 s c (s, c) := by
  have : run n (seqs [col, col, col, .seq (.cls K.nonspace.cls) (.star false (.cls K.nonspace.cls)), .eol]) s c = [] := by
    refine (miss_iff n _ s c).mpr ?_
    intro v hv
    obtain ⟨w1, h1, hv⟩ := (lang_cons ..).mp hv
    obtain ⟨w2, h2, hv⟩ := (lang_cons ..).mp hv
    obtain ⟨w3, h3, hv⟩ := (lang_cons ..).mp hv
    rw [(lang_col ..).mp h3] at h2
    rw [(lang_col ..).mp h2] at h1
    exact h _ ((lang_col ..).mp h1)
  rw [Hit, nla6, run, this]; rfl

theorem find6_hit {s r : Str} {c : Caps} (h : Hit s.length (seqs [nla6, .grp 1 (alts opts6), maskR]) s [] (r, c)) :
    find6 s = .ok ((c.lookup 1).getD [], c.lookup 14) := by
  obtain ⟨names, hc⟩ := compile6
  have h' := search_here h 14 names
  unfold find6
  rw [hc]
  simp only []
  rw [h']

/-- What the search finds on an address, alone or with a mask length. -/
theorem find6_of {a : Str} (h3 : ∀ r v, End r → a ++ r ≠ ':' :: ':' :: ':' :: v)
    (hf : ∀ n r, End r → ('.' ∉ r) → (':' ∉ r) → Finds n a r) :
    find6 a = .ok (a, none) ∧ ∀ p : Str, p ≠ [] → (∀ x ∈ p, isDigit x = true) → find6 (a ++ '/' :: p) = .ok (a, some p) := by
  have e0 : End ([] : Str) := by intro c hc; cases hc
  constructor
  · obtain ⟨k, hk1, hk2, hh⟩ := hf a.length [] e0 (by simp) (by simp)
    have h := hit_cons (hit_nla6 a.length (h3 [] · e0) [])
      (hit_cons (hit_grp_app (k := 1) hh) (hit_cons (hit_nomask a.length _) (hit_nil _ _ _)))
    rw [List.append_nil] at h
    rw [find6_hit h]
    have : ¬ (14 = k) := by omega
    simp [List.lookup, show (14 == k) = false by simpa using this]
  · intro p hp hd
    have e1 : End ('/' :: p) := by intro c hc; cases hc; exact ⟨slash_not_hex, by decide⟩
    have hnd : '.' ∉ '/' :: p := by
      intro hm
      rcases List.mem_cons.mp hm with h | h
      · exact absurd h (by decide)
      · have := hd _ h; exact absurd this (by decide)
    have hnc : ':' ∉ '/' :: p := by
      intro hm
      rcases List.mem_cons.mp hm with h | h
      · exact absurd h (by decide)
      · have := hd _ h; exact absurd this (by decide)
    obtain ⟨k, hk1, hk2, hh⟩ := hf (a ++ '/' :: p).length ('/' :: p) e1 hnd hnc
    have h := hit_cons (hit_nla6 _ (fun v => h3 _ v e1) []) (hit_cons (hit_grp_app (k := 1) hh) (hit_cons (hit_mask _ ⟨hp, hd⟩ _) (hit_nil _ _ _)))
    rw [find6_hit h]
    simp [List.lookup]

end IP

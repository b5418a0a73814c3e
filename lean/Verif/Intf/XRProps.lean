import Verif.Intf.XRLemmas

/-! # C106-C109: interfaces of IOS XR -/

namespace Intf.XR

open Py

namespace Spec

/-- A prefix of letters, hyphens and inner blanks. -/
structure Prefix (p : Str) : Prop where
  chars : ∀ c ∈ p, isLetter c = true ∨ c = '-' ∨ isSpace c = true
  first : ∀ c, p.head? = some c → isSpace c = false
  last : ∀ c, p.getLast? = some c → isSpace c = false

/-- A word of letters and digits. -/
def Alnum (w : Str) : Prop := w ≠ [] ∧ ∀ c ∈ w, isLetter c = true ∨ isDigit c = true

/-- Text that does not go on with a letter or a digit. -/
def Ends (r : Str) : Prop := ∀ c, r.head? = some c → isLetter c = false ∧ isDigit c = false

/-- `slot/card/processor/port`. -/
def four (s : Nat) (c q : Str) (n : Nat) : Str := join ['/'] [natStr s, c, q, natStr n]

/-- `slot/port`. -/
def two (s n : Nat) : Str := join ['/'] [natStr s, natStr n]

/-- `slot/card/port`. -/
def three (s c n : Nat) : Str := join ['/'] [natStr s, natStr c, natStr n]

/-- The interface `slot/card/processor/port`. -/
def intf4 (p : Str) (s : Nat) (c q : Str) (n : Nat) : Intf := ⟨p, some ['/'], some s, some c, some q, n, none, none, none⟩

/-- The interface `slot/port`. -/
def intf2 (p : Str) (s n : Nat) : Intf := ⟨p, some ['/'], some s, none, none, n, none, none, none⟩

/-- The interface `port`, with what may be behind it. -/
def intf1 (p : Str) (n : Nat) (sub chan : Option Nat) (cls : Option Str) : Intf := ⟨p, none, none, none, none, n, sub, chan, cls⟩

/-- `port.subinterface:channel class`. -/
def one (n : Nat) (sub chan : Option Nat) (cls : Option Str) : Str :=
  natStr n ++ Intf.Spec.signed '.' sub ++ Intf.Spec.signed ':' chan ++ Intf.Spec.word cls

/-- A class: a word of letters and hyphens. -/
def Class (cls : Option Str) : Prop := ∀ w, cls = some w → w ≠ [] ∧ ∀ c ∈ w, isLetter c = true ∨ c = '-'

end Spec

open Intf.Spec (White)

theorem nat_word (n : Nat) : Word (natStr n) := ⟨natStr_ne_nil n, fun c hc => Or.inr (natStr_digits n c hc)⟩

theorem word_clean {w : Str} (h : Word w) {x : Char} (h1 : isLetter x = false) (h2 : isDigit x = false) : x ∉ w := by
  intro hm
  rcases h.2 x hm with h | h
  · rw [h1] at h; cases h
  · rw [h2] at h; cases h

theorem word_noSpace {w : Str} (h : Word w) : ∀ c ∈ w, isSpace c = false := by
  intro c hc
  rcases h.2 c hc with h | h
  · exact isLetter_not_space h
  · exact isDigit_not_space h

theorem toNat_natStr (n : Nat) : toNat (natStr n) = .ok n := by
  rw [toNat, pyInt_natStr]; rfl

theorem four_eq (s : Nat) (c q : Str) (n : Nat) :
    Spec.four s c q n = natStr s ++ '/' :: (c ++ '/' :: (q ++ '/' :: natStr n)) := by
  simp [Spec.four, join]

theorem three_eq (s c n : Nat) : Spec.three s c n = natStr s ++ '/' :: (natStr c ++ '/' :: natStr n) := by
  simp [Spec.three, join]

theorem two_eq (s n : Nat) : Spec.two s n = natStr s ++ '/' :: natStr n := by simp [Spec.two, join]

theorem nat_head_append (s : Nat) (r : Str) : ∃ c v, natStr s ++ r = c :: v ∧ isDigit c = true := by
  obtain ⟨c, v, e, h⟩ := nat_head s
  exact ⟨c, v ++ r, by rw [e]; rfl, h⟩

/-- The characters of the numbers. -/
def Plain (b : Str) : Prop := ∀ c ∈ b, isLetter c = true ∨ isDigit c = true ∨ c = '/'

theorem plain_word {w : Str} (h : Word w) : Plain w := by
  intro c hc
  rcases h.2 c hc with h | h
  · exact Or.inl h
  · exact Or.inr (Or.inl h)

theorem plain_slash {a b : Str} (ha : Plain a) (hb : Plain b) : Plain (a ++ '/' :: b) := by
  intro c hc
  rcases List.mem_append.mp hc with h | h
  · exact ha c h
  · rcases List.mem_cons.mp h with rfl | h
    · exact Or.inr (Or.inr rfl)
    · exact hb c h

theorem plain_not {b : Str} (h : Plain b) {x : Char} (h1 : isLetter x = false) (h2 : isDigit x = false) (h3 : x ≠ '/') : x ∉ b := by
  intro hm
  rcases h x hm with h | h | h
  · rw [h1] at h; cases h
  · rw [h2] at h; cases h
  · exact h3 h

theorem plain_space {b : Str} (h : Plain b) : ∀ c ∈ b, isSpace c = false := by
  intro c hc
  rcases h c hc with h | h | h
  · exact isLetter_not_space h
  · exact isDigit_not_space h
  · subst h; decide

theorem plain_cls {b : Str} (h : Plain b) : clsOf b = none := by
  have := clsOf_word (x := b) (plain_space h) (o := none) (by intro w hw; cases hw)
  rwa [Intf.Spec.word, List.append_nil] at this

theorem ends_end {r : Str} (h : Spec.Ends r) : End r := by
  intro c hc
  obtain ⟨h1, h2⟩ := h c hc
  cases ha : alnumC.has c with
  | false => rfl
  | true =>
    rcases (alnumC_has c).mp ha with h | h
    · rw [h1] at h; cases h
    · rw [h2] at h; cases h

theorem finish4 {p p' : Str} (s : Nat) (c q : Str) (n : Nat) (hp : strip p' = p) {b : Str} (hb : Plain b) (k : Re.Caps)
    (hk : k = [(9, natStr n), (8, ['/']), (7, q), (6, ['/']), (5, c), (4, ['/']), (3, natStr s)]) :
    finish p' b (fun j => ((2, b) :: (k ++ [(1, [])])).lookup j) = .ok (Spec.intf4 p s c q n) := by
  subst hk
  show state p' _ (some (natStr s)) _ _ (some (natStr n)) _ _ _ = _
  rw [state, toNat_natStr, ok_bind, toNat_natStr, ok_bind,
    afterSign_none (plain_not hb (by decide) (by decide) (by decide)),
    afterSign_none (plain_not hb (by decide) (by decide) (by decide)), plain_cls hb, hp]
  rfl

theorem finish2 {p p' : Str} (s n : Nat) (hp : strip p' = p) {b : Str} (hb : Plain b) (k : Re.Caps)
    (hk : k = [(5, natStr n), (4, ['/']), (3, natStr s)]) :
    finish p' b (fun j => ((2, b) :: (k ++ [(1, [])])).lookup j) = .ok (Spec.intf2 p s n) := by
  subst hk
  show state p' _ (some (natStr s)) _ _ (some (natStr n)) _ _ _ = _
  rw [state, toNat_natStr, ok_bind, toNat_natStr, ok_bind,
    afterSign_none (plain_not hb (by decide) (by decide) (by decide)),
    afterSign_none (plain_not hb (by decide) (by decide) (by decide)), plain_cls hb, hp]
  rfl

theorem finish3 {p p' : Str} (s c n : Nat) (hp : strip p' = p) {b : Str} (hb : Plain b) (k : Re.Caps)
    (hk : k = [(7, natStr n), (6, ['/']), (5, natStr c), (4, ['/']), (3, natStr s)]) :
    finish p' b (fun j => ((2, b) :: (k ++ [(1, [])])).lookup j) =
      .ok ⟨p, some ['/'], some s, none, some (natStr n), c, none, none, none⟩ := by
  subst hk
  show state p' _ (some (natStr s)) _ _ (some (natStr c)) _ _ _ = _
  rw [state, toNat_natStr, ok_bind, toNat_natStr, ok_bind,
    afterSign_none (plain_not hb (by decide) (by decide) (by decide)),
    afterSign_none (plain_not hb (by decide) (by decide) (by decide)), plain_cls hb, hp]
  rfl

theorem rstrip_append {a : Str} (h : ∀ c, a.getLast? = some c → isSpace c = false) (r : Str) :
    rstrip (a ++ r) = a ++ rstrip r := by
  obtain ⟨ws, e, hw⟩ := Conf.rstrip_eq_append r
  have : rstrip (a ++ r) = rstrip (a ++ rstrip r) := by
    conv => lhs; rw [e]
    rw [← List.append_assoc, Conf.rstrip_append_spaces _ _ hw]
  rw [this]
  refine rstrip_of_last (fun c hc => ?_)
  by_cases hn : rstrip r = []
  · rw [hn, List.append_nil] at hc; exact h c hc
  · rw [getLast?_append_ne hn] at hc; exact getLast?_rstrip r c hc

theorem rstrip_white {w : Str} (h : White w) : rstrip w = [] := by
  have := Conf.rstrip_append_spaces [] w h
  rw [List.nil_append] at this
  rw [this]; rfl

theorem head_rstrip {r : Str} {c : Char} (h : (rstrip r).head? = some c) : r.head? = some c := by
  obtain ⟨t, e⟩ := rstrip_prefix r
  rw [← e, List.head?_append, h]; rfl

/-- White text around the name and in front of the numbers is ignored, and so is what the
expression does not read. -/
theorem parse_text {p w1 w2 b r : Str} (hp : Spec.Prefix p) (h1 : White w1) (h2 : White w2)
    (hb : ∃ c v, b = c :: v ∧ isDigit c = true) (hpl : Plain b) (hs : '/' ∈ b) (hr : ',' ∉ r) {k : Re.Caps}
    (hk : k.lookup 1 = none)
    (h : ∀ n k', Re.Hit n (Re.seqs bodyL) (b ++ rstrip r) k' (rstrip r, k ++ k'))
    (h' : ∀ n k', Re.Hit n (Re.seqs bodyL) b k' ([], k ++ k')) :
    ∃ p', strip p' = p ∧ parse (w1 ++ p ++ w2 ++ b ++ r) = finish p' b (fun j => ((2, b) :: (k ++ [(1, [])])).lookup j) := by
  obtain ⟨c, v, rfl, hc⟩ := hb
  have hn : White ([] : Str) := by intro x hx; cases hx
  have hsp := plain_space hpl
  obtain ⟨_, e2⟩ := strip_spaced (b := c :: v) h1 h2 hn hp.first hp.last
    (by intro x hx; cases hx; exact isDigit_not_space hc) (fun x hx => hsp x (List.mem_of_getLast? hx)) (by simp)
  have ht : strip (w1 ++ p ++ w2 ++ (c :: v) ++ r) = lstrip (w1 ++ p ++ w2) ++ ((c :: v) ++ rstrip r) := by
    have hrs : rstrip ((w1 ++ p ++ w2) ++ ((c :: v) ++ r)) = (w1 ++ p ++ w2) ++ ((c :: v) ++ rstrip r) := by
      rw [← List.append_assoc, ← List.append_assoc]
      refine rstrip_append (fun x hx => ?_) r
      rw [getLast?_append_ne (by simp)] at hx
      exact hsp x (List.mem_of_getLast? hx)
    rw [strip, List.append_assoc _ (c :: v) r, hrs, lstrip_append]
    intro x hx; cases hx; exact isDigit_not_space hc
  have hcomma : ',' ∉ w1 ++ p ++ w2 ++ (c :: v) ++ r := by
    simp only [List.mem_append, not_or]
    exact ⟨⟨⟨⟨comma_white h1, fun hm => comma_pfx (hp.chars _ hm) rfl⟩, comma_white h2⟩,
      plain_not hpl (by decide) (by decide) (by decide)⟩, hr⟩
  refine ⟨_, e2, parse_long ht hcomma ?_ ⟨c, v, rfl, hc⟩ hs hk h h'⟩
  intro x hx
  have := mem_lstrip hx
  rw [isPfx_iff]
  simp only [List.mem_append] at this
  rcases this with (hm | hm) | hm
  · exact Or.inr (Or.inr (h1 x hm))
  · exact hp.chars x hm
  · exact Or.inr (Or.inr (h2 x hm))

theorem parse_four {p c q w1 w2 r : Str} (hp : Spec.Prefix p) (s n : Nat) (hc : Spec.Alnum c) (hq : Spec.Alnum q)
    (h1 : White w1) (h2 : White w2) (hr : Spec.Ends r) (hr' : ',' ∉ r) :
    parse (w1 ++ p ++ w2 ++ Spec.four s c q n ++ r) = .ok (Spec.intf4 p s c q n) := by
  have hpl : Plain (Spec.four s c q n) := by
    rw [four_eq]
    exact plain_slash (plain_word (nat_word s)) (plain_slash (plain_word hc) (plain_slash (plain_word hq) (plain_word (nat_word n))))
  obtain ⟨p', e1, e2⟩ := parse_text (r := r) hp h1 h2 (by rw [four_eq]; exact nat_head_append _ _) hpl
    (by rw [four_eq]; simp) hr'
    (k := [(9, natStr n), (8, ['/']), (7, q), (6, ['/']), (5, c), (4, ['/']), (3, natStr s)]) rfl
    (fun m k' => by
      have := body4 (n := m) (nat_word s) hc hq (nat_word n) (r := rstrip r)
        (fun x hx => ends_end hr x (head_rstrip hx)) k'
      rw [four_eq]
      simpa using this)
    (fun m k' => by
      have := body4 (n := m) (nat_word s) hc hq (nat_word n) (r := []) end_nil k'
      rw [four_eq]
      simpa using this)
  rw [e2]
  exact finish4 s c q n e1 hpl _ rfl

theorem long_slot {p r : Str} {i : Intf.Intf} (h : Intf.parseLong p r = .ok i) : i.slot ≠ none := by
  unfold Intf.parseLong at h
  dsimp only at h
  repeat' split at h
  all_goals first | (cases h; done) | skip
  all_goals first | (cases h; simp) | skip

theorem firstDigits_all (r : Str) : ∀ c ∈ firstDigits r, isDigit c = true := by
  intro c hc
  exact of_mem_takeWhile hc

theorem cls_strip {o : Option Str} (h : GoodCls o) : o.map strip = o := by
  cases o with
  | none => rfl
  | some w =>
    have : strip w = w := strip_of_noSpace (fun c hc => cls_not_space ((h w rfl).2 c hc))
    rw [Option.map_some, this]

theorem short_lift {p r : Str} {i : Intf.Intf} (h : Intf.parseShort p r = .ok i) :
    parseShort p r = .ok (Spec.intf1 i.pfx i.port i.sub i.chan i.cls) := by
  rw [Intf.parseShort] at h
  rw [parseShort]
  split at h
  · cases h
  · rename_i hne
    cases h
    have hd : allDigits (firstDigits r) = true := by
      rw [allDigits]
      simp [hne]
      exact firstDigits_all r
    rw [if_neg hne, state, toNat, pyInt_digits hd, strip_strip, cls_strip clsOf_good]
    rfl

theorem parse_lift {n : Str} {i : Intf.Intf} (h : Intf.parse n = .ok i) (hs : i.slot = none) :
    parse n = .ok (Spec.intf1 i.pfx i.port i.sub i.chan i.cls) := by
  rw [Intf.parse] at h
  rw [parse]
  split at h
  · cases h
  · rename_i hc
    rw [if_neg hc]
    split at h
    · rename_i hsp; rw [hsp]; exact short_lift h
    · split at h
      · exact absurd hs (long_slot h)
      · cases h

/-! ## C106 -/

/-- `slot/card/processor/port`: the name is read and written, whatever white text is around it
or in front of the numbers. -/
theorem C106_four {p c q w1 w2 w3 : Str} (hp : Spec.Prefix p) (s n : Nat) (hc : Spec.Alnum c) (hq : Spec.Alnum q)
    (h1 : White w1) (h2 : White w2) (h3 : White w3) :
    parse (w1 ++ p ++ w2 ++ Spec.four s c q n ++ w3) = .ok (Spec.intf4 p s c q n) ∧
    render (Spec.intf4 p s c q n) = .ok (p ++ Spec.four s c q n) := by
  constructor
  · refine parse_four hp s n hc hq h1 h2 (fun x hx => ?_) (comma_white h3)
    have := h3 x (List.mem_of_head? hx)
    constructor
    · cases hl : isLetter x with
      | false => rfl
      | true => rw [isLetter_not_space hl] at this; cases this
    · cases hl : isDigit x with
      | false => rfl
      | true => rw [isDigit_not_space hl] at this; cases this
  · rw [four_eq]
    simp [render, number, Spec.intf4, sepStr, bind, Except.bind]

/-- `slot/port`. -/
theorem C106_two {p w1 w2 w3 : Str} (hp : Spec.Prefix p) (s n : Nat) (h1 : White w1) (h2 : White w2) (h3 : White w3) :
    parse (w1 ++ p ++ w2 ++ Spec.two s n ++ w3) = .ok (Spec.intf2 p s n) ∧
    render (Spec.intf2 p s n) = .ok (p ++ Spec.two s n) := by
  constructor
  · have hpl : Plain (Spec.two s n) := by
      rw [two_eq]
      exact plain_slash (plain_word (nat_word s)) (plain_word (nat_word n))
    have hb : ∀ m k', Re.Hit m (Re.seqs bodyL) (Spec.two s n) k' ([], [(5, natStr n), (4, ['/']), (3, natStr s)] ++ k') := by
      intro m k'
      have := body2 (n := m) (nat_word s) (nat_word n) (r := []) cut_nil k'
      rw [two_eq]
      simpa using this
    obtain ⟨p', e1, e2⟩ := parse_text (r := w3) hp h1 h2 (by rw [two_eq]; exact nat_head_append _ _) hpl
      (by rw [two_eq]; simp) (comma_white h3) (k := [(5, natStr n), (4, ['/']), (3, natStr s)]) rfl
      (fun m k' => by rw [rstrip_white h3, List.append_nil]; exact hb m k') hb
    rw [e2]
    exact finish2 s n e1 hpl _ rfl
  · rw [two_eq]
    simp [render, number, Spec.intf2, sepStr, bind, Except.bind]

/-- `port`, `port.subinterface`, `port:channel`, with or without a class. -/
theorem C106_one {p w1 w2 w3 : Str} (hp : Spec.Prefix p) (n : Nat) (sub chan : Option Nat) {cls : Option Str}
    (hc : Spec.Class cls) (h1 : White w1) (h2 : White w2) (h3 : White w3) :
    parse (w1 ++ p ++ w2 ++ Spec.one n sub chan cls ++ w3) = .ok (Spec.intf1 p n sub chan cls) ∧
    render (Spec.intf1 p n sub chan cls) = .ok (p ++ Spec.one n sub chan cls) := by
  constructor
  · have hv : Intf.Spec.Valid ⟨p, none, none, none, n, sub, chan, cls⟩ :=
      ⟨hp.chars, hp.first, hp.last, rfl, (by intro h; cases h), hc⟩
    have := parse_spaced hv h1 h2 h3
    have e : Intf.Spec.body ⟨p, none, none, none, n, sub, chan, cls⟩ = Spec.one n sub chan cls := by
      simp [Intf.Spec.body, Intf.Spec.numbers, Spec.one, join]
    rw [e] at this
    exact parse_lift this rfl
  · have hst : ∀ w, cls = some w → strip w = w := fun w hw =>
      strip_of_noSpace (fun c hm => cls_not_space ((hc w hw).2 c hm))
    cases sub <;> cases chan <;> cases cls <;>
      simp_all [render, number, Spec.intf1, Spec.one, Intf.Spec.signed, Intf.Spec.word, bind, Except.bind]

/-- `TenGigE 0/RSP0/CPU0/12`. -/
example : parse "TenGigE 0/RSP0/CPU0/12".toList =
    .ok ⟨"TenGigE".toList, some "/".toList, some 0, some "RSP0".toList, some "CPU0".toList, 12, none, none, none⟩ :=
  (C106_four (p := "TenGigE".toList) (c := "RSP0".toList) (q := "CPU0".toList) (w1 := []) (w2 := " ".toList) (w3 := [])
    ⟨by decide, by decide, by decide⟩ 0 12 (by unfold Spec.Alnum; decide) (by unfold Spec.Alnum; decide)
    (by unfold White; decide) (by unfold White; decide) (by unfold White; decide)).1

/-! ## C107 -/

/-- Text behind `slot/card/processor/port` that does not go on with a letter or a digit is
ignored: subinterfaces, channels and classes. -/
theorem C107_dropped_fails {p c q r : Str} (hp : Spec.Prefix p) (s n : Nat) (hc : Spec.Alnum c) (hq : Spec.Alnum q)
    (hr : Spec.Ends r) (hr' : ',' ∉ r) :
    ∃ i, parse (p ++ Spec.four s c q n ++ r) = .ok i ∧ i.sub = none ∧ i.chan = none ∧ i.cls = none ∧
      render i = .ok (p ++ Spec.four s c q n) := by
  have h := parse_four (w1 := []) (w2 := []) hp s n hc hq (by intro x hx; cases hx) (by intro x hx; cases hx) hr hr'
  rw [List.nil_append, List.append_nil] at h
  exact ⟨_, h, rfl, rfl, rfl, by
    have := (C106_four (w1 := []) (w2 := []) (w3 := []) hp s n hc hq (by intro x hx; cases hx) (by intro x hx; cases hx)
      (by intro x hx; cases hx)).2
    exact this⟩

/-- `TenGigE0/0/0/1.100` and `TenGigE0/0/0/1.200` are the same interface. -/
theorem C107_subinterface_fails :
    ∃ i, parse "TenGigE0/0/0/1.100".toList = .ok i ∧ parse "TenGigE0/0/0/1.200".toList = .ok i ∧
      render i = .ok "TenGigE0/0/0/1".toList := by
  have hp : Spec.Prefix "TenGigE".toList := ⟨by decide, by decide, by decide⟩
  have h0 : Spec.Alnum "0".toList := by unfold Spec.Alnum; decide
  have hn : White [] := by intro x hx; cases hx
  refine ⟨Spec.intf4 "TenGigE".toList 0 "0".toList "0".toList 1, ?_, ?_, rfl⟩
  · have h := parse_four (w1 := []) (w2 := []) (r := ".100".toList) hp 0 1 h0 h0 hn hn (by unfold Spec.Ends; decide) (by decide)
    rwa [show [] ++ "TenGigE".toList ++ [] ++ Spec.four 0 "0".toList "0".toList 1 ++ ".100".toList = "TenGigE0/0/0/1.100".toList by
      decide +kernel] at h
  · have h := parse_four (w1 := []) (w2 := []) (r := ".200".toList) hp 0 1 h0 h0 hn hn (by unfold Spec.Ends; decide) (by decide)
    rwa [show [] ++ "TenGigE".toList ++ [] ++ Spec.four 0 "0".toList "0".toList 1 ++ ".200".toList = "TenGigE0/0/0/1.200".toList by
      decide +kernel] at h

/-- `slot/card/port`: the card becomes the port and the port the processor, and the name cannot
be written. -/
theorem C107_three_fails {p : Str} (hp : Spec.Prefix p) (s c n : Nat) :
    ∃ i, parse (p ++ Spec.three s c n) = .ok i ∧ i.card = none ∧ i.port = c ∧ i.proc = some (natStr n) ∧
      render i = .error .valueError := by
  have hpl : Plain (Spec.three s c n) := by
    rw [three_eq]
    exact plain_slash (plain_word (nat_word s)) (plain_slash (plain_word (nat_word c)) (plain_word (nat_word n)))
  have hb : ∀ m k', Re.Hit m (Re.seqs bodyL) (Spec.three s c n) k'
      ([], [(7, natStr n), (6, ['/']), (5, natStr c), (4, ['/']), (3, natStr s)] ++ k') := by
    intro m k'
    have := body3 (n := m) (nat_word s) (nat_word c) (nat_word n) (r := []) cut_nil k'
    rw [three_eq]
    simpa using this
  obtain ⟨p', e1, e2⟩ := parse_text (w1 := []) (w2 := []) (r := []) hp (by intro x hx; cases hx) (by intro x hx; cases hx)
    (by rw [three_eq]; exact nat_head_append _ _) hpl (by rw [three_eq]; simp) (by simp)
    (k := [(7, natStr n), (6, ['/']), (5, natStr c), (4, ['/']), (3, natStr s)]) rfl
    (fun m k' => by rw [rstrip_white (by intro x hx; cases hx), List.append_nil]; exact hb m k') hb
  rw [List.nil_append, List.append_nil, List.append_nil, finish3 s c n e1 hpl _ rfl] at e2
  exact ⟨_, e2, rfl, rfl, rfl, rfl⟩

/-! ## C108 -/

namespace Spec

/-- What interfaces are compared by: slot, card, processor, port, subinterface, channel and
class, as texts. -/
def texts (i : Intf) : List (Option Str) :=
  [i.slot.map natStr, i.card, i.proc, some (natStr i.port), i.sub.map natStr, i.chan.map natStr, i.cls]

/-- The parts. -/
def parts (i : Intf) : Option Nat × Option Str × Option Str × Nat × Option Nat × Option Nat × Option Str :=
  (i.slot, i.card, i.proc, i.port, i.sub, i.chan, i.cls)

/-- At the first difference both have a text, and the first's comes first. -/
def Before (l m : List (Option Str)) : Prop :=
  ∃ p v w r s, l = p ++ some v :: r ∧ m = p ++ some w :: s ∧ Intf.Spec.WordBefore v w

/-- At the first difference one has no text. -/
def Clash (l m : List (Option Str)) : Prop :=
  ∃ p x y r s, l = p ++ x :: r ∧ m = p ++ y :: s ∧ x.isSome ≠ y.isSome

end Spec

theorem sort_texts (i : Intf) : sortList i = (Spec.texts i).map (Option.map Key.word) := by
  simp [sortList, Spec.texts, Function.comp_def]

theorem word_inj {x y : Option Str} : x.map Key.word = y.map Key.word ↔ x = y := by
  cases x <;> cases y <;> simp

theorem words_inj {l m : List (Option Str)} : l.map (Option.map Key.word) = m.map (Option.map Key.word) ↔ l = m := by
  induction l generalizing m with
  | nil => cases m <;> simp
  | cons x l ih =>
    cases m with
    | nil => simp
    | cons y m => simp only [List.map_cons, List.cons.injEq, ih, word_inj]

theorem texts_parts {a b : Intf} : Spec.texts a = Spec.texts b ↔ Spec.parts a = Spec.parts b := by
  have hn : ∀ {x y : Option Nat}, x.map natStr = y.map natStr ↔ x = y := by
    intro x y
    cases x <;> cases y <;> simp
    exact ⟨fun h => natStr_inj h, fun h => by rw [h]⟩
  simp only [Spec.texts, Spec.parts, List.cons.injEq, Prod.mk.injEq, hn, Option.some.injEq, and_true]
  constructor
  · rintro ⟨h1, h2, h3, h4, h5⟩; exact ⟨h1, h2, h3, natStr_inj h4, h5⟩
  · rintro ⟨h1, h2, h3, h4, h5⟩; exact ⟨h1, h2, h3, by rw [h4], h5⟩

theorem before_iff {l m : List (Option Str)} (hl : l.length = m.length) :
    listLt (l.map (Option.map Key.word)) (m.map (Option.map Key.word)) = .ok true ↔ Spec.Before l m := by
  induction l generalizing m with
  | nil =>
    cases m with
    | nil =>
      constructor
      · intro h; cases h
      · rintro ⟨p, v, w, r, s, h, _⟩; simp at h
    | cons y m => cases hl
  | cons x l ih =>
    cases m with
    | nil => cases hl
    | cons y m =>
      rw [List.map_cons, List.map_cons, listLt_cons, keyLt_word, word_inj, ih (by simpa using hl)]
      constructor
      · rintro (⟨v, w, rfl, rfl, h⟩ | ⟨rfl, p, v, w, r, s, rfl, rfl, h⟩)
        · exact ⟨[], v, w, l, m, rfl, rfl, h⟩
        · exact ⟨x :: p, v, w, r, s, rfl, rfl, h⟩
      · rintro ⟨p, v, w, r, s, h1, h2, h⟩
        cases p with
        | nil => cases h1; cases h2; exact Or.inl ⟨v, w, rfl, rfl, h⟩
        | cons z p => cases h1; cases h2; exact Or.inr ⟨rfl, p, v, w, r, s, rfl, rfl, h⟩

theorem clash_iff {l m : List (Option Str)} (hl : l.length = m.length) :
    listLt (l.map (Option.map Key.word)) (m.map (Option.map Key.word)) = .error .typeError ↔ Spec.Clash l m := by
  induction l generalizing m with
  | nil =>
    cases m with
    | nil =>
      constructor
      · intro h; cases h
      · rintro ⟨p, x, y, r, s, h, _⟩; simp at h
    | cons y m => cases hl
  | cons x l ih =>
    cases m with
    | nil => cases hl
    | cons y m =>
      have hc : listLt (x.map Key.word :: l.map (Option.map Key.word)) (y.map Key.word :: m.map (Option.map Key.word)) =
          .error .typeError ↔ x.isSome ≠ y.isSome ∨
            x = y ∧ listLt (l.map (Option.map Key.word)) (m.map (Option.map Key.word)) = .error .typeError := by
        rw [listLt]
        by_cases h : x = y
        · subst h; simp
        · rw [if_neg (fun e => h (word_inj.mp e))]
          cases x <;> cases y <;> simp_all [keyLt]
      rw [List.map_cons, List.map_cons, hc, ih (by simpa using hl)]
      constructor
      · rintro (h | ⟨rfl, p, u, v, r, s, rfl, rfl, h⟩)
        · exact ⟨[], x, y, l, m, rfl, rfl, h⟩
        · exact ⟨x :: p, u, v, r, s, rfl, rfl, h⟩
      · rintro ⟨p, u, v, r, s, h1, h2, h⟩
        cases p with
        | nil => cases h1; cases h2; exact Or.inl h
        | cons z p => cases h1; cases h2; exact Or.inr ⟨rfl, p, u, v, r, s, rfl, rfl, h⟩

/-- Two interfaces are equal when the prefix and all parts are. -/
theorem C108_eq (a b : Intf) : eq a b = true ↔ a.pfx = b.pfx ∧ Spec.parts a = Spec.parts b := by
  rw [eq, Bool.and_eq_true, decide_eq_true_eq, decide_eq_true_eq, sort_texts, sort_texts, words_inj, texts_parts]

/-- Equal interfaces have equal hashes. -/
theorem C108_hash {a b : Intf} (h : eq a b = true) : hash a = hash b := by
  rw [eq, Bool.and_eq_true, decide_eq_true_eq, decide_eq_true_eq] at h
  rw [hash, hash, h.2]

/-- `a < b`: by the first part in which the texts differ. -/
theorem C108_lt (a b : Intf) : lt a b = .ok true ↔ Spec.Before (Spec.texts a) (Spec.texts b) := by
  rw [lt, sort_texts, sort_texts, before_iff (l := Spec.texts a) (m := Spec.texts b) rfl]

/-- Comparing fails with a TypeError exactly when the first part in which two interfaces differ
is missing in one of them. -/
theorem C108_typeError (a b : Intf) : lt a b = .error .typeError ↔ Spec.Clash (Spec.texts a) (Spec.texts b) := by
  rw [lt, sort_texts, sort_texts, clash_iff (l := Spec.texts a) (m := Spec.texts b) rfl]

/-- `>` is `<` turned around. -/
theorem C108_gt (a b : Intf) : gt a b = lt b a := listGt_eq _ _

/-- `<` is a strict order. -/
theorem C108_strict :
    (∀ a, lt a a = .ok false) ∧
    (∀ a b, lt a b = .ok true → lt b a = .ok false) ∧
    (∀ a b c, lt a b = .ok true → lt b c = .ok true → lt a c = .ok true) := by
  refine ⟨fun a => listLt_irrefl _, fun a b h => ?_, fun a b c => listLt_trans⟩
  refine listLt_ok (fun e => ?_) h
  rw [lt, e, listLt_irrefl] at h
  cases h

/-- Two different `slot/card/processor/port` interfaces are ordered one way. -/
theorem C108_total_partial (p p' : Str) (s s' : Nat) (c c' q q' : Str) (n n' : Nat)
    (hne : (s, c, q, n) ≠ (s', c', q', n')) :
    (lt (Spec.intf4 p s c q n) (Spec.intf4 p' s' c' q' n') = .ok true ∧ lt (Spec.intf4 p' s' c' q' n') (Spec.intf4 p s c q n) = .ok false) ∨
    (lt (Spec.intf4 p' s' c' q' n') (Spec.intf4 p s c q n) = .ok true ∧ lt (Spec.intf4 p s c q n) (Spec.intf4 p' s' c' q' n') = .ok false) := by
  have hk : Alike (sortList (Spec.intf4 p s c q n)) (sortList (Spec.intf4 p' s' c' q' n')) :=
    .cons trivial (.cons trivial (.cons trivial (.cons trivial (.cons trivial (.cons trivial (.cons trivial .nil))))))
  obtain ⟨x, hx⟩ := listLt_total hk
  have hy := listLt_ok (fun e => hne (by
    rw [sort_texts, sort_texts, words_inj, texts_parts] at e
    simp only [Spec.parts, Spec.intf4, Prod.mk.injEq, Option.some.injEq] at e
    simp [e])) hx
  cases x with
  | true => exact Or.inl ⟨hx, hy⟩
  | false => exact Or.inr ⟨hy, hx⟩

/-- The numbers are compared as texts: `TenGigE0/0/0/10` is smaller than `TenGigE0/0/0/9`. -/
theorem C108_number_fails :
    ∃ a b, parse "TenGigE0/0/0/10".toList = .ok a ∧ parse "TenGigE0/0/0/9".toList = .ok b ∧ lt a b = .ok true ∧
      b.port < a.port := by
  have hp : Spec.Prefix "TenGigE".toList := ⟨by decide, by decide, by decide⟩
  have h0 : Spec.Alnum "0".toList := by unfold Spec.Alnum; decide
  have hn : White [] := by intro x hx; cases hx
  exact ⟨_, _, (C106_four (w1 := []) (w2 := []) (w3 := []) hp 0 10 h0 h0 hn hn hn).1,
    (C106_four (w1 := []) (w2 := []) (w3 := []) hp 0 9 h0 h0 hn hn hn).1, by decide +kernel, by decide⟩

/-- Comparing `Bundle-Ether1` with `TenGigE0/0/0/1` fails. -/
theorem C108_lt_fails :
    ∃ a b, parse "Bundle-Ether1".toList = .ok a ∧ parse "TenGigE0/0/0/1".toList = .ok b ∧ lt a b = .error .typeError ∧
      gt a b = .error .typeError := by
  have hp : Spec.Prefix "TenGigE".toList := ⟨by decide, by decide, by decide⟩
  have hb : Spec.Prefix "Bundle-Ether".toList := ⟨by decide, by decide, by decide⟩
  have h0 : Spec.Alnum "0".toList := by unfold Spec.Alnum; decide
  have hn : White [] := by intro x hx; cases hx
  exact ⟨_, _, (C106_one (w1 := []) (w2 := []) (w3 := []) hb 1 none none (cls := none) (by intro w hw; cases hw) hn hn hn).1,
    (C106_four (w1 := []) (w2 := []) (w3 := []) hp 0 1 h0 h0 hn hn hn).1, rfl, rfl⟩

/-! ## C109 -/

/-- What the parser returns is stripped. -/
theorem state_strip {pfx : Str} {sep slot card proc port : Option Str} {sub chan : Option Nat} {cls : Option Str} {i : Intf}
    (h : state pfx sep slot card proc port sub chan cls = .ok i) : strip i.pfx = i.pfx ∧ i.cls.map strip = i.cls := by
  have hc : (cls.map strip).map strip = cls.map strip := by
    cases cls with
    | none => rfl
    | some w => simp [strip_strip]
  unfold state at h
  split at h
  · rename_i s p
    cases hs : toNat s with
    | error e => rw [hs] at h; cases h
    | ok m =>
      cases hp : toNat p with
      | error e => rw [hs, ok_bind, hp] at h; cases h
      | ok m' => rw [hs, ok_bind, hp] at h; cases h; exact ⟨strip_strip _, hc⟩
  · rename_i p
    cases hp : toNat p with
    | error e => rw [hp] at h; cases h
    | ok m' => rw [hp] at h; cases h; exact ⟨strip_strip _, hc⟩
  · cases h

theorem short_strip {p r : Str} {i : Intf} (h : parseShort p r = .ok i) : strip i.pfx = i.pfx ∧ i.cls.map strip = i.cls := by
  rw [parseShort] at h
  split at h
  · cases h
  · exact state_strip h

theorem bind_ok {α β : Type} {x : Except Err α} {f : α → Except Err β} {b : β} (h : (x >>= f) = .ok b) :
    ∃ a, x = .ok a ∧ f a = .ok b := by
  cases x with
  | error e => cases h
  | ok a => exact ⟨a, rfl, h⟩

theorem long_strip {d : List (Str × Option Str)} {i : Intf} (h : parseLong d = .ok i) :
    strip i.pfx = i.pfx ∧ i.cls.map strip = i.cls := by
  rw [parseLong] at h
  obtain ⟨g, _, h⟩ := bind_ok h
  obtain ⟨p, _, h⟩ := bind_ok h
  obtain ⟨e, _, h⟩ := bind_ok h
  cases e with
  | none => cases h
  | some e =>
    obtain ⟨_, _, h⟩ := bind_ok h
    obtain ⟨_, _, h⟩ := bind_ok h
    obtain ⟨_, _, h⟩ := bind_ok h
    obtain ⟨_, _, h⟩ := bind_ok h
    obtain ⟨_, _, h⟩ := bind_ok h
    obtain ⟨_, _, h⟩ := bind_ok h
    dsimp only at h
    obtain ⟨_, _, h⟩ := bind_ok h
    exact state_strip h

theorem parse_strip {n : Str} {i : Intf} (h : parse n = .ok i) : strip i.pfx = i.pfx ∧ i.cls.map strip = i.cls := by
  rw [parse] at h
  split at h
  · cases h
  · split at h
    · exact short_strip h
    · obtain ⟨d, _, h⟩ := bind_ok h
      cases d with
      | none => cases h
      | some d => exact long_strip h

theorem ethernet1 : parse "Ethernet1".toList = .ok ⟨"Ethernet".toList, none, none, none, none, 1, none, none, none⟩ := by
  have hb : Spec.Prefix "Ethernet".toList := ⟨by decide, by decide, by decide⟩
  have hn : White [] := by intro x hx; cases hx
  exact (C106_one (w1 := []) (w2 := []) (w3 := []) hb 1 none none (cls := none) (by intro w hw; cases hw) hn hn hn).1

theorem setNum_of (o : Option Nat) : setNum (ofNat? o) = .ok o := by cases o <;> rfl

theorem setNum_text (o : Option Nat) : setNum (ofStr? (o.map natStr)) = .ok o := by
  cases o with
  | none => rfl
  | some n =>
    show (do .ok (some (← pyInt (natStr n)).toNat)) = _
    rw [pyInt_natStr]; rfl

theorem setStr_of (o : Option Str) : setStr (ofStr? o) = .ok o := by cases o <;> rfl

theorem get_d {d : Dict} {k : String} {v : Val} (h : d.lookup k.toList = some v) : d.get k = .ok v := by
  rw [Dict.get, h]

/-- The dictionary of an interface gives the interface back. -/
theorem C109_dict {n : Str} {i : Intf} (h : parse n = .ok i) : fromDict (asDict i) = .ok i := by
  obtain ⟨h1, h2⟩ := parse_strip h
  have hc : setCls (ofStr? (i.cls.map strip)) = .ok i.cls := by
    rw [h2]
    cases hcl : i.cls with
    | none => rfl
    | some w =>
      rw [hcl] at h2
      show Except.ok (some (strip w)) = _
      rw [← Option.map_some, h2]
  have hs : setSep none none none (ofStr? i.sep) = .ok i.sep := by cases i.sep <;> rfl
  rw [fromDict, ethernet1, ok_bind,
    get_d (k := "prefix") (v := .str i.pfx) rfl, ok_bind, setPrefix, ok_bind,
    get_d (k := "digit_separator") (v := ofStr? i.sep) rfl, ok_bind]
  dsimp only
  rw [hs, ok_bind, get_d (k := "slot") (v := ofStr? (i.slot.map natStr)) rfl, ok_bind, setNum_text, ok_bind,
    get_d (k := "card") (v := ofStr? i.card) rfl, ok_bind, setStr_of, ok_bind,
    get_d (k := "processor") (v := ofStr? i.proc) rfl, ok_bind, setStr_of, ok_bind,
    get_d (k := "port") (v := .int i.port) rfl, ok_bind]
  rw [show setPort (.int i.port) = .ok i.port from rfl, ok_bind,
    get_d (k := "subinterface") (v := ofNat? i.sub) rfl, ok_bind, setNum_of, ok_bind,
    get_d (k := "channel") (v := ofNat? i.chan) rfl, ok_bind, setNum_of, ok_bind,
    get_d (k := "interface_class") (v := ofStr? (i.cls.map strip)) rfl, ok_bind, hc, ok_bind, h1]

/-- The constructor refuses every dictionary: a dictionary with a processor is not accepted, and
one without a processor is not either. -/
theorem C109_constructor_fails (d : Dict) : ∃ e, ofDict d = .error e := by
  cases hd : ofDict d with
  | error e => exact ⟨e, rfl⟩
  | ok i =>
    rw [ofDict] at hd
    obtain ⟨_, hu, hd⟩ := bind_ok hd
    obtain ⟨_, hc, _⟩ := bind_ok hd
    exfalso
    have hp : ∃ v, d.get "processor" = .ok v := by
      rw [update] at hu
      obtain ⟨_, _, hu⟩ := bind_ok hu
      obtain ⟨_, _, hu⟩ := bind_ok hu
      obtain ⟨_, _, hu⟩ := bind_ok hu
      obtain ⟨_, _, hu⟩ := bind_ok hu
      split at hu
      · cases hu
      · obtain ⟨_, _, hu⟩ := bind_ok hu
        obtain ⟨v, hv, _⟩ := bind_ok hu
        exact ⟨v, hv⟩
    obtain ⟨v, hv⟩ := hp
    have hm : ∃ v, ("processor".toList, v) ∈ d := by
      rw [Dict.get] at hv
      cases hl : d.lookup "processor".toList with
      | none => rw [hl] at hv; cases hv
      | some w =>
        obtain ⟨l1, l2, e, _⟩ := List.lookup_eq_some_iff.mp hl
        exact ⟨w, by rw [e]; simp⟩
    obtain ⟨w, hm⟩ := hm
    rw [check] at hc
    split at hc
    · cases hc
    · split at hc
      · cases hc
      · rename_i hk
        exact hk (List.any_eq_true.mpr ⟨_, hm, show (!keys.contains "processor".toList) = true by decide⟩)

/-- So an interface cannot be made from another one. -/
theorem C109_copy_fails {n : Str} {i : Intf} (_ : parse n = .ok i) : ∃ e, copy i = .error e := C109_constructor_fails _

example : ∃ n i, parse n = .ok i := ⟨_, _, ethernet1⟩

/-- C109: a dictionary is only accepted if prefix and class are texts, or the class None; this is what the object has. -/
theorem C109_only {d : Dict} {i : Intf} (h : fromDict d = .ok i) :
    (∃ s, d.get "prefix" = .ok (.str s) ∧ i.pfx = strip s) ∧
    (d.get "interface_class" = .ok .none ∧ i.cls = none ∨ ∃ s, d.get "interface_class" = .ok (.str s) ∧ i.cls = some (strip s)) ∧
    (d.get "card" = .ok .none ∧ i.card = none ∨ (∃ s, d.get "card" = .ok (.str s) ∧ i.card = some s) ∨
      ∃ n, d.get "card" = .ok (.int n) ∧ i.card = some (intStr n)) ∧
    (d.get "processor" = .ok .none ∧ i.proc = none ∨ (∃ s, d.get "processor" = .ok (.str s) ∧ i.proc = some s) ∨
      ∃ n, d.get "processor" = .ok (.int n) ∧ i.proc = some (intStr n)) := by
  unfold fromDict at h
  obtain ⟨_, _, h⟩ := bind_ok h
  obtain ⟨v1, e1, h⟩ := bind_ok h
  obtain ⟨p, f1, h⟩ := bind_ok h
  obtain ⟨_, _, h⟩ := bind_ok h
  obtain ⟨_, _, h⟩ := bind_ok h
  obtain ⟨_, _, h⟩ := bind_ok h
  obtain ⟨_, _, h⟩ := bind_ok h
  obtain ⟨v2, e2, h⟩ := bind_ok h
  obtain ⟨c, f2, h⟩ := bind_ok h
  obtain ⟨v3, e3, h⟩ := bind_ok h
  obtain ⟨q, f3, h⟩ := bind_ok h
  obtain ⟨_, _, h⟩ := bind_ok h
  obtain ⟨_, _, h⟩ := bind_ok h
  obtain ⟨_, _, h⟩ := bind_ok h
  obtain ⟨_, _, h⟩ := bind_ok h
  obtain ⟨_, _, h⟩ := bind_ok h
  obtain ⟨_, _, h⟩ := bind_ok h
  obtain ⟨v4, e4, h⟩ := bind_ok h
  obtain ⟨w, f4, h⟩ := bind_ok h
  cases h
  rw [e1, e2, e3, e4]
  have str : ∀ {v : Val} {x : Option Str}, setStr v = .ok x →
      (Except.ok v = (.ok .none : Except Err Val) ∧ x = none) ∨ (∃ s, Except.ok v = (.ok (.str s) : Except Err Val) ∧ x = some s) ∨
      ∃ n, Except.ok v = (.ok (.int n) : Except Err Val) ∧ x = some (intStr n) := by
    intro v x h
    cases v <;> cases h
    · exact Or.inl ⟨rfl, rfl⟩
    · exact Or.inr (Or.inr ⟨_, rfl, rfl⟩)
    · exact Or.inr (Or.inl ⟨_, rfl, rfl⟩)
  refine ⟨?_, ?_, str f2, str f3⟩
  · cases v1 <;> cases f1
    exact ⟨_, rfl, rfl⟩
  · cases v4 <;> cases f4
    · exact Or.inl ⟨rfl, rfl⟩
    · exact Or.inr ⟨_, rfl, rfl⟩

end Intf.XR

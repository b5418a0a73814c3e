import Verif.Intf.XRModel
import Verif.Intf.Names
import Verif.Intf.Order
import Verif.Re.Hit
import Verif.Re.Lazy

/-! # Lemmas about names of IOS XR interfaces -/

namespace Intf.XR

open Py Re

/-- `[a-zA-Z\-\s]`. -/
def pfxC : Cls := { items := [.range 'a' 'z', .range 'A' 'Z', .chr '-', .space], neg := false, ci := false }

/-- `[a-zA-Z0-9]`. -/
def alnumC : Cls := { items := [.range 'a' 'z', .range 'A' 'Z', .range '0' '9'], neg := false, ci := false }

/-- `[^\:^\.^\-^\s^\d^a-z^A-Z]`. -/
def sepC : Cls :=
  { items := [.chr ':', .chr '^', .chr '.', .chr '^', .chr '-', .chr '^', .space, .chr '^', .digit, .chr '^', .range 'a' 'z',
      .chr '^', .range 'A' 'Z'], neg := true, ci := false }

/-- A word. -/
def wordR (k : Nat) : Rgx := .grp k (.seq (.cls alnumC) (.star true (.cls alnumC)))

/-- An optional word. -/
def optW (k : Nat) : Rgx := .opt true (wordR k)

/-- An optional separator. -/
def optS (k : Nat) : Rgx := .opt true (.grp k (.cls sepC))

/-- The second group. -/
def bodyL : List Rgx := [wordR 3, optS 4, optW 5, optS 6, optW 7, optS 8, optW 9]

/-- The expression. -/
def longL : List Rgx := [.grp 1 (.star true (.cls pfxC)), .grp 2 (seqs bodyL)]

/-- The names of the groups. -/
def longNames : List (Str × Nat) :=
  [("prefix".toList, 1), ("slot_card_port_subinterface_channel".toList, 2), ("slot".toList, 3), ("sep1".toList, 4), ("card".toList, 5),
    ("sep2".toList, 6), ("processor".toList, 7), ("sep3".toList, 8), ("port".toList, 9)]

theorem compile_long : compileL longRx = .ok ⟨seqs (.bol :: longL), 9, longNames⟩ := by decide +kernel

theorem pfxC_has (c : Char) : pfxC.has c = isPfx c := by
  rw [isPfx, pfxC, Cls.has]
  simp only [List.any_cons, List.any_nil, Item.has, isLetter, Bool.false_and, Bool.or_false, Bool.bne_false]
  generalize isSpace c = b
  rw [Bool.eq_iff_iff]
  simp [or_assoc, or_left_comm]

theorem alnumC_has (c : Char) : alnumC.has c = true ↔ isLetter c = true ∨ isDigit c = true := by
  simp [alnumC, Cls.has, Item.has, isLetter, isDigit]
  omega

theorem pfxC_fun : pfxC.has = isPfx := funext pfxC_has

/-- A word of letters and digits. -/
def Word (w : Str) : Prop := w ≠ [] ∧ ∀ c ∈ w, isLetter c = true ∨ isDigit c = true

/-- The word ends here. -/
def End (r : Str) : Prop := ∀ c, r.head? = some c → alnumC.has c = false

/-- The numbers end here. -/
def Cut (r : Str) : Prop := ∀ c, r.head? = some c → alnumC.has c = false ∧ sepC.has c = false

theorem end_slash (r : Str) : End ('/' :: r) := by intro c hc; cases hc; decide

theorem end_nil : End [] := by intro c hc; cases hc

theorem cut_nil : Cut [] := by intro c hc; cases hc

theorem cut_end {r : Str} (h : Cut r) : End r := fun c hc => (h c hc).1

theorem take_sub (w r : Str) : (w ++ r).take ((w ++ r).length - r.length) = w := by
  have : (w ++ r).length - r.length = w.length := by simp
  rw [this, List.take_left]

theorem hit_word {n k : Nat} {w r : Str} (hw : Word w) (hr : End r) (c : Caps) :
    Hit n (wordR k) (w ++ r) c (r, (k, w) :: c) := by
  have e : (w ++ r).dropWhile alnumC.has = r :=
    dropWhile_append (fun c hc => (alnumC_has c).mpr (hw.2 c hc)) hr
  obtain ⟨x, v, rfl⟩ := List.exists_cons_of_ne_nil hw.1
  have hx : alnumC.has x = true := (alnumC_has x).mpr (hw.2 x (by simp))
  rw [List.cons_append, List.dropWhile_cons_of_pos hx] at e
  have h := hit_grp (k := k) (hit_plus_cls n alnumC (v ++ r) c hx)
  rw [e] at h
  have := take_sub (x :: v) r
  rw [List.cons_append] at this
  rw [wordR, List.cons_append]
  dsimp only at h
  rwa [this] at h

theorem hit_optW {n k : Nat} {w r : Str} (hw : Word w) (hr : End r) (c : Caps) :
    Hit n (optW k) (w ++ r) c (r, (k, w) :: c) := hit_opt (hit_word hw hr c)

theorem miss_cls {n : Nat} {k : Cls} {s : Str} (h : ∀ c, s.head? = some c → k.has c = false) (c : Caps) :
    Miss n (.cls k) s c := by
  cases s with
  | nil => rfl
  | cons x s => rw [Miss, run, if_neg (by rw [h x rfl]; decide)]

theorem miss_grp {n k : Nat} {a : Rgx} {s : Str} {c : Caps} (h : Miss n a s c) : Miss n (.grp k a) s c := by
  rw [Miss, run, h]; rfl

theorem miss_seq {n : Nat} {a b : Rgx} {s : Str} {c : Caps} (h : Miss n a s c) : Miss n (.seq a b) s c := by
  rw [Miss, run, h]; rfl

theorem skip_optW {n k : Nat} {r : Str} (hr : End r) (c : Caps) : Hit n (optW k) r c (r, c) :=
  miss_opt (miss_grp (miss_seq (miss_cls hr c)))

theorem hit_optS {n k : Nat} (r : Str) (c : Caps) : Hit n (optS k) ('/' :: r) c (r, (k, ['/']) :: c) := by
  have h : Hit n (.cls sepC) ('/' :: r) c (r, c) := by
    rw [Hit, run, if_pos (by decide)]; rfl
  have := hit_grp (k := k) h
  dsimp only at this
  have e := take_sub ['/'] r
  rw [List.singleton_append] at e
  rw [e] at this
  exact hit_opt this

theorem skip_optS {n k : Nat} {r : Str} (hr : Cut r) (c : Caps) : Hit n (optS k) r c (r, c) :=
  miss_opt (miss_grp (miss_cls (fun x hx => (hr x hx).2) c))

theorem body4 {n : Nat} {s c q p r : Str} (hs : Word s) (hc : Word c) (hq : Word q) (hp : Word p) (hr : End r) (k : Caps) :
    Hit n (seqs bodyL) (s ++ '/' :: (c ++ '/' :: (q ++ '/' :: (p ++ r)))) k
      (r, (9, p) :: (8, ['/']) :: (7, q) :: (6, ['/']) :: (5, c) :: (4, ['/']) :: (3, s) :: k) :=
  hit_cons (hit_word hs (end_slash _) _) (hit_cons (hit_optS _ _) (hit_cons (hit_optW hc (end_slash _) _)
    (hit_cons (hit_optS _ _) (hit_cons (hit_optW hq (end_slash _) _) (hit_cons (hit_optS _ _)
      (hit_cons (hit_optW hp hr _) (hit_nil _ _ _)))))))

theorem body3 {n : Nat} {s c q r : Str} (hs : Word s) (hc : Word c) (hq : Word q) (hr : Cut r) (k : Caps) :
    Hit n (seqs bodyL) (s ++ '/' :: (c ++ '/' :: (q ++ r))) k
      (r, (7, q) :: (6, ['/']) :: (5, c) :: (4, ['/']) :: (3, s) :: k) :=
  hit_cons (hit_word hs (end_slash _) _) (hit_cons (hit_optS _ _) (hit_cons (hit_optW hc (end_slash _) _)
    (hit_cons (hit_optS _ _) (hit_cons (hit_optW hq (cut_end hr) _) (hit_cons (skip_optS hr _)
      (hit_cons (skip_optW (cut_end hr) _) (hit_nil _ _ _)))))))

theorem body2 {n : Nat} {s c r : Str} (hs : Word s) (hc : Word c) (hr : Cut r) (k : Caps) :
    Hit n (seqs bodyL) (s ++ '/' :: (c ++ r)) k (r, (5, c) :: (4, ['/']) :: (3, s) :: k) :=
  hit_cons (hit_word hs (end_slash _) _) (hit_cons (hit_optS _ _) (hit_cons (hit_optW hc (cut_end hr) _)
    (hit_cons (skip_optS hr _) (hit_cons (skip_optW (cut_end hr) _) (hit_cons (skip_optS hr _)
      (hit_cons (skip_optW (cut_end hr) _) (hit_nil _ _ _)))))))

/-- The dictionary of the groups. -/
def dict (f : Nat → Option Str) : List (Str × Option Str) := longNames.map (fun q => (q.1, f q.2))

theorem groups_match {t : Str} {rx : Str} {p : Pat} {m : Found} (hc : compileL rx = .ok p) (h : search p t = some m) :
    groupsOf rx t = .ok (some (m.groupdict p)) := by
  rw [groupsOf, hc]
  dsimp only
  rw [h]; rfl

theorem groups_eq {t : Str} {x : Str} {n : Nat} {k : Caps} (h : search ⟨seqs (.bol :: longL), 9, longNames⟩ t = some ⟨x, n, k⟩) :
    longGroups t = .ok (some (dict (fun j => k.lookup j))) := groups_match compile_long h

/-- The whole match, from the match of the second group. -/
theorem long_hit {p b r : Str} (hp : ∀ c ∈ p, isPfx c = true) (hb : ∀ c, (b ++ r).head? = some c → isPfx c = false)
    {k : Caps} (h : ∀ n k', Hit n (seqs bodyL) (b ++ r) k' (r, k ++ k')) :
    longGroups (p ++ (b ++ r)) =
      .ok (some (dict (fun j => ((2, b) :: (k ++ [(1, p)])).lookup j))) := by
  have e : (p ++ (b ++ r)).dropWhile pfxC.has = b ++ r := by rw [pfxC_fun]; exact dropWhile_append hp hb
  have h1 : Hit (p ++ (b ++ r)).length (.grp 1 (.star true (.cls pfxC))) (p ++ (b ++ r)) [] (b ++ r, [(1, p)]) := by
    have := hit_grp (k := 1) (hit_star_cls (p ++ (b ++ r)).length pfxC (p ++ (b ++ r)) [])
    rw [e] at this
    dsimp only at this
    rwa [take_sub] at this
  have h2 : Hit (p ++ (b ++ r)).length (.grp 2 (seqs bodyL)) (b ++ r) [(1, p)] (r, (2, b) :: (k ++ [(1, p)])) := by
    have := hit_grp (k := 2) (h (p ++ (b ++ r)).length [(1, p)])
    dsimp only at this
    rwa [take_sub] at this
  have e3 : longL = [.grp 1 (.star true (.cls pfxC)), .grp 2 (seqs bodyL)] := rfl
  have h3 := hit_cons h1 (hit_cons h2 (hit_nil _ _ _))
  rw [← e3] at h3
  exact groups_eq (search_hit h3 9 longNames)

/-- Reading the groups. -/
theorem get_slot (f : Nat → Option Str) : get (dict f) "slot" = .ok (f 3) := by rfl
theorem get_sep1 (f : Nat → Option Str) : get (dict f) "sep1" = .ok (f 4) := by rfl
theorem get_card (f : Nat → Option Str) : get (dict f) "card" = .ok (f 5) := by rfl
theorem get_sep2 (f : Nat → Option Str) : get (dict f) "sep2" = .ok (f 6) := by rfl
theorem get_proc (f : Nat → Option Str) : get (dict f) "processor" = .ok (f 7) := by rfl
theorem get_port (f : Nat → Option Str) : get (dict f) "port" = .ok (f 9) := by rfl
theorem get_prefix (f : Nat → Option Str) : get (dict f) "prefix" = .ok (f 1) := by rfl
set_option maxRecDepth 4000 in
theorem get_group (f : Nat → Option Str) :
    get (dict f) "slot_card_port_subinterface_channel" = .ok (f 2) := by rfl

/-- The rest of the parser, from what the groups of the second match are. -/
def finish (p b : Str) (f : Nat → Option Str) : Except Err Intf := do
  let (card, port) := if (f 3).isSome ∧ (f 5).isSome ∧ f 9 = none then (none, f 5) else (f 5, f 9)
  let sep ← separator (f 4) (f 6)
  state p sep (f 3) card (f 7) port (afterSign '.' b) (afterSign ':' b) (clsOf b)

theorem parse_of {t : Str} {d : List (Str × Option Str)} (hcomma : ',' ∉ t) (hs : splitName isShort (strip t) = none)
    (h : longGroups (strip t) = .ok (some d)) : parse t = parseLong d := by
  rw [parse, if_neg hcomma, hs]
  dsimp only
  rw [h]; rfl

theorem ok_bind {α β : Type} (a : α) (f : α → Except Err β) : ((Except.ok a : Except Err α) >>= f) = f a := rfl

theorem long_of {d : List (Str × Option Str)} {p b : Str} {g : Nat → Option Str}
    (h1 : get d "slot_card_port_subinterface_channel" = .ok (some b)) (h2 : get d "prefix" = .ok (some p))
    (h3 : longGroups b = .ok (some (dict g))) : parseLong d = finish p b g := by
  rw [parseLong, h1, ok_bind, h2, ok_bind, Option.getD_some, h3, ok_bind]
  dsimp only
  rw [get_sep1, ok_bind, get_sep2, ok_bind, get_slot, ok_bind, get_card, ok_bind, get_proc, ok_bind, get_port, ok_bind]
  rfl

theorem parse_long {t p b r : Str} (ht : strip t = p ++ (b ++ r)) (hcomma : ',' ∉ t) (hp : ∀ c ∈ p, isPfx c = true)
    (hb : ∃ c v, b = c :: v ∧ isDigit c = true) (hs : '/' ∈ b) {k : Caps} (hk : k.lookup 1 = none)
    (h : ∀ n k', Hit n (seqs bodyL) (b ++ r) k' (r, k ++ k')) (h' : ∀ n k', Hit n (seqs bodyL) b k' ([], k ++ k')) :
    parse t = finish p b (fun j => ((2, b) :: (k ++ [(1, [])])).lookup j) := by
  obtain ⟨c, v, rfl, hc⟩ := hb
  have e1 := long_hit hp (b := c :: v) (r := r) (by intro x hx; cases hx; exact digit_not_pfx hc) h
  have e2 := long_hit (p := []) (b := c :: v) (r := []) (by simp) (by intro x hx; cases hx; exact digit_not_pfx hc)
    (k := k) (by rw [List.append_nil]; exact h')
  rw [List.nil_append, List.append_nil] at e2
  have hsl : splitName isShort (strip t) = none :=
    splitName_none (c := '/') (by rw [ht]; exact List.mem_append_right _ (List.mem_append_left _ hs)) (by decide)
  have l1 : ((1 == 2) : Bool) = false := rfl
  have l2 : ((2, c :: v) :: (k ++ [(1, p)])).lookup 1 = some p := by
    rw [List.lookup_cons, l1, List.lookup_append, hk]; rfl
  rw [← ht] at e1
  rw [parse_of hcomma hsl e1]
  refine long_of ?_ ?_ e2
  · rw [get_group]; rfl
  · rw [get_prefix]; exact congrArg _ l2

end Intf.XR

import Verif.Intf.State
import Verif.Intf.Props
import Verif.Intf.XRProps

/-! # Properties of the attributes of interfaces (C161-C165) -/

namespace Intf.State.Spec

open Py
open XR (Val Dict)

/-- The parts that are numbers. -/
def Numeric (p : Part) : Prop := p = .slot ∨ p = .card ∨ p = .port ∨ p = .sub ∨ p = .chan

/-- All objects that a program can get: parsed names, and assignments to what it has. -/
inductive Reach : Obj → Prop where
  | name {n : Str} {o : Obj} : make n = .ok o → Reach o
  | set {o o' : Obj} {p : Part} {v : Val} : Reach o → set p v o = .ok o' → Reach o'

/-- The eight names of a dictionary. -/
def names : List Str :=
  ["prefix".toList, "digit_separator".toList, "slot".toList, "card".toList, "port".toList, "subinterface".toList,
    "channel".toList, "interface_class".toList]

/-- Two objects show the same attributes, apart from one. -/
def SameBut (p : Part) (o o' : Obj) : Prop := ∀ q, q ≠ p → get q o' = get q o

end Intf.State.Spec

namespace Intf.State

open Py
open XR (Val Dict)

theorem ok_bind {α β : Type} (x : α) (f : α → Except Err β) : ((Except.ok x : Except Err α) >>= f) = f x := rfl

theorem toNum_error {v : Val} {e : Err} (h : toNum v = .error e) : e = .valueError ∧ ∃ s, v = .str s ∧ pyInt s = .error e := by
  cases v with
  | none => cases h
  | int n => cases h
  | str s =>
    rw [toNum] at h
    cases hp : pyInt s with
    | ok n => rw [hp] at h; cases h
    | error e' =>
      rw [hp] at h
      cases h
      refine ⟨?_, s, rfl, hp⟩
      unfold pyInt at hp
      split at hp
      · cases hp; rfl
      · split at hp
        · split at hp <;> cases hp; rfl
        · split at hp
          · split at hp <;> cases hp; rfl
          · split at hp <;> cases hp; rfl

theorem set_num {p : Part} (hp : Spec.Numeric p) {v : Val} {x : Option Int} (hv : toNum v = .ok x) (o : Obj) :
    ∃ o', set p v o = .ok o' ∧ get p o' = ofInt? x ∧ Spec.SameBut p o o' := by
  rcases hp with rfl | rfl | rfl | rfl | rfl <;>
    (refine ⟨_, by rw [set, hv]; rfl, rfl, ?_⟩; intro q hq; cases q <;> first | rfl | exact absurd rfl hq)

/-- A number that is assigned to slot, card, port, subinterface or channel is read back, whatever its size
and sign, and the other attributes stay. -/
theorem C161_number {p : Part} (hp : Spec.Numeric p) (n : Int) (o : Obj) :
    ∃ o', set p (.int n) o = .ok o' ∧ get p o' = .int n ∧ Spec.SameBut p o o' := set_num (x := some n) hp rfl o

/-- A text of a number counts as the number. -/
theorem C161_text {p : Part} (hp : Spec.Numeric p) (n : Nat) (o : Obj) :
    ∃ o', set p (.str (natStr n)) o = .ok o' ∧ get p o' = .int n ∧ Spec.SameBut p o o' :=
  set_num (x := some (n : Int)) hp (by rw [toNum, pyInt_natStr]; rfl) o

/-- None removes the part. -/
theorem C161_none {p : Part} (hp : Spec.Numeric p) (o : Obj) :
    ∃ o', set p .none o = .ok o' ∧ get p o' = .none ∧ Spec.SameBut p o o' := set_num (x := none) hp rfl o

/-- Prefix and class are read back without the white text around them, and a separator as it is. -/
theorem C161_words (s : Str) (o : Obj) :
    (∃ o', set .pfx (.str s) o = .ok o' ∧ get .pfx o' = .str (strip s) ∧ Spec.SameBut .pfx o o') ∧
    (∃ o', set .cls (.str s) o = .ok o' ∧ get .cls o' = .str (strip s) ∧ Spec.SameBut .cls o o') ∧
    (∃ o', set .sep (.str s) o = .ok o' ∧ get .sep o' = .str s ∧ Spec.SameBut .sep o o') ∧
    (∃ o', set .cls .none o = .ok o' ∧ get .cls o' = .none ∧ Spec.SameBut .cls o o') := by
  refine ⟨⟨_, rfl, rfl, ?_⟩, ⟨_, rfl, ?_, ?_⟩, ⟨_, rfl, rfl, ?_⟩, ⟨_, rfl, rfl, ?_⟩⟩
  · intro q hq; cases q <;> first | rfl | exact absurd rfl hq
  · show XR.ofStr? ((some (strip s)).map strip) = _
    rw [Option.map_some, strip_strip]; rfl
  · intro q hq; cases q <;> first | rfl | exact absurd rfl hq
  · intro q hq; cases q <;> first | rfl | exact absurd rfl hq
  · intro q hq; cases q <;> first | rfl | exact absurd rfl hq

/-- An assignment that fails raises ValueError, and it fails exactly for these values: texts that are no
integers, prefixes that are no texts, classes that are integers, and separators that are no texts on an
object with a slot or a card. -/
theorem C161_error (p : Part) (v : Val) (o : Obj) (e : Err) :
    set p v o = .error e ↔ e = .valueError ∧
      ((Spec.Numeric p ∧ ∃ s, v = .str s ∧ ∀ n, pyInt s ≠ .ok n) ∨ (p = .pfx ∧ ∀ s, v ≠ .str s) ∨
        (p = .cls ∧ ∃ n, v = .int n) ∨
        (p = .sep ∧ (∀ s, v ≠ .str s) ∧ (get .slot o ≠ .none ∨ get .card o ≠ .none))) := by
  have hnum : ∀ f : Option Int → Obj, ((do .ok (f (← toNum v))) = Except.error e) ↔
      e = .valueError ∧ ∃ s, v = .str s ∧ ∀ n, pyInt s ≠ .ok n := by
    intro f
    constructor
    · intro h
      cases ht : toNum v with
      | ok x => rw [ht] at h; cases h
      | error e' =>
        rw [ht] at h
        cases h
        obtain ⟨h1, s, h2, h3⟩ := toNum_error ht
        exact ⟨h1, s, h2, fun n hn => by rw [h3] at hn; cases hn⟩
    · rintro ⟨rfl, s, rfl, h⟩
      cases hp : pyInt s with
      | ok n => exact absurd hp (h n)
      | error e' =>
        have ht : toNum (.str s) = .error e' := by rw [toNum, hp]; rfl
        obtain ⟨h1, _⟩ := toNum_error ht
        rw [ht, h1]; rfl
  cases p with
  | slot => rw [set, hnum]; simp [Spec.Numeric]
  | card => rw [set, hnum]; simp [Spec.Numeric]
  | port => rw [set, hnum]; simp [Spec.Numeric]
  | sub => rw [set, hnum]; simp [Spec.Numeric]
  | chan => rw [set, hnum]; simp [Spec.Numeric]
  | pfx => cases v <;> simp [set, Spec.Numeric, eq_comm]
  | cls => cases v <;> simp [set, Spec.Numeric, eq_comm]
  | sep =>
    have hn : ∀ x : Option Int, ofInt? x ≠ .none ↔ x.isSome = true := by
      intro x; cases x <;> simp [ofInt?]
    have hs : ∀ v : Val, (∀ s, v ≠ .str s) → (set .sep v o = .error e ↔ e = .valueError ∧ (o.slot.isSome = true ∨ o.card.isSome = true)) := by
      intro v hv
      have : set .sep v o = if o.slot.isSome || o.card.isSome then .error .valueError else .ok o := by
        cases v with
        | str s => exact absurd rfl (hv s)
        | none => rfl
        | int n => rfl
      rw [this]
      by_cases hc : o.slot.isSome = true ∨ o.card.isSome = true
      · rw [if_pos (by simpa using hc)]
        exact ⟨fun h => by cases h; exact ⟨rfl, hc⟩, fun h => by rw [h.1]⟩
      · rw [if_neg (by simpa using hc)]
        exact ⟨fun h => by (cases h), fun h => absurd h.2 hc⟩
    have hsep : ¬ Spec.Numeric .sep := by rintro (h | h | h | h | h) <;> cases h
    constructor
    · intro h
      have hv : ∀ s, v ≠ .str s := by rintro s rfl; cases h
      obtain ⟨h1, h2⟩ := (hs v hv).mp h
      exact ⟨h1, Or.inr (Or.inr (Or.inr ⟨rfl, hv, h2.imp (hn _).mpr (hn _).mpr⟩))⟩
    · rintro ⟨h1, ⟨h, _⟩ | ⟨h, _⟩ | ⟨h, _⟩ | ⟨_, hv, h2⟩⟩
      · exact absurd h hsep
      · cases h
      · cases h
      · exact (hs v hv).mpr ⟨h1, h2.imp (hn _).mp (hn _).mp⟩

/-! ## C162 -/

theorem intStr_nat (n : Nat) : intStr (n : Int) = natStr n := rfl

theorem render_ofIntf {i : Intf} (h : Intf.Spec.Valid i) : render (ofIntf i) = .ok (Intf.Spec.name i) := by
  rw [← render_name h]
  obtain ⟨pfx, sep, slot, card, port, sub, chan, cls⟩ := i
  have hs := h.sep
  have hc := h.card
  cases slot with
  | none =>
    cases card with
    | some c => simp at hc
    | none => cases sub <;> cases chan <;> cases cls <;> rfl
  | some s =>
    have hs' : sep = some '/' := hs
    subst hs'
    cases card <;> cases sub <;> cases chan <;> cases cls <;> rfl

theorem shows {i : Intf} (h : Intf.Spec.Valid i) {o : Obj} (ho : o = ofIntf i) :
    render o = .ok (Intf.Spec.name i) ∧ parse (Intf.Spec.name i) = .ok i := by
  subst ho
  exact ⟨render_ofIntf h, parse_name h⟩

/-- A port that is assigned is the port of the name that `str()` writes, and this name is read back. -/
theorem C162_port {t : Str} {i : Intf} (h : parse t = .ok i) (n : Nat) :
    ∃ o, set .port (.int n) (ofIntf i) = .ok o ∧ render o = .ok (Intf.Spec.name { i with port := n }) ∧
      parse (Intf.Spec.name { i with port := n }) = .ok { i with port := n } :=
  have hv := parse_valid h
  ⟨_, rfl, shows (i := { i with port := n }) ⟨hv.pfx, hv.first, hv.last, hv.sep, hv.card, hv.cls⟩ rfl⟩

/-- The same for the subinterface and the channel: numbers, or None that removes them. -/
theorem C162_sub {t : Str} {i : Intf} (h : parse t = .ok i) (x : Option Nat) :
    (∃ o, set .sub (XR.ofNat? x) (ofIntf i) = .ok o ∧ render o = .ok (Intf.Spec.name { i with sub := x }) ∧
      parse (Intf.Spec.name { i with sub := x }) = .ok { i with sub := x }) ∧
    (∃ o, set .chan (XR.ofNat? x) (ofIntf i) = .ok o ∧ render o = .ok (Intf.Spec.name { i with chan := x }) ∧
      parse (Intf.Spec.name { i with chan := x }) = .ok { i with chan := x }) := by
  have hv := parse_valid h
  have hx : toNum (XR.ofNat? x) = .ok (x.map Int.ofNat) := by cases x <;> rfl
  exact ⟨⟨_, by rw [set, hx]; rfl, shows (i := { i with sub := x }) ⟨hv.pfx, hv.first, hv.last, hv.sep, hv.card, hv.cls⟩ rfl⟩,
    ⟨_, by rw [set, hx]; rfl, shows (i := { i with chan := x }) ⟨hv.pfx, hv.first, hv.last, hv.sep, hv.card, hv.cls⟩ rfl⟩⟩

/-- The same for the slot and the card of an interface with a slot; None removes the card. -/
theorem C162_slot {t : Str} {i : Intf} (h : parse t = .ok i) (hs : i.slot ≠ none) (n : Nat) (x : Option Nat) :
    (∃ o, set .slot (.int n) (ofIntf i) = .ok o ∧ render o = .ok (Intf.Spec.name { i with slot := some n }) ∧
      parse (Intf.Spec.name { i with slot := some n }) = .ok { i with slot := some n }) ∧
    (∃ o, set .card (XR.ofNat? x) (ofIntf i) = .ok o ∧ render o = .ok (Intf.Spec.name { i with card := x }) ∧
      parse (Intf.Spec.name { i with card := x }) = .ok { i with card := x }) := by
  have hv := parse_valid h
  have h1 : i.slot.isSome = true := by cases e : i.slot <;> simp_all
  have hx : toNum (XR.ofNat? x) = .ok (x.map Int.ofNat) := by cases x <;> rfl
  have hsep : i.sep = some '/' := by rw [hv.sep, if_pos h1]
  exact ⟨⟨_, rfl, shows (i := { i with slot := some n }) ⟨hv.pfx, hv.first, hv.last, hsep, fun _ => rfl, hv.cls⟩ rfl⟩,
    ⟨_, by rw [set, hx]; rfl, shows (i := { i with card := x }) ⟨hv.pfx, hv.first, hv.last, hv.sep, fun _ => h1, hv.cls⟩ rfl⟩⟩

/-- The same for a prefix of letters, hyphens and inner blanks and for a class of letters and hyphens. -/
theorem C162_words {t : Str} {i : Intf} (h : parse t = .ok i) {p w : Str} (hp : ∀ c ∈ p, Intf.Spec.pfxChar c)
    (hp1 : ∀ c, p.head? = some c → isSpace c = false) (hp2 : ∀ c, p.getLast? = some c → isSpace c = false)
    (hw : w ≠ [] ∧ ∀ c ∈ w, isLetter c = true ∨ c = '-') :
    (∃ o, set .pfx (.str p) (ofIntf i) = .ok o ∧ render o = .ok (Intf.Spec.name { i with pfx := p }) ∧
      parse (Intf.Spec.name { i with pfx := p }) = .ok { i with pfx := p }) ∧
    (∃ o, set .cls (.str w) (ofIntf i) = .ok o ∧ render o = .ok (Intf.Spec.name { i with cls := some w }) ∧
      parse (Intf.Spec.name { i with cls := some w }) = .ok { i with cls := some w }) := by
  have hv := parse_valid h
  have hps : strip p = p := strip_of_ends hp1 hp2
  have hws : (some w).map strip = some w := XR.cls_strip (o := some w) (fun v e => by cases e; exact hw)
  refine ⟨⟨_, rfl, shows (i := { i with pfx := p }) ⟨hp, hp1, hp2, hv.sep, hv.card, hv.cls⟩ ?_⟩,
    ⟨_, rfl, shows (i := { i with cls := some w }) ⟨hv.pfx, hv.first, hv.last, hv.sep, hv.card, fun v e => by cases e; exact hw⟩ ?_⟩⟩
  · rw [hps]; rfl
  · rw [Option.some.inj hws]; rfl

example : ∃ i, parse "Ethernet1/2.3".toList = .ok i ∧ i.slot ≠ none := ⟨_, rfl, by decide⟩

/-! ## C163 -/

/-- A separator cannot be removed: the assignment of None either fails or does nothing. -/
theorem C163_separator_fails (o : Obj) :
    (get .slot o = .none ∧ get .card o = .none → set .sep .none o = .ok o) ∧
    (get .slot o ≠ .none ∨ get .card o ≠ .none → set .sep .none o = .error .valueError) := by
  constructor
  · rintro ⟨h1, h2⟩
    have h1' : o.slot = none := by cases h : o.slot <;> simp_all [get, ofInt?]
    have h2' : o.card = none := by cases h : o.card <;> simp_all [get, ofInt?]
    simp [set, h1', h2']
  · intro h
    exact (C161_error _ _ _ _).mpr ⟨rfl, Or.inr (Or.inr (Or.inr ⟨rfl, fun s hs => by (cases hs), h⟩))⟩

example : ∃ o, make "Ethernet1/2".toList = .ok o ∧ get .slot o ≠ .none ∧ get .sep o = .str ['/'] :=
  ⟨_, rfl, by decide, by decide⟩

/-- A slot that is assigned to an interface without one: the name says `None` between the numbers. -/
theorem C163_slot_fails {t : Str} {i : Intf} (h : parse t = .ok i) (hs : i.slot = none) (n : Nat) :
    ∃ o, set .slot (.int n) (ofIntf i) = .ok o ∧
      render o = .ok (i.pfx ++ natStr n ++ "None".toList ++ Intf.Spec.body i) := by
  have hv := parse_valid h
  obtain ⟨pfx, sep, slot, card, port, sub, chan, cls⟩ := i
  cases hs
  have hs' : sep = none := hv.sep
  subst hs'
  have hcl : ∀ w, cls = some w → strip w = w := fun w e => by
    have := XR.cls_strip (o := some w) (fun v e' => by cases e'; exact hv.cls w e)
    exact Option.some.inj this
  cases card with
  | some c => exact absurd (hv.card rfl) (by simp)
  | none =>
    refine ⟨_, rfl, ?_⟩
    cases sub <;> cases chan <;> cases cls <;>
      simp [ofIntf, render, number, sepStr, clsStr, Intf.Spec.body, Intf.Spec.numbers, Intf.Spec.signed,
        Intf.Spec.word, join, intStr, ok_bind, hcl]

/-- A card that is assigned to an interface without a slot, and a slot that is removed from an interface with a
card: `str()` raises ValueError. -/
theorem C163_card_fails {t : Str} {i : Intf} (_ : parse t = .ok i) :
    (i.slot = none → ∀ n : Int, ∃ o, set .card (.int n) (ofIntf i) = .ok o ∧ render o = .error .valueError) ∧
    (i.card ≠ none → ∃ o, set .slot .none (ofIntf i) = .ok o ∧ render o = .error .valueError) := by
  obtain ⟨pfx, sep, slot, card, port, sub, chan, cls⟩ := i
  constructor
  · intro hs n
    cases hs
    exact ⟨_, rfl, rfl⟩
  · intro hc
    cases card with
    | none => exact absurd rfl hc
    | some c => exact ⟨_, rfl, rfl⟩

/-- A port that is removed: `str()` raises ValueError, and without a slot it ends the interpreter. -/
theorem C163_port_fails {t : Str} {i : Intf} (h : parse t = .ok i) :
    ∃ o, set .port .none (ofIntf i) = .ok o ∧ render o = .error (if i.slot = none then .systemExit else .valueError) := by
  have hv := parse_valid h
  obtain ⟨pfx, sep, slot, card, port, sub, chan, cls⟩ := i
  refine ⟨_, rfl, ?_⟩
  cases slot with
  | none =>
    cases card with
    | some c => exact absurd (hv.card rfl) (by simp)
    | none => rfl
  | some s => cases card <;> rfl

/-- A negative port of an interface without a slot: the name is read as another prefix and a positive port. -/
theorem C163_negative_fails {t : Str} {i : Intf} (h : parse t = .ok i) (hs : i.slot = none) (n : Nat) :
    ∃ o s, set .port (.int (-((n : Int) + 1))) (ofIntf i) = .ok o ∧ render o = .ok s ∧
      parse s = .ok { i with pfx := i.pfx ++ ['-'], port := n + 1 } := by
  have hv := parse_valid h
  let j : Intf := { i with pfx := i.pfx ++ ['-'], port := n + 1 }
  have hj : Intf.Spec.Valid j := by
    refine ⟨?_, ?_, ?_, hv.sep, hv.card, hv.cls⟩
    · intro c hc
      rcases List.mem_append.mp hc with hc | hc
      · exact hv.pfx c hc
      · rw [List.mem_singleton.mp hc]; exact Or.inr (Or.inl rfl)
    · intro c hc
      show isSpace c = false
      have hc' : (i.pfx ++ ['-']).head? = some c := hc
      cases hp : i.pfx with
      | nil => rw [hp] at hc'; cases hc'; decide
      | cons x r => rw [hp] at hc'; cases hc'; exact hv.first _ (by rw [hp]; rfl)
    · intro c hc
      have hc' : (i.pfx ++ ['-']).getLast? = some c := hc
      rw [List.getLast?_append] at hc'
      cases hc'; decide
  have hn : (-((n : Int) + 1)) = Int.negSucc n := by omega
  refine ⟨_, _, rfl, ?_, parse_name hj⟩
  rw [hn, ← Except.ok.inj ((render_name hj).symm.trans (render_name hj))]
  have hr := render_ofIntf hj
  rw [← hr]
  obtain ⟨pfx, sep, slot, card, port, sub, chan, cls⟩ := i
  cases hs
  cases card with
  | some c => exact absurd (hv.card rfl) (by simp)
  | none => cases sub <;> cases chan <;> cases cls <;> simp [j, ofIntf, render, number, intStr, ok_bind, clsStr] <;> rfl

example : ∃ i, parse "Ethernet1".toList = .ok i ∧ i.slot = none := ⟨_, rfl, rfl⟩
example : ∃ i, parse "Ethernet1/2/3".toList = .ok i ∧ i.card ≠ none := ⟨_, rfl, by decide⟩

/-! ## C164 -/

theorem set_stripped {p : Part} {v : Val} {o o' : Obj} (h : set p v o = .ok o')
    (h1 : strip o.pfx = o.pfx) (h2 : o.cls.map strip = o.cls) : strip o'.pfx = o'.pfx ∧ o'.cls.map strip = o'.cls := by
  have hnum : ∀ f : Option Int → Obj, (∀ x, (f x).pfx = o.pfx ∧ (f x).cls = o.cls) →
      ((do .ok (f (← toNum v))) = Except.ok (ε := Err) o') → strip o'.pfx = o'.pfx ∧ o'.cls.map strip = o'.cls := by
    intro f hf h
    obtain ⟨x, _, hx⟩ := XR.bind_ok h
    cases hx
    rw [(hf x).1, (hf x).2]
    exact ⟨h1, h2⟩
  cases p with
  | slot => exact hnum (fun x => { o with slot := x }) (fun _ => ⟨rfl, rfl⟩) h
  | card => exact hnum (fun x => { o with card := x }) (fun _ => ⟨rfl, rfl⟩) h
  | port => exact hnum (fun x => { o with port := x }) (fun _ => ⟨rfl, rfl⟩) h
  | sub => exact hnum (fun x => { o with sub := x }) (fun _ => ⟨rfl, rfl⟩) h
  | chan => exact hnum (fun x => { o with chan := x }) (fun _ => ⟨rfl, rfl⟩) h
  | pfx =>
    cases v with
    | str s => cases h; exact ⟨strip_strip s, h2⟩
    | none => cases h
    | int n => cases h
  | cls =>
    cases v with
    | str s => cases h; exact ⟨h1, by simp [strip_strip]⟩
    | none => cases h; exact ⟨h1, rfl⟩
    | int n => cases h
  | sep =>
    cases v with
    | str s => cases h; exact ⟨h1, h2⟩
    | none =>
      simp only [set] at h
      split at h
      · cases h
      · cases h; exact ⟨h1, h2⟩
    | int n =>
      simp only [set] at h
      split at h
      · cases h
      · cases h; exact ⟨h1, h2⟩

theorem valid_stripped {i : Intf} (hv : Intf.Spec.Valid i) : strip i.pfx = i.pfx ∧ i.cls.map strip = i.cls :=
  ⟨strip_of_ends hv.first hv.last, XR.cls_strip hv.cls⟩

theorem reach_stripped {o : Obj} (h : Spec.Reach o) : strip o.pfx = o.pfx ∧ o.cls.map strip = o.cls := by
  induction h with
  | name h =>
    obtain ⟨i, hi, h⟩ := XR.bind_ok h
    cases h
    exact valid_stripped (parse_valid hi)
  | set _ h ih => exact set_stripped h ih.1 ih.2

theorem toNum_of (x : Option Int) : toNum (ofInt? x) = .ok x := by cases x <;> rfl

theorem set_slot (x : Option Int) (o : Obj) : set .slot (ofInt? x) o = .ok { o with slot := x } := by cases x <;> rfl
theorem set_card (x : Option Int) (o : Obj) : set .card (ofInt? x) o = .ok { o with card := x } := by cases x <;> rfl
theorem set_port (x : Option Int) (o : Obj) : set .port (ofInt? x) o = .ok { o with port := x } := by cases x <;> rfl
theorem set_sub (x : Option Int) (o : Obj) : set .sub (ofInt? x) o = .ok { o with sub := x } := by cases x <;> rfl
theorem set_chan (x : Option Int) (o : Obj) : set .chan (ofInt? x) o = .ok { o with chan := x } := by cases x <;> rfl

theorem lookups (o : Obj) :
    (asDict o).get "prefix" = .ok (get .pfx o) ∧ (asDict o).get "digit_separator" = .ok (get .sep o) ∧
    (asDict o).get "slot" = .ok (get .slot o) ∧ (asDict o).get "card" = .ok (get .card o) ∧
    (asDict o).get "port" = .ok (get .port o) ∧ (asDict o).get "subinterface" = .ok (get .sub o) ∧
    (asDict o).get "channel" = .ok (get .chan o) ∧ (asDict o).get "interface_class" = .ok (get .cls o) :=
  ⟨rfl, rfl, rfl, rfl, rfl, rfl, rfl, rfl⟩

theorem ethernet1 : make "Ethernet1".toList = .ok ⟨"Ethernet".toList, none, none, none, some 1, none, none, none⟩ := rfl

theorem set_cls {o : Obj} {x : Option Str} (h : x.map strip = x) : set .cls (XR.ofStr? (x.map strip)) o = .ok { o with cls := x } := by
  rw [h]
  cases x with
  | none => rfl
  | some w =>
    have hw : strip w = w := Option.some.inj h
    show Except.ok { o with cls := some (strip w) } = _
    rw [hw]

/-- `from_dict(o.as_dict())` is the same object, for every object that a program can get. -/
theorem C164_dict {o : Obj} (h : Spec.Reach o) : fromDict (asDict o) = .ok o := by
  obtain ⟨h1, h2⟩ := reach_stripped h
  obtain ⟨e1, e2, e3, e4, e5, e6, e7, e8⟩ := lookups o
  obtain ⟨pfx, sep, slot, card, port, sub, chan, cls⟩ := o
  have h1' : strip pfx = pfx := h1
  rw [fromDict, ethernet1]
  simp only [ok_bind, e1, e2, e3, e4, e5, e6, e7, e8]
  have s2 : ∀ p : Str, set .sep (XR.ofStr? sep) ⟨p, none, none, none, some 1, none, none, none⟩ =
      .ok ⟨p, sep, none, none, some 1, none, none, none⟩ := by intro p; cases sep <;> rfl
  simp only [get, set.eq_1, ok_bind, s2, set_slot, set_card, set_port, set_sub, set_chan, set_cls h2, h1']

theorem set_sep {o : Obj} {x : Option Str} (h : x = none → o.slot = none ∧ o.card = none ∧ o.sep = none) :
    set .sep (XR.ofStr? x) o = .ok { o with sep := x } := by
  cases x with
  | some w => rfl
  | none =>
    obtain ⟨h1, h2, h3⟩ := h rfl
    obtain ⟨pfx, sep, slot, card, port, sub, chan, cls⟩ := o
    cases h1; cases h2; cases h3; rfl

theorem update_dict {o o0 : Obj} (h1 : strip o.pfx = o.pfx) (h2 : o.cls.map strip = o.cls) (hp : o.port ≠ none)
    (hc : o.slot = none → o.card = none) (hs : o.sep = none → o0.slot = none ∧ o0.card = none ∧ o0.sep = none) :
    update (asDict o) o0 = .ok o := by
  obtain ⟨e1, e2, e3, e4, e5, e6, e7, e8⟩ := lookups o
  obtain ⟨pfx, sep, slot, card, port, sub, chan, cls⟩ := o
  have h1' : strip pfx = pfx := h1
  cases port with
  | none => exact absurd rfl hp
  | some n =>
    have hcard : (if get .slot ⟨pfx, sep, slot, card, some n, sub, chan, cls⟩ = .none then Except.ok Val.none
        else Except.ok (ε := Err) (get .card ⟨pfx, sep, slot, card, some n, sub, chan, cls⟩)) = .ok (ofInt? card) := by
      cases slot with
      | none =>
        have : card = none := hc rfl
        subst this; rfl
      | some s => rfl
    rw [update]
    simp only [ok_bind, e1, e2, e3, e4, e5, e6, e7, e8]
    rw [if_neg (show get .port ⟨pfx, sep, slot, card, some n, sub, chan, cls⟩ ≠ Val.none from fun h => by cases h)]
    rw [hcard]
    simp only [get, ok_bind, set.eq_1, h1']
    rw [set_sep (o := { o0 with pfx := pfx }) hs]
    simp only [ok_bind, set_slot, set_card, set_port, set_sub, set_chan, set_cls h2]

theorem check_dict (o : Obj) : check (asDict o) = .ok () := by
  have : (asDict o).any (fun x => !keys.contains x.1) = false := by
    simp only [asDict, List.any_cons, List.any_nil]
    decide
  rw [check, if_neg (by simp [asDict]), if_neg (by rw [this]; decide)]

theorem copy_of {o : Obj} (h1 : strip o.pfx = o.pfx) (h2 : o.cls.map strip = o.cls) (hp : o.port ≠ none)
    (hc : o.slot = none → o.card = none) (hs : o.slot ≠ none → o.sep ≠ none) : copy o = .ok o := by
  have hs' : o.sep = none → o.slot = none ∧ o.card = none ∧ o.sep = none := by
    intro h
    cases hl : o.slot with
    | some s => exact absurd h (hs (by rw [hl]; simp))
    | none => exact ⟨rfl, hc hl, h⟩
  rw [copy, ofDict, update_dict h1 h2 hp hc (fun _ => ⟨rfl, rfl, rfl⟩), ok_bind, check_dict, ok_bind,
    update_dict h1 h2 hp hc hs']

/-- `CiscoIOSInterface(other)` and `CiscoIOSInterface(interface_dict=other.as_dict())` are the interface that
was read. -/
theorem C164_copy {t : Str} {i : Intf} (h : parse t = .ok i) : copy (ofIntf i) = .ok (ofIntf i) := by
  have hv := parse_valid h
  refine copy_of (valid_stripped hv).1 (valid_stripped hv).2 (by simp [ofIntf]) ?_ ?_
  · intro hs
    have hs' : i.slot = none := by simpa [ofIntf] using hs
    cases hc : i.card with
    | none => simp [ofIntf, hc]
    | some c =>
      have := hv.card (by rw [hc]; rfl)
      rw [hs'] at this; cases this
  · intro hs
    have hs' : i.slot.isSome = true := by
      cases hl : i.slot with
      | none => exact absurd (by simp [ofIntf, hl]) hs
      | some x => rfl
    simp [ofIntf, hv.sep, hs']

/-- The constructor accepts only dictionaries with exactly eight items, all with one of the eight names. -/
theorem C164_keys {d : Dict} {o : Obj} (h : ofDict d = .ok o) : d.length = 8 ∧ ∀ x ∈ d, x.1 ∈ Spec.names := by
  obtain ⟨o1, _, h⟩ := XR.bind_ok h
  obtain ⟨u, hc, _⟩ := XR.bind_ok h
  rw [check] at hc
  split at hc
  · cases hc
  · rename_i hl
    split at hc
    · cases hc
    · rename_i hk
      refine ⟨by simpa using hl, fun x hx => ?_⟩
      have : keys.contains x.1 = true := by
        cases hb : keys.contains x.1 with
        | true => rfl
        | false => exact absurd (List.any_eq_true.mpr ⟨x, hx, by rw [hb]; rfl⟩) hk
      have hm : x.1 ∈ keys := by simpa using this
      have hkn : ∀ k ∈ keys, k ∈ Spec.names := by decide
      exact hkn _ hm

/-- A dictionary without one of the names is a KeyError or another error, never an object. -/
theorem C164_missing {d : Dict} {k : Str}
    (hk : k ∈ ["prefix".toList, "digit_separator".toList, "slot".toList, "port".toList, "subinterface".toList,
      "channel".toList, "interface_class".toList])
    (hd : ∀ x ∈ d, x.1 ≠ k) : ∃ e, ofDict d = .error e := by
  cases h : ofDict d with
  | error e => exact ⟨e, rfl⟩
  | ok o =>
    exfalso
    have hn : d.lookup k = none := by
      rw [List.lookup_eq_none_iff]
      intro p hp
      simpa using (fun e => hd p hp e.symm)
    have hg : ∀ s : String, s.toList = k → d.get s = .error .keyError := by
      intro s hs; rw [XR.Dict.get, hs, hn]
    obtain ⟨o1, h, _⟩ := XR.bind_ok h
    rw [update] at h
    obtain ⟨_, h1, h⟩ := XR.bind_ok h
    obtain ⟨_, h2, h⟩ := XR.bind_ok h
    obtain ⟨_, h3, h⟩ := XR.bind_ok h
    obtain ⟨_, h4, h⟩ := XR.bind_ok h
    split at h
    · cases h
    obtain ⟨_, _, h⟩ := XR.bind_ok h
    obtain ⟨_, h5, h⟩ := XR.bind_ok h
    obtain ⟨_, h6, h⟩ := XR.bind_ok h
    obtain ⟨_, _, h⟩ := XR.bind_ok h
    obtain ⟨_, _, h⟩ := XR.bind_ok h
    obtain ⟨_, _, h⟩ := XR.bind_ok h
    obtain ⟨_, _, h⟩ := XR.bind_ok h
    obtain ⟨_, _, h⟩ := XR.bind_ok h
    obtain ⟨_, _, h⟩ := XR.bind_ok h
    obtain ⟨_, _, h⟩ := XR.bind_ok h
    obtain ⟨_, _, h⟩ := XR.bind_ok h
    obtain ⟨_, h7, h⟩ := XR.bind_ok h
    simp only [List.mem_cons, List.not_mem_nil, or_false] at hk
    rcases hk with hk | hk | hk | hk | hk | hk | hk
    · rw [hg _ hk.symm] at h1; cases h1
    · rw [hg _ hk.symm] at h2; cases h2
    · rw [hg _ hk.symm] at h3; cases h3
    · rw [hg _ hk.symm] at h4; cases h4
    · rw [hg _ hk.symm] at h5; cases h5
    · rw [hg _ hk.symm] at h6; cases h6
    · rw [hg _ hk.symm] at h7; cases h7

example : Spec.Reach ⟨"Ethernet".toList, none, some 7, none, some 1, none, none, none⟩ :=
  .set (p := .slot) (v := .int 7) (.name ethernet1) rfl

/-! ## C165 -/

/-- An object that a program has changed is copied when it has a port, a card only with a slot, and a separator
with a slot. -/
theorem C165_copy_partial {o : Obj} (h : Spec.Reach o) (hp : get .port o ≠ .none)
    (hc : get .slot o = .none → get .card o = .none) (hs : get .slot o ≠ .none → get .sep o ≠ .none) : copy o = .ok o := by
  have hn : ∀ x : Option Int, ofInt? x = .none ↔ x = none := by intro x; cases x <;> simp [ofInt?]
  have hw : ∀ x : Option Str, XR.ofStr? x = .none ↔ x = none := by intro x; cases x <;> simp [XR.ofStr?]
  exact copy_of (reach_stripped h).1 (reach_stripped h).2 (fun e => hp ((hn _).mpr e))
    (fun e => (hn _).mp (hc ((hn _).mpr e))) (fun e e' => hs (fun h => e ((hn _).mp h)) ((hw _).mpr e'))

/-- The copy loses the card of an object without a slot. -/
theorem C165_card_fails {t : Str} {i : Intf} (h : parse t = .ok i) (hs : i.slot = none) (n : Int) :
    ∃ o, set .card (.int n) (ofIntf i) = .ok o ∧ fromDict (asDict o) = .ok o ∧ copy o = .ok (ofIntf i) ∧
      get .card o = .int n ∧ get .card (ofIntf i) = .none := by
  have hv := parse_valid h
  have hr : Spec.Reach (ofIntf i) := .name (n := t) (by rw [make, h]; rfl)
  have hcn : i.card = none := by
    cases hc : i.card with
    | none => rfl
    | some c => have := hv.card (by rw [hc]; rfl); rw [hs] at this; cases this
  refine ⟨_, rfl, C164_dict (.set (p := .card) (v := .int n) hr rfl), ?_, rfl, by simp [get, ofIntf, hcn, ofInt?]⟩
  rw [← C164_copy h]
  obtain ⟨pfx, sep, slot, card, port, sub, chan, cls⟩ := i
  cases hs
  cases hcn
  rw [copy, copy, ofDict, ofDict, check_dict, check_dict]
  rfl

/-- The copy of an object without a port, or with a slot but no separator, raises an exception. -/
theorem C165_error_fails {t : Str} {i : Intf} (h : parse t = .ok i) :
    (∃ o, set .port .none (ofIntf i) = .ok o ∧ fromDict (asDict o) = .ok o ∧ copy o = .error .invalidInterface) ∧
    (i.slot = none → ∀ n : Int, ∃ o, set .slot (.int n) (ofIntf i) = .ok o ∧ fromDict (asDict o) = .ok o ∧
      copy o = .error .valueError) := by
  have hv := parse_valid h
  have hr : Spec.Reach (ofIntf i) := .name (n := t) (by rw [make, h]; rfl)
  constructor
  · exact ⟨_, rfl, C164_dict (.set (p := .port) (v := .none) hr rfl), rfl⟩
  · intro hs n
    have hr' : Spec.Reach { ofIntf i with slot := some n } := .set (p := .slot) (v := .int n) hr rfl
    refine ⟨_, rfl, C164_dict hr', ?_⟩
    have hsep : (ofIntf i).sep = none := by simp [ofIntf, hv.sep, hs]
    rw [copy, ofDict, update_dict (reach_stripped hr').1 (reach_stripped hr').2 (by simp [ofIntf])
      (fun e => by cases e) (fun _ => ⟨rfl, rfl, rfl⟩), ok_bind, check_dict, ok_bind]
    obtain ⟨pfx, sep, slot, card, port, sub, chan, cls⟩ := i
    cases hs
    have : sep = none := hv.sep
    subst this
    rfl

/-- No interface of IOS XR can be made an interface of IOS. -/
theorem C165_xr_fails (i : XR.Intf) : ∃ e, copyXR i = .error e := by
  cases h : copyXR i with
  | error e => exact ⟨e, rfl⟩
  | ok o => exact absurd (C164_keys h).1 (by simp [XR.asDict])

/-! ## C166 -/

/-- `number_list` has slot, card and port. -/
theorem C166_numbers {t : Str} {i : Intf} (_ : parse t = .ok i) :
    numberList (ofIntf i) = [i.slot.map Int.ofNat, i.card.map Int.ofNat, some (i.port : Int)] := rfl

/-- `slot_card_port_subinterface_channel` is the name without the prefix, when there is neither a subinterface
nor a channel, or when there are a card and a subinterface. -/
theorem C166_tail_partial {t : Str} {i : Intf} (h : parse t = .ok i)
    (hs : (i.sub = none ∧ i.chan = none) ∨ (i.card ≠ none ∧ i.sub ≠ none)) :
    tailText (ofIntf i) = .ok (Intf.Spec.body i) := by
  have hv := parse_valid h
  obtain ⟨pfx, sep, slot, card, port, sub, chan, cls⟩ := i
  have hcl : ∀ w, cls = some w → strip w = w := fun w e => by
    have := XR.cls_strip (o := some w) (fun v e' => by cases e'; exact hv.cls w e)
    exact Option.some.inj this
  cases slot with
  | none =>
    cases card with
    | some c => exact absurd (hv.card rfl) (by simp)
    | none =>
      have hs' : sep = none := hv.sep
      subst hs'
      rcases hs with ⟨h1, h2⟩ | ⟨h1, _⟩
      · cases h1; cases h2
        cases cls <;> simp [ofIntf, tailText, clsStr, Intf.Spec.body, Intf.Spec.numbers, Intf.Spec.signed,
          Intf.Spec.word, join, intStr, hcl]
      · exact absurd rfl h1
  | some s =>
    have hs' : sep = some '/' := hv.sep
    subst hs'
    cases card <;> cases sub <;> cases chan <;> cases cls <;>
      simp_all [ofIntf, tailText, clsStr, Intf.Spec.body, Intf.Spec.numbers, Intf.Spec.signed,
        Intf.Spec.word, join, intStr]

/-- For all other interfaces it raises ValueError. -/
theorem C166_tail_fails {t : Str} {i : Intf} (_ : parse t = .ok i)
    (hs : ¬ ((i.sub = none ∧ i.chan = none) ∨ (i.card ≠ none ∧ i.sub ≠ none))) :
    tailText (ofIntf i) = .error .valueError := by
  obtain ⟨pfx, sep, slot, card, port, sub, chan, cls⟩ := i
  cases sep <;> cases slot <;> cases card <;> cases sub <;> cases chan <;> first | rfl | simp_all

example : ∃ i, parse "Serial1/2.3".toList = .ok i ∧ ¬ ((i.sub = none ∧ i.chan = none) ∨ (i.card ≠ none ∧ i.sub ≠ none)) :=
  ⟨_, rfl, by decide⟩

/-- For an interface of IOS XR, neither `number_list` nor `slot_card_port_subinterface_channel` has the
processor. -/
theorem C166_xr_fails {p c q : Str} (hp : XR.Spec.Prefix p) (s n : Nat) (hc : XR.Spec.Alnum c) (hq : XR.Spec.Alnum q) :
    ∃ i, XR.parse (p ++ XR.Spec.four s c q n) = .ok i ∧ XR.numberList i = [some (natStr s), some c, some (natStr n)] ∧
      XR.tailText i = .ok (join ['/'] [natStr s, c, natStr n]) := by
  have hn : Intf.Spec.White [] := by intro x hx; cases hx
  have h := (XR.C106_four (w1 := []) (w2 := []) (w3 := []) hp s n hc hq hn hn hn).1
  exact ⟨_, by simpa using h, rfl, by simp [XR.tailText, XR.Spec.intf4, join]⟩

end Intf.State

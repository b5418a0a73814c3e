import Verif.Intf.StateProps

/-! # Attributes of `CiscoIOSXRInterface` (C213-C216)

The objects of `Intf/XRModel.lean` are what the parser returns; here an object is what any program can make of it by
assignments.  The same simplifications as in `Intf/State.lean`. -/

namespace Intf.XRState

open Py
open XR (Val Dict ofStr?)
open State (ofInt? toNum clsStr)

/-! ## Model -/

/-- ccp_util.py:3826-3841: the attributes of an object. -/
structure Obj where
  pfx : Str
  sep : Option Str
  slot : Option Int
  card : Option Str
  proc : Option Str
  port : Option Int
  sub : Option Int
  chan : Option Int
  cls : Option Str
  deriving DecidableEq, Repr

/-- The object that the constructor makes of a parsed name (ccp_util.py:3868-3911). -/
def ofIntf (i : XR.Intf) : Obj :=
  ⟨i.pfx, i.sep, i.slot.map Int.ofNat, i.card, i.proc, some i.port, i.sub.map Int.ofNat, i.chan.map Int.ofNat, i.cls⟩

/-- ccp_util.py:3844-3926 `CiscoIOSXRInterface(name)`. -/
def make (name : Str) : Except Err Obj := do .ok (ofIntf (← XR.parse name))

/-- The attributes that a program can assign. -/
inductive Part where
  | pfx | sep | slot | card | proc | port | sub | chan | cls
  deriving DecidableEq, Repr

/-- ccp_util.py:4435-4439, 4505-4509, 4556-4563, 4579-4586, 4602-4609, 4625-4632, 4648-4652, 4668-4672, 4688-4695: the
getters. -/
def get : Part → Obj → Val
  | .pfx, o => .str o.pfx
  | .sep, o => ofStr? o.sep
  | .slot, o => ofStr? (o.slot.map intStr)
  | .card, o => ofStr? o.card
  | .proc, o => ofStr? o.proc
  | .port, o => ofInt? o.port
  | .sub, o => ofInt? o.sub
  | .chan, o => ofInt? o.chan
  | .cls, o => ofStr? (o.cls.map strip)

/-- ccp_util.py:4442-4450, 4512-4527, 4566-4576, 4589-4599, 4612-4622, 4635-4645, 4655-4665, 4675-4685, 4698-4708: the
setters of prefix, digit_separator, slot, card, processor, port, subinterface, channel and interface_class. -/
def set (p : Part) (v : Val) (o : Obj) : Except Err Obj :=
  match p with
  | .pfx => match v with
    | .str s => .ok { o with pfx := strip s }
    | _ => .error .valueError
  | .sep => match v with
    | .str s => .ok { o with sep := some s }
    | _ => if o.slot.isSome || o.card.isSome then .error .valueError else .ok o
  | .slot => do .ok { o with slot := ← toNum v }
  | .card => do .ok { o with card := ← XR.setStr v }
  | .proc => do .ok { o with proc := ← XR.setStr v }
  | .port => do .ok { o with port := ← toNum v }
  | .sub => do .ok { o with sub := ← toNum v }
  | .chan => do .ok { o with chan := ← toNum v }
  | .cls => match v with
    | .str s => .ok { o with cls := some (strip s) }
    | .none => .ok { o with cls := none }
    | .int _ => .error .valueError

/-- ccp_util.py:4354-4365 `as_dict`. -/
def asDict (o : Obj) : Dict :=
  [("prefix".toList, get .pfx o), ("digit_separator".toList, get .sep o), ("card".toList, get .card o),
    ("slot".toList, get .slot o), ("processor".toList, get .proc o), ("port".toList, get .port o),
    ("subinterface".toList, get .sub o), ("channel".toList, get .chan o), ("interface_class".toList, get .cls o)]

/-- ccp_util.py:4339-4350 `from_dict`. -/
def fromDict (d : Dict) : Except Err Obj := do
  let o ← make "Ethernet1".toList
  let o ← set .pfx (← d.get "prefix") o
  let o ← set .sep (← d.get "digit_separator") o
  let o ← set .slot (← d.get "slot") o
  let o ← set .card (← d.get "card") o
  let o ← set .proc (← d.get "processor") o
  let o ← set .port (← d.get "port") o
  let o ← set .sub (← d.get "subinterface") o
  let o ← set .chan (← d.get "channel") o
  set .cls (← d.get "interface_class") o

/-- ccp_util.py:4455-4481 `number`. -/
def number (o : Obj) : Except Err Str :=
  match o.slot, o.card, o.proc, o.port with
  | none, none, none, none => .error .systemExit
  | none, none, none, some p => .ok (intStr p)
  | some s, none, none, some p => .ok (intStr s ++ XR.sepStr o.sep ++ intStr p)
  | some s, some c, some q, some p =>
    .ok (intStr s ++ XR.sepStr o.sep ++ c ++ XR.sepStr o.sep ++ q ++ XR.sepStr o.sep ++ intStr p)
  | _, _, _, _ => .error .valueError

/-- ccp_util.py:4403-4416 `render_as_string`, which is `str(o)` (4420-4421) and `o.name` (4429-4432). -/
def render (o : Obj) : Except Err Str := do
  let n ← number o
  match o.sub, o.chan with
  | none, none => .ok (o.pfx ++ n ++ clsStr o.cls)
  | some s, none => .ok (o.pfx ++ n ++ '.' :: intStr s ++ clsStr o.cls)
  | none, some c => .ok (o.pfx ++ n ++ ':' :: intStr c ++ clsStr o.cls)
  | some s, some c => .ok (o.pfx ++ n ++ '.' :: intStr s ++ ':' :: intStr c ++ clsStr o.cls)

/-! ## Specification -/

namespace Spec

/-- The parts that are numbers. -/
def Numeric (p : Part) : Prop := p = .port ∨ p = .sub ∨ p = .chan

/-- The parts that are words. -/
def Wordy (p : Part) : Prop := p = .card ∨ p = .proc

/-- Two objects show the same attributes, apart from one. -/
def SameBut (p : Part) (o o' : Obj) : Prop := ∀ q, q ≠ p → get q o' = get q o

/-- All objects that a program can get: parsed names, and assignments to what it has. -/
inductive Reach : Obj → Prop where
  | name {n : Str} {o : Obj} : make n = .ok o → Reach o
  | set {o o' : Obj} {p : Part} {v : Val} : Reach o → set p v o = .ok o' → Reach o'

/-- The texts between the separators. -/
inductive Numbers : Obj → List Str → Prop where
  | one {o : Obj} {p : Int} : get .slot o = .none → get .card o = .none → get .proc o = .none → get .port o = .int p →
      Numbers o [intStr p]
  | two {o : Obj} {s : Str} {p : Int} : get .slot o = .str s → get .card o = .none → get .proc o = .none →
      get .port o = .int p → Numbers o [s, intStr p]
  | four {o : Obj} {s c q : Str} {p : Int} : get .slot o = .str s → get .card o = .str c → get .proc o = .str q →
      get .port o = .int p → Numbers o [s, c, q, intStr p]

/-- A part behind its mark, nothing if it is None. -/
def marked (m : Char) : Val → Str
  | .none => []
  | .int n => m :: intStr n
  | .str s => m :: s

end Spec

/-! ## C213: assignments -/

theorem ok_bind {α β : Type} (x : α) (f : α → Except Err β) : ((Except.ok x : Except Err α) >>= f) = f x := rfl

theorem set_num {p : Part} (hp : Spec.Numeric p) {v : Val} {x : Option Int} (hv : toNum v = .ok x) (o : Obj) :
    ∃ o', set p v o = .ok o' ∧ get p o' = ofInt? x ∧ Spec.SameBut p o o' := by
  rcases hp with rfl | rfl | rfl <;>
    (refine ⟨_, by rw [set, hv]; rfl, rfl, ?_⟩; intro q hq; cases q <;> first | rfl | exact absurd rfl hq)

theorem set_slot {v : Val} {x : Option Int} (hv : toNum v = .ok x) (o : Obj) :
    ∃ o', set .slot v o = .ok o' ∧ get .slot o' = ofStr? (x.map intStr) ∧ Spec.SameBut .slot o o' := by
  refine ⟨_, by rw [set, hv]; rfl, rfl, ?_⟩
  intro q hq; cases q <;> first | rfl | exact absurd rfl hq

theorem set_word {p : Part} (hp : Spec.Wordy p) {v : Val} {x : Option Str} (hv : XR.setStr v = .ok x) (o : Obj) :
    ∃ o', set p v o = .ok o' ∧ get p o' = ofStr? x ∧ Spec.SameBut p o o' := by
  rcases hp with rfl | rfl <;>
    (refine ⟨_, by rw [set, hv]; rfl, rfl, ?_⟩; intro q hq; cases q <;> first | rfl | exact absurd rfl hq)

/-- C213: port, subinterface and channel are read back as the number that was assigned, also if it was assigned as a text, and
the other attributes stay; None removes the part. -/
theorem C213_number {p : Part} (hp : Spec.Numeric p) (o : Obj) :
    (∀ n : Int, ∃ o', set p (.int n) o = .ok o' ∧ get p o' = .int n ∧ Spec.SameBut p o o') ∧
    (∀ (s : Str) (n : Int), pyInt s = .ok n → ∃ o', set p (.str s) o = .ok o' ∧ get p o' = .int n ∧ Spec.SameBut p o o') ∧
    ∃ o', set p .none o = .ok o' ∧ get p o' = .none ∧ Spec.SameBut p o o' :=
  ⟨fun n => set_num (x := some n) hp rfl o,
    fun s n h => set_num (x := some n) hp (by rw [toNum, h]; rfl) o, set_num (x := none) hp rfl o⟩

/-- C213: slot, card and processor are read as texts: a slot as the text of its number, card and processor as the text that
was assigned; None removes the part. -/
theorem C213_text {p : Part} (hp : p = .slot ∨ p = .card ∨ p = .proc) (o : Obj) :
    (∀ n : Int, ∃ o', set p (.int n) o = .ok o' ∧ get p o' = .str (intStr n) ∧ Spec.SameBut p o o') ∧
    (p ≠ .slot → ∀ s : Str, ∃ o', set p (.str s) o = .ok o' ∧ get p o' = .str s ∧ Spec.SameBut p o o') ∧
    (p = .slot → ∀ (s : Str) (n : Int), pyInt s = .ok n →
      ∃ o', set p (.str s) o = .ok o' ∧ get p o' = .str (intStr n) ∧ Spec.SameBut p o o') ∧
    ∃ o', set p .none o = .ok o' ∧ get p o' = .none ∧ Spec.SameBut p o o' := by
  rcases hp with rfl | hp
  · exact ⟨fun n => set_slot (x := some n) rfl o, fun h => absurd rfl h,
      fun _ s n h => set_slot (x := some n) (by rw [toNum, h]; rfl) o, set_slot (x := none) rfl o⟩
  · have hp' : Spec.Wordy p := hp
    refine ⟨fun n => set_word (x := some (intStr n)) hp' rfl o, fun _ s => set_word (x := some s) hp' rfl o, ?_,
      set_word (x := none) hp' rfl o⟩
    rintro rfl
    rcases hp with h | h <;> cases h

/-- C213: prefix and class are read back without the white text around them, a separator as it is. -/
theorem C213_words (s : Str) (o : Obj) :
    (∃ o', set .pfx (.str s) o = .ok o' ∧ get .pfx o' = .str (strip s) ∧ Spec.SameBut .pfx o o') ∧
    (∃ o', set .cls (.str s) o = .ok o' ∧ get .cls o' = .str (strip s) ∧ Spec.SameBut .cls o o') ∧
    (∃ o', set .sep (.str s) o = .ok o' ∧ get .sep o' = .str s ∧ Spec.SameBut .sep o o') ∧
    (∃ o', set .cls .none o = .ok o' ∧ get .cls o' = .none ∧ Spec.SameBut .cls o o') := by
  refine ⟨⟨_, rfl, rfl, ?_⟩, ⟨_, rfl, ?_, ?_⟩, ⟨_, rfl, rfl, ?_⟩, ⟨_, rfl, rfl, ?_⟩⟩
  · intro q hq; cases q <;> first | rfl | exact absurd rfl hq
  · show ofStr? ((some (strip s)).map strip) = _
    rw [Option.map_some, strip_strip]; rfl
  · intro q hq; cases q <;> first | rfl | exact absurd rfl hq
  · intro q hq; cases q <;> first | rfl | exact absurd rfl hq
  · intro q hq; cases q <;> first | rfl | exact absurd rfl hq

theorem num_error {v : Val} {e : Err} (f : Option Int → Obj) :
    ((do .ok (f (← toNum v))) = Except.error (α := Obj) e) ↔ e = .valueError ∧ ∃ s, v = .str s ∧ ∀ n, pyInt s ≠ .ok n := by
  constructor
  · intro h
    cases ht : toNum v with
    | ok x => rw [ht] at h; cases h
    | error e' =>
      rw [ht] at h
      cases h
      obtain ⟨h1, s, h2, h3⟩ := State.toNum_error ht
      exact ⟨h1, s, h2, fun n hn => by rw [h3] at hn; cases hn⟩
  · rintro ⟨rfl, s, rfl, h⟩
    cases hp : pyInt s with
    | ok n => exact absurd hp (h n)
    | error e' =>
      have ht : toNum (.str s) = .error e' := by rw [toNum, hp]; rfl
      obtain ⟨h1, _⟩ := State.toNum_error ht
      rw [ht, h1]; rfl

theorem str_ok (v : Val) : ∃ x, XR.setStr v = .ok x := by cases v <;> exact ⟨_, rfl⟩

/-- C213: an assignment that fails raises ValueError, and it fails exactly for these values: texts that are no integers for
slot, port, subinterface and channel, prefixes that are no texts, classes that are integers, and separators that are no
texts on an object with a slot or a card. -/
theorem C213_error (p : Part) (v : Val) (o : Obj) (e : Err) :
    set p v o = .error e ↔ e = .valueError ∧
      (((p = .slot ∨ Spec.Numeric p) ∧ ∃ s, v = .str s ∧ ∀ n, pyInt s ≠ .ok n) ∨ (p = .pfx ∧ ∀ s, v ≠ .str s) ∨
        (p = .cls ∧ ∃ n, v = .int n) ∨
        (p = .sep ∧ (∀ s, v ≠ .str s) ∧ (get .slot o ≠ .none ∨ get .card o ≠ .none))) := by
  cases p with
  | slot => rw [set, num_error]; simp [Spec.Numeric]
  | port => rw [set, num_error]; simp [Spec.Numeric]
  | sub => rw [set, num_error]; simp [Spec.Numeric]
  | chan => rw [set, num_error]; simp [Spec.Numeric]
  | card => obtain ⟨x, hx⟩ := str_ok v; rw [set, hx]; simp [Spec.Numeric, ok_bind]
  | proc => obtain ⟨x, hx⟩ := str_ok v; rw [set, hx]; simp [Spec.Numeric, ok_bind]
  | pfx => cases v <;> simp [set, Spec.Numeric, eq_comm]
  | cls => cases v <;> simp [set, Spec.Numeric, eq_comm]
  | sep =>
    obtain ⟨pfx, sep, slot, card, proc, port, sub, chan, cls⟩ := o
    cases v <;> cases slot <;> cases card <;> simp [set, Spec.Numeric, get, ofStr?, eq_comm]

example : ∃ o o' o'', make "GigabitEthernet0/RP0/CPU0/3".toList = .ok o ∧ set .slot (.str " 7 ".toList) o = .ok o' ∧
    get .slot o' = .str "7".toList ∧ set .proc (.int 1) o' = .ok o'' ∧ get .proc o'' = .str "1".toList ∧
    set .port (.str "x".toList) o'' = .error .valueError := by
  refine ⟨⟨"GigabitEthernet".toList, some ['/'], some 0, some "RP0".toList, some "CPU0".toList, some 3, none, none, none⟩,
    _, _, by decide +kernel, rfl, by decide +kernel, rfl, by decide +kernel, by decide +kernel⟩

/-! ## C214: the value that is read is the value that was assigned -/

/-- C214: for port, subinterface and channel an integer is read back, for card and processor a text, and for all of them None.
Missing: integers for slot, card and processor, and texts for slot. -/
theorem C214_same_partial (o : Obj) :
    (∀ p, Spec.Numeric p → ∀ n : Int, ∃ o', set p (.int n) o = .ok o' ∧ get p o' = .int n) ∧
    (∀ p, Spec.Wordy p → ∀ s : Str, ∃ o', set p (.str s) o = .ok o' ∧ get p o' = .str s) ∧
    ∀ p, p = .slot ∨ Spec.Numeric p ∨ Spec.Wordy p → ∃ o', set p .none o = .ok o' ∧ get p o' = .none := by
  refine ⟨fun p hp n => ?_, fun p hp s => ?_, fun p hp => ?_⟩
  · obtain ⟨o', h, h', _⟩ := (C213_number hp o).1 n; exact ⟨o', h, h'⟩
  · have h0 : p ≠ .slot := by rintro rfl; rcases hp with h | h <;> cases h
    obtain ⟨o', h, h', _⟩ := (C213_text (Or.inr hp) o).2.1 h0 s; exact ⟨o', h, h'⟩
  · rcases hp with rfl | hp | hp
    · exact ⟨_, rfl, rfl⟩
    · obtain ⟨o', h, h', _⟩ := (C213_number hp o).2.2; exact ⟨o', h, h'⟩
    · obtain ⟨o', h, h', _⟩ := (C213_text (Or.inr hp) o).2.2.2; exact ⟨o', h, h'⟩

/-- C214 fails: no integer that is assigned to slot, card or processor is read back; a text is. -/
theorem C214_integer_fails {p : Part} (hp : p = .slot ∨ p = .card ∨ p = .proc) (n : Int) (o : Obj) :
    ∃ o', set p (.int n) o = .ok o' ∧ get p o' ≠ .int n := by
  obtain ⟨o', h, h', _⟩ := (C213_text hp o).1 n
  exact ⟨o', h, by rw [h']; intro h; cases h⟩

/-! ## C215: names after assignments -/

theorem get_slot_none {o : Obj} : get .slot o = .none ↔ o.slot = none := by
  cases h : o.slot <;> simp [get, h, ofStr?]

theorem get_card_none {o : Obj} : get .card o = .none ↔ o.card = none := by
  cases h : o.card <;> simp [get, h, ofStr?]

theorem get_proc_none {o : Obj} : get .proc o = .none ↔ o.proc = none := by
  cases h : o.proc <;> simp [get, h, ofStr?]

theorem get_slot_str {o : Obj} {s : Str} : get .slot o = .str s ↔ ∃ n, o.slot = some n ∧ s = intStr n := by
  cases h : o.slot <;> simp [get, h, ofStr?, eq_comm]

theorem get_card_str {o : Obj} {s : Str} : get .card o = .str s ↔ o.card = some s := by
  cases h : o.card <;> simp [get, h, ofStr?]

theorem get_proc_str {o : Obj} {s : Str} : get .proc o = .str s ↔ o.proc = some s := by
  cases h : o.proc <;> simp [get, h, ofStr?]

theorem get_port_int {o : Obj} {n : Int} : get .port o = .int n ↔ o.port = some n := by
  cases h : o.port <;> simp [get, h, ofInt?]

/-- The number is the texts between separators. -/
theorem number_iff {o : Obj} {e : Str} (he : o.sep = some e) {t : Str} :
    number o = .ok t ↔ ∃ l, Spec.Numbers o l ∧ t = join e l := by
  constructor
  · intro h
    unfold number at h
    rw [he] at h
    split at h <;> first | cases h | skip
    · rename_i p h1 h2 h3 h4
      exact ⟨_, .one (get_slot_none.mpr h1) (get_card_none.mpr h2) (get_proc_none.mpr h3) (get_port_int.mpr h4), rfl⟩
    · rename_i s p h1 h2 h3 h4
      exact ⟨_, .two (get_slot_str.mpr ⟨_, h1, rfl⟩) (get_card_none.mpr h2) (get_proc_none.mpr h3) (get_port_int.mpr h4),
        by simp [join, XR.sepStr]⟩
    · rename_i s c q p h1 h2 h3 h4
      exact ⟨_, .four (get_slot_str.mpr ⟨_, h1, rfl⟩) (get_card_str.mpr h2) (get_proc_str.mpr h3) (get_port_int.mpr h4),
        by simp [join, XR.sepStr]⟩
  · rintro ⟨l, hl, rfl⟩
    cases hl with
    | one h1 h2 h3 h4 =>
      rw [get_slot_none] at h1; rw [get_card_none] at h2; rw [get_proc_none] at h3; rw [get_port_int] at h4
      simp [number, h1, h2, h3, h4, join]
    | two h1 h2 h3 h4 =>
      rw [get_card_none] at h2; rw [get_proc_none] at h3; rw [get_port_int] at h4
      obtain ⟨n, h0, rfl⟩ := get_slot_str.mp h1
      simp [number, h0, h2, h3, h4, join, he, XR.sepStr]
    | four h1 h2 h3 h4 =>
      rw [get_card_str] at h2; rw [get_proc_str] at h3; rw [get_port_int] at h4
      obtain ⟨n, h0, rfl⟩ := get_slot_str.mp h1
      simp [number, h0, h2, h3, h4, join, he, XR.sepStr]

theorem render_eq (o : Obj) : render o = (do
    let n ← number o
    .ok (o.pfx ++ n ++ Spec.marked '.' (get .sub o) ++ Spec.marked ':' (get .chan o) ++ Spec.marked ' ' (get .cls o))) := by
  obtain ⟨pfx, sep, slot, card, proc, port, sub, chan, cls⟩ := o
  unfold render
  cases number ⟨pfx, sep, slot, card, proc, port, sub, chan, cls⟩ with
  | error e => rfl
  | ok n => cases sub <;> cases chan <;> cases cls <;> simp [ok_bind, get, Spec.marked, clsStr, ofInt?, ofStr?]

/-- C215: with a separator, `str()` gives exactly the prefix, the numbers between separators, subinterface, channel and class as
the attributes show them; there is a text exactly if the object has a port alone, slot and port, or slot, card, processor
and port.  Missing: objects without a separator. -/
theorem C215_name_partial {o : Obj} {e : Str} (he : get .sep o = .str e) (t : Str) :
    render o = .ok t ↔ ∃ l pfx, Spec.Numbers o l ∧ get .pfx o = .str pfx ∧
      t = pfx ++ join e l ++ Spec.marked '.' (get .sub o) ++ Spec.marked ':' (get .chan o) ++ Spec.marked ' ' (get .cls o) := by
  have he' : o.sep = some e := by
    cases h : o.sep <;> simp [get, h, ofStr?] at he ⊢
    exact he
  rw [render_eq]
  constructor
  · intro h
    obtain ⟨n, hn, h⟩ := XR.bind_ok h
    obtain ⟨l, hl, rfl⟩ := (number_iff he').mp hn
    cases h
    exact ⟨l, o.pfx, hl, rfl, rfl⟩
  · rintro ⟨l, pfx, hl, hp, rfl⟩
    cases hp
    rw [(number_iff he').mpr ⟨l, hl, rfl⟩]
    rfl

/-- C215: a part of a name with four numbers that is assigned is the part of the name that `str()` gives. -/
theorem C215_assign_partial {p c q : Str} (s n : Nat) (hp : XR.Spec.Prefix p) (hc : XR.Spec.Alnum c) (hq : XR.Spec.Alnum q) :
    ∃ o, make (p ++ XR.Spec.four s c q n) = .ok o ∧
      (∀ m : Nat, ∃ o', set .port (.int m) o = .ok o' ∧ render o' = .ok (p ++ XR.Spec.four s c q m)) ∧
      (∀ m : Nat, ∃ o', set .slot (.int m) o = .ok o' ∧ render o' = .ok (p ++ XR.Spec.four m c q n)) ∧
      (∀ w, ∃ o', set .card (.str w) o = .ok o' ∧ render o' = .ok (p ++ XR.Spec.four s w q n)) ∧
      (∀ w, ∃ o', set .proc (.str w) o = .ok o' ∧ render o' = .ok (p ++ XR.Spec.four s c w n)) ∧
      (∀ m : Nat, ∃ o', set .sub (.int m) o = .ok o' ∧ render o' = .ok (p ++ XR.Spec.four s c q n ++ '.' :: natStr m)) ∧
      (∀ m : Nat, ∃ o', set .chan (.int m) o = .ok o' ∧ render o' = .ok (p ++ XR.Spec.four s c q n ++ ':' :: natStr m)) := by
  have h := (XR.C106_four (w1 := []) (w2 := []) (w3 := []) hp s n hc hq (by intro c hc; cases hc) (by intro c hc; cases hc) (by intro c hc; cases hc)).1
  simp only [List.nil_append, List.append_nil] at h
  refine ⟨ofIntf (XR.Spec.intf4 p s c q n), by rw [make, h]; rfl, fun m => ⟨_, rfl, ?_⟩, fun m => ⟨_, rfl, ?_⟩,
    fun w => ⟨_, rfl, ?_⟩, fun w => ⟨_, rfl, ?_⟩, fun m => ⟨_, rfl, ?_⟩, fun m => ⟨_, rfl, ?_⟩⟩ <;>
    simp [render, number, ofIntf, XR.Spec.intf4, XR.Spec.four, join, XR.sepStr, ok_bind, clsStr, intStr]

/-- C215 fails: an interface with one number has no separator; whatever slot is assigned, the text `None` is written between
the numbers. -/
theorem C215_none_fails {t : Str} {o : Obj} (h : make t = .ok o) (hs : get .slot o = .none) (hc : get .cls o = .none)
    (h1 : get .sub o = .none) (h2 : get .chan o = .none) (he : get .sep o = .none) (hk : get .card o = .none)
    (hq : get .proc o = .none) (n : Int) :
    ∃ o' p, set .slot (.int n) o = .ok o' ∧ get .port o = .int p ∧
      render o' = .ok (o.pfx ++ (intStr n ++ "None".toList ++ intStr p)) := by
  obtain ⟨i, _, h⟩ := XR.bind_ok h
  cases h
  obtain ⟨pfx, sep, slot, card, proc, port, sub, chan, cls⟩ := i
  refine ⟨_, port, rfl, rfl, ?_⟩
  cases slot <;> cases card <;> cases proc <;> cases sub <;> cases chan <;> cases cls <;> cases sep <;>
    simp [get, ofIntf, ofStr?, ofInt?] at hs hc h1 h2 he hk hq
  simp [render, number, ofIntf, XR.sepStr, ok_bind, clsStr]

example : ∃ o, make "Loopback1".toList = .ok o ∧ get .slot o = .none ∧ get .cls o = .none ∧ get .sub o = .none ∧
    get .chan o = .none ∧ get .sep o = .none ∧ get .card o = .none ∧ get .proc o = .none := by
  refine ⟨⟨"Loopback".toList, none, none, none, none, some 1, none, none, none⟩, by decide +kernel, rfl, rfl, rfl, rfl, rfl, rfl, rfl⟩

example : XR.Spec.Prefix "GigabitEthernet".toList ∧ XR.Spec.Alnum "RP0".toList ∧ XR.Spec.Alnum "CPU0".toList := by
  refine ⟨⟨?_, ?_, ?_⟩, ⟨by decide, by decide⟩, ⟨by decide, by decide⟩⟩ <;> decide

/-! ## C216: dictionaries -/

theorem pyInt_intStr (n : Int) : pyInt (intStr n) = .ok n := by
  cases n with
  | ofNat n => exact pyInt_natStr n
  | negSucc n =>
    have hd := allDigits_natStr (n + 1)
    have hs : strip (intStr (.negSucc n)) = intStr (.negSucc n) := by
      refine strip_of_noSpace (fun a ha => ?_)
      rcases List.mem_cons.mp ha with rfl | ha
      · decide
      · exact isDigit_not_space (allDigits_mem hd a ha)
    unfold pyInt
    rw [hs]
    simp only [intStr, if_true, unsignedLit_digits hd, natVal_natStr]
    congr 1

theorem set_stripped {p : Part} {v : Val} {o o' : Obj} (h : set p v o = .ok o')
    (h1 : strip o.pfx = o.pfx) (h2 : o.cls.map strip = o.cls) : strip o'.pfx = o'.pfx ∧ o'.cls.map strip = o'.cls := by
  have hnum : ∀ {α : Type} (k : Val → Except Err α) (f : α → Obj), (∀ x, (f x).pfx = o.pfx ∧ (f x).cls = o.cls) →
      ((do .ok (f (← k v))) = Except.ok (ε := Err) o') → strip o'.pfx = o'.pfx ∧ o'.cls.map strip = o'.cls := by
    intro α k f hf h
    obtain ⟨x, _, hx⟩ := XR.bind_ok h
    cases hx
    rw [(hf x).1, (hf x).2]
    exact ⟨h1, h2⟩
  cases p with
  | slot => exact hnum toNum (fun x => { o with slot := x }) (fun _ => ⟨rfl, rfl⟩) h
  | card => exact hnum XR.setStr (fun x => { o with card := x }) (fun _ => ⟨rfl, rfl⟩) h
  | proc => exact hnum XR.setStr (fun x => { o with proc := x }) (fun _ => ⟨rfl, rfl⟩) h
  | port => exact hnum toNum (fun x => { o with port := x }) (fun _ => ⟨rfl, rfl⟩) h
  | sub => exact hnum toNum (fun x => { o with sub := x }) (fun _ => ⟨rfl, rfl⟩) h
  | chan => exact hnum toNum (fun x => { o with chan := x }) (fun _ => ⟨rfl, rfl⟩) h
  | pfx =>
    cases v with
    | str s => cases h; exact ⟨strip_strip s, h2⟩
    | none => cases h
    | int n => cases h
  | cls =>
    cases v with
    | str s => cases h; exact ⟨h1, by simp [strip_strip]⟩
    | none => cases h; exact ⟨h1, rfl⟩
    | int n => cases h
  | sep =>
    cases v with
    | str s => cases h; exact ⟨h1, h2⟩
    | none =>
      simp only [set] at h
      split at h
      · cases h
      · cases h; exact ⟨h1, h2⟩
    | int n =>
      simp only [set] at h
      split at h
      · cases h
      · cases h; exact ⟨h1, h2⟩

theorem reach_stripped {o : Obj} (h : Spec.Reach o) : strip o.pfx = o.pfx ∧ o.cls.map strip = o.cls := by
  induction h with
  | name h =>
    obtain ⟨i, hi, h⟩ := XR.bind_ok h
    cases h
    exact XR.parse_strip hi
  | set _ h ih => exact set_stripped h ih.1 ih.2

theorem lookups (o : Obj) :
    (asDict o).get "prefix" = .ok (get .pfx o) ∧ (asDict o).get "digit_separator" = .ok (get .sep o) ∧
    (asDict o).get "slot" = .ok (get .slot o) ∧ (asDict o).get "card" = .ok (get .card o) ∧
    (asDict o).get "processor" = .ok (get .proc o) ∧
    (asDict o).get "port" = .ok (get .port o) ∧ (asDict o).get "subinterface" = .ok (get .sub o) ∧
    (asDict o).get "channel" = .ok (get .chan o) ∧ (asDict o).get "interface_class" = .ok (get .cls o) :=
  ⟨rfl, rfl, rfl, rfl, rfl, rfl, rfl, rfl, rfl⟩

theorem ethernet1 : make "Ethernet1".toList = .ok ⟨"Ethernet".toList, none, none, none, none, some 1, none, none, none⟩ := by
  rw [make, XR.ethernet1]; rfl

theorem again_slot (x : Option Int) (o : Obj) : set .slot (ofStr? (x.map intStr)) o = .ok { o with slot := x } := by
  cases x with
  | none => rfl
  | some n => show (do .ok { o with slot := ← (do .ok (some (← pyInt (intStr n)))) }) = _; rw [pyInt_intStr]; rfl
theorem again_card (x : Option Str) (o : Obj) : set .card (ofStr? x) o = .ok { o with card := x } := by cases x <;> rfl
theorem again_proc (x : Option Str) (o : Obj) : set .proc (ofStr? x) o = .ok { o with proc := x } := by cases x <;> rfl
theorem again_port (x : Option Int) (o : Obj) : set .port (ofInt? x) o = .ok { o with port := x } := by cases x <;> rfl
theorem again_sub (x : Option Int) (o : Obj) : set .sub (ofInt? x) o = .ok { o with sub := x } := by cases x <;> rfl
theorem again_chan (x : Option Int) (o : Obj) : set .chan (ofInt? x) o = .ok { o with chan := x } := by cases x <;> rfl

theorem again_cls {o : Obj} {x : Option Str} (h : x.map strip = x) : set .cls (ofStr? (x.map strip)) o = .ok { o with cls := x } := by
  rw [h]
  cases x with
  | none => rfl
  | some w =>
    have hw : strip w = w := Option.some.inj h
    show Except.ok { o with cls := some (strip w) } = _
    rw [hw]

/-- C216: `from_dict(o.as_dict())` is the same object, for every object that a program can get. -/
theorem C216_dict {o : Obj} (h : Spec.Reach o) : fromDict (asDict o) = .ok o := by
  obtain ⟨h1, h2⟩ := reach_stripped h
  obtain ⟨e1, e2, e3, e4, e5, e6, e7, e8, e9⟩ := lookups o
  obtain ⟨pfx, sep, slot, card, proc, port, sub, chan, cls⟩ := o
  have h1' : strip pfx = pfx := h1
  rw [fromDict, ethernet1]
  simp only [ok_bind, e1, e2, e3, e4, e5, e6, e7, e8, e9]
  have s2 : ∀ p : Str, set .sep (ofStr? sep) ⟨p, none, none, none, none, some 1, none, none, none⟩ =
      .ok ⟨p, sep, none, none, none, some 1, none, none, none⟩ := by intro p; cases sep <;> rfl
  simp only [get, set.eq_1, ok_bind, s2, again_slot, again_card, again_proc, again_port, again_sub, again_chan, again_cls h2, h1']

/-- An object with a negative slot and no port. -/
example : ∃ o, Spec.Reach o ∧ o.slot = some (-3) ∧ o.port = none ∧ fromDict (asDict o) = .ok o := by
  have h : Spec.Reach ⟨"Ethernet".toList, none, some (-3), none, none, none, none, none, none⟩ :=
    .set (p := .port) (v := .none) (.set (p := .slot) (v := .int (-3)) (.name ethernet1) rfl) rfl
  exact ⟨_, h, rfl, rfl, C216_dict h⟩

end Intf.XRState

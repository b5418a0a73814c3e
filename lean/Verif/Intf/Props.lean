import Verif.Intf.Order

/-! # C14, C15: interface names and their order -/

namespace Intf

open Py

/-! ## C14 -/

/-- Rendering an interface gives prefix, `slot/card/port`, subinterface, channel and
class. -/
theorem C14_name {i : Intf} (h : Spec.Valid i) : render i = .ok (Spec.name i) := render_name h

/-- Parsing that text gives back the same components, whatever white text is around it or
between the prefix and the numbers. -/
theorem C14_parse {i : Intf} (h : Spec.Valid i) {w1 w2 w3 : Str} (h1 : Spec.White w1)
    (h2 : Spec.White w2) (h3 : Spec.White w3) :
    parse (w1 ++ i.pfx ++ w2 ++ Spec.body i ++ w3) = .ok i := parse_spaced h h1 h2 h3

/-- The parser returns only such interfaces. -/
theorem C14_valid {n : Str} {i : Intf} (h : parse n = .ok i) : Spec.Valid i := parse_valid h

/-- Rendering is a normal form: the rendering of a parsed name parses to the same
interface, and so renders to the same text. -/
theorem C14_normal {n : Str} {i : Intf} (h : parse n = .ok i) :
    ∃ t, render i = .ok t ∧ parse t = .ok i :=
  ⟨_, render_name (parse_valid h), parse_name (parse_valid h)⟩

/-- Different interfaces have different texts. -/
theorem C14_injective {m n : Str} {i j : Intf} (hi : parse m = .ok i) (hj : parse n = .ok j)
    (h : render i = render j) : i = j := by
  rw [render_name (parse_valid hi), render_name (parse_valid hj)] at h
  have e := parse_name (parse_valid hi)
  rw [Except.ok.inj h, parse_name (parse_valid hj)] at e
  cases e; rfl

/-- `CiscoIOSInterface(other)` and the copy through a dictionary are the same interface. -/
theorem C14_copy {n : Str} {i : Intf} (h : parse n = .ok i) : copy i = i := copy_valid (parse_valid h)

/-- `Port-channel 10/2/3.45:6 point-to-point`. -/
def sample : Intf :=
  { pfx := "Port-channel".toList, sep := some '/', slot := some 10, card := some 2, port := 3, sub := some 45,
    chan := some 6, cls := some "point-to-point".toList }

theorem sample_valid : Spec.Valid sample where
  pfx := by
    have : ∀ c ∈ sample.pfx, isLetter c = true ∨ c = '-' ∨ isSpace c = true := by decide
    exact this
  first := by
    intro c hc
    have : sample.pfx.head? = some 'P' := rfl
    rw [this] at hc
    cases hc; rfl
  last := by
    intro c hc
    have : sample.pfx.getLast? = some 'l' := rfl
    rw [this] at hc
    cases hc; rfl
  sep := rfl
  card := fun _ => rfl
  cls := by
    intro w hw
    cases hw
    decide

example : parse "Port-channel 10/2/3.45:6 point-to-point".toList = .ok sample :=
  C14_parse sample_valid (w1 := []) (w2 := " ".toList) (w3 := [])
    (by unfold Spec.White; decide) (by unfold Spec.White; decide) (by unfold Spec.White; decide)
example : render sample = .ok "Port-channel10/2/3.45:6 point-to-point".toList := C14_name sample_valid

/-- Not every accepted name is rendered: what the parser does not understand, it drops. -/
theorem C63_dropped_fails :
    (∃ i, parse "Eth1/2/3/4".toList = .ok i ∧ render i = .ok "Eth1/2/3".toList) ∧
    (∃ i, parse "Eth1//2".toList = .ok i ∧ render i = .ok "Eth1/2".toList) ∧
    (∃ i, parse "Eth.5".toList = .ok i ∧ render i = .ok "Eth5.5".toList) ∧
    (∃ i, parse "Eth1.2.3".toList = .ok i ∧ render i = .ok "Eth1.2".toList) ∧
    (∃ i, parse "Eth1:2.3".toList = .ok i ∧ render i = .ok "Eth1.3:2".toList) :=
  ⟨⟨_, rfl, rfl⟩, ⟨_, rfl, rfl⟩, ⟨_, rfl, rfl⟩, ⟨_, rfl, rfl⟩, ⟨_, rfl, rfl⟩⟩

/-! ## C15 -/

/-- Two interfaces are equal when the prefix and all components are. -/
theorem C15_eq (a b : Intf) : eq a b = true ↔ a.pfx = b.pfx ∧ Spec.parts a = Spec.parts b := by
  rw [eq, Bool.and_eq_true, decide_eq_true_eq, decide_eq_true_eq, sortList_inj]

/-- `==` is an equivalence. -/
theorem C15_eq_equivalence :
    (∀ a, eq a a = true) ∧ (∀ a b, eq a b = true → eq b a = true) ∧
    (∀ a b c, eq a b = true → eq b c = true → eq a c = true) := by
  refine ⟨fun a => (C15_eq a a).mpr ⟨rfl, rfl⟩, fun a b h => ?_, fun a b c h1 h2 => ?_⟩
  · rw [C15_eq] at *; exact ⟨h.1.symm, h.2.symm⟩
  · rw [C15_eq] at *; exact ⟨h1.1.trans h2.1, h1.2.trans h2.2⟩

/-- Interfaces made from names are equal exactly when they render to the same text. -/
theorem C15_eq_text {m n : Str} {i j : Intf} (hi : parse m = .ok i) (hj : parse n = .ok j) :
    eq i j = true ↔ render i = render j := by
  constructor
  · intro h
    rw [C15_eq] at h
    have e : i = j := by
      have s1 := (parse_valid hi).sep
      have s2 := (parse_valid hj).sep
      obtain ⟨h1, h2⟩ := h
      simp only [Spec.parts, Prod.mk.injEq] at h2
      obtain ⟨ha, hb, hc, hd, he, hf⟩ := h2
      have hs : i.sep = j.sep := by rw [s1, s2, ha]
      cases i; cases j
      simp_all
    rw [e]
  · intro h
    rw [C14_injective hi hj h]
    exact C15_eq_equivalence.1 _

/-- Equal interfaces have equal hashes. -/
theorem C15_hash {a b : Intf} (h : eq a b = true) : hash a = hash b := by
  rw [eq, Bool.and_eq_true, decide_eq_true_eq, decide_eq_true_eq] at h
  rw [hash, hash, h.2]

/-- `a < b`: by slot, then card, port, subinterface, channel and class. -/
theorem C15_lt (a b : Intf) : lt a b = .ok true ↔ Spec.Before a b := lt_before a b

/-- `>` is `<` turned around. -/
theorem C15_gt (a b : Intf) : gt a b = lt b a := listGt_eq _ _

/-- `<` is a strict order. -/
theorem C15_strict :
    (∀ a, lt a a = .ok false) ∧
    (∀ a b, lt a b = .ok true → lt b a = .ok false) ∧
    (∀ a b c, lt a b = .ok true → lt b c = .ok true → lt a c = .ok true) := by
  refine ⟨fun a => listLt_irrefl _, fun a b h => ?_, fun a b c => listLt_trans⟩
  refine listLt_ok (fun e => ?_) h
  rw [lt, e, listLt_irrefl] at h
  cases h

/-- Neither is smaller exactly when they have the same numbers and class. -/
theorem C15_incomparable (a b : Intf) :
    (lt a b = .ok false ∧ lt b a = .ok false) ↔ Spec.parts a = Spec.parts b := by
  rw [← sortList_inj]
  constructor
  · rintro ⟨h1, h2⟩
    by_cases e : sortList a = sortList b
    · exact e
    · have := listLt_ok e h1
      rw [lt, this] at h2
      cases h2
  · intro e
    rw [lt, lt, e]
    exact ⟨listLt_irrefl _, listLt_irrefl _⟩

/-- Comparing does not fail when both interfaces have the same parts; different ones are
then ordered one way. -/
theorem C15_total_partial {a b : Intf} (h : Spec.SameShape a b) (hne : Spec.parts a ≠ Spec.parts b) :
    (lt a b = .ok true ∧ lt b a = .ok false) ∨ (lt b a = .ok true ∧ lt a b = .ok false) := by
  obtain ⟨x, hx⟩ := listLt_total (sameKind_of h)
  have hy := listLt_ok (fun e => hne (sortList_inj.mp e)) hx
  cases x with
  | true => exact Or.inl ⟨hx, hy⟩
  | false => exact Or.inr ⟨hy, hx⟩

example : Spec.SameShape sample { sample with port := 4 } ∧ Spec.parts sample ≠ Spec.parts { sample with port := 4 } :=
  ⟨⟨rfl, rfl, rfl, rfl, rfl⟩, fun e => absurd (congrArg (fun p => p.2.2.1) e) (by decide)⟩

/-- Comparing fails with a TypeError exactly when the first part in which two interfaces
differ is missing in one of them. -/
theorem C15_typeError (a b : Intf) :
    lt a b = .error .typeError ↔
      (a.slot.isSome ≠ b.slot.isSome ∨ a.slot = b.slot ∧
      (a.card.isSome ≠ b.card.isSome ∨ a.card = b.card ∧ a.port = b.port ∧
      (a.sub.isSome ≠ b.sub.isSome ∨ a.sub = b.sub ∧
      (a.chan.isSome ≠ b.chan.isSome ∨ a.chan = b.chan ∧ a.cls.isSome ≠ b.cls.isSome)))) := by
  have hc : ∀ {x y : Option Key} {l m : List (Option Key)}, listLt (x :: l) (y :: m) = .error .typeError ↔
      (x ≠ y ∧ keyLt x y = .error .typeError) ∨ x = y ∧ listLt l m = .error .typeError := by
    intro x y l m
    rw [listLt]
    by_cases h : x = y <;> simp [h]
  have hn : ∀ {x y : Option Nat}, (x.map Key.num ≠ y.map Key.num ∧
      keyLt (x.map Key.num) (y.map Key.num) = .error .typeError) ↔ x.isSome ≠ y.isSome := by
    intro x y
    cases x <;> cases y <;> simp [keyLt]
  have hw : ∀ {x y : Option Str}, (x.map Key.word ≠ y.map Key.word ∧
      keyLt (x.map Key.word) (y.map Key.word) = .error .typeError) ↔ x.isSome ≠ y.isSome := by
    intro x y
    cases x <;> cases y <;> simp [keyLt]
  rw [lt, sortList, sortList, hc, hc, hc, hc, hc, hc, hn, hn, hn, hn, hw, map_num_inj, map_num_inj, map_num_inj,
    map_num_inj]
  simp [keyLt, listLt]

/-- So comparing can fail: `Ethernet1` with `Ethernet1/1`. -/
theorem C15_lt_fails :
    ∃ a b, parse "Ethernet1".toList = .ok a ∧ parse "Ethernet1/1".toList = .ok b ∧ lt a b = .error .typeError ∧
      gt a b = .error .typeError :=
  ⟨_, _, rfl, rfl, rfl, rfl⟩

/-- The order does not look at the prefix: `Serial1` and `Vlan1` are different, and
neither is smaller. -/
theorem C15_prefix_fails :
    ∃ a b, parse "Serial1".toList = .ok a ∧ parse "Vlan1".toList = .ok b ∧ eq a b = false ∧
      lt a b = .ok false ∧ lt b a = .ok false :=
  ⟨_, _, rfl, rfl, rfl, rfl, rfl⟩

end Intf

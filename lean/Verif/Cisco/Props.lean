import Verif.Cisco.Attr

/-! # Properties of interface attributes: typed searches, numbers, words and flags

`Spec.family P i` is the text of line `i` and the texts of its descendants, in order;
`Spec.First` picks what the first of them says.  The lines given to the parser are lines:
they hold no newline. -/

namespace Cisco

open Py Conf Query Re

/-! ## C70: the typed search -/

/-- `r` is the conversion of a group of the first text that the expression matches, or the
default. -/
def Spec.TypedSearch {α : Type} (p : Pat) (g : Nat) (conv : Option Str → Except Err α) (dflt : α) (ts : List Str)
    (r : Except Err α) : Prop :=
  (∃ ts₁ t ts₂ m, ts = ts₁ ++ t :: ts₂ ∧ (∀ u ∈ ts₁, search p u = none) ∧ search p t = some m ∧
      ((∃ v, m.group p g = .ok v ∧ r = conv v) ∨ ∃ e, m.group p g = .error e ∧ r = .error e)) ∨
    ((∀ u ∈ ts, search p u = none) ∧ r = .ok dflt)

theorem firstMatch_cases (p : Pat) (ts : List Str) :
    (∃ ts₁ t ts₂ m, ts = ts₁ ++ t :: ts₂ ∧ (∀ u ∈ ts₁, search p u = none) ∧ search p t = some m ∧
      firstMatch p ts = some m) ∨ ((∀ u ∈ ts, search p u = none) ∧ firstMatch p ts = none) := by
  induction ts with
  | nil => exact .inr ⟨by simp, rfl⟩
  | cons t ts ih =>
    rw [firstMatch]
    cases hs : search p t with
    | some m => exact .inl ⟨[], t, ts, m, rfl, by simp, hs, rfl⟩
    | none =>
      rcases ih with ⟨ts₁, u, ts₂, m, h1, h2, h3, h4⟩ | ⟨h1, h2⟩
      · refine .inl ⟨t :: ts₁, u, ts₂, m, by rw [h1]; rfl, ?_, h3, h4⟩
        intro v hv
        rcases List.mem_cons.mp hv with rfl | hv
        · exact hs
        · exact h2 v hv
      · refine .inr ⟨?_, h2⟩
        intro v hv
        rcases List.mem_cons.mp hv with rfl | hv
        · exact hs
        · exact h1 v hv

/-- C70: `re_match_iter_typed` converts the group of the first match among the line and its
descendants (its children with `recurse=False`), in order; without a match it returns the
default. -/
theorem C70_typed {α : Type} (P : Parsed) (i : Nat) (rx : String) (g : Nat) (conv : Option Str → Except Err α)
    (dflt : α) (p : Pat) (h : compile rx = .ok p) :
    Spec.TypedSearch p g conv dflt (Spec.family P i) (iterTyped P i rx g conv dflt) ∧
    Spec.TypedSearch p g conv dflt ((P.h i).text :: Spec.kids P i) (iterTyped P i rx g conv dflt false) := by
  have key : ∀ ts, Spec.TypedSearch p g conv dflt ts
      (match firstMatch p ts with
      | some m => do conv (← m.group p g)
      | none => .ok dflt) := by
    intro ts
    rcases firstMatch_cases p ts with ⟨ts₁, t, ts₂, m, h1, h2, h3, h4⟩ | ⟨h1, h2⟩
    · rw [h4]
      refine .inl ⟨ts₁, t, ts₂, m, h1, h2, h3, ?_⟩
      cases hg : m.group p g with
      | error e => exact .inr ⟨e, rfl, by simp only [hg]; rfl⟩
      | ok v => exact .inl ⟨v, rfl, by simp only [hg]; rfl⟩
    · rw [h2]
      exact .inr ⟨h1, rfl⟩
  constructor
  · rw [iterTyped, h]
    exact key _
  · rw [iterTyped, h]
    exact key _

/-- C70: `re_match_typed` looks at the line alone: it converts the group of the match, and
returns the default without a match or when the group takes no part in it. -/
theorem C70_match {α : Type} (t : Str) (rx : String) (g : Nat) (conv : Option Str → Except Err α) (dflt : α) (p : Pat)
    (h : compile rx = .ok p) :
    (search p t = none → matchTyped t rx g conv dflt = .ok dflt) ∧
    ∀ m, search p t = some m →
      (∀ s, m.group p g = .ok (some s) → matchTyped t rx g conv dflt = conv (some s)) ∧
      (m.group p g = .ok none → matchTyped t rx g conv dflt = .ok dflt) ∧
      (∀ e, m.group p g = .error e → matchTyped t rx g conv dflt = .error e) := by
  have e : matchTyped t rx g conv dflt = (match search p t with
      | none => .ok dflt
      | some m => do match ← m.group p g with
        | some s => conv (some s)
        | none => .ok dflt) := by
    rw [matchTyped, reSearch, h]
    simp only
    cases search p t <;> rfl
  refine ⟨fun hs => by rw [e, hs], fun m hs => ⟨fun s hg => ?_, fun hg => ?_, fun x hg => ?_⟩⟩
  all_goals
    rw [e, hs]
    simp only [hg]
    rfl

/-- The group takes no part in the match. -/
example : matchTyped "b".toList "(a)|b" 1 toStr "none".toList = .ok "none".toList := by decide +kernel

/-- C70: an invalid expression raises, whatever the configuration. -/
theorem C70_invalid {α : Type} (P : Parsed) (i : Nat) (rx : String) (g : Nat) (conv : Option Str → Except Err α)
    (dflt : α) (rec : Bool) (b : Bad) (h : compile rx = .error b) : iterTyped P i rx g conv dflt rec = .error .reError := by
  rw [iterTyped, h]

/-- C70: with a `groupdict`, the result has exactly the keys of `groupdict`, in order. -/
theorem C70_dict_keys (P : Parsed) (i : Nat) (rx : String) (types : List (Str × Ty)) (dflt : Val) (d : List (Str × Val))
    (h : iterDict P i rx types dflt = .ok d) : d.map Prod.fst = types.map Prod.fst := by
  have key : ∀ (f : Str × Ty → Except Err Val) (types : List (Str × Ty)) (d : List (Str × Val)),
      types.mapM (fun q => do .ok (q.1, ← f q)) = .ok d → d.map Prod.fst = types.map Prod.fst := by
    intro f types
    induction types with
    | nil => intro d h; rw [List.mapM_nil] at h; cases h; rfl
    | cons q types ih =>
      intro d h
      rw [List.mapM_cons] at h
      cases hq : f q with
      | error e => rw [hq] at h; cases h
      | ok v =>
        rw [hq] at h
        cases hr : types.mapM (fun q => do Except.ok (q.1, ← f q)) with
        | error e => rw [hr] at h; cases h
        | ok d' =>
          rw [hr] at h
          cases h
          simp [ih d' hr]
  rw [iterDict] at h
  split at h
  · cases h
  · rw [getTypedDict.eq_def] at h
    split at h
    · exact key _ _ _ h
    · cases h
      simp [Function.comp_def]

/-- C70: without a match, every key of `groupdict` has the default. -/
theorem C70_dict_default (P : Parsed) (i : Nat) (rx : String) (types : List (Str × Ty)) (dflt : Val) (p : Pat)
    (h : compile rx = .ok p) (hno : ∀ t ∈ Spec.family P i, search p t = none) :
    iterDict P i rx types dflt = .ok (types.map (fun q => (q.1, dflt))) := by
  rw [iterDict, h]
  rcases firstMatch_cases p (texts P i) with ⟨ts₁, t, ts₂, m, h1, _, h3, _⟩ | ⟨_, h2⟩
  · have := hno t (by rw [← texts_family, h1]; simp)
    rw [h3] at this; cases this
  · simp only [h2]
    rfl

/-! ## A configuration for the examples -/

def exLines : List Str :=
  ["interface GigabitEthernet0/1", " description to  core", " mtu 1500", " bandwidth  2000", " encapsulation dot1Q 10",
    " hold-queue 75 in", " duplex full", " mpls ip", " ip address 10.0.0.1 255.255.255.0", " no ip redirects",
    " standby 10 ip 10.0.0.254", " standby 10 priority 110", " standby 10 timers 5 15", " vrf forwarding RED",
    " ip access-group ACL in", " shutdown", "interface GigabitEthernet0/2", " no shutdown", " mtu x"].map String.toList

/-- What a configuration shows when it is parsed. -/
def shows (lines : List Str) (Q : Parsed → Bool) : Bool :=
  match parse { factory := true } lines with
  | .ok P => Q P
  | .error _ => false

theorem of_shows {lines : List Str} {Q : Parsed → Bool} (h : shows lines Q = true) :
    ∃ P, parse { factory := true } lines = .ok P ∧ Q P = true := by
  rw [shows] at h
  split at h
  · exact ⟨_, by assumption, h⟩
  · cases h

example : (∀ l ∈ exLines, '\n' ∉ l) ∧ ∃ P, parse { factory := true } exLines = .ok P ∧ (P.list.length == 19) = true :=
  ⟨by decide +kernel, of_shows (by decide +kernel)⟩

example : compile "^\\s*(mpls\\s+ip)$" = .ok ⟨seqs (.bol :: (flagProg [] (gaps true ["mpls"]) "ip".toList false).toL), 1, []⟩ := by
  decide +kernel

/-! ## C71: numbers -/

/-- The numeric attributes: the words before the number and the words behind it. -/
def numbers : List ((Parsed → Nat → Except Err Int) × List String × List String) :=
  [(manualBandwidth, ["bandwidth"], []), (manualDelay, ["delay"], []),
    (manualHoldqueueOut, ["hold-queue"], ["out"]), (manualHoldqueueIn, ["hold-queue"], ["in"]),
    (manualClockRate, ["clock", "rate"], []), (manualMtu, ["mtu"], []), (manualMplsMtu, ["mpls", "mtu"], []),
    (manualIpMtu, ["ip", "mtu"], []), (manualSpeed, ["speed"], [])]

/-- C71: a numeric attribute is the number in the first line of the interface that consists
of the keywords and a number, and 0 without such a line. -/
theorem C71_numbers {o : Opts} {lines : List Str} {P : Parsed} (h : parse o lines = .ok P)
    (hn : ∀ l ∈ lines, '\n' ∉ l) (i : Nat) :
    ∀ a ∈ numbers, ∃ v, Spec.First (Spec.Number a.2.1 a.2.2) (Spec.family P i) v ∧ a.1 P i = .ok (v.getD 0) := by
  intro a ha
  simp only [numbers, List.mem_cons, List.not_mem_nil, or_false] at ha
  rcases ha with rfl | rfl | rfl | rfl | rfl | rfl | rfl | rfl | rfl <;> dsimp only <;>
    refine num_attr (sp := false) h hn i ?_ 0 <;> decide +kernel

/-- C71: `has_manual_mtu` and its like say whether the number is there and not 0. -/
theorem C71_has {o : Opts} {lines : List Str} {P : Parsed} (h : parse o lines = .ok P)
    (hn : ∀ l ∈ lines, '\n' ∉ l) (i : Nat) :
    ∀ a ∈ [(hasManualMtu, ["mtu"]), (hasManualMplsMtu, ["mpls", "mtu"]), (hasManualIpMtu, ["ip", "mtu"]),
        (hasManualClockRate, ["clock", "rate"])],
      ∃ v, Spec.First (Spec.Number a.2 []) (Spec.family P i) v ∧
        a.1 P i = .ok (decide (∃ n, v = some n ∧ n ≠ 0)) := by
  have key : ∀ (f : Parsed → Nat → Except Err Int) (pre : List String), (f, pre, []) ∈ numbers →
      ∃ v, Spec.First (Spec.Number pre []) (Spec.family P i) v ∧
        (do .ok ((← f P i) != 0)) = .ok (decide (∃ n, v = some n ∧ n ≠ 0)) := by
    intro f pre hf
    obtain ⟨v, h1, h2⟩ := C71_numbers h hn i _ hf
    refine ⟨v, h1, ?_⟩
    simp only at h2
    rw [h2]
    cases v with
    | none => simp [Bind.bind, Except.bind]
    | some n =>
      by_cases hn : n = 0 <;> simp [Bind.bind, Except.bind, hn]
  intro a ha
  simp only [List.mem_cons, List.not_mem_nil, or_false] at ha
  rcases ha with rfl | rfl | rfl | rfl
  · exact key manualMtu _ (by simp [numbers])
  · exact key manualMplsMtu _ (by simp [numbers])
  · exact key manualIpMtu _ (by simp [numbers])
  · exact key manualClockRate _ (by simp [numbers])

example : ∃ P, parse { factory := true } exLines = .ok P ∧
    (manualBandwidth P 0 == .ok 2000 && manualMtu P 0 == .ok 1500 && manualHoldqueueIn P 0 == .ok 75 &&
      manualHoldqueueOut P 0 == .ok 0 && manualMtu P 16 == .ok 0 && hasManualMtu P 0 == .ok true) = true :=
  of_shows (by decide +kernel)

end Cisco

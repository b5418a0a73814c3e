import Verif.IP.ViewsProps
import Verif.Misc.Props

/-! # Small helpers: `check_valid_ipaddress`, comparing `L4Object`s, `__ccp_re__` -/

namespace Misc

open Py

/-! ## Models -/

/-- ccp_util.py:2892-2921 `check_valid_ipaddress(input_addr)` for a string; `except BaseException` catches every
error of `IPv4Obj` and `IPv6Obj`. -/
def checkValidIp (s : Str) : Except Err (Str × Nat) := do
  let s := strip s
  let fam ← match IP.V4.ofStr s with
    | .ok _ => .ok 4
    | .error _ => .error .valueError
  let fam ← if fam = 0 then match IP.V6.ofStr s with
      | .ok _ => .ok 6
      | .error _ => .error .valueError
    else .ok fam
  if ¬ (fam = 4 ∨ fam = 6) then .error .requirement else .ok (s, fam)

/-- ccp_util.py:2448-2451: the attributes of an `L4Object`. -/
structure L4 where
  protocol : Str
  ports : List Int
  deriving DecidableEq, Repr

/-- ccp_util.py:2448-2507 `L4Object(protocol, port_spec, syntax)` as an object. -/
def L4.make (protocol spec syn : Str) : Except Err L4 := do
  let l ← l4object protocol spec syn
  .ok ⟨protocol, l⟩

/-- ccp_util.py:2509-2512 `L4Object.__eq__`. -/
def L4.eq (a b : L4) : Bool :=
  if a.protocol == b.protocol && a.ports == b.ports then true else false

/-! ## C208: checking addresses -/

theorem mask_chars {m : Str} {p : Nat} (h : IP.Mask4 m p) : ∀ c ∈ m, isDigit c = true ∨ c = '.' := by
  cases h with
  | digits _ h _ => exact fun c hc => .inl (h c hc)
  | net _ h => exact h.chars
  | host _ _ h => exact h.chars

/-- A text that `IPv4Obj` accepts has no colon. -/
theorem v4_no_colon {s : Str} {o : IP.V4} (h : IP.V4.ofStr s = .ok o) : ':' ∉ strip s := by
  obtain ⟨n, p, ht, _⟩ := IP.C93_exact.mp h
  have hd : ∀ {l : Str}, (∀ c ∈ l, isDigit c = true ∨ c = '.') → ':' ∉ l := by
    intro l hl hm
    rcases hl _ hm with h | h
    · exact absurd h (by decide)
    · exact absurd h (by decide)
  intro hm
  rcases ht with ⟨a, ha, ⟨e, _⟩ | ⟨m, hmk, e⟩⟩ | ⟨a, w, m, ha, _, hw, _, hmk, e⟩
  · rw [e] at hm; exact hd ha.chars hm
  · rw [e] at hm
    rcases List.mem_append.mp hm with hm | hm
    · rcases List.mem_append.mp hm with hm | hm
      · exact hd ha.chars hm
      · exact absurd hm (by decide)
    · exact hd (mask_chars hmk) hm
  · rw [e] at hm
    rcases List.mem_append.mp hm with hm | hm
    · rcases List.mem_append.mp hm with hm | hm
      · exact hd ha.chars hm
      · exact absurd (hw _ hm) (by decide)
    · exact hd (mask_chars hmk) hm

theorem checkValidIp_eq (s : Str) : checkValidIp s = match IP.V4.ofStr (strip s) with
    | .ok _ => .ok (strip s, 4)
    | .error _ => .error .valueError := by
  unfold checkValidIp
  simp only []
  cases h : IP.V4.ofStr (strip s) <;> simp [bind, Except.bind]

/-- C208 (IPv4): the texts of IPv4 addresses with or without mask, blanks around them allowed, are answered with the
text without these blanks and the family 4; every other text raises ValueError.  Missing: IPv6 texts. -/
theorem C208_v4_partial (s : Str) :
    ((∃ n p, IP.Text4Obj (strip s) n p) → checkValidIp s = .ok (strip s, 4)) ∧
    ((¬ ∃ n p, IP.Text4Obj (strip s) n p) → checkValidIp s = .error .valueError) := by
  rw [checkValidIp_eq]
  constructor
  · rintro ⟨n, p, h⟩
    rw [(IP.C93_exact (s := strip s)).mpr ⟨n, p, by rw [strip_strip]; exact h, rfl⟩]
  · intro h
    cases e : IP.V4.ofStr (strip s) with
    | error _ => rfl
    | ok o =>
      obtain ⟨n, p, h', _⟩ := IP.C93_exact.mp e
      rw [strip_strip] at h'
      exact absurd ⟨n, p, h'⟩ h

theorem colon_join {l : List Str} (h : 2 ≤ l.length) : ':' ∈ join [':'] l := by
  match l, h with
  | a :: b :: l, _ => simp [join]

theorem colon_text {s : Str} {n p : Nat} (h : IP.TextNet6 s n p) : ':' ∈ s := by
  obtain ⟨a, ha, hs⟩ := h
  have hc : ':' ∈ a := by
    rcases ha with ha | ha
    · cases ha with
      | full hl _ => exact colon_join (by rw [List.length_map, hl]; decide)
      | short _ _ _ => simp
    · cases ha with
      | full hl _ _ => exact colon_join (by rw [List.length_append, List.length_map, hl, List.length_singleton]; decide)
      | short _ _ _ _ => simp
  rcases hs with ⟨rfl, _⟩ | ⟨m, _, _, _, _, rfl⟩
  · exact hc
  · simp [hc]

/-- C208 fails for every text of an IPv6 address, with or without mask length: ValueError is raised, and 6 is never
answered. -/
theorem C208_v6_fails {s : Str} {n p : Nat} (h : IP.TextNet6 (strip s) n p) : checkValidIp s = .error .valueError := by
  rw [checkValidIp_eq]
  cases e : IP.V4.ofStr (strip s) with
  | error _ => rfl
  | ok o => exact absurd (colon_text h) (by have := v4_no_colon e; rwa [strip_strip] at this)

example : checkValidIp " 10.0.0.1 ".toList = .ok ("10.0.0.1".toList, 4) := by decide +kernel

example : ∃ n p, IP.TextNet6 (strip "64:ff9b::192.0.2.33".toList) n p :=
  ⟨_, 128, "64:ff9b::192.0.2.33".toList, .inr IP.quad_example, .inl ⟨by decide +kernel, rfl⟩⟩

/-! ## C209: comparing `L4Object`s -/

theorem portList_sorted {ports : List (Str × Int)} {spec : Str} {l : List Int} (h : portList ports spec = .ok l) :
    l.Pairwise (· < ·) := by
  unfold portList at h
  simp only [] at h
  split at h
  · cases e : resolve ports (lastWord (strip spec)) with
    | error _ => rw [e] at h; cases h
    | ok n =>
      rw [e] at h; simp only [bind, Except.bind] at h
      split at h <;> cases h; simp
  · split at h
    · cases e : resolve ports (strip spec) with
      | error _ => rw [e] at h; cases h
      | ok n =>
        rw [e] at h; simp only [bind, Except.bind] at h
        split at h <;> cases h; simp
    · split at h
      · split at h
        · next a b _ _ =>
          cases e : resolve ports a with
          | error _ => rw [e] at h; cases h
          | ok lo =>
            cases e' : resolve ports b with
            | error _ => rw [e, e'] at h; cases h
            | ok hi =>
              rw [e, e'] at h; simp only [bind, Except.bind] at h
              split at h <;> cases h; exact portRange_sorted _ _
        · cases h
      · split at h
        · cases e : resolve ports (lastWord (strip spec)) with
          | error _ => rw [e] at h; cases h
          | ok n =>
            rw [e] at h; simp only [bind, Except.bind] at h
            split at h <;> cases h; exact portRange_sorted _ _
        · split at h
          · cases e : resolve ports (lastWord (strip spec)) with
            | error _ => rw [e] at h; cases h
            | ok n =>
              rw [e] at h; simp only [bind, Except.bind] at h
              split at h <;> cases h; exact portRange_sorted _ _
          · split at h
            · cases e : pyInt (lastWord (strip spec)) with
              | error _ => rw [e] at h; cases h
              | ok n =>
                rw [e] at h; simp only [bind, Except.bind] at h
                split at h
                · rw [← Except.ok.inj h]; exact List.Pairwise.filter _ (portRange_sorted _ _)
                · cases h
            · cases h

theorem l4_sorted {pr spec syn : Str} {a : L4} (h : L4.make pr spec syn = .ok a) :
    a.protocol = pr ∧ a.ports.Pairwise (· < ·) := by
  unfold L4.make at h
  cases e : l4object pr spec syn with
  | error _ => rw [e] at h; cases h
  | ok l =>
    rw [e] at h; cases h
    refine ⟨rfl, ?_⟩
    unfold l4object at e
    split at e
    · split at e
      · exact portList_sorted e
      · split at e
        · exact portList_sorted e
        · cases e
    · cases e

theorem sorted_ext : ∀ {l l' : List Int}, l.Pairwise (· < ·) → l'.Pairwise (· < ·) → (∀ x, x ∈ l ↔ x ∈ l') → l = l'
  | [], [], _, _, _ => rfl
  | [], y :: ys, _, _, h => absurd ((h y).mpr (by simp)) (by simp)
  | x :: xs, [], _, _, h => absurd ((h x).mp (by simp)) (by simp)
  | x :: xs, y :: ys, h1, h2, h => by
    obtain ⟨hx, h1'⟩ := List.pairwise_cons.mp h1
    obtain ⟨hy, h2'⟩ := List.pairwise_cons.mp h2
    have e : x = y := by
      rcases List.mem_cons.mp ((h x).mp (by simp)) with e | hm
      · exact e
      · rcases List.mem_cons.mp ((h y).mpr (by simp)) with e | hm'
        · exact e.symm
        · have := hy _ hm; have := hx _ hm'; omega
    subst e
    rw [sorted_ext h1' h2' fun z => ?_]
    constructor
    · intro hz
      rcases List.mem_cons.mp ((h z).mp (by simp [hz])) with e | hm
      · have := hx _ hz; omega
      · exact hm
    · intro hz
      rcases List.mem_cons.mp ((h z).mpr (by simp [hz])) with e | hm
      · have := hy _ hz; omega
      · exact hm

/-- C209: two port objects are equal exactly if they have the same protocol and the same ports, however the ports were
written. -/
theorem C209_eq {pr pr' spec spec' syn syn' : Str} {a b : L4} (ha : L4.make pr spec syn = .ok a)
    (hb : L4.make pr' spec' syn' = .ok b) : a.eq b = true ↔ pr = pr' ∧ ∀ p, p ∈ a.ports ↔ p ∈ b.ports := by
  obtain ⟨e1, h1⟩ := l4_sorted ha
  obtain ⟨e2, h2⟩ := l4_sorted hb
  have he : a.eq b = true ↔ a.protocol = b.protocol ∧ a.ports = b.ports := by rw [L4.eq]; simp
  rw [he, e1, e2]
  exact and_congr Iff.rfl ⟨fun h p => by rw [h], sorted_ext h1 h2⟩

example : ∃ a b c, L4.make "tcp".toList "range 80 82".toList "asa".toList = .ok a ∧
    L4.make "tcp".toList "range www 82".toList "asa".toList = .ok b ∧
    L4.make "udp".toList "range 80 82".toList "asa".toList = .ok c ∧ a.eq b = true ∧ a.eq c = false :=
  ⟨⟨"tcp".toList, [80, 81, 82]⟩, ⟨"tcp".toList, [80, 81, 82]⟩, ⟨"udp".toList, [80, 81, 82]⟩, by decide +kernel, by decide +kernel,
    by decide +kernel, by decide, by decide⟩

end Misc

import Verif.IP.Text6Props
import Verif.IP.Props

/-! # C223 – C225: IPv4 and IPv6 objects together, and empty IPv6 objects

`Any` is what a list of addresses of both kinds holds. The methods are those of the class of the left operand; Python asks the
right operand only when the left one answers `NotImplemented`, which neither class does. -/

namespace IP

open Py

/-- An address object of either kind (not empty). -/
inductive Any where
  | v4 (o : V4)
  | v6 (o : V6)

/-- The attributes that the comparing methods read of either kind: `as_decimal`, `as_decimal_network`, `prefixlen`. -/
def Any.dec : Any → Nat
  | .v4 o => o.asDecimal
  | .v6 o => o.asDecimal

def Any.ndec : Any → Nat
  | .v4 o => o.asDecimalNetwork
  | .v6 o => o.asDecimalNetwork

def Any.len : Any → Nat
  | .v4 o => o.plen
  | .v6 o => o.plen

/-- ccp_util.py:1175-1197 and 1917-1935 `__eq__`: neither looks at the class of the other object. -/
def Any.eq (a b : Any) : Bool := a.dec == b.dec && a.len == b.len

/-- ccp_util.py:1202-1206 and 1938-1939 `__ne__`. -/
def Any.ne : Any → Any → Bool
  | .v4 a, .v4 b => !(Any.eq (.v4 a) (.v4 b))
  | .v4 _, .v6 _ => true
  | .v6 a, b => !(Any.eq (.v6 a) b)

/-- ccp_util.py:1244-1278 and 1972-1999 `__lt__`. -/
def Any.lt (a b : Any) : Bool :=
  if a.ndec = b.ndec ∧ a.len = b.len then decide (a.dec < b.dec)
  else if a.ndec = b.ndec then decide (a.len < b.len)
  else decide (a.ndec < b.ndec)

/-- ccp_util.py:1210-1240 and 1942-1969 `__gt__`. -/
def Any.gt (a b : Any) : Bool :=
  if a.ndec = b.ndec ∧ a.len = b.len then decide (a.dec > b.dec)
  else if a.ndec = b.ndec then decide (a.len > b.len)
  else decide (a.ndec > b.ndec)

/-- ccp_util.py:1365-1370 and 2069-2071 `__hash__` (the key that is hashed). -/
def Any.hashKey : Any → Str × Str
  | .v4 o => o.hashKey
  | .v6 o => o.hashKey

/-- ccp_util.py:1334-1361 `val in self` for an IPv4 `self` and an IPv6 `val`: `as_decimal_broadcast` of an IPv6 object
(ccp_util.py:2283-2285) raises `NotImplementedError`, which becomes `ValueError`. -/
def V4.contains6 (self : V4) (val : V6) : Except Err Bool :=
  if self.plen = 0 then .ok true
  else if self.plen > val.plen then .ok false
  else if self.asDecimalNetwork ≤ val.asDecimalNetwork then .error .valueError
  else .ok false

/-- ccp_util.py:2050-2066 `val in self` for an IPv6 `self` and an IPv4 `val`. -/
def V6.contains4 (self : V6) (val : V4) : Except Err Bool :=
  if self.plen = 0 then .ok true
  else if self.plen > val.plen then .ok false
  else do
    let hs ← self.numhosts
    let hv ← val.numhosts
    .ok (decide (self.asDecimalNetwork ≤ val.asDecimalNetwork) &&
      decide ((self.asDecimalNetwork : Int) + hs - 1 ≥ (val.asDecimalNetwork : Int) + hv - 1))

/-- `sorted(l)`. -/
def sortedAny (l : List Any) : List Any := sortBy (fun a b => !(b.lt a)) l

/-! ## Specification -/

/-- The objects a program can have. -/
def Any.Regular : Any → Prop
  | .v4 o => o.Regular
  | .v6 o => o.Regular

/-- Network, prefix length and address as numbers. -/
def Any.net : Any → Nat
  | .v4 o => o.net
  | .v6 o => o.net

def Any.ip : Any → Nat
  | .v4 o => o.ip
  | .v6 o => o.ip

def Any.plen : Any → Nat
  | .v4 o => o.plen
  | .v6 o => o.plen

/-- By number of the network, then prefix length, then address. -/
def BeforeAny (a b : Any) : Prop :=
  a.net < b.net ∨ (a.net = b.net ∧ (a.plen < b.plen ∨ (a.plen = b.plen ∧ a.ip < b.ip)))

/-! ## Lemmas -/

theorem any_dec {a : Any} (h : a.Regular) : a.dec = a.ip := by
  cases a with
  | v4 o => exact V4.asDecimal_eq (V4.Regular.wf h)
  | v6 o => exact V6.asDecimal_eq (V6.Regular.wf h)

theorem any_ndec {a : Any} (h : a.Regular) : a.ndec = a.net := by
  cases a with
  | v4 o => exact V4.asDecimalNetwork_eq (V4.Regular.wf h)
  | v6 o => exact V6.asDecimalNetwork_eq (V6.Regular.wf h)

theorem any_len (a : Any) : a.len = a.plen := by cases a <;> rfl

theorem any_lt {a b : Any} (ha : a.Regular) (hb : b.Regular) : a.lt b = true ↔ BeforeAny a b := by
  rw [Any.lt, any_dec ha, any_dec hb, any_ndec ha, any_ndec hb, any_len, any_len, BeforeAny]
  split
  · simp only [decide_eq_true_eq]; omega
  · split <;> simp only [decide_eq_true_eq] <;> omega

theorem any_gt {a b : Any} (ha : a.Regular) (hb : b.Regular) : a.gt b = true ↔ BeforeAny b a := by
  rw [Any.gt, any_dec ha, any_dec hb, any_ndec ha, any_ndec hb, any_len, any_len, BeforeAny]
  split
  · simp only [decide_eq_true_eq]; omega
  · split <;> simp only [decide_eq_true_eq] <;> omega

theorem any_eq {a b : Any} (ha : a.Regular) (hb : b.Regular) : a.eq b = true ↔ a.ip = b.ip ∧ a.plen = b.plen := by
  rw [Any.eq, any_dec ha, any_dec hb, any_len, any_len]; simp

theorem colon_mem_join : ∀ {l : List Str}, 2 ≤ l.length → ':' ∈ join [':'] l
  | [], h => by simp at h
  | [_], h => by simp at h
  | p :: q :: ps, _ => by rw [join]; simp

theorem colon_mem_canon {n : Nat} {t : Str} (h : Canon6 n t) : ':' ∈ t := by
  cases h with
  | full _ hp =>
    refine colon_mem_join ?_
    have := congrArg List.length hp.1
    rw [List.length_map] at this ⊢
    rw [this, groupsOf]; simp
  | short =>
    rw [List.mem_append, List.mem_append]
    exact Or.inl (Or.inr (by decide))

/-! ## C223 -/

/-- C223: an IPv6 object whose address does not fit in 32 bits, or whose prefix is longer than 32, is different from every IPv4
object, from both sides and for both operators. -/
theorem C223_eq_partial {a : V4} {b : V6} (ha : a.Regular) (hb : b.Regular) (h : 2 ^ 32 ≤ b.ip ∨ 32 < b.plen) :
    Any.eq (.v4 a) (.v6 b) = false ∧ Any.eq (.v6 b) (.v4 a) = false ∧
    Any.ne (.v4 a) (.v6 b) = true ∧ Any.ne (.v6 b) (.v4 a) = true := by
  have h1 := ha.wf.ip_lt
  have h2 := ha.wf.plen_le
  have e1 : Any.eq (.v4 a) (.v6 b) = false := by
    rw [← Bool.not_eq_true, any_eq (a := .v4 a) (b := .v6 b) ha hb]
    rintro ⟨h3, h4⟩
    change a.ip = b.ip at h3
    change a.plen = b.plen at h4
    omega
  have e2 : Any.eq (.v6 b) (.v4 a) = false := by
    rw [← Bool.not_eq_true, any_eq (a := .v6 b) (b := .v4 a) hb ha]
    rintro ⟨h3, h4⟩
    change b.ip = a.ip at h3
    change b.plen = a.plen at h4
    omega
  exact ⟨e1, e2, rfl, by rw [Any.ne, e2]; rfl⟩

/-- C223 fails: for every IPv4 object there is an IPv6 object that is equal to it, from both sides. `!=` answers that they are
different if the IPv4 object stands left, and that they are not if it stands right; and their hashes are those of different
texts. -/
theorem C223_eq_fails {a : V4} (ha : a.Regular) : ∃ b : V6, b.Regular ∧
    Any.eq (.v4 a) (.v6 b) = true ∧ Any.eq (.v6 b) (.v4 a) = true ∧
    Any.ne (.v4 a) (.v6 b) = true ∧ Any.ne (.v6 b) (.v4 a) = false ∧ Any.hashKey (.v4 a) ≠ Any.hashKey (.v6 b) := by
  have h1 := ha.wf.ip_lt
  have h2 := ha.wf.plen_le
  have hb : (V6.make a.ip a.plen).Regular := .make (by omega) (by omega)
  have e2 : Any.eq (.v6 (V6.make a.ip a.plen)) (.v4 a) = true := (any_eq (a := .v6 _) (b := .v4 a) hb ha).mpr ⟨rfl, rfl⟩
  refine ⟨V6.make a.ip a.plen, hb, (any_eq (a := .v4 a) (b := .v6 _) ha hb).mpr ⟨rfl, rfl⟩, e2, rfl, by rw [Any.ne, e2]; rfl, ?_⟩
  intro h
  have h3 : dotted a.ip = str6 a.ip := congrArg Prod.fst h
  have h4 := colon_mem_canon (str6_canon a.ip)
  rw [← h3] at h4
  rcases dotted_chars a.ip ':' h4 with h5 | h5
  · exact absurd h5 (by decide)
  · exact absurd h5 (by decide)

example : Any.eq (.v4 (V4.make 1 32)) (.v6 (V6.make 1 32)) = true := by decide +kernel
example : (V4.make 0xc0000201 24).Regular ∧ (V6.make 0x20010db8000000000000000000000001 64).Regular :=
  ⟨.ofStr (s := "192.0.2.1/24".toList) (by decide +kernel), .make (by decide) (by decide)⟩

/-- C223: an IPv6 object is in no IPv4 network but 0.0.0.0/0, and an IPv4 object is in no IPv6 network whose number does not fit
in 32 bits. -/
theorem C223_in_partial {a : V4} {b : V6} (ha : a.Regular) (hb : b.Regular) :
    (a.contains6 b = .ok true ↔ a.plen = 0) ∧ (2 ^ 32 ≤ b.net → b.plen ≠ 0 → b.contains4 a = .ok false) := by
  constructor
  · rw [V4.contains6]
    split
    · simp [*]
    · split
      · simp; assumption
      · split
        · simp; assumption
        · simp; assumption
  · intro h h0
    have h1 := ha.wf.net_lt
    have h2 := ha.wf.plen_le
    have h3 := hb.wf.plen_le
    rw [V6.contains4, if_neg h0]
    split
    · rfl
    · obtain ⟨x, hx⟩ : ∃ x, b.numhosts = .ok x := by
        rw [V6.numhosts]
        split
        · exact ⟨_, rfl⟩
        · split
          · exact ⟨_, rfl⟩
          · split
            · exact ⟨_, rfl⟩
            · omega
      obtain ⟨y, hy⟩ : ∃ y, a.numhosts = .ok y := by
        rw [V4.numhosts]
        split
        · exact ⟨_, rfl⟩
        · split
          · exact ⟨_, rfl⟩
          · split
            · exact ⟨_, rfl⟩
            · omega
      rw [hx, hy]
      show Except.ok _ = _
      rw [V6.asDecimalNetwork_eq hb.wf, V4.asDecimalNetwork_eq ha.wf, decide_eq_false (by omega)]
      rfl

/-- C223 fails: every IPv6 object is in 0.0.0.0/0, and every IPv4 object is in `::/p` for each `p` up to its prefix length. -/
theorem C223_in_fails : (∀ b : V6, (V4.make 0 0).contains6 b = .ok true) ∧
    ∀ a : V4, a.Regular → ∀ p ≤ a.plen, (V6.make 0 p).contains4 a = .ok true := by
  refine ⟨fun b => rfl, fun a ha p hp => ?_⟩
  have h1 := ha.wf.top
  have h2 := ha.wf.plen_le
  have hb : (V6.make 0 p).Regular := .make (by decide) (by omega)
  have hnet : (V6.make 0 p).net = 0 := by
    show networkOf 128 0 p = 0
    rw [networkOf]; exact Nat.zero_and _
  have hlen : (V6.make 0 p).plen = p := rfl
  rw [V6.contains4, hlen]
  split
  · rfl
  · rw [if_neg (by omega)]
    have hx : (V6.make 0 p).numhosts = .ok (2 ^ (128 - p) - 2) := by rw [V6.numhosts, hlen, if_pos (by omega)]
    have hbig : 2 ^ 96 ≤ 2 ^ (128 - p) := Nat.pow_le_pow_right (by omega) (by omega)
    obtain ⟨y, hy, hle⟩ : ∃ y, a.numhosts = .ok y ∧ y ≤ 2 ^ (32 - a.plen) := by
      rw [V4.numhosts]
      split
      · have hpos : 0 < 2 ^ (32 - a.plen) := Nat.pow_pos (by omega)
        exact ⟨_, rfl, by omega⟩
      · split
        · rename_i h; exact ⟨_, rfl, by rw [h]; decide⟩
        · split
          · rename_i h; exact ⟨_, rfl, by rw [h]; decide⟩
          · omega
    rw [hx, hy]
    show Except.ok _ = _
    have h96 : (2 : Nat) ^ 32 + 4 ≤ 2 ^ 96 := by decide
    rw [V6.asDecimalNetwork_eq hb.wf, V4.asDecimalNetwork_eq ha.wf, hnet, decide_eq_true (by omega), decide_eq_true (by omega)]
    rfl

/-- C223 fails: asking an IPv4 network for an IPv6 object raises ValueError, unless the prefix of the object is shorter or its
network has a lower number. -/
theorem C223_raise_fails {a : V4} {b : V6} (ha : a.Regular) (hb : b.Regular) (h0 : a.plen ≠ 0) (h : a.plen ≤ b.plen)
    (hn : a.net ≤ b.net) : a.contains6 b = .error .valueError := by
  rw [V4.contains6, if_neg h0, if_neg (by omega), if_pos]
  rw [V6.asDecimalNetwork_eq hb.wf, V4.asDecimalNetwork_eq ha.wf]
  exact hn

example : (V4.make 0x0a000000 8).contains6 (V6.make 0x20010db8000000000000000000000001 64) = .error .valueError := by
  decide +kernel

/-! ## C224 -/

/-- C224: `<` among objects of both kinds compares the number of the network, then the prefix length, then the address; `>` is
its converse; nothing is less than itself, and `<` is transitive. -/
theorem C224_order {a b c : Any} (ha : a.Regular) (hb : b.Regular) (hc : c.Regular) :
    (a.lt b = true ↔ BeforeAny a b) ∧ a.gt b = b.lt a ∧ a.lt a = false ∧ (a.lt b = true → b.lt c = true → a.lt c = true) := by
  refine ⟨any_lt ha hb, ?_, ?_, ?_⟩
  · rw [Bool.eq_iff_iff, any_gt ha hb, any_lt hb ha]
  · rw [← Bool.not_eq_true, any_lt ha ha, BeforeAny]; omega
  · rw [any_lt ha hb, any_lt hb hc, any_lt ha hc, BeforeAny, BeforeAny, BeforeAny]; omega

/-- C224: two objects of which neither is less are equal. -/
theorem C224_total {a b : Any} (ha : a.Regular) (hb : b.Regular) (h1 : a.lt b = false) (h2 : b.lt a = false) :
    a.eq b = true := by
  rw [← Bool.not_eq_true, any_lt ha hb, BeforeAny] at h1
  rw [← Bool.not_eq_true, any_lt hb ha, BeforeAny] at h2
  rw [any_eq ha hb]
  omega

/-- C224: of two objects that are equal neither is less, if they are of the same kind. -/
theorem C224_eq_partial : (∀ a b : V4, a.Regular → b.Regular → Any.eq (.v4 a) (.v4 b) = true → Any.lt (.v4 a) (.v4 b) = false) ∧
    ∀ a b : V6, a.Regular → b.Regular → Any.eq (.v6 a) (.v6 b) = true → Any.lt (.v6 a) (.v6 b) = false := by
  constructor
  · intro a b ha hb h
    obtain ⟨h1, h2⟩ := (any_eq (a := .v4 a) (b := .v4 b) ha hb).mp h
    rw [← Bool.not_eq_true, any_lt (a := .v4 a) (b := .v4 b) ha hb, BeforeAny]
    change a.ip = b.ip at h1
    change a.plen = b.plen at h2
    have h3 := ha.block
    rw [h1, h2, ← hb.block] at h3
    show ¬ (a.net < b.net ∨ (a.net = b.net ∧ (a.plen < b.plen ∨ (a.plen = b.plen ∧ a.ip < b.ip))))
    omega
  · intro a b ha hb h
    obtain ⟨h1, h2⟩ := (any_eq (a := .v6 a) (b := .v6 b) ha hb).mp h
    rw [← Bool.not_eq_true, any_lt (a := .v6 a) (b := .v6 b) ha hb, BeforeAny]
    change a.ip = b.ip at h1
    change a.plen = b.plen at h2
    have h3 := ha.block
    rw [h1, h2, ← hb.block] at h3
    show ¬ (a.net < b.net ∨ (a.net = b.net ∧ (a.plen < b.plen ∨ (a.plen = b.plen ∧ a.ip < b.ip))))
    omega

/-- C224 fails: every IPv4 object whose network is not 0 is equal to an IPv6 object that is less than it. -/
theorem C224_eq_fails {a : V4} (ha : a.Regular) (h : a.net ≠ 0) :
    ∃ b : V6, b.Regular ∧ Any.eq (.v4 a) (.v6 b) = true ∧ Any.lt (.v6 b) (.v4 a) = true := by
  have h1 := ha.wf.ip_lt
  have h2 := ha.wf.plen_le
  have hb : (V6.make a.ip a.plen).Regular := .make (by omega) (by omega)
  refine ⟨V6.make a.ip a.plen, hb, (any_eq (a := .v4 a) (b := .v6 _) ha hb).mpr ⟨rfl, rfl⟩, ?_⟩
  rw [any_lt (a := .v6 _) (b := .v4 a) hb ha, BeforeAny]
  left
  show (V6.make a.ip a.plen).net < a.net
  have hbig : 2 ^ 96 ≤ 2 ^ (128 - a.plen) := Nat.pow_le_pow_right (by omega) (by omega)
  have h3 := hb.block
  change (V6.make a.ip a.plen).net = a.ip / 2 ^ (128 - a.plen) * 2 ^ (128 - a.plen) at h3
  rw [Nat.div_eq_of_lt (by omega), Nat.zero_mul] at h3
  omega

/-- C224: sorting a list of both kinds gives the same objects, none after a greater one. -/
theorem C224_sorted {l : List Any} (hl : ∀ a ∈ l, a.Regular) :
    (sortedAny l).Perm l ∧ (sortedAny l).Pairwise (fun a b => ¬ BeforeAny b a) := by
  refine ⟨sortBy_perm _ _, ?_⟩
  have := sortBy_sorted_on (le := fun a b : Any => !(b.lt a)) Any.Regular (fun a b ha hb => ?_) (fun a b c ha hb hc => ?_) l hl
  · refine List.Pairwise.imp_of_mem (fun {a b} h1 h2 h => ?_) this
    rw [← any_lt (hl _ (mem_sortBy.mp h2)) (hl _ (mem_sortBy.mp h1))]
    simpa using h
  · simp only [Bool.not_eq_true', ← Bool.not_eq_true, any_lt ha hb, any_lt hb ha, BeforeAny]; omega
  · simp only [Bool.not_eq_true', ← Bool.not_eq_true, any_lt hb ha, any_lt hc hb, any_lt hc ha, BeforeAny]; omega

example : (sortedAny [.v6 (V6.make 1 128), .v4 (V4.make 0x0a000001 8), .v4 (V4.make 0 0)]).map Any.plen = [0, 128, 8] := by
  decide +kernel

/-! ## C225 -/

/-- ccp_util.py:1917-1935 `__eq__` with empty objects (`IPv6Obj(None)`, `none`): the attributes of an empty object raise
AttributeError, so `getattr` gives its default. -/
def V6.eqE : Option V6 → Option V6 → Bool
  | none, none => true
  | none, some _ => false
  | some _, none => false
  | some a, some b => a.eq b

/-- ccp_util.py:2050-2066 `val in self` with empty objects. -/
def V6.containsE : Option V6 → Option V6 → Except Err Bool
  | none, _ => .error .valueError
  | some a, none => if a.plen = 0 then .ok true else .error .valueError
  | some a, some b => a.contains b

/-- ccp_util.py:2069-2071 `__hash__`: the prefix length of an empty object raises AttributeError. -/
def V6.hashE : Option V6 → Except Err (Str × Str)
  | none => .error .attributeError
  | some a => .ok a.hashKey

/-- C225: an empty IPv6 object equals the empty ones and no other. -/
theorem C225_eq_partial (a b : Option V6) (h : a = none ∨ b = none) : V6.eqE a b = true ↔ a = b := by
  rcases h with rfl | rfl
  · cases b <;> simp [V6.eqE]
  · cases a <;> simp [V6.eqE]

/-- C225 fails: an empty IPv6 object has no hash; asking it for anything raises ValueError, and so does asking any network but
those of prefix length 0 for it, which contain it. For IPv4 the answers are True for two empty objects and False otherwise. -/
theorem C225_fails : V6.hashE none = .error .attributeError ∧ (∀ b, V6.containsE none b = .error .valueError) ∧
    (∀ a : V6, V6.containsE (some a) none = if a.plen = 0 then .ok true else .error .valueError) ∧
    V4.contains none none = true ∧ ∀ a : V4, V4.contains (some a) none = false ∧ V4.contains none (some a) = false :=
  ⟨rfl, fun b => by cases b <;> rfl, fun _ => rfl, rfl, fun _ => ⟨rfl, rfl⟩⟩

end IP

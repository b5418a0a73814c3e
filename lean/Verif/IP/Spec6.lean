import Verif.IP.Spec

/-!
# Specification vocabulary for the texts of IPv6 addresses

RFC 4291, section 2.2 (forms 1, 2 and 3) and RFC 5952, section 4, without reference to the code.
-/

namespace IP

open Py

/-- The hexadecimal digits and their values. -/
def hexDigits : List (Char × Nat) :=
  [('0', 0), ('1', 1), ('2', 2), ('3', 3), ('4', 4), ('5', 5), ('6', 6), ('7', 7), ('8', 8), ('9', 9),
   ('a', 10), ('b', 11), ('c', 12), ('d', 13), ('e', 14), ('f', 15),
   ('A', 10), ('B', 11), ('C', 12), ('D', 13), ('E', 14), ('F', 15)]

/-- The digits of one group, with their values. -/
abbrev Group := List (Char × Nat)

/-- One to four hexadecimal digits. -/
def Group.Valid (g : Group) : Prop := g ≠ [] ∧ g.length ≤ 4 ∧ ∀ d ∈ g, d ∈ hexDigits

instance (g : Group) : Decidable g.Valid := by unfold Group.Valid; infer_instance

def Group.text (g : Group) : Str := g.map (·.1)
def Group.val (g : Group) : Nat := g.foldl (fun a d => 16 * a + d.2) 0

/-- The value of some groups in a row. -/
def valOf (gs : List Group) : Nat := gs.foldl (fun a g => 65536 * a + g.val) 0

/-- Groups with colons between them. -/
def colons (gs : List Group) : Str := join [':'] (gs.map Group.text)

/-- `s` is a text of the address `n`: eight groups, or fewer around one `::` that stands for the
missing groups, which are zero. -/
inductive Text6 : Str → Nat → Prop where
  | full {gs : List Group} : gs.length = 8 → (∀ g ∈ gs, g.Valid) → Text6 (colons gs) (valOf gs)
  | short {hi lo : List Group} : hi.length + lo.length ≤ 7 → (∀ g ∈ hi, g.Valid) → (∀ g ∈ lo, g.Valid) →
      Text6 (colons hi ++ "::".toList ++ colons lo) (valOf hi * 65536 ^ (8 - hi.length) + valOf lo)

/-- `s` is the dotted text of the 32-bit number `q`. -/
def Quad (s : Str) (q : Nat) : Prop :=
  ∃ a b c d, a ≤ 255 ∧ b ≤ 255 ∧ c ≤ 255 ∧ d ≤ 255 ∧ s = join ['.'] [natStr a, natStr b, natStr c, natStr d] ∧
    q = ((a * 256 + b) * 256 + c) * 256 + d

/-- Groups and a dotted text with colons between them. -/
def colonsQuad (gs : List Group) (s : Str) : Str := join [':'] (gs.map Group.text ++ [s])

/-- `s` is a text of the address `n` whose last two groups are written as a dotted IPv4 address. -/
inductive Quad6 : Str → Nat → Prop where
  | full {gs : List Group} {s : Str} {q : Nat} : gs.length = 6 → (∀ g ∈ gs, g.Valid) → Quad s q →
      Quad6 (colonsQuad gs s) (valOf gs * 2 ^ 32 + q)
  | short {hi lo : List Group} {s : Str} {q : Nat} : hi.length + lo.length ≤ 5 → (∀ g ∈ hi, g.Valid) → (∀ g ∈ lo, g.Valid) →
      Quad s q →
      Quad6 (colons hi ++ "::".toList ++ colonsQuad lo s) (valOf hi * 65536 ^ (8 - hi.length) + (valOf lo * 2 ^ 32 + q))

/-- Group number `i` (0 to 7 from the left) of the address `n`. -/
def groupOf (n i : Nat) : Nat := n / 65536 ^ (7 - i) % 65536

/-- The groups from number `i` on, `k` of them. -/
def groupsOf (n i k : Nat) : List Nat := (List.range k).map (fun j => groupOf n (i + j))

/-- `g` writes `v` with lower-case digits and no needless zero. -/
def Group.Plain (g : Group) (v : Nat) : Prop :=
  g.Valid ∧ g.val = v ∧ (∀ d ∈ g, d.1.toNat < 65 ∨ 70 < d.1.toNat) ∧ (g = [('0', 0)] ∨ ∀ d ∈ g.head?, d.1 ≠ '0')

/-- `gs` writes the values `vs`, each plainly. -/
def Plainly (gs : List Group) (vs : List Nat) : Prop :=
  gs.map Group.val = vs ∧ ∀ g ∈ gs, g.Plain g.val

/-- The groups `i` to `i + k - 1` of `n` are all zero. -/
def ZeroRun (n i k : Nat) : Prop := i + k ≤ 8 ∧ ∀ j, i ≤ j → j < i + k → groupOf n j = 0

/-- The text of `n` that RFC 5952 recommends: the longest run of two or more zero groups, the first
one if there are several, is written `::`. -/
inductive Canon6 (n : Nat) : Str → Prop where
  | full {gs : List Group} : (∀ i k, ZeroRun n i k → k ≤ 1) → Plainly gs (groupsOf n 0 8) → Canon6 n (colons gs)
  | short {i k : Nat} {hi lo : List Group} : ZeroRun n i k → 2 ≤ k →
      (∀ i' k', ZeroRun n i' k' → k' < k ∨ (k' = k ∧ i ≤ i')) →
      Plainly hi (groupsOf n 0 i) → Plainly lo (groupsOf n (i + k) (8 - (i + k))) →
      Canon6 n (colons hi ++ "::".toList ++ colons lo)

/-! ## Texts of IPv4 masks -/

/-- `m` is a text of the mask length `p`: digits, a dotted netmask, or a dotted hostmask (the texts
`0.0.0.0` and `255.255.255.255` are netmasks). -/
inductive Mask4 : Str → Nat → Prop where
  | digits {m : Str} : m ≠ [] → (∀ c ∈ m, isDigit c = true) → natVal m ≤ 32 → Mask4 m (natVal m)
  | net {m : Str} {p : Nat} : p ≤ 32 → Quad m (2 ^ 32 - 2 ^ (32 - p)) → Mask4 m p
  | host {m : Str} {p : Nat} : 0 < p → p < 32 → Quad m (2 ^ (32 - p) - 1) → Mask4 m p

/-- The IPv4 object with address `n` and prefix length `p`. -/
def obj4 (n p : Nat) : V4 := ⟨n, p, n / 2 ^ (32 - p) * 2 ^ (32 - p)⟩

/-- `s` is a dotted quad, alone or with a slash and a mask. -/
def Text4 (s : Str) (n p : Nat) : Prop :=
  ∃ a, Quad a n ∧ ((s = a ∧ p = 32) ∨ ∃ m, Mask4 m p ∧ s = a ++ "/".toList ++ m)

/-- `n` in hexadecimal, with `0x` in front and without a zero in front of other digits. -/
def HexOf (n : Nat) (s : Str) : Prop :=
  ∃ ds : Str, s = "0x".toList ++ ds ∧ ds ≠ [] ∧ valBase 16 ds = n ∧ (∀ c ∈ ds, c ∈ "0123456789abcdef".toList) ∧
    (ds = "0".toList ∨ ds.head? ≠ some '0')

/-- The IPv6 object with address `n` and prefix length `p`. -/
def obj6 (n p : Nat) : V6 := ⟨n, p, n / 2 ^ (128 - p) * 2 ^ (128 - p)⟩

/-- `t` is a dotted quad, alone, with a slash and a mask, or with blanks and a dotted mask. -/
def Text4Obj (t : Str) (n p : Nat) : Prop :=
  Text4 t n p ∨ ∃ a w m, Quad a n ∧ w ≠ [] ∧ (∀ c ∈ w, isSpace c = true) ∧ '.' ∈ m ∧ Mask4 m p ∧ t = a ++ w ++ m

/-- `s` is a text of an IPv6 address (C87, C89), alone or with a slash and a mask length. -/
def TextNet6 (s : Str) (n p : Nat) : Prop :=
  ∃ a, (Text6 a n ∨ Quad6 a n) ∧ ((s = a ∧ p = 128) ∨
    ∃ m, m ≠ [] ∧ (∀ c ∈ m, isDigit c = true) ∧ natVal m = p ∧ p ≤ 128 ∧ s = a ++ "/".toList ++ m)

end IP

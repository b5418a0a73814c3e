import Verif.IP.Collapse
import Verif.IP.Invariant

/-!
# Vocabulary for `collapse_addresses`

What an address block is, which addresses it has, and which network an element of
the argument stands for.  Nothing here mentions the algorithm.
-/

namespace IP

/-- A network of `W` address bits: the prefix length is at most `W` and the network
address has no host bits. -/
def Block (W : Nat) (n : Net) : Prop :=
  n.plen ≤ W ∧ n.net < 2 ^ W ∧ 2 ^ (W - n.plen) ∣ n.net

/-- The addresses of a network: `2 ^ (W - plen)` of them from the network address on. -/
def Has (W : Nat) (n : Net) (a : Nat) : Prop := n.net ≤ a ∧ a < n.net + 2 ^ (W - n.plen)

/-- Every address of `n` is one of `m`. -/
def Within (W : Nat) (n m : Net) : Prop := ∀ a, Has W n a → Has W m a

/-- Some network of the list has the address. -/
def Covered (W : Nat) (l : List Net) (a : Nat) : Prop := ∃ n ∈ l, Has W n a

/-- The network an element of the argument stands for, with its version: the network
of an `IPv4Obj` / `IPv6Obj` that a program can build, or a standard-library
network (which always is a block).  Empty objects and other values stand for none. -/
def Stands (v6 : Bool) : Item → Net → Prop
  | .v4 (some o), n => v6 = false ∧ o.Reachable ∧ n = ⟨o.net, o.plen⟩
  | .v6 (some o), n => v6 = true ∧ o.Regular ∧ n = ⟨o.net, o.plen⟩
  | .net4 m, n => v6 = false ∧ Block 32 m ∧ n = m
  | .net6 m, n => v6 = true ∧ Block 128 m ∧ n = m
  | _, _ => False

/-- An address of one of the networks of the argument. -/
def Given (v6 : Bool) (items : List Item) (a : Nat) : Prop :=
  ∃ it ∈ items, ∃ n, Stands v6 it n ∧ Has (width v6) n a

/-- A result without its version. -/
def ANet.toNet (n : ANet) : Net := ⟨n.net, n.plen⟩

end IP

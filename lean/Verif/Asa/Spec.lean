import Verif.Asa.Model
import Verif.Cisco.Spec

/-! # Specification of the ASA attributes, in terms of the words of the lines

`Py.splitWs t` is Python's `t.split()`. -/

namespace Asa.Spec

open Py Conf Cisco.Spec

/-- The line `name a n`: the address `a` has the name `n`. -/
def NameLine (t a n : Str) : Prop := DottedQuad a ∧ ∃ more, splitWs t = wd ["name"] ++ a :: n :: more

/-- The line `object-group network g`. -/
def GroupLine (t g : Str) : Prop := Next ["object-group", "network"] t g

/-- A line of the access list `g`. -/
def AclLine (t g : Str) : Prop := Next ["access-list"] t g

/-- `i` is the last line of the configuration that satisfies `R`. -/
def Last (P : Parsed) (R : Nat → Prop) (i : Nat) : Prop :=
  i ∈ P.list ∧ R i ∧ ∀ j ∈ P.list, R j → (P.h j).linenum ≤ (P.h i).linenum

/-! ## The classes of the lines -/

/-- The line begins with `w`, in small or capital letters. -/
def Begins (w : String) (l : Str) : Prop := ∃ v rest, l = v ++ rest ∧ v.map Cisco.lowerChar = w.toList

/-- The line is `interface`, blanks and a name of at least two characters. -/
def IntfLine (l : Str) : Prop :=
  ∃ sp x y rest, l = "interface".toList ++ (sp ++ x :: y :: rest) ∧ sp ≠ [] ∧ (∀ c ∈ sp, isSpace c = true) ∧
    isSpace x = false ∧ y ≠ '\n'

/-- The lines that get an object of class `c`. -/
def Of (l : Str) : Cls → Prop
  | .intf => IntfLine l
  | .name => Begins "name " l
  | .objNetwork => Begins "object network " l
  | .objService => Begins "object service " l
  | .objGroupNetwork => Begins "object-group network " l
  | .objGroupService => Begins "object-group service " l
  | .intfGlobal => "mtu".toList <+: l
  | .hostname => "hostname".toList <+: l
  | .acl => Begins "access-list " l
  | .cfg => ¬ (IntfLine l ∨ Begins "name " l ∨ Begins "object network " l ∨ Begins "object service " l ∨
      Begins "object-group network " l ∨ Begins "object-group service " l ∨ "mtu".toList <+: l ∨ "hostname".toList <+: l ∨
      Begins "access-list " l)

/-- `name`, blanks, four numbers with dots, one blank and the name. -/
def GoodName (t : Str) : Prop :=
  ∃ sp a b n rest, t = "name".toList ++ (sp ++ (a ++ b :: n :: rest)) ∧ sp ≠ [] ∧ (∀ c ∈ sp, isSpace c = true) ∧ DottedQuad a ∧
    isSpace b = true ∧ isSpace n = false

/-! ## Network object groups -/

/-- The line `network-object host h`. -/
def HostLine (t h : Str) : Prop := Next ["network-object", "host"] t h

/-- The line `network-object n m` with the mask `m`.  (Something other than a digit may follow the
mask.) -/
def NetLine (t n m : Str) : Prop :=
  n ≠ "host".toList ∧ DottedQuad m ∧
    ∃ u more, splitWs t = wd ["network-object"] ++ n :: (m ++ u) :: more ∧ ∀ x, u.head? = some x → isDigit x = false

/-- The mask of a single host. -/
def allOnes : Str := "255.255.255.255".toList

/-- The line names a single host. -/
def Host (t h : Str) : Prop := HostLine t h ∨ NetLine t h allOnes

/-- The line `group-object g`. -/
def MemberLine (t g : Str) : Prop := Next ["group-object"] t g

/-- The address that `h` stands for: the one on the last `name` line for `h`, or `h` itself if
there is no such line. -/
def Means (P : Parsed) (h a : Str) : Prop :=
  (∃ i, Last P (fun i => ∃ a, NameLine (P.h i).text a h) i ∧ NameLine (P.h i).text a h) ∨
  ((∀ i ∈ P.list, ∀ a, ¬ NameLine (P.h i).text a h) ∧ a = h)

/-- The first words of the line of a network group, with one blank behind each. -/
def groupWords : Str := "object-group network ".toList

/-- The lines `cs` of the group `g`, one after the other, stand for the networks `l`. -/
inductive Expands (P : Parsed) : Str → List Nat → List Str → Prop
  | nil (g : Str) : Expands P g [] []
  | host {g h a : Str} {c : Nat} {cs : List Nat} {l : List Str} : Host (P.h c).text h → Means P h a →
      Expands P g cs l → Expands P g (c :: cs) (a :: l)
  | net {g n m a : Str} {c : Nat} {cs : List Nat} {l : List Str} : NetLine (P.h c).text n m → m ≠ allOnes → Means P n a →
      Expands P g cs l → Expands P g (c :: cs) ((a ++ '/' :: m) :: l)
  | group {g g' : Str} {c j : Nat} {cs : List Nat} {l' l : List Str} : MemberLine (P.h c).text g' → g' ≠ g →
      Last P (fun i => GroupLine (P.h i).text g') j → groupWords <+: (P.h j).text →
      Expands P g' (P.h j).children l' → Expands P g cs l → Expands P g (c :: cs) (l' ++ l)
  | note {g : Str} {c : Nat} {cs : List Nat} {l : List Str} : (∀ h, ¬ HostLine (P.h c).text h) →
      (∀ n m, ¬ NetLine (P.h c).text n m) → (∀ g', ¬ MemberLine (P.h c).text g') →
      (∃ x y, (P.h c).text = x ++ "description ".toList ++ y) → Expands P g cs l → Expands P g (c :: cs) l

/-- The group of line `i` has the group of line `j` as a member, or as a member of a member, ... -/
inductive Within (P : Parsed) : Nat → Nat → Prop
  | one {i j c : Nat} {g : Str} : c ∈ (P.h i).children → MemberLine (P.h c).text g →
      Last P (fun i => GroupLine (P.h i).text g) j → Within P i j
  | trans {i j k : Nat} : Within P i j → Within P j k → Within P i k

/-! ## Service object groups -/

/-- One or more blanks. -/
def Gap (b : Str) : Prop := b ≠ [] ∧ ∀ c ∈ b, isSpace c = true

/-- The line `object-group service g ty`; `ty` is empty if nothing follows the name. -/
def ServiceLine (t g ty : Str) : Prop :=
  ∃ a b c, t = "object-group".toList ++ (a ++ ("service".toList ++ (b ++ (g ++ (c ++ ty))))) ∧ Gap a ∧ Gap b ∧
    (g ≠ [] ∧ ∀ c ∈ g, isSpace c = false) ∧ ((c = [] ∧ ty = []) ∨ (Gap c ∧ ty ≠ [] ∧ strip ty = ty)) ∧ '\n' ∉ ty

/-- The line `service-object pr d x`, perhaps with more words. -/
def SvcLine (t pr x : Str) : Prop := ∃ d more, splitWs t = "service-object".toList :: pr :: d :: x :: more

/-- The line `port-object op v`, where `v` is all that follows the second word. -/
def PortLine (t op v : Str) : Prop :=
  ∃ a b c, t = a ++ ("port-object".toList ++ (b ++ (op ++ (c ++ v)))) ∧ (∀ x ∈ a, isSpace x = true) ∧ Gap b ∧ Gap c ∧
    v ≠ [] ∧ ∀ x, v.head? = some x → isSpace x = false

/-- `o` is `L4Object(protocol=pr, port_spec=x, syntax="asa")`. -/
def Made (pr x : Str) (o : Asa.L4) : Prop := o.1 = pr ∧ Misc.l4object pr x "asa".toList = .ok o.2

/-- The objects of a protocol: one of each for `tcp-udp`. -/
def Objects (pr x : Str) (l : List Asa.L4) : Prop :=
  if pr = "tcp-udp".toList then ∃ o o', Made "tcp".toList x o ∧ Made "udp".toList x o' ∧ l = [o, o'] else ∃ o, Made pr x o ∧ l = [o]

/-- The protocols of `service-object` lines. -/
def protocols : List Str := ["tcp".toList, "udp".toList, "tcp-udp".toList]

/-- The operators of `port-object` lines. -/
def operators : List Str := ["eq".toList, "range".toList]

/-- What a line `t` adds to the ports of a group of type `ty`. -/
inductive Gives (ty : Str) : Str → List Asa.L4 → Prop
  | service {t pr x : Str} {l : List Asa.L4} : pr ∈ protocols → SvcLine t pr x → Objects pr x l → Gives ty t l
  | port {t op v : Str} {l : List Asa.L4} : op ∈ operators → PortLine t op v → 2 ≤ v.length → Objects ty (op ++ ' ' :: v) l →
      Gives ty t l
  | note {t : Str} : (∀ pr ∈ protocols, ∀ x, ¬ SvcLine t pr x) → (∀ op ∈ operators, ∀ v, PortLine t op v → v.length = 1) →
      (∀ g, ¬ MemberLine t g) → "description ".toList <:+: t → Gives ty t []

/-- The lines `ts`, one after the other, give the ports `l`. -/
inductive AllGive (ty : Str) : List Str → List Asa.L4 → Prop
  | nil : AllGive ty [] []
  | cons {t : Str} {ts : List Str} {l l' : List Asa.L4} : Gives ty t l → AllGive ty ts l' → AllGive ty (t :: ts) (l ++ l')

/-- The line says: the ports from `m` to `n`, as `port-object eq n` or `port-object range m n`. -/
def NumLine (t : Str) (m n : Nat) : Prop :=
  (m = n ∧ PortLine t "eq".toList (natStr n)) ∨ PortLine t "range".toList (natStr m ++ ' ' :: natStr n)

/-- The protocols of a group of type `ty`. -/
def protosOf (ty : Str) : List Str := if ty = "tcp-udp".toList then ["tcp".toList, "udp".toList] else [ty]

end Asa.Spec

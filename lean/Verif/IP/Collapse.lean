import Verif.IP.Views

/-!
# Model of `collapse_addresses` (ciscoconfparse/ccp_util.py:839-866)

The function turns its arguments into standard-library networks and calls
`ipaddress.collapse_addresses`.  The algorithm of the standard library
(`ipaddress._find_address_range`, `summarize_address_range`,
`_collapse_addresses_internal`, `collapse_addresses`, Python 3.11) is modelled
here step by step as well, so that nothing about its result is assumed.
-/

namespace IP

open Py

/-- An `IPv4Network` (`v6 = false`) or `IPv6Network` (`v6 = true`): network
address and prefix length. -/
structure Net where
  net : Nat
  plen : Nat
  deriving DecidableEq, Repr

/-- One element of the argument of ccp_util.py:839 `collapse_addresses`: an
`IPv4Obj` (`none` is the empty object), an `IPv6Obj`, a standard-library network
or anything else. -/
inductive Item where
  | v4 (o : Option V4)
  | v6 (o : Option V6)
  | net4 (n : Net)
  | net6 (n : Net)
  | other
  deriving DecidableEq, Repr

/-- A standard-library network with its IP version. -/
structure ANet where
  v6 : Bool
  net : Nat
  plen : Nat
  deriving DecidableEq, Repr

/-- `_max_prefixlen` of a version. -/
def width (v6 : Bool) : Nat := if v6 then 128 else 32

/-- ccp_util.py:853-863 `ip_net`; `.network` (1544-1550, 2227-2230) of an empty
object reads an attribute of `None`. -/
def ipNet : Item → Except Err ANet
  | .v4 (some o) => .ok ⟨false, networkOf 32 o.net o.plen, o.plen⟩
  | .v4 none => .error .attributeError
  | .net4 n => .ok ⟨false, n.net, n.plen⟩
  | .v6 (some o) => .ok ⟨true, o.net, o.plen⟩
  | .v6 none => .error .attributeError
  | .net6 n => .ok ⟨true, n.net, n.plen⟩
  | .other => .error .valueError

/-- `[ip_net(ii) for ii in network_list]` (ccp_util.py:865): the first error stops it. -/
def ipNets : List Item → Except Err (List ANet)
  | [] => .ok []
  | x :: xs => do
    let n ← ipNet x
    let r ← ipNets xs
    .ok (n :: r)

/-- `l and l[-1]._version != ip._version`. -/
def clash (l : List (Bool × Net)) (v6 : Bool) : Bool :=
  match l.getLast? with
  | none => false
  | some x => x.1 != v6

/-- stdlib `collapse_addresses`, the splitting loop: host networks go to `ips`,
the others to `nets`; a version that differs from the last one of the same list
raises `TypeError`. -/
def splitNets : List ANet → List (Bool × Net) → List (Bool × Net) →
    Except Err (List (Bool × Net) × List (Bool × Net))
  | [], ips, nets => .ok (ips, nets)
  | n :: l, ips, nets =>
    if n.plen = width n.v6 then
      if clash ips n.v6 then .error .typeError
      else splitNets l (ips ++ [(n.v6, ⟨n.net, n.plen⟩)]) nets
    else if clash nets n.v6 then .error .typeError
    else splitNets l ips (nets ++ [(n.v6, ⟨n.net, n.plen⟩)])

/-- stdlib `_find_address_range` on the addresses after the first one. -/
def addrRanges (first last : Nat) : List Nat → List (Nat × Nat)
  | [] => [(first, last)]
  | ip :: l =>
    if ip ≠ last + 1 then (first, last) :: addrRanges ip ip l
    else addrRanges first ip l

/-- `int.bit_length()`. -/
def bitLength (n : Nat) : Nat := if n = 0 then 0 else Nat.log2 n + 1

/-- stdlib `summarize_address_range`, the `while` loop.  Every round moves `first`
up by at least one, so `last + 1 - first` rounds are enough (the fuel). -/
def summarize (W : Nat) : Nat → Nat → Nat → List Net
  | 0, _, _ => []
  | fuel + 1, first, last =>
    if first ≤ last then
      let nbits := min (rightZeros W first) (bitLength (last - first + 1) - 1)
      let first' := first + 1 <<< nbits
      ⟨first, W - nbits⟩ ::
        (if first' - 1 = 2 ^ W - 1 then [] else summarize W fuel first' last)
    else []

/-- stdlib `_BaseNetwork.supernet()`. -/
def superOf (W : Nat) (n : Net) : Net :=
  if n.plen = 0 then n else ⟨n.net &&& (maskOf W n.plen <<< 1), n.plen - 1⟩

/-- `subnets.get(key)`. -/
def dictGet (d : List (Net × Net)) (k : Net) : Option Net :=
  (d.find? (fun e => e.1 = k)).map (·.2)

/-- stdlib `_collapse_addresses_internal`, the `while to_merge` loop.  `stack` is
`to_merge` with its end first.  Every round lowers
`2 * len(to_merge) + len(subnets)`, which gives the fuel. -/
def mergeLoop (W : Nat) : Nat → List Net → List (Net × Net) → List (Net × Net)
  | 0, _, d => d
  | _ + 1, [], d => d
  | fuel + 1, n :: stack, d =>
    let s := superOf W n
    match dictGet d s with
    | none => mergeLoop W fuel stack (d ++ [(s, n)])
    | some e =>
      if e ≠ n then mergeLoop W fuel (s :: stack) (d.filter (fun x => x.1 ≠ s))
      else mergeLoop W fuel stack d

/-- stdlib `_BaseNetwork.__lt__` read as the order `sorted` uses: network address,
then netmask. -/
def netLe (W : Nat) (a b : Net) : Bool :=
  if a.net ≠ b.net then decide (a.net < b.net)
  else decide (maskOf W a.plen ≤ maskOf W b.plen)

/-- stdlib `_collapse_addresses_internal`, the final loop. -/
def dropSubsumed (W : Nat) : Option Net → List Net → List Net
  | _, [] => []
  | none, n :: l => n :: dropSubsumed W (some n) l
  | some p, n :: l =>
    if lastOf W p.net p.plen ≥ lastOf W n.net n.plen then dropSubsumed W (some p) l
    else n :: dropSubsumed W (some n) l

/-- stdlib `_collapse_addresses_internal`, as a list. -/
def collapseNets (W : Nat) (l : List Net) : List Net :=
  let d := mergeLoop W (2 * l.length) l.reverse []
  dropSubsumed W none (sortBy (netLe W) (d.map (·.2)))

/-- stdlib `collapse_addresses`: the ranges of the sorted host addresses, summarised. -/
def summaries (W : Nat) : List Nat → List Net
  | [] => []
  | a :: as => (addrRanges a a as).flatMap (fun r => summarize W (r.2 + 1 - r.1) r.1 r.2)

/-- stdlib `collapse_addresses` after the splitting loop: `sorted(set(ips))`,
ranges, summaries. -/
def collapseSplit (W : Nat) (ips nets : List Net) : List Net :=
  let as := sortBy (fun a b => decide (a ≤ b)) (dedupBy (fun a b => decide (a = b)) (ips.map (·.net)))
  collapseNets W (summaries W as ++ nets)

/-- stdlib `collapse_addresses` after the splitting loop, consumed as a list.  When
the host networks are all of one version and the other networks all of the other
one, no check of the splitting loop fires and `sorted` raises `TypeError` in the
generator because it has to compare two networks of different versions. -/
def collapseParts (ips nets : List (Bool × Net)) : Except Err (List ANet) :=
  match (ips ++ nets).head? with
  | none => .ok []
  | some v =>
    if (ips ++ nets).any (fun x => x.1 != v.1) then .error .typeError
    else
      .ok ((collapseSplit (width v.1) (ips.map (·.2)) (nets.map (·.2))).map
        (fun n => ⟨v.1, n.net, n.plen⟩))

/-- ccp_util.py:839-866 `list(collapse_addresses(arg))`; `none` is an argument that
is not a `Sequence`.  The function returns a generator; it is consumed here. -/
def collapse : Option (List Item) → Except Err (List ANet)
  | none => .error .valueError
  | some items => do
    let l ← ipNets items
    let r ← splitNets l [] []
    collapseParts r.1 r.2

end IP

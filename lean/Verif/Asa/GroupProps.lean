import Verif.Asa.GroupLemmas
import Verif.Asa.ClassProps

/-! # C113: the networks of an object group -/

namespace Asa

open Py Conf Query Re Cisco

variable {o : Opts} {lines : List Str} {cs : List Cls} {P : Parsed}

/-! ## The line of a group -/

theorem short_words : ∀ k < 21, (splitWs (Spec.groupWords.take k)).length < 3 := by decide +kernel

theorem lower_blank {y : Char} (h : lowerChar y = ' ') : y = ' ' := by
  have key : ∀ n < 91, 65 ≤ n → Char.ofNat (n + 32) ≠ ' ' := by decide
  rw [lowerChar] at h
  split at h
  · rename_i hr
    exact absurd h (key _ (by omega) hr.1)
  · exact h

theorem begins_words {l g : Str} (hb : Spec.Begins "object-group network " l) (hg : Spec.GroupLine (rstrip l) g) :
    Spec.groupWords <+: rstrip l := by
  obtain ⟨v, rest, e, hv⟩ := hb
  obtain ⟨more, hg⟩ := hg
  have hl : splitWs l = Cisco.Spec.wd ["object-group", "network"] ++ g :: more := by rw [← hg, splitWs_rstrip]
  -- `v` is two words with a blank behind each
  have hv' : v.map lowerChar = "object-group".toList ++ ([' '] ++ ("network".toList ++ [' '])) := hv
  obtain ⟨a, v1, rfl, ha, hv1⟩ := List.map_eq_append_iff.mp hv'
  obtain ⟨b1, v2, rfl, hb1, hv2⟩ := List.map_eq_append_iff.mp hv1
  obtain ⟨b, b2, rfl, hb', hb2⟩ := List.map_eq_append_iff.mp hv2
  have one : ∀ x : Str, x.map lowerChar = [' '] → x = [' '] := by
    intro x hx
    have hlen : x.length = 1 := by rw [← List.length_map (f := lowerChar), hx]; rfl
    obtain ⟨y, rfl⟩ := List.length_eq_one_iff.mp hlen
    rw [List.map_singleton] at hx
    rw [lower_blank (List.cons.inj hx).1]
  have hb1' := one _ hb1
  have hb2' := one _ hb2
  subst hb1' hb2'
  have word : ∀ x w : Str, x.map lowerChar = w → IsWord w → IsWord x := by
    rintro x w rfl ⟨h1, h2⟩
    refine ⟨fun e => h1 (by rw [e]; rfl), fun c hc => ?_⟩
    rw [← lower_space]
    exact h2 _ (List.mem_map_of_mem hc)
  have ha' := word _ _ ha (by decide)
  have hb'' := word _ _ hb' (by decide)
  have hs : splitWs l = a :: b :: splitWs rest := by
    rw [e, show a ++ ([' '] ++ (b ++ [' '])) ++ rest = a ++ ' ' :: (b ++ ' ' :: rest) by simp,
      splitWs_word_space ha' rfl, splitWs_word_space hb'' rfl]
  rw [hl] at hs
  have hs1 : "object-group".toList = a := (List.cons.inj hs).1
  have hs2 : "network".toList = b := (List.cons.inj (List.cons.inj hs).2).1
  subst hs1 hs2
  have hpl : Spec.groupWords <+: l := ⟨rest, by rw [e]; rfl⟩
  rcases Nat.lt_or_ge (rstrip l).length 21 with hlt | hge
  · exfalso
    have hp : rstrip l <+: Spec.groupWords := List.prefix_of_prefix_length_le (rstrip_prefix l) hpl (by
      have : Spec.groupWords.length = 21 := by decide
      omega)
    have h3 := short_words _ hlt
    rw [← List.prefix_iff_eq_take.mp hp, hg] at h3
    simp [Cisco.Spec.wd] at h3
    omega
  · exact List.prefix_of_prefix_length_le hpl (rstrip_prefix l) hge

theorem words_begin {l : Str} (h : Spec.groupWords <+: rstrip l) : Spec.Begins "object-group network " l :=
  begins_of_prefix (by decide) (h.trans (rstrip_prefix l))

theorem class_group (h : parseFactory o lines = .ok (cs, P)) {i : Nat} (hi : i ∈ P.list) {g : Str}
    (hg : Spec.GroupLine (P.h i).text g) :
    cs.getD i .cfg = .objGroupNetwork ↔ Spec.groupWords <+: (P.h i).text := by
  obtain ⟨l, c, h1, h2, h3, h4⟩ := C111_parse h hi
  rw [List.getD_eq_getElem?_getD, h3, Option.getD_some]
  rw [h2] at hg ⊢
  constructor
  · rintro rfl
    exact begins_words h4 hg
  · intro hw
    exact of_unique h4 (words_begin hw)

/-- The expression for the name of a group. -/
def nameGP : Prog := words (Cisco.Spec.wd ["object-group", "network"]) (.grp 1 (.plus .nonspace .done) .done)

theorem is_nameG : Is "^object-group\\s+network\\s+(\\S+)" nameGP 1 [] := by decide +kernel

theorem groupName_eq {t g : Str} (hp : Spec.groupWords <+: t) (hg : Spec.GroupLine t g) : groupName t = .ok g := by
  have ht : lstrip t = t := by
    obtain ⟨r, rfl⟩ := hp
    rfl
  obtain ⟨more, hg⟩ := hg
  have hd : nameGP.det t [] = some ((skip 2 t).dropWhile nsp, [(1, g)]) := by
    refine (det_words (words_of' (by decide)) _ (fun _ => rfl) ht [] _).mpr ⟨⟨_, hg.symm⟩, ?_⟩
    refine (det_word (lstrip_skip _ ht) 1 .done [] _).mpr ⟨g, more, ?_, rfl⟩
    rw [splitWs_skip _ ht, hg]
    rfl
  exact typed_det is_nameG (by decide) (by decide) hd rfl

/-! ## The lines of a group -/

theorem net_unique {t n m n' m' : Str} (h : Spec.NetLine t n m) (h' : Spec.NetLine t n' m') : n = n' ∧ m = m' := by
  obtain ⟨q, h1, h2⟩ := (netP_det t).2 n m h.2
  obtain ⟨q', h1', h2'⟩ := (netP_det t).2 n' m' h'.2
  rw [h1] at h1'
  cases h1'
  rw [h2] at h2'
  simp only [List.cons.injEq, Prod.mk.injEq, true_and, and_true] at h2'
  exact ⟨h2'.2, h2'.1⟩

theorem host_not_net {t h n m : Str} (h1 : Spec.HostLine t h) (h2 : Spec.NetLine t n m) : False := by
  obtain ⟨more, h1⟩ := h1
  obtain ⟨hn, _, u, more', h2, _⟩ := h2
  rw [h1] at h2
  exact hn ((List.cons.inj (List.cons.inj h2).2).1).symm

theorem host_not_member {t h g : Str} (h1 : Spec.HostLine t h) (h2 : Spec.MemberLine t g) : False := by
  obtain ⟨more, h1⟩ := h1
  obtain ⟨more', h2⟩ := h2
  rw [h1] at h2
  exact absurd (List.cons.inj h2).1 (by decide)

theorem net_not_member {t n m g : Str} (h1 : Spec.NetLine t n m) (h2 : Spec.MemberLine t g) : False := by
  obtain ⟨_, _, u, more', h1, _⟩ := h1
  obtain ⟨more, h2⟩ := h2
  rw [h1] at h2
  exact absurd (List.cons.inj h2).1 (by decide)

theorem member_host {t h : Str} (hh : Spec.Host t h) : member t = .ok (.host h) := by
  obtain ⟨m, h1, h2⟩ := member_spec t
  rw [h1]
  cases m with
  | host h' =>
    rcases hh with hh | hh <;> rcases h2 with h2 | h2
    · rw [next_unique hh h2]
    · exact (host_not_net hh h2).elim
    · exact (host_not_net h2 hh).elim
    · rw [(net_unique hh h2).1]
  | net n m =>
    rcases hh with hh | hh
    · exact (host_not_net hh h2.1).elim
    · exact absurd (net_unique hh h2.1).2.symm h2.2
  | group g =>
    rcases hh with hh | hh
    · exact (host_not_member hh h2).elim
    · exact (net_not_member hh h2).elim
  | other =>
    rcases hh with hh | hh
    · exact absurd hh (h2.1 _)
    · exact absurd hh (h2.2.1 _ _)

theorem member_net {t n m : Str} (hn : Spec.NetLine t n m) (hm : m ≠ Spec.allOnes) : member t = .ok (.net n m) := by
  obtain ⟨m', h1, h2⟩ := member_spec t
  rw [h1]
  cases m' with
  | host h' =>
    rcases h2 with h2 | h2
    · exact (host_not_net h2 hn).elim
    · exact absurd (net_unique hn h2).2 hm
  | net n' m' => obtain ⟨rfl, rfl⟩ := net_unique hn h2.1; rfl
  | group g => exact (net_not_member hn h2).elim
  | other => exact absurd hn (h2.2.1 _ _)

theorem member_group {t g : Str} (hg : Spec.MemberLine t g) : member t = .ok (.group g) := by
  obtain ⟨m', h1, h2⟩ := member_spec t
  rw [h1]
  cases m' with
  | host h' =>
    rcases h2 with h2 | h2
    · exact (host_not_member h2 hg).elim
    · exact (net_not_member h2 hg).elim
  | net n' m' => exact (net_not_member h2.1 hg).elim
  | group g' => rw [next_unique hg h2]
  | other => exact absurd hg (h2.2.2 _)

theorem member_other {t : Str} (h0 : ∀ h, ¬ Spec.HostLine t h) (hn : ∀ n m, ¬ Spec.NetLine t n m) (hg : ∀ g, ¬ Spec.MemberLine t g) :
    member t = .ok .other := by
  obtain ⟨m', h1, h2⟩ := member_spec t
  rw [h1]
  cases m' with
  | host h' =>
    rcases h2 with h2 | h2
    · exact absurd h2 (h0 _)
    · exact absurd h2 (hn _ _)
  | net n' m' => exact absurd h2.1 (hn _ _)
  | group g' => exact absurd h2 (hg _)
  | other => rfl

/-! ## Names -/

/-- What the two dictionaries hold. -/
structure Dicts (P : Parsed) (d : List (Str × Str)) (e : List (Str × Nat)) : Prop where
  names : names .asa P = .ok d
  means : ∀ k a, translate d k = a ↔ Spec.Means P k a
  groups : objectGroupNetwork .asa P = .ok e
  look : ∀ g j, e.lookup g = some j ↔ Spec.Last P (fun i => Spec.GroupLine (P.h i).text g) j
  none : ∀ g, e.lookup g = none ↔ ∀ i ∈ P.list, ¬ Spec.GroupLine (P.h i).text g

theorem dicts {o : Opts} (h : parse o lines = .ok P) : ∃ d e, Dicts P d e := by
  obtain ⟨d, h1, _, h2⟩ := C110_names h
  obtain ⟨e, h3, _, h4⟩ := C110_groups h
  refine ⟨d, e, ⟨h1, ?_, h3, fun g j => (h4 g).2 j, fun g => (h4 g).1⟩⟩
  intro k a
  rw [translate, Spec.Means]
  cases hl : d.lookup k with
  | none =>
    have hn := ((h2 k).1).mp hl
    constructor
    · intro ha; exact .inr ⟨hn, ha.symm⟩
    · rintro (⟨i, hi, ha⟩ | ⟨_, rfl⟩)
      · exact absurd ha (hn i hi.1 a)
      · rfl
  | some b =>
    constructor
    · rintro rfl
      exact .inl (((h2 k).2 b).mp hl)
    · rintro (hi | ⟨hn, _⟩)
      · have := ((h2 k).2 a).mpr hi
        rw [hl] at this
        cases this
        rfl
      · rw [((h2 k).1).mpr hn] at hl; cases hl

/-! ## The loop over the lines -/

variable {d : List (Str × Str)} {e : List (Str × Nat)} {rec : Nat → Except Err (List Str)}

theorem ok_bind {α β : Type} (a : α) (f : α → Except Err β) : ((Except.ok a : Except Err α) >>= f) = f a := rfl

theorem bind_ok {α β : Type} {x : Except Err α} {f : α → Except Err β} {b : β} (h : (x >>= f) = .ok b) :
    ∃ a, x = .ok a ∧ f a = .ok b := by
  cases x with
  | error e => cases h
  | ok a => exact ⟨a, rfl, h⟩

/-- What one line gives. -/
def memberOut (t g : Str) (d : List (Str × Str)) (e : List (Str × Nat)) (rec : Nat → Except Err (List Str)) :
    Member → Except Err (List Str)
  | .host h => .ok [translate d h]
  | .net n m => .ok [translate d n ++ '/' :: m]
  | .group g' =>
    if g' = g then .error .valueError
    else match e.lookup g' with
      | none => .error .valueError
      | some j => rec j
  | .other => if isInfix "description ".toList t then .ok [] else .error .notImplemented

theorem members_eq (D : Dicts P d e) (g : Str) (c : Nat) (l : List Nat) :
    members P g d rec (c :: l) = (do
      let r ← memberOut (P.h c).text g d e rec (← member (P.h c).text)
      let rs ← members P g d rec l
      .ok (r ++ rs)) := by
  rw [members]
  cases member (P.h c).text with
  | error e => rfl
  | ok m =>
    simp only [ok_bind]
    cases m with
    | group g' =>
      simp only [memberOut, D.groups, ok_bind]
      rfl
    | _ => rfl

theorem members_cons (D : Dicts P d e) (g : Str) (c : Nat) (l : List Nat) (out : List Str) :
    members P g d rec (c :: l) = .ok out ↔
      ∃ m r rs, member (P.h c).text = .ok m ∧ memberOut (P.h c).text g d e rec m = .ok r ∧
        members P g d rec l = .ok rs ∧ out = r ++ rs := by
  rw [members_eq D]
  constructor
  · intro h
    obtain ⟨m, hm, h⟩ := bind_ok h
    obtain ⟨r, hr, h⟩ := bind_ok h
    obtain ⟨rs, hrs, h⟩ := bind_ok h
    cases h
    exact ⟨m, r, rs, hm, hr, hrs, rfl⟩
  · rintro ⟨m, r, rs, h1, h2, h3, rfl⟩
    simp only [h1, h2, h3, ok_bind]

theorem isInfix_spec (w : String) (t : Str) : isInfix w.toList t = true ↔ ∃ x y, t = x ++ w.toList ++ y := by
  rw [isInfix_iff]
  constructor
  · rintro ⟨x, y, h⟩; exact ⟨x, y, h.symm⟩
  · rintro ⟨x, y, h⟩; exact ⟨x, y, h.symm⟩

/-- The loop, if the calls for other groups are right. -/
theorem members_expands (D : Dicts P d e)
    (hrec : ∀ g j l, Spec.Last P (fun i => Spec.GroupLine (P.h i).text g) j → rec j = .ok l →
      Spec.groupWords <+: (P.h j).text ∧ Spec.Expands P g (P.h j).children l)
    {g : Str} {cs : List Nat} {l : List Str} (h : members P g d rec cs = .ok l) : Spec.Expands P g cs l := by
  induction cs generalizing l with
  | nil => cases h; exact .nil g
  | cons c cs ih =>
    obtain ⟨m, r, rs, h1, h2, h3, rfl⟩ := (members_cons D ..).mp h
    have ht := ih h3
    obtain ⟨m', hm', hs⟩ := member_spec (P.h c).text
    rw [h1] at hm'
    cases hm'
    cases m with
    | host h' => cases h2; exact .host hs ((D.means _ _).mp rfl) ht
    | net n m => cases h2; exact .net hs.1 hs.2 ((D.means _ _).mp rfl) ht
    | group g' =>
      rw [memberOut] at h2
      split at h2
      · cases h2
      · rename_i hne
        cases hl : e.lookup g' with
        | none => rw [hl] at h2; cases h2
        | some j =>
          rw [hl] at h2
          have hj := (D.look g' j).mp hl
          obtain ⟨r1, r2⟩ := hrec g' j r hj h2
          exact .group hs hne hj r1 r2 ht
    | other =>
      rw [memberOut] at h2
      split at h2
      · rename_i hd
        cases h2
        exact .note hs.1 hs.2.1 hs.2.2 ((isInfix_spec "description " _).mp hd) ht
      · cases h2

/-- More room does not change a result. -/
theorem members_mono {rec' : Nat → Except Err (List Str)} (D : Dicts P d e) (hrec : ∀ j l, rec j = .ok l → rec' j = .ok l)
    {g : Str} {cs : List Nat} {l : List Str} (h : members P g d rec cs = .ok l) : members P g d rec' cs = .ok l := by
  induction cs generalizing l with
  | nil => exact h
  | cons c cs ih =>
    obtain ⟨m, r, rs, h1, h2, h3, rfl⟩ := (members_cons D ..).mp h
    refine (members_cons D ..).mpr ⟨m, r, rs, h1, ?_, ih h3, rfl⟩
    cases m with
    | group g' =>
      rw [memberOut] at h2 ⊢
      split at h2
      · cases h2
      · rename_i hne
        rw [if_neg hne]
        cases hl : e.lookup g' with
        | none => rw [hl] at h2; cases h2
        | some j => rw [hl] at h2; exact hrec _ _ h2
    | _ => exact h2

theorem strings_succ (D : Dicts P d e) (n i : Nat) (l : List Str) :
    networkStrings P cs (n + 1) i = .ok l ↔
      cs.getD i .cfg = .objGroupNetwork ∧ ∃ g, groupName (P.h i).text = .ok g ∧
        members P g d (networkStrings P cs n) (P.h i).children = .ok l := by
  rw [networkStrings]
  split
  · rename_i hc
    simp only [D.names, ok_bind]
    constructor
    · intro h
      obtain ⟨g, h1, h2⟩ := bind_ok h
      exact ⟨hc, g, h1, h2⟩
    · rintro ⟨_, g, h1, h2⟩
      rw [h1]
      exact h2
  · rename_i hc
    exact ⟨(fun h => by cases h), fun h => absurd h.1 hc⟩

theorem strings_mono (D : Dicts P d e) {n i : Nat} {l : List Str} (h : networkStrings P cs n i = .ok l) :
    networkStrings P cs (n + 1) i = .ok l := by
  induction n generalizing i l with
  | zero => cases h
  | succ n ih =>
    obtain ⟨hc, g, hg, hm⟩ := (strings_succ D ..).mp h
    exact (strings_succ D ..).mpr ⟨hc, g, hg, members_mono D (fun j l h => ih h) hm⟩

theorem strings_le (D : Dicts P d e) {n m i : Nat} {l : List Str} (hnm : n ≤ m) (h : networkStrings P cs n i = .ok l) :
    networkStrings P cs m i = .ok l := by
  induction hnm with
  | refl => exact h
  | step _ ih => exact strings_mono D ih

theorem strings_expands (h : parseFactory o lines = .ok (cs, P)) (D : Dicts P d e) {n i : Nat} {g : Str} {l : List Str} (hi : i ∈ P.list)
    (hg : Spec.GroupLine (P.h i).text g) (hs : networkStrings P cs n i = .ok l) :
    Spec.groupWords <+: (P.h i).text ∧ Spec.Expands P g (P.h i).children l := by
  induction n generalizing i g l with
  | zero => cases hs
  | succ n ih =>
    obtain ⟨hc, g', hg', hm⟩ := (strings_succ D ..).mp hs
    have hw := (class_group h hi hg).mp hc
    rw [groupName_eq hw hg] at hg'
    cases hg'
    exact ⟨hw, members_expands D (fun g j l hj hl => ih hj.1 hj.2.1 hl) hm⟩

theorem expands_strings (h : parseFactory o lines = .ok (cs, P)) (D : Dicts P d e) {g : Str} {k : List Nat} {l : List Str}
    (hx : Spec.Expands P g k l) : ∃ n, members P g d (networkStrings P cs n) k = .ok l := by
  have grow : ∀ {n m : Nat} {g : Str} {k : List Nat} {l : List Str}, n ≤ m → members P g d (networkStrings P cs n) k = .ok l →
      members P g d (networkStrings P cs m) k = .ok l :=
    fun hnm hm => members_mono D (fun j l hj => strings_le D hnm hj) hm
  induction hx with
  | nil g => exact ⟨0, rfl⟩
  | host h1 h2 _ ih =>
    obtain ⟨n, hn⟩ := ih
    exact ⟨n, (members_cons D ..).mpr ⟨_, _, _, member_host h1, rfl, hn, by rw [(D.means _ _).mpr h2]; rfl⟩⟩
  | net h1 h2 h3 _ ih =>
    obtain ⟨n, hn⟩ := ih
    exact ⟨n, (members_cons D ..).mpr ⟨_, _, _, member_net h1 h2, rfl, hn, by rw [(D.means _ _).mpr h3]; rfl⟩⟩
  | @group g g' c j k l' l h1 h2 h3 h4 _ _ ih1 ih2 =>
    obtain ⟨n, hn⟩ := ih1
    obtain ⟨m, hm⟩ := ih2
    refine ⟨max (n + 1) m, (members_cons D ..).mpr ⟨_, _, _, member_group h1, ?_, grow (Nat.le_max_right _ _) hm, rfl⟩⟩
    rw [memberOut, if_neg h2, (D.look _ _).mpr h3]
    refine strings_le D (Nat.le_max_left _ _) ((strings_succ D ..).mpr ⟨(class_group h h3.1 h3.2.1).mpr h4, g', groupName_eq h4 h3.2.1, hn⟩)
  | note h1 h2 h3 h4 _ ih =>
    obtain ⟨n, hn⟩ := ih
    refine ⟨n, (members_cons D ..).mpr ⟨_, [], _, member_other h1 h2 h3, ?_, hn, rfl⟩⟩
    rw [memberOut, if_pos ((isInfix_spec "description " _).mpr h4)]

/-! ## C113 -/

/-- C113: `network_strings` of a group are the hosts and networks of its lines, in their order,
with names replaced by addresses and with the networks of a member group in the place of its
line; it raises if and only if the lines do not stand for such a list. -/
theorem C113_strings (h : parseFactory o lines = .ok (cs, P)) {i : Nat} {g : Str} (hi : i ∈ P.list)
    (hg : Spec.GroupLine (P.h i).text g) (hw : Spec.groupWords <+: (P.h i).text) (l : List Str) :
    (∃ limit, networkStrings P cs limit i = .ok l) ↔ Spec.Expands P g (P.h i).children l := by
  obtain ⟨d, e, D⟩ := dicts (parse_of h)
  constructor
  · rintro ⟨n, hn⟩
    exact (strings_expands h D hi hg hn).2
  · intro hx
    obtain ⟨n, hn⟩ := expands_strings h D hx
    exact ⟨n + 1, (strings_succ D ..).mpr ⟨(class_group h hi hg).mpr hw, g, groupName_eq hw hg, hn⟩⟩

/-- C113: with a deeper stack the result is the same. -/
theorem C113_stable (h : parseFactory o lines = .ok (cs, P)) {n m i : Nat} {l : List Str} (hs : networkStrings P cs n i = .ok l)
    (hnm : n ≤ m) : networkStrings P cs m i = .ok l := by
  obtain ⟨d, e, D⟩ := dicts (parse_of h)
  exact strings_le D hnm hs

/-- C113: `network_count` is the number of strings. -/
theorem C113_count (limit i : Nat) (n : Nat) :
    networkCount P cs limit i = .ok n ↔ ∃ l, networkStrings P cs limit i = .ok l ∧ l.length = n := by
  rw [networkCount]
  constructor
  · intro h
    obtain ⟨l, h1, h2⟩ := bind_ok h
    cases h2
    exact ⟨l, h1, rfl⟩
  · rintro ⟨l, h1, rfl⟩
    rw [h1]
    rfl

theorem within_step (D : Dicts P d e) {n i j c : Nat} {g : Str} {l : List Str} (hs : networkStrings P cs (n + 1) i = .ok l)
    (hc : c ∈ (P.h i).children) (hm : Spec.MemberLine (P.h c).text g) (hj : Spec.Last P (fun i => Spec.GroupLine (P.h i).text g) j) :
    ∃ l', networkStrings P cs n j = .ok l' := by
  obtain ⟨_, self, _, hl⟩ := (strings_succ D ..).mp hs
  have key : ∀ (k : List Nat) (l : List Str), c ∈ k → members P self d (networkStrings P cs n) k = .ok l →
      ∃ l', networkStrings P cs n j = .ok l' := by
    intro k
    induction k with
    | nil => intro l h; cases h
    | cons c' k ih =>
      intro l hc hl
      obtain ⟨m, r, rs, h1, h2, h3, _⟩ := (members_cons D ..).mp hl
      rcases List.mem_cons.mp hc with rfl | hc
      · rw [member_group hm] at h1
        cases h1
        rw [memberOut, (D.look _ _).mpr hj] at h2
        split at h2
        · cases h2
        · exact ⟨r, h2⟩
      · exact ih rs hc h3
  exact key _ l hc hl

theorem within_less (D : Dicts P d e) {i j : Nat} (hw : Spec.Within P i j) :
    ∀ n l, networkStrings P cs n i = .ok l → ∃ m l', m < n ∧ networkStrings P cs m j = .ok l' := by
  induction hw with
  | one hc hm hj =>
    intro n l hs
    cases n with
    | zero => cases hs
    | succ n =>
      obtain ⟨l', hl'⟩ := within_step D hs hc hm hj
      exact ⟨n, l', Nat.lt_succ_self n, hl'⟩
  | trans _ _ ih1 ih2 =>
    intro n l hs
    obtain ⟨m, l', h1, h2⟩ := ih1 n l hs
    obtain ⟨k, l'', h3, h4⟩ := ih2 m l' h2
    exact ⟨k, l'', by omega, h4⟩

/-- C113: a group that is a member of itself, directly or through other groups, never gives a
result. -/
theorem C113_cycle (h : parseFactory o lines = .ok (cs, P)) {i : Nat} (hw : Spec.Within P i i) (limit : Nat) (l : List Str) :
    networkStrings P cs limit i ≠ .ok l := by
  obtain ⟨d, e, D⟩ := dicts (parse_of h)
  induction limit using Nat.strongRecOn generalizing l with
  | ind n ih =>
    intro hs
    obtain ⟨m, l', h1, h2⟩ := within_less D hw n l hs
    exact ih m h1 l' h2

/-! ## C114 -/

theorem expands_lines {g : Str} {k : List Nat} {l : List Str} (hx : Spec.Expands P g k l) :
    ∀ c ∈ k, (∃ h, Spec.Host (P.h c).text h) ∨ (∃ n m, Spec.NetLine (P.h c).text n m) ∨
      (∃ g' j, Spec.MemberLine (P.h c).text g' ∧ g' ≠ g ∧ Spec.Last P (fun i => Spec.GroupLine (P.h i).text g') j ∧
        Spec.groupWords <+: (P.h j).text) ∨ ∃ x y, (P.h c).text = x ++ "description ".toList ++ y := by
  induction hx with
  | nil => intro c hc; cases hc
  | host h1 _ _ ih =>
    intro c hc
    rcases List.mem_cons.mp hc with rfl | hc
    · exact .inl ⟨_, h1⟩
    · exact ih c hc
  | net h1 _ _ _ ih =>
    intro c hc
    rcases List.mem_cons.mp hc with rfl | hc
    · exact .inr (.inl ⟨_, _, h1⟩)
    · exact ih c hc
  | group h1 h2 h3 h4 _ _ _ ih =>
    intro c hc
    rcases List.mem_cons.mp hc with rfl | hc
    · exact .inr (.inr (.inl ⟨_, _, h1, h2, h3, h4⟩))
    · exact ih c hc
  | note _ _ _ h _ ih =>
    intro c hc
    rcases List.mem_cons.mp hc with rfl | hc
    · exact .inr (.inr (.inr h))
    · exact ih c hc

/-- C114: the lines `network-object object x` are not understood: no group with such a line has
`network_strings`. -/
theorem C114_object_fails (h : parseFactory o lines = .ok (cs, P)) {i c : Nat} {g x : Str} (hi : i ∈ P.list)
    (hg : Spec.GroupLine (P.h i).text g) (hc : c ∈ (P.h i).children) (hx : ∀ y, x.head? = some y → isDigit y = false)
    (ht : splitWs (P.h c).text = Cisco.Spec.wd ["network-object", "object"] ++ [x])
    (hd : ¬ ∃ x y, (P.h c).text = x ++ "description ".toList ++ y) (limit : Nat) (l : List Str) :
    networkStrings P cs limit i ≠ .ok l := by
  intro hs
  obtain ⟨d, e, D⟩ := dicts (parse_of h)
  have hnet : ∀ n m, ¬ Spec.NetLine (P.h c).text n m := by
    rintro n m ⟨_, ⟨a, b, c', d', hm, hq⟩, u, more, hw, _⟩
    rw [ht] at hw
    have hw' := List.cons.inj (List.cons.inj (List.cons.inj hw).2).2
    obtain ⟨y, a', rfl⟩ := List.exists_cons_of_ne_nil (hq a (by simp)).1
    have hy := (hq (y :: a') (by simp)).2 y (by simp)
    have := hx y (by rw [hw'.1, hm]; rfl)
    rw [this] at hy
    cases hy
  rcases expands_lines (strings_expands h D hi hg hs).2 c hc with ⟨a, hh⟩ | ⟨n, m, hn⟩ | ⟨g', j, hm, _⟩ | hdesc
  · rcases hh with ⟨more, hh⟩ | hh
    · rw [ht] at hh
      exact absurd (List.cons.inj (List.cons.inj hh).2).1 (by decide)
    · exact hnet _ _ hh
  · exact hnet _ _ hn
  · obtain ⟨more, hm⟩ := hm
    rw [ht] at hm
    exact absurd (List.cons.inj hm).1 (by decide)
  · exact hd hdesc

/-- C114: if the line of a member group does not begin with `object-group network ` exactly, with
single blanks, then the group has no `network_strings`. -/
theorem C114_blank_fails (h : parseFactory o lines = .ok (cs, P)) {i j c : Nat} {g' : Str} (hc : c ∈ (P.h i).children) (hm : Spec.MemberLine (P.h c).text g')
    (hj : Spec.Last P (fun i => Spec.GroupLine (P.h i).text g') j) (hw : ¬ Spec.groupWords <+: (P.h j).text)
    (limit : Nat) (l : List Str) : networkStrings P cs limit i ≠ .ok l := by
  intro hs
  obtain ⟨d, e, D⟩ := dicts (parse_of h)
  cases limit with
  | zero => cases hs
  | succ n =>
    obtain ⟨l', hl'⟩ := within_step D hs hc hm hj
    exact hw (strings_expands h D hj.1 hj.2.1 hl').1

/-! ## C115 -/

/-- The cache of the configuration: empty at first, and after each evaluation of `networks` of some
group (which may end with an exception) what that evaluation leaves. -/
inductive Spec.Cache (P : Parsed) (cs : List Cls) : List (Str × IP.V4) → Prop
  | start : Cache P cs []
  | call {k : List (Str × IP.V4)} {ss : List Str} (limit i : Nat) : Cache P cs k → networkStrings P cs limit i = .ok ss →
      Cache P cs (networksCache ss k)

/-- Each entry of the cache is the object for its key. -/
def Right (k : List (Str × IP.V4)) : Prop := ∀ s v, k.lookup s = some v → IP.V4.ofStr s = .ok v

theorem right_put {k : List (Str × IP.V4)} (hk : Right k) {s : Str} {v : IP.V4} (hv : IP.V4.ofStr s = .ok v) : Right (put k s v) := by
  intro s' v' h
  rw [lookup_put] at h
  split at h
  · rename_i e
    cases h
    rw [e, hv]
  · exact hk s' v' h

theorem right_cache (ss : List Str) {k : List (Str × IP.V4)} (hk : Right k) : Right (networksCache ss k) := by
  induction ss generalizing k with
  | nil => exact hk
  | cons s ss ih =>
    rw [networksCache]
    split
    · exact ih hk
    · split
      · rename_i hv
        exact ih (right_put hk hv)
      · exact hk

theorem loop_right (ss : List Str) {k : List (Str × IP.V4)} (hk : Right k) :
    (networksLoop ss k).map Prod.fst = ss.mapM IP.V4.ofStr := by
  induction ss generalizing k with
  | nil => rfl
  | cons s ss ih =>
    rw [networksLoop, List.mapM_cons]
    cases hl : k.lookup s with
    | some v =>
      rw [hk s v hl, ← ih hk]
      simp only [ok_bind]
      cases networksLoop ss k <;> rfl
    | none =>
      cases hv : IP.V4.ofStr s with
      | error e => rfl
      | ok v =>
        rw [← ih (right_put hk hv)]
        simp only [ok_bind]
        cases networksLoop ss (put k s v) <;> rfl

/-- C115: `networks` is the list of IPv4Obj of the `network_strings`, in their order, and raises what
the first of these raises, however often it was evaluated before: the cache is not seen. -/
theorem C115_networks {limit i : Nat} {k : List (Str × IP.V4)} (hk : Spec.Cache P cs k) :
    (networks P cs limit i k).map Prod.fst = (do (← networkStrings P cs limit i).mapM IP.V4.ofStr) := by
  have hr : Right k := by
    induction hk with
    | start => intro s v h; cases h
    | call _ _ _ _ ih => exact right_cache _ ih
  rw [networks]
  cases networkStrings P cs limit i with
  | error e => rfl
  | ok ss => exact loop_right ss hr

/-- C115: after an evaluation without exception, the cache is as the model of the cache says. -/
theorem C115_cache {limit i : Nat} {k : List (Str × IP.V4)} {q : List IP.V4 × List (Str × IP.V4)}
    (hq : networks P cs limit i k = .ok q) : ∃ ss, networkStrings P cs limit i = .ok ss ∧ q.2 = networksCache ss k := by
  rw [networks] at hq
  obtain ⟨ss, h1, h2⟩ := bind_ok hq
  refine ⟨ss, h1, ?_⟩
  have key : ∀ (ss : List Str) (k : List (Str × IP.V4)) q, networksLoop ss k = .ok q → q.2 = networksCache ss k := by
    intro ss
    induction ss with
    | nil => intro k q h; cases h; rfl
    | cons s ss ih =>
      intro k q h
      rw [networksLoop] at h
      rw [networksCache]
      cases hl : k.lookup s with
      | some v =>
        rw [hl] at h
        obtain ⟨q', h1, h2⟩ := bind_ok h
        cases h2
        exact ih _ q' h1
      | none =>
        rw [hl] at h
        obtain ⟨v, hv, h⟩ := bind_ok h
        obtain ⟨q', h1, h2⟩ := bind_ok h
        cases h2
        simp only [hv]
        exact ih _ q' h1
  exact key ss k q h2

/-! ## Not vacuous -/

/-- Two groups, one of which is a member of the other. -/
def exGroups : List Str :=
  ["name 192.0.2.7 web", "object-group network SMALL", " network-object host web", " network-object 10.1.0.0 255.255.0.0",
    "object-group network ALL", " description all of them", " group-object SMALL", " network-object 10.9.9.9 255.255.255.255"].map String.toList

example : (do
      let q ← parseFactory {} exGroups
      let l ← networkStrings q.2 q.1 5 4
      .ok (l, (q.2.h 4).children)) =
    (.ok (["192.0.2.7", "10.1.0.0/255.255.0.0", "10.9.9.9"].map String.toList, [5, 6, 7]) : Except Err (List Str × List Nat)) := by
  decide +kernel

/-- The hypotheses of `C113_strings` are met. -/
theorem exGroups_line : Spec.GroupLine "object-group network ALL".toList "ALL".toList ∧
    Spec.groupWords <+: "object-group network ALL".toList :=
  ⟨⟨[], by decide +kernel⟩, ⟨"ALL".toList, by decide +kernel⟩⟩

/-- Two groups, each a member of the other. -/
def exCycle : List Str :=
  ["object-group network A", " group-object B", "object-group network B", " group-object A"].map String.toList

example : ((parseFactory {} exCycle).toOption.map (fun q => (networkStrings q.2 q.1 1000 0).toOption)) = some none := by decide +kernel

/-- The hypotheses of `C113_cycle` are met. -/
theorem exCycle_within : ∃ cs P, parseFactory {} exCycle = .ok (cs, P) ∧ Spec.Within P 0 0 := by
  have h : ((parseFactory {} exCycle).toOption.map (fun q => (q.2.list, q.2.list.map (fun i => ((q.2.h i).text, (q.2.h i).children))))) =
      some ([0, 1, 2, 3], [("object-group network A".toList, [1]), (" group-object B".toList, []), ("object-group network B".toList, [3]),
        (" group-object A".toList, [])]) := by decide +kernel
  cases hp : parseFactory {} exCycle with
  | error e => rw [hp] at h; cases h
  | ok q =>
    obtain ⟨cs, P⟩ := q
    refine ⟨cs, P, rfl, ?_⟩
    rw [hp] at h
    simp only [Except.toOption, Option.map_some, Option.some.injEq, Prod.mk.injEq] at h
    obtain ⟨h1, h2⟩ := h
    rw [h1] at h2
    simp only [List.map_cons, List.map_nil, List.cons.injEq, Prod.mk.injEq, and_true] at h2
    obtain ⟨⟨t0, c0⟩, ⟨t1, _⟩, ⟨t2, c2⟩, ⟨t3, _⟩⟩ := h2
    have last : ∀ g j, j ∈ [0, 1, 2, 3] → Spec.GroupLine (P.h j).text g →
        (∀ k ∈ [0, 1, 2, 3], k ≠ j → ¬ Spec.GroupLine (P.h k).text g) →
        Spec.Last P (fun i => Spec.GroupLine (P.h i).text g) j := by
      intro g j hj hg hk
      refine ⟨by rw [h1]; exact hj, hg, ?_⟩
      intro k hk' hgk
      by_cases e : k = j
      · rw [e]; omega
      · exact absurd hgk (hk k (by rw [h1] at hk'; exact hk') e)
    have w0 : splitWs "object-group network A".toList = ["object-group".toList, "network".toList, ['A']] := by decide +kernel
    have w1 : splitWs " group-object B".toList = ["group-object".toList, ['B']] := by decide +kernel
    have w2 : splitWs "object-group network B".toList = ["object-group".toList, "network".toList, ['B']] := by decide +kernel
    have w3 : splitWs " group-object A".toList = ["group-object".toList, ['A']] := by decide +kernel
    have no : ∀ {j : Nat} {g g' : Str}, splitWs (P.h j).text = ["group-object".toList, g'] → ¬ Spec.GroupLine (P.h j).text g := by
      rintro j g g' h ⟨more, h'⟩
      rw [h] at h'
      exact absurd (List.cons.inj h').1 (by decide)
    have other : ∀ {j : Nat} {g g' : Str}, splitWs (P.h j).text = ["object-group".toList, "network".toList, g'] → g' ≠ g →
        ¬ Spec.GroupLine (P.h j).text g := by
      rintro j g g' h hne ⟨more, h'⟩
      rw [h] at h'
      exact hne (List.cons.inj (List.cons.inj (List.cons.inj h').2).2).1
    have lA := last ['A'] 0 (by decide) ⟨[], by rw [t0, w0]; rfl⟩ (by
      simp only [List.forall_mem_cons]
      exact ⟨fun h => absurd rfl h, fun _ => no (t1 ▸ w1), fun _ => other (t2 ▸ w2) (by decide), fun _ => no (t3 ▸ w3), by simp⟩)
    have lB := last ['B'] 2 (by decide) ⟨[], by rw [t2, w2]; rfl⟩ (by
      simp only [List.forall_mem_cons]
      exact ⟨fun _ => other (t0 ▸ w0) (by decide), fun _ => no (t1 ▸ w1), fun h => absurd rfl h, fun _ => no (t3 ▸ w3), by simp⟩)
    exact .trans (.one (c := 1) (by rw [c0]; simp) ⟨[], by rw [t1, w1]; rfl⟩ lB) (.one (c := 3) (by rw [c2]; simp) ⟨[], by rw [t3, w3]; rfl⟩ lA)

/-- A group with a line `network-object object`. -/
def exObject : List Str :=
  ["object network H", " host 10.0.0.1", "object-group network G", " network-object object H", " group-object X",
    "object-group  network X", " network-object host 10.0.0.2"].map String.toList

/-- `C114`: the two lines raise different exceptions. -/
example : ((parseFactory {} exObject).toOption.map (fun q => (networkStrings q.2 q.1 9 2 matches .error .notImplemented : Bool))) =
    some true := by decide +kernel

example : ((parseFactory {} exObject).toOption.map (fun q => (networkStrings q.2 q.1 9 5 matches .error .attributeError : Bool))) =
    some true := by decide +kernel

example : ((parseFactory {} exObject).toOption.map (fun q => (objectGroupNetwork .asa q.2).toOption)) =
    some (some [(['G'], 2), (['X'], 5)]) := by decide +kernel

/-- `C115`: two evaluations. -/
example : ((parseFactory {} exGroups).toOption.map (fun q =>
    match networks q.2 q.1 5 1 [] with
    | .error _ => none
    | .ok r => (networks q.2 q.1 5 4 r.2).toOption.map (fun r' => (r'.1.map (fun v => (v.ip, v.plen)), r.2.length, r'.2.length)))) =
    some (some ([(0xC0000207, 32), (0x0A010000, 16), (0x0A090909, 32)], 2, 3)) := by decide +kernel

end Asa

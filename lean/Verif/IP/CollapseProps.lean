import Verif.IP.CollapseLemmas

/-!
# C167, C168: `collapse_addresses`
-/

namespace IP

open Py

theorem Stands.block {v : Bool} {it : Item} {n : Net} (h : Stands v it n) : Block (width v) n := by
  have of4 : ∀ o : V4, o.WF → Block 32 ⟨o.net, o.plen⟩ := fun o w =>
    ⟨w.plen_le, w.net_lt, ⟨_, by rw [Nat.mul_comm]; exact w.aligned.symm⟩⟩
  have of6 : ∀ o : V6, o.WF → Block 128 ⟨o.net, o.plen⟩ := fun o w =>
    ⟨w.plen_le, w.net_lt, ⟨_, by rw [Nat.mul_comm]; exact w.aligned.symm⟩⟩
  cases it with
  | v4 o =>
    cases o with
    | none => exact h.elim
    | some o => obtain ⟨rfl, hr, rfl⟩ := h; exact of4 o hr.wf
  | v6 o =>
    cases o with
    | none => exact h.elim
    | some o => obtain ⟨rfl, hr, rfl⟩ := h; exact of6 o hr.wf
  | net4 m => obtain ⟨rfl, hb, rfl⟩ := h; exact hb
  | net6 m => obtain ⟨rfl, hb, rfl⟩ := h; exact hb
  | other => exact h.elim

theorem Stands.ipNet {v : Bool} {it : Item} {n : Net} (h : Stands v it n) :
    ipNet it = .ok ⟨v, n.net, n.plen⟩ := by
  cases it with
  | v4 o =>
    cases o with
    | none => exact h.elim
    | some o =>
      obtain ⟨rfl, hr, rfl⟩ := h
      have w := hr.wf
      simp only [IP.ipNet]
      rw [networkOf_eq 32 _ _ w.plen_le w.net_lt, w.aligned]
  | v6 o =>
    cases o with
    | none => exact h.elim
    | some o => obtain ⟨rfl, hr, rfl⟩ := h; rfl
  | net4 m => obtain ⟨rfl, hb, rfl⟩ := h; rfl
  | net6 m => obtain ⟨rfl, hb, rfl⟩ := h; rfl
  | other => exact h.elim

/-- The elements of the argument become networks. -/
theorem ipNets_ok : ∀ {items : List Item}, (∀ it ∈ items, ∃ v n, Stands v it n) →
    ∃ l : List ANet, ipNets items = .ok l ∧
      (∀ b, b ∈ l ↔ ∃ it ∈ items, Stands b.v6 it b.toNet)
  | [], _ => ⟨[], rfl, by simp⟩
  | it :: items, h => by
    obtain ⟨v, n, hs⟩ := h it (by simp)
    obtain ⟨l, h1, h2⟩ := ipNets_ok (items := items) (fun i hi => h i (by simp [hi]))
    refine ⟨⟨v, n.net, n.plen⟩ :: l, ?_, ?_⟩
    · rw [ipNets, hs.ipNet, h1]; rfl
    · intro b
      simp only [List.mem_cons, exists_eq_or_imp, h2 b]
      apply or_congr _ Iff.rfl
      constructor
      · rintro rfl; exact hs
      · intro hb
        have e := hs.ipNet
        rw [hb.ipNet] at e
        cases b
        exact Except.ok.inj e

theorem collapse_run {items : List Item} {L : List ANet} {i n : List (Bool × Net)}
    (h1 : ipNets items = .ok L) (h2 : splitNets L [] [] = .ok (i, n)) :
    collapse (some items) = collapseParts i n := by
  rw [collapse, h1]
  show (splitNets L [] [] >>= _) = _
  rw [h2]
  rfl

/-- The core: what the function returns for elements of one version. -/
theorem collapse_same {v : Bool} {items : List Item} (h : ∀ it ∈ items, ∃ n, Stands v it n) :
    ∃ l : List Net, (∀ n ∈ l, Block (width v) n) ∧
      (∀ a, Covered (width v) l a ↔ Given v items a) ∧
      collapse (some items) = .ok ((collapseNets (width v) l).map (fun n => ⟨v, n.net, n.plen⟩)) := by
  obtain ⟨L, h1, h2⟩ := ipNets_ok (items := items) (fun it hi => ⟨v, h it hi⟩)
  have hLv : ∀ b ∈ L, b.v6 = v := by
    intro b hb
    obtain ⟨it, hi, hs⟩ := (h2 b).mp hb
    obtain ⟨n, hn⟩ := h it hi
    have e := hs.ipNet
    rw [hn.ipNet] at e
    have := Except.ok.inj e
    simp only [ANet.mk.injEq] at this
    exact this.1.symm
  have hLb : ∀ b ∈ L, Block (width v) b.toNet := by
    intro b hb
    obtain ⟨it, hi, hs⟩ := (h2 b).mp hb
    have := hs.block
    rwa [hLv b hb] at this
  have hgiven : ∀ a, (∃ b ∈ L, Has (width v) b.toNet a) ↔ Given v items a := by
    intro a
    constructor
    · rintro ⟨b, hb, ha⟩
      obtain ⟨it, hi, hs⟩ := (h2 b).mp hb
      rw [hLv b hb] at hs
      exact ⟨it, hi, b.toNet, hs, ha⟩
    · rintro ⟨it, hi, n, hs, ha⟩
      exact ⟨⟨v, n.net, n.plen⟩, (h2 _).mpr ⟨it, hi, hs⟩, ha⟩
  have hsplit := splitNets_same v L [] [] hLv (by simp) (by simp)
  simp only [List.nil_append] at hsplit
  have hpl : ∀ p : ANet → Bool, ∀ n ∈ ((L.filter p).map pairOf).map (·.2),
      ∃ b ∈ L, p b = true ∧ n = b.toNet := by
    intro p n hn
    simp only [List.mem_map, List.mem_filter] at hn
    obtain ⟨x, ⟨b, ⟨hb, hp⟩, rfl⟩, rfl⟩ := hn
    exact ⟨b, hb, hp, rfl⟩
  obtain ⟨l, e1, e2, e3⟩ := collapseSplit_spec (W := width v)
    (ips := ((L.filter (fun n => n.plen = width n.v6)).map pairOf).map (·.2))
    (nets := ((L.filter (fun n => ¬ n.plen = width n.v6)).map pairOf).map (·.2))
    (by
      intro n hn
      obtain ⟨b, hb, hp, rfl⟩ := hpl _ n hn
      simp only [decide_eq_true_eq] at hp
      rw [hLv b hb] at hp
      exact ⟨hLb b hb, hp⟩)
    (by
      intro n hn
      obtain ⟨b, hb, hp, rfl⟩ := hpl _ n hn
      exact hLb b hb)
  have hcov : ∀ a, Covered (width v) l a ↔ Given v items a := by
    intro a
    rw [e3 a, ← hgiven a]
    constructor
    · rintro ⟨n, hn, ha⟩
      rcases List.mem_append.mp hn with hn | hn
      · obtain ⟨b, hb, hp, rfl⟩ := hpl _ n hn
        exact ⟨b, hb, ha⟩
      · obtain ⟨b, hb, hp, rfl⟩ := hpl _ n hn
        exact ⟨b, hb, ha⟩
    · rintro ⟨b, hb, ha⟩
      refine ⟨b.toNet, ?_, ha⟩
      simp only [List.mem_append, List.mem_map, List.mem_filter, decide_eq_true_eq]
      by_cases hp : b.plen = width b.v6
      · exact .inl ⟨pairOf b, ⟨b, ⟨hb, hp⟩, rfl⟩, rfl⟩
      · exact .inr ⟨pairOf b, ⟨b, ⟨hb, hp⟩, rfl⟩, rfl⟩
  refine ⟨l, e2, hcov, ?_⟩
  have hall : ∀ x ∈ (L.filter (fun n => n.plen = width n.v6)).map pairOf ++
      (L.filter (fun n => ¬ n.plen = width n.v6)).map pairOf, x.1 = v := by
    intro x hx
    rcases List.mem_append.mp hx with hx | hx
    · obtain ⟨b, hb, rfl⟩ := List.mem_map.mp hx
      exact hLv b (List.mem_filter.mp hb).1
    · obtain ⟨b, hb, rfl⟩ := List.mem_map.mp hx
      exact hLv b (List.mem_filter.mp hb).1
  have hrun := collapse_run h1 hsplit
  rw [hrun, collapseParts]
  cases hh : ((L.filter (fun n => n.plen = width n.v6)).map pairOf ++
      (L.filter (fun n => ¬ n.plen = width n.v6)).map pairOf).head? with
  | none =>
    simp only
    have hnil := List.head?_eq_none_iff.mp hh
    rw [List.append_eq_nil_iff] at hnil
    rw [← e1, hnil.1, hnil.2]
    rfl
  | some w =>
    have hw : w.1 = v := hall w (List.mem_of_mem_head? (by rw [hh]; rfl))
    simp only
    rw [if_neg, hw, e1]
    simp only [List.any_eq_true, not_exists, not_and]
    intro x hx
    rw [hall x hx, hw]
    simp

/-- The properties of a result, for elements of one version. -/
theorem collapse_core {v : Bool} {items : List Item} (h : ∀ it ∈ items, ∃ n, Stands v it n) :
    ∃ R : List Net, collapse (some items) = .ok (R.map (fun n => ⟨v, n.net, n.plen⟩)) ∧
      (∀ n ∈ R, Block (width v) n) ∧
      (∀ a, Covered (width v) R a ↔ Given v items a) ∧
      R.Pairwise (EndsBefore (width v)) ∧
      (∀ n, Block (width v) n → (∀ a, Has (width v) n a → Given v items a) →
        ∃ m ∈ R, Within (width v) n m) := by
  obtain ⟨l, h1, h2, h3⟩ := collapse_same h
  obtain ⟨r1, r2, r3, r4⟩ := collapseNets_spec h1
  exact ⟨_, h3, r1, fun a => (r2 a).trans (h2 a), r3,
    fun n hn hc => r4 n hn (fun a ha => (h2 a).mpr (hc a ha))⟩

/-- Sorted, disjoint blocks that overlap are the same. -/
theorem endsBefore_eq {W : Nat} {R : List Net} (hp : R.Pairwise (EndsBefore W)) :
    ∀ {n m a}, n ∈ R → m ∈ R → Has W n a → Has W m a → n = m := by
  induction R with
  | nil => intro n m a hn; simp at hn
  | cons x R ih =>
    intro n m a hn hm h1 h2
    rw [List.pairwise_cons] at hp
    have hlt : ∀ y ∈ R, Has W y a → ¬ Has W x a := by
      intro y hy h3 h4
      have h5 := hp.1 y hy
      have h6 := h3.1
      have h7 := h4.2
      rw [EndsBefore] at h5
      omega
    rcases List.mem_cons.mp hn with e1 | e1 <;> rcases List.mem_cons.mp hm with e2 | e2
    · rw [e1, e2]
    · subst e1; exact absurd h1 (hlt m e2 h2)
    · subst e2; exact absurd h2 (hlt n e1 h1)
    · exact ih hp.2 e1 e2 h1 h2

/-- Two sorted lists of disjoint blocks with the same members are equal. -/
theorem endsBefore_unique {W : Nat} : ∀ {R S : List Net}, R.Pairwise (EndsBefore W) →
    S.Pairwise (EndsBefore W) → (∀ n, n ∈ R ↔ n ∈ S) → R = S
  | [], [], _, _, _ => rfl
  | [], s :: S, _, _, h => absurd ((h s).mpr (by simp)) (by simp)
  | r :: R, [], _, _, h => absurd ((h r).mp (by simp)) (by simp)
  | r :: R, s :: S, hr, hs, h => by
    have h1 := List.pairwise_cons.mp hr
    have h2 := List.pairwise_cons.mp hs
    have hpos : ∀ n : Net, 0 < 2 ^ (W - n.plen) := fun n => two_pow_pos _
    have e : r = s := by
      rcases List.mem_cons.mp ((h r).mp (by simp)) with e | e
      · exact e
      rcases List.mem_cons.mp ((h s).mpr (by simp)) with f | f
      · exact f.symm
      have a := h2.1 r e
      have b := h1.1 s f
      rw [EndsBefore] at a b
      have := hpos r; have := hpos s
      omega
    subst e
    rw [endsBefore_unique h1.2 h2.2]
    intro n
    have irr : ∀ T : List Net, (∀ y ∈ T, EndsBefore W r y) → r ∉ T := by
      intro T hT hm
      have := hT r hm
      rw [EndsBefore] at this
      have := hpos r
      omega
    constructor
    · intro hn
      rcases List.mem_cons.mp ((h n).mp (by simp [hn])) with e | e
      · subst e; exact absurd hn (irr R h1.1)
      · exact e
    · intro hn
      rcases List.mem_cons.mp ((h n).mpr (by simp [hn])) with e | e
      · subst e; exact absurd hn (irr S h2.1)
      · exact e

/-! ## C167 -/

/-- **C167** The result has exactly the addresses of the argument: networks (with no
host bits) of the version of the elements, in ascending order, each ending before
the next one starts. -/
theorem C167_addresses {v : Bool} {items : List Item} (h : ∀ it ∈ items, ∃ n, Stands v it n) :
    ∃ out, collapse (some items) = .ok out ∧
      (∀ b ∈ out, b.v6 = v ∧ Block (width v) b.toNet) ∧
      (∀ a, (∃ b ∈ out, Has (width v) b.toNet a) ↔ Given v items a) ∧
      out.Pairwise (fun b c => b.net + 2 ^ (width v - b.plen) ≤ c.net) := by
  obtain ⟨R, h1, h2, h3, h4, _⟩ := collapse_core h
  refine ⟨_, h1, ?_, ?_, ?_⟩
  · intro b hb
    obtain ⟨n, hn, rfl⟩ := List.mem_map.mp hb
    exact ⟨rfl, h2 n hn⟩
  · intro a
    rw [← h3 a]
    constructor
    · rintro ⟨b, hb, ha⟩
      obtain ⟨n, hn, rfl⟩ := List.mem_map.mp hb
      exact ⟨n, hn, ha⟩
    · rintro ⟨n, hn, ha⟩
      exact ⟨_, List.mem_map.mpr ⟨n, hn, rfl⟩, ha⟩
  · rw [List.pairwise_map]
    exact h4

/-- **C167** The result consists of exactly the largest networks that fit into the
addresses of the argument: a network is returned iff all its addresses are given
and no other such network contains it. -/
theorem C167_largest {v : Bool} {items : List Item} (h : ∀ it ∈ items, ∃ n, Stands v it n)
    {out : List ANet} (ho : collapse (some items) = .ok out) (b : ANet) :
    b ∈ out ↔ b.v6 = v ∧ Block (width v) b.toNet ∧ (∀ a, Has (width v) b.toNet a → Given v items a) ∧
      ∀ m, Block (width v) m → (∀ a, Has (width v) m a → Given v items a) →
        Within (width v) b.toNet m → m = b.toNet := by
  obtain ⟨R, h1, h2, h3, h4, h5⟩ := collapse_core h
  rw [h1] at ho
  have ho := Except.ok.inj ho
  subst ho
  constructor
  · intro hb
    obtain ⟨n, hn, rfl⟩ := List.mem_map.mp hb
    refine ⟨rfl, h2 n hn, fun a ha => (h3 a).mp ⟨n, hn, ha⟩, ?_⟩
    intro m hm hc hw
    obtain ⟨r, hr, hwr⟩ := h5 m hm hc
    have e : n = r := endsBefore_eq h4 hn hr Block.has_self (hwr _ (hw _ Block.has_self))
    subst e
    exact within_antisymm hm (h2 n hn) hwr hw
  · rintro ⟨rfl, hb, hc, hmax⟩
    obtain ⟨r, hr, hw⟩ := h5 _ hb hc
    have e := hmax r (h2 r hr) (fun a ha => (h3 a).mp ⟨r, hr, ha⟩) hw
    subst e
    exact List.mem_map.mpr ⟨_, hr, rfl⟩

/-- **C167** No list of networks with the same addresses is shorter than the result. -/
theorem C167_fewest {v : Bool} {items : List Item} (h : ∀ it ∈ items, ∃ n, Stands v it n)
    {out : List ANet} (ho : collapse (some items) = .ok out)
    {l : List Net} (hl : ∀ n ∈ l, Block (width v) n)
    (hc : ∀ a, (∃ n ∈ l, Has (width v) n a) ↔ Given v items a) : out.length ≤ l.length := by
  obtain ⟨R, h1, h2, h3, h4, h5⟩ := collapse_core h
  rw [h1] at ho
  have ho' := Except.ok.inj ho
  subst ho'
  clear ho
  rw [List.length_map]
  -- every result block contains a block of `l`, and no block of `l` lies in two of them
  have hex : ∀ r ∈ R, ∃ n ∈ l, Within (width v) n r := by
    intro r hr
    obtain ⟨n, hn, ha⟩ := (hc r.net).mpr ((h3 _).mp ⟨r, hr, Block.has_self⟩)
    obtain ⟨m, hm, hw⟩ := h5 n (hl n hn) (fun a h' => (hc a).mp ⟨n, hn, h'⟩)
    have e : m = r := endsBefore_eq h4 hm hr (hw _ ha) Block.has_self
    exact ⟨n, hn, e ▸ hw⟩
  have hdis : ∀ r ∈ R, ∀ s ∈ R, ∀ n, Within (width v) n r → Within (width v) n s → r = s :=
    fun r hr s hs n hw1 hw2 => endsBefore_eq h4 hr hs (hw1 _ Block.has_self) (hw2 _ Block.has_self)
  have hnd : R.Nodup := by
    refine h4.imp ?_
    intro a b hab e
    subst e
    rw [EndsBefore] at hab
    have := two_pow_pos (width v - a.plen)
    omega
  clear h1 h2 h3 h4 h5 hc hl
  induction R generalizing l with
  | nil => simp
  | cons r R ih =>
    obtain ⟨n, hn, hw⟩ := hex r (by simp)
    rw [List.nodup_cons] at hnd
    have := ih (l := l.erase n) (by
        intro s hs
        obtain ⟨m, hm, hw'⟩ := hex s (by simp [hs])
        refine ⟨m, ?_, hw'⟩
        apply (List.mem_erase_of_ne ?_).mpr hm
        intro e
        subst e
        have := hdis r (by simp) s (by simp [hs]) m hw hw'
        subst this
        exact hnd.1 hs)
      (fun a ha b hb => hdis a (by simp [ha]) b (by simp [hb])) hnd.2
    rw [List.length_erase_of_mem hn] at this
    have hpos := List.length_pos_of_mem hn
    rw [List.length_cons]
    omega

/-- **C167** The result depends only on the addresses: arguments of one version with
the same addresses (another order, repetitions, an object instead of its network,
a network instead of its halves) give the same list. -/
theorem C167_same {v : Bool} {items items' : List Item} (h : ∀ it ∈ items, ∃ n, Stands v it n)
    (h' : ∀ it ∈ items', ∃ n, Stands v it n) (e : ∀ a, Given v items a ↔ Given v items' a) :
    collapse (some items) = collapse (some items') := by
  obtain ⟨R, h1, h2, h3, h4, h5⟩ := collapse_core h
  obtain ⟨S, k1, k2, k3, k4, k5⟩ := collapse_core h'
  rw [h1, k1]
  congr 2
  have key : ∀ {R S : List Net}, (∀ n ∈ R, Block (width v) n) → (∀ n ∈ S, Block (width v) n) →
      R.Pairwise (EndsBefore (width v)) →
      (∀ n ∈ R, ∃ m ∈ S, Within (width v) n m) → (∀ n ∈ S, ∃ m ∈ R, Within (width v) n m) →
      ∀ n ∈ R, n ∈ S := by
    intro R S hR hS hp h1 h2 n hn
    obtain ⟨m, hm, hw⟩ := h1 n hn
    obtain ⟨r, hr, hw'⟩ := h2 m hm
    have e : n = r := endsBefore_eq hp hn hr Block.has_self (hw' _ (hw _ Block.has_self))
    subst e
    rw [within_antisymm (hR n hn) (hS m hm) hw hw']
    exact hm
  have hRS : ∀ n ∈ R, ∃ m ∈ S, Within (width v) n m := fun n hn =>
    k5 n (h2 n hn) (fun a ha => (e a).mp ((h3 a).mp ⟨n, hn, ha⟩))
  have hSR : ∀ n ∈ S, ∃ m ∈ R, Within (width v) n m := fun n hn =>
    h5 n (k2 n hn) (fun a ha => (e a).mpr ((k3 a).mp ⟨n, hn, ha⟩))
  exact endsBefore_unique h4 k4 (fun n => ⟨key h2 k2 h4 hRS hSR n, key k2 h2 k4 hSR hRS n⟩)

/-- **C167** Collapsing a result again changes nothing. -/
theorem C167_again {v : Bool} {items : List Item} (h : ∀ it ∈ items, ∃ n, Stands v it n)
    {out : List ANet} (ho : collapse (some items) = .ok out) :
    collapse (some (out.map (fun b => if b.v6 then .net6 b.toNet else .net4 b.toNet))) = .ok out := by
  obtain ⟨out', e, h2, h3, _⟩ := C167_addresses h
  rw [ho] at e
  have e := Except.ok.inj e
  subst e
  have hst : ∀ b ∈ out, Stands v (if b.v6 then .net6 b.toNet else .net4 b.toNet) b.toNet := by
    intro b hb
    obtain ⟨rfl, hbl⟩ := h2 b hb
    cases hv : b.v6
    · rw [hv] at hbl
      exact ⟨rfl, hbl, rfl⟩
    · rw [hv] at hbl
      exact ⟨rfl, hbl, rfl⟩
  rw [← ho]
  apply C167_same (v := v) ?_ h
  · intro a
    rw [← h3 a]
    constructor
    · rintro ⟨it, hi, n, hs, ha⟩
      obtain ⟨b, hb, rfl⟩ := List.mem_map.mp hi
      have e := (hst b hb).ipNet
      rw [hs.ipNet] at e
      have e := Except.ok.inj e
      simp only [ANet.mk.injEq] at e
      refine ⟨b, hb, ?_⟩
      have : b.toNet = n := by
        cases n
        simp only [ANet.toNet, Net.mk.injEq] at e ⊢
        exact ⟨e.2.1.symm, e.2.2.symm⟩
      rw [this]
      exact ha
    · rintro ⟨b, hb, ha⟩
      exact ⟨_, List.mem_map.mpr ⟨b, hb, rfl⟩, _, hst b hb, ha⟩
  · intro it hi
    obtain ⟨b, hb, rfl⟩ := List.mem_map.mp hi
    exact ⟨_, hst b hb⟩

/-- 10.0.0.4, 10.0.0.5 (as objects and networks), 10.0.0.6/31 and 10.0.0.7 collapse to
10.0.0.4/30; 10.0.0.8 stays alone.  The hypotheses hold for this list. -/
example : (∀ it ∈ ([.net4 ⟨167772168, 32⟩, .net4 ⟨167772166, 31⟩, .v4 (some ⟨167772165, 32, 167772165⟩),
      .net4 ⟨167772167, 32⟩, .net4 ⟨167772164, 32⟩] : List Item), ∃ n, Stands false it n) ∧
    collapse (some [.net4 ⟨167772168, 32⟩, .net4 ⟨167772166, 31⟩, .v4 (some ⟨167772165, 32, 167772165⟩),
      .net4 ⟨167772167, 32⟩, .net4 ⟨167772164, 32⟩]) =
      .ok [⟨false, 167772164, 30⟩, ⟨false, 167772168, 32⟩] := by
  have b : ∀ x p, (decide (p ≤ 32) && decide (x < 2 ^ 32) && decide (x % 2 ^ (32 - p) = 0)) = true →
      Block 32 ⟨x, p⟩ := by
    intro x p h
    simp only [Bool.and_eq_true, decide_eq_true_eq] at h
    exact ⟨h.1.1, h.1.2, Nat.dvd_of_mod_eq_zero h.2⟩
  have r : V4.Reachable ⟨167772165, 32, 167772165⟩ := .ofInt (n := 167772165) (by decide +kernel)
  refine ⟨?_, by decide +kernel⟩
  intro it hi
  simp only [List.mem_cons, List.not_mem_nil, or_false] at hi
  rcases hi with rfl | rfl | rfl | rfl | rfl
  · exact ⟨_, rfl, b _ _ (by decide +kernel), rfl⟩
  · exact ⟨_, rfl, b _ _ (by decide +kernel), rfl⟩
  · exact ⟨_, rfl, r, rfl⟩
  · exact ⟨_, rfl, b _ _ (by decide +kernel), rfl⟩
  · exact ⟨_, rfl, b _ _ (by decide +kernel), rfl⟩

/-- The two halves of the IPv6 space collapse to `::/0`. -/
example : collapse (some [.net6 ⟨2 ^ 127, 1⟩, .net6 ⟨0, 1⟩]) = .ok [⟨true, 0, 0⟩] := by decide +kernel

/-! ## C168 -/

/-- **C168** An IPv4 and an IPv6 network together always raise `TypeError`, wherever they
stand and however long their prefixes are. -/
theorem C168_mixed {items : List Item} (h : ∀ it ∈ items, ∃ v n, Stands v it n)
    {x y : Item} (hx : x ∈ items) (hy : y ∈ items) {n m : Net} (sx : Stands false x n)
    (sy : Stands true y m) : collapse (some items) = .error .typeError := by
  obtain ⟨L, h1, h2⟩ := ipNets_ok h
  have mx : (⟨false, n.net, n.plen⟩ : ANet) ∈ L := (h2 _).mpr ⟨x, hx, sx⟩
  have my : (⟨true, m.net, m.plen⟩ : ANet) ∈ L := (h2 _).mpr ⟨y, hy, sy⟩
  rcases splitNets_cases L [] [] with hs | hs
  · rw [collapse, h1]
    show (splitNets L [] [] >>= _) = _
    rw [hs]; rfl
  · rw [collapse_run h1 hs, collapseParts]
    simp only [List.nil_append]
    generalize hI : (L.filter (fun n => n.plen = width n.v6)).map pairOf ++
      (L.filter (fun n => ¬ n.plen = width n.v6)).map pairOf = I
    have hin : ∀ b ∈ L, pairOf b ∈ I := by
      intro b hb
      rw [← hI]
      simp only [List.mem_append, List.mem_map, List.mem_filter, decide_eq_true_eq]
      by_cases hp : b.plen = width b.v6
      · exact .inl ⟨b, ⟨hb, hp⟩, rfl⟩
      · exact .inr ⟨b, ⟨hb, hp⟩, rfl⟩
    cases hh : I.head? with
    | none =>
      rw [List.head?_eq_none_iff.mp hh] at hin
      exact absurd (hin _ mx) (by simp)
    | some w =>
      simp only
      rw [if_pos]
      rw [List.any_eq_true]
      cases hw : w.1
      · exact ⟨_, hin _ my, by simp [pairOf]⟩
      · exact ⟨_, hin _ mx, by simp [pairOf]⟩

/-- **C168** An argument that is not a sequence (a generator, a set, one network) raises
`ValueError`. -/
theorem C168_sequence : collapse none = .error .valueError := rfl

/-- **C168** A value that is not a network raises `ValueError` when everything before it
stands for a network, whatever their versions and whatever follows. -/
theorem C168_other {pre post : List Item} (h : ∀ it ∈ pre, ∃ v n, Stands v it n) :
    collapse (some (pre ++ .other :: post)) = .error .valueError := by
  have : ipNets (pre ++ .other :: post) = .error .valueError := by
    induction pre with
    | nil => rfl
    | cons x pre ih =>
      obtain ⟨v, n, hs⟩ := h x (by simp)
      rw [List.cons_append, ipNets, hs.ipNet, ih (fun it hi => h it (by simp [hi]))]
      rfl
  rw [collapse, this]
  rfl

/-- **C168** An empty `IPv4Obj()` or `IPv6Obj()` raises `AttributeError` in the same
place. -/
theorem C168_empty {pre post : List Item} (h : ∀ it ∈ pre, ∃ v n, Stands v it n) {x : Item}
    (hx : x = .v4 none ∨ x = .v6 none) :
    collapse (some (pre ++ x :: post)) = .error .attributeError := by
  have : ipNets (pre ++ x :: post) = .error .attributeError := by
    induction pre with
    | nil => rcases hx with rfl | rfl <;> rfl
    | cons y pre ih =>
      obtain ⟨v, n, hs⟩ := h y (by simp)
      rw [List.cons_append, ipNets, hs.ipNet, ih (fun it hi => h it (by simp [hi]))]
      rfl
  rw [collapse, this]
  rfl

/-- A host IPv4 network and a shorter IPv6 network are not in the same list of the
standard library, and still raise. -/
example : collapse (some [.net4 ⟨5, 32⟩, .net6 ⟨0, 64⟩]) = .error .typeError := by decide +kernel
example : collapse (some [.net4 ⟨5, 32⟩, .other, .net6 ⟨0, 64⟩]) = .error .valueError := by decide +kernel

end IP

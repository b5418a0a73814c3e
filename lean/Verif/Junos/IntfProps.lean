import Verif.Junos.Intf
import Verif.Junos.Props
import Verif.Query.Props
import Verif.Cisco.KindProps

/-! # C121, C122: interfaces of Junos documents -/

namespace Junos

open Py Conf Query

/-! ## Specification -/

namespace Spec

/-- The statement on a line of the document. -/
def stmt (doc : Doc) (i : Nat) : Str := strip (lineAt (doc.lines 0) i)

/-- The statement is directly inside a top level block `interfaces…`. -/
def Outer (doc : Doc) (top i : Nat) : Prop :=
  owner doc i = some top ∧ owner doc top = none ∧ "interfaces".toList <+: stmt doc top

/-- The statement is one level deeper: inside the block `m` of such a block. -/
def Inner (doc : Doc) (top m i : Nat) : Prop := owner doc i = some m ∧ Outer doc top m

/-- `d` is inside the block of `i`, at any depth. -/
inductive Inside (doc : Doc) : Nat → Nat → Prop
  | here {i d} : owner doc d = some i → Inside doc i d
  | deep {i m d} : owner doc d = some m → Inside doc i m → Inside doc i d

/-- No statement at the top level begins with a digit. -/
def TopWords (doc : Doc) : Prop :=
  ∀ i < (doc.lines 0).length, owner doc i = none → ∀ c, (stmt doc i).head? = some c → isDigit c = false

end Spec

section
variable {o : Opts} {doc : Spec.Doc} {lines : List Str} {P : Parsed}

/-- What is assumed of the input: a brace document, parsed as Junos, whose block headers are
not comments and whose top level statements do not begin with a digit. -/
structure Spec.Input (o : Opts) (doc : Spec.Doc) (lines : List Str) (P : Parsed) : Prop where
  syn : o.syn = .junos
  written : Spec.Written doc (Conf.Spec.input o lines)
  ne : Conf.Spec.input o lines ≠ []
  headers : doc.headers o.delims
  parsed : parseJunos o lines = .ok P
  words : Spec.TopWords doc

/-- A line with a statement or a comment on it. -/
def Spec.Line (doc : Spec.Doc) (i : Nat) : Prop :=
  i < (doc.lines 0).length ∧ ¬ Conf.Spec.blank (lineAt (doc.lines 0) i)

theorem Spec.Input.boot (I : Spec.Input o doc lines P) : bootstrap o (doc.lines 0) = .ok P := by
  rw [← parse_bootstrap I.written I.ne]; exact I.parsed

theorem Spec.Input.listed (I : Spec.Input o doc lines P) {i : Nat} (hi : Spec.Line doc i) : i ∈ P.list :=
  (mem_list I.boot).mpr ⟨hi.1, .inr (.inl hi.2)⟩

theorem Spec.Input.tree (I : Spec.Input o doc lines P) : Tree P := by
  have h := I.boot
  obtain ⟨_, _, hn, _, _⟩ := bootstrap_ok h
  refine ⟨?_, ?_, ?_, list_increasing h, fun i hi => (attrs h ((mem_list h).mp hi).1).2.2.2.1⟩
  · intro i hi
    rw [hn]; exact ((mem_list h).mp hi).1
  · intro i hi c hc
    exact ⟨children_listed h ((mem_list h).mp hi).1 hc, (children_range h ((mem_list h).mp hi).1 hc).1⟩
  · intro i hi
    exact ⟨parent_listed h hi, parent_le (parent_spec h ((mem_list h).mp hi).1)⟩

theorem Spec.Input.text (I : Spec.Input o doc lines P) {i : Nat} (hi : i < (doc.lines 0).length) :
    (P.h i).text = rstrip (lineAt (doc.lines 0) i) := (attrs I.boot hi).1

theorem Spec.Input.stmt (I : Spec.Input o doc lines P) {i : Nat} (hi : i < (doc.lines 0).length) :
    strip (P.h i).text = Spec.stmt doc i := by
  rw [I.text hi, Spec.stmt]; rw [strip, strip, rstrip_rstrip]

theorem Spec.Input.parent (I : Spec.Input o doc lines P) {i : Nat} (hi : Spec.Line doc i) :
    (P.h i).parent = (Spec.owner doc i).getD i :=
  C46_parent I.syn I.written I.ne I.headers I.parsed hi.1 hi.2

/-- The owner of a line is a line before it, indented less. -/
theorem Spec.Input.owner (I : Spec.Input o doc lines P) {i q : Nat} (hi : Spec.Line doc i)
    (h : Spec.owner doc i = some q) : Spec.Line doc q ∧ q < i ∧ 0 < Conf.Spec.indent (lineAt (doc.lines 0) i) := by
  have hr := rule_of I.written I.headers hi.1 hi.2
  have hlt := hr.2 q h
  rw [h] at hr
  rcases hr.1 with ⟨_, hn⟩ | ⟨_, he⟩
  · exact ⟨⟨by have := hi.1; simp only [Option.getD_some] at hn; omega, hn.2.1.1⟩, hlt, by
      have := hn.2.2.1; omega⟩
  · simp only [Option.getD_some] at he; omega

theorem Spec.Input.children (I : Spec.Input o doc lines P) {p c : Nat} (hp : p < (doc.lines 0).length) :
    c ∈ (P.h p).children ↔ Spec.Line doc c ∧ Spec.owner doc c = some p := by
  rw [(C46_children I.syn I.written I.ne I.headers I.parsed hp).2 c]
  exact ⟨fun h => ⟨⟨h.1, h.2.1⟩, h.2.2⟩, fun h => ⟨h.1.1, h.1.2, h.2⟩⟩

theorem Spec.Input.noDigits (I : Spec.Input o doc lines P) : Query.Spec.NoDigits P := by
  intro i hi c hc
  have hlt := ((mem_list I.boot).mp hi).1
  rw [I.text hlt] at hc
  by_cases hb : Conf.Spec.blank (lineAt (doc.lines 0) i)
  · have : rstrip (lineAt (doc.lines 0) i) = [] := by
      have h1 := (blank_rstrip _).mpr hb
      cases hr : rstrip (lineAt (doc.lines 0) i) with
      | nil => rfl
      | cons x l =>
        have h2 := getLast?_rstrip (lineAt (doc.lines 0) i) (l.getLast?.getD x) (by
          rw [hr, List.getLast?_cons])
        rw [hr] at h1
        have h3 : l.getLast?.getD x ∈ x :: l := by
          cases hl : l.getLast? with
          | none => simp
          | some z => simp [List.mem_of_getLast? hl]
        rw [h1 _ h3] at h2; cases h2
    rw [this] at hc; cases hc
  · cases ho : Spec.owner doc i with
    | some q => exact head_of_indent (I.owner ⟨hlt, hb⟩ ho).2.2 hc
    | none =>
      cases hs : isSpace c with
      | true =>
        cases hd : isDigit c with
        | false => rfl
        | true => rw [isDigit_not_space hd] at hs; cases hs
      | false =>
        refine I.words i hlt ho c ?_
        rw [Spec.stmt, strip, lstrip_of_head (s := rstrip _)]
        · exact hc
        · intro a ha; rw [ha] at hc; cases hc; exact hs

theorem Spec.Input.distinct (I : Spec.Input o doc lines P) : Distinct P := by
  intro i hi j hj he
  have hn := I.tree.num
  rw [objEq, beq_iff_eq, hn i hi, hn j hj, intStr_ofNat, intStr_ofNat] at he
  exact natStr_inj (digits_append_inj (natStr_digits i) (natStr_digits j)
    (I.noDigits i hi) (I.noDigits j hj) he)

/-- `all_parents` of a line. -/
theorem Spec.Input.parents (I : Spec.Input o doc lines P) {i : Nat} (hi : Spec.Line doc i) :
    (Spec.owner doc i = none → allParents P i = []) ∧
    (∀ q, Spec.owner doc i = some q → allParents P i = allParents P q ++ [q]) := by
  have ht := I.tree
  constructor
  · intro h
    have hp := I.parent hi
    rw [h, Option.getD_none] at hp
    rw [List.eq_nil_iff_forall_not_mem]
    intro x hx
    have := mem_allParents_sound hx
    cases this <;> contradiction
  · intro q h
    obtain ⟨hq, hlt, _⟩ := I.owner hi h
    have hp := I.parent hi
    rw [h, Option.getD_some] at hp
    have hne : (P.h i).parent ≠ i := by omega
    refine ordered_ext ht (fun x hx => (anc_lt ht (I.listed hi) (mem_allParents_sound hx)).1)
      (allParents_ordered ht (I.listed hi)) ?_ ?_
    · rw [Query.Spec.Ordered, List.pairwise_append]
      refine ⟨allParents_ordered ht (I.listed hq), by simp, ?_⟩
      intro a ha b hb
      rw [List.mem_singleton] at hb
      subst hb
      have := anc_lt ht (I.listed hq) (mem_allParents_sound ha)
      rw [ht.num a this.1, ht.num b (I.listed hq)]
      omega
    · intro x
      rw [mem_allParents ht I.distinct (I.listed hi), List.mem_append, List.mem_singleton,
        mem_allParents ht I.distinct (I.listed hq)]
      constructor
      · intro h
        cases h with
        | parent _ => exact .inr hp
        | step _ h2 => rw [hp] at h2; exact .inl h2
      · rintro (h | rfl)
        · exact .step hne (by rw [hp]; exact h)
        · have := Query.Spec.Anc.parent (P := P) hne
          rw [hp] at this; exact this

theorem Spec.Input.root (I : Spec.Input o doc lines P) : ∀ i, Spec.Line doc i → ∀ q, Spec.owner doc i = some q →
    ∃ top rest, allParents P i = top :: rest ∧ Spec.Line doc top ∧ Spec.owner doc top = none := by
  intro i
  induction i using Nat.strongRecOn with
  | ind i ih =>
    intro hi q h
    obtain ⟨hq, hlt, _⟩ := I.owner hi h
    rw [(I.parents hi).2 q h]
    cases ho : Spec.owner doc q with
    | none => exact ⟨q, [], by rw [(I.parents hq).1 ho]; rfl, hq, ho⟩
    | some r =>
      obtain ⟨top, rest, h1, h2, h3⟩ := ih q hlt hq r ho
      exact ⟨top, rest ++ [q], by rw [h1]; rfl, h2, h3⟩

theorem take_prefix {t : Str} : (t.take 10 == "interfaces".toList) = true ↔ "interfaces".toList <+: t := by
  rw [beq_iff_eq]
  constructor
  · intro h; rw [← h]; exact List.take_prefix _ _
  · rintro ⟨r, rfl⟩; rfl

theorem outer_parents (I : Spec.Input o doc lines P) {i top : Nat} (hi : Spec.Line doc i)
    (h : Spec.Outer doc top i) : Spec.Line doc top ∧ allParents P i = [top] := by
  obtain ⟨hq, _, _⟩ := I.owner hi h.1
  exact ⟨hq, by rw [(I.parents hi).2 _ h.1, (I.parents hq).1 h.2.1]; rfl⟩

theorem inner_parents (I : Spec.Input o doc lines P) {i top m : Nat} (hi : Spec.Line doc i)
    (h : Spec.Inner doc top m i) : Spec.Line doc top ∧ Spec.Line doc m ∧ allParents P i = [top, m] := by
  obtain ⟨hm, _, _⟩ := I.owner hi h.1
  obtain ⟨ht, hp⟩ := outer_parents I hm h.2
  exact ⟨ht, hm, by rw [(I.parents hi).2 _ h.1, hp]; rfl⟩

/-! ## C121 -/

/-- C121: `is_intf` is True exactly for the statements inside a top level `interfaces` block,
and for the statements one level deeper. -/
theorem C121_is_intf (I : Spec.Input o doc lines P) {i : Nat} (hi : Spec.Line doc i) :
    isIntf P i = true ↔ ∃ top, Spec.Outer doc top i ∨ ∃ m, Spec.Inner doc top m i := by
  constructor
  · intro h
    cases ho : Spec.owner doc i with
    | none => rw [isIntf, (I.parents hi).1 ho] at h; cases h
    | some q =>
      obtain ⟨top, rest, h1, h2, h3⟩ := I.root i hi q ho
      rw [isIntf, h1] at h
      simp only [I.stmt h2.1] at h
      split at h
      · rename_i hp
        rw [take_prefix] at hp
        rw [List.any_eq_true] at h
        obtain ⟨c, hc, h⟩ := h
        rw [I.children h2.1] at hc
        rw [Bool.or_eq_true, beq_iff_eq, List.any_eq_true] at h
        rcases h with rfl | ⟨x, hx, h⟩
        · exact ⟨top, .inl ⟨hc.2, h3, hp⟩⟩
        · rw [beq_iff_eq] at h
          subst h
          rw [I.children hc.1.1] at hx
          exact ⟨top, .inr ⟨c, hx.2, hc.2, h3, hp⟩⟩
      · cases h
  · rintro ⟨top, h | ⟨m, h⟩⟩
    · obtain ⟨ht, hp⟩ := outer_parents I hi h
      rw [isIntf, hp]
      simp only [I.stmt ht.1]
      rw [if_pos (take_prefix.mpr h.2.2), List.any_eq_true]
      exact ⟨i, (I.children ht.1).mpr ⟨hi, h.1⟩, by simp⟩
    · obtain ⟨ht, hm, hp⟩ := inner_parents I hi h
      rw [isIntf, hp]
      simp only [I.stmt ht.1]
      rw [if_pos (take_prefix.mpr h.2.2.2), List.any_eq_true]
      refine ⟨m, (I.children ht.1).mpr ⟨hm, h.2.1⟩, ?_⟩
      rw [Bool.or_eq_true, List.any_eq_true]
      exact .inr ⟨i, (I.children hm.1).mpr ⟨hi, h.1⟩, by simp⟩

/-- C121: the name of an interface is its statement. -/
theorem C121_name_outer (I : Spec.Input o doc lines P) {i top : Nat} (hi : Spec.Line doc i)
    (h : Spec.Outer doc top i) (hn : Spec.stmt doc top = "interfaces".toList) :
    intfName P i = some (Spec.stmt doc i) := by
  obtain ⟨ht, hp⟩ := outer_parents I hi h
  rw [intfName, if_pos ((C121_is_intf I hi).mpr ⟨top, .inl h⟩), hp]
  simp only [List.map_cons, List.map_nil, I.stmt ht.1, I.stmt hi.1, hn]
  rfl

/-- C121: the name of a statement inside an interface is the name of the interface, a blank and
the statement. -/
theorem C121_name_inner (I : Spec.Input o doc lines P) {i top m : Nat} (hi : Spec.Line doc i)
    (h : Spec.Inner doc top m i) (hn : Spec.stmt doc top = "interfaces".toList)
    (hm : Spec.stmt doc m ≠ "interfaces".toList) :
    intfName P i = some (Spec.stmt doc m ++ ' ' :: Spec.stmt doc i) := by
  obtain ⟨ht, hml, hp⟩ := inner_parents I hi h
  rw [intfName, if_pos ((C121_is_intf I hi).mpr ⟨top, .inr ⟨m, h⟩⟩), hp]
  simp only [List.map_cons, List.map_nil, I.stmt ht.1, I.stmt hi.1, I.stmt hml.1, hn]
  rw [List.filter_cons_of_neg (by simp), List.filter_cons_of_pos (by simpa using hm)]
  simp [join]

/-- C121: other lines have no name. -/
theorem C121_no_name (I : Spec.Input o doc lines P) {i : Nat} (hi : Spec.Line doc i) :
    intfName P i = none ↔ ¬ ∃ top, Spec.Outer doc top i ∨ ∃ m, Spec.Inner doc top m i := by
  rw [← C121_is_intf I hi, intfName]
  split <;> simp_all

theorem inside_trans {a c d : Nat} (h : Spec.owner doc c = some a) (h2 : Spec.Inside doc c d) :
    Spec.Inside doc a d := by
  induction h2 with
  | here h' => exact .deep h' (.here h)
  | deep h' _ ih => exact .deep h' ih

theorem infix_lstrip {c : Char} {p : Str} (hc : isSpace c = false) (t : Str) : c :: p <:+: t ↔ c :: p <:+: lstrip t := by
  induction t with
  | nil => rfl
  | cons x t ih =>
    by_cases hx : isSpace x = true
    · rw [lstrip, List.dropWhile_cons_of_pos hx, ← lstrip, ← ih, List.infix_cons_iff]
      refine ⟨fun h => ?_, .inr⟩
      rcases h with ⟨r, h⟩ | h
      · rw [List.cons_append] at h
        rw [(List.cons.inj h).1, hx] at hc; cases hc
      · exact h
    · rw [lstrip, List.dropWhile_cons_of_neg hx]

theorem Spec.Input.desc (I : Spec.Input o doc lines P) {i d : Nat} (hi : Spec.Line doc i) :
    Query.Spec.Desc P i d ↔ Spec.Line doc d ∧ Spec.Inside doc i d := by
  constructor
  · intro h
    induction h with
    | child hc =>
      have := (I.children hi.1).mp hc
      exact ⟨this.1, .here this.2⟩
    | @step a c d hc _ ih =>
      have := (I.children hi.1).mp hc
      obtain ⟨h1, h2⟩ := ih this.1
      refine ⟨h1, ?_⟩
      exact inside_trans this.2 h2
  · rintro ⟨h1, h2⟩
    induction h2 with
    | here h => exact .child ((I.children hi.1).mpr ⟨h1, h⟩)
    | deep h _ ih =>
      have hm := (I.owner h1 h).1
      exact desc_tail (ih hm) ((I.children hm.1).mpr ⟨h1, h⟩)

theorem Spec.Input.kids (I : Spec.Input o doc lines P) : KidsDistinct P := fun i hi c hc j hj d hd he =>
  I.distinct c (I.tree.kids i hi c hc).1 d (I.tree.kids j hj d hd).1 he

/-- C121: `is_switchport` is True exactly for the interfaces with a statement
`…family ethernet-switching…` inside, at any depth. -/
theorem C121_switchport (I : Spec.Input o doc lines P) {i : Nat} (hi : Spec.Line doc i) :
    isSwitchport P i = true ↔ (∃ top, Spec.Outer doc top i ∨ ∃ m, Spec.Inner doc top m i) ∧
      ∃ d, Spec.Line doc d ∧ Spec.Inside doc i d ∧ "family ethernet-switching".toList <:+: Spec.stmt doc d := by
  rw [isSwitchport, Bool.and_eq_true, C121_is_intf I hi, List.any_eq_true]
  refine and_congr Iff.rfl ?_
  refine exists_congr (fun d => ?_)
  rw [mem_allChildren I.tree I.kids (I.listed hi), I.desc hi, and_assoc]
  refine and_congr_right (fun hd => and_congr Iff.rfl ?_)
  rw [isInfix_iff, I.text hd.1, Spec.stmt, strip]
  exact infix_lstrip (by decide) _

/-! ## C122 -/

/-- C122: a `unit` of an interface is a subinterface; an interface with no `unit` in its name is
not. -/
theorem C122_unit_partial (I : Spec.Input o doc lines P) {i top m : Nat} (hi : Spec.Line doc i)
    (hn : Spec.stmt doc top = "interfaces".toList) :
    (Spec.Inner doc top m i → Spec.stmt doc m ≠ "interfaces".toList → ∀ r, Spec.stmt doc i = "unit ".toList ++ r →
      isSubintf P i = true) ∧
    (Spec.Outer doc top i → ¬ "unit".toList <:+: Spec.stmt doc i → isSubintf P i = false) := by
  constructor
  · intro h hm r hr
    rw [isSubintf, C121_name_inner I hi h hn hm]
    simp only [isInfix_iff]
    rw [hr]
    exact ⟨Spec.stmt doc m ++ [' '], ' ' :: r, by simp⟩
  · intro h hu
    rw [isSubintf, C121_name_outer I hi h hn]
    cases hb : isInfix "unit".toList (Spec.stmt doc i) with
    | false => exact hb
    | true => exact absurd ((isInfix_iff _ _).mp hb) hu

/-- C122 does not hold as documented: every statement inside an interface, such as its `mtu` or
its `description`, is an interface, and a subinterface if it has `unit` in it or in the name. -/
theorem C122_any_fails (I : Spec.Input o doc lines P) {i top m : Nat} (hi : Spec.Line doc i)
    (h : Spec.Inner doc top m i) : isIntf P i = true ∧
      (Spec.stmt doc top = "interfaces".toList → Spec.stmt doc m ≠ "interfaces".toList →
        (isSubintf P i = true ↔ "unit".toList <:+: Spec.stmt doc m ++ ' ' :: Spec.stmt doc i)) := by
  refine ⟨(C121_is_intf I hi).mpr ⟨top, .inr ⟨m, h⟩⟩, fun hn hm => ?_⟩
  rw [isSubintf, C121_name_inner I hi h hn hm]
  exact isInfix_iff _ _

open Re Cisco in
/-- A text with a blank in front is no match. -/
theorem no_interface {rx : String} {l : List Rgx} {n : Nat} {ns : List (Str × Nat)}
    (hc : compile rx = .ok ⟨seqs (.bol :: ((str "interface".toList (.plus .space .done)).toL ++ l)), n, ns⟩)
    {t : Str} (ht : ∀ c, t.head? = some c → isSpace c = true) : Cisco.reTrue rx t = .ok false := by
  obtain ⟨b, h1, h2⟩ := reTrue_bol hc t
  rw [h1]
  cases b with
  | false => rfl
  | true =>
    obtain ⟨v, h⟩ := h2.mp rfl
    obtain ⟨u, h3, h4⟩ := (lang_append ..).mp h
    obtain ⟨r, rfl, h5⟩ := (lang_str ..).mp h3
    exact absurd (ht 'i' rfl) (by decide)

open Re Cisco in
/-- C122 does not hold as documented: no interface of a document is ever a loopback, an
ethernet or a virtual interface, whatever its name. -/
theorem C122_kinds_fails (I : Spec.Input o doc lines P) {i : Nat} (hi : Spec.Line doc i) {q : Nat}
    (h : Spec.owner doc i = some q) : isLoopbackIntf P i = .ok false ∧ isEthernetIntf P i = .ok false ∧
      isVirtualIntf P i = .ok false := by
  have hb : ∀ c, (P.h i).text.head? = some c → isSpace c = true := by
    intro c hc
    rw [I.text hi.1] at hc
    have h0 := (I.owner hi h).2.2
    rw [Conf.Spec.indent] at h0
    cases hr : rstrip (lineAt (doc.lines 0) i) with
    | nil => rw [hr] at hc; cases hc
    | cons x xs =>
      rw [hr] at hc h0
      cases hc
      rw [List.takeWhile_cons] at h0
      split at h0
      · assumption
      · simp at h0
  refine ⟨no_interface (l := [Rgx.grp 1 (seqs (.cls K.nonspace.cls :: (str "oopback".toList .done).toL))]) (n := 1) (ns := []) (by decide +kernel) hb,
    no_interface (l := [Rgx.grp 1 (seqs (.star false (.cls K.any.cls) :: .cls K.nonspace.cls :: (str "thernet".toList .done).toL))]) (n := 1) (ns := []) (by decide +kernel) hb,
    ?_⟩
  exact no_interface (l := [Rgx.grp 1 (alts (["Loopback", "Tunnel", "Dialer", "Virtual-Template", "Port-Channel"].map
    (fun w => seqs (str w.toList .done).toL)))]) (n := 1) (ns := []) (by decide +kernel) hb

end

/-! ## A document -/

def Spec.sampleIntf : Spec.Doc :=
  .block "interfaces".toList
    (.block "ge-0/0/0".toList
      (.leaf "mtu 9000".toList (.block "unit 0".toList (.leaf "family ethernet-switching".toList .nil) .done .nil))
      .done (.block "lo0".toList (.leaf "description my unit".toList .nil) .done .nil))
    .done (.leaf "version 1".toList .nil)

def Spec.sampleLines : List Str :=
  [s "interfaces {", s "  ge-0/0/0 {", s "    mtu 9000;", s "    unit 0 {", s "      family ethernet-switching;", s "    }",
   s "  }", s "  lo0 {", s "    description my unit;", s "  }", s "}", s "version 1;"]

instance (w : Str) : Decidable (Spec.White w) := inferInstanceAs (Decidable (∀ c ∈ w, isSpace c = true))

theorem Spec.sample_written : Spec.Written sampleIntf sampleLines := by
  have tx : ∀ t : Str, (t ≠ [] ∧ (∀ c ∈ t.head?, isSpace c = false ∧ c ≠ '}' ∧ c ≠ '#') ∧
    (∀ c ∈ t.getLast?, isSpace c = false ∧ c ≠ '{' ∧ c ≠ ';')) → Spec.Text t := fun t h => text_of h
  have op : ∀ (w t l : Str), Spec.White w → Spec.Text t → l = w ++ t ++ [' '] ++ '{' :: [] → Spec.OpenLine t l := by
    rintro w t l hw ht rfl
    exact ⟨ht, w, [' '], [], rfl, hw, by decide, white_nil⟩
  have lf : ∀ (w t l : Str), Spec.White w → Spec.Text t → '{' ∉ t → l = w ++ t ++ [] ++ List.replicate 1 ';' ++ [] →
      Spec.LeafLine t l := by
    rintro w t l hw ht hn rfl
    exact ⟨ht, noEmpty_of hn, w, [], [], 1, rfl, hw, white_nil, white_nil⟩
  have cl : ∀ (w l : Str), Spec.White w → l = w ++ '}' :: List.replicate 0 ';' ++ [] → Spec.CloseLine l := by
    rintro w l hw rfl
    exact ⟨w, [], 0, rfl, hw, white_nil⟩
  refine .block (lb := [s "  ge-0/0/0 {", s "    mtu 9000;", s "    unit 0 {", s "      family ethernet-switching;", s "    }",
      s "  }", s "  lo0 {", s "    description my unit;", s "  }"]) (la := [s "}"])
    (op [] _ _ (by decide) (tx _ (by decide)) (by decide)) ?_ (.done (cl [] _ (by decide) (by decide)))
    (.leaf (lf [] _ _ (by decide) (tx _ (by decide)) (by decide) (by decide)) .nil)
  refine .block (lb := [s "    mtu 9000;", s "    unit 0 {", s "      family ethernet-switching;", s "    }"]) (la := [s "  }"])
    (op [' ', ' '] _ _ (by decide) (tx _ (by decide)) (by decide)) ?_ (.done (cl [' ', ' '] _ (by decide) (by decide))) ?_
  · refine .leaf (lf (spaces 4) _ _ (by decide) (tx _ (by decide)) (by decide) (by decide)) ?_
    exact .block (lb := [s "      family ethernet-switching;"]) (la := [s "    }"])
      (op (spaces 4) _ _ (by decide) (tx _ (by decide)) (by decide))
      (.leaf (lf (spaces 6) _ _ (by decide) (tx _ (by decide)) (by decide) (by decide)) .nil)
      (.done (cl (spaces 4) _ (by decide) (by decide))) .nil
  · exact .block (lb := [s "    description my unit;"]) (la := [s "  }"])
      (op (spaces 2) _ _ (by decide) (tx _ (by decide)) (by decide))
      (.leaf (lf (spaces 4) _ _ (by decide) (tx _ (by decide)) (by decide) (by decide)) .nil)
      (.done (cl (spaces 2) _ (by decide) (by decide))) .nil

/-- The hypotheses of C121 and C122 are met; `mtu 9000` is line 2, `unit 0` line 3, `lo0` line 7. -/
example : ∃ P, Spec.Input { syn := .junos } Spec.sampleIntf Spec.sampleLines P ∧
    [0, 1, 2, 3, 4, 7, 8, 11].map (fun i => intfName P i) =
      [none, some (s "ge-0/0/0"), some (s "ge-0/0/0 mtu 9000"), some (s "ge-0/0/0 unit 0"), none, some (s "lo0"),
        some (s "lo0 description my unit"), none] ∧
    [0, 1, 2, 3, 4, 7, 8, 11].map (fun i => (isSubintf P i, isSwitchport P i)) =
      [(false, false), (false, true), (false, false), (true, true), (false, false), (false, false), (true, false),
        (false, false)] := by
  have hp : ∃ P, parseJunos { syn := .junos } Spec.sampleLines = .ok P ∧
    [0, 1, 2, 3, 4, 7, 8, 11].map (fun i => intfName P i) =
      [none, some (s "ge-0/0/0"), some (s "ge-0/0/0 mtu 9000"), some (s "ge-0/0/0 unit 0"), none, some (s "lo0"),
        some (s "lo0 description my unit"), none] ∧
    [0, 1, 2, 3, 4, 7, 8, 11].map (fun i => (isSubintf P i, isSwitchport P i)) =
      [(false, false), (false, true), (false, false), (true, true), (false, false), (false, false), (true, false),
        (false, false)] := ⟨_, rfl, by decide +kernel, by decide +kernel⟩
  obtain ⟨P, h1, h2, h3⟩ := hp
  refine ⟨P, ⟨rfl, ?_, by decide, ?_, h1, ?_⟩, h2, h3⟩
  · have : Conf.Spec.input { syn := .junos } Spec.sampleLines = Spec.sampleLines := by decide
    rw [this]; exact Spec.sample_written
  · simp only [Spec.sampleIntf, Spec.Doc.headers, Spec.Alts.headers]
    decide
  · have : ∀ i ∈ List.range (Spec.sampleIntf.lines 0).length, Spec.owner Spec.sampleIntf i = none →
        ∀ c ∈ (Spec.stmt Spec.sampleIntf i).head?, isDigit c = false := by decide +kernel
    intro i hi ho c hc
    exact this i (List.mem_range.mpr hi) ho c hc

end Junos

import Verif.Cisco.Find
import Verif.Cisco.NameProps
import Verif.Cisco.FactoryProps
import Verif.Query.RequiredProps

/-! # The searches for factory objects (C104, C105) -/

namespace Cisco

open Py Conf Query Re Spec

variable {o : Opts} {lines : List Str} {P : Parsed} {cs : List LineCls}

/-- The text `v` abbreviates the name of the interface line `t`: capital letters do not count,
the type may be cut anywhere after its first letter, and one blank may stand before the
number. -/
def Spec.Abbreviates (v t : Str) : Prop :=
  ∃ ty num more, Named t ty num more ∧
    ∃ a sep, a ≠ [] ∧ a <+: ty.map lowerChar ∧ (sep = [] ∨ sep = [' ']) ∧ v.map lowerChar = a ++ sep ++ num

theorem parse_of_factory (h : parseFactory o lines = .ok (cs, P)) : parse { o with factory := true } lines = .ok P := by
  rw [parseFactory] at h
  cases hm : (preFilter { o with factory := true } lines).mapM lineFactory with
  | error e => rw [hm] at h; cases h
  | ok cs' =>
    rw [hm] at h
    cases hp : parse { o with factory := true } lines with
    | error e => rw [hp] at h; cases h
    | ok P' => rw [hp] at h; cases h; rfl

theorem class_of_line (h : parseFactory o lines = .ok (cs, P)) {i : Nat} (hi : i ∈ P.list) :
    ∃ l c, lines[i]? = some l ∧ cs[i]? = some c ∧ lineFactory l = .ok c ∧ (P.h i).text = rstrip l := by
  have hp := parse_of_factory h
  have hin : Conf.Spec.input { o with factory := true } lines = lines := by rw [← input_eq, preFilter_factory]
  obtain ⟨h1, _, h3⟩ := C20_texts_partial hp
  rw [hin] at h1 h3
  have hlt := ((h3 i).mp hi).1
  rw [Parsed.texts] at h1
  have ht := List.map_inj_left.mp h1 i hi
  rw [parseFactory, preFilter_factory] at h
  cases hm : lines.mapM lineFactory with
  | error e => rw [hm] at h; cases h
  | ok cs' =>
    rw [hm, hp] at h
    cases h
    obtain ⟨hl, hc⟩ := mapM_ok hm
    obtain ⟨l, e1, e2⟩ := hc i cs[i] (List.getElem?_eq_getElem (by omega))
    refine ⟨l, _, e1, List.getElem?_eq_getElem (by omega), e2, ?_⟩
    rw [ht, lineAt, List.getD_eq_getElem?_getD, e1]
    rfl

theorem named_class (h : parseFactory o lines = .ok (cs, P)) {i : Nat} (hi : i ∈ P.list) {ty num : Str} {more : List Str}
    (hn : Named (P.h i).text ty num more) : cs.getD i .cfg = .intf := by
  obtain ⟨l, c, h1, h2, h3, h4⟩ := class_of_line h hi
  have hk : Kind l .intf := by
    have hs : splitWs l = splitWs (P.h i).text := by rw [h4, splitWs_rstrip]
    rcases (named_split hn).2 with e | e
    · exact ⟨_, hs.trans e⟩
    · exact ⟨_, hs.trans e⟩
  rcases C77_class hk (by decide) with e | ⟨e, _⟩
  · rw [List.getD_eq_getElem?_getD, h2]
    rw [h3] at e
    exact Except.ok.inj e
  · rcases e with e | e <;> cases e

theorem abbreviates_iff {t ty num : Str} {more : List Str} (hn : Named t ty num more) (v : Str) :
    ∃ b, isAbbreviatedAs t v = .ok b ∧ (b = true ↔ Spec.Abbreviates v t) := by
  obtain ⟨b, h1, h2⟩ := C85_abbreviated hn v
  refine ⟨b, h1, fun e => ⟨ty, num, more, hn, h2.mp e⟩, ?_⟩
  rintro ⟨ty', num', more', hn', ha⟩
  obtain ⟨b', h3, h4⟩ := C85_abbreviated hn' v
  rw [h1] at h3
  rw [Except.ok.inj h3]
  exact h4.mpr ha

theorem firstAbbreviated_spec (h : parseFactory o lines = .ok (cs, P)) (v : Str) : ∀ (l : List Nat),
    (∀ i ∈ l, i ∈ P.list ∧ ∃ ty num more, Named (P.h i).text ty num more) →
    ∃ r, firstAbbreviated P cs v l = .ok r ∧
      ((∃ pre i post, r = [i] ∧ l = pre ++ i :: post ∧ Spec.Abbreviates v (P.h i).text ∧
          ∀ j ∈ pre, ¬ Spec.Abbreviates v (P.h j).text) ∨
        (r = [] ∧ ∀ j ∈ l, ¬ Spec.Abbreviates v (P.h j).text)) := by
  intro l
  induction l with
  | nil => exact fun _ => ⟨[], rfl, .inr ⟨rfl, by simp⟩⟩
  | cons i is ih =>
    intro hl
    obtain ⟨hi, ty, num, more, hn⟩ := hl i (by simp)
    obtain ⟨b, h1, h2⟩ := abbreviates_iff hn v
    rw [firstAbbreviated, if_pos (named_class h hi hn), h1]
    cases b with
    | true => exact ⟨[i], rfl, .inl ⟨[], i, is, rfl, rfl, h2.mp rfl, by simp⟩⟩
    | false =>
      have hno : ¬ Spec.Abbreviates v (P.h i).text := fun e => by cases h2.mpr e
      obtain ⟨r, h3, h4⟩ := ih (fun j hj => hl j (by simp [hj]))
      refine ⟨r, h3, ?_⟩
      rcases h4 with ⟨pre, k, post, e1, e2, e3, e4⟩ | ⟨e1, e2⟩
      · refine .inl ⟨i :: pre, k, post, e1, by rw [e2]; rfl, e3, fun j hj => ?_⟩
        rcases List.mem_cons.mp hj with rfl | hj
        · exact hno
        · exact e4 j hj
      · refine .inr ⟨e1, fun j hj => ?_⟩
        rcases List.mem_cons.mp hj with rfl | hj
        · exact hno
        · exact e2 j hj

theorem interface_prefix (h : parse o lines = .ok P) :
    ∃ l, findObjectsT P "^interface".toList false false = .ok l ∧
      (∀ i, i ∈ l ↔ i ∈ P.list ∧ "interface".toList <+: (P.h i).text) ∧ Query.Spec.Ordered P l := by
  have hlit : Query.Spec.Literal "interface".toList := by decide
  obtain ⟨⟨l, h1, h2, h3⟩, _⟩ := C94_pattern h ⟨true, lits "interface".toList, false⟩ (lits_ok hlit)
  refine ⟨l, h1, fun i => ?_, h3⟩
  rw [h2]
  refine and_congr_right fun _ => ?_
  constructor
  · rintro ⟨a, b, c, e, hb, ha, _⟩
    obtain rfl : a = [] := ha rfl
    rw [reads_lits] at hb
    subst hb
    exact ⟨c, e.symm⟩
  · rintro ⟨c, e⟩
    exact ⟨[], _, c, e.symm, (reads_lits _ _).mpr rfl, fun _ => rfl, fun e => by cases e⟩

/-! ## C104 -/

/-- C104: `find_interface_objects` returns the first line whose name the text abbreviates, and
nothing if there is none.  (Every line that begins with `interface` is an interface line with a
type and a number.) -/
theorem C104_first_partial (h : parseFactory o lines = .ok (cs, P))
    (hn : ∀ i ∈ P.list, "interface".toList <+: (P.h i).text → ∃ ty num more, Named (P.h i).text ty num more) (v : Str) :
    (∃ i, findInterfaceObjects true true false P cs v = .ok [i] ∧ i ∈ P.list ∧ Spec.Abbreviates v (P.h i).text ∧
      ∀ j ∈ P.list, j < i → ¬ Spec.Abbreviates v (P.h j).text) ∨
    (findInterfaceObjects true true false P cs v = .ok [] ∧ ∀ j ∈ P.list, ¬ Spec.Abbreviates v (P.h j).text) := by
  have hp := parse_of_factory h
  obtain ⟨l, h1, h2, h3⟩ := interface_prefix hp
  have hab : ∀ j ∈ P.list, Spec.Abbreviates v (P.h j).text → j ∈ l := by
    rintro j hj ⟨ty, num, more, hm, _⟩
    obtain ⟨gap, _, e⟩ := hm.text
    refine (h2 j).mpr ⟨hj, ?_⟩
    rw [e]
    exact ⟨' ' :: (ty ++ (gap ++ (num ++ tailText more))), rfl⟩
  obtain ⟨r, h4, h5⟩ := firstAbbreviated_spec h v l (fun i hi => ⟨((h2 i).mp hi).1, hn i ((h2 i).mp hi).1 ((h2 i).mp hi).2⟩)
  have hr : findInterfaceObjects true true false P cs v = .ok r := by
    rw [findInterfaceObjects, if_neg (by decide), if_pos rfl, if_pos rfl, h1]
    exact h4
  rcases h5 with ⟨pre, i, post, rfl, e, ha, hpre⟩ | ⟨rfl, hno⟩
  · refine .inl ⟨i, hr, ((h2 i).mp (by rw [e]; simp)).1, ha, fun j hj hji hj' => ?_⟩
    have hm := hab j hj hj'
    rw [e, List.mem_append, List.mem_cons] at hm
    rcases hm with hm | rfl | hm
    · exact hpre j hm hj'
    · omega
    · have ht := tree_of_parse hp
      have hil : i ∈ P.list := ((h2 i).mp (by rw [e]; simp)).1
      have := (List.pairwise_append.mp (e ▸ h3)).2.1
      have := (List.pairwise_cons.mp this).1 j hm
      rw [ht.num i hil, ht.num j hj] at this
      omega
  · exact .inr ⟨hr, fun j hj hj' => hno j (hab j hj hj') hj'⟩

/-- C104: the method needs `factory=True`, `exactmatch=True` and a syntax without braces. -/
theorem C104_refused (P : Parsed) (cs : List LineCls) (v : Str) (exact brace : Bool) :
    findInterfaceObjects false exact brace P cs v = .error .valueError ∧
    findInterfaceObjects true false brace P cs v = .error .notImplemented ∧
    findInterfaceObjects true exact true P cs v = .error .notImplemented := by
  cases exact <;> cases brace <;> exact ⟨rfl, rfl, rfl⟩

/-- Two interfaces and a line for the second. -/
def exTwo : List Str := ["interface GigabitEthernet0/1".toList, "interface GigabitEthernet 0/2.1 point-to-point".toList,
  " ip address 10.0.0.1 255.0.0.0".toList]

example : ((parseFactory {} exTwo).toOption.map (fun q =>
    [findInterfaceObjects true true false q.2 q.1 "gig0/1".toList, findInterfaceObjects true true false q.2 q.1 "G 0/2.1".toList,
      findInterfaceObjects true true false q.2 q.1 "Te0/1".toList].map Except.toOption)) =
    some [some [0], some [1], some []] := by decide +kernel

example : Spec.Abbreviates "G 0/2.1".toList "interface GigabitEthernet 0/2.1 point-to-point".toList :=
  ⟨"GigabitEthernet".toList, "0/2.1".toList, ["point-to-point".toList],
    ⟨⟨[' '], by decide, by decide⟩, by decide, ⟨⟨'0', by decide⟩, by decide⟩, by decide⟩,
    "g".toList, [' '], by decide, by decide, .inr rfl, by decide⟩

/-- C104 does not hold as stated: another line that begins with `interface` before the interface
raises AttributeError. -/
theorem C104_other_fails :
    ((parseFactory {} ["interfaces all".toList, "interface Gi0/1".toList]).toOption.map (fun q =>
      match findInterfaceObjects true true false q.2 q.1 "Gi0/1".toList with
      | .error .attributeError => true
      | _ => false)) = some true := by decide +kernel

/-! ## C105 -/

/-- The names of the classes. -/
def Spec.names : List (LineCls × String) :=
  [(.intf, "IOSIntfLine"), (.route, "IOSRouteLine"), (.access, "IOSAccessLine"), (.aaaLogin, "IOSAaaLoginAuthenticationLine"),
    (.aaaEnable, "IOSAaaEnableAuthenticationLine"), (.aaaCommandsAuthz, "IOSAaaCommandsAuthorizationLine"),
    (.aaaConsoleAuthz, "IOSAaaConsoleAuthorizationLine"), (.aaaCommandsAcct, "IOSAaaCommandsAccountingLine"),
    (.aaaExecAcct, "IOSAaaExecAccountingLine"), (.aaaGroup, "IOSAaaGroupServerLine"), (.hostname, "IOSHostnameLine"),
    (.intfGlobal, "IOSIntfGlobal"), (.cfg, "IOSCfgLine")]

/-- The class of the line number `i`. -/
def Spec.ClassAt (lines : List Str) (i : Nat) (c : LineCls) : Prop := ∃ l, lines[i]? = some l ∧ lineFactory l = .ok c

theorem classAt_iff (h : parseFactory o lines = .ok (cs, P)) {i : Nat} (hi : i ∈ P.list) (c : LineCls) :
    Spec.ClassAt lines i c ↔ cs.getD i .cfg = c := by
  obtain ⟨l, c', h1, h2, h3, _⟩ := class_of_line h hi
  rw [List.getD_eq_getElem?_getD, h2, Option.getD_some]
  constructor
  · rintro ⟨l', e1, e2⟩
    rw [h1] at e1
    cases e1
    rw [h3] at e2
    exact Except.ok.inj e2
  · rintro rfl
    exact ⟨l, h1, h3⟩

theorem dna_names (c : LineCls) (n : String) : (c, n) ∈ Spec.names ↔ dna c = n.toList := by
  constructor
  · intro h
    simp only [Spec.names, List.mem_cons, Prod.mk.injEq, List.not_mem_nil, or_false] at h
    rcases h with ⟨rfl, rfl⟩ | ⟨rfl, rfl⟩ | ⟨rfl, rfl⟩ | ⟨rfl, rfl⟩ | ⟨rfl, rfl⟩ | ⟨rfl, rfl⟩ | ⟨rfl, rfl⟩ | ⟨rfl, rfl⟩ | ⟨rfl, rfl⟩ |
      ⟨rfl, rfl⟩ | ⟨rfl, rfl⟩ | ⟨rfl, rfl⟩ | ⟨rfl, rfl⟩ <;> rfl
  · intro h
    have : ∃ m, (c, m) ∈ Spec.names ∧ dna c = m.toList := by
      cases c <;> exact ⟨_, by simp [Spec.names], rfl⟩
    obtain ⟨m, h1, h2⟩ := this
    rw [h2] at h
    rw [← String.toList_inj.mp h]
    exact h1

theorem dna_rstrip (c : LineCls) : rstrip (dna c) = dna c := by cases c <;> decide

theorem dna_find (h : parse o lines = .ok P) {spec : Str} {exact : Bool} {rx : Rx} {R : Str → Prop}
    (hr : textRx (exactSpec exact spec) = .ok rx) (hm : ∀ t, rstrip t = t → (Query.Spec.Match rx t ↔ R t)) :
    ∃ l, findObjectsDna true exact P cs spec = .ok l ∧ (∀ i, i ∈ l ↔ i ∈ P.list ∧ R (dna (cs.getD i .cfg))) ∧
      Query.Spec.Ordered P l := by
  have ht := tree_of_parse h
  refine ⟨P.list.filter (fun i => rx.search (dna (cs.getD i .cfg))), ?_, fun i => ?_, ?_⟩
  · rw [findObjectsDna, if_neg (by decide), hr]; rfl
  · rw [List.mem_filter]
    refine and_congr_right fun _ => ?_
    rw [← hm _ (dna_rstrip _), search_iff]
  · refine filter_ordered (List.Pairwise.imp_of_mem ?_ ht.inc) _
    intro a b ha hb hab
    rw [ht.num a ha, ht.num b hb]
    omega

/-- C105: `find_objects_dna` with a plain text returns exactly the lines whose class has a name
that contains the text; with `exactmatch`, exactly the lines of the class with this name.  In
line order. -/
theorem C105_dna (h : parseFactory o lines = .ok (cs, P)) {spec : Str} (hs : Query.Spec.Literal spec) :
    (∃ l, findObjectsDna true false P cs spec = .ok l ∧ Query.Spec.Ordered P l ∧
      ∀ i, i ∈ l ↔ i ∈ P.list ∧ ∃ c n, Spec.ClassAt lines i c ∧ (c, n) ∈ Spec.names ∧ spec <:+: n.toList) ∧
    (∃ l, findObjectsDna true true P cs spec = .ok l ∧ Query.Spec.Ordered P l ∧
      ∀ i, i ∈ l ↔ i ∈ P.list ∧ ∃ c n, Spec.ClassAt lines i c ∧ (c, n) ∈ Spec.names ∧ spec = n.toList) := by
  have hp := parse_of_factory h
  have key : ∀ (R : Str → Prop) i, i ∈ P.list → (R (dna (cs.getD i .cfg)) ↔
      ∃ c n, Spec.ClassAt lines i c ∧ (c, n) ∈ Spec.names ∧ R n.toList) := by
    intro R i hi
    constructor
    · intro hR
      refine ⟨_, String.ofList (dna (cs.getD i .cfg)), (classAt_iff h hi _).mpr rfl, (dna_names _ _).mpr ?_, ?_⟩ <;>
        rw [String.toList_ofList]
      exact hR
    · rintro ⟨c, n, h1, h2, h3⟩
      rw [(classAt_iff h hi c).mp h1, (dna_names c n).mp h2]
      exact h3
  constructor
  · obtain ⟨rx, hr, _, hm, _⟩ := rx_anchored 0 0 (lits_ok hs)
    have e : textRx (exactSpec false spec) = .ok rx := by
      rw [← hr]; simp [exactSpec, lits_text]
    obtain ⟨l, h1, h2, h3⟩ := dna_find (cs := cs) hp e (R := fun t => spec <:+: t) (fun t ht => by
      rw [hm]
      constructor
      · rintro ⟨a, b, c, e, hb, _⟩
        rw [reads_lits] at hb
        exact ⟨a, c, by rw [e, hb]⟩
      · rintro ⟨a, c, e⟩
        exact ⟨a, spec, c, e.symm, (reads_lits _ _).mpr rfl, .inl rfl, .inl rfl⟩)
    exact ⟨l, h1, h3, fun i => (h2 i).trans (and_congr_right fun hi => key _ i hi)⟩
  · obtain ⟨rx, hr, _, hm, _⟩ := rx_anchored 1 1 (lits_ok hs)
    have e : textRx (exactSpec true spec) = .ok rx := by
      rw [← hr]; simp [exactSpec, lits_text]
    obtain ⟨l, h1, h2, h3⟩ := dna_find (cs := cs) hp e (R := fun t => spec = t) (fun t ht =>
      whole_iff (R := fun t => spec = t) (fun b => (reads_lits _ _).trans eq_comm) (k := 0) (m := 0) hm ht)
    exact ⟨l, h1, h3, fun i => (h2 i).trans (and_congr_right fun hi => key (fun t => spec = t) i hi)⟩

/-- C105: the method needs `factory=True`. -/
theorem C105_refused (P : Parsed) (cs : List LineCls) (spec : Str) (exact : Bool) :
    findObjectsDna false exact P cs spec = .error .valueError := rfl

example : ((parseFactory {} exConf).toOption.map (fun q =>
    [findObjectsDna true false q.2 q.1 "Hostname".toList, findObjectsDna true true q.2 q.1 "Hostname".toList,
      findObjectsDna true true q.2 q.1 "IOSCfgLine".toList].map Except.toOption)) =
    some [some [0], some [], some [2, 3]] := by decide +kernel

example : Query.Spec.Literal "Hostname".toList ∧ Spec.ClassAt exConf 0 .hostname := ⟨by decide, _, rfl, by decide +kernel⟩

end Cisco

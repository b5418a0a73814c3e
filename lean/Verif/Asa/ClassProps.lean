import Verif.Asa.DictProps
import Verif.Cisco.KindProps
import Verif.Cisco.FindProps

/-! # C111: the classes of the objects of an ASA configuration -/

namespace Asa

open Py Conf Query Re Cisco

/-! ## The tests -/

theorem starts_iff (w : String) (l : Str) : starts w l = true ↔ Spec.Begins w l := by
  rw [starts, isInfix_iff]
  constructor
  · rintro ⟨pre, post, h⟩
    have hlen := congrArg List.length h
    simp only [List.length_map, List.length_take, List.length_append] at hlen
    have h1 : pre = [] := by apply List.eq_nil_of_length_eq_zero; omega
    have h2 : post = [] := by apply List.eq_nil_of_length_eq_zero; omega
    subst h1 h2
    exact ⟨l.take w.toList.length, l.drop w.toList.length, (List.take_append_drop _ _).symm, by simpa using h.symm⟩
  · rintro ⟨v, rest, rfl, hv⟩
    have : v.length = w.toList.length := by rw [← hv, List.length_map]
    exact ⟨[], [], by rw [← this, List.take_left, hv]; simp⟩

theorem begins_prefix {w : String} {l : Str} (h : Spec.Begins w l) : w.toList <+: l.map lowerChar := by
  obtain ⟨v, rest, rfl, hv⟩ := h
  exact ⟨rest.map lowerChar, by rw [List.map_append, hv]⟩

theorem begins_of_prefix {w : String} {l : Str} (hw : w.toList.map lowerChar = w.toList) (h : w.toList <+: l) : Spec.Begins w l := by
  obtain ⟨r, rfl⟩ := h
  exact ⟨_, r, rfl, hw⟩

/-- `^interface\s+(\S+.+)`. -/
def intfL : List Rgx :=
  (str "interface".toList (.plus .space .done)).toL ++
    [.grp 1 (seqs [.seq (.cls K.nonspace.cls) (.star true (.cls K.nonspace.cls)),
      .seq (.cls ⟨[.chr '\n'], true, false⟩) (.star true (.cls ⟨[.chr '\n'], true, false⟩))])]

theorem compile_intf : compile "^interface\\s+(\\S+.+)" = .ok ⟨seqs (.bol :: intfL), 1, []⟩ := by decide +kernel

theorem dot_has (y : Char) : (⟨[.chr '\n'], true, false⟩ : Re.Cls).has y = true ↔ y ≠ '\n' := by
  simp [Re.Cls.has, Re.Item.has]

theorem lang_grp (n k : Nat) (r : Rgx) (u v : Str) : Lang n (.grp k r) u v ↔ Lang n r u v := by rw [Lang]

/-- `.+` -/
theorem lang_dot (n : Nat) (g : Bool) (u v : Str) :
    Lang n (.seq (.cls ⟨[.chr '\n'], true, false⟩) (.star g (.cls ⟨[.chr '\n'], true, false⟩))) u v ↔
      ∃ y w, u = y :: (w ++ v) ∧ y ≠ '\n' ∧ ∀ c ∈ w, c ≠ '\n' := by
  rw [Lang]
  constructor
  · rintro ⟨u', h1, h2⟩
    rw [Lang] at h1
    obtain ⟨y, rfl, hy⟩ := h1
    obtain ⟨w, rfl, hw⟩ := (lang_star ..).mp h2
    exact ⟨y, w, rfl, (dot_has y).mp hy, fun c hc => (dot_has c).mp (hw c hc)⟩
  · rintro ⟨y, w, rfl, hy, hw⟩
    refine ⟨w ++ v, ?_, (lang_star ..).mpr ⟨w, rfl, fun c hc => (dot_has c).mpr (hw c hc)⟩⟩
    rw [Lang]
    exact ⟨y, rfl, (dot_has y).mpr hy⟩

theorem intf_iff (l : Str) : ∃ b, reTrue "^interface\\s+(\\S+.+)" l = .ok b ∧ (b = true ↔ Spec.IntfLine l) := by
  refine ⟨(search ⟨seqs (.bol :: intfL), 1, []⟩ l).isSome, ?_, ?_⟩
  · rw [reTrue, Cisco.reSearch, compile_intf]
    show Except.ok (((search _ l).map _).isSome) = _
    rw [Option.isSome_map]
  · rw [search_lang, intfL]
    simp only [lang_append, lang_str, Prog.toL, lang_cons, lang_nil, lang_grp, lang_plus, lang_dot]
    constructor
    · rintro ⟨v, w, ⟨r, rfl, _, ⟨sp, rfl, h1, h2⟩, rfl⟩, _, ⟨_, ⟨z, h3, h4, h5⟩, _, ⟨y, _, h6, h7, _⟩, rfl⟩, rfl⟩
      obtain ⟨x, z', rfl⟩ := List.exists_cons_of_ne_nil h4
      have hx : isSpace x = false := by simpa [K.has] using h5 x (by simp)
      cases z' with
      | nil => exact ⟨sp, x, y, _, by rw [h3, h6]; rfl, h1, fun c hc => by simpa [K.has] using h2 c hc, hx, h7⟩
      | cons y' z' =>
        refine ⟨sp, x, y', _, by rw [h3]; rfl, h1, fun c hc => by simpa [K.has] using h2 c hc, hx, ?_⟩
        rintro rfl
        have := h5 '\n' (by simp)
        revert this
        decide
    · rintro ⟨sp, x, y, rest, rfl, h1, h2, h3, h4⟩
      refine ⟨rest, _, ⟨_, rfl, _, ⟨sp, rfl, h1, fun c hc => by simpa [K.has] using h2 c hc⟩, rfl⟩, rest,
        ⟨y :: rest, ⟨[x], rfl, by simp, by simp [K.has, h3]⟩, rest, ⟨y, [], rfl, h4, by simp⟩, rfl⟩, rfl⟩

/-- An expression that is a word. -/
theorem word_iff {rx : String} {w : Str} (hc : compile rx = .ok ⟨seqs (.bol :: (str w .done).toL), 0, []⟩) (l : Str) :
    ∃ b, reTrue rx l = .ok b ∧ (b = true ↔ w <+: l) := by
  refine ⟨(search ⟨seqs (.bol :: (str w .done).toL), 0, []⟩ l).isSome, ?_, ?_⟩
  · rw [reTrue, Cisco.reSearch, hc]
    show Except.ok (((search _ l).map _).isSome) = _
    rw [Option.isSome_map]
  · rw [search_lang]
    simp only [lang_str, Prog.toL, lang_nil]
    constructor
    · rintro ⟨v, r, h, _⟩; exact ⟨r, h.symm⟩
    · rintro ⟨r, h⟩; exact ⟨r, r, h.symm, rfl⟩

/-- The word that the lines of a class begin with. -/
def key : Cls → String
  | .intf => "interface" | .name => "name " | .objNetwork => "object network " | .objService => "object service "
  | .objGroupNetwork => "object-group network " | .objGroupService => "object-group service " | .intfGlobal => "mtu"
  | .hostname => "hostname" | .acl => "access-list " | .cfg => ""

theorem key_of {l : Str} {c : Cls} (h : Spec.Of l c) (hc : c ≠ .cfg) : (key c).toList <+: l.map lowerChar := by
  cases c with
  | intf =>
    obtain ⟨sp, x, y, rest, rfl, _⟩ := h
    exact begins_prefix (begins_of_prefix (w := "interface") (by decide) ⟨_, rfl⟩)
  | intfGlobal => exact begins_prefix (begins_of_prefix (w := "mtu") (by decide) h)
  | hostname => exact begins_prefix (begins_of_prefix (w := "hostname") (by decide) h)
  | cfg => exact absurd rfl hc
  | _ => exact begins_prefix h

theorem keys_differ : ∀ c ∈ classes, c ≠ .cfg → ∀ c' ∈ classes, c' ≠ .cfg → (key c).toList <+: (key c').toList → c = c' := by decide +kernel

theorem mem_classes (c : Cls) : c ∈ classes := by cases c <;> decide

theorem of_cfg {l : Str} : Spec.Of l .cfg ↔ ∀ c, c ≠ .cfg → ¬ Spec.Of l c := by
  constructor
  · intro h c hc hl
    refine h ?_
    cases c with
    | cfg => exact absurd rfl hc
    | _ => simp only [Spec.Of] at hl; simp only [hl, true_or, or_true]
  · rintro h (h' | h' | h' | h' | h' | h' | h' | h' | h')
    · exact h .intf (by decide) h'
    · exact h .name (by decide) h'
    · exact h .objNetwork (by decide) h'
    · exact h .objService (by decide) h'
    · exact h .objGroupNetwork (by decide) h'
    · exact h .objGroupService (by decide) h'
    · exact h .intfGlobal (by decide) h'
    · exact h .hostname (by decide) h'
    · exact h .acl (by decide) h'

theorem of_unique {l : Str} {c c' : Cls} (h : Spec.Of l c) (h' : Spec.Of l c') : c = c' := by
  by_cases hc : c = .cfg
  · subst hc
    by_cases hc' : c' = .cfg
    · exact hc'.symm
    · exact absurd h' (of_cfg.mp h c' hc')
  · by_cases hc' : c' = .cfg
    · subst hc'; exact absurd h (of_cfg.mp h' c hc)
    · rcases List.prefix_or_prefix_of_prefix (key_of h hc) (key_of h' hc') with hp | hp
      · exact keys_differ c (mem_classes _) hc c' (mem_classes _) hc' hp
      · exact (keys_differ c' (mem_classes _) hc' c (mem_classes _) hc hp).symm

theorem of_exists (l : Str) : ∃ c, Spec.Of l c := by
  classical
  by_cases h : ∃ c, c ≠ .cfg ∧ Spec.Of l c
  · obtain ⟨c, _, hc⟩ := h
    exact ⟨c, hc⟩
  · exact ⟨.cfg, of_cfg.mpr (fun c hc hl => h ⟨c, hc, hl⟩)⟩

theorem object_iff (l : Str) {c : Cls} (hc : c ≠ .cfg) : ∃ b, isObjectFor l c = .ok b ∧ (b = true ↔ Spec.Of l c) := by
  cases c with
  | intf => exact intf_iff l
  | intfGlobal => exact word_iff (w := "mtu".toList) (by decide +kernel) l
  | hostname => exact word_iff (w := "hostname".toList) (by decide +kernel) l
  | cfg => exact absurd rfl hc
  | _ => exact ⟨_, rfl, starts_iff _ _⟩

theorem firstCls_skip {l : Str} {c : Cls} (h : Spec.Of l c) (pre cs : List Cls) (hp : ∀ c' ∈ pre, c' ≠ .cfg ∧ c' ≠ c) :
    firstCls l (pre ++ cs) = firstCls l cs := by
  induction pre with
  | nil => rfl
  | cons c' pre ih =>
    obtain ⟨h1, h2⟩ := hp c' (by simp)
    obtain ⟨b, e, hb⟩ := object_iff l h1
    have : b = false := by
      cases b with
      | false => rfl
      | true => exact absurd (of_unique (hb.mp rfl) h) h2
    subst this
    rw [List.cons_append, firstCls, e]
    exact ih (fun c hc => hp c (by simp [hc]))

theorem classes_at (c : Cls) : ∃ pre post, classes = pre ++ c :: post ∧ ∀ c' ∈ pre, c' ≠ .cfg ∧ c' ≠ c := by
  cases c with
  | intf => exact ⟨[], _, rfl, by decide⟩
  | name => exact ⟨[.intf], _, rfl, by decide⟩
  | objNetwork => exact ⟨[.intf, .name], _, rfl, by decide⟩
  | objService => exact ⟨[.intf, .name, .objNetwork], _, rfl, by decide⟩
  | objGroupNetwork => exact ⟨[.intf, .name, .objNetwork, .objService], _, rfl, by decide⟩
  | objGroupService => exact ⟨[.intf, .name, .objNetwork, .objService, .objGroupNetwork], _, rfl, by decide⟩
  | intfGlobal => exact ⟨[.intf, .name, .objNetwork, .objService, .objGroupNetwork, .objGroupService], _, rfl, by decide⟩
  | hostname =>
    exact ⟨[.intf, .name, .objNetwork, .objService, .objGroupNetwork, .objGroupService, .intfGlobal], _, rfl, by decide⟩
  | acl =>
    exact ⟨[.intf, .name, .objNetwork, .objService, .objGroupNetwork, .objGroupService, .intfGlobal, .hostname], _, rfl, by decide⟩
  | cfg =>
    exact ⟨[.intf, .name, .objNetwork, .objService, .objGroupNetwork, .objGroupService, .intfGlobal, .hostname, .acl], _, rfl,
      by decide⟩

theorem first_of {l : Str} {c : Cls} (h : Spec.Of l c) :
    firstCls l classes = (construct l c).bind (fun _ => .ok (some c)) := by
  obtain ⟨pre, post, e, hp⟩ := classes_at c
  rw [e, firstCls_skip h pre _ hp, firstCls]
  have : isObjectFor l c = .ok true := by
    by_cases hc : c = .cfg
    · subst hc; rfl
    · obtain ⟨b, e, hb⟩ := object_iff l hc
      rw [e, hb.mpr h]
  rw [this]
  rfl

/-! ## The constructors -/

theorem construct_other {l : Str} {c : Cls} (h1 : c ≠ .name) (h2 : c ≠ .acl) : construct l c = .ok () := by
  cases c <;> first | exact absurd rfl h1 | exact absurd rfl h2 | rfl

/-- The expression of `name` lines. -/
def nameP : Prog :=
  str "name".toList (.plus .space (.grp 1 (quad .done) (.one .space (.grp 2 (.plus .nonspace .done) .done))))

theorem compile_name : compileL reNameObject { verbose := true } =
    .ok ⟨seqs (.bol :: nameP.toL), 2, [("addr".toList, 1), ("name".toList, 2)]⟩ := by decide +kernel

theorem name_wf : nameP.wf (fun _ => false) true = true := by decide +kernel

theorem verbose_det {rx : Str} {p : Prog} {n : Nat} {names : List (Str × Nat)}
    (h : compileL rx { verbose := true } = .ok ⟨seqs (.bol :: p.toL), n, names⟩)
    (hw : p.wf (fun _ => false) true = true) (t : Str) :
    verboseDict rx t = .ok ((p.det t []).map (fun q => names.map (fun x => (x.1, q.2.lookup x.2)))) := by
  rw [verboseDict, h]
  simp only [search_bol p hw]
  cases p.det t [] <;> rfl

theorem lang_quad (n : Nat) (u v : Str) :
    Lang n (seqs (quad .done).toL) u v ↔ ∃ a, u = a ++ v ∧ Cisco.Spec.DottedQuad a := by
  simp only [quad, Prog.toL, lang_cons, lang_nil, lang_plus, lang_cls]
  constructor
  · rintro ⟨_, ⟨a, rfl, a1, a2⟩, _, ⟨x, rfl, hx⟩, _, ⟨b, rfl, b1, b2⟩, _, ⟨y, rfl, hy⟩, _, ⟨c, rfl, c1, c2⟩, _, ⟨z, rfl, hz⟩, _,
      ⟨d, rfl, d1, d2⟩, rfl⟩
    simp only [K.has, beq_iff_eq] at hx hy hz
    subst hx hy hz
    exact ⟨a ++ '.' :: b ++ '.' :: c ++ '.' :: d, by simp, a, b, c, d, rfl, by
      simp only [List.forall_mem_cons]
      exact ⟨⟨a1, a2⟩, ⟨b1, b2⟩, ⟨c1, c2⟩, ⟨d1, d2⟩, by simp⟩⟩
  · rintro ⟨_, rfl, a, b, c, d, rfl, h⟩
    simp only [List.forall_mem_cons] at h
    obtain ⟨⟨a1, a2⟩, ⟨b1, b2⟩, ⟨c1, c2⟩, ⟨d1, d2⟩, _⟩ := h
    exact ⟨'.' :: (b ++ '.' :: (c ++ '.' :: (d ++ v))), ⟨a, by simp, a1, a2⟩, _, ⟨'.', rfl, rfl⟩, _, ⟨b, rfl, b1, b2⟩, _, ⟨'.', rfl, rfl⟩, _,
      ⟨c, rfl, c1, c2⟩, _, ⟨'.', rfl, rfl⟩, _, ⟨d, rfl, d1, d2⟩, rfl⟩

theorem nameP_det (t : Str) : (nameP.det t []).isSome = true ↔ Spec.GoodName t := by
  have h := search_lang nameP.toL 2 [] t
  rw [search_bol nameP name_wf, Option.isSome_map] at h
  rw [h, nameP]
  simp only [lang_str, Prog.toL, lang_cons, lang_nil, lang_grp, lang_plus, lang_cls, lang_quad]
  constructor
  · rintro ⟨v, _, rfl, _, ⟨sp, rfl, s1, s2⟩, _, ⟨a, rfl, ha⟩, _, ⟨b, rfl, hb⟩, _, ⟨_, ⟨n, rfl, n1, n2⟩, rfl⟩, rfl⟩
    obtain ⟨x, n, rfl⟩ := List.exists_cons_of_ne_nil n1
    exact ⟨sp, a, b, x, _, rfl, s1, s2, ha, hb, by simpa [K.has] using n2 x (by simp)⟩
  · rintro ⟨sp, a, b, x, rest, rfl, s1, s2, ha, hb, hx⟩
    exact ⟨rest, _, rfl, _, ⟨sp, rfl, s1, s2⟩, _, ⟨a, rfl, ha⟩, _, ⟨b, rfl, hb⟩, _, ⟨_, ⟨[x], rfl, by simp, by simp [K.has, hx]⟩, rfl⟩, rfl⟩

theorem acl_compiles : ∃ p, compileL reAclObject { verbose := true } = .ok p := by
  have h : (match compileL reAclObject { verbose := true } with | .ok _ => true | .error _ => false) = true := by decide +kernel
  cases hc : compileL reAclObject { verbose := true } with
  | ok p => exact ⟨p, rfl⟩
  | error e => rw [hc] at h; cases h

theorem aclLine_cases (l : Str) : (∃ d, aclLine l = .ok d) ∨ aclLine l = .error .valueError := by
  obtain ⟨p, hp⟩ := acl_compiles
  have e : verboseDict reAclObject l = .ok ((search p l).map (fun m => m.groupdict p)) := by rw [verboseDict, hp]
  cases hs : search p l with
  | none =>
    rw [hs] at e
    refine .inr ?_
    rw [aclLine, e]
    rfl
  | some m =>
    rw [hs] at e
    refine .inl ⟨m.groupdict p, ?_⟩
    rw [aclLine, e]
    rfl

theorem nameLine_iff (l : Str) :
    (Spec.GoodName (rstrip l) → ∃ q, nameLine l = .ok q) ∧ (¬ Spec.GoodName (rstrip l) → nameLine l = .error .valueError) := by
  rw [nameLine, verbose_det compile_name name_wf, ← nameP_det]
  cases nameP.det (rstrip l) [] with
  | none => exact ⟨(fun h => by cases h), fun _ => rfl⟩
  | some q => exact ⟨fun _ => ⟨_, rfl⟩, fun h => absurd rfl h⟩

theorem construct_cases (l : Str) (c : Cls) : construct l c = .ok () ∨ construct l c = .error .valueError := by
  by_cases h1 : c = .name
  · subst h1
    have hn := nameLine_iff l
    rw [construct]
    by_cases hg : Spec.GoodName (rstrip l)
    · obtain ⟨q, hq⟩ := hn.1 hg
      rw [hq]
      exact .inl rfl
    · rw [hn.2 hg]
      exact .inr rfl
  · by_cases h2 : c = .acl
    · subst h2
      rw [construct]
      rcases aclLine_cases l with ⟨d, hd⟩ | hd
      · rw [hd]; exact .inl rfl
      · rw [hd]; exact .inr rfl
    · exact .inl (construct_other h1 h2)

theorem lineFactory_of {l : Str} {c : Cls} (h : Spec.Of l c) :
    lineFactory l = (construct l c).bind (fun _ => .ok c) := by
  rw [lineFactory, first_of h]
  rcases construct_cases l c with e | e <;> rw [e] <;> rfl

/-! ## C111 -/

/-- C111: a line that is not refused gets an object of the class for its first words. -/
theorem C111_class {l : Str} {c : Cls} (h : lineFactory l = .ok c) : Spec.Of l c := by
  obtain ⟨c', hc'⟩ := of_exists l
  rw [lineFactory_of hc'] at h
  rcases construct_cases l c' with e | e
  · rw [e] at h; cases h; exact hc'
  · rw [e] at h; cases h

/-- C111: there is one class for each line. -/
theorem C111_one (l : Str) : ∃ c, Spec.Of l c ∧ ∀ c', Spec.Of l c' → c' = c := by
  obtain ⟨c, hc⟩ := of_exists l
  exact ⟨c, hc, fun c' h => of_unique h hc⟩

/-- C111: a line is refused, with ValueError, only if it begins with `name` or with
`access-list`; and one with `name` is refused exactly if it does not have the form
`name 192.0.2.1 n`, with one blank before `n`. -/
theorem C111_refused (l : Str) :
    (∀ e, lineFactory l = .error e → e = .valueError ∧ (Spec.Begins "name " l ∨ Spec.Begins "access-list " l)) ∧
    (Spec.Begins "name " l → (lineFactory l = .error .valueError ↔ ¬ Spec.GoodName (rstrip l))) := by
  obtain ⟨c, hc⟩ := of_exists l
  constructor
  · intro e he
    rw [lineFactory_of hc] at he
    rcases construct_cases l c with e' | e'
    · rw [e'] at he; cases he
    · by_cases h1 : c = .name
      · subst h1; rw [e'] at he; cases he; exact ⟨rfl, .inl hc⟩
      · by_cases h2 : c = .acl
        · subst h2; rw [e'] at he; cases he; exact ⟨rfl, .inr hc⟩
        · rw [construct_other h1 h2] at e'; cases e'
  · intro hb
    rw [lineFactory_of (c := .name) hb, construct]
    by_cases hg : Spec.GoodName (rstrip l)
    · obtain ⟨q, hq⟩ := (nameLine_iff l).1 hg
      rw [hq]
      exact ⟨(fun h => by cases h), fun h => absurd hg h⟩
    · rw [(nameLine_iff l).2 hg]
      exact ⟨fun _ => hg, fun _ => rfl⟩

variable {o : Opts} {lines : List Str} {cs : List Cls} {P : Parsed}

theorem mapM_ok {f : Str → Except Err Cls} {l : List Str} {cs : List Cls} (h : l.mapM f = .ok cs) :
    cs.length = l.length ∧ ∀ (i : Nat) c, cs[i]? = some c → ∃ t, l[i]? = some t ∧ f t = .ok c := by
  induction l generalizing cs with
  | nil =>
    cases h
    exact ⟨rfl, fun i c h => by simp at h⟩
  | cons t l ih =>
    rw [List.mapM_cons] at h
    cases ht : f t with
    | error e => rw [ht] at h; cases h
    | ok c =>
      rw [ht] at h
      cases hl : l.mapM f with
      | error e => rw [hl] at h; cases h
      | ok cs' =>
        rw [hl] at h
        cases h
        obtain ⟨h1, h2⟩ := ih hl
        refine ⟨by simp [h1], ?_⟩
        intro i d hd
        cases i with
        | zero => simp at hd; exact ⟨t, by simp, by rw [ht, hd]⟩
        | succ i => exact h2 i d (by simpa using hd)

theorem mapM_total {f : Str → Except Err Cls} {l : List Str} (h : ∀ t ∈ l, ∃ c, f t = .ok c) : ∃ cs, l.mapM f = .ok cs := by
  induction l with
  | nil => exact ⟨[], rfl⟩
  | cons t l ih =>
    obtain ⟨c, hc⟩ := h t (by simp)
    obtain ⟨cs, hcs⟩ := ih (fun u hu => h u (by simp [hu]))
    exact ⟨c :: cs, by rw [List.mapM_cons, hc, hcs]; rfl⟩

theorem preFilter_asa (o : Opts) (lines : List Str) : preFilter { o with factory := true, syn := .asa } lines = lines := by
  rw [preFilter, if_neg]
  simp

theorem parse_of (h : parseFactory o lines = .ok (cs, P)) : parse { o with factory := true, syn := .asa } lines = .ok P := by
  rw [parseFactory] at h
  cases hm : (preFilter { o with factory := true, syn := .asa } lines).mapM lineFactory with
  | error e => rw [hm] at h; cases h
  | ok cs' =>
    rw [hm] at h
    cases hp : parse { o with factory := true, syn := .asa } lines with
    | error e => rw [hp] at h; cases h
    | ok P' => rw [hp] at h; cases h; rfl

theorem class_of_line (h : parseFactory o lines = .ok (cs, P)) {i : Nat} (hi : i ∈ P.list) :
    ∃ l c, lines[i]? = some l ∧ cs[i]? = some c ∧ lineFactory l = .ok c ∧ (P.h i).text = rstrip l := by
  have hp := parse_of h
  have hin : Conf.Spec.input { o with factory := true, syn := .asa } lines = lines := by rw [← input_eq, preFilter_asa]
  obtain ⟨h1, _, h3⟩ := C20_texts_partial hp
  rw [hin] at h1 h3
  have hlt := ((h3 i).mp hi).1
  rw [Parsed.texts] at h1
  have ht := List.map_inj_left.mp h1 i hi
  rw [parseFactory, preFilter_asa] at h
  cases hm : lines.mapM lineFactory with
  | error e => rw [hm] at h; cases h
  | ok cs' =>
    rw [hm, hp] at h
    cases h
    obtain ⟨hl, hc⟩ := mapM_ok hm
    obtain ⟨l, e1, e2⟩ := hc i cs[i] (List.getElem?_eq_getElem (by omega))
    refine ⟨l, _, e1, List.getElem?_eq_getElem (by omega), e2, ?_⟩
    rw [ht, lineAt, List.getD_eq_getElem?_getD, e1]
    rfl

theorem parse_factory (hb : o.ignoreBlank = true → ∀ l ∈ lines, l ≠ []) :
    parse { o with factory := false, syn := .asa } lines = parse { o with factory := true, syn := .asa } lines := by
  rw [parse, parse, preFilter_asa, preFilter]
  have : (if { o with factory := false, syn := .asa }.ignoreBlank = true ∧ { o with factory := false, syn := .asa }.factory = false then
      lines.filter (fun l => !l.isEmpty) else lines) = lines := by
    by_cases hi : o.ignoreBlank = true
    · rw [if_pos ⟨hi, rfl⟩, List.filter_eq_self]
      intro l hl
      have := hb hi l hl
      cases l with
      | nil => exact absurd rfl this
      | cons x l => rfl
    · rw [if_neg (fun e => hi e.1)]
  rw [this]
  rfl

/-- C111: `factory=True` changes the classes of the objects and nothing else. -/
theorem C111_tree (h : parseFactory o lines = .ok (cs, P)) (hb : o.ignoreBlank = true → ∀ l ∈ lines, l ≠ []) :
    parse { o with factory := false, syn := .asa } lines = .ok P := by
  rw [parse_factory hb, parse_of h]

/-- C111: in a configuration, the class of an object is the one for its line. -/
theorem C111_parse (h : parseFactory o lines = .ok (cs, P)) {i : Nat} (hi : i ∈ P.list) :
    ∃ l c, lines[i]? = some l ∧ (P.h i).text = rstrip l ∧ cs[i]? = some c ∧ Spec.Of l c := by
  obtain ⟨l, c, h1, h2, h3, h4⟩ := class_of_line h hi
  exact ⟨l, c, h1, h4, h2, C111_class h3⟩

/-- A configuration with lines of several classes. -/
def exClasses : List Str :=
  ["hostname fw1", "name 10.0.0.1 web", "interface Ethernet0/0", " nameif outside", "mtu outside 1500", "object network inside",
    " host 10.0.0.1", "OBJECT-GROUP network ALL", " network-object host web", "object-group service WEB tcp", " port-object eq 80",
    "access-list ACL1 extended permit ip any any", "interface E"].map String.toList

example : (parseFactory {} exClasses).map Prod.fst = .ok
    [.hostname, .name, .intf, .cfg, .intfGlobal, .objNetwork, .cfg, .objGroupNetwork, .cfg, .objGroupService, .cfg, .acl, .cfg] := by
  decide +kernel

/-! ## C112 -/

/-- C112: with `factory=True`, a configuration without access lists whose `name` lines are all
well-formed is read whenever it is read with `factory=False`, and the objects have the same texts,
parents and children.  (Missing: see `C112_fails`.) -/
theorem C112_factory_partial (hp : parse { o with factory := false, syn := .asa } lines = .ok P)
    (hb : o.ignoreBlank = true → ∀ l ∈ lines, l ≠ []) (ha : ∀ l ∈ lines, ¬ Spec.Begins "access-list " l)
    (hn : ∀ l ∈ lines, Spec.Begins "name " l → Spec.GoodName (rstrip l)) :
    ∃ cs, parseFactory o lines = .ok (cs, P) := by
  obtain ⟨cs, hcs⟩ := mapM_total (f := lineFactory) (l := lines) (fun l hl => by
    cases hf : lineFactory l with
    | ok c => exact ⟨c, rfl⟩
    | error e =>
      obtain ⟨rfl, h | h⟩ := (C111_refused l).1 e hf
      · exact absurd (hn l hl h) (((C111_refused l).2 h).mp hf)
      · exact absurd h (ha l hl))
  refine ⟨cs, ?_⟩
  have hpp : parse { o with factory := true, syn := .asa } lines = .ok P := by rw [← parse_factory hb, hp]
  rw [parseFactory, preFilter_asa, hcs, hpp]
  rfl

/-- C112: one `name` line with two blanks before the name, which can be read with
`factory=False`, makes the whole configuration unreadable. -/
theorem C112_fails :
    (∃ P, parse { factory := false, syn := .asa } ["name 10.0.0.1  web".toList] = .ok P) ∧
    (∀ P, parseFactory {} ["name 10.0.0.1  web".toList] ≠ .ok P) := by
  constructor
  · have h : ((parse { factory := false, syn := .asa } ["name 10.0.0.1  web".toList]).map (fun P => P.texts)).toOption =
      some ["name 10.0.0.1  web".toList] := by decide +kernel
    cases hp : parse { factory := false, syn := .asa } ["name 10.0.0.1  web".toList] with
    | ok P => exact ⟨P, rfl⟩
    | error e => rw [hp] at h; cases h
  · intro P hP
    have h : ((parseFactory {} ["name 10.0.0.1  web".toList]).map (fun q => q.1)).toOption = none := by decide +kernel
    rw [hP] at h
    cases h

/-- The hypotheses of `C112_factory_partial` are met. -/
example : ∃ cs P, parseFactory {} (exClasses.take 11) = .ok (cs, P) := by
  have h : ((parse { factory := false, syn := .asa } (exClasses.take 11)).map (fun P => P.texts)).toOption =
    some (exClasses.take 11) := by decide +kernel
  cases hp : parse { factory := false, syn := .asa } (exClasses.take 11) with
  | error e => rw [hp] at h; cases h
  | ok P =>
    have hs : ∀ l ∈ exClasses.take 11, starts "access-list " l = false ∧ (starts "name " l = true → l = "name 10.0.0.1 web".toList) := by
      decide +kernel
    obtain ⟨cs, hcs⟩ := C112_factory_partial (o := {}) hp (by decide)
      (fun l hl h => by rw [← starts_iff, (hs l hl).1] at h; cases h)
      (fun l hl h => by
        rw [(hs l hl).2 ((starts_iff _ _).mpr h)]
        exact ⟨" ".toList, "10.0.0.1".toList, ' ', 'w', "eb".toList, by decide +kernel, by decide, by decide, ⟨['1', '0'], ['0'], ['0'], ['1'], by decide +kernel, by
          simp only [List.forall_mem_cons]
          unfold Cisco.Spec.Digits
          decide⟩, by decide, by decide⟩)
    exact ⟨cs, P, hcs⟩

end Asa

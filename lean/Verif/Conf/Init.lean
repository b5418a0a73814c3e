import Verif.Conf.File
import Verif.Junos.Model

/-! # C246: what `CiscoConfParse()` accepts

Model of the constructor: the checks of the arguments, and the choice between a file and
a list. -/

namespace Init

open Py Conf

/-- An element of a sequence: a string, an object of the class `BaseCfgLine`, anything else. -/
inductive Elem where
  | text (t : Str)
  | line (t : Str)
  | other
  deriving DecidableEq, Repr

/-- A `list`, a `tuple`, another `Sequence` (a range, a `deque`, `bytes`). -/
inductive Kind where
  | list | tuple | other
  deriving DecidableEq, Repr

/-- The value of `config`: a string, a `pathlib.Path`, a sequence, a collection that is not a
sequence (a set, a dictionary), a value without `len()` (`None`, a number, a generator). -/
inductive Config where
  | name (s : Str)
  | path (s : Str)
  | seq (k : Kind) (es : List Elem)
  | sized (es : List Elem)
  | unsized
  deriving DecidableEq, Repr

/-- What is found under a name.  Simplification: everything that is there and that `open()`
or `read()` refuses is `closed`. -/
inductive File where
  | missing
  | closed
  | text (t : Str)
  deriving DecidableEq, Repr

/-- `FileNotFoundError`, or another exception. -/
inductive Failure where
  | notFound
  | err (e : Err)
  deriving DecidableEq, Repr

/-- ciscoconfparse.py:168-174 `ALL_VALID_SYNTAX`. -/
def syntaxOf (s : Str) : Option Syntax :=
  if s = "ios".toList then some .ios
  else if s = "nxos".toList then some .nxos
  else if s = "iosxr".toList then some .iosxr
  else if s = "asa".toList then some .asa
  else if s = "junos".toList then some .junos
  else none

/-- ciscoconfparse.py:732-734: `isinstance(ii, (str, BaseCfgLine))`. -/
def Elem.ok : Elem → Bool
  | .text _ => true
  | .line _ => true
  | .other => false

/-- ciscoconfparse.py:761: `len(ii) != 0` (ccp_abc.py:124-125 for an object). -/
def Elem.full : Elem → Bool
  | .text t => !t.isEmpty
  | .line t => !t.isEmpty
  | .other => true

/-- ciscoconfparse.py:843-907 `read_config_file`; the strings as elements of a list. -/
def readFile (fs : Str → File) (o : Opts) (s : Str) : Except Failure (List Elem) :=
  match fs s with
  | .missing => .error .notFound
  | .closed => .error (.err .osError)
  | .text t => .ok ((readLines o t).map .text)

/-- The texts of a list of strings. -/
def texts : List Elem → Option (List Str)
  | [] => some []
  | .text t :: es => (texts es).map (t :: ·)
  | _ :: _ => none

/-- ciscoconfparse.py:794-819 `handle_ccp_brace_syntax`, 914-931 `check_ccp_input_good`, and
5754-5755: the list of strings, or an exception.  `tmp.strip()` (590) of an object that is not
a string is an `AttributeError`. -/
def handle (k : Kind) (o : Opts) (es : List Elem) : Except Failure (List Str) :=
  if k = .other then .error (.err .invalidParameters)
  else if o.syn = .junos then
    if k ≠ .list then .error (.err .invalidParameters)
    else if es = [] then .error (.err .valueError)
    else
      match texts es with
      | none => .error (.err .attributeError)
      | some ts => .ok (Junos.convertGo 0 ts)
  else
    match texts es with
    | none => .error (.err .valueError)
    | some ts => .ok ts

/-- ciscoconfparse.py:615-790 `CiscoConfParse()`; `o.syn` is not used. -/
def construct (fs : Str → File) (o : Opts) (syn : Str) (cfg : Config) : Except Failure Parsed :=
  match syntaxOf syn with
  | none => .error (.err .valueError)
  | some y =>
    let o := { o with syn := y }
    let go (k : Kind) (es : List Elem) : Except Failure Parsed :=
      match handle k o es with
      | .error e => .error e
      | .ok ls =>
        match bootstrap o ls with
        | .error e => .error (.err e)
        | .ok P => .ok P
    match cfg with
    | .unsized => .error (.err .typeError)
    | .path _ => .error (.err .typeError)
    | .name s =>
      match readFile fs o s with
      | .error e => .error e
      | .ok es => go .list es
    | .sized es => if es.all Elem.ok then .error (.err .valueError) else .error (.err .invalidParameters)
    | .seq k es =>
      if es.all Elem.ok then
        if o.ignoreBlank = true ∧ o.factory = false then go .list (es.filter Elem.full) else go k es
      else .error (.err .invalidParameters)

/-! ## The property -/

/-- The names of the accepted syntaxes. -/
def Spec.syntaxes : List (Str × Syntax) :=
  [("ios".toList, .ios), ("nxos".toList, .nxos), ("iosxr".toList, .iosxr), ("asa".toList, .asa), ("junos".toList, .junos)]

theorem syntax_iff {n : Str} {y : Syntax} : syntaxOf n = some y ↔ (n, y) ∈ Spec.syntaxes := by
  constructor
  · intro h
    unfold syntaxOf at h
    split at h
    · rename_i e; cases h; subst e; decide
    split at h
    · rename_i e; cases h; subst e; decide
    split at h
    · rename_i e; cases h; subst e; decide
    split at h
    · rename_i e; cases h; subst e; decide
    split at h
    · rename_i e; cases h; subst e; decide
    · cases h
  · intro h
    simp only [Spec.syntaxes, List.mem_cons, List.not_mem_nil, or_false, Prod.mk.injEq] at h
    rcases h with ⟨rfl, rfl⟩ | ⟨rfl, rfl⟩ | ⟨rfl, rfl⟩ | ⟨rfl, rfl⟩ | ⟨rfl, rfl⟩ <;> decide

theorem texts_map (ts : List Str) : texts (ts.map .text) = some ts := by
  induction ts with
  | nil => rfl
  | cons t ts ih => rw [List.map_cons, texts, ih]; rfl

theorem texts_some {es : List Elem} {ts : List Str} (h : texts es = some ts) : es = ts.map .text := by
  induction es generalizing ts with
  | nil => cases h; rfl
  | cons e es ih =>
    cases e with
    | text t =>
      rw [texts] at h
      cases h' : texts es with
      | none => rw [h'] at h; cases h
      | some us => rw [h'] at h; cases h; rw [ih h']; rfl
    | line t => cases h
    | other => cases h

theorem filter_map (ts : List Str) : (ts.map Elem.text).filter Elem.full = (ts.filter (fun l => !l.isEmpty)).map .text := by
  induction ts with
  | nil => rfl
  | cons t ts ih =>
    rw [List.map_cons, List.filter_cons, List.filter_cons, ih]
    show (if (!t.isEmpty) = true then _ else _) = _
    split <;> rfl

theorem all_ok (ts : List Str) : (ts.map Elem.text).all Elem.ok = true := by
  rw [List.all_eq_true]; intro e he
  obtain ⟨t, _, rfl⟩ := List.mem_map.mp he; rfl

variable {fs : Str → File} {o : Opts} {n : Str} {y : Syntax}

/-- C246: a list of strings is parsed; a tuple, too, except for Junos, and any sequence if blank lines are taken out first. -/
theorem C246_lines {k : Kind} (hn : (n, y) ∈ Spec.syntaxes)
    (hk : k = .list ∨ k = .tuple ∧ y ≠ .junos ∨ o.ignoreBlank = true ∧ o.factory = false) (ls : List Str) :
    construct fs o n (.seq k (ls.map .text)) =
      (if y = .junos then Junos.parseJunos { o with syn := y } ls else parse { o with syn := y } ls).mapError .err := by
  have key : ∀ (k : Kind), (k = .list ∨ k = .tuple ∧ y ≠ .junos) → ∀ ms : List Str,
      (match handle k { o with syn := y } (ms.map .text) with
        | .error e => (.error e : Except Failure Parsed)
        | .ok ls =>
          match bootstrap { o with syn := y } ls with
          | .error e => .error (.err e)
          | .ok P => .ok P) =
      (if y = .junos then (do bootstrap { o with syn := y } (← Junos.convert ms)) else bootstrap { o with syn := y } ms).mapError .err := by
    intro k hk ms
    have hko : k ≠ .other := by rcases hk with rfl | ⟨rfl, _⟩ <;> simp
    by_cases hy : y = .junos
    · have hkl : k = .list := by rcases hk with h | ⟨_, h⟩; exact h; exact absurd hy h
      subst hy; subst hkl
      rw [handle, if_neg (by simp), if_pos rfl, if_neg (by simp), texts_map, if_pos rfl, Junos.convert]
      cases ms with
      | nil => rfl
      | cons m ms =>
        rw [if_neg (by simp), if_neg (by simp)]
        show (match bootstrap _ _ with | .error e => _ | .ok P => _) = Except.mapError _ (bootstrap _ _)
        cases bootstrap { o with syn := .junos } (Junos.convertGo 0 (m :: ms)) <;> rfl
    · rw [handle, if_neg hko, if_neg hy, texts_map, if_neg hy]
      show (match bootstrap _ _ with | .error e => _ | .ok P => _) = Except.mapError _ (bootstrap _ _)
      cases bootstrap { o with syn := y } ms <;> rfl
  rw [construct, syntax_iff.mpr hn]
  simp only [all_ok, if_true]
  rw [Junos.parseJunos, parse, preFilter]
  split
  · rename_i hb
    rw [filter_map]
    rw [key .list (.inl rfl)]
  · rename_i hb
    rw [key k (hk.imp id (fun h => h.resolve_right hb))]

/-- C246: a string is the name of a file, whose lines are parsed. -/
theorem C246_file (hn : (n, y) ∈ Spec.syntaxes) (s : Str) :
    (fs s = .missing → construct fs o n (.name s) = .error .notFound) ∧
    (fs s = .closed → construct fs o n (.name s) = .error (.err .osError)) ∧
    (∀ t, fs s = .text t → y ≠ .junos → construct fs o n (.name s) = (load { o with syn := y } t).mapError .err) ∧
    (∀ t, fs s = .text t → y = .junos → construct fs o n (.name s) =
      (Junos.convert (readLines { o with syn := y } t) >>= bootstrap { o with syn := y }).mapError .err) := by
  refine ⟨fun h => ?_, fun h => ?_, fun t h hy => ?_, fun t h hy => ?_⟩
  · rw [construct, syntax_iff.mpr hn]; simp only [readFile, h]
  · rw [construct, syntax_iff.mpr hn]; simp only [readFile, h]
  · rw [construct, syntax_iff.mpr hn]
    simp only [readFile, h, handle, if_neg hy, texts_map]
    rw [if_neg (by simp), load]
    show (match bootstrap _ _ with | .error e => _ | .ok P => _) = Except.mapError _ (bootstrap _ _)
    cases bootstrap { o with syn := y } (readLines { o with syn := y } t) <;> rfl
  · subst hy
    rw [construct, syntax_iff.mpr hn]
    simp only [readFile, h, handle, texts_map, Junos.convert]
    rw [if_neg (by simp), if_pos trivial, if_neg (by simp)]
    by_cases hl : readLines { o with syn := .junos } t = []
    · rw [hl]; rfl
    · rw [if_neg (by simpa using hl), if_neg hl]
      show (match bootstrap _ _ with | .error e => _ | .ok P => _) = Except.mapError _ (bootstrap _ _)
      cases bootstrap { o with syn := .junos } (Junos.convertGo 0 (readLines { o with syn := .junos } t)) <;> rfl

/-- C246: nothing else is accepted: the syntax is one of the five, and `config` is the name of a file that can be read, or a
sequence that contains only strings, up to objects without text, which are dropped with the blank lines. -/
theorem C246_only {cfg : Config} {P : Parsed} (h : construct fs o n cfg = .ok P) :
    (∃ y, (n, y) ∈ Spec.syntaxes) ∧
    ((∃ s t, cfg = .name s ∧ fs s = .text t) ∨
     (∃ k es, cfg = .seq k es ∧ ∀ e ∈ es, (∃ t, e = .text t) ∨ e = .line [] ∧ o.ignoreBlank = true ∧ o.factory = false)) := by
  have hh : ∀ {k : Kind} {o' : Opts} {es : List Elem} {ls : List Str}, handle k o' es = .ok ls → ∃ ts : List Str, es = ts.map .text := by
    intro k o' es ls h
    rw [handle] at h
    split at h
    · cases h
    split at h
    · split at h
      · cases h
      split at h
      · cases h
      split at h
      · cases h
      · rename_i ts ht; exact ⟨ts, texts_some ht⟩
    · split at h
      · cases h
      · rename_i ts ht; exact ⟨ts, texts_some ht⟩
  rw [construct] at h
  split at h
  · cases h
  · rename_i y hy
    refine ⟨⟨y, syntax_iff.mp hy⟩, ?_⟩
    simp only [] at h
    cases cfg with
    | unsized => cases h
    | path s => cases h
    | sized es => simp only [] at h; split at h <;> cases h
    | name s =>
      refine .inl ⟨s, ?_⟩
      simp only [readFile] at h
      cases hf : fs s with
      | missing => rw [hf] at h; cases h
      | closed => rw [hf] at h; cases h
      | text t => exact ⟨t, rfl, rfl⟩
    | seq k es =>
      refine .inr ⟨k, es, rfl, fun e he => ?_⟩
      simp only [] at h
      split at h
      · rename_i ho
        split at h
        · rename_i hb
          split at h
          · cases h
          · rename_i ls hl
            obtain ⟨ts, hts⟩ := hh hl
            cases hf : Elem.full e with
            | true =>
              have : e ∈ ts.map Elem.text := hts ▸ List.mem_filter.mpr ⟨he, hf⟩
              obtain ⟨t, _, rfl⟩ := List.mem_map.mp this
              exact .inl ⟨t, rfl⟩
            | false =>
              cases e with
              | text t => exact .inl ⟨t, rfl⟩
              | line t =>
                cases t with
                | nil => exact .inr ⟨rfl, hb⟩
                | cons c r => cases hf
              | other => cases hf
        · split at h
          · cases h
          · rename_i ls hl
            obtain ⟨ts, hts⟩ := hh hl
            rw [hts] at he
            obtain ⟨t, _, rfl⟩ := List.mem_map.mp he
            exact .inl ⟨t, rfl⟩
      · cases h

/-- The hypotheses are met, and all three kinds of results occur. -/
example : construct (fun _ => .missing) {} "ios".toList (.name "a.cfg".toList) = .error .notFound ∧
    ((construct (fun _ => .text "a\n b".toList) {} "asa".toList (.name "a.cfg".toList)).toOption.map (·.texts) =
      some ["a".toList, " b".toList]) ∧
    ((construct (fun _ => .missing) {} "junos".toList (.seq .tuple [.text "a {".toList, .text "b;".toList, .text "}".toList])).toOption.map
      (·.texts) = some ["a".toList, "    b".toList]) ∧
    construct (fun _ => .missing) {} "eos".toList (.seq .list []) = .error (.err .valueError) ∧
    construct (fun _ => .missing) {} "ios".toList (.seq .list [.text "a".toList, .other]) = .error (.err .invalidParameters) := by
  refine ⟨rfl, by decide +kernel, by decide +kernel, ?_, ?_⟩ <;> rfl

/-- C246 does not hold as stated: the name of a file as a `pathlib.Path` is refused with a `TypeError`, whatever the file is. -/
theorem C246_path_fails (fs : Str → File) (o : Opts) (s : Str) (hn : (n, y) ∈ Spec.syntaxes) :
    construct fs o n (.path s) = .error (.err .typeError) := by
  rw [construct, syntax_iff.mpr hn]

/-- C246 does not hold as stated: for Junos a tuple of strings is only accepted if blank lines are taken out. -/
theorem C246_tuple_fails (fs : Str → File) (ls : List Str) (o : Opts) (ho : o.ignoreBlank = false) :
    construct fs o "junos".toList (.seq .tuple (ls.map .text)) = .error (.err .invalidParameters) := by
  rw [construct, syntax_iff.mpr (by decide : ("junos".toList, Syntax.junos) ∈ Spec.syntaxes)]
  simp only [all_ok, if_true]
  rw [if_neg (by rw [ho]; rintro ⟨h, _⟩; cases h), handle]
  simp

/-- C246: a sequence with an element that is neither a string nor a line is refused. -/
theorem C246_other {k : Kind} {es : List Elem} (hn : (n, y) ∈ Spec.syntaxes) (he : Elem.other ∈ es) :
    construct fs o n (.seq k es) = .error (.err .invalidParameters) := by
  have : ¬ es.all Elem.ok = true := fun h => by
    have := List.all_eq_true.mp h _ he
    cases this
  rw [construct, syntax_iff.mpr hn]
  simp only [if_neg this]

theorem texts_line {t : Str} : ∀ {es : List Elem}, Elem.line t ∈ es → texts es = none
  | .text u :: es, h => by
    have : Elem.line t ∈ es := by simpa using h
    rw [texts, texts_line this]; rfl
  | .line _ :: _, _ => rfl
  | .other :: _, _ => rfl

/-- C246: a list or tuple of strings and lines with a line that is not empty is refused by another exception. -/
theorem C246_line {k : Kind} {es : List Elem} {t : Str} (hn : (n, y) ∈ Spec.syntaxes) (hy : y ≠ .junos) (hk : k ≠ .other)
    (he : Elem.other ∉ es) (hl : Elem.line t ∈ es) (ht : t ≠ []) : construct fs o n (.seq k es) = .error (.err .valueError) := by
  have hall : es.all Elem.ok = true := List.all_eq_true.mpr (fun e h => by
    cases e with
    | text _ => rfl
    | line _ => rfl
    | other => exact absurd h he)
  have hfl : Elem.line t ∈ es.filter Elem.full := List.mem_filter.mpr ⟨hl, by cases t with | nil => exact absurd rfl ht | cons _ _ => rfl⟩
  rw [construct, syntax_iff.mpr hn]
  simp only [if_pos hall]
  split
  · rw [handle, if_neg (by simp), if_neg hy, texts_line hfl]
  · rw [handle, if_neg hk, if_neg hy, texts_line hl]

example : construct (fun _ => .missing) {} "ios".toList (.seq .list [.text "a".toList, .line "b".toList]) = .error (.err .valueError) ∧
    construct (fun _ => .missing) {} "ios".toList (.seq .list [.text "a".toList, .other]) = .error (.err .invalidParameters) :=
  ⟨C246_line (y := .ios) (t := "b".toList) (by decide) (by decide) (by decide) (by decide) (by decide) (by decide),
    C246_other (y := .ios) (by decide) (by decide)⟩

end Init

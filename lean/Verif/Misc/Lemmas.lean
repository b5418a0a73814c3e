import Verif.PyLemmas
import Verif.Misc.L4Pass
import Verif.Misc.Words
import Verif.Misc.Spec

namespace Misc

open Py

/-! ## Password -/

theorem hexDigit_hexChar : ∀ n, n < 16 → hexDigit (Spec.hexChar n) = some n := by
  decide

theorem hexChar_ne_nl : ∀ n, n < 16 → Spec.hexChar n ≠ '\n' := by decide

theorem hexPair_hexByte (b : Nat) (h : b < 256) :
    hexPair (Spec.hexChar (b / 16)) (Spec.hexChar (b % 16)) = .ok b := by
  rw [hexPair, hexDigit_hexChar _ (by omega), hexDigit_hexChar _ (by omega)]
  simp only [Except.ok.injEq]
  omega

theorem xlat_key : ∀ i, i < 53 → xlat.getD i 0 = (Spec.key.getD i '0').toNat := by decide

theorem xlat_lt : ∀ i, i < 53 → xlat.getD i 0 < 256 := by decide

theorem decLoop_cipher (pw : Str) (h : ∀ c ∈ pw, c.toNat < 256) (pos : Nat) :
    decLoop (pos : Int) (Spec.cipher pos pw) = .ok pw := by
  induction pw generalizing pos with
  | nil => rfl
  | cons c cs ih =>
    have hp : pos % 53 < 53 := Nat.mod_lt _ (by omega)
    have hx : c.toNat ^^^ (Spec.key.getD (pos % 53) '0').toNat < 256 := by
      rw [← xlat_key _ hp]
      exact Nat.xor_lt_two_pow (n := 8) (h c (by simp)) (xlat_lt _ hp)
    have hm : ((pos : Int) % 53).toNat = pos % 53 := by omega
    rw [Spec.cipher, Spec.hexByte, List.cons_append, List.cons_append, List.nil_append, decLoop,
      hexPair_hexByte _ hx]
    have := ih (fun d hd => h d (by simp [hd])) (pos + 1)
    simp only [Int.natCast_add, Int.cast_ofNat_Int] at this
    simp only [bind, Except.bind, hm, this, xlat_key _ hp, Nat.xor_assoc, Nat.xor_self, Nat.xor_zero]
    simp

theorem cipher_no_nl (pw : Str) (h : ∀ c ∈ pw, c.toNat < 256) (pos : Nat) :
    ∀ c ∈ Spec.cipher pos pw, c ≠ '\n' := by
  induction pw generalizing pos with
  | nil => simp [Spec.cipher]
  | cons c cs ih =>
    have hp : pos % 53 < 53 := Nat.mod_lt _ (by omega)
    have hx : c.toNat ^^^ (Spec.key.getD (pos % 53) '0').toNat < 256 := by
      rw [← xlat_key _ hp]
      exact Nat.xor_lt_two_pow (n := 8) (h c (by simp)) (xlat_lt _ hp)
    intro d hd
    rw [Spec.cipher, Spec.hexByte] at hd
    simp only [List.cons_append, List.nil_append, List.mem_cons] at hd
    rcases hd with hd | hd | hd
    · rw [hd]; exact hexChar_ne_nl _ (by omega)
    · rw [hd]; exact hexChar_ne_nl _ (by omega)
    · exact ih (fun d hd => h d (by simp [hd])) _ d hd

theorem cipher_length (pw : Str) (pos : Nat) : (Spec.cipher pos pw).length = 2 * pw.length := by
  induction pw generalizing pos with
  | nil => rfl
  | cons c cs ih => simp [Spec.cipher, Spec.hexByte, ih]; omega

theorem takeWhile_all {α : Type _} {p : α → Bool} {l : List α} (h : ∀ a ∈ l, p a = true) :
    l.takeWhile p = l := by
  induction l with
  | nil => rfl
  | cons a as ih =>
    rw [List.takeWhile_cons, if_pos (h a (by simp)), ih (fun b hb => h b (by simp [hb]))]

theorem pyInt_two (n : Nat) (h : n < 100) :
    pyInt [digitChar (n / 10), digitChar (n % 10)] = .ok (n : Int) := by
  have ha : n / 10 < 10 := by omega
  have hb : n % 10 < 10 := by omega
  rw [pyInt_digits (by simp [allDigits, isDigit_digitChar ha, isDigit_digitChar hb])]
  simp only [natVal, List.foldl_cons, List.foldl_nil, digitVal_digitChar ha, digitVal_digitChar hb]
  congr 1
  omega

/-! ## Ports -/

theorem mem_portRange {a b p : Int} : p ∈ portRange a b ↔ a ≤ p ∧ p < b := by
  simp only [portRange, List.mem_map, List.mem_range]
  constructor
  · rintro ⟨i, hi, rfl⟩; omega
  · intro h; exact ⟨(p - a).toNat, by omega, by omega⟩

theorem portRange_sorted (a b : Int) : (portRange a b).Pairwise (· < ·) := by
  rw [portRange, List.pairwise_map]
  exact List.pairwise_lt_range.imp (fun h => by omega)

theorem natStr_word (n : Nat) : IsWord (natStr n) :=
  ⟨natStr_ne_nil n, fun c hc => isDigit_not_space (natStr_digits n c hc)⟩

theorem natStr_not_mem (n : Nat) {c : Char} (h : isDigit c = false) : c ∉ natStr n :=
  fun hc => by simp [natStr_digits n c hc] at h

theorem natStr_last_not_space (n : Nat) (p : Str) (a : Char) (h : (p ++ natStr n).getLast? = some a) :
    isSpace a = false := by
  rw [List.getLast?_append, List.getLast?_eq_some_getLast (natStr_ne_nil n)] at h
  simp only [Option.some_or, Option.some.injEq] at h
  rw [← h]
  exact (natStr_word n).2 _ (List.getLast_mem _)

theorem lookup_digits {ports : List (Str × Int)} (h : ∀ q ∈ ports, ∃ c ∈ q.1, isDigit c = false)
    (n : Nat) : ports.lookup (natStr n) = none := by
  induction ports with
  | nil => rfl
  | cons q qs ih =>
    obtain ⟨k, v⟩ := q
    rw [List.lookup_cons]
    have hne : (natStr n == k) = false := by
      obtain ⟨c, hc, hd⟩ := h (k, v) (by simp)
      rw [beq_eq_false_iff_ne]
      intro he
      rw [← he] at hc
      simp [natStr_digits n c hc] at hd
    rw [hne]
    exact ih (fun q hq => h q (by simp [hq]))

/-- A port table has no purely numeric name. -/
def NamesOnly (ports : List (Str × Int)) : Prop := ∀ q ∈ ports, ∃ c ∈ q.1, isDigit c = false

theorem resolve_natStr {ports : List (Str × Int)} (h : NamesOnly ports) (n : Nat) :
    resolve ports (natStr n) = .ok (n : Int) := by
  rw [resolve, lookup_digits h, pyInt_natStr]

theorem strip_op (op : Str) (c : Char) (n : Nat) (hc : isSpace c = false) :
    strip (c :: op ++ natStr n) = c :: op ++ natStr n := by
  refine strip_of_ends ?_ (natStr_last_not_space n (c :: op))
  simp [hc]

theorem words_op {w : Str} (hw : IsWord w) (n : Nat) :
    words (w ++ ' ' :: natStr n) = [w, natStr n] := by
  rw [words, splitWs_word_space hw (by decide), splitWs_word (natStr_word n)]

theorem words_op2 {w : Str} (hw : IsWord w) (m n : Nat) :
    words (w ++ ' ' :: (natStr m ++ ' ' :: natStr n)) = [w, natStr m, natStr n] := by
  rw [words, splitWs_word_space hw (by decide), splitWs_word_space (natStr_word m) (by decide),
    splitWs_word (natStr_word n)]

theorem isInfix_nil_false {t : Str} (c : Char) (h : t.head? = some c) (n : Nat) (hc : isDigit c = false) :
    isInfix t (natStr n) = false := isInfix_of_head h (natStr_not_mem n hc)

/-- `t` does not occur in digits, a blank, digits when it starts with a letter. -/
theorem isInfix_two {t : Str} (c : Char) (h : t.head? = some c) (m n : Nat) (hc : isDigit c = false)
    (hs : c ≠ ' ') : isInfix t (natStr m ++ ' ' :: natStr n) = false := by
  refine isInfix_of_head h ?_
  simp only [List.mem_append, List.mem_cons, not_or]
  exact ⟨natStr_not_mem m hc, hs, natStr_not_mem n hc⟩

/-! ## Words -/

theorem lstrip_pre {p s : Str} (hp : ∀ c ∈ p, isSpace c = true)
    (hs : ∀ a, s.head? = some a → isSpace a = false) : lstrip (p ++ s) = s := by
  induction p with
  | nil => exact lstrip_of_head hs
  | cons x xs ih =>
    rw [List.cons_append, lstrip, List.dropWhile_cons, if_pos (hp x (by simp))]
    exact ih (fun c hc => hp c (by simp [hc]))

theorem takeWhile_pre {p s : Str} (hp : ∀ c ∈ p, isSpace c = true)
    (hs : ∀ a, s.head? = some a → isSpace a = false) : (p ++ s).takeWhile isSpace = p := by
  induction p with
  | nil =>
    cases s with
    | nil => rfl
    | cons a as => simp [hs a rfl]
  | cons x xs ih =>
    rw [List.cons_append, List.takeWhile_cons, if_pos (hp x (by simp)),
      ih (fun c hc => hp c (by simp [hc]))]

theorem indentOf_pre {p s : Str} (hp : ∀ c ∈ p, isSpace c = true)
    (hs : ∀ a, s.head? = some a → isSpace a = false) : indentOf (p ++ s) = p.length := by
  rw [indentOf, lstrip_pre hp hs]
  simp

theorem spaces_isSpace (n : Nat) : ∀ c ∈ spaces n, isSpace c = true := by
  intro c hc
  rw [spaces, List.mem_replicate] at hc
  rw [hc.2]; decide

theorem spaces_length (n : Nat) : (spaces n).length = n := by simp [spaces]

theorem join_head : ∀ {ws : List Str} (_ : ∀ w ∈ ws, IsWord w) (a : Char),
    (join [' '] ws).head? = some a → isSpace a = false
  | [], _, a, h => by simp [join] at h
  | [w], hw, a, h => by
    rw [join] at h
    exact (hw w (by simp)).2 a (List.mem_of_mem_head? (by simp [h]))
  | w :: v :: ws, hw, a, h => by
    have hw' := hw w (by simp)
    rw [join, List.append_assoc, List.head?_append] at h
    cases w with
    | nil => exact absurd rfl hw'.1
    | cons c cs =>
      simp only [List.head?_cons, Option.some_or, Option.some.injEq] at h
      rw [← h]
      exact hw'.2 c (by simp)

theorem head_of_starts {c : Char} {s : Str} (h : isSpace c = false) :
    ∀ a, (c :: s).head? = some a → isSpace a = false := by
  intro a ha
  simp only [List.head?_cons, Option.some.injEq] at ha
  rwa [← ha]

theorem no_word : IsWord "no".toList := ⟨by decide, by decide⟩

theorem eatWord_shorter {w s r : Str} (h : eatWord w s = some r) : r.length < s.length := by
  rw [eatWord] at h
  split at h
  · dsimp only at h
    split at h
    · rename_i h1 h2
      simp only [Option.some.injEq] at h
      subst h
      have : (s.drop w.length).length ≤ s.length := by simp
      omega
    · simp at h
  · simp at h

theorem eatWord_word {w sep r : Str} (hs : sep ≠ [] ∧ ∀ c ∈ sep, isSpace c = true)
    (hr : ∀ a, r.head? = some a → isSpace a = false) : eatWord w (w ++ sep ++ r) = some r := by
  rw [eatWord, if_pos (by simp [List.append_assoc])]
  have hd : (w ++ sep ++ r).drop w.length = sep ++ r := by simp [List.append_assoc]
  rw [hd]
  dsimp only
  rw [lstrip_pre hs.2 hr]
  have : 0 < sep.length := List.length_pos_iff.mpr hs.1
  rw [if_pos (by simp; omega)]

theorem eatWord_none {w s : Str} (h : ∀ c, isSpace c = true → ¬ (w ++ [c]) <+: s) :
    eatWord w s = none := by
  rw [eatWord]
  split
  · rename_i hp
    obtain ⟨t, rfl⟩ := List.isPrefixOf_iff_prefix.mp hp
    dsimp only
    rw [List.drop_left]
    split
    · rename_i hl
      exfalso
      cases t with
      | nil => simp [lstrip] at hl
      | cons x xs =>
        by_cases hx : isSpace x = true
        · exact h x hx ⟨xs, by simp⟩
        · rw [lstrip_of_head (head_of_starts (by simpa using hx))] at hl
          omega
    · rfl
  · rfl

theorem lstrip_length_le (s : Str) : (lstrip s).length ≤ s.length := (lstrip_suffix s).length_le

theorem takeWhile_lstrip_length (s : Str) :
    (s.takeWhile isSpace).length + (lstrip s).length = s.length := by
  have := congrArg List.length (List.takeWhile_append_dropWhile (p := isSpace) (l := s))
  rwa [List.length_append] at this

theorem fixOnce_shorter {w s r : Str} (h : fixOnce w s = some r) : r.length < s.length ∧ r ≠ [] := by
  rw [fixOnce] at h
  dsimp only at h
  cases h1 : eatWord w (lstrip s) with
  | none => simp [h1] at h
  | some s1 =>
    cases h2 : eatWord w s1 with
    | none => simp [h1, h2] at h
    | some s2 =>
      rw [h1] at h
      dsimp only at h
      rw [h2] at h
      dsimp only at h
      have e1 := eatWord_shorter h1
      have e2 := eatWord_shorter h2
      have e3 := takeWhile_lstrip_length s
      have hl : (if s2.getLast? = some '\n' then s2.dropLast else s2).length ≤ s2.length := by
        split <;> simp
      generalize (if s2.getLast? = some '\n' then s2.dropLast else s2) = body at h hl
      split at h
      · rename_i hb
        simp only [Option.some.injEq] at h
        subst h
        refine ⟨by rw [List.length_append]; omega, ?_⟩
        intro h0
        have := congrArg List.length h0
        rw [List.length_append, List.length_nil] at this
        omega
      · simp at h

theorem fixLoop_done (w : Str) : ∀ (f : Nat) (s : Str), s.length < f →
    fixOnce w (fixLoop w f s) = none
  | 0, s, h => by omega
  | f + 1, s, h => by
    rw [fixLoop]
    split
    · assumption
    · rename_i r hr
      exact fixLoop_done w f r (by have := (fixOnce_shorter hr).1; omega)

theorem fixLoop_none {w s : Str} (h : fixOnce w s = none) (f : Nat) : fixLoop w f s = s := by
  cases f with
  | zero => rfl
  | succ f => rw [fixLoop, h]

theorem fixLoop_ne_nil (w : Str) : ∀ (f : Nat) (s : Str), s ≠ [] → fixLoop w f s ≠ []
  | 0, _, h => h
  | f + 1, s, h => by
    rw [fixLoop]
    split
    · exact h
    · rename_i r hr
      exact fixLoop_ne_nil w f r (fixOnce_shorter hr).2

open Spec in
theorem repeated_cons (w s : Str) (ss : List Str) (b : Str) :
    repeated w (s :: ss) b = w ++ s ++ repeated w ss b := by
  simp [repeated]

open Spec in
theorem repeated_head {w : Str} (hw : IsWord w) (ss : List Str) {b : Str}
    (hb : ∀ a, b.head? = some a → isSpace a = false) :
    ∀ a, (repeated w ss b).head? = some a → isSpace a = false := by
  cases ss with
  | nil => simpa [repeated] using hb
  | cons s ss =>
    rw [repeated_cons]
    obtain ⟨h1, h2⟩ := hw
    cases w with
    | nil => exact absurd rfl h1
    | cons c cs =>
      exact head_of_starts (h2 c (by simp))

open Spec in
theorem repeated_no_nl {w : Str} (hw : IsWord w) {ss : List Str} (hs : ∀ s ∈ ss, IsSep s) {b : Str}
    (hb : '\n' ∉ b) : '\n' ∉ repeated w ss b := by
  induction ss with
  | nil => simpa [repeated] using hb
  | cons s ss ih =>
    rw [repeated_cons]
    simp only [List.mem_append, not_or]
    refine ⟨⟨fun h => ?_, fun h => ((hs s (by simp)).2 _ h).2 rfl⟩,
      ih (fun t ht => hs t (by simp [ht]))⟩
    exact absurd (hw.2 _ h) (by decide)

open Spec in
theorem fixLoop_repeated {w : Str} (hw : IsWord w) {ind : Str} (hi : ∀ c ∈ ind, isSpace c = true)
    {b : Str} (hb : ∀ a, b.head? = some a → isSpace a = false) (hn : '\n' ∉ b)
    (hnw : ∀ c, isSpace c = true → ¬ (w ++ [c]) <+: b) (h0 : b ≠ []) :
    ∀ (ss : List Str), (∀ s ∈ ss, IsSep s) → (2 ≤ b.length ∨ ss.length % 2 = 1) →
    ∀ f, (ind ++ repeated w ss b).length < f →
      fixLoop w f (ind ++ repeated w ss b) = ind ++ repeated w (ss.drop (ss.length / 2 * 2)) b
  | [], _, _, f, _ => by
    refine fixLoop_none ?_ f
    rw [fixOnce, lstrip_pre hi (repeated_head hw _ hb)]
    simp only [repeated, List.map_nil, List.flatten_nil, List.nil_append, eatWord_none hnw]
  | [s], hs, _, f, _ => by
    have h1 : [s].length / 2 * 2 = 0 := by simp
    rw [h1, List.drop_zero]
    refine fixLoop_none ?_ f
    rw [fixOnce, lstrip_pre hi (repeated_head hw _ hb), repeated_cons,
      eatWord_word ⟨(hs s (by simp)).1, fun c hc => ((hs s (by simp)).2 c hc).1⟩
        (repeated_head hw _ hb)]
    simp only [repeated, List.map_nil, List.flatten_nil, List.nil_append, eatWord_none hnw]
  | s :: t :: ss, hs, hl, 0, hf => by omega
  | s :: t :: ss, hs, hl, f + 1, hf => by
    have hs' : ∀ u ∈ ss, IsSep u := fun u hu => hs u (by simp [hu])
    have hsep : ∀ u, u ∈ s :: t :: ss → u ≠ [] ∧ ∀ c ∈ u, isSpace c = true :=
      fun u hu => ⟨(hs u hu).1, fun c hc => ((hs u hu).2 c hc).1⟩
    have hnl := repeated_no_nl hw hs' hn
    have hlen : 2 ≤ (repeated w ss b).length := by
      rcases hl with hl | hl
      · simp only [repeated, List.length_append]; omega
      · cases ss with
        | nil => simp at hl
        | cons u us =>
          rw [repeated_cons]
          have h1 := List.length_pos_iff.mpr hw.1
          have h2 := List.length_pos_iff.mpr (hs' u (by simp)).1
          simp only [List.length_append]; omega
    have hlast : (repeated w ss b).getLast? ≠ some '\n' := fun h =>
      hnl (List.mem_of_getLast? h)
    have h1 : fixOnce w (ind ++ repeated w (s :: t :: ss) b) = some (ind ++ repeated w ss b) := by
      rw [fixOnce, lstrip_pre hi (repeated_head hw _ hb), takeWhile_pre hi (repeated_head hw _ hb),
        repeated_cons, eatWord_word (hsep s (by simp)) (repeated_head hw _ hb)]
      simp only
      rw [repeated_cons, eatWord_word (hsep t (by simp)) (repeated_head hw _ hb)]
      simp only [if_neg hlast]
      rw [if_pos ⟨hlen, by
        rw [List.all_eq_true]
        intro c hc
        simp only [bne_iff_ne, ne_eq]
        intro h; exact hnl (h ▸ hc)⟩]
    have h2 := (fixOnce_shorter h1).1
    rw [fixLoop, h1]
    simp only
    rw [fixLoop_repeated hw hi hb hn hnw h0 ss hs'
      (by rcases hl with h | h
          · exact .inl h
          · right; simp only [List.length_cons] at h; omega) f (by omega)]
    have : (s :: t :: ss).length / 2 * 2 = ss.length / 2 * 2 + 2 := by
      simp only [List.length_cons]; omega
    rw [this]
    rfl

end Misc

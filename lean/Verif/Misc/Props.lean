import Verif.Misc.Lemmas

/-! # C17, C18, C44, C50 -/

namespace Misc

open Py Spec

/-! ## C17 -/

/-- C17: decrypting a type-7 encoding (two-digit salt) of a non-empty password of
8-bit characters gives the password. -/
theorem C17_decrypt_type7 (salt : Nat) (hs : salt < 100) (pw : Str) (h0 : pw ≠ [])
    (h : ∀ c ∈ pw, c.toNat < 256) : decrypt (type7 salt pw) = .ok pw := by
  have hnl := cipher_no_nl pw h salt
  have hne : cipher salt pw ≠ [] := by
    intro hn
    have := congrArg List.length hn
    rw [cipher_length] at this
    have := List.length_pos_iff.mpr h0
    simp only [List.length_nil] at *
    omega
  have htw : (cipher salt pw).takeWhile (· != '\n') = cipher salt pw :=
    takeWhile_all (fun a ha => by simpa using hnl a ha)
  have hd : ∀ n, n < 10 → digitChar n ≠ '\n' := by decide
  have hlen : (type7 salt pw).length % 2 = 0 := by
    simp only [type7, List.length_append, cipher_length, List.length_cons, List.length_nil]
    omega
  unfold decrypt
  rw [if_pos hlen]
  simp only [type7, List.cons_append, List.nil_append, htw]
  rw [if_neg (by
    rintro (h1 | h1 | h1)
    · exact hd _ (by omega) h1
    · exact hd _ (by omega) h1
    · exact hne h1), pyInt_two salt hs]
  exact decLoop_cipher pw h salt

example : type7 8 "cisco".toList = "0822455D0A16".toList := by decide
example : decrypt "0822455D0A16".toList = .ok "cisco".toList := by decide

/-- C17, the excluded case: the encoding of the empty password (the bare salt) is not
decrypted to the empty password, it raises. -/
theorem C17_empty_raises (salt : Nat) : decrypt (type7 salt []) = .error .attributeError := by
  simp [type7, cipher, decrypt]

/-- C17: a text of odd length is never decrypted: the result is empty. -/
theorem C17_odd (ep : Str) (h : ep.length % 2 = 1) : decrypt ep = .ok [] := by
  unfold decrypt
  rw [if_neg (by omega)]

/-! ## C18 -/

/-- Every table used has only non-numeric names. -/
theorem tcp_names : NamesOnly asaTcpPorts := by unfold NamesOnly; decide +kernel
theorem udp_names : NamesOnly asaUdpPorts := by unfold NamesOnly; decide +kernel

theorem isInfix_cons_false {t : Str} {x : Char} {xs : Str} (h1 : t.isPrefixOf (x :: xs) = false)
    (h2 : isInfix t xs = false) : isInfix t (x :: xs) = false := by
  rw [isInfix, h1, h2]; rfl

theorem not_single {w : Str} {s : Str} :
    ¬ (w ++ ' ' :: s ≠ [] ∧ (w ++ ' ' :: s).all (fun c => !isSpace c) = true) := by
  rintro ⟨_, h⟩
  rw [List.all_eq_true] at h
  exact absurd (h ' ' (by simp)) (by decide)

theorem eq_spec {ports : List (Str × Int)} (hp : NamesOnly ports) (n : Nat) :
    portList ports ("eq ".toList ++ natStr n)
      = if 1 ≤ n ∧ n ≤ 65535 then .ok [(n : Int)] else .error .requirement := by
  have hs : strip ("eq ".toList ++ natStr n) = "eq ".toList ++ natStr n :=
    strip_op "q ".toList 'e' n (by decide)
  have hw : lastWord ("eq ".toList ++ natStr n) = natStr n := by
    have := words_op (w := "eq".toList) ⟨by decide, by decide⟩ n
    rw [lastWord, show "eq ".toList ++ natStr n = "eq".toList ++ ' ' :: natStr n from rfl, this]
    rfl
  have hi : isInfix "eq ".toList ("eq ".toList ++ natStr n) = true := by
    simp [isInfix, List.isPrefixOf]
  rw [portList, hs, if_pos hi, hw, resolve_natStr hp]
  simp only [bind, Except.bind]
  split <;> split <;> first | rfl | (exfalso; omega)

theorem bare_spec {ports : List (Str × Int)} (hp : NamesOnly ports) (n : Nat) :
    portList ports (natStr n)
      = if 1 ≤ n ∧ n ≤ 65535 then .ok [(n : Int)] else .error .requirement := by
  have hs : strip (natStr n) = natStr n := strip_of_noSpace (natStr_word n).2
  have hi : isInfix "eq ".toList (natStr n) = false := isInfix_nil_false 'e' rfl n (by decide)
  rw [portList, hs, if_neg (by rw [hi]; decide), if_pos ⟨natStr_ne_nil n, by
    rw [List.all_eq_true]; intro c hc; simp [(natStr_word n).2 c hc]⟩, resolve_natStr hp]
  simp only [bind, Except.bind]
  split <;> split <;> first | rfl | (exfalso; omega)

theorem lt_spec {ports : List (Str × Int)} (hp : NamesOnly ports) (n : Nat) :
    portList ports ("lt ".toList ++ natStr n)
      = if 2 ≤ n ∧ n ≤ 65535 then .ok (portRange 1 n) else .error .requirement := by
  have hs : strip ("lt ".toList ++ natStr n) = "lt ".toList ++ natStr n :=
    strip_op "t ".toList 'l' n (by decide)
  have hw : lastWord ("lt ".toList ++ natStr n) = natStr n := by
    have := words_op (w := "lt".toList) ⟨by decide, by decide⟩ n
    rw [lastWord, show "lt ".toList ++ natStr n = "lt".toList ++ ' ' :: natStr n from rfl, this]
    rfl
  have hd : ∀ c t, isDigit c = false → isInfix (c :: t) (natStr n) = false :=
    fun c t h => isInfix_nil_false c rfl n h
  have h1 : isInfix "eq ".toList ("lt ".toList ++ natStr n) = false := by
    simp [isInfix, List.isPrefixOf]; exact hd _ _ (by decide)
  have h2 : isInfix "range ".toList ("lt ".toList ++ natStr n) = false := by
    simp [isInfix, List.isPrefixOf]; exact hd _ _ (by decide)
  have h3 : isInfix "lt ".toList ("lt ".toList ++ natStr n) = true := by
    simp [isInfix, List.isPrefixOf]
  have hns : ¬ ("lt ".toList ++ natStr n ≠ [] ∧
      ("lt ".toList ++ natStr n).all (fun c => !isSpace c) = true) :=
    not_single (w := "lt".toList) (s := natStr n)
  rw [portList, hs, if_neg (by rw [h1]; decide), if_neg hns, if_neg (by rw [h2]; decide), if_pos h3, hw,
    resolve_natStr hp]
  simp only [bind, Except.bind]
  split <;> split <;> first | rfl | (exfalso; omega)

theorem gt_spec {ports : List (Str × Int)} (hp : NamesOnly ports) (n : Nat) :
    portList ports ("gt ".toList ++ natStr n)
      = if 1 ≤ n ∧ n < 65535 then .ok (portRange (n + 1) 65536) else .error .requirement := by
  have hs : strip ("gt ".toList ++ natStr n) = "gt ".toList ++ natStr n :=
    strip_op "t ".toList 'g' n (by decide)
  have hw : lastWord ("gt ".toList ++ natStr n) = natStr n := by
    have := words_op (w := "gt".toList) ⟨by decide, by decide⟩ n
    rw [lastWord, show "gt ".toList ++ natStr n = "gt".toList ++ ' ' :: natStr n from rfl, this]
    rfl
  have hd : ∀ c t, isDigit c = false → isInfix (c :: t) (natStr n) = false :=
    fun c t h => isInfix_nil_false c rfl n h
  have h1 : isInfix "eq ".toList ("gt ".toList ++ natStr n) = false := by
    simp [isInfix, List.isPrefixOf]; exact hd _ _ (by decide)
  have h2 : isInfix "range ".toList ("gt ".toList ++ natStr n) = false := by
    simp [isInfix, List.isPrefixOf]; exact hd _ _ (by decide)
  have h3 : isInfix "lt ".toList ("gt ".toList ++ natStr n) = false := by
    simp [isInfix, List.isPrefixOf]; exact hd _ _ (by decide)
  have h4 : isInfix "gt ".toList ("gt ".toList ++ natStr n) = true := by
    simp [isInfix, List.isPrefixOf]
  have hns : ¬ ("gt ".toList ++ natStr n ≠ [] ∧
      ("gt ".toList ++ natStr n).all (fun c => !isSpace c) = true) :=
    not_single (w := "gt".toList) (s := natStr n)
  rw [portList, hs, if_neg (by rw [h1]; decide), if_neg hns, if_neg (by rw [h2]; decide), if_neg (by rw [h3]; decide),
    if_pos h4, hw, resolve_natStr hp]
  simp only [bind, Except.bind]
  split <;> split <;> first | rfl | (exfalso; omega)

theorem range_spec {ports : List (Str × Int)} (hp : NamesOnly ports) (m n : Nat) :
    portList ports ("range ".toList ++ natStr m ++ " ".toList ++ natStr n)
      = if m ≤ n then .ok (portRange m (n + 1)) else .error .requirement := by
  have hassoc : "range ".toList ++ natStr m ++ " ".toList ++ natStr n
      = "range".toList ++ ' ' :: (natStr m ++ ' ' :: natStr n) := by
    simp
  rw [hassoc]
  have hs : strip ("range".toList ++ ' ' :: (natStr m ++ ' ' :: natStr n))
      = "range".toList ++ ' ' :: (natStr m ++ ' ' :: natStr n) := by
    have := strip_op ("ange".toList ++ ' ' :: (natStr m ++ [' '])) 'r' n (by decide)
    simpa using this
  have hw := words_op2 (w := "range".toList) ⟨by decide, by decide⟩ m n
  have hd : ∀ c t, isDigit c = false → c ≠ ' ' → isInfix (c :: t) (natStr m ++ ' ' :: natStr n) = false :=
    fun c t h h' => isInfix_two c rfl m n h h'
  have h1 : isInfix "eq ".toList ("range".toList ++ ' ' :: (natStr m ++ ' ' :: natStr n)) = false := by
    simp [isInfix, List.isPrefixOf]; exact hd _ _ (by decide) (by decide)
  have h2 : isInfix "range ".toList ("range".toList ++ ' ' :: (natStr m ++ ' ' :: natStr n)) = true := by
    simp [isInfix, List.isPrefixOf]
  rw [portList, hs, if_neg (by rw [h1]; decide), if_neg not_single, if_pos h2, hw]
  simp only [List.tail_cons, resolve_natStr hp, bind, Except.bind]
  split <;> split <;> first | rfl | (exfalso; omega)

theorem neq_spec {ports : List (Str × Int)} (hp : NamesOnly ports) (n : Nat) :
    portList ports ("neq ".toList ++ natStr n)
      = if 1 ≤ n ∧ n ≤ 65535 then .ok [(n : Int)] else .error .requirement := by
  have hs : strip ("neq ".toList ++ natStr n) = "neq ".toList ++ natStr n :=
    strip_op "eq ".toList 'n' n (by decide)
  have hw : lastWord ("neq ".toList ++ natStr n) = natStr n := by
    have := words_op (w := "neq".toList) ⟨by decide, by decide⟩ n
    rw [lastWord, show "neq ".toList ++ natStr n = "neq".toList ++ ' ' :: natStr n from rfl, this]
    rfl
  have hi : isInfix "eq ".toList ("neq ".toList ++ natStr n) = true := by
    simp [isInfix, List.isPrefixOf]
  rw [portList, hs, if_pos hi, hw, resolve_natStr hp]
  simp only [bind, Except.bind]
  split <;> split <;> first | rfl | (exfalso; omega)

/-- An L4 protocol that the ASA syntax supports. -/
def IsProto (pr : Str) : Prop := pr = "tcp".toList ∨ pr = "udp".toList

theorem l4_of_proto {pr : Str} (h : IsProto pr) :
    ∃ ports, NamesOnly ports ∧ ∀ spec, l4object pr spec "asa".toList = portList ports spec := by
  rcases h with h | h
  · exact ⟨asaTcpPorts, tcp_names, fun spec => by simp [l4object, h]⟩
  · exact ⟨asaUdpPorts, udp_names, fun spec => by rw [l4object, if_pos rfl, if_neg (by rw [h]; decide), if_pos h]⟩

/-- C18 (eq): "eq N" and the bare "N" denote the single port N, and raise when N is
not a port. -/
theorem C18_eq {pr : Str} (h : IsProto pr) (n : Nat) (spec : Str)
    (hs : spec = "eq ".toList ++ natStr n ∨ spec = natStr n) :
    (∀ l, l4object pr spec "asa".toList = .ok l → PortsOf l (fun p => p = n)) ∧
    (((1 ≤ n ∧ n ≤ 65535) → ∃ l, l4object pr spec "asa".toList = .ok l) ∧
      (¬ (1 ≤ n ∧ n ≤ 65535) → l4object pr spec "asa".toList = .error .requirement)) := by
  obtain ⟨ports, hp, he⟩ := l4_of_proto h
  have : l4object pr spec "asa".toList
      = if 1 ≤ n ∧ n ≤ 65535 then .ok [(n : Int)] else .error .requirement := by
    rw [he]
    rcases hs with rfl | rfl
    · exact eq_spec hp n
    · exact bare_spec hp n
  rw [this]
  refine ⟨?_, ?_, ?_⟩
  · intro l hl
    split at hl
    · simp only [Except.ok.injEq] at hl
      subst hl
      refine ⟨by simp, fun p => ?_⟩
      simp only [List.mem_singleton]
      omega
    · simp at hl
  · intro h1; exact ⟨_, if_pos h1⟩
  · intro h1; exact if_neg h1

/-- C18 (lt): "lt N" denotes the ports below N; it raises when there is none or N is
no port. -/
theorem C18_lt {pr : Str} (h : IsProto pr) (n : Nat) :
    (∀ l, l4object pr ("lt ".toList ++ natStr n) "asa".toList = .ok l → PortsOf l (fun p => p < n)) ∧
    (((2 ≤ n ∧ n ≤ 65535) → ∃ l, l4object pr ("lt ".toList ++ natStr n) "asa".toList = .ok l) ∧
      (¬ (2 ≤ n ∧ n ≤ 65535) →
        l4object pr ("lt ".toList ++ natStr n) "asa".toList = .error .requirement)) := by
  obtain ⟨ports, hp, he⟩ := l4_of_proto h
  rw [he, lt_spec hp]
  refine ⟨?_, ?_, ?_⟩
  · intro l hl
    split at hl
    · simp only [Except.ok.injEq] at hl
      subst hl
      refine ⟨portRange_sorted _ _, fun p => ?_⟩
      rw [mem_portRange]
      omega
    · simp at hl
  · intro h1; exact ⟨_, if_pos h1⟩
  · intro h1; exact if_neg h1

/-- C18 (gt): "gt N" denotes the ports above N; it raises when there is none or N is
no port. -/
theorem C18_gt {pr : Str} (h : IsProto pr) (n : Nat) :
    (∀ l, l4object pr ("gt ".toList ++ natStr n) "asa".toList = .ok l → PortsOf l (fun p => n < p)) ∧
    (((1 ≤ n ∧ n < 65535) → ∃ l, l4object pr ("gt ".toList ++ natStr n) "asa".toList = .ok l) ∧
      (¬ (1 ≤ n ∧ n < 65535) →
        l4object pr ("gt ".toList ++ natStr n) "asa".toList = .error .requirement)) := by
  obtain ⟨ports, hp, he⟩ := l4_of_proto h
  rw [he, gt_spec hp]
  refine ⟨?_, ?_, ?_⟩
  · intro l hl
    split at hl
    · simp only [Except.ok.injEq] at hl
      subst hl
      refine ⟨portRange_sorted _ _, fun p => ?_⟩
      rw [mem_portRange]
      omega
    · simp at hl
  · intro h1; exact ⟨_, if_pos h1⟩
  · intro h1; exact if_neg h1

/-- C18 (range), for bounds that are ports: "range A B" denotes A..B and raises when
A > B.  Missing for the full claim: bounds outside 1..65535 should raise
(`C18_range_bounds_fails`). -/
theorem C18_range_partial {pr : Str} (h : IsProto pr) (m n : Nat) (hm : 1 ≤ m) (hn : n ≤ 65535) :
    (∀ l, l4object pr ("range ".toList ++ natStr m ++ " ".toList ++ natStr n) "asa".toList = .ok l →
      PortsOf l (fun p => m ≤ p ∧ p ≤ n)) ∧
    ((m ≤ n → ∃ l, l4object pr ("range ".toList ++ natStr m ++ " ".toList ++ natStr n) "asa".toList
        = .ok l) ∧
      (n < m → l4object pr ("range ".toList ++ natStr m ++ " ".toList ++ natStr n) "asa".toList
        = .error .requirement)) := by
  obtain ⟨ports, hp, he⟩ := l4_of_proto h
  rw [he, range_spec hp]
  refine ⟨?_, ?_, ?_⟩
  · intro l hl
    split at hl
    · simp only [Except.ok.injEq] at hl
      subst hl
      refine ⟨portRange_sorted _ _, fun p => ?_⟩
      rw [mem_portRange]
      omega
    · simp at hl
  · intro h1; exact ⟨_, if_pos h1⟩
  · intro h1; exact if_neg (by omega)

/-- C18 fails for "range": a bound above 65535 is accepted and yields non-ports. -/
theorem C18_range_bounds_fails {pr : Str} (h : IsProto pr) :
    ∃ l, l4object pr ("range ".toList ++ natStr 65535 ++ " ".toList ++ natStr 70000) "asa".toList
        = .ok l ∧ (70000 : Int) ∈ l := by
  obtain ⟨ports, hp, he⟩ := l4_of_proto h
  refine ⟨_, by rw [he, range_spec hp, if_pos (by omega)], ?_⟩
  rw [mem_portRange]
  omega

/-- C18 fails for "neq": "neq N" denotes exactly the one port it should exclude,
for every port N. -/
theorem C18_neq_fails {pr : Str} (h : IsProto pr) (n : Nat) (hn : 1 ≤ n ∧ n ≤ 65535) :
    l4object pr ("neq ".toList ++ natStr n) "asa".toList = .ok [(n : Int)] ∧
    ¬ PortsOf [(n : Int)] (fun p => p ≠ n) := by
  obtain ⟨ports, hp, he⟩ := l4_of_proto h
  refine ⟨by rw [he, neq_spec hp, if_pos hn], ?_⟩
  rintro ⟨_, h2⟩
  exact ((h2 n).mp (by simp)).2.2 rfl

/-- C18: every other syntax or protocol raises. -/
theorem C18_unsupported (pr spec syn : Str) (h : ¬ (syn = "asa".toList ∧ IsProto pr)) :
    l4object pr spec syn = .error .notImplemented := by
  rw [l4object]
  split
  · rename_i h1
    split
    · rename_i h2; exact absurd ⟨h1, .inl h2⟩ h
    · split
      · rename_i h2; exact absurd ⟨h1, .inr h2⟩ h
      · rfl
  · rfl

/-- C18: a well-known port name means the same as its number; the numbers are those
of the IANA registry (see `C18_ftp_fails` for two that are not). -/
theorem C18_names : (∀ q ∈ ianaTcp, l4object "tcp".toList ("eq ".toList ++ q.1.toList) "asa".toList
      = .ok [q.2]) ∧
    (∀ q ∈ ianaUdp, l4object "udp".toList ("eq ".toList ++ q.1.toList) "asa".toList = .ok [q.2]) := by
  constructor <;> decide +kernel

/-- C18: so does every other name in the tables. -/
theorem C18_table : (∀ q ∈ asaTcpPorts, l4object "tcp".toList ("eq ".toList ++ q.1) "asa".toList
      = .ok [q.2]) ∧
    (∀ q ∈ asaUdpPorts, l4object "udp".toList ("eq ".toList ++ q.1) "asa".toList = .ok [q.2]) := by
  constructor <;> decide +kernel

/-- C18 fails for two names: FTP's control port is 21 and its data port 20 (IANA, and
the ASA's own list); the table has them exchanged. -/
theorem C18_ftp_fails :
    l4object "tcp".toList "eq ftp".toList "asa".toList = .ok [20] ∧
    l4object "tcp".toList "eq ftp-data".toList "asa".toList = .ok [21] := by
  constructor <;> decide +kernel

example : IsProto "tcp".toList := .inl rfl
example : l4object "tcp".toList "range 22 25".toList "asa".toList = .ok [22, 23, 24, 25] := by
  decide +kernel

/-! ## C44 -/

theorem isNo_iff (w : Str) : isNo w = true ↔ SaysNo w := by
  simp only [isNo, Bool.or_eq_true, beq_iff_eq]
  constructor
  · rintro (((h | h) | h) | h)
    · exact ⟨'n', 'o', h, .inl rfl, .inl rfl⟩
    · exact ⟨'N', 'o', h, .inr rfl, .inl rfl⟩
    · exact ⟨'n', 'O', h, .inl rfl, .inr rfl⟩
    · exact ⟨'N', 'O', h, .inr rfl, .inr rfl⟩
  · rintro ⟨a, b, h, ha | ha, hb | hb⟩ <;> subst ha <;> subst hb <;> rw [h] <;> decide

/-- The first word of a text that does not start with a blank. -/
theorem splitWs_first {c : Char} {cmd w : Str} {ws : List Str} (hc : isSpace c = false)
    (h : splitWs (c :: cmd) = w :: ws) :
    ∃ rest, c :: cmd = w ++ rest ∧ ∀ x, rest.head? = some x → isSpace x = true := by
  have key : ∀ (t acc : Str), acc ≠ [] → splitWsAux t acc = w :: ws →
      ∃ rest, acc.reverse ++ t = w ++ rest ∧ ∀ x, rest.head? = some x → isSpace x = true := by
    intro t
    induction t with
    | nil =>
      intro acc ha he
      rw [splitWsAux, if_neg (by simp [ha])] at he
      injection he with e1 _
      exact ⟨[], by rw [e1], by simp⟩
    | cons x xs ih =>
      intro acc ha he
      rw [splitWsAux] at he
      by_cases hx : isSpace x = true
      · rw [if_pos hx, if_neg (by simp [ha])] at he
        injection he with e1 _
        exact ⟨x :: xs, by rw [e1], by intro y hy; simp only [List.head?_cons, Option.some.injEq] at hy; rw [← hy]; exact hx⟩
      · rw [if_neg hx] at he
        obtain ⟨rest, h1, h2⟩ := ih (x :: acc) (by simp) he
        exact ⟨rest, by rw [← h1]; simp, h2⟩
  rw [splitWs, splitWsAux, if_neg (by simp [hc])] at h
  exact key cmd [c] (by simp) h

theorem not_isNo {c : Char} {cmd : Str} (hc : isSpace c = false) (hn : ¬ NoCommand (c :: cmd)) :
    ∀ w ws, splitWs (c :: cmd) = w :: ws → isNo w = false := by
  intro w ws hs
  cases hw : isNo w with
  | false => rfl
  | true =>
    obtain ⟨rest, h1, h2⟩ := splitWs_first hc hs
    exact absurd ⟨w, rest, (isNo_iff w).mp hw, h1, h2⟩ hn

theorem uncfg_command (ind : Str) (hi : ∀ c ∈ ind, isSpace c = true) (c : Char) (cmd : Str)
    (hc : isSpace c = false) (hn : ∀ w ws, splitWs (c :: cmd) = w :: ws → isNo w = false) :
    uncfgtext (ind ++ c :: cmd) = .ok (spaces ind.length ++ "no ".toList ++ c :: cmd) := by
  rw [uncfgtext, splitWs_spaces _ _ hi, indentOf_pre hi (head_of_starts hc),
    lstrip_pre hi (head_of_starts hc)]
  split
  · rename_i h; exact absurd h (splitWs_cons_ne_nil hc cmd)
  · rename_i w ws h
    rw [if_neg (by simp [hn w ws h])]

/-- C44: at any indentation, the inverse of a command that is not a "no" command is
"no" followed by the command. -/
theorem C44_uncfg_command (ind : Str) (hi : ∀ c ∈ ind, isSpace c = true) (c : Char) (cmd : Str)
    (hc : isSpace c = false) (hn : ¬ NoCommand (c :: cmd)) :
    uncfgtext (ind ++ c :: cmd) = .ok (spaces ind.length ++ "no ".toList ++ c :: cmd) :=
  uncfg_command ind hi c cmd hc (not_isNo hc hn)

/-- C44: the inverse of "no <command>" is the command (its words joined by single
blanks) at the same indentation, for any capitalisation of "no". -/
theorem C44_uncfg_no (ind : Str) (hi : ∀ c ∈ ind, isSpace c = true) (no sep : Str)
    (hno : SaysNo no) (hsep : sep ≠ [] ∧ ∀ c ∈ sep, isSpace c = true) (c : Char) (cmd : Str)
    (hc : isSpace c = false) :
    uncfgtext (ind ++ no ++ sep ++ c :: cmd)
      = .ok (spaces ind.length ++ join " ".toList (splitWs (c :: cmd))) := by
  have hno := (isNo_iff no).mpr hno
  have hno' : IsWord no := by
    simp only [isNo, Bool.or_eq_true, beq_iff_eq] at hno
    rcases hno with ((h | h) | h) | h <;> (rw [h]; exact ⟨by decide, by decide⟩)
  obtain ⟨x, xs, hx⟩ : ∃ x xs, sep = x :: xs := by
    cases sep with
    | nil => exact absurd rfl hsep.1
    | cons x xs => exact ⟨x, xs, rfl⟩
  have hhead : ∀ a, (no ++ (sep ++ c :: cmd)).head? = some a → isSpace a = false := by
    obtain ⟨h1, h2⟩ := hno'
    cases no with
    | nil => exact absurd rfl h1
    | cons d ds => exact head_of_starts (h2 d (by simp))
  have hsp : splitWs (no ++ (sep ++ c :: cmd)) = no :: splitWs (c :: cmd) := by
    rw [hx, List.cons_append, splitWs_word_space hno' (hsep.2 x (by simp [hx])),
      splitWs_spaces _ _ (fun y hy => hsep.2 y (by simp [hx, hy]))]
  rw [List.append_assoc, List.append_assoc, uncfgtext, splitWs_spaces _ _ hi, hsp,
    indentOf_pre hi hhead]
  simp only [hno, if_true, if_neg (splitWs_cons_ne_nil hc cmd)]

/-- C44: applying it twice to a command that is not a "no" command gives the command
back, up to spacing. -/
theorem C44_twice_command (ind : Str) (hi : ∀ c ∈ ind, isSpace c = true) (c : Char) (cmd : Str)
    (hc : isSpace c = false) (hn : ¬ NoCommand (c :: cmd)) :
    (uncfgtext (ind ++ c :: cmd) >>= uncfgtext)
      = .ok (spaces ind.length ++ join " ".toList (splitWs (c :: cmd))) := by
  rw [C44_uncfg_command ind hi c cmd hc hn]
  have := C44_uncfg_no (spaces ind.length) (spaces_isSpace _) "no".toList " ".toList ((isNo_iff _).mp (by decide))
    ⟨by decide, by decide⟩ c cmd hc
  rw [spaces_length, List.append_assoc _ "no".toList] at this
  exact this

/-- C44: applying it twice to "no <command>" gives it back, up to spacing, when the
command itself does not start with "no".  Missing for the full claim: a doubled "no"
(`C44_twice_fails`). -/
theorem C44_twice_no_partial (ind : Str) (hi : ∀ c ∈ ind, isSpace c = true) (sep : Str)
    (hsep : sep ≠ [] ∧ ∀ c ∈ sep, isSpace c = true) (c : Char) (cmd : Str)
    (hc : isSpace c = false) (hn : ¬ NoCommand (c :: cmd)) :
    (uncfgtext (ind ++ "no".toList ++ sep ++ c :: cmd) >>= uncfgtext)
      = .ok (spaces ind.length ++ "no ".toList ++ join " ".toList (splitWs (c :: cmd))) := by
  rw [C44_uncfg_no ind hi _ sep ((isNo_iff _).mp (by decide)) hsep c cmd hc]
  have hw := splitWs_words (c :: cmd)
  have hj := join_head hw
  cases hs : splitWs (c :: cmd) with
  | nil => exact absurd hs (splitWs_cons_ne_nil hc cmd)
  | cons w ws =>
    rw [hs] at hw hj
    have hwd := hw w (by simp)
    obtain ⟨d, ds, hd⟩ : ∃ d ds, join [' '] (w :: ws) = d :: ds := by
      cases w with
      | nil => exact absurd rfl hwd.1
      | cons a as => cases ws with
        | nil => exact ⟨a, as, rfl⟩
        | cons v vs => exact ⟨a, _, by rw [join]; rfl⟩
    have h1 := uncfg_command (spaces ind.length) (spaces_isSpace _) d ds
      (hj d (by rw [hd]; rfl)) (by
        intro u us hu
        rw [← hd, splitWs_join _ hw] at hu
        have := not_isNo hc hn w ws hs
        simp only [List.cons.injEq] at hu
        rw [← hu.1]; exact this)
    rw [← hd, spaces_length] at h1
    exact h1

/-- C44 fails as stated: for "no no shutdown", applying it twice loses both words. -/
theorem C44_twice_fails :
    (uncfgtext "no no shutdown".toList >>= uncfgtext) = .ok "shutdown".toList := by decide

example : uncfgtext " ip  address 1.1.1.1".toList = .ok " no ip  address 1.1.1.1".toList := by decide
example : uncfgtext "  no  ip proxy-arp".toList = .ok "  ip proxy-arp".toList := by decide

/-! ## C50 -/

/-- C50: `k` copies of the word in front of a command (with any blanks between them)
are reduced to `k mod 2` copies; the command and the indentation are kept.  The
command has at least two characters unless `k` is odd: missing for the full claim is
the one-character command (`C50_short_command_fails`). -/
theorem C50_parity_partial (word : Str) (hw : IsWord word) (ind : Str)
    (hi : ∀ c ∈ ind, isSpace c = true) (seps : List Str) (hs : ∀ s ∈ seps, IsSep s)
    (c : Char) (cmd : Str) (hc : isSpace c = false) (hnl : '\n' ∉ c :: cmd)
    (hnw : ∀ x, isSpace x = true → ¬ (word ++ [x]) <+: c :: cmd)
    (hl : cmd ≠ [] ∨ seps.length % 2 = 1) :
    ∃ last, last <:+ seps ∧ last.length = seps.length % 2 ∧
      fixRepeatedWords (ind ++ repeated word seps (c :: cmd)) word
        = .ok (ind ++ repeated word last (c :: cmd)) := by
  refine ⟨seps.drop (seps.length / 2 * 2), List.drop_suffix _ _, by rw [List.length_drop]; omega, ?_⟩
  rw [fixRepeatedWords, if_neg (by
    rintro (h | h)
    · have := congrArg List.length h
      simp [repeated] at this
    · exact hw.1 h), strip_of_noSpace hw.2]
  rw [fixLoop_repeated hw hi (head_of_starts hc) hnl hnw (by simp) seps hs
    (by rcases hl with h | h
        · left
          have := List.length_pos_iff.mpr h
          simp only [List.length_cons]; omega
        · exact .inr h) _ (by omega)]

/-- C50: the function terminates with a result to which applying it again changes
nothing. -/
theorem C50_idempotent (word cmd : Str) (hw : word ≠ []) (hc : cmd ≠ []) :
    ∃ r, fixRepeatedWords cmd word = .ok r ∧ fixRepeatedWords r word = .ok r := by
  refine ⟨fixLoop (strip word) (cmd.length + 1) cmd, ?_, ?_⟩
  · rw [fixRepeatedWords, if_neg (by simp [hw, hc])]
  · rw [fixRepeatedWords, if_neg (by simp [hw, fixLoop_ne_nil _ _ _ hc])]
    rw [fixLoop_none (fixLoop_done (strip word) _ cmd (by omega))]

/-- C50 fails for a one-character command: the pair of words stays. -/
theorem C50_short_command_fails :
    fixRepeatedWords "no no x".toList "no".toList = .ok "no no x".toList := by decide

example : fixRepeatedWords "  no no no ip routing".toList "no".toList
    = .ok "  no ip routing".toList := by decide

end Misc

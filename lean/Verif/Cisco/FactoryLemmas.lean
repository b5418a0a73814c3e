import Verif.Cisco.Factory
import Verif.Cisco.Lemmas
import Verif.Re.Hit
import Verif.Conf.Lemmas

/-! # Which object a line becomes: specification and lemmas -/

namespace Cisco

namespace Spec

open Py

/-- The text begins with these words, with blanks between them; behind the last word
anything may follow. -/
def Phrase : List Str → Str → Prop
  | [], _ => True
  | [w], t => w <+: t
  | w :: v :: ws, t => ∃ g r, t = w ++ g ++ r ∧ g ≠ [] ∧ (∀ c ∈ g, isSpace c = true) ∧ Phrase (v :: ws) r

/-- The same, with one blank between two words. -/
def Phrase1 : List Str → Str → Prop
  | [], _ => True
  | [w], t => w <+: t
  | w :: v :: ws, t => ∃ x r, t = w ++ x :: r ∧ isSpace x = true ∧ Phrase1 (v :: ws) r

/-- What makes a line a line of the class.  The last class is for all other lines. -/
def Kind (t : Str) : LineCls → Prop
  | .intf => ∃ more, splitWs t = "interface".toList :: more
  | .route => "ip route ".toList <+: t ∨ "ipv6 route ".toList <+: t
  | .access => "line".toList <+: t
  | .aaaLogin => Phrase (wd ["aaa", "authentication", "login"]) (strip t)
  | .aaaEnable => Phrase (wd ["aaa", "authentication", "enable"]) (strip t)
  | .aaaCommandsAuthz => Phrase (wd ["aaa", "authorization", "commands"]) (strip t)
  | .aaaConsoleAuthz => Phrase (wd ["aaa", "authorization", "console"]) (strip t)
  | .aaaCommandsAcct => Phrase (wd ["aaa", "accounting", "commands"]) (strip t)
  | .aaaExecAcct => Phrase (wd ["aaa", "accounting", "exec"]) (strip t)
  | .aaaGroup => Phrase1 (wd ["aaa", "group", "server"]) t
  | .hostname => "hostname".toList <+: t
  | .intfGlobal => Phrase (wd ["no", "cdp", "run"]) t ∨ ∃ a s, t = a ++ s ∧
      (Phrase (wd ["logging", "event", "link-status", "global"]) s ∨
        Phrase1 (wd ["spanning-tree", "portfast", "default"]) s ∨
        Phrase1 (wd ["spanning-tree", "portfast", "bpduguard", "default"]) s)
  | .cfg => False

end Spec

open Py Conf Query Re Spec

instance (w : Str) : Decidable (IsWord w) := by unfold IsWord; infer_instance

/-! ## Phrases -/

/-- The program of a phrase. -/
def phraseP : List Str → Prog
  | [] => .done
  | [w] => str w .done
  | w :: v :: ws => str w (.plus .space (phraseP (v :: ws)))

/-- The program of a phrase with single blanks. -/
def phrase1P : List Str → Prog
  | [] => .done
  | [w] => str w .done
  | w :: v :: ws => str w (.one .space (phrase1P (v :: ws)))

theorem prefix_head {w t : Str} (hw : IsWord w) (h : w <+: t) : ∃ x s, t = x :: s ∧ isSpace x = false := by
  obtain ⟨r, rfl⟩ := h
  obtain ⟨x, w', rfl⟩ := List.exists_cons_of_ne_nil hw.1
  exact ⟨x, w' ++ r, rfl, hw.2 x (by simp)⟩

theorem phrase_head {w : Str} {ws : List Str} {t : Str} (h : Phrase (w :: ws) t) :
    w <+: t := by
  cases ws with
  | nil => exact h
  | cons v ws =>
    obtain ⟨g, r, rfl, _⟩ := h
    rw [List.append_assoc]
    exact List.prefix_append _ _

theorem phrase1_head {w : Str} {ws : List Str} {t : Str} (h : Phrase1 (w :: ws) t) : w <+: t := by
  cases ws with
  | nil => exact h
  | cons v ws =>
    obtain ⟨g, r, rfl, _⟩ := h
    exact List.prefix_append _ _

theorem det_phrase {ws : List Str} (hws : ∀ w ∈ ws, IsWord w) (t : Str) (c : Caps) :
    ((phraseP ws).det t c).isSome = true ↔ Phrase ws t := by
  induction ws generalizing t with
  | nil => simp [phraseP, Prog.det, Phrase]
  | cons w ws ih =>
    cases ws with
    | nil =>
      rw [phraseP, det_str, Phrase]
      split
      · rename_i h; simp [Prog.det, h]
      · rename_i h; simp [h]
    | cons v ws =>
      have ih := fun t => ih (fun u hu => hws u (List.mem_cons_of_mem _ hu)) t
      have hv := hws v (by simp)
      rw [phraseP, det_str, Phrase]
      constructor
      · intro h
        split at h
        · rename_i hp
          obtain ⟨r, rfl⟩ := hp
          rw [List.drop_left] at h
          cases r with
          | nil => cases h
          | cons x r =>
            rw [plus_cons] at h
            split at h
            · rename_i hx
              refine ⟨x :: r.takeWhile isSpace, r.dropWhile isSpace, ?_, by simp, ?_, (ih _).mp h⟩
              · simp
              · intro c hc
                rcases List.mem_cons.mp hc with rfl | hc
                · exact hx
                · exact of_mem_takeWhile hc
            · cases h
        · cases h
      · rintro ⟨g, r, rfl, hg, hs, hp⟩
        rw [List.append_assoc, if_pos (List.prefix_append _ _), List.drop_left]
        obtain ⟨x, g', rfl⟩ := List.exists_cons_of_ne_nil hg
        rw [List.cons_append, plus_cons, if_pos (show K.space.has x = true from hs x (by simp))]
        have : (g' ++ r).dropWhile K.space.has = r := by
          obtain ⟨y, s, rfl, hy⟩ := prefix_head hv (phrase_head hp)
          have hs' : ∀ c ∈ g', isSpace c = true := fun c hc => hs c (by simp [hc])
          clear hs hg
          induction g' with
          | nil =>
            rw [List.nil_append, List.dropWhile_cons_of_neg]
            rw [show K.space.has y = isSpace y from rfl, hy]; simp
          | cons z g' ih2 =>
            rw [List.cons_append, List.dropWhile_cons_of_pos (show K.space.has z = true from hs' z (by simp))]
            exact ih2 (fun c hc => hs' c (by simp [hc]))
        rw [this]
        exact (ih _).mpr hp

theorem det_phrase1 {ws : List Str} (t : Str) (c : Caps) : ((phrase1P ws).det t c).isSome = true ↔ Phrase1 ws t := by
  induction ws generalizing t with
  | nil => simp [phrase1P, Prog.det, Phrase1]
  | cons w ws ih =>
    cases ws with
    | nil =>
      rw [phrase1P, det_str, Phrase1]
      split
      · rename_i h; simp [Prog.det, h]
      · rename_i h; simp [h]
    | cons v ws =>
      rw [phrase1P, det_str, Phrase1]
      constructor
      · intro h
        split at h
        · rename_i hp
          obtain ⟨r, rfl⟩ := hp
          rw [List.drop_left] at h
          cases r with
          | nil => cases h
          | cons x r =>
            rw [Prog.det] at h
            split at h
            · rename_i hx
              exact ⟨x, r, rfl, hx, (ih _).mp h⟩
            · cases h
        · cases h
      · rintro ⟨x, r, rfl, hx, hp⟩
        rw [if_pos (List.prefix_append _ _), List.drop_left, Prog.det]
        rw [if_pos (show K.space.has x = true from hx)]
        exact (ih _).mpr hp

/-- Two words that both begin the text. -/
theorem prefix_both {a b t : Str} (h1 : a <+: t) (h2 : b <+: t) : a <+: b ∨ b <+: a := by
  rcases Nat.le_total a.length b.length with h | h
  · exact Or.inl (List.prefix_of_prefix_length_le h1 h2 h)
  · exact Or.inr (List.prefix_of_prefix_length_le h2 h1 h)

theorem gap_unique {y z : Char} {s u : Str} (g g' : Str) (hs : ∀ c ∈ g, isSpace c = true)
    (hs' : ∀ c ∈ g', isSpace c = true) (hy : isSpace y = false) (hz : isSpace z = false)
    (he : g ++ y :: s = g' ++ z :: u) : y :: s = z :: u := by
  induction g generalizing g' with
  | nil =>
    cases g' with
    | nil => exact he
    | cons a g' =>
      rw [List.nil_append, List.cons_append, List.cons.injEq] at he
      rw [he.1, hs' a (by simp)] at hy; cases hy
  | cons b g ih =>
    cases g' with
    | nil =>
      rw [List.nil_append, List.cons_append, List.cons.injEq] at he
      rw [← he.1, hs b (by simp)] at hz; cases hz
    | cons a g' =>
      rw [List.cons_append, List.cons_append, List.cons.injEq] at he
      exact ih g' (fun c hc => hs c (by simp [hc])) (fun c hc => hs' c (by simp [hc])) he.2

/-- Behind a common word, both phrases go on in the same place. -/
theorem phrase_tail {w v v' : Str} {ws ws' : List Str} {t : Str} (hv : IsWord v) (hv' : IsWord v')
    (h : Phrase (w :: v :: ws) t) (h' : Phrase (w :: v' :: ws') t) : ∃ r, Phrase (v :: ws) r ∧ Phrase (v' :: ws') r := by
  obtain ⟨g, r, rfl, _, hs, hp⟩ := h
  obtain ⟨g', r', he, _, hs', hp'⟩ := h'
  refine ⟨r, hp, ?_⟩
  rw [List.append_assoc, List.append_assoc] at he
  replace he := List.append_cancel_left he
  obtain ⟨y, s, rfl, hy⟩ := prefix_head hv (phrase_head hp)
  obtain ⟨z, u, rfl, hz⟩ := prefix_head hv' (phrase_head hp')
  rw [gap_unique _ _ hs hs' hy hz he]
  exact hp'

/-! ## Expressions -/

theorem reTrue_det {rx : String} {p : Prog} {n : Nat} {names : List (Str × Nat)} (h : Is rx p n names) (t : Str) :
    reTrue rx t = .ok (p.det t []).isSome := by
  rw [reTrue, reSearch, h.1]
  show Except.ok ((search ⟨seqs (.bol :: p.toL), n, names⟩ t).map _).isSome = _
  rw [search_bol p h.2]
  cases p.det t [] <;> rfl

theorem reSearch_det {rx : String} {p : Prog} {n : Nat} {names : List (Str × Nat)} (h : Is rx p n names) (t : Str) :
    reSearch rx t = .ok ((p.det t []).map
      (fun q => (⟨seqs (.bol :: p.toL), n, names⟩, ⟨t.take (t.length - q.1.length), 0, q.2⟩))) := by
  rw [reSearch, h.1]
  show Except.ok ((search ⟨seqs (.bol :: p.toL), n, names⟩ t).map _) = _
  rw [search_bol p h.2]
  cases p.det t [] <;> rfl

/-- A search succeeds where some suffix matches. -/
theorem searchFrom_some (re : Rgx) (n k : Nat) (s : Str) :
    (searchFrom n re k s).isSome = true ↔ ∃ a u, s = a ++ u ∧ run n re u [] ≠ [] := by
  induction s generalizing k with
  | nil =>
    rw [searchFrom]
    cases hr : run n re [] [] with
    | nil =>
      refine ⟨fun h => (by cases h), ?_⟩
      rintro ⟨a, u, he, h⟩
      obtain ⟨rfl, rfl⟩ := List.append_eq_nil_iff.mp he.symm
      exact absurd hr h
    | cons q l => exact ⟨fun _ => ⟨[], [], rfl, by rw [hr]; simp⟩, fun _ => rfl⟩
  | cons x s ih =>
    rw [searchFrom]
    cases hr : run n re (x :: s) [] with
    | nil =>
      dsimp only
      rw [ih]
      constructor
      · rintro ⟨a, u, rfl, h⟩
        exact ⟨x :: a, u, rfl, h⟩
      · rintro ⟨a, u, he, h⟩
        cases a with
        | nil => rw [List.nil_append] at he; subst he; exact absurd hr h
        | cons y a =>
          rw [List.cons_append, List.cons.injEq] at he
          exact ⟨a, u, he.2, h⟩
    | cons q l => exact ⟨fun _ => ⟨[], x :: s, rfl, by rw [hr]; simp⟩, fun _ => rfl⟩

/-- A program that matches. -/
theorem run_prog (n : Nat) {p : Prog} (hw : p.wf (fun _ => false) true = true) (s : Str) :
    run n (seqs p.toL) s [] ≠ [] ↔ (p.det s []).isSome = true := by
  rw [← head_prog n hw]
  cases run n (seqs p.toL) s [] <;> simp

theorem run_grp (n k : Nat) (a : Rgx) (s : Str) (c : Caps) : run n (.grp k a) s c ≠ [] ↔ run n a s c ≠ [] := by
  rw [run]; simp

theorem run_alt (n : Nat) (a b : Rgx) (s : Str) (c : Caps) : run n (.alt a b) s c ≠ [] ↔ run n a s c ≠ [] ∨ run n b s c ≠ [] := by
  rw [run, Ne, List.append_eq_nil_iff]
  by_cases h : run n a s c = [] <;> simp [h]

/-! ## The factory -/

theorem firstCls_skip {t : Str} {c : LineCls} (h : isObjectFor t c = .ok false) (cs : List LineCls) :
    firstCls t (c :: cs) = firstCls t cs := by
  rw [firstCls, h]; rfl

theorem firstCls_take {t : Str} {c : LineCls} (h : isObjectFor t c = .ok true) (cs : List LineCls) :
    firstCls t (c :: cs) = (construct t c).map (fun _ => some c) := by
  rw [firstCls, h]
  show (construct t c).bind _ = _
  cases construct t c <;> rfl

theorem splitWsAux_blank (s acc ws : Str) (h : ∀ c ∈ ws, isSpace c = true) :
    splitWsAux (s ++ ws) acc = splitWsAux s acc := by
  induction s generalizing acc with
  | nil =>
    rw [List.nil_append]
    induction ws generalizing acc with
    | nil => rfl
    | cons x ws ih =>
      have h2 : ∀ acc, splitWsAux ws acc = splitWsAux [] acc := ih (fun c hc => h c (by simp [hc]))
      rw [show splitWsAux (x :: ws) acc = if isSpace x then (if acc.isEmpty then splitWsAux ws [] else
        acc.reverse :: splitWsAux ws []) else splitWsAux ws (x :: acc) from rfl, if_pos (h x (by simp)), h2]
      cases acc <;> rfl
  | cons x s ih =>
    rw [List.cons_append, splitWsAux, splitWsAux, ih, ih]

theorem splitWs_rstrip (t : Str) : splitWs (rstrip t) = splitWs t := by
  obtain ⟨ws, he, hw⟩ := rstrip_eq_append t
  conv => rhs; rw [he]
  rw [splitWs, splitWs, splitWsAux_blank _ _ _ hw]

theorem parts_eq (t : Str) : parts t = splitWs t := by
  rw [parts, strip, splitWs_lstrip, splitWs_rstrip]

end Cisco

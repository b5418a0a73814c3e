import Verif.Asa.GroupLemmas

/-! # The expression for the lines of service groups -/

namespace Asa

open Py Re Cisco

/-! ## Alternatives inside an expression -/

theorem search_head {r : Rgx} {t : Str} (hm : ∀ s, s.length ≠ t.length → run t.length r s [] = []) (g : Nat)
    (names : List (Str × Nat)) :
    search ⟨r, g, names⟩ t = (run t.length r t []).head?.map (fun q => ⟨t.take (t.length - q.1.length), 0, q.2⟩) := by
  rw [search]
  cases t with
  | nil =>
    rw [searchFrom]
    cases hx : run ([] : Str).length r [] [] with
    | nil => rfl
    | cons q l => rw [List.head?_cons, Option.map_some, List.take_nil]
  | cons a s =>
    rw [searchFrom]
    cases hx : run (a :: s).length r (a :: s) [] with
    | nil => exact searchFrom_miss hm _ _ (by simp)
    | cons q l => rfl

theorem run_bol_list (n k : Nat) (l : List Rgx) (s : Str) (c : Caps) :
    run n (.grp k (seqs (.bol :: l))) s c =
      if s.length = n then (run n (seqs l) s c).map (fun q => (q.1, (k, s.take (s.length - q.1.length)) :: q.2)) else [] := by
  rw [run, run_seqs_cons', run]
  split
  · rw [List.flatMap_singleton]
  · rfl

/-- Nothing matches where a blank begins. -/
def NoBlank (κ : Kont) : Prop := ∀ s c, HeadIn .space s → κ (s, c) = []

theorem head_mid {n : Nat} {A : Prog} (hw : A.wf (fun k => decide (k = .space)) false = true) {κ : Kont} (h : NoBlank κ) (s : Str)
    (c : Caps) : ((run n (seqs A.toL) s c).flatMap κ).head? = (A.det s c).bind (fun q => (κ q).head?) := by
  refine A.det_spec n _ false κ s c hw ?_ (fun h => by cases h)
  intro k hk s' c' hs
  have : k = .space := by simpa using hk
  subst this
  exact h s' c' hs

/-- What follows a prefix: one expression or the other. -/
theorem head_or {n : Nat} {A : Prog} (hw : A.wf (fun k => decide (k = .space)) false = true) {κ κ₁ κ₂ : Kont}
    (h : ∀ q, κ q = κ₁ q ++ κ₂ q) (h1 : NoBlank κ₁) (h2 : NoBlank κ₂) (s : Str) (c : Caps) :
    ((run n (seqs A.toL) s c).flatMap κ).head? =
      ((run n (seqs A.toL) s c).flatMap κ₁).head?.or ((run n (seqs A.toL) s c).flatMap κ₂).head? := by
  rw [head_mid hw (fun s c hs => by rw [h, h1 s c hs, h2 s c hs]; rfl), head_mid hw h1, head_mid hw h2]
  cases A.det s c with
  | none => rfl
  | some q => simp only [Option.bind_some, h, List.head?_append]

theorem grp_alt (n g : Nat) (a b : Rgx) (B : List Rgx) (q : Str × Caps) :
    run n (seqs (.grp g (.alt a b) :: B)) q.1 q.2 = run n (seqs (.grp g a :: B)) q.1 q.2 ++ run n (seqs (.grp g b :: B)) q.1 q.2 := by
  simp only [run_seqs_cons', run, List.map_append, List.flatMap_append]

theorem noBlank_str (n g : Nat) {x : Char} {w : Str} (hx : isSpace x = false) (B : List Rgx) :
    NoBlank (fun q => run n (seqs (.grp g (seqs (str (x :: w) .done).toL) :: B)) q.1 q.2) := by
  rintro s c ⟨y, s', rfl, hy⟩
  have hne : K.has (.chr x) y = false := by
    cases hk : K.has (.chr x) y with
    | false => rfl
    | true =>
      have : y = x := by simpa [K.has] using hk
      subst this
      rw [show K.space.has y = isSpace y from rfl, hx] at hy
      cases hy
  have e : (str (x :: w) .done).toL = .cls (K.cls (.chr x)) :: (str w .done).toL := rfl
  show run n (seqs (.grp g (seqs (str (x :: w) .done).toL) :: B)) (y :: s') c = []
  rw [run_seqs_cons', run, e, run_seqs_cons', run, K.cls_has, hne]
  rfl

/-! ## The expression -/

/-- `\s+(\S+)\s+(\S+)` -/
def svcEnd : Prog := .plus .space (.grp 3 (.plus .nonspace .done) (.plus .space (.grp 4 (.plus .nonspace .done) .done)))

/-- `\s+(\S.+)` -/
def portEnd : Prog := .plus .space (.grp 7 (.one .nonspace (.plus .any .done)) .done)

/-- `^\s*word\s+(v)…` -/
def markP (k : Nat) (w v : Str) (e : Prog) : Prog := .star .space (words [w] (.grp k (str v .done) e))

def portAlts : List (Nat × Prog) :=
  [(1, markP 2 "service-object".toList "tcp".toList svcEnd), (1, markP 2 "service-object".toList "udp".toList svcEnd),
    (1, markP 2 "service-object".toList "tcp-udp".toList svcEnd), (5, markP 6 "port-object".toList "eq".toList portEnd),
    (5, markP 6 "port-object".toList "range".toList portEnd), (8, nextK 9 (Cisco.Spec.wd ["group-object"]))]

def svcStart : Prog := .star .space (words ["service-object".toList] .done)
def portStart : Prog := .star .space (words ["port-object".toList] .done)

def lit (w : String) : Rgx := seqs (str w.toList .done).toL

def portRgx : Rgx := alts [
  .grp 1 (seqs (.bol :: (svcStart.toL ++ .grp 2 (.alt (lit "tcp") (.alt (lit "udp") (lit "tcp-udp"))) :: svcEnd.toL))),
  .grp 5 (seqs (.bol :: (portStart.toL ++ .grp 6 (.alt (lit "eq") (lit "range")) :: portEnd.toL))),
  .grp 8 (seqs (.bol :: (nextK 9 (Cisco.Spec.wd ["group-object"])).toL))]

def portNames : List (Str × Nat) :=
  [("protocol".toList, 2), ("src_dst".toList, 3), ("s_port".toList, 4), ("operator".toList, 6), ("p_port".toList, 7),
    ("groupobject".toList, 9)]

theorem compile_port : compileL rePortObject { verbose := true } = .ok ⟨portRgx, 9, portNames⟩ := by decide +kernel

theorem port_wf : ∀ a ∈ portAlts, a.2.wf (fun _ => false) true = true := by decide +kernel

theorem svc_head (t : Str) : (run t.length (seqs (svcStart.toL ++ .grp 2 (.alt (lit "tcp") (.alt (lit "udp") (lit "tcp-udp"))) ::
      svcEnd.toL)) t []).head? =
    ((markP 2 "service-object".toList "tcp".toList svcEnd).det t []).or
      (((markP 2 "service-object".toList "udp".toList svcEnd).det t []).or
        ((markP 2 "service-object".toList "tcp-udp".toList svcEnd).det t [])) := by
  have hw : svcStart.wf (fun k => decide (k = .space)) false = true := by decide +kernel
  have nb : ∀ (x : Char) (w : Str), isSpace x = false →
      NoBlank (fun q => run t.length (seqs (.grp 2 (seqs (str (x :: w) .done).toL) :: svcEnd.toL)) q.1 q.2) :=
    fun x w hx => noBlank_str _ _ hx _
  have n1 : NoBlank (fun q => run t.length (seqs (.grp 2 (lit "tcp") :: svcEnd.toL)) q.1 q.2) := nb 't' "cp".toList (by decide)
  have n2 : NoBlank (fun q => run t.length (seqs (.grp 2 (lit "udp") :: svcEnd.toL)) q.1 q.2) := nb 'u' "dp".toList (by decide)
  have n3 : NoBlank (fun q => run t.length (seqs (.grp 2 (lit "tcp-udp") :: svcEnd.toL)) q.1 q.2) := nb 't' "cp-udp".toList (by decide)
  have n23 : NoBlank (fun q => run t.length (seqs (.grp 2 (.alt (lit "udp") (lit "tcp-udp")) :: svcEnd.toL)) q.1 q.2) := by
    intro s c hs
    show run t.length (seqs (.grp 2 (.alt (lit "udp") (lit "tcp-udp")) :: svcEnd.toL)) s c = []
    rw [grp_alt _ _ _ _ _ (s, c)]
    exact List.append_eq_nil_iff.mpr ⟨n2 s c hs, n3 s c hs⟩
  rw [run_seqs_append, head_or hw (fun q => grp_alt _ _ _ _ _ q) n1 n23, head_or hw (fun q => grp_alt _ _ _ _ _ q) n2 n3]
  have e : ∀ w : String, w ∈ ["tcp", "udp", "tcp-udp"] →
      ((run t.length (seqs svcStart.toL) t []).flatMap (fun q => run t.length (seqs (.grp 2 (lit w) :: svcEnd.toL)) q.1 q.2)).head? =
      (markP 2 "service-object".toList w.toList svcEnd).det t [] := by
    intro w hw
    rw [← run_seqs_append, ← head_prog t.length ?_]
    · rfl
    · revert w; decide +kernel
  rw [e "tcp" (by simp), e "udp" (by simp), e "tcp-udp" (by simp)]

theorem port_head (t : Str) : (run t.length (seqs (portStart.toL ++ .grp 6 (.alt (lit "eq") (lit "range")) :: portEnd.toL)) t []).head? =
    ((markP 6 "port-object".toList "eq".toList portEnd).det t []).or
      ((markP 6 "port-object".toList "range".toList portEnd).det t []) := by
  have hw : portStart.wf (fun k => decide (k = .space)) false = true := by decide +kernel
  have nb : ∀ (x : Char) (w : Str), isSpace x = false →
      NoBlank (fun q => run t.length (seqs (.grp 6 (seqs (str (x :: w) .done).toL) :: portEnd.toL)) q.1 q.2) :=
    fun x w hx => noBlank_str _ _ hx _
  have n1 : NoBlank (fun q => run t.length (seqs (.grp 6 (lit "eq") :: portEnd.toL)) q.1 q.2) := nb 'e' "q".toList (by decide)
  have n2 : NoBlank (fun q => run t.length (seqs (.grp 6 (lit "range") :: portEnd.toL)) q.1 q.2) := nb 'r' "ange".toList (by decide)
  rw [run_seqs_append, head_or hw (fun q => grp_alt _ _ _ _ _ q) n1 n2]
  have e : ∀ w : String, w ∈ ["eq", "range"] →
      ((run t.length (seqs portStart.toL) t []).flatMap (fun q => run t.length (seqs (.grp 6 (lit w) :: portEnd.toL)) q.1 q.2)).head? =
      (markP 6 "port-object".toList w.toList portEnd).det t [] := by
    intro w hw
    rw [← run_seqs_append, ← head_prog t.length ?_]
    · rfl
    · revert w; decide +kernel
  rw [e "eq" (by simp), e "range" (by simp)]

theorem port_search (t : Str) : verboseDict rePortObject t =
    .ok ((altDet portAlts t).map (fun q => portNames.map (fun x => (x.1, q.2.lookup x.2)))) := by
  have hm : ∀ s, s.length ≠ t.length → run t.length portRgx s [] = [] := by
    intro s hs
    rw [portRgx, run_alts_cons, run_bol_list, if_neg hs, if_neg (by simp), run_alts_cons, run_bol_list, if_neg hs, if_neg (by simp),
      run_alts_cons, run_bol_list, if_neg hs]
    rfl
  have hg : (nextK 9 (Cisco.Spec.wd ["group-object"])).wf (fun _ => false) true = true := by decide +kernel
  have hh : (run t.length portRgx t []).head? = altDet portAlts t := by
    rw [portRgx, run_alts_cons, run_bol_list, if_pos rfl, if_neg (by simp), run_alts_cons, run_bol_list, if_pos rfl, if_neg (by simp),
      run_alts_cons, run_bol_list, if_pos rfl, if_pos rfl]
    simp only [List.head?_append, List.head?_map, svc_head, port_head, head_prog t.length hg]
    simp only [portAlts, altDet]
    cases (markP 2 "service-object".toList "tcp".toList svcEnd).det t [] with
    | some q => rfl
    | none =>
      cases (markP 2 "service-object".toList "udp".toList svcEnd).det t [] with
      | some q => rfl
      | none =>
        cases (markP 2 "service-object".toList "tcp-udp".toList svcEnd).det t [] with
        | some q => rfl
        | none =>
          cases (markP 6 "port-object".toList "eq".toList portEnd).det t [] with
          | some q => rfl
          | none =>
            cases (markP 6 "port-object".toList "range".toList portEnd).det t [] with
            | some q => rfl
            | none =>
              cases (nextK 9 (Cisco.Spec.wd ["group-object"])).det t [] <;> rfl
  rw [verboseDict, compile_port]
  simp only [search_head hm, hh, Option.map_map]
  rfl

end Asa

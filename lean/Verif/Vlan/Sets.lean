import Verif.Vlan.Lemmas

/-! # The statements as sets -/

namespace Vlan

open Py Range Spec

theorem text_append {a b : List Item} (ha : a ≠ []) (hb : b ≠ []) : text a ++ ',' :: text b = text (a ++ b) := by
  have : ∀ (x y : List Str), x ≠ [] → y ≠ [] → join [','] x ++ ',' :: join [','] y = join [','] (x ++ y) := by
    intro x
    induction x with
    | nil => intro y h; exact absurd rfl h
    | cons s x ih =>
      intro y _ hy
      cases x with
      | nil =>
        obtain ⟨t, r, e⟩ := List.exists_cons_of_ne_nil hy
        rw [e]
        simp [join]
      | cons u x =>
        have := ih y (by simp) hy
        simp only [List.cons_append, join] at this ⊢
        rw [← this]
        simp
  rw [text, text, text, List.map_append, this _ _ (by simpa using ha) (by simpa using hb)]

theorem text_ne {l : List Item} (h : Good l) : text l ≠ [] := by
  obtain ⟨c, r, e, _⟩ := text_cons h
  rw [e]; simp

theorem good_append {a b : List Item} (ha : Good a) (hb : Good b) : Good (a ++ b) where
  ne := by simp [ha.ne]
  valid := by
    intro i hi
    rcases List.mem_append.mp hi with h | h
    · exact ha.valid i h
    · exact hb.valid i h
  first := by
    intro c hc
    rw [← text_append ha.ne hb.ne] at hc
    obtain ⟨x, r, e, hx⟩ := text_cons ha
    rw [e] at hc
    simp at hc
    rw [← hc]; exact hx
  last := by
    intro c hc
    rw [← text_append ha.ne hb.ne, List.getLast?_append] at hc
    have hne := text_ne hb
    obtain ⟨x, r, e⟩ := List.exists_cons_of_ne_nil hne
    have : (',' :: text b).getLast? = (text b).getLast? := by rw [e, List.getLast?_cons_cons]
    rw [this, List.getLast?_eq_some_getLast hne] at hc
    exact hb.last c (by rw [List.getLast?_eq_some_getLast hne]; simpa using hc)

theorem text_strip {l : List Item} (h : Good l) : strip (text l) = text l :=
  strip_of_ends (text_head_space h) h.last

/-- The range of a list. -/
theorem ofText_text {l : List Item} (h : Good l) :
    ∃ r, ofText (text l) = .ok r ∧ r.lst.Nodup ∧ ∀ x, x ∈ r.lst ↔ In l x := C09_expand l h.ne h.valid

/-- All VLANs as a list. -/
def allItems : List Item := [.span [] "1".toList [] [] "4094".toList []]

theorem allItems_text : text allItems = allVlans := rfl

theorem allItems_good : Good allItems where
  ne := by simp [allItems]
  valid := by
    intro i hi
    simp only [allItems, List.mem_singleton] at hi
    rw [hi]
    have hn : allSpace [] := fun c hc => by cases hc
    exact ⟨hn, by decide, hn, hn, by decide, hn⟩
  first := by
    intro c hc
    have : (text allItems).head? = some '1' := rfl
    rw [this] at hc; cases hc; rfl
  last := by
    intro c hc
    have : (text allItems).getLast? = some '4' := rfl
    rw [this] at hc; cases hc; rfl

theorem natVal_4094 : natVal "4094".toList = 4094 := by decide

theorem allItems_in (x : Int) : In allItems x ↔ All x := by
  have h1 : natVal "1".toList = 1 := by decide
  simp only [In, allItems, List.mem_singleton, exists_eq_left, Item.denotes, All, natVal_4094, h1]
  constructor <;> (rintro ⟨a, b⟩; exact ⟨by simpa using a, by simpa using b⟩)

/-- An optional text stands for a list, `none` for nothing. -/
def Holds (o : Option Str) (l : List Item) : Prop :=
  (o = none ∧ l = []) ∨ (Good l ∧ o = some (text l))

theorem holds_plus {o : Option Str} {l m : List Item} (h : Holds o l) (hm : Good m) :
    Holds (plus o (text m)) (l ++ m) := by
  rcases h with ⟨rfl, rfl⟩ | ⟨hl, rfl⟩
  · exact Or.inr ⟨hm, rfl⟩
  · refine Or.inr ⟨good_append hl hm, ?_⟩
    rw [plus, text_append hl.ne hm.ne]

/-- The text of `allowed` stands for a set. -/
def AHolds (a : Str) (S : Int → Prop) : Prop :=
  (a = [] ∧ ∀ x, ¬ S x) ∨ ∃ l, Good l ∧ a = text l ∧ ∀ x, S x ↔ In l x

theorem in_append (a b : List Item) (x : Int) : In (a ++ b) x ↔ In a x ∨ In b x := by
  simp only [In, List.mem_append]
  constructor
  · rintro ⟨i, h | h, hx⟩
    · exact Or.inl ⟨i, h, hx⟩
    · exact Or.inr ⟨i, h, hx⟩
  · rintro (⟨i, h, hx⟩ | ⟨i, h, hx⟩)
    · exact ⟨i, Or.inl h, hx⟩
    · exact ⟨i, Or.inr h, hx⟩

theorem in_nil (x : Int) : ¬ In [] x := by rintro ⟨i, h, _⟩; cases h

theorem apply_add {o : Option Str} {l : List Item} (h : Holds o l) {r : R} (hr : r.lst.Nodup) :
    ∃ r', apply R.add r o = .ok r' ∧ r'.lst.Nodup ∧ ∀ x, x ∈ r'.lst ↔ x ∈ r.lst ∨ In l x := by
  rcases h with ⟨rfl, rfl⟩ | ⟨hl, rfl⟩
  · refine ⟨r, rfl, hr, fun x => ?_⟩
    simp [in_nil]
  · obtain ⟨b, hb, _, hm⟩ := ofText_text hl
    obtain ⟨h1, h2⟩ := C13_add_union r b
    refine ⟨r.add b, ?_, h2.imp (by intro a b h e; omega), fun x => ?_⟩
    · rw [apply, text_strip hl]
      simp only [if_neg (text_ne hl), hb, bind, Except.bind]
    · rw [h1, hm]

theorem apply_sub {o : Option Str} {l : List Item} (h : Holds o l) {r : R} (hr : r.lst.Nodup) :
    ∃ r', apply R.sub r o = .ok r' ∧ r'.lst.Nodup ∧ ∀ x, x ∈ r'.lst ↔ x ∈ r.lst ∧ ¬ In l x := by
  rcases h with ⟨rfl, rfl⟩ | ⟨hl, rfl⟩
  · refine ⟨r, rfl, hr, fun x => ?_⟩
    simp [in_nil]
  · obtain ⟨b, hb, _, hm⟩ := ofText_text hl
    obtain ⟨h1, h2⟩ := C13_sub_difference_partial r b hr
    refine ⟨r.sub b, ?_, hr.sublist h2, fun x => ?_⟩
    · rw [apply, text_strip hl]
      simp only [if_neg (text_ne hl), hb, bind, Except.bind]
    · rw [h1, hm]

theorem firstRead_ok {v : VD} {S : Int → Prop} (h : AHolds v.allowed S) : firstRead v = .ok () := by
  rw [firstRead]
  split
  · rfl
  · rename_i hn
    rcases h with ⟨h, _⟩ | ⟨l, hl, e, _⟩
    · exact absurd (Or.inr h) hn
    · obtain ⟨b, hb, _⟩ := ofText_text hl
      rw [e, hb]; rfl

/-- The result, whatever the statements were. -/
theorem vlans_formula {v : VD} {S : Int → Prop} {a e r : List Item} (h : AHolds v.allowed S)
    (ha : Holds v.add a) (he : Holds v.exc e) (hr : Holds v.rem r) :
    ∃ R, vlans v = .ok R ∧ R.lst.Nodup ∧ ∀ x, x ∈ R.lst ↔ (S x ∨ In a x) ∧ ¬ In e x ∧ ¬ In r x := by
  have hall : ∃ r0, apply R.add ⟨[], false⟩ (some v.allowed) = .ok r0 ∧ r0.lst.Nodup ∧ ∀ x, x ∈ r0.lst ↔ S x := by
    rcases h with ⟨h, hS⟩ | ⟨l, hl, e, hS⟩
    · refine ⟨⟨[], false⟩, ?_, List.nodup_nil, fun x => ?_⟩
      · rw [h]; rfl
      · simp [hS x]
    · obtain ⟨r0, h1, h2, h3⟩ := apply_add (o := some v.allowed) (l := l) (Or.inr ⟨hl, by rw [e]⟩)
        (r := ⟨[], false⟩) List.nodup_nil
      exact ⟨r0, h1, h2, fun x => by rw [h3, hS]; simp⟩
  obtain ⟨r0, e0, n0, m0⟩ := hall
  obtain ⟨r1, e1, n1, m1⟩ := apply_add ha n0
  obtain ⟨r2, e2, n2, m2⟩ := apply_sub he n1
  obtain ⟨r3, e3, n3, m3⟩ := apply_sub hr n2
  refine ⟨r3, ?_, n3, fun x => ?_⟩
  · rw [vlans, firstRead_ok h]
    simp only [bind, Except.bind, e0, e1, e2, e3]
  · rw [m3, m2, m1, m0, and_assoc]

/-! ## Statements -/

/-- The lists of the `add` statements together. -/
def adds : List Stmt → List Item
  | [] => []
  | .add l :: r => l ++ adds r
  | _ :: r => adds r

/-- The lists of the `except` statements together. -/
def excs : List Stmt → List Item
  | [] => []
  | .except l :: r => l ++ excs r
  | _ :: r => excs r

/-- The lists of the `remove` statements together. -/
def rems : List Stmt → List Item
  | [] => []
  | .remove l :: r => l ++ rems r
  | _ :: r => rems r

/-- The lists of a statement can be written. -/
def GoodStmt : Stmt → Prop
  | .list l | .add l | .except l | .remove l => Good l
  | _ => True

theorem fold_holds (ss : List Stmt) : ∀ (v : VD) (a e r : List Item), (∀ s ∈ ss, GoodStmt s) →
    Holds v.add a → Holds v.exc e → Holds v.rem r →
    Holds (ss.foldl stepS v).add (a ++ adds ss) ∧ Holds (ss.foldl stepS v).exc (e ++ excs ss) ∧
      Holds (ss.foldl stepS v).rem (r ++ rems ss) := by
  induction ss with
  | nil => intro v a e r _ ha he hr; simp [adds, excs, rems, ha, he, hr]
  | cons s ss ih =>
    intro v a e r hg ha he hr
    have hgs : GoodStmt s := hg s (by simp)
    have hg' : ∀ s ∈ ss, GoodStmt s := fun t ht => hg t (by simp [ht])
    rw [List.foldl_cons]
    cases s with
    | none => exact ih _ a e r hg' ha he hr
    | all => exact ih _ a e r hg' ha he hr
    | list l =>
      refine ih _ a e r hg' ?_ ?_ ?_
      · rw [stepS]; split <;> exact ha
      · rw [stepS]; split <;> exact he
      · rw [stepS]; split <;> exact hr
    | add l =>
      have := ih (stepS v (.add l)) (a ++ l) e r hg' (holds_plus ha hgs) he hr
      simpa [adds, excs, rems] using this
    | except l =>
      have := ih (stepS v (.except l)) a (e ++ l) r hg' ha (holds_plus he hgs) hr
      simpa [adds, excs, rems] using this
    | remove l =>
      have := ih (stepS v (.remove l)) a e (r ++ l) hg' ha he (holds_plus hr hgs)
      simpa [adds, excs, rems] using this

/-- Statements that are not plain do not touch `allowed`. -/
theorem fold_allowed (ss : List Stmt) : ∀ (v : VD), (∀ s ∈ ss, ¬ Base s) →
    (ss.foldl stepS v).allowed = v.allowed := by
  induction ss with
  | nil => intro v _; rfl
  | cons s ss ih =>
    intro v h
    rw [List.foldl_cons, ih _ (fun t ht => h t (by simp [ht]))]
    have := h s (by simp)
    cases s with
    | none => exact absurd trivial this
    | all => exact absurd trivial this
    | list l => exact absurd trivial this
    | add l => rfl
    | except l => rfl
    | remove l => rfl

/-- Plain statements, no list directly behind another. -/
theorem fold_base (ss : List Stmt) : ∀ (v : VD) (S : Int → Prop), (∀ s ∈ ss, Base s) →
    (∀ s ∈ ss, GoodStmt s) → NoTwoLists ss →
    (v.allowed = allVlans ∨ v.allowed = [] ∨ (∀ l r, ss ≠ .list l :: r)) → AHolds v.allowed S →
    AHolds (ss.foldl stepS v).allowed (ss.foldl Stmt.apply S) := by
  induction ss with
  | nil => intro v S _ _ _ _ h; exact h
  | cons s ss ih =>
    intro v S hb hg hn hv h
    have hb' : ∀ s ∈ ss, Base s := fun t ht => hb t (by simp [ht])
    have hg' : ∀ s ∈ ss, GoodStmt s := fun t ht => hg t (by simp [ht])
    have hn' : NoTwoLists ss := by
      cases s with
      | list l =>
        cases ss with
        | nil => trivial
        | cons u ss =>
          cases u with
          | list m => exact absurd hn (by simp [NoTwoLists])
          | _ => exact hn
      | _ => exact hn
    rw [List.foldl_cons, List.foldl_cons]
    cases s with
    | none =>
      refine ih _ _ hb' hg' hn' (Or.inr (Or.inl rfl)) (Or.inl ⟨rfl, fun x hx => hx⟩)
    | all =>
      refine ih _ _ hb' hg' hn' (Or.inl rfl) (Or.inr ⟨allItems, allItems_good, rfl, fun x => ?_⟩)
      exact (allItems_in x).symm
    | list l =>
      have hs : stepS v (.list l) = { v with allowed := text l } := by
        rw [stepS, if_pos]
        rcases hv with hv | hv | hv
        · exact Or.inl hv
        · exact Or.inr hv
        · exact absurd rfl (hv l ss)
      rw [hs]
      refine ih _ _ hb' hg' hn' (Or.inr (Or.inr ?_))
        (Or.inr ⟨l, hg (.list l) (by simp), rfl, fun x => Iff.rfl⟩)
      intro m r e
      rw [e] at hn
      exact hn
    | add l => exact absurd (hb (.add l) (by simp)) (fun h => h)
    | except l => exact absurd (hb (.except l) (by simp)) (fun h => h)
    | remove l => exact absurd (hb (.remove l) (by simp)) (fun h => h)

/-- What changes do on a device. -/
theorem device_changes (ss : List Stmt) : ∀ (S : Int → Prop), (∀ s ∈ ss, Change s) → NoReturn ss →
    ∀ x, ss.foldl Stmt.apply S x ↔ (S x ∨ In (adds ss) x) ∧ ¬ In (rems ss) x := by
  induction ss with
  | nil => intro S _ _ x; simp [adds, rems, in_nil]
  | cons s ss ih =>
    intro S hc hn x
    have hc' : ∀ s ∈ ss, Change s := fun t ht => hc t (by simp [ht])
    have hn' : NoReturn ss := (List.pairwise_cons.mp hn).2
    have h1 := (List.pairwise_cons.mp hn).1
    rw [List.foldl_cons, ih _ hc' hn' x]
    have mem_adds : ∀ (ss : List Stmt), In (adds ss) x → ∃ b, Stmt.add b ∈ ss ∧ In b x := by
      intro ss
      induction ss with
      | nil => intro h; exact absurd h (in_nil x)
      | cons u ss ih =>
        intro h
        cases u with
        | add l =>
          rw [adds, in_append] at h
          rcases h with h | h
          · exact ⟨l, by simp, h⟩
          · obtain ⟨b, hb, hx⟩ := ih h
            exact ⟨b, by simp [hb], hx⟩
        | none => obtain ⟨b, hb, hx⟩ := ih h; exact ⟨b, by simp [hb], hx⟩
        | all => obtain ⟨b, hb, hx⟩ := ih h; exact ⟨b, by simp [hb], hx⟩
        | list l => obtain ⟨b, hb, hx⟩ := ih h; exact ⟨b, by simp [hb], hx⟩
        | except l => obtain ⟨b, hb, hx⟩ := ih h; exact ⟨b, by simp [hb], hx⟩
        | remove l => obtain ⟨b, hb, hx⟩ := ih h; exact ⟨b, by simp [hb], hx⟩
    cases s with
    | add l =>
      simp only [Stmt.apply, adds, rems, in_append, or_assoc]
    | remove l =>
      simp only [Stmt.apply, adds, rems, in_append, not_or]
      constructor
      · rintro ⟨h | h, hr⟩
        · exact ⟨Or.inl h.1, h.2, hr⟩
        · obtain ⟨b, hb, hx⟩ := mem_adds ss h
          exact ⟨Or.inr h, fun hl => h1 _ hb l b rfl rfl x hl hx, hr⟩
      · rintro ⟨h | h, hl, hr⟩
        · exact ⟨Or.inl ⟨h, hl⟩, hr⟩
        · exact ⟨Or.inr h, hr⟩
    | none => exact absurd (hc .none (by simp)) (fun h => h)
    | all => exact absurd (hc .all (by simp)) (fun h => h)
    | list l => exact absurd (hc (.list l) (by simp)) (fun h => h)
    | except l => exact absurd (hc (.except l) (by simp)) (fun h => h)

theorem fold_plain (ss : List Stmt) : ∀ (v w : VD), v.allowed = w.allowed →
    (ss.foldl stepS v).allowed = ((plain ss).foldl stepS w).allowed := by
  induction ss with
  | nil => intro v w h; exact h
  | cons s ss ih =>
    intro v w h
    rw [List.foldl_cons]
    cases s with
    | none => rw [plain, List.foldl_cons]; exact ih _ _ rfl
    | all => rw [plain, List.foldl_cons]; exact ih _ _ rfl
    | list l =>
      rw [plain, List.foldl_cons]
      refine ih _ _ ?_
      rw [stepS, stepS, h]
      split <;> rfl
    | add l => exact ih _ _ h
    | except l => exact ih _ _ h
    | remove l => exact ih _ _ h

theorem mem_plain {ss : List Stmt} : ∀ s ∈ plain ss, s ∈ ss ∧ Base s := by
  induction ss with
  | nil => intro s h; cases h
  | cons u ss ih =>
    intro s h
    have lift : s ∈ plain ss → s ∈ u :: ss ∧ Base s := fun h => ⟨by simp [(ih s h).1], (ih s h).2⟩
    cases u with
    | none =>
      rcases List.mem_cons.mp h with rfl | h
      · exact ⟨by simp, trivial⟩
      · exact lift h
    | all =>
      rcases List.mem_cons.mp h with rfl | h
      · exact ⟨by simp, trivial⟩
      · exact lift h
    | list l =>
      rcases List.mem_cons.mp h with rfl | h
      · exact ⟨by simp, trivial⟩
      · exact lift h
    | add l => exact lift h
    | except l => exact lift h
    | remove l => exact lift h

theorem in_adds (ss : List Stmt) (x : Int) : In (adds ss) x ↔ ∃ l, Stmt.add l ∈ ss ∧ In l x := by
  induction ss with
  | nil => simp [adds, in_nil]
  | cons u ss ih => cases u <;> simp [adds, in_append, ih, or_and_right, exists_or]

theorem in_excs (ss : List Stmt) (x : Int) : In (excs ss) x ↔ ∃ l, Stmt.except l ∈ ss ∧ In l x := by
  induction ss with
  | nil => simp [excs, in_nil]
  | cons u ss ih => cases u <;> simp [excs, in_append, ih, or_and_right, exists_or]

theorem in_rems (ss : List Stmt) (x : Int) : In (rems ss) x ↔ ∃ l, Stmt.remove l ∈ ss ∧ In l x := by
  induction ss with
  | nil => simp [rems, in_nil]
  | cons u ss ih => cases u <;> simp [rems, in_append, ih, or_and_right, exists_or]

theorem reads_good {t : Str} {s : Stmt} (h : Reads t s) : GoodStmt s := by
  cases h with
  | mk _ _ _ _ _ ha => cases ha <;> first | trivial | assumption

theorem lines_good {ts : List Str} {ss : List Stmt} (h : Lines ts ss) : ∀ s ∈ ss, GoodStmt s := by
  induction h with
  | nil => intro s hs; cases hs
  | stmt hr _ ih =>
    intro s hs
    rcases List.mem_cons.mp hs with rfl | hs
    · exact reads_good hr
    · exact ih s hs
  | other _ _ ih => exact ih

theorem trunk_run {ts : List Str} (h : Trunk ts) {r : R} (hr : vlans (ts.foldl step {}) = .ok r) :
    trunkVlans ts = .ok (some r) := by
  have h1 : isSwitchport ts = .ok true := by
    obtain ⟨t, ht, hs⟩ := h.switchport
    have hb := h.noBlank
    clear hr h
    induction ts with
    | nil => cases ht
    | cons u ts ih =>
      rw [isSwitchport]
      obtain ⟨w, ws, e⟩ := List.exists_cons_of_ne_nil (hb u (by simp))
      rw [e]
      simp only [List.head?_cons]
      split
      · rfl
      · rename_i hw
        rcases List.mem_cons.mp ht with rfl | ht
        · rw [e] at hs
          simp only [List.head?_cons, Option.some.injEq] at hs
          exact absurd hs hw
        · exact ih ht (fun t ht => hb t (by simp [ht]))
  have h2 : isAccess ts = false := by
    rw [isAccess, List.any_eq_false]
    intro t ht
    rw [beq_iff_eq]
    exact h.notAccess t ht
  rw [trunkVlans, h1, h2]
  simp only [bind, Except.bind, hr]
  rfl

end Vlan

import Verif.Cisco.RouteLemmas
import Verif.Cisco.FactoryProps
import Verif.Diff.Text
import Verif.IP.Props

/-! # Static routes (C79, C81) -/

namespace Cisco

namespace Spec

open Py

/-- A static IPv4 route, as IOS writes it:
`ip route [vrf V] PREFIX MASK [INTERFACE] [ADDRESS] [dhcp] [global] [DISTANCE] [multicast]
[name NAME] [permanent] [track N] [tag N]`. -/
structure Route where
  vrf : Option Str
  pfx : Str
  mask : Str
  intf : Option Str
  addr : Option Str
  dhcp : Bool
  global : Bool
  distance : Option Nat
  multicast : Bool
  name : Option Str
  permanent : Bool
  track : Option Nat
  tag : Option Nat

/-- The words of an optional parameter. -/
def param (kw : List String) : Option Str → List Str
  | some v => wd kw ++ [v]
  | none => []

/-- A keyword that may be there. -/
def keyword (kw : String) (b : Bool) : List Str := if b then [kw.toList] else []

/-- The words behind the next hop. -/
def Route.tail (R : Route) : List Str :=
  keyword "dhcp" R.dhcp ++ (keyword "global" R.global ++ (param [] (R.distance.map natStr) ++
    (keyword "multicast" R.multicast ++ (param ["name"] R.name ++ (keyword "permanent" R.permanent ++
      (param ["track"] (R.track.map natStr) ++ param ["tag"] (R.tag.map natStr)))))))

/-- The words of the command. -/
def Route.words (R : Route) : List Str :=
  wd ["ip", "route"] ++ (param ["vrf"] R.vrf ++ (R.pfx :: R.mask :: (param [] R.intf ++ (param [] R.addr ++ R.tail))))

/-- The line. -/
def Route.line (R : Route) : Str := join [' '] R.words

/-- The parameters are what they should be: words, addresses; an interface name has two
characters or more and does not begin with a digit; the next hop is an interface, an address
or both. -/
structure Route.Ok (R : Route) : Prop where
  vrf : ∀ v, R.vrf = some v → IsWord v
  pfx : DottedQuad R.pfx
  mask : DottedQuad R.mask
  intf : ∀ v, R.intf = some v → IsWord v ∧ 2 ≤ v.length ∧ ∀ c, v.head? = some c → isDigit c = false
  addr : ∀ v, R.addr = some v → DottedQuad v
  hop : R.intf ≠ none ∨ R.addr ≠ none
  name : ∀ v, R.name = some v → IsWord v

end Spec

open Py Conf Query Re Spec

theorem lookup_cap (g k : Nat) (o : Option Str) (c : Caps) :
    (cap g o c).lookup k = if k = g ∧ o ≠ none then o else c.lookup k := by
  cases o with
  | none => simp [cap]
  | some v =>
    rw [cap, List.lookup_cons]
    by_cases h : k = g
    · simp [h]
    · rw [if_neg (by simp [h])]
      have : (k == g) = false := by simpa using h
      rw [this]

/-- A keyword as a captured text. -/
def kwd (kw : String) (b : Bool) : Option Str := if b then some kw.toList else none

/-- The captures of a route. -/
def caps (R : Route) : Caps :=
  cap 13 (R.tag.map natStr) (cap 12 (R.track.map natStr) (cap 11 (kwd "permanent" R.permanent) (cap 10 R.name
    (cap 9 (kwd "multicast" R.multicast) (cap 8 (R.distance.map natStr) (cap 7 (kwd "global" R.global)
      (cap 6 (kwd "dhcp" R.dhcp) (cap 5 R.addr (cap 4 R.intf ((3, R.mask) :: (2, R.pfx) :: cap 1 R.vrf []))))))))))

theorem digits_nat (n : Nat) : Digits (natStr n) := ⟨natStr_ne_nil n, natStr_digits n⟩

/-- An optional step with a keyword. -/
theorem step_word (n : Nat) {kw : String} (hkw : IsWord kw.toList) (g : Nat) (hw : (wordP kw.toList g).wf (fun _ => false) true = true)
    (b : Bool) {ws : List Str} (h : HD (Not kw.toList) ws) (c : Caps) :
    Hit n (optL (wordP kw.toList g).toL) (tl (keyword kw b ++ ws)) c (tl ws, cap g (kwd kw b) c) := by
  cases b with
  | true => exact hit_opt (hit_prog n hw (wordP_hit hkw g ws c))
  | false => exact miss_opt (miss_prog n hw (word_miss hkw g h c))

theorem step_key (n : Nat) {kw : String} (hkw : IsWord kw.toList) (g : Nat) {k : K} (hk : k.has ' ' = false)
    (hw : (keyP kw.toList g k).wf (fun _ => false) true = true)
    (o : Option Str) (ho : ∀ v, o = some v → IsWord v ∧ ∀ x ∈ v, k.has x = true) {ws : List Str} (h : HD (Not kw.toList) ws) (c : Caps) :
    Hit n (optL (keyP kw.toList g k).toL) (tl (param [kw] o ++ ws)) c (tl ws, cap g o c) := by
  cases o with
  | some v => exact hit_opt (hit_prog n hw (keyP_hit hkw (ho v rfl).1 g hk (ho v rfl).2 ws c))
  | none => exact miss_opt (miss_prog n hw (key_miss hkw _ h c))

theorem step_num (n g : Nat) (o : Option Nat) {ws : List Str} (h : HD NoDigit ws) (c : Caps) :
    Hit n (optL (numP g).toL) (tl (param [] (o.map natStr) ++ ws)) c (tl ws, cap g (o.map natStr) c) := by
  have hw : (numP g).wf (fun _ => false) true = true := rfl
  cases o with
  | some v => exact hit_opt (hit_prog n hw (numP_hit (digits_nat v) g ws c))
  | none => exact miss_opt (miss_prog n hw (num_miss g h c))

theorem step_addr (n g : Nat) (o : Option Str) (ho : ∀ v, o = some v → DottedQuad v) {ws : List Str}
    (h : HD (fun w => NoDigit w ∨ Digits w) ws) (c : Caps) :
    Hit n (optL (addrP g).toL) (tl (param [] o ++ ws)) c (tl ws, cap g o c) := by
  have hw : (addrP g).wf (fun _ => false) true = true := rfl
  cases o with
  | some v => exact hit_opt (hit_prog n hw (addrP_hit (ho v rfl) g ws c))
  | none => exact miss_opt (miss_prog n hw (addr_miss g h c))

theorem step_intf (n g : Nat) (o : Option Str)
    (ho : ∀ v, o = some v → IsWord v ∧ 2 ≤ v.length ∧ ∀ c, v.head? = some c → isDigit c = false) {ws : List Str}
    (h : o = none → ∃ x w ws', ws = (x :: w) :: ws' ∧ isDigit x = true) (c : Caps) :
    Hit n (optL (intfL g)) (tl (param [] o ++ ws)) c (tl ws, cap g o c) := by
  cases o with
  | some v =>
    obtain ⟨h1, h2, h3⟩ := ho v rfl
    match v, h1, h2, h3 with
    | x :: y :: w, h1, _, h3 =>
      exact hit_opt (intf_hit n g (x := x) (w := y :: w) (h1.2 x (by simp)) (h3 x rfl)
        ⟨by simp, fun c hc => h1.2 c (List.mem_cons_of_mem _ hc)⟩ ws c)
  | none =>
    obtain ⟨x, w, ws', rfl, hd⟩ := h rfl
    exact miss_opt (intf_miss n g hd w ws' c)

theorem hd_keyword {P : Str → Prop} {kw : String} (h : P kw.toList) (b : Bool) : HD P (keyword kw b) := by
  cases b with
  | true => exact hd_cons h []
  | false => exact hd_nil P

theorem hd_param {P : Str → Prop} {kw : String} (h : P kw.toList) (o : Option Str) : HD P (param [kw] o) := by
  cases o with
  | some v => exact hd_cons h [v]
  | none => exact hd_nil P

theorem hd_num {P : Str → Prop} (h : ∀ n, P (natStr n)) (o : Option Nat) : HD P (param [] (o.map natStr)) := by
  cases o with
  | some v => exact hd_cons (h v) []
  | none => exact hd_nil P

theorem not_num {x : Char} {kw : Str} (hx : isDigit x = false) (n : Nat) : Not (x :: kw) (natStr n) := by
  have hd := digits_nat n
  refine ⟨⟨hd.1, fun c hc => digit_not_space (hd.2 c hc)⟩, ?_⟩
  intro h
  obtain ⟨y, w, hw⟩ := List.exists_cons_of_ne_nil hd.1
  rw [hw, List.cons_prefix_cons] at h
  have := hd.2 y (by rw [hw]; simp)
  rw [← h.1, hx] at this
  cases this

instance (kw w : Str) : Decidable (Not kw w) := by unfold Not IsWord; infer_instance

theorem route_hit (n : Nat) {R : Route} (h : R.Ok) : Hit n (seqs routeL) R.line [] ([], caps R) := by
  have e : R.line = "ip".toList ++ tl ("route".toList :: (param ["vrf"] R.vrf ++ (R.pfx :: R.mask ::
      (param [] R.intf ++ (param [] R.addr ++ R.tail))))) := by
    rw [Route.line, Route.words]
    exact join_tl _ _
  have hr : IsWord "route".toList := by decide
  have qp := quad_word h.pfx
  rw [e, routeL]
  refine hit_append (q := (tl (param ["vrf"] R.vrf ++ (R.pfx :: R.mask :: (param [] R.intf ++ (param [] R.addr ++ R.tail)))), []))
    (hit_prog n (by decide) ?_) ?_
  · rw [det_str, if_pos (List.prefix_append _ _), List.drop_left, tl_cons, blank_word _ hr, det_str,
      if_pos (List.prefix_append _ _), List.drop_left]
    rfl
  have hpv : Not "vrf".toList R.pfx := by
    obtain ⟨hw, x, w, hx, hd⟩ := qp
    refine ⟨hw, fun hp => ?_⟩
    rw [hx] at hp
    have := (List.cons_prefix_cons.mp (show 'v' :: ['r', 'f'] <+: x :: w from hp)).1
    rw [← this] at hd
    exact absurd hd (by decide)
  refine hit_cons (step_key n (kw := "vrf") (by decide) 1 (by decide) (by decide) R.vrf
    (fun v hv => ⟨h.vrf v hv, fun x hx => by simp [K.has, (h.vrf v hv).2 x hx]⟩) (hd_cons hpv _) _) ?_
  refine hit_append (hit_prog n rfl (addrP_hit h.pfx 2 _ _)) ?_
  refine hit_append (hit_prog n rfl (addrP_hit h.mask 3 _ _)) ?_
  refine hit_cons (step_intf n 4 R.intf h.intf ?_ _) ?_
  · intro hi
    rcases h.hop with h1 | h1
    · exact absurd hi h1
    · cases ha : R.addr with
      | none => exact absurd ha h1
      | some a =>
        obtain ⟨_, x, w, rfl, hd⟩ := quad_word (h.addr a ha)
        exact ⟨x, w, _, rfl, hd⟩
  have nd : ∀ {x : Char} {w : Str}, isSpace x = false → isDigit x = false → NoDigit (x :: w) :=
    fun h1 h2 => ⟨_, _, rfl, h1, h2⟩
  have P := fun {P : Str → Prop} {a b : List Str} => @hd_append P a b
  refine hit_cons (step_addr n 5 R.addr h.addr ?_ _) ?_
  · unfold Route.tail
    refine P (hd_keyword (Or.inl (nd (by decide) (by decide))) _) (P (hd_keyword (Or.inl (nd (by decide) (by decide))) _)
      (P (hd_num (fun n => Or.inr (digits_nat n)) _) (P (hd_keyword (Or.inl (nd (by decide) (by decide))) _)
        (P (hd_param (Or.inl (nd (by decide) (by decide))) _) (P (hd_keyword (Or.inl (nd (by decide) (by decide))) _)
          (P (hd_param (Or.inl (nd (by decide) (by decide))) _) (hd_param (Or.inl (nd (by decide) (by decide))) _)))))))
  refine hit_cons (step_word n (kw := "dhcp") (by decide) 6 (by decide) R.dhcp ?_ _) ?_
  · refine (P (hd_keyword (by decide) _) (P (hd_num (not_num (by decide)) _) (P (hd_keyword (by decide) _) (P (hd_param (by decide) _)
      (P (hd_keyword (by decide) _) (P (hd_param (by decide) _) (hd_param (by decide) _)))))))
  refine hit_cons (step_word n (kw := "global") (by decide) 7 (by decide) R.global ?_ _) ?_
  · refine ((P (hd_num (not_num (by decide)) _) (P (hd_keyword (by decide) _) (P (hd_param (by decide) _)
      (P (hd_keyword (by decide) _) (P (hd_param (by decide) _) (hd_param (by decide) _)))))))
  refine hit_cons (step_num n 8 R.distance ?_ _) ?_
  · refine (P (hd_keyword (nd (by decide) (by decide)) _) (P (hd_param (nd (by decide) (by decide)) _)
      (P (hd_keyword (nd (by decide) (by decide)) _) (P (hd_param (nd (by decide) (by decide)) _) (hd_param (nd (by decide) (by decide)) _)))))
  refine hit_cons (step_word n (kw := "multicast") (by decide) 9 (by decide) R.multicast ?_ _) ?_
  · refine (P (hd_param (by decide) _) (P (hd_keyword (by decide) _) (P (hd_param (by decide) _) (hd_param (by decide) _))))
  refine hit_cons (step_key n (kw := "name") (by decide) 10 (by decide) (by decide) R.name
    (fun v hv => ⟨h.name v hv, fun x hx => by simp [K.has, (h.name v hv).2 x hx]⟩) ?_ _) ?_
  · refine (P (hd_keyword (by decide) _) (P (hd_param (by decide) _) (hd_param (by decide) _)))
  refine hit_cons (step_word n (kw := "permanent") (by decide) 11 (by decide) R.permanent ?_ _) ?_
  · refine (P (hd_param (by decide) _) (hd_param (by decide) _))
  have num : ∀ (o : Option Nat) v, o.map natStr = some v → IsWord v ∧ ∀ x ∈ v, K.digit.has x = true := by
    intro o v hv
    cases o with
    | none => cases hv
    | some m =>
      cases hv
      have hd := digits_nat m
      exact ⟨⟨hd.1, fun c hc => digit_not_space (hd.2 c hc)⟩, hd.2⟩
  refine hit_cons (step_key n (kw := "track") (by decide) 12 (by decide) (by decide) _ (num _) (hd_param (by decide) _) _) ?_
  refine hit_cons (l := []) (q := ([], caps R)) ?_ (hit_nil _ _ _)
  have := step_key n (kw := "tag") (by decide) 13 (k := .digit) (by decide) (by decide) _ (num R.tag) (hd_nil _)
    (cap 12 (R.track.map natStr) (cap 11 (kwd "permanent" R.permanent) (cap 10 R.name
    (cap 9 (kwd "multicast" R.multicast) (cap 8 (R.distance.map natStr) (cap 7 (kwd "global" R.global)
      (cap 6 (kwd "dhcp" R.dhcp) (cap 5 R.addr (cap 4 R.intf ((3, R.mask) :: (2, R.pfx) :: cap 1 R.vrf []))))))))))
  rw [List.append_nil] at this
  exact this

theorem route_compile : compileL reIpRoute { verbose := true } = .ok ⟨seqs (.bol :: routeL), 13, routeNames⟩ := by
  have := compile_route
  cases h : compileL reIpRoute { verbose := true } with
  | error e => rw [h] at this; cases this
  | ok p => rw [h] at this; cases this; rfl

theorem not_v6 {R : Route} : isV6 R.line = false := by
  rw [Route.line, Route.words]
  rw [show wd ["ip", "route"] ++ (param ["vrf"] R.vrf ++ (R.pfx :: R.mask :: (param [] R.intf ++ (param [] R.addr ++ R.tail))))
    = "ip".toList :: "route".toList :: (param ["vrf"] R.vrf ++ (R.pfx :: R.mask :: (param [] R.intf ++ (param [] R.addr ++ R.tail))))
    from rfl, join_tl, tl_cons]
  rfl

theorem route_info {R : Route} (h : R.Ok) :
    routeInfo R.line = .ok (routeNames.map (fun q => (q.1, (caps R).lookup q.2))) := by
  rw [routeInfo, not_v6, if_neg (by simp), route_compile]
  simp only [search_hit (route_hit R.line.length h)]
  rfl

/-- The captured text of each group. -/
theorem caps_get (R : Route) :
    (caps R).lookup 1 = R.vrf ∧ (caps R).lookup 2 = some R.pfx ∧ (caps R).lookup 3 = some R.mask ∧
    (caps R).lookup 4 = R.intf ∧ (caps R).lookup 5 = R.addr ∧ (caps R).lookup 6 = kwd "dhcp" R.dhcp ∧
    (caps R).lookup 7 = kwd "global" R.global ∧ (caps R).lookup 8 = R.distance.map natStr ∧
    (caps R).lookup 9 = kwd "multicast" R.multicast ∧ (caps R).lookup 10 = R.name ∧
    (caps R).lookup 11 = kwd "permanent" R.permanent ∧ (caps R).lookup 12 = R.track.map natStr ∧
    (caps R).lookup 13 = R.tag.map natStr := by
  have ne : ∀ {g k : Nat} (o : Option Str) (c : Caps), (k == g) = false → (cap g o c).lookup k = c.lookup k := by
    intro g k o c h
    cases o with
    | none => rfl
    | some v => rw [cap, List.lookup_cons, h]
  have self : ∀ {g : Nat} (o : Option Str) (c : Caps), c.lookup g = none → (cap g o c).lookup g = o := by
    intro g o c h
    cases o with
    | none => exact h
    | some v => simp [cap]
  have ne' : ∀ {g k : Nat} (v : Str) (c : Caps), (k == g) = false → ((g, v) :: c : Caps).lookup k = c.lookup k := by
    intro g k v c h
    rw [List.lookup_cons, h]
  have self' : ∀ {g : Nat} (v : Str) (c : Caps), ((g, v) :: c : Caps).lookup g = some v := by
    intro g v c
    simp
  unfold caps
  refine ⟨?_, ?_, ?_, ?_, ?_, ?_, ?_, ?_, ?_, ?_, ?_, ?_, ?_⟩
  all_goals
    repeat rw [ne _ _ (by decide)]
    repeat rw [ne' _ _ (by decide)]
    repeat rw [ne _ _ (by decide)]
    first
      | exact self' _ _
      | refine self _ _ ?_
        repeat rw [ne _ _ (by decide)]
        repeat rw [ne' _ _ (by decide)]
        repeat rw [ne _ _ (by decide)]
        rfl

theorem get_eq {t : Str} {c : Caps} (h : routeInfo t = .ok (routeNames.map (fun q => (q.1, c.lookup q.2)))) {key : String}
    {g : Nat} (hk : (routeNames.map (fun q => (q.1, c.lookup q.2))).lookup key.toList = some (c.lookup g)) :
    routeGet t key = .ok (c.lookup g) := by
  rw [routeGet, h]
  show (match (routeNames.map (fun q => (q.1, c.lookup q.2))).lookup key.toList with
    | some v => .ok v
    | none => .error .keyError : Except Err (Option Str)) = _
  rw [hk]

theorem str_eq {t : Str} {key : String} {o : Option Str} (h : routeGet t key = .ok o) : routeStr t key = .ok (o.getD []) := by
  rw [routeStr, h]; rfl

theorem kwd_true (kw : String) (hk : kw.toList ≠ []) (b : Bool) : (!((kwd kw b).getD []).isEmpty) = b := by
  cases b with
  | false => rfl
  | true =>
    rw [show (kwd kw true).getD [] = kw.toList from rfl]
    cases h : kw.toList with
    | nil => exact absurd h hk
    | cons x w => rfl

/-- C79: the attributes of a static route are what the command says, for every combination of
the optional parameters. -/
theorem C79_route {R : Route} (h : R.Ok) :
    routeVrf R.line = .ok (R.vrf.getD []) ∧
    routeNetwork R.line = .ok R.pfx ∧
    routeNetmask R.line = .ok R.mask ∧
    routeNextHopInterface R.line = .ok (R.intf.getD []) ∧
    routeNextHopAddr R.line = .ok (R.addr.getD []) ∧
    routeGlobalNextHop R.line = .ok (R.vrf.isNone || R.global) ∧
    routeAdminDistance R.line = .ok ((R.distance.getD 1 : Nat) : Int) ∧
    routeMulticast R.line = .ok R.multicast ∧
    routeName R.line = .ok (R.name.getD []) ∧
    routePermanent R.line = .ok R.permanent ∧
    routeTrack R.line = .ok ((R.track.map natStr).getD []) ∧
    routeTag R.line = .ok ((R.tag.map natStr).getD []) := by
  obtain ⟨c1, c2, c3, c4, c5, c6, c7, c8, c9, c10, c11, c12, c13⟩ := caps_get R
  have hi := route_info h
  have nv : isV6 R.line = false := not_v6
  have g : ∀ (key : String) (k : Nat), (routeNames.map (fun q => (q.1, (caps R).lookup q.2))).lookup key.toList =
      some ((caps R).lookup k) → routeGet R.line key = .ok ((caps R).lookup k) := fun key k hk => get_eq hi hk
  have hv := str_eq ((g "vrf" 1 rfl).trans (by rw [c1]))
  refine ⟨hv, ?_, (str_eq ((g "netmask" 3 rfl).trans (by rw [c3])) : routeStr R.line "netmask" = .ok ((some R.mask).getD [])), str_eq ((g "nh_intf" 4 rfl).trans (by rw [c4])), ?_, ?_, ?_, ?_,
    str_eq ((g "name" 10 rfl).trans (by rw [c10])), ?_, str_eq ((g "track" 12 rfl).trans (by rw [c12])),
    str_eq ((g "tag" 13 rfl).trans (by rw [c13]))⟩
  · rw [routeNetwork, nv]
    exact str_eq ((g "prefix" 2 rfl).trans (by rw [c2]))
  · rw [routeNextHopAddr, nv]
    exact str_eq ((g "nh_addr" 5 rfl).trans (by rw [c5]))
  · rw [routeGlobalNextHop, nv, routeVrf, hv]
    show (if (!(R.vrf.getD []).isEmpty) = true then _ else _) = _
    cases hvv : R.vrf with
    | none => rfl
    | some v =>
      have hne := (h.vrf v hvv).1
      rw [if_pos (by cases v with
        | nil => exact absurd rfl hne
        | cons x w => rfl), str_eq ((g "global" 7 rfl).trans (by rw [c7]))]
      show Except.ok (!((kwd "global" R.global).getD []).isEmpty) = _
      rw [kwd_true _ (by decide)]
      rfl
  · rw [routeAdminDistance, (g "ad" 8 rfl).trans (by rw [c8])]
    cases R.distance with
    | none => rfl
    | some d =>
      show (if (natStr d).isEmpty = true then Except.ok 1 else pyInt (natStr d)) = _
      rw [if_neg (by
        have := natStr_ne_nil d
        cases hd : natStr d with
        | nil => exact absurd hd this
        | cons x w => simp), pyInt_natStr]
      rfl
  · rw [routeMulticast, str_eq ((g "mcast" 9 rfl).trans (by rw [c9]))]
    show Except.ok (!((kwd "multicast" R.multicast).getD []).isEmpty) = _
    rw [kwd_true _ (by decide)]
  · rw [routePermanent, nv, str_eq ((g "permanent" 11 rfl).trans (by rw [c11]))]
    show Except.ok (!((kwd "permanent" R.permanent).getD []).isEmpty) = _
    rw [kwd_true _ (by decide)]

/-- C79: `network_object` and `masklen` of a route to the network `N`. -/
theorem C79_network {R : Route} (h : R.Ok) {N : IP.V4} (hN : N.Regular) (hp : R.pfx = IP.dotted N.ip)
    (hm : R.mask = N.netmaskStr) :
    routeNetworkObject R.line = .ok (some N) ∧ routeMasklen R.line = .ok N.plen := by
  obtain ⟨_, h1, h2, _⟩ := C79_route h
  have e : routeNetworkObject R.line = .ok (some N) := by
    rw [routeNetworkObject, h1, h2, hp, hm]
    show (match IP.V4.ofStr (IP.dotted N.ip ++ '/' :: N.netmaskStr) with
      | .ok o => .ok (some o)
      | .error _ => .ok none : Except Err (Option IP.V4)) = _
    rw [(IP.C06_mask_notations N hN).2.1]
  refine ⟨e, ?_⟩
  rw [routeMasklen, e]
  rfl

/-- C81: `nexthop_str`, where the next hop has an address. -/
theorem C81_nexthop_partial {R : Route} (h : R.Ok) {a : Str} (ha : R.addr = some a) :
    routeNexthopStr R.line = .ok (join [' '] (param [] R.intf ++ [a])) := by
  obtain ⟨_, _, _, h1, h2, _⟩ := C79_route h
  have nv : isV6 R.line = false := not_v6
  rw [routeNexthopStr, nv, h1, h2, ha]
  cases hi : R.intf with
  | none => rfl
  | some v =>
    have hne := (h.intf v hi).1.1
    show (if v.isEmpty = true then _ else _) = _
    rw [if_neg (by cases v with
      | nil => exact absurd rfl hne
      | cons x w => simp)]
    simp [param, wd, join]

theorem line_eq (R : Route) : ∃ ws, R.line = "ip".toList ++ tl ("route".toList :: ws) ∧ ws ≠ [] := by
  refine ⟨param ["vrf"] R.vrf ++ (R.pfx :: R.mask :: (param [] R.intf ++ (param [] R.addr ++ R.tail))), ?_, by simp⟩
  rw [Route.line, Route.words]
  exact join_tl _ _

theorem quad_is_word {v : Str} (h : DottedQuad v) : IsWord v := (quad_word h).1

theorem param_words {kw : List String} (hk : ∀ w ∈ wd kw, IsWord w) {o : Option Str} (ho : ∀ v, o = some v → IsWord v) :
    ∀ w ∈ param kw o, IsWord w := by
  cases o with
  | none => simp [param]
  | some v =>
    intro w hw
    rcases List.mem_append.mp hw with h | h
    · exact hk w h
    · rw [List.mem_singleton.mp h]; exact ho v rfl

theorem keyword_words {kw : String} (hk : IsWord kw.toList) (b : Bool) : ∀ w ∈ keyword kw b, IsWord w := by
  cases b with
  | false => simp [keyword]
  | true => intro w hw; rw [show w = kw.toList by simpa [keyword] using hw]; exact hk

theorem route_words {R : Route} (h : R.Ok) : ∀ w ∈ R.words, IsWord w := by
  have num : ∀ (o : Option Nat) v, o.map natStr = some v → IsWord v := by
    intro o v hv
    cases o with
    | none => cases hv
    | some m =>
      cases hv
      have hd := digits_nat m
      exact ⟨hd.1, fun c hc => digit_not_space (hd.2 c hc)⟩
  have app : ∀ {a b : List Str}, (∀ w ∈ a, IsWord w) → (∀ w ∈ b, IsWord w) → ∀ w ∈ a ++ b, IsWord w := by
    intro a b ha hb w hw
    rcases List.mem_append.mp hw with h | h
    · exact ha w h
    · exact hb w h
  have cons : ∀ {a : Str} {b : List Str}, IsWord a → (∀ w ∈ b, IsWord w) → ∀ w ∈ a :: b, IsWord w := by
    intro a b ha hb w hw
    rcases List.mem_cons.mp hw with rfl | h
    · exact ha
    · exact hb w h
  rw [Route.words, Route.tail]
  exact app (by decide) (app (param_words (by decide) h.vrf) (cons (quad_is_word h.pfx) (cons (quad_is_word h.mask)
    (app (param_words (by decide) (fun v hv => (h.intf v hv).1)) (app (param_words (by decide) (fun v hv => quad_is_word (h.addr v hv)))
      (app (keyword_words (by decide) _) (app (keyword_words (by decide) _) (app (param_words (by decide) (num _))
        (app (keyword_words (by decide) _) (app (param_words (by decide) h.name) (app (keyword_words (by decide) _)
          (app (param_words (by decide) (num _)) (param_words (by decide) (num _))))))))))))))

/-- C79: the line of a static route gives a route object. -/
theorem C79_class {R : Route} (h : R.Ok) : lineFactory R.line = .ok .route := by
  have hr : rstrip R.line = R.line := rstrip_of_last (Diff.join_last (route_words h))
  have hk : Kind R.line .route := by
    obtain ⟨ws, hl, hne⟩ := line_eq R
    left
    rw [hl]
    cases ws with
    | nil => exact absurd rfl hne
    | cons w ws => exact ⟨w ++ tl ws, rfl⟩
  rw [lineFactory, first_of_kind hk (by decide), construct, lineText, hr, route_info h]
  rfl

/-! ## Not vacuous -/

/-- `ip route vrf RED 10.0.0.0 255.0.0.0 Gi0/1 192.0.2.1 global 200 name backup track 7 tag 99`. -/
def exRoute : Route :=
  ⟨some "RED".toList, "10.0.0.0".toList, "255.0.0.0".toList, some "Gi0/1".toList, some "192.0.2.1".toList, false, true,
    some 200, false, some "backup".toList, false, some 7, some 99⟩

theorem quad_of {a b c d : Nat} {v : Str} (h : v = natStr a ++ '.' :: natStr b ++ '.' :: natStr c ++ '.' :: natStr d) :
    DottedQuad v := by
  refine ⟨_, _, _, _, h, ?_⟩
  intro s hs
  simp only [List.mem_cons, List.not_mem_nil, or_false] at hs
  rcases hs with rfl | rfl | rfl | rfl <;> exact digits_nat _

theorem exRoute_ok : exRoute.Ok where
  vrf := by intro v hv; cases hv; decide
  pfx := quad_of (a := 10) (b := 0) (c := 0) (d := 0) (by decide)
  mask := quad_of (a := 255) (b := 0) (c := 0) (d := 0) (by decide)
  intf := by intro v hv; cases hv; exact ⟨by decide, by decide, by intro c hc; cases hc; decide⟩
  addr := by intro v hv; cases hv; exact quad_of (a := 192) (b := 0) (c := 2) (d := 1) (by decide)
  hop := Or.inl (by simp [exRoute])
  name := by intro v hv; cases hv; decide

example : exRoute.line =
    "ip route vrf RED 10.0.0.0 255.0.0.0 Gi0/1 192.0.2.1 global 200 name backup track 7 tag 99".toList := by decide +kernel

example : routeAdminDistance exRoute.line = .ok 200 ∧ routeName exRoute.line = .ok "backup".toList :=
  ⟨(C79_route exRoute_ok).2.2.2.2.2.2.1, (C79_route exRoute_ok).2.2.2.2.2.2.2.2.1⟩

/-! ## Where it fails -/

/-- C81: `nexthop_str` of a route over an interface ends with a blank. -/
theorem C81_nexthop_fails :
    routeNexthopStr "ip route 10.0.0.0 255.0.0.0 Null0".toList = .ok "Null0 ".toList := by decide +kernel

/-- C81: the keyword dhcp without an interface is read as the interface; so is the address
behind two blanks, together with a blank. -/
theorem C81_interface_fails :
    routeNextHopInterface "ip route 0.0.0.0 0.0.0.0 dhcp".toList = .ok "dhcp".toList ∧
    routeNextHopInterface "ip route 10.0.0.0 255.0.0.0  10.1.1.1 200".toList = .ok " 10.1.1.1".toList ∧
    routeNextHopAddr "ip route 10.0.0.0 255.0.0.0  10.1.1.1 200".toList = .ok [] ∧
    routeAdminDistance "ip route 10.0.0.0 255.0.0.0  10.1.1.1 200".toList = .ok 200 := by decide +kernel

/-- C81: parameters in another order than the expected one are lost. -/
theorem C81_order_fails :
    routeTag "ip route 10.0.0.0 255.0.0.0 10.1.1.1 tag 5 name lab".toList = .ok "5".toList ∧
    routeName "ip route 10.0.0.0 255.0.0.0 10.1.1.1 tag 5 name lab".toList = .ok [] := by decide +kernel

/-- C81: the IPv6 route of a VRF has no network, and its `nexthop_str` is the network. -/
theorem C81_ipv6_fails :
    routeNetwork "ipv6 route vrf RED 2001:db8::/32 2001:db8::1".toList = .ok [] ∧
    routeNexthopStr "ipv6 route vrf RED 2001:db8::/32 2001:db8::1".toList = .ok "2001:db8::/32".toList ∧
    routeNextHopAddr "ipv6 route vrf RED 2001:db8::/32 2001:db8::1".toList = .ok "2001:db8::1".toList ∧
    routeNetwork "ipv6 route 2001:db8::/32 2001:db8::1".toList = .ok "2001:db8::".toList := by decide +kernel

end Cisco

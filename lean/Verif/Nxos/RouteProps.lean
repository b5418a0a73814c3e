import Verif.Nxos.Lines
import Verif.Cisco.RouteProps

/-! # Static routes of NXOS (C155, C156) -/

namespace Nxos.Lines

namespace Spec

open Py Cisco.Spec

/-- A static IPv4 route, as NXOS writes it:
`ip route PREFIX/LENGTH [INTERFACE] [ADDRESS] [track N] [name NAME] [tag N] [DISTANCE]`. -/
structure Route where
  pfx : Str
  len : Nat
  intf : Option Str
  addr : Option Str
  track : Option Nat
  name : Option Str
  tag : Option Nat
  distance : Option Nat

/-- The words behind the next hop. -/
def Route.tail (R : Route) : List Str :=
  param ["track"] (R.track.map natStr) ++ (param ["name"] R.name ++ (param ["tag"] (R.tag.map natStr) ++
    param [] (R.distance.map natStr)))

/-- The words of the command. -/
def Route.words (R : Route) : List Str :=
  wd ["ip", "route"] ++ ((R.pfx ++ '/' :: natStr R.len) :: (param [] R.intf ++ (param [] R.addr ++ R.tail)))

/-- The line. -/
def Route.line (R : Route) : Str := join [' '] R.words

/-- The parameters are what they should be: words, addresses; an interface name has two
characters or more and does not begin with a digit; the next hop is an interface, an address
or both. -/
structure Route.Ok (R : Route) : Prop where
  pfx : DottedQuad R.pfx
  intf : ∀ v, R.intf = some v → IsWord v ∧ 2 ≤ v.length ∧ ∀ c, v.head? = some c → isDigit c = false
  addr : ∀ v, R.addr = some v → DottedQuad v
  hop : R.intf ≠ none ∨ R.addr ≠ none
  name : ∀ v, R.name = some v → IsWord v

end Spec

open Py Conf Query Re Cisco Spec Cisco.Spec

/-- The network and its length. -/
def netP : Prog := .plus .space (.grp 1 quadP (.chr '/' (.grp 2 (.plus .digit .done) .done)))

/-- The expression behind `^`. -/
def routeL : List Rgx :=
  (str "ip".toList (.plus .space (str "route".toList netP))).toL ++
  [optL (intfL 3), optL (addrP 4).toL, optL (keyP "track".toList 5 .digit).toL, optL (keyP "name".toList 6 .nonspace).toL,
    optL (keyP "tag".toList 7 .digit).toL, optL (numP 8).toL]

/-- The names of its groups. -/
def routeNames : List (Str × Nat) :=
  [("prefix".toList, 1), ("masklen".toList, 2), ("nh_intf".toList, 3), ("nh_addr".toList, 4), ("track_group".toList, 5),
    ("name".toList, 6), ("tag".toList, 7), ("ad".toList, 8)]

theorem compile_route : (compileL reIpRoute { verbose := true }).toOption = some ⟨seqs (.bol :: routeL), 8, routeNames⟩ := by
  decide +kernel

theorem route_compile : compileL reIpRoute { verbose := true } = .ok ⟨seqs (.bol :: routeL), 8, routeNames⟩ := by
  have := compile_route
  cases h : compileL reIpRoute { verbose := true } with
  | error e => rw [h] at this; cases this
  | ok p => rw [h] at this; cases this; rfl

theorem quadP_open {v : Str} (hv : DottedQuad v) {r : Str} (hr : ∀ x, r.head? = some x → isDigit x = false) (c : Caps) :
    quadP.det (v ++ r) c = some (r, c) := by
  obtain ⟨a, b, d, e, rfl, h⟩ := hv
  have hdot : ∀ s : Str, ∀ x, ('.' :: s).head? = some x → isDigit x = false := by
    intro s x hx; cases hx; decide
  have one : ∀ (p : Prog) (s : Str), (Prog.chr '.' p).det ('.' :: s) c = p.det s c := by
    intro p s; rw [Prog.det]; simp [K.has]
  rw [quadP, show a ++ '.' :: b ++ '.' :: d ++ '.' :: e ++ r = a ++ ('.' :: (b ++ ('.' :: (d ++ ('.' :: (e ++ r)))))) by simp,
    det_digits _ (h a (by simp)) (hdot _), one, det_digits _ (h b (by simp)) (hdot _), one,
    det_digits _ (h d (by simp)) (hdot _), one, det_digits _ (h e (by simp)) hr]
  rfl

theorem netP_hit {v : Str} (hv : DottedQuad v) (n : Nat) (ws : List Str) (c : Caps) :
    netP.det (tl ((v ++ '/' :: natStr n) :: ws)) c = some (tl ws, (2, natStr n) :: (1, v) :: c) := by
  have hw := (Cisco.quad_word hv).1
  rw [tl_cons, netP, List.append_assoc, blank_word _ hw, Prog.det,
    quadP_open hv (r := '/' :: (natStr n) ++ tl ws) (by intro x hx; cases hx; decide)]
  have hd := Cisco.digits_nat n
  have := det_grp_word 2 (k := .digit) (by decide) hd.2 hd.1 (tl_stop ws) ((1, v) :: c)
  dsimp only
  rw [show (v ++ ('/' :: natStr n ++ tl ws)).take ((v ++ ('/' :: natStr n ++ tl ws)).length - ('/' :: natStr n ++ tl ws).length) = v by simp]
  rw [List.cons_append, Prog.det]
  simpa [K.has] using this

/-- The captures of a route. -/
def caps (R : Spec.Route) : Caps :=
  cap 8 (R.distance.map natStr) (cap 7 (R.tag.map natStr) (cap 6 R.name (cap 5 (R.track.map natStr) (cap 4 R.addr
    (cap 3 R.intf ((2, natStr R.len) :: (1, R.pfx) :: []))))))

theorem route_hit (n : Nat) {R : Spec.Route} (h : R.Ok) : Hit n (seqs routeL) R.line [] ([], caps R) := by
  have e : R.line = "ip".toList ++ tl ("route".toList :: ((R.pfx ++ '/' :: natStr R.len) ::
      (param [] R.intf ++ (param [] R.addr ++ R.tail)))) := by
    rw [Spec.Route.line, Spec.Route.words]
    exact join_tl _ _
  have hr : IsWord "route".toList := by decide
  rw [e, routeL]
  refine hit_append (q := (tl (param [] R.intf ++ (param [] R.addr ++ R.tail)), [(2, natStr R.len), (1, R.pfx)]))
    (hit_prog n (by decide) ?_) ?_
  · rw [det_str, if_pos (List.prefix_append _ _), List.drop_left, tl_cons, blank_word _ hr, det_str,
      if_pos (List.prefix_append _ _), List.drop_left]
    exact netP_hit h.pfx _ _ _
  refine hit_cons (step_intf n 3 R.intf h.intf ?_ _) ?_
  · intro hi
    rcases h.hop with h1 | h1
    · exact absurd hi h1
    · cases ha : R.addr with
      | none => exact absurd ha h1
      | some a =>
        obtain ⟨_, x, w, rfl, hd⟩ := Cisco.quad_word (h.addr a ha)
        exact ⟨x, w, _, rfl, hd⟩
  have nd : ∀ {x : Char} {w : Str}, isSpace x = false → isDigit x = false → NoDigit (x :: w) :=
    fun h1 h2 => ⟨_, _, rfl, h1, h2⟩
  have P := fun {P : Str → Prop} {a b : List Str} => @hd_append P a b
  refine hit_cons (step_addr n 4 R.addr h.addr ?_ _) ?_
  · unfold Spec.Route.tail
    refine P (hd_param (Or.inl (nd (by decide) (by decide))) _) (P (hd_param (Or.inl (nd (by decide) (by decide))) _)
      (P (hd_param (Or.inl (nd (by decide) (by decide))) _) (hd_num (fun n => Or.inr (Cisco.digits_nat n)) _)))
  have num : ∀ (o : Option Nat) v, o.map natStr = some v → IsWord v ∧ ∀ x ∈ v, K.digit.has x = true := by
    intro o v hv
    cases o with
    | none => cases hv
    | some m =>
      cases hv
      have hd := Cisco.digits_nat m
      exact ⟨⟨hd.1, fun c hc => digit_not_space (hd.2 c hc)⟩, hd.2⟩
  refine hit_cons (step_key n (kw := "track") (by decide) 5 (by decide) (by decide) _ (num _)
    (P (hd_param (by decide) _) (P (hd_param (by decide) _) (hd_num (not_num (by decide)) _))) _) ?_
  refine hit_cons (step_key n (kw := "name") (by decide) 6 (by decide) (by decide) R.name
    (fun v hv => ⟨h.name v hv, fun x hx => by simp [K.has, (h.name v hv).2 x hx]⟩)
    (P (hd_param (by decide) _) (hd_num (not_num (by decide)) _)) _) ?_
  refine hit_cons (step_key n (kw := "tag") (by decide) 7 (by decide) (by decide) _ (num _) (hd_num (not_num (by decide)) _) _) ?_
  refine hit_cons (l := []) (q := ([], caps R)) ?_ (hit_nil _ _ _)
  have := step_num n 8 R.distance (hd_nil _)
    (cap 7 (R.tag.map natStr) (cap 6 R.name (cap 5 (R.track.map natStr) (cap 4 R.addr
      (cap 3 R.intf ((2, natStr R.len) :: (1, R.pfx) :: []))))))
  rw [List.append_nil] at this
  exact this

theorem not_v6 {R : Spec.Route} : isV6 R.line = false := by
  rw [Spec.Route.line, Spec.Route.words]
  rw [show wd ["ip", "route"] ++ ((R.pfx ++ '/' :: natStr R.len) :: (param [] R.intf ++ (param [] R.addr ++ R.tail)))
    = "ip".toList :: "route".toList :: ((R.pfx ++ '/' :: natStr R.len) :: (param [] R.intf ++ (param [] R.addr ++ R.tail)))
    from rfl, join_tl, tl_cons]
  rfl

theorem route_info {R : Spec.Route} (h : R.Ok) :
    routeInfo R.line = .ok (routeNames.map (fun q => (q.1, (caps R).lookup q.2))) := by
  rw [routeInfo, not_v6, if_neg (by simp), route_compile]
  simp only [search_hit (route_hit R.line.length h)]
  rfl

/-- The captured text of each group. -/
theorem caps_get (R : Spec.Route) :
    (caps R).lookup 1 = some R.pfx ∧ (caps R).lookup 2 = some (natStr R.len) ∧ (caps R).lookup 3 = R.intf ∧
    (caps R).lookup 4 = R.addr ∧ (caps R).lookup 5 = R.track.map natStr ∧ (caps R).lookup 6 = R.name ∧
    (caps R).lookup 7 = R.tag.map natStr ∧ (caps R).lookup 8 = R.distance.map natStr := by
  have ne : ∀ {g k : Nat} (o : Option Str) (c : Caps), (k == g) = false → (cap g o c).lookup k = c.lookup k := by
    intro g k o c h
    cases o with
    | none => rfl
    | some v => rw [cap, List.lookup_cons, h]
  have self : ∀ {g : Nat} (o : Option Str) (c : Caps), c.lookup g = none → (cap g o c).lookup g = o := by
    intro g o c h
    cases o with
    | none => exact h
    | some v => simp [cap]
  unfold caps
  refine ⟨?_, ?_, ?_, ?_, ?_, ?_, ?_, ?_⟩
  all_goals
    repeat rw [ne _ _ (by decide)]
    first
      | rfl
      | refine self _ _ ?_
        repeat rw [ne _ _ (by decide)]
        rfl

theorem get_eq {t : Str} {c : Caps} (h : routeInfo t = .ok (routeNames.map (fun q => (q.1, c.lookup q.2)))) {key : String}
    {g : Nat} (hk : (routeNames.map (fun q => (q.1, c.lookup q.2))).lookup key.toList = some (c.lookup g)) :
    routeGet t key = .ok (c.lookup g) := by
  rw [routeGet, h]
  show (match (routeNames.map (fun q => (q.1, c.lookup q.2))).lookup key.toList with
    | some v => .ok v
    | none => .error .keyError : Except Err (Option Str)) = _
  rw [hk]

theorem str_eq {t : Str} {key : String} {o : Option Str} (h : routeGet t key = .ok o) : routeStr t key = .ok (o.getD []) := by
  rw [routeStr, h]; rfl

/-- C155: the attributes of a static route are what the command says, for every combination of
the optional parameters. -/
theorem C155_route {R : Spec.Route} (h : R.Ok) :
    routeNetwork R.line = .ok R.pfx ∧
    routeMasklen R.line = .ok (natStr R.len) ∧
    routeNextHopInterface R.line = .ok (R.intf.getD []) ∧
    routeNextHopAddr R.line = .ok (R.addr.getD []) ∧
    routeTrack R.line = .ok (R.track.map natStr) ∧
    routeName R.line = .ok (R.name.getD []) ∧
    routeTag R.line = .ok ((R.tag.map natStr).getD []) ∧
    routeAdminDistance R.line = .ok (natStr (R.distance.getD 1)) := by
  obtain ⟨c1, c2, c3, c4, c5, c6, c7, c8⟩ := caps_get R
  have hi := route_info h
  have nv : isV6 R.line = false := not_v6
  have g : ∀ (key : String) (k : Nat), (routeNames.map (fun q => (q.1, (caps R).lookup q.2))).lookup key.toList =
      some ((caps R).lookup k) → routeGet R.line key = .ok ((caps R).lookup k) := fun key k hk => get_eq hi hk
  refine ⟨?_, (str_eq ((g "masklen" 2 rfl).trans (by rw [c2])) : routeStr R.line "masklen" = .ok ((some (natStr R.len)).getD [])),
    str_eq ((g "nh_intf" 3 rfl).trans (by rw [c3])), ?_, (g "track_group" 5 rfl).trans (by rw [c5]), ?_,
    str_eq ((g "tag" 7 rfl).trans (by rw [c7])), ?_⟩
  · rw [routeNetwork, nv]
    exact str_eq ((g "prefix" 1 rfl).trans (by rw [c1]))
  · rw [routeNextHopAddr, nv]
    exact str_eq ((g "nh_addr" 4 rfl).trans (by rw [c4]))
  · rw [routeName, nv]
    exact str_eq ((g "name" 6 rfl).trans (by rw [c6]))
  · rw [routeAdminDistance, (g "ad" 8 rfl).trans (by rw [c8])]
    cases R.distance with
    | none => rfl
    | some d => rfl

/-- C155: `network_object` and `netmask` of a route to the network `N`. -/
theorem C155_network {R : Spec.Route} (h : R.Ok) {N : IP.V4} (hN : N.Regular) (hp : R.pfx = IP.dotted N.ip)
    (hm : R.len = N.plen) : routeNetworkObject R.line = .ok (some N) ∧ routeNetmask R.line = .ok N.netmaskStr := by
  obtain ⟨h1, h2, _⟩ := C155_route h
  have e : routeNetworkObject R.line = .ok (some N) := by
    rw [routeNetworkObject, h1, h2, hp, hm]
    show (match IP.V4.ofStr (IP.dotted N.ip ++ '/' :: natStr N.plen) with
      | .ok o => .ok (some o)
      | .error _ => .ok none : Except Err (Option IP.V4)) = _
    rw [show IP.V4.ofStr (IP.dotted N.ip ++ '/' :: natStr N.plen) = .ok N from IP.C06_cidr_roundtrip N hN]
  refine ⟨e, ?_⟩
  rw [routeNetmask, e]
  rfl

/-- C156: `nexthop_str` and `routeinfo`, where the next hop has an address. -/
theorem C156_nexthop_partial {R : Spec.Route} (h : R.Ok) {a : Str} (ha : R.addr = some a) :
    routeNexthopStr R.line = .ok (join [' '] (param [] R.intf ++ [a])) ∧
    routeText R.line = .ok (join [' '] (param [] R.intf ++ [a] ++ wd ["AD:"] ++ [natStr (R.distance.getD 1)] ++
      param ["Track:"] (R.track.map natStr))) := by
  obtain ⟨_, _, h1, h2, h3, _, _, h4⟩ := C155_route h
  have nv : isV6 R.line = false := not_v6
  have e : routeNexthopStr R.line = .ok (join [' '] (param [] R.intf ++ [a])) := by
    rw [routeNexthopStr, nv, h1, h2, ha]
    cases hi : R.intf with
    | none => rfl
    | some v =>
      have hne := (h.intf v hi).1.1
      show (if v.isEmpty = true then _ else _) = _
      rw [if_neg (by cases v with
        | nil => exact absurd rfl hne
        | cons x w => simp)]
      simp [param, wd, join]
  refine ⟨e, ?_⟩
  rw [routeText, h3, e, h4]
  have hj : ∀ (a b : List Str), a ≠ [] → b ≠ [] → join [' '] (a ++ b) = join [' '] a ++ ' ' :: join [' '] b := by
    intro a b ha hb
    obtain ⟨x, a, rfl⟩ := List.exists_cons_of_ne_nil ha
    obtain ⟨y, b, rfl⟩ := List.exists_cons_of_ne_nil hb
    rw [List.cons_append, join_tl, join_tl, join_tl, tl_append, tl_cons, List.append_assoc]
  have e1 := hj (param [] R.intf ++ [a]) (wd ["AD:"] ++ [natStr (R.distance.getD 1)] ++ param ["Track:"] (R.track.map natStr))
    (by simp) (by simp [wd])
  rw [show param [] R.intf ++ [a] ++ wd ["AD:"] ++ [natStr (R.distance.getD 1)] ++ param ["Track:"] (R.track.map natStr) =
    param [] R.intf ++ [a] ++ (wd ["AD:"] ++ [natStr (R.distance.getD 1)] ++ param ["Track:"] (R.track.map natStr)) by simp, e1]
  generalize join [' '] (param [] R.intf ++ [a]) = nh
  cases ht : R.track with
  | none =>
    show (Except.ok (nh ++ " AD: ".toList ++ natStr (R.distance.getD 1)) : Except Err Str) = _
    simp [param, wd, join]
  | some k =>
    show (if (natStr k).isEmpty = true then _ else _) = _
    rw [if_neg (by
      have := natStr_ne_nil k
      cases hd : natStr k with
      | nil => exact absurd hd this
      | cons x w => simp)]
    show (Except.ok (nh ++ " AD: ".toList ++ natStr (R.distance.getD 1) ++ " Track: ".toList ++ natStr k) : Except Err Str) = _
    simp [param, wd, join]

/-! ## Not vacuous -/

/-- `ip route 10.0.0.0/8 Ethernet1/1 192.0.2.1 track 7 name backup tag 99 200`. -/
def exRoute : Spec.Route :=
  ⟨"10.0.0.0".toList, 8, some "Ethernet1/1".toList, some "192.0.2.1".toList, some 7, some "backup".toList, some 99, some 200⟩

theorem exRoute_ok : exRoute.Ok where
  pfx := quad_of (a := 10) (b := 0) (c := 0) (d := 0) (by decide)
  intf := by intro v hv; cases hv; exact ⟨by decide, by decide, by intro c hc; cases hc; decide⟩
  addr := by intro v hv; cases hv; exact quad_of (a := 192) (b := 0) (c := 2) (d := 1) (by decide)
  hop := Or.inl (fun h => by cases h)
  name := by intro v hv; cases hv; decide

example : exRoute.line = "ip route 10.0.0.0/8 Ethernet1/1 192.0.2.1 track 7 name backup tag 99 200".toList := by decide +kernel

example : routeTrack exRoute.line = .ok (some "7".toList) ∧ routeAdminDistance exRoute.line = .ok "200".toList := by
  obtain ⟨-, -, -, -, h1, -, -, h2⟩ := C155_route exRoute_ok
  rw [h1, h2]
  decide +kernel

example : routeText exRoute.line = .ok "Ethernet1/1 192.0.2.1 AD: 200 Track: 7".toList := by
  rw [(C156_nexthop_partial exRoute_ok (a := "192.0.2.1".toList) rfl).2]
  decide +kernel

/-! ## Where it fails -/

/-- C156: `nexthop_str` of every route over an interface alone ends with a blank. -/
theorem C156_nexthop_fails {R : Spec.Route} (h : R.Ok) {v : Str} (hi : R.intf = some v) (ha : R.addr = none) :
    routeNexthopStr R.line = .ok (v ++ [' ']) := by
  obtain ⟨_, _, h1, h2, _⟩ := C155_route h
  have nv : isV6 R.line = false := not_v6
  rw [routeNexthopStr, nv, h1, h2, ha, hi]
  have hne := (h.intf v hi).1.1
  show (if v.isEmpty = true then _ else _) = _
  rw [if_neg (by cases v with
    | nil => exact absurd rfl hne
    | cons x w => simp)]
  rfl

theorem v6_names : (match compileL reIpv6Route { verbose := true } with
    | .ok p => p.names.lookup "track_group".toList
    | .error _ => some 0) = none := by decide +kernel

theorem lookup_names (names : List (Str × Nat)) (f : Nat → Option Str) (key : Str) (h : names.lookup key = none) :
    (names.map (fun q => (q.1, f q.2))).lookup key = none := by
  induction names with
  | nil => rfl
  | cons q l ih =>
    rw [List.lookup_cons] at h
    rw [List.map_cons, List.lookup_cons]
    cases hq : key == q.1 with
    | true => rw [hq] at h; cases h
    | false => rw [hq] at h; exact ih h

/-- C156: an IPv6 route has no `tracking_object_name`, no `routeinfo` and no `route_name`: KeyError
and NotImplementedError, for every IPv6 route that can be read. -/
theorem C156_ipv6_fails {t : Str} (h6 : "ipv6".toList <+: t) {d} (h : routeInfo t = .ok d) :
    routeTrack t = .error .keyError ∧ routeText t = .error .keyError ∧ routeName t = .error .notImplemented := by
  have v : isV6 t = true := by
    obtain ⟨r, rfl⟩ := h6
    rfl
  have e : routeTrack t = .error .keyError := by
    rw [routeTrack, routeGet, h]
    rw [routeInfo, v, if_pos rfl] at h
    have hn := v6_names
    cases hc : compileL reIpv6Route { verbose := true } with
    | error e => rw [hc] at h; cases h
    | ok p =>
      rw [hc] at h hn
      dsimp only at h hn
      cases hs : search p t with
      | none => rw [hs] at h; cases h
      | some m =>
        rw [hs] at h
        cases h
        show (match (m.groupdict p).lookup "track_group".toList with
          | some v => .ok v
          | none => .error .keyError : Except Err (Option Str)) = _
        rw [show (m.groupdict p).lookup "track_group".toList = none from lookup_names _ (fun k => m.caps.lookup k) _ hn]
  refine ⟨e, ?_, ?_⟩
  · rw [routeText, e]; rfl
  · rw [routeName, v]; rfl

example : (routeInfo "ipv6 route 2001:db8::/32 2001:db8::1".toList).toOption.isSome = true := by decide +kernel

/-- C156: the address behind two blanks is read as an interface; parameters in another order than
the expected one are lost. -/
theorem C156_text_fails :
    routeNextHopInterface "ip route 10.0.0.0/8  10.1.1.1 200".toList = .ok " 10.1.1.1".toList ∧
    routeNextHopAddr "ip route 10.0.0.0/8  10.1.1.1 200".toList = .ok [] ∧
    routeTag "ip route 10.0.0.0/8 10.1.1.1 200 tag 5".toList = .ok [] ∧
    routeAdminDistance "ip route 10.0.0.0/8 10.1.1.1 200 tag 5".toList = .ok "200".toList := by decide +kernel

end Nxos.Lines
